import Verif.Model.Outcome
import Mathlib.Algebra.Field.Rat
import Mathlib.Algebra.Order.Ring.Rat
import Mathlib.Algebra.Order.Group.Abs
/-!
# Domains and cells (MEQ/src/Domain.cc, Domain.h, Cells.cc, Cells.h)

A domain gives a range for some of the axes; cells divide each axis of a domain into cells with a centre and a size.
Coordinates are rational numbers: rounding, infinities and not-a-number are left out.  The records that mirror these
objects, domain ids and the axis map are left out too.
-/
namespace Verif.CellGrid

/-- `Axis::MaxAxis` (Axis.h:46). -/
def maxAxis : Nat := 8

/-! ## Domains -/

/-- A domain: the range of each defined axis (Domain.h:139-140; `range_` of an undefined axis is 0, 0). -/
structure Dom where
  axis : Nat → Option (ℚ × ℚ)

/-- A new domain (Domain.cc:38-43). -/
def Dom.empty : Dom := ⟨fun _ => none⟩

/-- `start`, `end` (Domain.h:73-83). -/
def Dom.range (d : Dom) (i : Nat) : ℚ × ℚ := (d.axis i).getD (0, 0)

/-- `isDefined` (Domain.h:85-89). -/
def Dom.isDefined (d : Dom) (i : Nat) : Bool := (d.axis i).isSome

/-- `defineAxis` (Domain.cc:63-85). -/
def defineAxis (d : Dom) (i : Nat) (a1 a2 : ℚ) : Res Dom :=
  if maxAxis ≤ i then .err
  else
    let r := if a1 = a2 then (a1 - 1 / 1000000, a2) else if a2 < a1 then (a2, a1) else (a1, a2)
    .ok ⟨fun k => if k = i then some r else d.axis k⟩

/-- `supersetOfProj` (Domain.cc:184-194). -/
def supersetOfProj (d o : Dom) : Bool :=
  (List.range maxAxis).all fun i =>
    !(d.isDefined i && (!o.isDefined i || decide ((d.range i).1 > (o.range i).1) || decide ((d.range i).2 < (o.range i).2)))

/-- One turn of `envelope` (Domain.cc:206-214). -/
def envelopeStep (a b : Dom) (i : Nat) (out : Dom) : Res Dom :=
  if a.isDefined i then
    (if b.isDefined i then defineAxis out i (min (a.range i).1 (b.range i).1) (max (a.range i).2 (b.range i).2)
     else defineAxis out i (a.range i).1 (a.range i).2)
  else if b.isDefined i then defineAxis out i (b.range i).1 (b.range i).2
  else .ok out

/-- A loop over axes. -/
def loop {σ} (f : Nat → σ → Res σ) : List Nat → σ → Res σ
  | [], s => .ok s
  | i :: l, s => (f i s).bind (loop f l)

/-- `envelope` (Domain.cc:196-217). -/
def envelope (a b : Dom) : Res Dom := loop (envelopeStep a b) (List.range maxAxis) .empty

/-- One turn of `expandToEnvelope` (Domain.cc:226-240). -/
def expandStep (o : Dom) (i : Nat) (d : Dom) : Res Dom :=
  if o.isDefined i then
    (if d.isDefined i then
      (let x1 := min (d.range i).1 (o.range i).1
       let x2 := max (d.range i).2 (o.range i).2
       if x1 ≠ (d.range i).1 ∨ x2 ≠ (d.range i).2 then defineAxis d i x1 x2 else .ok d)
     else defineAxis d i (o.range i).1 (o.range i).2)
  else .ok d

/-- `expandToEnvelope` (Domain.cc:219-242). -/
def expandToEnvelope (d o : Dom) : Res Dom := loop (expandStep o) (List.range maxAxis) d

/-- `operator ==` (Domain.h:96-99): compares the ranges only, here without the difference between the two zeros. -/
def Dom.eq (a b : Dom) : Bool := (List.range maxAxis).all fun i => decide (a.range i = b.range i)

/-! ## Segments -/

/-- State of the loop in `recomputeSegments`: segments finished, current one, last step, first size, whether the current
segment has a step, previous centre. -/
structure SegState where
  done : List (Int × Int)
  start : Nat
  stop : Nat
  dx0 : ℚ
  h0 : ℚ
  inSegment : Bool
  prev : ℚ

/-- The loop of `recomputeSegments` (Cells.cc:345-364) over the cells from the second one on. -/
def segLoop (eps : ℚ) : List (ℚ × ℚ) → Nat → SegState → List (Int × Int)
  | [], _, s => s.done ++ [((s.start : Int), (s.stop : Int))]
  | (x, h) :: l, i, s =>
    let dx := x - s.prev
    if (s.inSegment ∧ eps < |dx - s.dx0|) ∨ eps < |h - s.h0| then
      segLoop eps l (i + 1) { s with done := s.done ++ [((s.start : Int), (s.stop : Int))], start := i, stop := i,
                                     inSegment := false, h0 := h, prev := x }
    else segLoop eps l (i + 1) { s with dx0 := dx, stop := i, inSegment := true, prev := x }

/-- The tolerance (Cells.cc:337). -/
def epsilon (x : List ℚ) : ℚ := |x.headD 0 - x.getLastD 0| * (1 / 10000000000)

/-- `recomputeSegments` (Cells.cc:318-370): first and last cell of each segment.  Centres and sizes are vectors of the same
length. -/
def segments (x h : List ℚ) : List (Int × Int) :=
  if x.length < 2 then [(0, (x.length : Int) - 1)]
  else segLoop (epsilon x) (x.zip h).tail 1 ⟨[], 0, 0, 0, h.headD 0, false, x.headD 0⟩

/-! ## Cells -/

/-- Cells along one axis. -/
structure Grid where
  x : List ℚ
  h : List ℚ
  seg : List (Int × Int)
  deriving DecidableEq

/-- Cells: a domain, unless empty, and what is along each axis up to the rank (Cells.h:265-272).  An axis without cells is
`none`; its extent in the shape is 1. -/
structure Cells where
  dom : Option Dom
  axes : List (Option Grid)

/-- Cells along an axis. -/
def Cells.axis (c : Cells) (i : Nat) : Option Grid := (c.axes.getD i none)

/-- `ncells` (Cells.h:111-112). -/
def Cells.ncells (c : Cells) (i : Nat) : Nat := match c.axis i with | none => 0 | some g => g.x.length

/-- `center`, `cellSize` (Cells.h:120-127): empty vectors without cells. -/
def Cells.center (c : Cells) (i : Nat) : List ℚ := match c.axis i with | none => [] | some g => g.x

@[inherit_doc Cells.center]
def Cells.cellSize (c : Cells) (i : Nat) : List ℚ := match c.axis i with | none => [] | some g => g.h

/-- `rank` (Cells.h:132-133). -/
def Cells.rank (c : Cells) : Nat := c.axes.length

/-- `shape` (Cells.h:129-130, as set in Cells.cc:230). -/
def Cells.shape (c : Cells) : List Nat := c.axes.map fun g => match g with | none => 1 | some g => g.x.length

/-- `setAxisShape`, `setNumCells` (Cells.cc:215-253) with the vectors that are then filled in: axes below the new one that
do not exist yet have no cells.  A vector of length 0 leaves the axis without cells. -/
def setAxis (l : List (Option Grid)) (i : Nat) (g : Option Grid) : List (Option Grid) :=
  (l ++ List.replicate (i + 1 - l.length) none).set i g

/-- A grid, unless it has no cells. -/
def mkGrid (x h : List ℚ) (seg : List (Int × Int)) : Option Grid := if x.length = 0 then none else some ⟨x, h, seg⟩

/-- `setCells` from centres and sizes (Cells.cc:255-265). -/
def setCells (c : Cells) (i : Nat) (x h : List ℚ) : Res Cells :=
  if x.length ≠ h.length then .err
  else if maxAxis ≤ i then .err
  else .ok { c with axes := setAxis c.axes i (mkGrid x h (segments x h)) }

/-- `setCells` of a regular grid (Cells.cc:278-290).  Division by zero is left out: with no cells nothing is computed. -/
def setRegular (c : Cells) (i : Nat) (x0 x1 : ℚ) (num : Nat) (size : ℚ) : Res Cells :=
  if maxAxis ≤ i then .err
  else
    let step := (x1 - x0) / num
    .ok { c with axes := setAxis c.axes i (mkGrid ((List.range num).map fun k : Nat => x0 + step / 2 + step * k)
            (List.replicate num (if size < 0 then step else size)) [(0, (num : Int) - 1)]) }

/-- `recomputeDomain` (Cells.cc:373-391). -/
def recomputeDomain (c : Cells) : Res Cells :=
  (loop (fun i d => match c.axis i with
      | none => .ok d
      | some g => defineAxis d i (g.x.headD 0 - g.h.headD 0 / 2) (g.x.getLastD 0 + g.h.getLastD 0 / 2))
    (List.range maxAxis) .empty).bind fun d => .ok { c with dom := some d }

/-- `getCellStartEnd` (Cells.cc:465-476). -/
def startEnd (g : Grid) : List (ℚ × ℚ) := List.zipWith (fun x h => (x - h / 2, x + h / 2)) g.x g.h

/-! ## Changing the resolution -/

/-- Operations (Cells.h:45-50). -/
inductive Op where
  | none
  | setNCells
  | integrate
  | upsample
  deriving DecidableEq, Repr

/-- Integration (Cells.cc:176-187).  All indices used are below `np1 * arg ≤ np`. -/
def integrate (x h : List ℚ) (arg : Nat) : List ℚ × List ℚ :=
  let cell := fun i1 : Nat =>
    let a := x.getD (i1 * arg) 0 - h.getD (i1 * arg) 0 / 2
    let b := x.getD (i1 * arg + arg - 1) 0 + h.getD (i1 * arg + arg - 1) 0 / 2
    ((a + b) / 2, b - a)
  let l := (List.range (x.length / arg)).map cell
  (l.map (·.1), l.map (·.2))

/-- The inner loop of upsampling (Cells.cc:201-205): centres from `x1` on. -/
def subcells (sz : ℚ) : Nat → ℚ → List ℚ
  | 0, _ => []
  | n + 1, x1 => x1 :: subcells sz n (x1 + sz)

/-- Upsampling (Cells.cc:190-206). -/
def upsample (x h : List ℚ) (arg : Nat) : List ℚ × List ℚ :=
  let cells := fun p : ℚ × ℚ =>
    let a := p.1 - p.2 / 2
    let b := p.1 + p.2 / 2
    let sz := (b - a) / arg
    (subcells sz arg (a + sz / 2)).map fun c => (c, sz)
  let l := (x.zip h).flatMap cells
  (l.map (·.1), l.map (·.2))

/-- One axis of the resampling constructor (Cells.cc:146-208).  Negative arguments are left out; a zero divisor is
undefined. -/
def resampleGrid (op : Op) (arg : Nat) (g : Grid) : Res (Option Grid) :=
  let np := g.x.length
  let integ := fun n : Nat => if n = 0 then .ub
    else (let r := integrate g.x g.h n; .ok (mkGrid r.1 r.2 (segments r.1 r.2)) : Res (Option Grid))
  let up := fun n : Nat => let r := upsample g.x g.h n; (.ok (mkGrid r.1 r.2 (segments r.1 r.2)) : Res (Option Grid))
  match op with
  | .none => .ok (some g)
  | .integrate => integ arg
  | .upsample => up arg
  | .setNCells =>
    if arg = np then .ok (some g)
    else if np < arg then (if arg % np ≠ 0 then .err else up (arg / np))
    else if arg = 0 then .ub
    else if np % arg ≠ 0 then .err
    else integ (np / arg)

/-- The resampling constructor (Cells.cc:132-213): the loop is over all axes there can be. -/
def resample (c : Cells) (ops : Nat → Op) (args : Nat → Nat) : Res Cells :=
  match c.dom with
  | none => .err
  | some d =>
    (loop (fun i l => match c.axis i with
        | none => .ok (setAxis l i none)
        | some g => (resampleGrid (ops i) (args i) g).bind fun g' => .ok (setAxis l i g'))
      (List.range maxAxis) (c.axes.map fun _ => none)).bind fun l => .ok ⟨some d, l⟩

/-! ## Comparing -/

/-- `compare` (Cells.cc:539-553). -/
def compare (a b : Cells) : Int :=
  match a.dom with
  | none => if b.dom.isNone then 1 else 0
  | some d =>
    match b.dom with
    | none => -1
    | some e => if !d.eq e then -1 else if a.shape ≠ b.shape then 1 else 0

/-- Comparing vectors element by element: undefined for vectors of different lengths. -/
def anyDiffers (x y : List ℚ) : Res Bool := if x.length ≠ y.length then .ub else .ok (decide (x ≠ y))

/-- The loop of `operator ==` (Cells.cc:563-566). -/
def eqLoop (a b : Cells) : List Nat → Res Bool
  | [] => .ok true
  | i :: l =>
    (anyDiffers (a.center i) (b.center i)).bind fun d1 =>
      if d1 then .ok false
      else (anyDiffers (a.cellSize i) (b.cellSize i)).bind fun d2 => if d2 then .ok false else eqLoop a b l

/-- `operator ==` (Cells.cc:556-569). -/
def Cells.eq (a b : Cells) : Res Bool := if compare a b ≠ 0 then .ok false else eqLoop a b (List.range maxAxis)

/-! ## Combining -/

/-- What the loop of `superset` finds out (Cells.cc:490-514): `none` for a mismatch, else whether each is a superset. -/
def supersetLoop (a b : Cells) (da db : Dom) : List Nat → Bool → Bool → Option (Bool × Bool)
  | [], asup, bsup => some (asup, bsup)
  | i :: l, asup, bsup =>
    if a.ncells i ≠ 0 then
      (if b.ncells i ≠ 0 then
        (if a.ncells i ≠ b.ncells i ∨ (da.range i).1 ≠ (db.range i).1 ∨ (da.range i).2 ≠ (db.range i).2 then none
         else supersetLoop a b da db l asup bsup)
       else supersetLoop a b da db l asup false)
    else if b.ncells i ≠ 0 then supersetLoop a b da db l false bsup
    else supersetLoop a b da db l asup bsup

/-- `superset` (Cells.cc:478-536): `none` for an invalid ref. -/
def superset (a b : Cells) : Res (Option Cells) :=
  match a.dom with
  | none => .ok (some b)
  | some da =>
    match b.dom with
    | none => .ok (some a)
    | some db =>
      match supersetLoop a b da db (List.range (min a.rank b.rank)) true true with
      | none => .ok none
      | some (asup, bsup) =>
        if asup ∧ b.rank ≤ a.rank then .ok (some a)
        else if bsup ∧ a.rank ≤ b.rank then .ok (some b)
        else
          (loop (fun i c =>
              if (a.axis i).isSome then setCells c i (a.center i) (a.cellSize i)
              else if (b.axis i).isSome then setCells c i (b.center i) (b.cellSize i)
              else .ok c)
            (List.range (max a.rank b.rank)) ⟨none, []⟩).bind fun c => (recomputeDomain c).bind fun c => .ok (some c)

end Verif.CellGrid
