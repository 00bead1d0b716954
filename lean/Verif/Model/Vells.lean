import Verif.Model.Outcome
/-!
# Arrays with collapsed axes (MEQ/src/Axis.h, Vells.h, Vells.cc)

A shape is a list of extents, slowest axis first; axes past its end have extent 1.  An array is a shape and its
elements in row-major order.  Element types are arbitrary: the lookup tables that choose an implementation by type are
left out, as is the limit on the number of axes.  Pointers are offsets into an operand's storage; reading outside the
storage is undefined behaviour.
-/
namespace Verif.Vells

/-! ## Shapes -/

/-- `Vells::extent` (Vells.h:340-344). -/
def ext (s : List Nat) (i : Nat) : Nat := s.getD i 1

/-- The loop of `mergeShape` (Axis.h:198-205). -/
def mergeLoop : List Nat → List Nat → Option (List Nat)
  | s, [] => some s
  | [], _ :: _ => none
  | a :: s, b :: t =>
    if b ≠ 1 then
      (if a = 1 then (mergeLoop s t).map (b :: ·) else if a ≠ b then none else (mergeLoop s t).map (a :: ·))
    else (mergeLoop s t).map (a :: ·)

/-- `Axis::mergeShape` (Axis.h:194-207): `none` if it returns false. -/
def mergeShape (s t : List Nat) : Option (List Nat) :=
  mergeLoop (if s.length < t.length then s ++ List.replicate (t.length - s.length) 1 else s) t

/-- `Vells::isCompatible` (Vells.h:368-377). -/
def isCompatible : List Nat → List Nat → Bool
  | [], _ => true
  | _ :: _, [] => true
  | a :: s, b :: t => !(decide (a ≠ 1) && decide (a ≠ b)) && isCompatible s t

/-- The loop of `isCongruent` (Vells.h:391-394). -/
def congLoop : List Nat → List Nat → Bool
  | a :: s, b :: t => !(decide (a ≠ b) && decide (1 < a) && decide (1 < b)) && congLoop s t
  | _, _ => true

/-- `Vells::isCongruent` (Vells.h:387-395). -/
def isCongruent (s t : List Nat) : Bool := decide (s.length = t.length) && congLoop s t

/-! ## Strides -/

/-- The extents of a shape from the last axis of rank `r` to the first (Vells.cc:390-396). -/
def axes (r : Nat) (s : List Nat) : List Nat := ((List.range r).map (ext s)).reverse

/-- Strides of one operand (Vells.cc:407-409 with `normalAxis`, `degenerateAxis`, 324-348), fastest axis first. -/
def strideLoop : List Nat → Int → Bool → List Int
  | [], _, _ => []
  | n :: l, tot, deg =>
    if 1 < n then (if deg then tot else 0) :: strideLoop l (tot * n) false
    else (if deg then 0 else -tot) :: strideLoop l (tot * n) true

/-- Output extent of one axis (Vells.cc:392-406): `none` for the exception. -/
def axisOut : List Nat → Nat → Option Nat
  | [], sz0 => some sz0
  | sz :: l, sz0 => if 1 < sz then (if sz0 = 1 then axisOut l sz else if sz ≠ sz0 then none else axisOut l sz0) else axisOut l sz0

/-- Rank of the output (Vells.cc:374-376). -/
def outRank (shapes : List (List Nat)) : Nat := shapes.foldl (fun r s => max r s.length) 0

/-- Output shape: each axis in turn, from the last (Vells.cc:387-411). -/
def outShape (shapes : List (List Nat)) : Nat → Option (List Nat)
  | 0 => some []
  | i + 1 =>
    match axisOut (shapes.map fun s => ext s i) 1 with
    | none => none
    | some n => (outShape shapes i).map (· ++ [n])

/-- `computeStrides` (Vells.cc:370-413): output shape and the strides of each operand.  The loop over operands inside the
loop over axes is taken apart: only the exception depends on all operands. -/
def computeStrides (shapes : List (List Nat)) : Option (List Nat × List (List Int)) :=
  (outShape shapes (outRank shapes)).map fun out =>
    (out, shapes.map fun s => strideLoop (axes (outRank shapes) s) 1 true)

/-! ## Iteration -/

/-- `DimCounter::incr` (Vells.h:750-761), fastest axis first: the new counter, and the number of axes incremented, 0 at the
end. -/
def incr : List Nat → List Nat → List Nat × Nat
  | n :: sh, c :: cs =>
    if n ≤ c + 1 then
      let r := incr sh cs
      (0 :: r.1, if r.2 = 0 then 0 else r.2 + 1)
    else ((c + 1) :: cs, 1)
  | _, cs => (cs, 0)

/-- `ConstStridedIterator::incr` (Vells.h:675-679). -/
def advance (p : Int) (strides : List Int) (ndim : Nat) : Int := p + (strides.take ndim).sum

/-- The loop common to all element-wise operations (e.g. Vells.cc:946-953): the offsets of all operands at each turn.
`none` if it does not end within `fuel` turns. -/
def visits (sh : List Nat) (strides : List (List Int)) : Nat → List Nat → List Int → Option (List (List Int))
  | 0, _, _ => none
  | fuel + 1, cs, ps =>
    let r := incr sh cs
    if r.2 = 0 then some [ps]
    else (visits sh strides fuel r.1 (List.zipWith (fun p st => advance p st r.2) ps strides)).map (ps :: ·)

/-- Elements in a shape. -/
def size (s : List Nat) : Nat := s.foldr (· * ·) 1

/-- The loop started by `DimCounter counter(shape)` (Vells.h:709-722) with all operands at their beginning.  The fuel is
one turn per element of the output. -/
def sweep (out : List Nat) (strides : List (List Int)) : Option (List (List Int)) :=
  visits out.reverse strides (size out) (out.map fun _ => 0) (strides.map fun _ => 0)

/-- An array. -/
structure Arr (α : Type) where
  shape : List Nat
  data : List α
  deriving DecidableEq, Repr

/-- Reading through a pointer. -/
def read {α} (l : List α) (p : Int) : Res α :=
  if p < 0 then .ub else match l[p.toNat]? with | some a => .ok a | none => .ub

/-- Run a body for each turn and collect what it writes. -/
def collect {β} (f : List Int → Res β) : List (List Int) → Res (List β)
  | [] => .ok []
  | ps :: l => (f ps).bind fun y => (collect f l).bind fun r => .ok (y :: r)

/-- Result of the loop: writing one element per turn.  Not ending is reported as undefined. -/
def collectAll {β} (f : List Int → Res β) : Option (List (List Int)) → Res (List β)
  | none => .ub
  | some vs => collect f vs

/-- One element of a binary operation. -/
def binBody {α β γ} (f : α → β → γ) (a : List α) (b : List β) (ps : List Int) : Res γ :=
  (read a (ps.getD 0 0)).bind fun x => (read b (ps.getD 1 0)).bind fun y => .ok (f x y)

/-- A binary operation (Vells.cc:421-440,934-956). -/
def binop {α β γ} (f : α → β → γ) (a : Arr α) (b : Arr β) : Res (Arr γ) :=
  match computeStrides [a.shape, b.shape] with
  | none => .err
  | some (out, st) =>
    if size a.shape = 1 ∧ size b.shape = 1 then (binBody f a.data b.data [0, 0]).bind fun y => .ok ⟨out, [y]⟩
    else (collectAll (binBody f a.data b.data) (sweep out st)).bind fun d => .ok ⟨out, d⟩

/-! ## In-place operations -/

/-- Outcome of the check in `canApplyInPlace`. -/
inductive InPlace where
  | no
  | fail
  | yes (strides : List Int)
  deriving DecidableEq, Repr

/-- The loop of `canApplyInPlace` (Vells.cc:454-469), fastest axis first. -/
def inPlaceLoop : List Nat → List Nat → Int → Bool → InPlace
  | n :: l, m :: l', tot, deg =>
    if m = 1 then
      (match inPlaceLoop l l' (tot * m) true with | .yes st => .yes ((if deg then 0 else -tot) :: st) | o => o)
    else if n = m then
      (match inPlaceLoop l l' (tot * m) false with | .yes st => .yes ((if deg then tot else 0) :: st) | o => o)
    else if n = 1 then .no
    else .fail
  | _, _, _, _ => .yes []

/-- `canApplyInPlace` (Vells.cc:446-472), types left out. -/
def canApplyInPlace (y x : List Nat) : InPlace :=
  if y.length < x.length then .no else inPlaceLoop (axes y.length y) (axes y.length x) 1 true

/-- Put the number of the turn, the offset of a pointer moving by one (`py++`), before the other offsets. -/
def number : Int → List (List Int) → List (List Int)
  | _, [] => []
  | k, ps :: l => (k :: ps) :: number (k + 1) l

/-- The in-place loop (Vells.cc:1071-1091): `y` is read and written element by element, `x` through its strides.
Elements of `y` the loop does not reach stay. -/
def inPlaceRun {α β} (f : α → β → α) (y : Arr α) (x : Arr β) (st : List Int) : Res (Arr α) :=
  if size y.shape = 1 ∧ size x.shape = 1 then (binBody f y.data x.data [0, 0]).bind fun v => .ok ⟨y.shape, [v]⟩
  else (collectAll (binBody f y.data x.data) ((sweep y.shape [st]).map (number 0))).bind
    fun d => .ok ⟨y.shape, d ++ y.data.drop d.length⟩

/-- `y OP= x` (Vells.h:950-957). -/
def inPlace {α β} (f : α → β → α) (y : Arr α) (x : Arr β) : Res (Arr α) :=
  match canApplyInPlace y.shape x.shape with
  | .fail => .err
  | .yes st => inPlaceRun f y x st
  | .no => binop f y x

/-! ## Sum and product of arrays with shortcuts -/

/-- `isNull`, `isUnity` (Vells.h:313-321) for value `v`. -/
def isConst {α} [DecidableEq α] (a : Arr α) (v : α) : Bool := decide (size a.shape = 1) && decide (a.data.head? = some v)

/-- `operator +` (Vells.h:914-924). -/
def add {α} [DecidableEq α] [Add α] [Zero α] (a b : Arr α) : Res (Arr α) :=
  if isConst a 0 then .ok b else if isConst b 0 then .ok a else binop (· + ·) a b

/-- `operator *` (Vells.h:926-938). -/
def mul {α} [DecidableEq α] [Mul α] [Zero α] [One α] (a b : Arr α) : Res (Arr α) :=
  if isConst a 0 || isConst b 0 then .ok ⟨[1], [0]⟩
  else if isConst a 1 then .ok b
  else if isConst b 1 then .ok a
  else binop (· * ·) a b

/-! ## Flags -/

/-- `replaceFlaggedValues` (Vells.h:505-528); `hit` tells whether a flag has bits in the mask. -/
def replaceFlagged {α φ} (hit : φ → Bool) (v : α) (y : Arr α) (fl : Arr φ) : Res (Arr α) :=
  match computeStrides [y.shape, fl.shape] with
  | none => .err
  | some (out, st) =>
    if y.shape ≠ out then .err
    else (collectAll (binBody (fun x f => if hit f then v else x) y.data fl.data)
      ((sweep out [st.getD 1 []]).map (number 0))).bind fun d => .ok ⟨out, d ++ y.data.drop d.length⟩

/-- One element of a binary function with flags (Vells.cc:1157-1160). -/
def wfBody {α φ} (hit : φ → Bool) (f : α → α → α) (a b : List α) (fa fb : List φ) (ps : List Int) : Res α :=
  (read fa (ps.getD 2 0)).bind fun x => (read fb (ps.getD 3 0)).bind fun y =>
    if hit x then (if hit y then read a (ps.getD 0 0) else read b (ps.getD 1 0))
    else if hit y then read a (ps.getD 0 0)
    else (read a (ps.getD 0 0)).bind fun u => (read b (ps.getD 1 0)).bind fun v => .ok (f u v)

/-- `min`, `max` of two flagged arrays (Vells.cc:1141-1177; shapes as set up by the constructor, 434-440). -/
def binopWF {α φ} (hit : φ → Bool) (f : α → α → α) (a b : Arr α) (fa fb : Arr φ) : Res (Arr α) :=
  match computeStrides [a.shape, b.shape, fa.shape, fb.shape] with
  | none => .err
  | some (out, st) => (collectAll (wfBody hit f a.data b.data fa.data fb.data) (sweep out st)).bind fun d => .ok ⟨out, d⟩

end Verif.Vells
