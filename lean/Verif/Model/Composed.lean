import Mathlib.Data.Rat.Defs
import Mathlib.Algebra.Order.Ring.Rat
import Mathlib.Algebra.Order.Ring.Abs
/-!
# Tiled parameters and composed funklets

(MeqNodes/src/Parm.cc:251-365, MEQ/src/ComposedPolc.cc, .h.)  Grids and domains have the two axes time and frequency (0 and 1); grids
define both.  Further axes are left out.  Numbers are rationals.  A funklet is its domain, its coefficients (of some type, with their
number and whether there is more than one along an axis) and the value it has at a point; perturbed values are left out.
-/
namespace Verif.Composed

/-- A cell of a grid along an axis: its start, centre and end (MEQ/src/Cells.h: `cellStart`, `center`, `cellEnd`). -/
structure Cell where
  lo : ℚ
  mid : ℚ
  hi : ℚ
  deriving DecidableEq, Repr

/-- A domain (MEQ/src/Domain.h): the range of each axis, `none` if not defined. -/
structure Dom where
  x : Option (ℚ × ℚ)
  y : Option (ℚ × ℚ)
  deriving DecidableEq, Repr

/-- A funklet: domain, whether there is more than one coefficient along time (`sx`) and frequency (`sy`), number of coefficients,
the first coefficient, and the value at a point (of the polynomial, before looking at the domain). -/
structure Fk where
  dom : Dom
  sx : Bool
  sy : Bool
  n : Nat
  c0 : ℚ
  v : ℚ → ℚ → ℚ

/-- `Parm::GetTiledDomains` for time (Parm.cc:257-284); `t` is the tile size. -/
def tileX (t : Int) (g : List Cell) (ds : List Dom) : List Dom :=
  if t ≤ 0 then ds
  else if g.length = 0 then ds
  else
    let t := t.toNat
    let n := g.length
    ds.flatMap fun d => (List.range ((n + t - 1) / t)).map fun i =>
      { d with x := some ((g.getD (i * t) ⟨0, 0, 0⟩).lo, (g.getD (min (n - 1) ((i + 1) * t - 1)) ⟨0, 0, 0⟩).hi) }

/-- The same for frequency. -/
def tileY (t : Int) (g : List Cell) (ds : List Dom) : List Dom :=
  if t ≤ 0 then ds
  else if g.length = 0 then ds
  else
    let t := t.toNat
    let n := g.length
    ds.flatMap fun d => (List.range ((n + t - 1) / t)).map fun i =>
      { d with y := some ((g.getD (i * t) ⟨0, 0, 0⟩).lo, (g.getD (min (n - 1) ((i + 1) * t - 1)) ⟨0, 0, 0⟩).hi) }

/-- `Parm::GetTiledDomains` (Parm.cc:251-285). -/
def tiledDomains (tx ty : Int) (gx gy : List Cell) (d : Dom) : List Dom := tileY ty gy (tileX tx gx [d])

/-- The tolerance of comparisons. -/
def eps : ℚ := 1 / 10 ^ 16

/-- One axis of `compareDomain`: `some b` if it decides (ComposedPolc.h:133-140). -/
def cmpStart (a b : Option (ℚ × ℚ)) : Option Bool :=
  match a, b with
  | some p, some q => if eps < |p.1 - q.1| then some (decide (p.1 < q.1)) else none
  | _, _ => none

/-- One axis of the second loop (ComposedPolc.h:143-146). -/
def cmpEnd (a b : Option (ℚ × ℚ)) : Option Bool :=
  match a, b with
  | some p, some q => if eps < |p.2 - q.2| then some (decide (p.2 < q.2)) else none
  | _, _ => none

/-- `compareDomain` (ComposedPolc.h:129-151).  (Two references to the same funklet are equal in all that is compared.) -/
def compareDomain (f g : Fk) : Bool :=
  match cmpStart f.dom.x g.dom.x with
  | some b => b
  | none => match cmpStart f.dom.y g.dom.y with
    | some b => b
    | none => match cmpEnd f.dom.x g.dom.x with
      | some b => b
      | none => match cmpEnd f.dom.y g.dom.y with
        | some b => b
        | none => decide (f.n < g.n)

/-- Put a funklet in its place. -/
def insert (f : Fk) : List Fk → List Fk
  | [] => [f]
  | g :: l => if compareDomain g f then g :: insert f l else f :: g :: l

/-- `std::sort` with it (ComposedPolc.cc:141); here a stable sort. -/
def sortFunklets : List Fk → List Fk
  | [] => []
  | f :: l => insert f (sortFunklets l)

/-- The range of an axis, (0,0) if not defined (MEQ/src/Domain.cc:38-43). -/
def range (a : Option (ℚ × ℚ)) : ℚ × ℚ := a.getD (0, 0)

/-- One axis of `expandToEnvelope` (Domain.cc:219-242). -/
def expand (a b : Option (ℚ × ℚ)) : Option (ℚ × ℚ) :=
  match b with
  | none => a
  | some q => match a with
    | none => some q
    | some p => some (min p.1 q.1, max p.2 q.2)

/-- `axisHasShape_` for one axis (ComposedPolc.cc:150-163); `a` is the envelope so far.  The list is that of the ranges and of whether
there is more than one coefficient along the axis. -/
def hasShape : Option (ℚ × ℚ) → List (Option (ℚ × ℚ) × Bool) → Bool
  | _, [] => false
  | a, f :: l => f.2 || (a.isSome && decide (range a ≠ range f.1)) || hasShape (expand a f.1) l

/-- The first cell a funklet is written to (ComposedPolc.cc:273-276). -/
def first (s : ℚ) (maxk : Nat) (g : List Cell) : Nat := (g.take maxk).findIdx fun c => !decide (c.mid < s)

/-- The last cell a funklet is written to (ComposedPolc.cc:277-279), going down from `k`. -/
def last (e : ℚ) (g : List Cell) : Nat → Nat
  | 0 => 0
  | k + 1 => if e < (g.getD (k + 1) ⟨0, 0, 0⟩).mid then last e g k else k + 1

/-- The cells of an axis for a funklet (ComposedPolc.cc:264-282; leaving the loop early on an empty span, 281, leaves indices of the axes after it as they were, but nothing is written then); `w` is the size of the result along the axis. -/
def span (a : Option (ℚ × ℚ)) (w : Nat) (g : List Cell) : Nat × Nat :=
  match a with
  | none => (0, min (w - 1) (g.length - 1))
  | some r => (first r.1 (min w g.length) g, last r.2 g (min (w - 1) (g.length - 1)))

/-- The grid `Polc::do_evaluate` computes on along an axis with more than one coefficient (MEQ/src/Polc.cc:178-214): reduced to the
funklet's domain if the grid's domain `(lo, hi)` is not within; `none`: nothing is left.  (An axis that is not defined has the range
(0,0) here too.  The axis of the domain is taken to be that of the grid, see Findings.) -/
def clip (a : Option (ℚ × ℚ)) (g : List Cell) : Option (List Cell) :=
  let lo := (g.headD ⟨0, 0, 0⟩).lo
  let hi := (g.getLastD ⟨0, 0, 0⟩).hi
  if lo < (range a).1 ∨ (range a).2 < hi then
    let k := first (range a).1 g.length g
    let j := last (range a).2 g (g.length - 1)
    if j < k then none else some ((g.drop k).take (j - k + 1))
  else some g

/-- Values along frequency of one funklet (ComposedPolc.cc:363-373): `n` values from `y` on, the counter `ny` starting at 0. -/
def fillRow (part : Nat → ℚ) (maxny base : Nat) : Nat → Nat → Nat → List ℚ → List ℚ
  | 0, _, _, vals => vals
  | n + 1, y, ny, vals => fillRow part maxny base n (y + 1) (min (ny + 1) (maxny - 1)) (vals.set (base + y) (part ny))

/-- Values of one funklet (ComposedPolc.cc:362-375). -/
def fill (part : Nat → Nat → ℚ) (maxnx maxny w : Nat) (sy ny : Nat) : Nat → Nat → Nat → List ℚ → List ℚ
  | 0, _, _, vals => vals
  | n + 1, x, nx, vals =>
    fill part maxnx maxny w sy ny n (x + 1) (min (nx + 1) (maxnx - 1)) (fillRow (part nx) maxny (x * w) ny sy 0 vals)

/-- How many cells a span has. -/
def count (p : Nat × Nat) : Nat := p.2 + 1 - p.1

/-- One turn of the loop over the funklets (ComposedPolc.cc:241-408).  A constant funklet is written by `fill_const_value` (413-441),
which for two axes is the same loop. -/
def evalOne (gx gy : List Cell) (wx wy : Nat) (vals : List ℚ) (f : Fk) : List ℚ :=
  let sx := span f.dom.x wx gx
  let sy := span f.dom.y wy gy
  if !f.sx && !f.sy then fill (fun _ _ => f.c0) 1 1 wy sy.1 (count sy) (count sx) sx.1 0 vals
  else
    match (if f.sx then clip f.dom.x gx else some []), (if f.sy then clip f.dom.y gy else some []) with
    | some px, some py =>
      let nx := if f.sx then px.length else 1
      let ny := if f.sy then py.length else 1
      fill (fun i j => f.v (px.getD i ⟨0, 0, 0⟩).mid (py.getD j ⟨0, 0, 0⟩).mid) nx ny wy sy.1 (count sy) (count sx) sx.1 0 vals
    | _, _ => vals

/-- The size of the result along an axis (ComposedPolc.cc:212-216). -/
def size (shape : Bool) (g : List Cell) : Nat := if shape then g.length else 1

/-- A composed funklet (`initFunklets`, ComposedPolc.cc:130-173): the parts in order and `axisHasShape_`. -/
structure CPolc where
  parts : List Fk
  hx : Bool
  hy : Bool
  default : ℚ

/-- Its constructor (ComposedPolc.cc:37-44). -/
def compose (l : List Fk) (default : ℚ) : CPolc :=
  let s := sortFunklets l
  ⟨s, hasShape none (s.map fun f => (f.dom.x, f.sx)), hasShape none (s.map fun f => (f.dom.y, f.sy)), default⟩

/-- A copy (ComposedPolc.cc:47-53, and `clone`, ComposedPolc.h:53-54). -/
def copy (c : CPolc) : CPolc := { c with default := 0 }

/-- One made from a record with the parts, as received in a message or read from a file (ComposedPolc.cc:55-60, 69-127). -/
def fromRecord (parts : List Fk) : CPolc := compose parts 0

/-- `ComposedPolc::do_evaluate` (ComposedPolc.cc:176-410): sizes of the result, and its values, frequency fastest. -/
def evaluate (c : CPolc) (gx gy : List Cell) : Nat × Nat × List ℚ :=
  let wx := size c.hx gx
  let wy := size c.hy gy
  (wx, wy, c.parts.foldl (evalOne gx gy wx wy) (List.replicate (wx * wy) c.default))

/-- The value for cell `p` of time and `q` of frequency: an axis of size 1 stands for all cells. -/
def valueAt (r : Nat × Nat × List ℚ) (p q : Nat) : Option ℚ :=
  r.2.2[(if r.1 = 1 then 0 else p) * r.2.1 + (if r.2.1 = 1 then 0 else q)]?

/-- `Parm::checkTiledFunklet` (Parm.cc:287-330) for a composed funklet: sizes, domains and numbers of coefficients match.  (Forcing the
shape of the coefficients is left out.) -/
def checkTiled (l : List Fk) (ds : List Dom) : Bool :=
  l.length == ds.length &&
  (List.zip ds l).all fun p =>
    !(decide (eps < |(range p.1.x).1 - (range p.2.dom.x).1|) || decide (eps < |(range p.1.x).2 - (range p.2.dom.x).2|) ||
      decide (eps < |(range p.1.y).1 - (range p.2.dom.y).1|) || decide (eps < |(range p.1.y).2 - (range p.2.dom.y).2|) ||
      p.2.n != l.head?.elim 0 (·.n))

/-- What a parameter has as funklet: a single one or a composed one. -/
inductive Funk where
  | single (f : Fk)
  | composed (c : CPolc)

/-- `Parm::initTiledFunklet` (Parm.cc:332-365); `none`: an empty composed funklet, whose first is asked for. -/
def initTiled (tx ty : Int) (gx gy : List Cell) (d : Dom) (default : ℚ) (f : Funk) : Option Funk :=
  let ds := tiledDomains tx ty gx gy d
  if ds.length ≤ 1 then some f
  else match f with
    | .single f => some (.composed (compose (ds.map fun d => { f with dom := d }) default))
    | .composed c =>
      match c.parts with
      | [] => none
      | f :: _ => if checkTiled c.parts ds then some (.composed c) else some (.composed (compose (ds.map fun d => { f with dom := d }) default))

end Verif.Composed
