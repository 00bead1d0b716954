import Verif.Model.Vells
import Mathlib.Algebra.Field.Rat
import Mathlib.Algebra.Order.Ring.Rat
/-!
# Reductions of arrays with flags (MEQ/src/Vells.cc:780-926)

Numbers are elements of a commutative ring or field, not floating-point numbers; minimum and maximum are modelled over
the rationals.
-/
namespace Verif.Vells

/-- The loop of a reduction over a flagged array (Vells.cc:807-818): result so far and the number of elements used.  A
flagged element is not read. -/
def reduceLoop {α β φ} (op : β → α → β) (hit : φ → Bool) (x : List α) (fl : List φ) : List (List Int) → β × Nat → Res (β × Nat)
  | [], s => .ok s
  | ps :: l, s =>
    (read fl (ps.getD 1 0)).bind fun f =>
      if hit f then reduceLoop op hit x fl l s
      else (read x (ps.getD 0 0)).bind fun v => reduceLoop op hit x fl l (op s.1 v, s.2 + 1)

/-- `defineReductionFuncImpl` (Vells.cc:796-828).  `fl` is `none` if there are no flags or the flag mask is 0; `hit` tells
whether a flag has bits in the mask. -/
def reduce {α β φ} (op : β → α → β) (y0 : β) (hit : φ → Bool) (x : Arr α) (fl : Option (Arr φ)) : Res (β × Nat) :=
  match fl with
  | none => .ok (x.data.foldl op y0, x.data.length)
  | some f =>
    match computeStrides [x.shape, f.shape] with
    | none => .err
    | some (out, st) =>
      match sweep out st with
      | none => .ub
      | some vs => reduceLoop op hit x.data f.data vs (y0, 0)

/-- `sum` (Vells.cc:854-857,878-885); `shape` is the grid the array stands for. -/
def vsum {α φ} [Semiring α] (hit : φ → Bool) (x : Arr α) (fl : Option (Arr φ)) (shape : List Nat) : Res α :=
  (reduce (· + ·) 0 hit x fl).bind fun r => .ok (r.1 * ((size shape / x.data.length : Nat) : α))

/-- `product` (Vells.cc:887-896). -/
def vproduct {α φ} [Semiring α] (hit : φ → Bool) (x : Arr α) (fl : Option (Arr φ)) (shape : List Nat) : Res α :=
  (reduce (· * ·) 1 hit x fl).bind fun r => .ok (r.1 ^ (size shape / x.data.length))

/-- `mean` (Vells.cc:859-865). -/
def vmean {α φ} [Field α] (hit : φ → Bool) (x : Arr α) (fl : Option (Arr φ)) : Res α :=
  (reduce (· + ·) 0 hit x fl).bind fun r => .ok (if r.2 ≠ 0 then r.1 / (r.2 : α) else 0)

/-- The renormalisation in `nelements` (Vells.cc:912-914). -/
def renormCount (x fl : List Nat) : List Nat → Nat → Nat → Nat
  | [], _, nel => nel
  | n :: shape, i, nel => renormCount x fl shape (i + 1) (if 1 < n ∧ ext x i = 1 ∧ ext fl i = 1 then nel * n else nel)

/-- `nelements` (Vells.cc:898-919). -/
def vnelements {α φ} (hit : φ → Bool) (x : Arr α) (fl : Option (Arr φ)) (shape : List Nat) : Res Nat :=
  match fl with
  | none => .ok (size shape)
  | some f => (reduce (fun (_ : Unit) _ => ()) () hit x (some f)).bind fun r => .ok (renormCount x.shape f.shape shape 0 r.2)

/-- The value `std::numeric_limits<double>::min()`: the smallest positive normalised number. -/
def dblMin : ℚ := 1 / 2 ^ 1022

/-- The value `std::numeric_limits<double>::max()`. -/
def dblMax : ℚ := (2 - 1 / 2 ^ 52) * 2 ^ 1023

/-- `max` over the elements (Vells.cc:845-846). -/
def vmax {φ} (hit : φ → Bool) (x : Arr ℚ) (fl : Option (Arr φ)) : Res ℚ :=
  (reduce (fun y x => max x y) dblMin hit x fl).bind fun r => .ok r.1

/-- `min` over the elements (Vells.cc:842-843). -/
def vmin {φ} (hit : φ → Bool) (x : Arr ℚ) (fl : Option (Arr φ)) : Res ℚ :=
  (reduce (fun y x => min x y) dblMax hit x fl).bind fun r => .ok r.1

end Verif.Vells
