import Verif.Model.Condeq
import Verif.Spec.Function
import Mathlib.Algebra.Order.Group.Unbundled.Abs
/-! # Specification of conditional equations (C157–C162) -/
namespace Verif.Condeq

open Verif.Func (IdsWf)

/-- A real number has no imaginary part. -/
def NumWf (x : Num) : Prop := x.cplx = false → x.im = 0

/-- An element of a child that is not a null: value `v`, increasing parameters, one or two sets of perturbed values if there are
parameters. -/
structure PlaneWf (c : Plane) (v : Num) : Prop where
  ids : IdsWf c.spids
  value : c.value = some v
  wf : NumWf v
  sets : c.spids ≠ [] → c.npert = 1 ∨ c.npert = 2
  pwf : ∀ i < c.spids.length, ∀ k < c.npert, NumWf (c.pval i k)

/-- All its values are real. -/
def RealPlane (c : Plane) (v : Num) : Prop := v.cplx = false ∧ ∀ i < c.spids.length, ∀ k < c.npert, (c.pval i k).cplx = false

/-- By how much (a part `f` of) the child's value differs between the points at which parameter `s` was perturbed; 0 if the child
does not depend on `s`. -/
def rise (f : Num → ℚ) (c : Plane) (v : Num) (s : Int) : ℚ :=
  if s ∈ c.spids then
    (if c.npert = 1 then f (c.pval (c.spids.idxOf s) 0) - f v else f (c.pval (c.spids.idxOf s) 0) - f (c.pval (c.spids.idxOf s) 1))
  else 0

/-- The distance of these points. -/
def run (c : Plane) (s : Int) : ℚ :=
  if s ∈ c.spids then
    (if c.npert = 1 then c.pert (c.spids.idxOf s) 0 else c.pert (c.spids.idxOf s) 0 - c.pert (c.spids.idxOf s) 1)
  else 1

/-- `y` is `x` brought into the interval of length `|m|` around 0 by a multiple of `m`; `x` itself for `m = 0`. -/
def Brought (m x y : ℚ) : Prop := if m = 0 then y = x else (∃ k : ℤ, y = x + k * m) ∧ |y| ≤ |m| / 2

/-- Derivative `d` and step `p` of the equation with respect to parameter `s`: what the first child does, less what the second does.
The second child's step is kept if it depends on `s`. -/
def DerivOk (m : ℚ) (c0 c1 : Plane) (v0 v1 : Num) (s : Int) (d : Num) (p : ℚ) : Prop :=
  (∃ e0 e1, Brought m (rise Num.re c0 v0 s) e0 ∧ Brought m (rise Num.re c1 v1 s) e1 ∧ d.re = e0 / run c0 s - e1 / run c1 s) ∧
  d.im = rise Num.im c0 v0 s / run c0 s - rise Num.im c1 v1 s / run c1 s ∧ p = if s ∈ c1.spids then run c1 s else run c0 s

/-- Bit `b` of flags; no flags is all bits clear. -/
def flagBit (f : Option (BitVec 32)) (b : Nat) : Bool :=
  match f with
  | none => false
  | some x => x.getLsbD b

/-- What element the equation has for elements `c0` and `c1` with values `v0` and `v1` and weight `w`. -/
structure OutOk (m : ℚ) (c0 c1 : Plane) (v0 v1 : Num) (w : Option Num) (o : Out) : Prop where
  re : Brought m (v1.re - v0.re) o.value.re
  im : o.value.im = v1.im - v0.im
  wf : NumWf o.value
  ids : IdsWf o.spids
  mem : ∀ s, s ∈ o.spids ↔ s ∈ c0.spids ∨ s ∈ c1.spids
  nderivs : o.derivs.length = o.spids.length
  nperts : o.perts.length = o.spids.length
  deriv : ∀ (j : Nat) (s : Int), o.spids[j]? = some s → ∃ d p, o.derivs[j]? = some d ∧ o.perts[j]? = some p ∧
    DerivOk m c0 c1 v0 v1 s d p ∧ d.cplx = o.value.cplx
  real : o.value.cplx = false ↔ RealPlane c0 v0 ∧ RealPlane c1 v1
  flags : (o.flags.isSome = true ↔ c0.flags.isSome = true ∨ c1.flags.isSome = true) ∧
    ∀ b, flagBit o.flags b = (flagBit c0.flags b || flagBit c1.flags b)
  weight : o.weight = w.map Num.re

/-- A child whose value is affine in the parameters, with coefficients `a`, in the part `f`; values are known up to multiples of `m`. -/
def Affine (m : ℚ) (f : Num → ℚ) (c : Plane) (v : Num) (a : Int → ℚ) : Prop :=
  (∀ s, s ∉ c.spids → a s = 0) ∧
  ∀ (i : Nat) (s : Int), c.spids[i]? = some s → ∀ k < c.npert, ∃ z : ℤ, f (c.pval i k) = f v + a s * c.pert i k + z * m

/-- The steps are not 0, and small enough for the change to be less than half of `m`. -/
def Steps (m : ℚ) (c : Plane) (a : Int → ℚ) : Prop := ∀ s ∈ c.spids, run c s ≠ 0 ∧ (m = 0 ∨ |a s * run c s| < |m| / 2)

/-- The child's value (part `f`) after its parameters change by `δ`. -/
def moved (f : Num → ℚ) (c : Plane) (v : Num) (a δ : Int → ℚ) : ℚ := f v + (c.spids.map fun s => a s * δ s).sum

/-! ## All elements -/

/-- A result with as many elements as its dimensions say, and not none. -/
def CResWf (c : CRes) : Prop := c.planes.length = c.dims.foldr (· * ·) 1 ∧ c.planes ≠ []

/-- A scalar or a tensor of the dimensions `d`. -/
def Fits (d : List Nat) (c : CRes) : Prop := c.dims = [] ∨ c.dims = d

/-- Element `i` of a tensor; a scalar is the same everywhere. -/
def elem (c : CRes) (i : Nat) : Option Plane := c.planes[if c.dims = [] then 0 else i]?

/-- The weight given by the third child for element `i`, if it has one. -/
def weightOf (c2 : Option CRes) (i : Nat) : Option Num := c2.bind fun c => (elem c i).bind (·.value)

/-- Elements of the children the equation can be made of: real if it is modulo something, and the weight is real. -/
def ElemGood (m : ℚ) (p0 p1 : Plane) (w : Option Num) : Prop :=
  ∀ v0 v1, p0.value = some v0 → p1.value = some v1 →
    PlaneWf p0 v0 ∧ PlaneWf p1 v1 ∧ (m ≠ 0 → RealPlane p0 v0 ∧ RealPlane p1 v1) ∧ ∀ x, w = some x → x.cplx = false

/-- The element of the equation: a null if one of the children's is. -/
def ElemOk (m : ℚ) (p0 p1 : Plane) (w : Option Num) (o : Option Out) : Prop :=
  (p0.value = none ∨ p1.value = none → o = none) ∧
  ∀ v0 v1, p0.value = some v0 → p1.value = some v1 → ∃ x, o = some x ∧ OutOk m p0 p1 v0 v1 w x

end Verif.Condeq
