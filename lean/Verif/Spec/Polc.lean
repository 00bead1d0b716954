import Verif.Model.Polc
import Mathlib.Algebra.BigOperators.Ring.Finset
import Mathlib.Data.Rat.BigOperators
/-! # Specification of polynomials (C46, C47, C80-C83) -/
namespace Verif.Polc
open Finset

/-- Number of rows and columns of the array of coefficients. -/
def nrows (p : Poly) : Nat := match p.shape with | [] => 1 | a :: _ => a

@[inherit_doc nrows]
def ncols (p : Poly) : Nat := match p.shape with | _ :: b :: _ => b | _ => 1

/-- A polynomial in two variables, coefficients row by row. -/
def polyVal (nx ny : Nat) (c : List ℚ) (u v : ℚ) : ℚ := ∑ i ∈ range nx, ∑ j ∈ range ny, c.getD (i * ny + j) 0 * u ^ i * v ^ j

/-- A scale of 0 stands for 1. -/
def scaled (offset scale x : ℚ) : ℚ := (x - offset) / (if scale = 0 then 1 else scale)

/-- Value of a polynomial at a point. -/
def value (p : Poly) (x y : ℚ) : ℚ :=
  polyVal (nrows p) (ncols p) p.coeff (scaled (p.offsets.getD 0 0) (p.scales.getD 0 0) x) (scaled (p.offsets.getD 1 0) (p.scales.getD 1 0) y)

/-- Polynomials as they are made: one or two axes without zero extents, as many coefficients as the shape says, and an offset and
a scale for each axis. -/
def PolcWf (p : Poly) : Prop :=
  (∃ a, 0 < a ∧ p.shape = [a] ∨ ∃ b, 0 < b ∧ 0 < a ∧ p.shape = [a, b]) ∧ p.coeff.length = nrows p * ncols p ∧
  p.shape.length ≤ p.offsets.length ∧ p.shape.length ≤ p.scales.length

/-- The `k`-th (from 0) of the selected coefficients. -/
def IsNth (mask : List Bool) (k i : Nat) : Prop := mask[i]? = some true ∧ ((mask.take i).filter id).length = k

/-- The coefficients selected by `mask`, and no others, have the ids `spid0`, `spid0 + 1`, ... in order, and the table of indices
gives each its place among them. -/
def Numbered (p : Poly) (spid0 : Int) (mask : List Bool) : Prop :=
  mask.length = p.coeff.length ∧ p.spidInx.length = p.coeff.length ∧ p.spids.length = (mask.filter id).length ∧
  (∀ k i : Nat, IsNth mask k i → p.spidInx[i]? = some (k : Int)) ∧ (∀ i : Nat, mask[i]? = some false → p.spidInx[i]? = some (-1)) ∧
  ∀ k : Nat, k < p.spids.length → p.spids[k]? = some (spid0 + k)

/-- The coefficients that are selected when none were chosen: all, or with two variables those of limited total degree. -/
def defaultMask (p : Poly) : List Bool :=
  if p.coeff.length < 4 ∨ p.shape.length ≤ 1 then List.replicate p.coeff.length true
  else (List.range p.coeff.length).map fun k => decide (k / ncols p + k % ncols p ≤ max (nrows p) (ncols p) - 1)

/-- A value limited to an interval, upper end first. -/
def clamp (lo hi x : ℚ) : ℚ := max lo (min hi x)

/-- Evaluation at a point gives the value there and, for each coefficient, the values with that coefficient changed by its
perturbation up and down in turn. -/
def EvalRight (p : Poly) (np : Nat) (x y : ℚ) : Prop :=
  ∃ pt, evalAt p np x y = .ok pt ∧ pt.value = value p x y ∧ pt.perts.length = p.coeff.length ∧
    ∀ k, k < p.coeff.length → ∃ l, pt.perts[k]? = some l ∧ l.length = np ∧
      ∀ m, m < np → l[m]? = some (value { p with coeff := p.coeff.modify k (· + (-1) ^ m * p.parmPerts.getD k 0) } x y)

/-- The polynomial has the same values and, in terms of its normalised coordinates, `val` has become `sol` on each of its axes. -/
def SolveRight (p q : Poly) (sol val : Nat → ℚ × ℚ) : Prop :=
  (∀ x y, value q x y = value p x y) ∧
  ∀ i, i < p.shape.length → scaled (q.offsets.getD i 0) (q.scales.getD i 0) (val i).1 = (sol i).1 ∧
    scaled (q.offsets.getD i 0) (q.scales.getD i 0) (val i).2 = (sol i).2

/-- Coefficients of equal degree are the same; those only one of the polynomials can have are 0. -/
def KeepsCommon (p q : Poly) : Prop :=
  ∀ i j, i < nrows q → j < ncols q → q.coeff.getD (i * ncols q + j) 0 = if i < nrows p ∧ j < ncols p then p.coeff.getD (i * ncols p + j) 0 else 0

end Verif.Polc
