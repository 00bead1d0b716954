import Verif.Model.Outcome
import Mathlib.Analysis.SpecialFunctions.Log.Basic

/-!
# Polynomials in logarithms

`/repo/MEQ/src/PolcLog.cc`.
-/
namespace Verif.PolcLog

open Classical in
/-- `axis_function` (PolcLog.cc lines 128-156).  The argument is the scale of the axis, 0 if the list has none for it; without
a list the scale is not initialized.  Simplification: real numbers; `fabs` of a scale as a condition is that it is not 0. -/
noncomputable def axisFunction : Option ℝ → List ℝ → Res (List ℝ)
  | none, _ => .ub
  | some a, grid =>
    if a = 0 then .ok grid
    else
      match grid.head?, grid.getLast? with
      | some x, some y =>
        if a * x ≤ 0 ∨ a * y ≤ 0 then .ok grid
        else .ok (grid.map fun z => 1 / Real.log 10 * Real.log (z / a))
      | _, _ => .ub

/-- The range of an axis. -/
structure Rng where
  lo : ℝ
  hi : ℝ

/-- Offset and scale for an axis that is not logarithmic (PolcLog.cc lines 200-204; Polc.cc lines 449-453). -/
noncomputable def linear (sol val : Rng) : ℝ × ℝ :=
  ((sol.lo * val.hi - sol.hi * val.lo) / (sol.lo - sol.hi), (val.hi - val.lo) / (sol.hi - sol.lo))

/-- The same for a logarithmic one (PolcLog.cc lines 193-197). -/
noncomputable def logarithmic (a : ℝ) (sol val : Rng) : ℝ × ℝ :=
  ((sol.lo * Real.log (val.hi / a) - sol.hi * Real.log (val.lo / a)) / (Real.log 10 * (sol.lo - sol.hi)),
    (Real.log (val.hi / a) - Real.log (val.lo / a)) / (Real.log 10 * (sol.hi - sol.lo)))

/-- The test of an axis (PolcLog.cc lines 175 and 181). -/
def bad (a : ℝ) (val : Rng) : Prop := a ≠ 0 ∧ (a * val.lo ≤ 0 ∨ a * val.hi ≤ 0)

open Classical in
/-- `newoffsets` and `newscales` of an axis (PolcLog.cc lines 191-208). -/
noncomputable def axisOf (a : ℝ) (sol val : Rng) : ℝ × ℝ := if a ≠ 0 then logarithmic a sol val else linear sol val

open Classical in
/-- `changeSolveDomain` (PolcLog.cc lines 158-212; Polc.cc lines 440-460) for a polynomial with a domain: what
`transformCoeff` is called with, for both axes. -/
noncomputable def changeSolve (a0 a1 : ℝ) (sol0 sol1 val0 val1 : Rng) : (ℝ × ℝ) × (ℝ × ℝ) :=
  if bad a0 val0 then (linear sol0 val0, linear sol1 val1)
  else if bad a1 val1 then (linear sol0 val0, linear sol1 val1)
  else (axisOf a0 sol0 val0, axisOf a1 sol1 val1)

end Verif.PolcLog
