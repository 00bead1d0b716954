import Verif.Model.PolcLog

/-!
# Specification of polynomials in logarithms
-/
namespace Verif.PolcLog

/-- The variable of the polynomial: the value of the axis function less the offset, over the scale (Polc.cc lines
216-224). -/
noncomputable def variable' (os : ℝ × ℝ) (g : ℝ) : ℝ := (g - os.1) / os.2

/-- With these offset and scale the polynomial's variable goes from one end of the domain of solving to the other when the
coordinate goes from one end of the domain of validity to the other. -/
def MapsEnds (a : ℝ) (sol val : Rng) (os : ℝ × ℝ) : Prop :=
  ∃ g h, axisFunction (some a) [val.lo, val.hi] = .ok [g, h] ∧ variable' os g = sol.lo ∧ variable' os h = sol.hi

end Verif.PolcLog
