import Verif.Spec.PolcLog
import Mathlib.Tactic.Linarith
import Mathlib.Tactic.FieldSimp
import Mathlib.Tactic.Ring
import Mathlib.Tactic.NormNum

/-!
# Lemmas on polynomials in logarithms
-/
namespace Verif.PolcLog

theorem linear_maps (a : ℝ) (sol val : Rng) (hs : sol.lo < sol.hi) (hv : val.lo < val.hi)
    (ha : axisFunction (some a) [val.lo, val.hi] = .ok [val.lo, val.hi]) : MapsEnds a sol val (linear sol val) := by
  have h1 : sol.hi - sol.lo ≠ 0 := by linarith
  have h2 : sol.lo - sol.hi ≠ 0 := by linarith
  have h3 : val.hi - val.lo ≠ 0 := by linarith
  refine ⟨_, _, ha, ?_, ?_⟩
  · unfold variable' linear
    dsimp only
    field_simp
    ring
  · unfold variable' linear
    dsimp only
    field_simp
    ring

theorem axisOf_maps (a : ℝ) (sol val : Rng) (hs : sol.lo < sol.hi) (hv : val.lo < val.hi) (hb : ¬ bad a val) :
    MapsEnds a sol val (axisOf a sol val) := by
  unfold axisOf
  by_cases ha : a = 0
  · rw [if_neg (by simpa using ha)]
    apply linear_maps a sol val hs hv
    unfold axisFunction
    dsimp only
    rw [if_pos ha]
  · rw [if_pos ha]
    unfold bad at hb
    have hb' : ¬ (a * val.lo ≤ 0 ∨ a * val.hi ≤ 0) := fun h => hb ⟨ha, h⟩
    have hne : Real.log (val.hi / a) ≠ Real.log (val.lo / a) := by
      have h2 : 0 < a * a := mul_self_pos.2 ha
      rw [not_or, not_le, not_le] at hb'
      have p1 : 0 < val.lo / a := by
        have e : val.lo / a = a * val.lo / (a * a) := by field_simp
        rw [e]; exact div_pos hb'.1 h2
      have p2 : 0 < val.hi / a := by
        have e : val.hi / a = a * val.hi / (a * a) := by field_simp
        rw [e]; exact div_pos hb'.2 h2
      intro e
      have := Real.log_injOn_pos p2 p1 e
      field_simp at this
      linarith
    have hl : Real.log 10 ≠ 0 := (Real.log_pos (by norm_num)).ne'
    have h1 : sol.hi - sol.lo ≠ 0 := by linarith
    have h2 : sol.lo - sol.hi ≠ 0 := by linarith
    refine ⟨1 / Real.log 10 * Real.log (val.lo / a), 1 / Real.log 10 * Real.log (val.hi / a), ?_, ?_, ?_⟩
    · unfold axisFunction
      dsimp only
      rw [if_neg ha]
      dsimp only [List.head?_cons, List.getLast?_cons_cons, List.getLast?_singleton]
      simp only [List.getLast?_cons_cons, List.getLast?_singleton]
      rw [if_neg hb']
      rfl
    · unfold variable' logarithmic
      dsimp only
      generalize Real.log (val.hi / a) = p at *
      generalize Real.log (val.lo / a) = q at *
      have h3 : p - q ≠ 0 := sub_ne_zero.2 hne
      field_simp
      ring
    · unfold variable' logarithmic
      dsimp only
      generalize Real.log (val.hi / a) = p at *
      generalize Real.log (val.lo / a) = q at *
      have h3 : p - q ≠ 0 := sub_ne_zero.2 hne
      field_simp
      ring

end Verif.PolcLog
