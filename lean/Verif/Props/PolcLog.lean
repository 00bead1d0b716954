import Verif.Proof.PolcLog
import Mathlib.Analysis.SpecialFunctions.Log.Base

/-!
# Properties C244-C245: polynomials in logarithms
-/
namespace Verif.PolcLog

/-! ### C244: logarithms of coordinates -/

/-- The full statement: for each grid either nothing is changed, or each coordinate is replaced by its logarithm to base 10
relative to the scale, which is that of a positive number. -/
def C244_full : Prop := ∀ (a : Option ℝ) (grid : List ℝ), grid ≠ [] →
  axisFunction a grid = .ok grid ∨
  ∃ s, a = some s ∧ (∀ x ∈ grid, 0 < x / s) ∧ axisFunction a grid = .ok (grid.map fun x => Real.logb 10 (x / s))

/-- It holds if there is a list of scales, and all coordinates are between the first and the last. -/
theorem C244_log_partial (s : ℝ) (grid : List ℝ) (x0 x1 : ℝ) (h0 : grid.head? = some x0) (h1 : grid.getLast? = some x1)
    (hb : ∀ x ∈ grid, x0 ≤ x ∧ x ≤ x1) :
    (axisFunction (some s) grid = .ok grid ∧ (s = 0 ∨ ∃ x ∈ grid, x / s ≤ 0)) ∨
    ((∀ x ∈ grid, 0 < x / s) ∧ axisFunction (some s) grid = .ok (grid.map fun x => Real.logb 10 (x / s))) := by
  have m0 : x0 ∈ grid := List.mem_of_mem_head? h0
  have m1 : x1 ∈ grid := List.mem_of_getLast? h1
  have sgn : ∀ x : ℝ, s ≠ 0 → (s * x ≤ 0 ↔ x / s ≤ 0) := by
    intro x hs
    have h2 : 0 < s * s := mul_self_pos.2 hs
    have e : s * x = x / s * (s * s) := by field_simp
    rw [e]
    constructor
    · intro h
      by_contra hc
      have := mul_pos (not_le.1 hc) h2
      linarith
    · intro h
      exact mul_nonpos_of_nonpos_of_nonneg h h2.le
  unfold axisFunction
  dsimp only
  by_cases hs : s = 0
  · rw [if_pos hs]
    exact .inl ⟨rfl, .inl hs⟩
  · rw [if_neg hs, h0, h1]
    dsimp only
    by_cases hc : s * x0 ≤ 0 ∨ s * x1 ≤ 0
    · rw [if_pos hc]
      refine .inl ⟨rfl, .inr ?_⟩
      rcases hc with hc | hc
      · exact ⟨x0, m0, (sgn x0 hs).1 hc⟩
      · exact ⟨x1, m1, (sgn x1 hs).1 hc⟩
    · rw [if_neg hc]
      right
      rw [not_or, not_le, not_le] at hc
      constructor
      · intro x hx
        obtain ⟨b1, b2⟩ := hb x hx
        by_contra hn
        have hneg := (sgn x hs).2 (not_lt.1 hn)
        rcases lt_or_gt_of_ne hs with h | h
        · have := mul_le_mul_of_nonpos_left b2 h.le
          linarith [hc.2]
        · have := mul_le_mul_of_nonneg_left b1 h.le
          linarith [hc.1]
      · congr 1
        apply List.map_congr_left
        intro x _
        rw [Real.logb]
        ring

/-- Only the first and the last coordinate are looked at. -/
theorem C244_refuted : ¬ C244_full := by
  intro h
  rcases h (some 1) [1, -1, 10] (by simp) with h | ⟨s, hs, hp, _⟩
  · unfold axisFunction at h
    simp only [one_ne_zero, if_false, List.head?_cons, List.getLast?_cons_cons, List.getLast?_singleton] at h
    rw [if_neg (by norm_num)] at h
    simp only [Res.ok.injEq, List.map_cons, List.cons.injEq] at h
    have := h.1
    norm_num at this
  · cases hs
    have := hp (-1) (by simp)
    norm_num at this

/-- And without a list of scales the behaviour is undefined. -/
theorem C244_scales (grid : List ℝ) : axisFunction none grid = .ub := rfl

example : axisFunction (some 1) [1, 10, 100] = .ok [0, 1, 2] := by
  rcases C244_log_partial 1 [1, 10, 100] 1 100 rfl rfl (by
    intro x hx
    simp only [List.mem_cons, List.not_mem_nil, or_false] at hx
    rcases hx with rfl | rfl | rfl <;> norm_num) with ⟨_, h | ⟨x, hx, h⟩⟩ | ⟨_, h⟩
  · norm_num at h
  · simp only [List.mem_cons, List.not_mem_nil, or_false] at hx
    rcases hx with rfl | rfl | rfl <;> norm_num at h
  · rw [h]
    have e : Real.logb 10 100 = 2 := by
      rw [show (100 : ℝ) = 10 ^ (2 : ℕ) by norm_num, Real.logb_pow, Real.logb_self_eq_one (by norm_num)]
      norm_num
    simp [e]

/-! ### C245: domains of solving -/

/-- The full statement: both axes, for all scales and domains. -/
def C245_full : Prop := ∀ (a0 a1 : ℝ) (sol0 sol1 val0 val1 : Rng), sol0.lo < sol0.hi → sol1.lo < sol1.hi →
  val0.lo < val0.hi → val1.lo < val1.hi →
  MapsEnds a0 sol0 val0 (changeSolve a0 a1 sol0 sol1 val0 val1).1 ∧
  MapsEnds a1 sol1 val1 (changeSolve a0 a1 sol0 sol1 val0 val1).2

/-- It holds if the logarithm can be taken at the ends of all axes that have a scale. -/
theorem C245_ends_partial (a0 a1 : ℝ) (sol0 sol1 val0 val1 : Rng) (h0 : sol0.lo < sol0.hi) (h1 : sol1.lo < sol1.hi)
    (v0 : val0.lo < val0.hi) (v1 : val1.lo < val1.hi)
    (b0 : a0 = 0 ∨ (0 < a0 * val0.lo ∧ 0 < a0 * val0.hi)) (b1 : a1 = 0 ∨ (0 < a1 * val1.lo ∧ 0 < a1 * val1.hi)) :
    MapsEnds a0 sol0 val0 (changeSolve a0 a1 sol0 sol1 val0 val1).1 ∧
    MapsEnds a1 sol1 val1 (changeSolve a0 a1 sol0 sol1 val0 val1).2 := by
  have nb : ∀ (a : ℝ) (v : Rng), (a = 0 ∨ (0 < a * v.lo ∧ 0 < a * v.hi)) → ¬ bad a v := by
    rintro a v (h | h) ⟨hn, hc⟩
    · exact hn h
    · rcases hc with hc | hc <;> linarith [h.1, h.2]
  unfold changeSolve
  rw [if_neg (nb a0 val0 b0), if_neg (nb a1 val1 b1)]
  exact ⟨axisOf_maps a0 sol0 val0 h0 v0 (nb a0 val0 b0), axisOf_maps a1 sol1 val1 h1 v1 (nb a1 val1 b1)⟩

/-- If it cannot be taken on one of the axes, the other is treated as if it were not logarithmic, although its logarithm is
taken when the polynomial is evaluated. -/
theorem C245_refuted : ¬ C245_full := by
  intro h
  obtain ⟨_, g, k, h1, h2, _⟩ := h 1 1 ⟨0, 1⟩ ⟨0, 1⟩ ⟨-1, 1⟩ ⟨1, 10⟩ (by norm_num) (by norm_num) (by norm_num) (by norm_num)
  unfold changeSolve at h2
  rw [if_pos (by unfold bad; norm_num)] at h2
  unfold axisFunction at h1
  simp only [one_ne_zero, if_false, List.head?_cons, List.getLast?_cons_cons, List.getLast?_singleton] at h1
  rw [if_neg (by norm_num)] at h1
  simp only [Res.ok.injEq, List.map_cons, List.cons.injEq] at h1
  have e := h1.1
  norm_num at e
  rw [← e] at h2
  unfold variable' linear at h2
  norm_num at h2

example : (0 : ℝ) < 2 * 1 ∧ (0 : ℝ) < 2 * 10 := by norm_num

end Verif.PolcLog
