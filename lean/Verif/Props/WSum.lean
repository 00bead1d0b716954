import Verif.Proof.WSum
/-!
# C182, C183: weighted sums and means
-/
namespace Verif.WSum

/-! ## C182 -/

/-- **C182, in full**: whatever weights were given, and however often, a weighted sum of `n` children is `Σ wᵢ vᵢ` with the weights last given. -/
def C182_full : Prop := ∀ (n : Nat) (ops : List Op) (values : List ℚ), values.length = n →
  sumResult (sumAfter n ops) values = .ok (weightedSum (lastGiven ops) values)

/-- A child with weight zero is not asked for its result, which is then missed. -/
theorem C182_zero_weight : sumResult (sumAfter 2 [.set (some [1, 0])]) [5, 7] = .err := by decide +kernel

theorem C182_refuted : ¬ C182_full := by
  intro h
  have := h 2 [.set (some [1, 0])] [5, 7] rfl
  rw [C182_zero_weight] at this
  cases this

/-- **C182, in part**: if there are several weights and none of the children's is zero (nor left out), or a single weight or none.
Missing: the rest, of which the next theorem says what happens. -/
theorem C182_partial (n : Nat) (ops : List Op) (values : List ℚ) (hv : values.length = n)
    (hw : Several (lastGiven ops) → ∀ i < n, weight (lastGiven ops) i ≠ 0) :
    sumResult (sumAfter n ops) values = .ok (weightedSum (lastGiven ops) values) := by
  rw [sumResult_eq n ops values hv, if_pos ((form_enabled n _).2.mpr hw)]

/-- With several weights of which a child's is zero, or left out, the node never has a result. -/
theorem C182_fails (n : Nat) (ops : List Op) (values : List ℚ) (hv : values.length = n)
    (hs : Several (lastGiven ops)) (i : Nat) (hi : i < n) (h0 : weight (lastGiven ops) i = 0) :
    sumResult (sumAfter n ops) values = .err := by
  rw [sumResult_eq n ops values hv, if_neg]
  intro hc
  exact (form_enabled n _).2.mp hc hs i hi h0

/-- Non-vacuity: weights given twice; a single one; none. -/
example : sumResult (sumAfter 3 [.get [0, 0, 0], .set (some [1, 2, -1]), .set (some [4])]) [5, 7, 2] = .ok 17 := by decide +kernel
example : weightedSum (lastGiven [.get [0, 0, 0], .set (some [1, 2, -1]), .set (some [4])]) [5, 7, 2] = 17 := by decide +kernel
example : sumResult (sumAfter 3 [.set (some [4]), .set (some [1, 0, 0])]) [5, 7, 2] = .ok 56 := by decide +kernel
example : sumResult (sumAfter 3 [.set none]) [5, 7, 2] = .ok 14 := by decide +kernel
example : weight (some [1, 2]) 2 = 0 ∧ Several (some [1, 2]) := ⟨by decide +kernel, ⟨_, rfl, by decide⟩⟩

/-! ## C183 -/

/-- **C183, in full**: a weighted mean is `Σ wᵢ vᵢ / Σ wᵢ` with the weights last given, whenever `Σ wᵢ` is not zero, at the first evaluation and at later ones. -/
def C183_full : Prop := ∀ (n : Nat) (ops : List Op) (values : List ℚ), values.length = n → totalWeight (lastGiven ops) n ≠ 0 →
  (meanResult (meanAfter n ops) values).1 = .ok (weightedSum (lastGiven ops) values / totalWeight (lastGiven ops) n)

theorem C183_refuted : ¬ C183_full := by
  intro h
  have h1 := h 2 [.set (some [1, 0])] [5, 7] rfl (by decide +kernel)
  have h2 : (meanResult (meanAfter 2 [.set (some [1, 0])]) [5, 7]).1 = .err := by decide +kernel
  rw [h2] at h1
  cases h1

/-- **C183, in part**: if none of several weights is zero.  Missing: the rest, for which there is no result. -/
theorem C183_partial (n : Nat) (ops : List Op) (values : List ℚ) (hv : values.length = n)
    (hw : Several (lastGiven ops) → ∀ i < n, weight (lastGiven ops) i ≠ 0) (ht : totalWeight (lastGiven ops) n ≠ 0) :
    (meanResult (meanAfter n ops) values).1 = .ok (weightedSum (lastGiven ops) values / totalWeight (lastGiven ops) n) := by
  rw [meanResult_eq n ops values, if_pos ((form_enabled n _).2.mpr hw)]
  congr 1
  by_cases hs : Several (lastGiven ops)
  · rw [norm_several n _ hs values hv, if_pos ht]
  · rw [norm_single n _ hs values]
    rcases form_cases n (lastGiven ops) with ⟨_, w, _, h3⟩ | ⟨h1, _⟩
    · have e1 : weightedSum (lastGiven ops) values = w * values.sum := by
        unfold weightedSum
        rw [sum_eq_sumTo values, ← sumTo_mul]
        unfold sumTo
        congr 1
        apply List.map_congr_left
        intro i _
        rw [h3]
      have e2 : totalWeight (lastGiven ops) n = w * n := by
        unfold totalWeight
        have : ((List.range n).map fun i => weight (lastGiven ops) i) = List.replicate n w := by
          apply List.ext_getElem <;> simp [h3]
        rw [this, List.sum_replicate, nsmul_eq_mul, mul_comm]
      rw [e2] at ht
      have hw0 : w ≠ 0 := fun h => ht (by rw [h, zero_mul])
      have hn0 : (n : ℚ) ≠ 0 := fun h => ht (by rw [h, mul_zero])
      rw [e1, e2]
      field_simp
    · exact absurd h1 hs

/-- With a single weight, or none given, it is the plain mean, even if that weight is zero. -/
theorem C183_plain (n : Nat) (ops : List Op) (values : List ℚ) (hs : ¬ Several (lastGiven ops)) :
    (meanResult (meanAfter n ops) values).1 = .ok (values.sum / n) := by
  rw [meanResult_eq n ops values, if_pos ((form_enabled n _).2.mpr (fun h => absurd h hs)), norm_single n _ hs values]

/-- If several non-zero weights add up to nothing, the weighted sum is returned in place of a mean. -/
theorem C183_cancel (n : Nat) (ops : List Op) (values : List ℚ) (hv : values.length = n) (hs : Several (lastGiven ops))
    (hw : ∀ i < n, weight (lastGiven ops) i ≠ 0) (ht : totalWeight (lastGiven ops) n = 0) :
    (meanResult (meanAfter n ops) values).1 = .ok (weightedSum (lastGiven ops) values) := by
  rw [meanResult_eq n ops values, if_pos ((form_enabled n _).2.mpr (fun _ => hw)), norm_several n _ hs values hv, if_neg (not_not.mpr ht), if_neg]
  rintro rfl
  have : totalWeight (lastGiven ops) 1 = weight (lastGiven ops) 0 := by simp [totalWeight]
  rw [this] at ht
  exact hw 0 (by omega) ht

/-- With several weights of which a child's is zero, or left out, the node never has a result. -/
theorem C183_fails (n : Nat) (ops : List Op) (values : List ℚ)
    (hs : Several (lastGiven ops)) (i : Nat) (hi : i < n) (h0 : weight (lastGiven ops) i = 0) :
    (meanResult (meanAfter n ops) values).1 = .err := by
  rw [meanResult_eq n ops values, if_neg]
  intro hc
  exact (form_enabled n _).2.mp hc hs i hi h0

example : (meanResult (meanAfter 2 [.get [1, 1], .get [9, 0], .set (some [1, 3]), .set (some [2])]) [5, 7]).1 = .ok (13 / 2) := by decide +kernel
example : totalWeight (lastGiven [.get [1, 1], .get [9, 0], .set (some [1, 3]), .set (some [2])]) 2 = 4 := by decide +kernel
example : (meanResult (meanAfter 2 [.set (some [1, -1])]) [5, 7]).1 = .ok (-2) := by decide +kernel

end Verif.WSum
