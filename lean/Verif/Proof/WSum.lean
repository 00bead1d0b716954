import Mathlib.Algebra.BigOperators.Group.List.Basic
import Mathlib.Algebra.BigOperators.Ring.List
import Mathlib.Tactic.Ring
import Mathlib.Tactic.FieldSimp
import Verif.Spec.WSum
/-!
# Proofs about weighted sums and means
-/
namespace Verif.WSum

/-- Sum of the first `n` values of a function. -/
def sumTo (n : Nat) (f : Nat → ℚ) : ℚ := ((List.range n).map f).sum

theorem sumTo_succ' (n : Nat) (f : Nat → ℚ) : sumTo (n + 1) f = f 0 + sumTo n fun i => f (i + 1) := by
  unfold sumTo
  rw [List.range_succ_eq_map, List.map_cons, List.sum_cons, List.map_map]
  rfl

theorem sumTo_congr (n : Nat) (f g : Nat → ℚ) (h : ∀ i < n, f i = g i) : sumTo n f = sumTo n g := by
  unfold sumTo
  congr 1
  apply List.map_congr_left
  intro i hi
  exact h i (List.mem_range.mp hi)

theorem sumTo_mul (n : Nat) (c : ℚ) (f : Nat → ℚ) : sumTo n (fun i => c * f i) = c * sumTo n f := by
  unfold sumTo
  induction n with
  | zero => simp
  | succ n ih => rw [List.range_succ, List.map_append, List.map_append, List.sum_append, List.sum_append, ih]; simp [mul_add]

theorem sum_eq_sumTo (l : List ℚ) : l.sum = sumTo l.length fun i => l.getD i 0 := by
  induction l with
  | nil => rfl
  | cons x l ih => rw [List.length_cons, sumTo_succ', List.sum_cons, ih]; rfl

theorem addRest_eq (w : List ℚ) (a : Bool) (vs : List ℚ) : ∀ (i : Nat) (r : ℚ),
    addRest w a i vs r = r + sumTo vs.length fun j => (if a then w.getD 0 0 else w.getD (i + j) 0) * vs.getD j 0 := by
  induction vs with
  | nil => intro i r; simp [addRest, sumTo]
  | cons v vs ih =>
    intro i r
    unfold addRest
    dsimp only
    rw [ih, List.length_cons, sumTo_succ']
    have e1 : (if (if a = true then w.getD 0 0 else w.getD i 0) ≠ 0 then r + v * (if a = true then w.getD 0 0 else w.getD i 0) else r) =
        r + (if a = true then w.getD 0 0 else w.getD i 0) * v := by
      by_cases h : (if a = true then w.getD 0 0 else w.getD i 0) ≠ 0
      · rw [if_pos h]; ring
      · rw [if_neg h]
        have : (if a = true then w.getD 0 0 else w.getD i 0) = 0 := not_not.mp h
        rw [this]; ring
    rw [e1]
    have e2 : ∀ j, i + 1 + j = i + (j + 1) := by intro j; omega
    simp only [e2, List.getD_cons_succ, List.getD_cons_zero, Nat.add_zero]
    ring

theorem evaluate_eq (w values : List ℚ) (hw : w ≠ []) :
    evaluate w values = sumTo values.length fun i => (if w.length = 1 then w.getD 0 0 else w.getD i 0) * values.getD i 0 := by
  unfold evaluate
  cases values with
  | nil => rfl
  | cons v vs =>
    dsimp only
    rw [if_neg (by simpa using hw), addRest_eq, List.length_cons, sumTo_succ']
    have e0 : (if w.length = 1 then w.getD 0 0 else w.getD 0 0) = w.getD 0 0 := by split <;> rfl
    have e1 : (if w.getD 0 0 ≠ 0 then v * w.getD 0 0 else 0) = w.getD 0 0 * v := by
      by_cases h : w.getD 0 0 ≠ 0
      · rw [if_pos h]; ring
      · rw [if_neg h, not_not.mp h]; ring
    rw [e0, e1]
    congr 1
    apply sumTo_congr
    intro j _
    rw [List.getD_cons_succ, Nat.add_comm 1 j]
    by_cases h : w.length = 1
    · rw [if_pos (by simpa using h), if_pos h]
    · rw [if_neg (by simpa using h), if_neg h]

theorem resize_length (l : List ℚ) (n : Nat) : (resize l n).length = n := by
  unfold resize; rw [List.length_append, List.length_take, List.length_replicate]; omega

theorem resize_getD (l : List ℚ) (n i : Nat) (h : i < n) : (resize l n).getD i 0 = l.getD i 0 := by
  unfold resize
  by_cases hi : i < l.length
  · simp [List.getD, List.getElem?_append, hi, h]
  · have h1 : ¬ i < min n l.length := by omega
    simp only [List.getD, List.getElem?_append, List.length_take, h1, if_false, List.getElem?_replicate]
    rw [List.getElem?_eq_none (by omega : l.length ≤ i)]
    split <;> rfl

/-- The state that weights last given lead to. -/
def form (n : Nat) (given : Option (List ℚ)) : St := setWeights n (St.init n) given

theorem setWeights_some (n : Nat) (s : St) (g : List ℚ) : setWeights n s (some g) = form n (some g) := rfl

theorem sumAfter_eq (n : Nat) (ops : List Op) : sumAfter n ops = form n (lastGiven ops) := by
  induction ops with
  | nil => rfl
  | cons o l ih =>
    cases o with
    | set g => cases g with
      | none => unfold sumAfter lastGiven; exact ih
      | some g => rfl
    | get v => unfold sumAfter lastGiven; exact ih

theorem form_cases (n : Nat) (given : Option (List ℚ)) :
    (¬ Several given ∧ ∃ w, form n given = ⟨[w], List.replicate n true⟩ ∧ ∀ i, weight given i = w) ∨
      (Several given ∧ ∃ l, given = some l ∧ form n given = ⟨resize l n, (resize l n).map fun x => decide (x ≠ 0)⟩ ∧ ∀ i, weight given i = l.getD i 0) := by
  cases given with
  | none => left; exact ⟨by simp [Several], 1, rfl, fun _ => rfl⟩
  | some l =>
    match l with
    | [] => left; exact ⟨by simp [Several], 1, rfl, fun _ => rfl⟩
    | [w] => left; exact ⟨by simp [Several], w, rfl, fun _ => rfl⟩
    | a :: b :: l => right; exact ⟨⟨_, rfl, by simp⟩, _, rfl, rfl, fun _ => rfl⟩

theorem weight_resize (n : Nat) (l : List ℚ) (i : Nat) (h : i < n) : (resize l n).getD i 0 = l.getD i 0 := resize_getD l n i h

theorem all_map (l : List ℚ) : ((l.map fun x => decide (x ≠ 0)).all id = true) ↔ ∀ i < l.length, l.getD i 0 ≠ 0 := by
  rw [List.all_eq_true]
  constructor
  · intro h i hi
    have hm : decide (l[i] ≠ 0) ∈ l.map fun x => decide (x ≠ 0) := List.mem_map.mpr ⟨l[i], List.getElem_mem hi, rfl⟩
    have := h _ hm
    simp only [id, decide_eq_true_eq] at this
    simpa [List.getD, hi] using this
  · intro h b hb
    obtain ⟨x, hx, rfl⟩ := List.mem_map.mp hb
    obtain ⟨i, hi, rfl⟩ := List.getElem_of_mem hx
    have := h i hi
    simp only [id, decide_eq_true_eq]
    simpa [List.getD, hi] using this

theorem form_enabled (n : Nat) (given : Option (List ℚ)) :
    (form n given).enabled.length = n ∧ ((form n given).enabled.all id = true ↔ (Several given → ∀ i < n, weight given i ≠ 0)) := by
  rcases form_cases n given with ⟨h1, w, h2, h3⟩ | ⟨h1, l, h2, h3, h4⟩
  · rw [h2]
    refine ⟨by simp, ?_⟩
    simp [h1]
  · rw [h3]
    refine ⟨by simp [resize_length], ?_⟩
    dsimp only
    rw [all_map, resize_length]
    simp only [h1, true_implies, h4]
    constructor
    · intro h i hi; rw [← resize_getD l n i hi]; exact h i hi
    · intro h i hi; rw [resize_getD l n i hi]; exact h i hi

theorem form_evaluate (n : Nat) (given : Option (List ℚ)) (values : List ℚ) (hv : values.length = n) :
    evaluate (form n given).weights values = weightedSum given values := by
  unfold weightedSum
  change _ = sumTo values.length fun i => weight given i * values.getD i 0
  cases n with
  | zero =>
    rw [hv]
    rw [List.length_eq_zero_iff.mp hv]
    rfl
  | succ n =>
    rcases form_cases (n + 1) given with ⟨h1, w, h2, h3⟩ | ⟨h1, l, h2, h3, h4⟩
    · rw [h2, evaluate_eq _ _ (by simp)]
      apply sumTo_congr
      intro i _
      rw [h3]
      simp
    · have hl := resize_length l (n + 1)
      rw [h3, evaluate_eq _ _ (by intro hc; have := congrArg List.length hc; simp [hl] at this)]
      apply sumTo_congr
      intro i hi
      rw [h4]
      dsimp only
      rw [resize_getD l (n + 1) i (by omega), resize_getD l (n + 1) 0 (by omega), hl]
      by_cases hn : n + 1 = 1
      · rw [if_pos hn]
        have : i = 0 := by omega
        rw [this]
      · rw [if_neg hn]

theorem sumResult_eq (n : Nat) (ops : List Op) (values : List ℚ) (hv : values.length = n) :
    sumResult (sumAfter n ops) values =
      if (form n (lastGiven ops)).enabled.all id then .ok (weightedSum (lastGiven ops) values) else .err := by
  rw [sumAfter_eq]
  unfold sumResult getResult
  rw [form_evaluate n _ values hv]

/-! ## Means -/

theorem sum_div (w : List ℚ) (c : ℚ) : (w.map fun x => x / c).sum = w.sum / c := by
  induction w with
  | nil => simp
  | cons x l ih => rw [List.map_cons, List.sum_cons, List.sum_cons, ih, add_div]

theorem norm_idem (n : Nat) (w : List ℚ) : normWeights n (normWeights n w) = normWeights n w := by
  unfold normWeights
  by_cases h : w.length ≤ 1
  · rw [if_pos h]; simp
  · rw [if_neg h]
    by_cases hs : w.sum ≠ 0
    · rw [if_pos hs, List.length_map, if_neg h, sum_div, div_self hs, if_pos (by norm_num)]
      simp
    · rw [if_neg hs, if_neg h, if_neg hs]

theorem meanAfter_eq (n : Nat) (ops : List Op) :
    (meanAfter n ops).enabled = (form n (lastGiven ops)).enabled ∧
      normWeights n (meanAfter n ops).weights = normWeights n (form n (lastGiven ops)).weights := by
  induction ops with
  | nil => exact ⟨rfl, rfl⟩
  | cons o l ih =>
    cases o with
    | set g => cases g with
      | none => unfold meanAfter lastGiven; exact ih
      | some g => exact ⟨rfl, rfl⟩
    | get v =>
      unfold meanAfter lastGiven meanResult
      by_cases h : (meanAfter n l).enabled.all id = true
      · rw [if_pos h]
        refine ⟨ih.1, ?_⟩
        dsimp only
        rw [ih.1, (form_enabled n _).1, norm_idem]
        exact ih.2
      · rw [if_neg h]
        exact ih

theorem meanResult_eq (n : Nat) (ops : List Op) (values : List ℚ) :
    (meanResult (meanAfter n ops) values).1 =
      if (form n (lastGiven ops)).enabled.all id then .ok (evaluate (normWeights n (form n (lastGiven ops)).weights) values) else .err := by
  obtain ⟨h1, h2⟩ := meanAfter_eq n ops
  unfold meanResult getResult
  rw [h1, (form_enabled n _).1, h2]
  by_cases h : (form n (lastGiven ops)).enabled.all id = true
  · rw [if_pos h, if_pos h]
  · rw [if_neg h, if_neg h]

theorem norm_single (n : Nat) (given : Option (List ℚ)) (h : ¬ Several given) (values : List ℚ) :
    evaluate (normWeights n (form n given).weights) values = values.sum / n := by
  rcases form_cases n given with ⟨_, w, h2, _⟩ | ⟨h1, _⟩
  · rw [h2]
    unfold normWeights
    rw [if_pos (by simp), evaluate_eq _ _ (by simp)]
    simp only [List.length_singleton, if_true, List.getD_cons_zero]
    rw [sumTo_mul, ← sum_eq_sumTo]
    ring
  · exact absurd h1 h

theorem norm_several (n : Nat) (given : Option (List ℚ)) (h : Several given) (values : List ℚ) (hv : values.length = n) :
    evaluate (normWeights n (form n given).weights) values =
      if totalWeight given n ≠ 0 then weightedSum given values / totalWeight given n else if n = 1 then values.sum else weightedSum given values := by
  rcases form_cases n given with ⟨h1, _⟩ | ⟨h1, l, h2, h3, h4⟩
  · exact absurd h h1
  · have hl := resize_length l n
    have htot : (resize l n).sum = totalWeight given n := by
      rw [sum_eq_sumTo, hl]
      unfold totalWeight
      change _ = sumTo n _
      apply sumTo_congr
      intro i hi
      rw [h4, resize_getD l n i hi]
    match n, hv, hl, htot, h3 with
    | 0, hv, hl, htot, h3 =>
      rw [List.length_eq_zero_iff.mp hv]
      simp [evaluate, weightedSum]
    | 1, hv, hl, htot, h3 =>
      obtain ⟨v, rfl⟩ := List.length_eq_one_iff.mp hv
      rw [h3]
      unfold normWeights
      rw [if_pos (by dsimp only; omega), evaluate_eq _ _ (by simp)]
      by_cases ht : totalWeight given 1 ≠ 0
      · rw [if_pos ht]
        have h0 : totalWeight given 1 = weight given 0 := by simp [totalWeight]
        have h5 : weightedSum given [v] = weight given 0 * v := by simp [weightedSum]
        rw [h0] at ht ⊢
        rw [h5]
        simp [sumTo]
        field_simp
      · rw [if_neg ht]; simp [sumTo]
    | n + 2, hv, hl, htot, h3 =>
      have hw := form_evaluate (n + 2) given values hv
      rw [h3] at hw ⊢
      dsimp only at hw ⊢
      unfold normWeights
      rw [if_neg (by omega), htot]
      by_cases ht : totalWeight given (n + 2) ≠ 0
      · rw [if_pos ht, if_pos ht, ← hw, evaluate_eq _ _ (by intro hc; have := congrArg List.length hc; simp [hl] at this),
          evaluate_eq _ _ (by intro hc; rw [hc] at hl; simp at hl), List.length_map, hl, div_eq_inv_mul, ← sumTo_mul]
        apply sumTo_congr
        intro i hi
        rw [if_neg (by omega), if_neg (by omega)]
        have : ((resize l (n + 2)).map fun x => x / totalWeight given (n + 2)).getD i 0 = (resize l (n + 2)).getD i 0 / totalWeight given (n + 2) := by
          have hi' : i < (resize l (n + 2)).length := by omega
          simp [List.getD, hi']
        rw [this]
        ring
      · rw [if_neg ht, if_neg ht, hw, if_neg (by omega)]

end Verif.WSum
