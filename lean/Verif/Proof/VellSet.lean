import Verif.Spec.VellSet
import Verif.Proof.Vells
/-! # Lemmas: vellsets (C49, C50, C79) -/
namespace Verif.VellSet

open Verif.Vells

theorem size_pos (s : List Nat) (h : Positive s) : 0 < size s := by
  induction s with
  | nil => decide
  | cons a s ih =>
    unfold size at ih ⊢
    rw [List.foldr_cons]
    exact Nat.mul_pos (h a (by simp)) (ih fun n hn => h n (by simp [hn]))

/-- The loop merges shapes; `k` axes have been added with extent 0. -/
theorem adjustLoop_spec : ∀ (vs s : List Nat) (k : Nat), Positive s → Positive vs → vs.length ≤ s.length + k → (k = 0 ∨ vs.length = s.length + k) →
    match Vells.mergeLoop (s ++ List.replicate k 1) vs with
    | none => adjustLoop (s ++ List.replicate k 0) vs = .err
    | some m => ∃ ch, adjustLoop (s ++ List.replicate k 0) vs = .ok (m, ch) ∧ (ch = false → m = s ++ List.replicate k 1 ∧ k = 0) := by
  intro vs
  induction vs with
  | nil =>
    intro s k _ _ _ hk
    have hk0 : k = 0 := by
      rcases hk with h | h
      · exact h
      · rw [List.length_nil] at h; omega
    subst hk0
    simp only [List.replicate_zero, List.append_nil]
    cases s <;> exact ⟨false, rfl, fun _ => by simp⟩
  | cons v vs ih =>
    intro s k hs hv hl hk
    have hvpos : 0 < v := hv v (by simp)
    have hv' : Positive vs := fun n hn => hv n (by simp [hn])
    cases s with
    | nil =>
      cases k with
      | zero => simp at hl
      | succ k =>
        have hk' : vs.length = 0 + k := by
          rcases hk with h | h
          · omega
          · simp at h; omega
        have := ih [] k (fun n hn => by cases hn) hv' (by simp; omega) (Or.inr (by simpa using hk'))
        simp only [List.nil_append, List.replicate_succ] at this ⊢
        unfold Vells.mergeLoop adjustLoop
        by_cases h1 : 1 < v
        · rw [if_pos (show v ≠ 1 by omega), if_pos rfl, if_pos h1, if_pos (by omega)]
          cases hm : Vells.mergeLoop (List.replicate k 1) vs with
          | none => rw [hm] at this; simp only [Option.map_none] at this ⊢; rw [this]; rfl
          | some m =>
            rw [hm] at this
            obtain ⟨ch, e, _⟩ := this
            simp only [Option.map_some]
            rw [e]
            exact ⟨true, rfl, fun h => by cases h⟩
        · have : v = 1 := by omega
          subst this
          rw [if_neg (by simp), if_neg (by omega), if_pos rfl]
          have := ih [] k (fun n hn => by cases hn) hv' (by simp; omega) (Or.inr (by simpa using hk'))
          simp only [List.nil_append] at this
          cases hm : Vells.mergeLoop (List.replicate k 1) vs with
          | none => rw [hm] at this; simp only [Option.map_none] at this ⊢; rw [this]; rfl
          | some m =>
            rw [hm] at this
            obtain ⟨ch, e, _⟩ := this
            simp only [Option.map_some]
            rw [e]
            exact ⟨true, rfl, fun h => by cases h⟩
    | cons a s =>
      have hapos : 0 < a := hs a (by simp)
      have hs' : Positive s := fun n hn => hs n (by simp [hn])
      have := ih s k hs' hv' (by simp at hl; omega) (by simp at hk; omega)
      simp only [List.cons_append]
      unfold Vells.mergeLoop adjustLoop
      by_cases h1 : 1 < v
      · rw [if_pos (show v ≠ 1 by omega), if_pos h1]
        by_cases h2 : a = 1
        · rw [if_pos h2, if_pos (show a ≤ 1 by omega)]
          cases hm : Vells.mergeLoop (s ++ List.replicate k 1) vs with
          | none => rw [hm] at this; simp only [Option.map_none] at this ⊢; rw [this]; rfl
          | some m =>
            rw [hm] at this
            obtain ⟨ch, e, _⟩ := this
            simp only [Option.map_some]
            rw [e]
            exact ⟨true, rfl, fun h => by cases h⟩
        · rw [if_neg h2, if_neg (show ¬ a ≤ 1 by omega)]
          by_cases h3 : a ≠ v
          · rw [if_pos h3, if_pos h3]
          · rw [if_neg h3, if_neg h3]
            cases hm : Vells.mergeLoop (s ++ List.replicate k 1) vs with
            | none => rw [hm] at this; simp only [Option.map_none] at this ⊢; rw [this]; rfl
            | some m =>
              rw [hm] at this
              obtain ⟨ch, e, hc⟩ := this
              simp only [Option.map_some]
              rw [e]
              exact ⟨ch, rfl, fun h => ⟨by rw [(hc h).1], (hc h).2⟩⟩
      · rw [if_neg (show ¬ v ≠ 1 by omega), if_neg h1, if_neg (show ¬ a = 0 by omega)]
        cases hm : Vells.mergeLoop (s ++ List.replicate k 1) vs with
        | none => rw [hm] at this; simp only [Option.map_none] at this ⊢; rw [this]; rfl
        | some m =>
          rw [hm] at this
          obtain ⟨ch, e, hc⟩ := this
          simp only [Option.map_some]
          rw [e]
          exact ⟨ch, rfl, fun h => ⟨by rw [(hc h).1], (hc h).2⟩⟩

/-- `adjustShape` is the merge of shapes. -/
theorem adjust_spec (s vs : List Nat) (hs : Positive s) (hv : Positive vs) (hn : size vs ≠ 1) :
    match mergeShape s vs with
    | none => adjust s vs = .err
    | some m => ∃ ch, adjust s vs = .ok (m, ch) ∧ (ch = false → m = s) := by
  have hsc : isScalar vs = false := by simp [isScalar, hn]
  unfold adjust
  rw [hsc]
  simp only [Bool.false_eq_true, if_false]
  by_cases h0 : s = []
  · subst h0
    rw [if_pos rfl]
    have hm : mergeShape [] vs = some vs := by
      rw [merge_some]
      exact ⟨by simp, fun i => by rw [ext_nil]; unfold join; rw [if_pos rfl]⟩
    rw [hm]
    exact ⟨true, rfl, fun h => by cases h⟩
  · rw [if_neg h0]
    unfold mergeShape
    by_cases hl : s.length < vs.length
    · rw [if_pos hl, if_pos hl]
      have := adjustLoop_spec vs s (vs.length - s.length) hs hv (by omega) (Or.inr (by omega))
      cases hm : Vells.mergeLoop (s ++ List.replicate (vs.length - s.length) 1) vs with
      | none => rw [hm] at this; exact this
      | some m =>
        rw [hm] at this
        obtain ⟨ch, e, hc⟩ := this
        exact ⟨ch, e, fun h => by have := (hc h).2; omega⟩
    · rw [if_neg hl, if_neg hl]
      have := adjustLoop_spec vs s 0 hs hv (by omega) (Or.inl rfl)
      simp only [List.replicate_zero, List.append_nil] at this
      cases hm : Vells.mergeLoop s vs with
      | none => rw [hm] at this; exact this
      | some m =>
        rw [hm] at this
        obtain ⟨ch, e, hc⟩ := this
        exact ⟨ch, e, fun h => (hc h).1⟩

theorem merge_pos {s t m : List Nat} (hs : Positive s) (ht : Positive t) (h : mergeShape s t = some m) : Positive m := by
  rw [merge_some] at h
  obtain ⟨_, h⟩ := h
  have hext : ∀ (u : List Nat), Positive u → ∀ i, 0 < ext u i := by
    intro u hu i
    by_cases hi : i < u.length
    · unfold ext
      rw [List.getD_eq_getElem?_getD, List.getElem?_eq_getElem hi]
      exact hu _ (List.getElem_mem hi)
    · rw [ext_of_le u i (by omega)]; omega
  intro n hn
  obtain ⟨i, hi, rfl⟩ := List.mem_iff_getElem.1 hn
  have := h i
  have e : ext m i = m[i] := by unfold ext; rw [List.getD_eq_getElem?_getD, List.getElem?_eq_getElem hi]; rfl
  rw [e] at this
  have h1 := hext s hs i
  have h2 := hext t ht i
  unfold join at this
  split_ifs at this <;> (injection this with this; omega)

/-- Setting a part that varies is rejected exactly if its shape does not merge with that of the vellset. -/
theorem adjustShape_spec {F : Type} (s : VSet F) (vs : List Nat) (hs : Positive s.shape) (hv : Positive vs) :
    (size vs = 1 → adjustShape s vs = .ok s) ∧
    (size vs ≠ 1 → match mergeShape s.shape vs with
      | none => adjustShape s vs = .err
      | some m => adjustShape s vs = .ok { s with shape := m }) := by
  constructor
  · intro h
    unfold adjustShape
    rw [if_pos (by simp [isScalar, h])]
  · intro h
    have := adjust_spec s.shape vs hs hv h
    unfold adjustShape
    rw [if_neg (by simp [isScalar, h])]
    cases hm : mergeShape s.shape vs with
    | none => rw [hm] at this; simp only at this ⊢; rw [this]; rfl
    | some m =>
      rw [hm] at this
      obtain ⟨ch, e, hc⟩ := this
      simp only
      rw [e]
      simp only [Res.bind]
      cases ch with
      | false =>
        rw [if_neg (by simp), hc rfl]
      | true =>
        rw [if_pos rfl, setShape, if_neg]
        rintro ⟨_, h2⟩
        have hb := (merge_bounds hm).1
        have : isCompatible s.shape m = true := by
          rw [compatible_iff]
          intro i hi _
          exact (hb.2 i)
        rw [this] at h2
        cases h2

/-- Invariant of all histories. -/
def Inv {F : Type} (s : VSet F) : Prop :=
  Positive s.shape ∧ (∀ slot vs, s.part slot = some vs → Positive vs) ∧ ∀ slot vs, Varies s slot vs → Broadcasts vs s.shape

theorem broadcasts_trans {a b c : List Nat} (h1 : Broadcasts a b) (h2 : Broadcasts b c) : Broadcasts a c := by
  refine ⟨Nat.le_trans h1.1 h2.1, fun i => ?_⟩
  rcases h1.2 i with h | h
  · exact Or.inl h
  · rw [h]; exact h2.2 i

theorem setPart_inv {F : Type} (s s' : VSet F) (slot : Slot) (vs : List Nat) (hv : Positive vs) (h : Inv s) (e : setPart s slot vs = .ok s') :
    Inv s' ∧ Broadcasts s.shape s'.shape := by
  obtain ⟨h1, h2, h3⟩ := h
  obtain ⟨a1, a2⟩ := adjustShape_spec s vs h1 hv
  unfold setPart at e
  by_cases hn : size vs = 1
  · rw [a1 hn] at e
    simp only [Res.bind] at e
    injection e with e
    subst e
    refine ⟨⟨h1, fun t w ht => ?_, fun t w ht => ?_⟩, ⟨Nat.le_refl _, fun _ => Or.inr rfl⟩⟩
    · simp only at ht
      split at ht
      · injection ht with ht; rw [← ht]; exact hv
      · exact h2 t w ht
    · obtain ⟨ht, hw⟩ := ht
      simp only at ht
      split at ht
      · injection ht with ht; rw [← ht] at hw; exact absurd hn hw
      · exact h3 t w ⟨ht, hw⟩
  · have := a2 hn
    cases hm : mergeShape s.shape vs with
    | none => rw [hm] at this; simp only at this; rw [this] at e; cases e
    | some m =>
      rw [hm] at this
      simp only at this
      rw [this] at e
      simp only [Res.bind] at e
      injection e with e
      subst e
      obtain ⟨b1, b2⟩ := merge_bounds hm
      refine ⟨⟨merge_pos h1 hv hm, fun t w ht => ?_, fun t w ht => ?_⟩, b1⟩
      · simp only at ht
        split at ht
        · injection ht with ht; rw [← ht]; exact hv
        · exact h2 t w ht
      · obtain ⟨ht, hw⟩ := ht
        simp only at ht
        split at ht
        · injection ht with ht; rw [← ht]; exact b2
        · exact broadcasts_trans (h3 t w ⟨ht, hw⟩) b1

theorem step_inv {F : Type} (s : VSet F) (op : Op F) (hw : OpWf op) (h : Inv s) : Inv (step s op) := by
  cases op with
  | set slot vs =>
    unfold step
    simp only
    cases e : setPart s slot vs with
    | ok s' => exact (setPart_inv s s' slot vs hw h e).1
    | err => exact h
    | ub => exact h
  | clr slot =>
    obtain ⟨h1, h2, h3⟩ := h
    refine ⟨h1, fun t w ht => ?_, fun t w ht => ?_⟩
    · simp only [step, clearPart] at ht
      split at ht
      · cases ht
      · exact h2 t w ht
    · obtain ⟨ht, hw⟩ := ht
      simp only [step, clearPart] at ht
      split at ht
      · cases ht
      · exact h3 t w ⟨ht, hw⟩
  | fail f =>
    have hp : (step s (.fail f)).part = (fun _ => none) ∧ (step s (.fail f)).shape = [] := by
      cases f <;> exact ⟨rfl, rfl⟩
    refine ⟨?_, fun t w ht => ?_, fun t w ht => ?_⟩
    · rw [hp.2]; intro n hn; cases hn
    · rw [hp.1] at ht; cases ht
    · have := ht.1; rw [hp.1] at this; cases this

theorem new_inv {F : Type} : Inv (VSet.new : VSet F) :=
  ⟨(fun n hn => by cases hn), (fun t w ht => by cases ht), (fun t w ht => by cases ht.1)⟩

theorem run_inv {F : Type} (ops : List (Op F)) : ∀ s : VSet F, (∀ op ∈ ops, OpWf op) → Inv s → Inv (run s ops) := by
  induction ops with
  | nil => intro s _ h; exact h
  | cons op ops ih => intro s hw h; exact ih _ (fun o ho => hw o (by simp [ho])) (step_inv s op (hw op (by simp)) h)

end Verif.VellSet
