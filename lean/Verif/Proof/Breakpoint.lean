import Verif.Spec.Breakpoint
import Mathlib.Tactic.Common
/-! # Lemmas: properties of breakpoints (C33) -/
namespace Verif.Breakpoint

/-- Flags agree with masks. -/
def Agree (x : Node) : Prop := (x.flagBp = true ↔ x.bp ≠ 0) ∧ (x.flagSs = true ↔ x.ss ≠ 0)

theorem checkGlobal_node (s : St) (m : Nat) : (checkGlobal s m).1.node = s.node := by
  unfold checkGlobal; split <;> rfl

theorem agree_step (s : St) (h : ∀ n, Agree (s.node n)) (op : Op) (n : Nat) : Agree ((step s op).1.node n) := by
  have hn := h n
  cases op with
  | set m k o =>
    simp only [step, upd]
    split
    · unfold setBp
      cases o
      · exact ⟨decide_eq_true_iff, hn.2⟩
      · exact ⟨hn.1, decide_eq_true_iff⟩
    · exact hn
  | clear m k o =>
    simp only [step, upd]
    split
    · unfold clearBp
      cases o
      · exact ⟨decide_eq_true_iff, hn.2⟩
      · exact ⟨hn.1, decide_eq_true_iff⟩
    · exact hn
  | state m b o =>
    simp only [step, upd]
    split
    · unfold setState
      cases b <;> cases o
      · exact hn
      · exact ⟨hn.1, by simp⟩
      · exact ⟨by simp, hn.2⟩
      · exact ⟨by simp, by simp⟩
    · exact hn
  | gset m o => simp only [step]; split <;> exact hn
  | gclear m o => simp only [step]; split <;> exact hn
  | event m es f a =>
    simp only [step, event]
    split
    · exact hn
    split
    · simp only [upd]
      split
      · rw [checkGlobal_node]; exact ⟨hn.1, by simp⟩
      · rw [checkGlobal_node]; exact hn
    split
    · rw [checkGlobal_node]; exact hn
    split <;> (rw [checkGlobal_node]; exact hn)

/-- The mask of a state: its own bit, and bit 7 for a failure on becoming idle. -/
theorem eventMask_bit (es : Nat) (f : Bool) (i : Nat) :
    (eventMask es f).testBit i = true ↔ i = es ∨ (i = 7 ∧ es = 0 ∧ f = true) := by
  have h7 : ∀ i, Nat.testBit 0x80 i = true ↔ i = 7 := by
    intro i
    rw [show (0x80 : Nat) = 2 ^ 7 by decide, Nat.testBit_two_pow]
    simp; exact eq_comm
  unfold eventMask
  rw [Nat.testBit_or, Nat.testBit_two_pow, Bool.or_eq_true, decide_eq_true_eq]
  by_cases h : es = 0 <;> cases f <;> simp [h, h7] <;> omega

theorem ss_step_le (n : Nat) (s : St) (op : Op) (x : Stop) (h : (step s op).2 = some x) (hs : isSsStop n (op, x) = true) :
    (s.node n).ss ≠ 0 ∧ ((step s op).1.node n).ss = 0 := by
  cases op with
  | event m es f a =>
    simp only [isSsStop, Bool.and_eq_true, decide_eq_true_eq] at hs
    obtain ⟨rfl, hl⟩ := hs
    simp only [step, event] at h ⊢
    split at h
    · cases h
    rename_i ha
    rw [if_neg ha]
    split at h
    · rename_i h1
      rw [if_pos h1]
      refine ⟨?_, by simp [upd]⟩
      intro h0
      rw [h0] at h1; simp at h1
    split at h
    · cases h; cases hl
    split at h
    · cases h; cases hl
    · cases h
  | set => cases h
  | clear => cases h
  | state => cases h
  | gset => cases h
  | gclear => cases h

theorem without_zero (m : Nat) : without 0 m = 0 := by simp [without]

theorem ss_zero_step (n : Nat) (s : St) (op : Op) (h0 : (s.node n).ss = 0) (hs : setsSs n op = false) :
    ((step s op).1.node n).ss = 0 := by
  cases op with
  | set m k o =>
    simp only [step, upd]
    split
    · rename_i h; subst h
      cases o
      · exact h0
      · simp [setsSs] at hs
    · exact h0
  | clear m k o =>
    simp only [step, upd]
    split
    · cases o
      · exact h0
      · show without _ _ = 0
        rw [h0, without_zero]
    · exact h0
  | state m b o =>
    simp only [step, upd]
    split
    · rename_i h; subst h
      cases o
      · cases b <;> exact h0
      · simp [setsSs] at hs
    · exact h0
  | gset m o => simp only [step]; split <;> exact h0
  | gclear m o => simp only [step]; split <;> exact h0
  | event m es f a =>
    simp only [step, event]
    split
    · exact h0
    split
    · simp only [upd]
      split
      · rfl
      · rw [checkGlobal_node]; exact h0
    split
    · rw [checkGlobal_node]; exact h0
    split <;> (rw [checkGlobal_node]; exact h0)

theorem ss_count (n : Nat) (ops : List Op) : ∀ s : St,
    (stops s ops).countP (isSsStop n) ≤ ops.countP (setsSs n) + if (s.node n).ss = 0 then 0 else 1 := by
  induction ops with
  | nil => intro s; simp [stops]
  | cons op l ih =>
    intro s
    have h1 := ih (step s op).1
    have hz : (s.node n).ss = 0 → setsSs n op = false → ((step s op).1.node n).ss = 0 := ss_zero_step n s op
    unfold stops
    simp only
    rw [List.countP_cons]
    split
    · rename_i x hx
      rw [List.countP_cons]
      have h2 := ss_step_le n s op x hx
      by_cases hi : isSsStop n (op, x) = true
      · obtain ⟨g1, g2⟩ := h2 hi
        rw [if_pos g2] at h1
        rw [if_pos hi, if_neg g1]
        split <;> omega
      · rw [if_neg hi]
        cases hset : setsSs n op
        · by_cases h0 : (s.node n).ss = 0
          · rw [if_pos (hz h0 hset)] at h1
            simp [h0]; omega
          · rw [if_neg h0]
            split at h1 <;> simp <;> omega
        · simp
          split at h1 <;> split <;> omega
    · cases hset : setsSs n op
      · by_cases h0 : (s.node n).ss = 0
        · rw [if_pos (hz h0 hset)] at h1
          simp [h0]; omega
        · rw [if_neg h0]
          split at h1 <;> simp <;> omega
      · simp
        split at h1 <;> split <;> omega

theorem gss_step (s : St) (op : Op) :
    (∀ x, (step s op).2 = some x → x.globalSs = true → s.gss ≠ 0 ∧ (step s op).1.gss = 0) ∧
      (s.gss = 0 → setsGlobalSs op = false → (step s op).1.gss = 0) := by
  cases op with
  | event n es f a =>
    have hg : ∀ m, ((checkGlobal s m).2.2 = true → s.gss ≠ 0 ∧ (checkGlobal s m).1.gss = 0) ∧
        (s.gss = 0 → (checkGlobal s m).1.gss = 0) := by
      intro m
      unfold checkGlobal
      split
      · rename_i h
        refine ⟨fun _ => ⟨?_, rfl⟩, fun _ => rfl⟩
        intro h0; rw [h0] at h; simp at h
      · exact ⟨fun h => (Bool.false_ne_true h).elim, fun h => h⟩
    obtain ⟨g1, g2⟩ := hg (eventMask es f)
    simp only [step, event]
    split
    · exact ⟨fun x h _ => (by cases h), fun h _ => h⟩
    split
    · exact ⟨fun x h hx => by cases h; exact g1 hx, fun h _ => g2 h⟩
    split
    · exact ⟨fun x h hx => by cases h; exact g1 hx, fun h _ => g2 h⟩
    split
    · exact ⟨fun x h hx => by cases h; exact g1 hx, fun h _ => g2 h⟩
    · exact ⟨fun x h _ => (by cases h), fun h _ => g2 h⟩
  | gset m o =>
    refine ⟨fun x h _ => (by cases h), fun h hs => ?_⟩
    cases o
    · exact h
    · cases hs
  | gclear m o =>
    refine ⟨fun x h _ => (by cases h), fun h _ => ?_⟩
    cases o
    · exact h
    · show without s.gss m = 0
      rw [h, without_zero]
  | set => exact ⟨fun x h _ => (by cases h), fun h _ => h⟩
  | clear => exact ⟨fun x h _ => (by cases h), fun h _ => h⟩
  | state => exact ⟨fun x h _ => (by cases h), fun h _ => h⟩

theorem gss_count (ops : List Op) : ∀ s : St,
    (stops s ops).countP (fun e => e.2.globalSs) ≤ ops.countP setsGlobalSs + if s.gss = 0 then 0 else 1 := by
  induction ops with
  | nil => intro s; simp [stops]
  | cons op l ih =>
    intro s
    have h1 := ih (step s op).1
    obtain ⟨g1, g2⟩ := gss_step s op
    unfold stops
    simp only
    rw [List.countP_cons]
    split
    · rename_i x hx
      rw [List.countP_cons]
      by_cases hi : x.globalSs = true
      · obtain ⟨a1, a2⟩ := g1 x hx hi
        rw [if_pos a2] at h1
        rw [if_pos hi, if_neg a1]
        split <;> omega
      · rw [if_neg hi]
        cases hset : setsGlobalSs op
        · by_cases h0 : s.gss = 0
          · rw [if_pos (g2 h0 hset)] at h1
            simp [h0]; omega
          · rw [if_neg h0]
            split at h1 <;> simp <;> omega
        · simp
          split at h1 <;> split <;> omega
    · cases hset : setsGlobalSs op
      · by_cases h0 : s.gss = 0
        · rw [if_pos (g2 h0 hset)] at h1
          simp [h0]; omega
        · rw [if_neg h0]
          split at h1 <;> simp <;> omega
      · simp
        split at h1 <;> split <;> omega

theorem bp_step (n : Nat) (s : St) (op : Op) (h : touchesBp n op = false) : ((step s op).1.node n).bp = (s.node n).bp := by
  cases op with
  | set m k o =>
    simp only [step, upd]
    split
    · rename_i he; subst he
      cases o
      · simp [touchesBp] at h
      · rfl
    · rfl
  | clear m k o =>
    simp only [step, upd]
    split
    · rename_i he; subst he
      cases o
      · simp [touchesBp] at h
      · rfl
    · rfl
  | state m b o =>
    simp only [step, upd]
    split
    · rename_i he; subst he
      cases b
      · cases o <;> rfl
      · simp [touchesBp] at h
    · rfl
  | gset m o => simp only [step]; split <;> rfl
  | gclear m o => simp only [step]; split <;> rfl
  | event m es f a =>
    simp only [step, event]
    split
    · rfl
    split
    · simp only [upd]
      split
      · rw [checkGlobal_node]
      · rw [checkGlobal_node]
    split
    · rw [checkGlobal_node]
    split <;> rw [checkGlobal_node]

end Verif.Breakpoint
