import Verif.Proof.Cells
/-! # Domains and cells (C41-C44, C73, C74) -/
namespace Verif.CellGrid

/-! ## C41 -/

/-- Covering is a partial order. -/
theorem C41_refl (d : Dom) : Covers d d := fun _ r h => ⟨r, h, le_refl _, le_refl _⟩

theorem C41_trans {d e f : Dom} (h1 : Covers e d) (h2 : Covers f e) : Covers f d := by
  intro i r h
  obtain ⟨s, hs, a, b⟩ := h1 i r h
  obtain ⟨t, ht, c, d⟩ := h2 i s hs
  exact ⟨t, ht, le_trans c a, le_trans b d⟩

/-- Two domains covering each other are equal, also for the program. -/
theorem C41_antisymm {d e : Dom} (h1 : Covers e d) (h2 : Covers d e) : d = e ∧ d.eq e = true := by
  have : d = e := by
    cases d with
    | mk da =>
      cases e with
      | mk ea =>
        congr 1
        funext i
        cases h : da i with
        | none =>
          cases h' : ea i with
          | none => rfl
          | some r =>
            obtain ⟨s, hs, _⟩ := h2 i r h'
            simp only at hs
            rw [h] at hs
            cases hs
        | some r =>
          obtain ⟨s, hs, a, b⟩ := h1 i r h
          obtain ⟨t, ht, c, d⟩ := h2 i s hs
          simp only at hs ht
          rw [h] at ht
          injection ht with ht
          subst ht
          rw [hs]
          congr 1
          exact Prod.ext (le_antisymm c a) (le_antisymm b d)
  subst this
  exact ⟨rfl, by simp [Dom.eq]⟩

/-- The envelope covers both domains, and every domain that covers both covers it. -/
theorem C41_envelope (a b : Dom) (ha : a.Wf) (hb : b.Wf) : ∃ e, envelope a b = .ok e ∧ e.Wf ∧ Covers e a ∧ Covers e b ∧
    ∀ d, Covers d a → Covers d b → Covers d e := by
  refine ⟨_, envelope_eq a b ha hb, ⟨?_, ?_⟩, ?_, ?_, ?_⟩
  · intro i r h
    simp only at h
    cases h1 : a.axis i with
    | none => rw [h1] at h; exact hb.1 i r h
    | some s =>
      cases h2 : b.axis i with
      | none => rw [h1, h2] at h; simp only [join, Option.some.injEq] at h; rw [← h]; exact ha.1 i s h1
      | some t => rw [h1, h2] at h; simp only [join, Option.some.injEq] at h; rw [← h]; exact join_lt (ha.1 i s h1)
  · intro i hi
    simp only [ha.2 i hi, hb.2 i hi, join]
  · intro i r h
    simp only [h]
    cases h2 : b.axis i with
    | none => exact ⟨r, rfl, le_refl _, le_refl _⟩
    | some t => exact ⟨_, rfl, min_le_left _ _, le_max_left _ _⟩
  · intro i r h
    simp only [h]
    cases h2 : a.axis i with
    | none => exact ⟨r, rfl, le_refl _, le_refl _⟩
    | some t => exact ⟨_, rfl, min_le_right _ _, le_max_right _ _⟩
  · intro d h1 h2 i r h
    simp only at h
    cases ha' : a.axis i with
    | none => rw [ha'] at h; exact h2 i r h
    | some s =>
      cases hb' : b.axis i with
      | none => rw [ha', hb'] at h; simp only [join, Option.some.injEq] at h; rw [← h]; exact h1 i s ha'
      | some t =>
        rw [ha', hb'] at h
        simp only [join, Option.some.injEq] at h
        rw [← h]
        obtain ⟨u, hu, c, c'⟩ := h1 i s ha'
        obtain ⟨v, hv, e, e'⟩ := h2 i t hb'
        rw [hu] at hv
        injection hv with hv
        subst hv
        exact ⟨u, hu, le_min c e, max_le c' e'⟩

/-- Expanding a domain in place gives the envelope. -/
theorem C41_expand (a b : Dom) (ha : a.Wf) (hb : b.Wf) : expandToEnvelope a b = envelope a b := by
  rw [envelope_eq a b ha hb]
  unfold expandToEnvelope
  rw [loop_axes (expandStep b) a (fun k => join (a.axis k) (b.axis k))]
  · congr 2
    funext k
    by_cases h : k < maxAxis
    · rw [if_pos h]
    · rw [if_neg h, ha.2 k (by omega), hb.2 k (by omega)]
      rfl
  · intro i hi d hd
    have hsame : ∀ r, r = d.axis i → (⟨fun k => if k = i then r else d.axis k⟩ : Dom) = d := by
      intro r hr
      cases d with
      | mk ax =>
        congr 1
        funext k
        by_cases h : k = i
        · subst h; simp only [if_true]; exact hr
        · rw [if_neg h]
    unfold expandStep
    cases h2 : b.axis i with
    | none =>
      rw [defined_none h2]
      simp only [Bool.false_eq_true, if_false]
      congr 1
      refine (hsame _ ?_).symm
      rw [hd]
      cases a.axis i <;> rfl
    | some s =>
      rw [defined_some h2]
      simp only [if_true]
      cases h1 : a.axis i with
      | none =>
        rw [h1] at hd
        rw [defined_none hd, range_some h2]
        simp only [Bool.false_eq_true, if_false, join]
        exact define_ok _ _ _ _ hi (hb.1 i s h2)
      | some r =>
        rw [h1] at hd
        rw [defined_some hd, range_some hd, range_some h2]
        simp only [if_true, join]
        split
        · exact define_ok _ _ _ _ hi (join_lt (ha.1 i r h1))
        · rename_i h
          simp only [not_or, not_not] at h
          congr 1
          refine (hsame _ ?_).symm
          rw [hd, h.1, h.2]

/-- Every domain built by defining axes is proper, whichever way round the ends are given. -/
theorem C41_define (d : Dom) (hd : d.Wf) (i : Nat) (a1 a2 : ℚ) :
    (maxAxis ≤ i ∧ defineAxis d i a1 a2 = .err) ∨
    (i < maxAxis ∧ ∃ e, defineAxis d i a1 a2 = .ok e ∧ e.Wf ∧ (∀ k, k ≠ i → e.axis k = d.axis k) ∧
      (a1 ≠ a2 → e.axis i = some (min a1 a2, max a1 a2))) := by
  by_cases hi : maxAxis ≤ i
  · left
    exact ⟨hi, by unfold defineAxis; rw [if_pos hi]⟩
  · right
    refine ⟨by omega, _, by unfold defineAxis; rw [if_neg hi], ⟨?_, ?_⟩, ?_, ?_⟩
    · intro k r h
      simp only at h
      by_cases hk : k = i
      · rw [if_pos hk] at h
        injection h with h
        rw [← h]
        split
        · rename_i h'; simp only [h']; linarith
        · split
          · assumption
          · rename_i h1 h2
            exact lt_of_le_of_ne (not_lt.1 h2) h1
      · rw [if_neg hk] at h
        exact hd.1 k r h
    · intro k hk
      simp only
      rw [if_neg (by omega)]
      exact hd.2 k hk
    · intro k hk
      simp only [if_neg hk]
    · intro hne
      simp only [if_true, if_neg hne]
      congr 1
      split
      · rename_i h
        rw [min_eq_right (le_of_lt h), max_eq_left (le_of_lt h)]
      · rename_i h
        rw [min_eq_left (not_lt.1 h), max_eq_right (not_lt.1 h)]

/-! ## C73 -/

/-- The superset test says what it is documented to say. -/
theorem C73_superset (d o : Dom) (hd : d.Wf) : supersetOfProj d o = true ↔ IncludesProj d o := by
  unfold supersetOfProj IncludesProj
  simp only [List.all_eq_true, List.mem_range]
  constructor
  · intro h i r hr
    have hi : i < maxAxis := by
      by_contra hc
      rw [hd.2 i (by omega)] at hr
      cases hr
    have h1 := h i hi
    rw [defined_some hr, range_some hr] at h1
    cases ho : o.axis i with
    | none => rw [defined_none ho] at h1; simp at h1
    | some s =>
      rw [defined_some ho, range_some ho] at h1
      simp at h1
      exact ⟨s, rfl, h1.1, h1.2⟩
  · intro h i hi
    cases hr : d.axis i with
    | none => rw [defined_none hr]; rfl
    | some r =>
      obtain ⟨s, hs, h1, h2⟩ := h i r hr
      rw [defined_some hr, range_some hr, defined_some hs, range_some hs]
      simp [h1, h2]

/-- The envelope of two domains passes the superset test against both. -/
def C73_full : Prop := ∀ a b e : Dom, a.Wf → b.Wf → envelope a b = .ok e → supersetOfProj e a = true ∧ supersetOfProj e b = true

/-- Only if they have the same axes. -/
theorem C73_envelope_partial (a b e : Dom) (ha : a.Wf) (hb : b.Wf) (hax : ∀ i, a.isDefined i = b.isDefined i)
    (he : envelope a b = .ok e) : supersetOfProj e a = true ∧ supersetOfProj e b = true := by
  obtain ⟨e', h1, hw, h2, h3, _⟩ := C41_envelope a b ha hb
  rw [h1] at he
  injection he with he
  subst he
  have e1 := envelope_eq a b ha hb
  rw [h1] at e1
  injection e1 with e1
  rw [C73_superset _ _ hw, C73_superset _ _ hw]
  constructor
  · intro i r hr
    cases h : a.axis i with
    | none =>
      have := hax i
      rw [defined_none h] at this
      cases hb' : b.axis i with
      | none => rw [e1] at hr; simp only [h, hb', join] at hr; cases hr
      | some s => rw [defined_some hb'] at this; cases this
    | some s =>
      obtain ⟨t, ht, c1, c2⟩ := h2 i s h
      rw [ht] at hr
      injection hr with hr
      subst hr
      exact ⟨s, rfl, c1, c2⟩
  · intro i r hr
    cases h : b.axis i with
    | none =>
      have := hax i
      rw [defined_none h] at this
      cases hb' : a.axis i with
      | none => rw [e1] at hr; simp only [h, hb', join] at hr; cases hr
      | some s => rw [defined_some hb'] at this; cases this
    | some s =>
      obtain ⟨t, ht, c1, c2⟩ := h3 i s h
      rw [ht] at hr
      injection hr with hr
      subst hr
      exact ⟨s, rfl, c1, c2⟩

/-- Otherwise not: a domain in frequency, a domain in time. -/
theorem C73_refuted : ¬ C73_full := by
  intro h
  have ha := oneAxis_wf 0 0 1 (by decide) (by norm_num)
  have hb := oneAxis_wf 1 0 1 (by decide) (by norm_num)
  obtain ⟨e, he, hw, _, hc, _⟩ := C41_envelope _ _ ha hb
  have h1 := (h _ _ e ha hb he).1
  rw [C73_superset _ _ hw] at h1
  obtain ⟨s, hs, _⟩ := hc 1 (0, 1) rfl
  obtain ⟨t, ht, _⟩ := h1 1 s hs
  exact absurd ht (by simp [oneAxis])

example : ∃ e, envelope (oneAxis 0 0 1) (oneAxis 0 2 5) = .ok e ∧ e.axis 0 = some (0, 5) := by
  refine ⟨_, envelope_eq _ _ (oneAxis_wf _ _ _ (by decide) (by norm_num)) (oneAxis_wf _ _ _ (by decide) (by norm_num)), ?_⟩
  simp [oneAxis, join]

/-! ## C42 -/

/-- The segments of an axis, one after the other, are its cells, each once and in order; each segment has a cell; within
a segment neighbouring steps, and sizes, agree up to the tolerance; and no segment ends before there is a change. -/
theorem C42_partition_partial (x h : List ℚ) (hl : x.length = h.length) :
    (segments x h).flatMap cellsOf = List.range x.length ∧ (x ≠ [] → ∀ p ∈ segments x h, 0 ≤ p.1 ∧ p.1 ≤ p.2) ∧
    (∀ p ∈ segments x h, Regular x h (epsilon x) p) ∧ (segments x h).IsChain (Break x h (epsilon x)) := by
  unfold segments
  split
  · rename_i hn
    have hreg : ∀ p ∈ [((0 : Int), (x.length : Int) - 1)], Regular x h (epsilon x) p := by
      intro p hp
      rw [List.mem_singleton] at hp
      subst hp
      constructor
      · intro i h1 h2; simp only at h1 h2; omega
      · intro i h1 h2
        simp only at h1 h2
        have : i = 0 := by omega
        subst this
        simpa using epsilon_nonneg x
    refine ⟨?_, ?_, hreg, by simp⟩
    · match x, hn with
      | [], _ => rfl
      | [a], _ => rfl
    · intro hx p hp
      rw [List.mem_singleton] at hp
      subst hp
      have := List.length_pos_iff.2 hx
      simp only
      omega
  · rename_i hn
    obtain ⟨segs, h1, h2, h3, h4, h5⟩ := seg_loop x h (epsilon x) (epsilon_nonneg x) (x.zip h).tail 1
      ⟨[], 0, 0, 0, h.headD 0, false, x.headD 0⟩ (by simp) (by omega) hl (by
      refine ⟨rfl, Nat.le_refl _, rfl, (by intro p hp; cases hp), ?_, by simp, ?_, ?_, by simp, fun h => absurd h (Nat.lt_irrefl _)⟩
      · intro p hp
        simp only [List.nil_append, List.mem_singleton] at hp
        subst hp
        constructor
        · intro i h1 h2; simp only at h1 h2; omega
        · intro i h1 h2
          simp only at h1 h2
          have : i = 0 := by omega
          subst this
          simpa using epsilon_nonneg x
      · cases x <;> rfl
      · cases h <;> rfl)
    rw [h1]
    exact ⟨h2, fun _ => h3, h4, h5⟩

/-- All steps within a segment agree up to the tolerance. -/
def C42_full : Prop := ∀ x h : List ℚ, x.length = h.length → ∀ p ∈ segments x h, ∀ i j : Nat, p.1 < i → (i : Int) ≤ p.2 →
  p.1 < j → (j : Int) ≤ p.2 → |(at' x i - at' x (i - 1)) - (at' x j - at' x (j - 1))| ≤ epsilon x

/-- Steps that grow slowly are taken to be one segment. -/
theorem C42_refuted : ¬ C42_full := by
  intro h
  have h1 := h [0, 1, 2 + 2 / 10000000000, 3 + 6 / 10000000000] [1, 1, 1, 1] rfl (0, 3) (by decide +kernel) 1 3 (by decide) (by decide)
    (by decide) (by decide)
  revert h1
  decide +kernel

/-- How far two steps of a segment can be apart. -/
theorem C42_drift (x h : List ℚ) (hl : x.length = h.length) (p : Int × Int) (hp : p ∈ segments x h) (i : Nat) (hi : p.1 < i)
    (k : Nat) (hk : ((i + k : Nat) : Int) ≤ p.2) :
    |(at' x (i + k) - at' x (i + k - 1)) - (at' x i - at' x (i - 1))| ≤ k * epsilon x := by
  have hr := (C42_partition_partial x h hl).2.2.1 p hp
  have hp0 : 0 ≤ p.1 := by
    by_cases hx : x = []
    · subst hx
      have : p = (0, -1) := by simpa [segments] using hp
      subst this
      decide
    · exact ((C42_partition_partial x h hl).2.1 hx p hp).1
  induction k with
  | zero => simp
  | succ k ih =>
    have h1 := ih (by omega)
    have h2 := hr.1 (i + k) (by omega) (by omega)
    rw [show i + (k + 1) = i + k + 1 by omega, show i + k + 1 - 1 = i + k by omega]
    have e : (at' x (i + k + 1) - at' x (i + k)) - (at' x i - at' x (i - 1)) =
        ((at' x (i + k + 1) - at' x (i + k)) - (at' x (i + k) - at' x (i + k - 1))) +
        ((at' x (i + k) - at' x (i + k - 1)) - (at' x i - at' x (i - 1))) := by ring
    rw [e]
    refine le_trans (abs_add_le _ _) ?_
    push_cast
    linarith

example : segments [1, 2, 3, 10, 20, 30] [1, 1, 1, 10, 10, 10] = [(0, 2), (3, 5)] := by decide +kernel

end Verif.CellGrid
