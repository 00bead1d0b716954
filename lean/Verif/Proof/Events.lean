import Verif.Spec.Events
import Mathlib.Data.List.Induction
/-! Lemmas about event sources. -/
namespace Verif.Events
open EventsSpec

/-! ### Timeouts -/

/-- `next_to` is set and not later than any timeout. -/
def TInv (s : TState) : Prop := ∀ t ∈ s.list, ∃ n, s.nextTo = some n ∧ n ≤ t.next

theorem earlier_le (n : Option Nat) (t : Nat) :
    ∃ m, earlier n t = some m ∧ m ≤ t ∧ ∀ k, n = some k → m ≤ k := by
  unfold earlier
  cases n with
  | none => exact ⟨t, rfl, Nat.le_refl _, by simp⟩
  | some k =>
    simp only
    split
    · rename_i h; exact ⟨t, rfl, Nat.le_refl _, by intro k' hk; simp at hk; omega⟩
    · rename_i h; exact ⟨k, rfl, by omega, by intro k' hk; simp at hk; omega⟩

theorem checkLoop_inv (now : Nat) (l : List Timeout) (nt : Option Nat) :
    (∀ k, nt = some k → ∃ m, (checkLoop now l nt).2.1 = some m ∧ m ≤ k) ∧
    ∀ t ∈ (checkLoop now l nt).1, ∃ m, (checkLoop now l nt).2.1 = some m ∧ m ≤ t.next := by
  induction l generalizing nt with
  | nil => exact ⟨fun k hk => ⟨k, hk, Nat.le_refl _⟩, by simp [checkLoop]⟩
  | cons t rest ih =>
    simp only [checkLoop]
    split
    · split
      · exact ih nt
      · obtain ⟨e, he, h1, h2⟩ := earlier_le nt (now + t.period)
        obtain ⟨i1, i2⟩ := ih (earlier nt (now + t.period))
        obtain ⟨m, hm, hme⟩ := i1 e he
        refine ⟨fun k hk => ⟨m, hm, Nat.le_trans hme (h2 k hk)⟩, ?_⟩
        intro x hx
        rcases List.mem_cons.1 hx with rfl | hx
        · exact ⟨m, hm, Nat.le_trans hme h1⟩
        · exact i2 x hx
    · obtain ⟨e, he, h1, h2⟩ := earlier_le nt t.next
      obtain ⟨i1, i2⟩ := ih (earlier nt t.next)
      obtain ⟨m, hm, hme⟩ := i1 e he
      refine ⟨fun k hk => ⟨m, hm, Nat.le_trans hme (h2 k hk)⟩, ?_⟩
      intro x hx
      rcases List.mem_cons.1 hx with rfl | hx
      · exact ⟨m, hm, Nat.le_trans hme h1⟩
      · exact i2 x hx

theorem removeTimeoutLoop_split (wp : Nat) (id : List Int) (l : List Timeout) :
    (∃ x t y, l = x ++ t :: y ∧ (t.wp = wp ∧ Hiid.matches_ false id t.id = true) ∧
      (∀ z ∈ x, ¬ (z.wp = wp ∧ Hiid.matches_ false id z.id = true)) ∧
      removeTimeoutLoop wp id l = (x ++ y, true)) ∨
    ((∀ z ∈ l, ¬ (z.wp = wp ∧ Hiid.matches_ false id z.id = true)) ∧
      removeTimeoutLoop wp id l = (l, false)) := by
  induction l with
  | nil => right; simp [removeTimeoutLoop]
  | cons a r ih =>
    by_cases hp : a.wp = wp ∧ Hiid.matches_ false id a.id = true
    · left; exact ⟨[], a, r, rfl, hp, by simp, by simp [removeTimeoutLoop, hp]⟩
    · have hb : (decide (a.wp = wp) && Hiid.matches_ false id a.id) = false := by
        rw [Bool.eq_false_iff]; simpa using hp
      have hstep : removeTimeoutLoop wp id (a :: r) =
          (a :: (removeTimeoutLoop wp id r).1, (removeTimeoutLoop wp id r).2) := by
        simp only [removeTimeoutLoop, hb]; simp
      rw [hstep]
      rcases ih with ⟨x, e, y, rfl, he, hz, h⟩ | ⟨hz, h⟩
      · left
        refine ⟨a :: x, e, y, rfl, he, ?_, by simp [h]⟩
        intro z hz'
        rcases List.mem_cons.1 hz' with rfl | h'
        · exact hp
        · exact hz z h'
      · right
        refine ⟨?_, by simp [h]⟩
        intro z hz'
        rcases List.mem_cons.1 hz' with rfl | h'
        · exact hp
        · exact hz z h'

theorem tstep_inv {s : TState} (h : TInv s) (o : TOp) : TInv (tstep s o) := by
  cases o with
  | add now wp p id os =>
    simp only [tstep, addTimeout]
    split
    · exact h
    · simp only [Option.getD_some]
      intro t ht
      simp only [List.mem_cons] at ht
      cases hn : s.nextTo with
      | none =>
        rcases ht with rfl | ht
        · exact ⟨_, rfl, Nat.le_refl _⟩
        · obtain ⟨n, hn', _⟩ := h t ht; rw [hn] at hn'; simp at hn'
      | some n =>
        simp only
        split
        · rename_i hlt
          refine ⟨_, rfl, ?_⟩
          rcases ht with rfl | ht
          · exact Nat.le_refl _
          · obtain ⟨n', hn', hle⟩ := h t ht; rw [hn] at hn'; simp at hn'; omega
        · rename_i hlt
          refine ⟨_, rfl, ?_⟩
          rcases ht with rfl | ht
          · simp only at hlt ⊢; omega
          · obtain ⟨n', hn', hle⟩ := h t ht; rw [hn] at hn'; simp at hn'; omega
  | remove wp id =>
    intro t ht
    simp only [tstep, removeTimeout] at ht ⊢
    apply h t
    rcases removeTimeoutLoop_split wp id s.list with ⟨x, e, y, hl, _, _, h'⟩ | ⟨_, h'⟩
    · rw [h'] at ht; rw [hl]; simp at ht ⊢; rcases ht with h | h <;> simp [h]
    · rw [h'] at ht; exact ht
  | detach wp =>
    intro t ht
    simp only [tstep, detachTimeouts] at ht ⊢
    exact h t (List.mem_filter.1 ht).1
  | check now =>
    simp only [tstep, checkTimeouts]
    split
    · split
      · intro t ht
        exact (checkLoop_inv now s.list none).2 t ht
      · exact h
    · exact h

theorem trun_inv (ops : List TOp) : TInv (trun ops) := by
  unfold trun
  have : ∀ s, TInv s → TInv (ops.foldl tstep s) := by
    induction ops with
    | nil => exact fun s h => h
    | cons o os ih => exact fun s h => ih _ (tstep_inv h o)
  exact this _ (by intro t ht; simp at ht)

theorem checkLoop_result (now : Nat) (l : List Timeout) (nt : Option Nat) :
    (checkLoop now l nt).2.2 = l.filter (fun t => t.next ≤ now) ∧
    (checkLoop now l nt).1 = (l.filter (fun t => ¬ (t.next ≤ now ∧ t.oneshot = true))).map
      (fun t => if t.next ≤ now then { t with next := now + t.period } else t) := by
  induction l generalizing nt with
  | nil => simp [checkLoop]
  | cons t rest ih =>
    simp only [checkLoop]
    split
    · rename_i hd
      split
      · rename_i ho
        obtain ⟨i1, i2⟩ := ih nt
        simp [hd, ho, i1, i2]
      · rename_i ho
        obtain ⟨i1, i2⟩ := ih (earlier nt (now + t.period))
        simp [hd, ho, i1, i2]
    · rename_i hd
      obtain ⟨i1, i2⟩ := ih (earlier nt t.next)
      simp [hd, i1, i2]

/-! ### Inputs -/

/-- One entry per (worker, fd); valid descriptors. -/
structure IInv (s : IState) : Prop where
  uniq : s.inputs.Pairwise (fun a b => ¬ (a.wp = b.wp ∧ a.fd = b.fd))
  nonneg : ∀ i ∈ s.inputs, 0 ≤ i.fd
  watched : s.watched = rebuild s.inputs

/-- Some entry watches (wp, fd, b). -/
def Has (l : List Input) (wp : Nat) (fd : Int) (b : Nat) : Prop :=
  ∃ i ∈ l, i.wp = wp ∧ i.fd = fd ∧ i.flags.getLsbD b = true

theorem evFdAll_bit {b : Nat} (hb : b = 8 ∨ b = 9 ∨ b = 10) : evFdAll.getLsbD b = true := by
  rcases hb with rfl | rfl | rfl <;> decide

theorem addInputLoop_some {wp : Nat} {fd : Int} {fl : Flags} {l l' : List Input}
    (h : addInputLoop wp fd fl l = some l') :
    ∃ x i y, l = x ++ i :: y ∧ i.wp = wp ∧ i.fd = fd ∧
      l' = x ++ { i with flags := fl ||| (i.flags &&& evFdAll) } :: y := by
  induction l generalizing l' with
  | nil => simp [addInputLoop] at h
  | cons a r ih =>
    simp only [addInputLoop] at h
    split at h
    · rename_i hc
      simp at h
      exact ⟨[], a, r, rfl, hc.1, hc.2, h.symm⟩
    · cases hr : addInputLoop wp fd fl r with
      | none => rw [hr] at h; simp at h
      | some l1 =>
        rw [hr] at h
        simp at h
        obtain ⟨x, i, y, rfl, h1, h2, rfl⟩ := ih hr
        exact ⟨a :: x, i, y, rfl, h1, h2, by simp [← h]⟩

theorem addInputLoop_none {wp : Nat} {fd : Int} {fl : Flags} {l : List Input}
    (h : addInputLoop wp fd fl l = none) : ∀ i ∈ l, ¬ (i.wp = wp ∧ i.fd = fd) := by
  induction l with
  | nil => simp
  | cons a r ih =>
    simp only [addInputLoop] at h
    split at h
    · simp at h
    · rename_i hc
      intro i hi
      rcases List.mem_cons.1 hi with rfl | hi
      · exact hc
      · exact ih (by simpa using h) i hi

theorem removeInputLoop_some {wp : Nat} {fd : Int} {fl : Flags} (hfd : 0 ≤ fd) {l l' : List Input}
    (h : removeInputLoop wp fd fl l = some l') :
    ∃ x i y, l = x ++ i :: y ∧ i.wp = wp ∧ i.fd = fd ∧
      ((i.flags &&& ~~~fl = 0 ∧ l' = x ++ y) ∨
       l' = x ++ { i with flags := i.flags &&& ~~~fl } :: y) := by
  induction l generalizing l' with
  | nil => simp [removeInputLoop] at h
  | cons a r ih =>
    simp only [removeInputLoop] at h
    split at h
    · rename_i hc
      have hfd' : a.fd = fd := by rcases hc.2 with h | h <;> omega
      split at h
      · rename_i h0
        simp at h
        exact ⟨[], a, r, rfl, hc.1, hfd', Or.inl ⟨h0, h.symm⟩⟩
      · simp at h
        exact ⟨[], a, r, rfl, hc.1, hfd', Or.inr h.symm⟩
    · cases hr : removeInputLoop wp fd fl r with
      | none => rw [hr] at h; simp at h
      | some l1 =>
        rw [hr] at h
        simp at h
        obtain ⟨x, i, y, rfl, h1, h2, h3⟩ := ih hr
        refine ⟨a :: x, i, y, rfl, h1, h2, ?_⟩
        rcases h3 with ⟨h0, rfl⟩ | rfl
        · left; exact ⟨h0, by simp [← h]⟩
        · right; simp [← h]

theorem removeInputLoop_none {wp : Nat} {fd : Int} {fl : Flags} {l : List Input}
    (h : removeInputLoop wp fd fl l = none) : ∀ i ∈ l, ¬ (i.wp = wp ∧ i.fd = fd) := by
  induction l with
  | nil => simp
  | cons a r ih =>
    simp only [removeInputLoop] at h
    split at h
    · split at h <;> simp at h
    · rename_i hc
      intro i hi
      rcases List.mem_cons.1 hi with rfl | hi
      · exact fun h' => hc ⟨h'.1, Or.inr h'.2⟩
      · exact ih (by simpa using h) i hi

theorem pairwise_replace {x y : List Input} {i j : Input} (hw : j.wp = i.wp) (hf : j.fd = i.fd)
    (h : (x ++ i :: y).Pairwise (fun a b => ¬ (a.wp = b.wp ∧ a.fd = b.fd))) :
    (x ++ j :: y).Pairwise (fun a b => ¬ (a.wp = b.wp ∧ a.fd = b.fd)) := by
  rw [List.pairwise_append, List.pairwise_cons] at h ⊢
  obtain ⟨h1, ⟨h2, h3⟩, h4⟩ := h
  refine ⟨h1, ⟨?_, h3⟩, ?_⟩
  · intro b hb; rw [hw, hf]; exact h2 b hb
  · intro a ha b hb
    rcases List.mem_cons.1 hb with rfl | hb
    · rw [hw, hf]; exact h4 a ha i (by simp)
    · exact h4 a ha b (by simp [hb])

theorem pairwise_drop {x y : List Input} {i : Input}
    (h : (x ++ i :: y).Pairwise (fun a b => ¬ (a.wp = b.wp ∧ a.fd = b.fd))) :
    (x ++ y).Pairwise (fun a b => ¬ (a.wp = b.wp ∧ a.fd = b.fd)) := by
  rw [List.pairwise_append, List.pairwise_cons] at h
  rw [List.pairwise_append]
  obtain ⟨h1, ⟨h2, h3⟩, h4⟩ := h
  exact ⟨h1, h3, fun a ha b hb => h4 a ha b (by simp [hb])⟩

theorem other_ne {x y : List Input} {i j : Input}
    (h : (x ++ i :: y).Pairwise (fun a b => ¬ (a.wp = b.wp ∧ a.fd = b.fd)))
    (hj : j ∈ x ∨ j ∈ y) : ¬ (j.wp = i.wp ∧ j.fd = i.fd) := by
  rw [List.pairwise_append, List.pairwise_cons] at h
  obtain ⟨h1, ⟨h2, h3⟩, h4⟩ := h
  rcases hj with hj | hj
  · exact h4 j hj i (by simp)
  · exact fun e => h2 j hj ⟨e.1.symm, e.2.symm⟩

/-- Calls the refinement covers: removals name a descriptor. -/
def IOpOk : IOp → Prop
  | .remove _ fd _ => 0 ≤ fd
  | _ => True

theorem istep_inv {s : IState} (h : IInv s) (o : IOp) (ho : IOpOk o) : IInv (istep s o) := by
  cases o with
  | add wp fd fl =>
    simp only [istep, addInput]
    split
    · exact h
    · split
      · exact h
      · rename_i hfd _
        simp only [Option.getD_some]
        cases hl : addInputLoop wp fd fl s.inputs with
        | none =>
          refine ⟨?_, ?_, rfl⟩
          · simp only [List.pairwise_cons]
            exact ⟨fun b hb e => addInputLoop_none hl b hb ⟨e.1.symm, e.2.symm⟩, h.uniq⟩
          · intro i hi
            rcases List.mem_cons.1 hi with rfl | hi
            · simp only; omega
            · exact h.nonneg i hi
        | some l' =>
          obtain ⟨x, i, y, he, h1, h2, rfl⟩ := addInputLoop_some hl
          refine ⟨pairwise_replace (i := i) rfl rfl (by rw [← he]; exact h.uniq), ?_, rfl⟩
          have hnn := h.nonneg
          rw [he] at hnn
          intro j hj
          simp only [List.mem_append, List.mem_cons] at hj
          rcases hj with hj | rfl | hj
          · exact hnn j (by simp [hj])
          · exact hnn i (by simp)
          · exact hnn j (by simp [hj])
  | remove wp fd fl =>
    have hfd : 0 ≤ fd := ho
    simp only [istep, removeInput, if_neg (show ¬ fd < 0 by omega)]
    cases hl : removeInputLoop wp fd fl s.inputs with
    | none => exact h
    | some l' =>
      obtain ⟨x, i, y, he, h1, h2, h3⟩ := removeInputLoop_some hfd hl
      have hnn := h.nonneg
      rw [he] at hnn
      rcases h3 with ⟨_, rfl⟩ | rfl
      · refine ⟨pairwise_drop (he ▸ h.uniq), ?_, rfl⟩
        intro j hj
        simp only [List.mem_append] at hj
        rcases hj with hj | hj <;> exact hnn j (by simp [hj])
      · refine ⟨pairwise_replace (i := i) rfl rfl (by rw [← he]; exact h.uniq), ?_, rfl⟩
        intro j hj
        simp only [List.mem_append, List.mem_cons] at hj
        rcases hj with hj | rfl | hj
        · exact hnn j (by simp [hj])
        · exact hnn i (by simp)
        · exact hnn j (by simp [hj])
  | detach wp =>
    simp only [istep, detachInputs]
    exact ⟨h.uniq.filter _, fun i hi => h.nonneg i (List.mem_filter.1 hi).1, rfl⟩

theorem istep_has {s : IState} (h : IInv s) (o : IOp) (ho : IOpOk o) (past : List IOp) (wp : Nat)
    (fd : Int) (b : Nat) (hb : b = 8 ∨ b = 9 ∨ b = 10)
    (ih : Has s.inputs wp fd b ↔ Wanted past wp fd b) :
    Has (istep s o).inputs wp fd b ↔ Wanted (o :: past) wp fd b := by
  cases o with
  | add w f fl =>
    simp only [istep, addInput, Wanted]
    rw [← ih]
    split
    · rename_i hf
      simp only [Option.getD_none]
      constructor
      · exact Or.inr
      · rintro (⟨h0, _⟩ | h)
        · omega
        · exact h
    · split
      · rename_i hf h0
        simp only [Option.getD_none]
        constructor
        · exact Or.inr
        · rintro (⟨_, _, _, hbit⟩ | h)
          · have : (fl &&& evFdAll).getLsbD b = true := by
              rw [BitVec.getLsbD_and, hbit, evFdAll_bit hb]; rfl
            rw [h0] at this; simp at this
          · exact h
      · rename_i hf _
        simp only [Option.getD_some]
        cases hl : addInputLoop w f fl s.inputs with
        | none =>
          simp only [Has, List.mem_cons, exists_eq_or_imp]
          constructor
          · rintro (⟨h1, h2, h3⟩ | h)
            · exact Or.inl ⟨by omega, h1, h2, h3⟩
            · exact Or.inr h
          · rintro (⟨_, h1, h2, h3⟩ | h)
            · exact Or.inl ⟨h1, h2, h3⟩
            · exact Or.inr h
        | some l' =>
          obtain ⟨x, i, y, he, h1, h2, rfl⟩ := addInputLoop_some hl
          rw [he]
          simp only [Has, List.mem_append, List.mem_cons]
          constructor
          · rintro ⟨j, hj, hw, hfd, hbit⟩
            rcases hj with hj | rfl | hj
            · exact Or.inr ⟨j, Or.inl hj, hw, hfd, hbit⟩
            · simp only [BitVec.getLsbD_or, BitVec.getLsbD_and, evFdAll_bit hb, Bool.and_true,
                Bool.or_eq_true] at hbit
              rcases hbit with hbit | hbit
              · exact Or.inl ⟨by omega, h1.symm.trans hw, h2.symm.trans hfd, hbit⟩
              · exact Or.inr ⟨i, Or.inr (Or.inl rfl), hw, hfd, hbit⟩
            · exact Or.inr ⟨j, Or.inr (Or.inr hj), hw, hfd, hbit⟩
          · rintro (⟨_, hw, hfd, hbit⟩ | ⟨j, hj, hw, hfd, hbit⟩)
            · exact ⟨_, Or.inr (Or.inl rfl), h1.trans hw, h2.trans hfd, by simp [hbit]⟩
            · rcases hj with hj | rfl | hj
              · exact ⟨j, Or.inl hj, hw, hfd, hbit⟩
              · exact ⟨_, Or.inr (Or.inl rfl), hw, hfd, by simp [hbit, evFdAll_bit hb]⟩
              · exact ⟨j, Or.inr (Or.inr hj), hw, hfd, hbit⟩
  | remove w f fl =>
    have hf : 0 ≤ f := ho
    simp only [istep, removeInput, if_neg (show ¬ f < 0 by omega), Wanted]
    rw [← ih]
    cases hl : removeInputLoop w f fl s.inputs with
    | none =>
      have hno := removeInputLoop_none hl
      simp only
      constructor
      · rintro ⟨j, hj, hw, hfd, hbit⟩
        refine ⟨⟨j, hj, hw, hfd, hbit⟩, ?_⟩
        rintro ⟨rfl, rfl, _⟩
        exact hno j hj ⟨hw, hfd⟩
      · exact fun h => h.1
    | some l' =>
      obtain ⟨x, i, y, he, h1, h2, h3⟩ := removeInputLoop_some hf hl
      have huniq := h.uniq
      rw [he] at huniq ⊢
      have hother : ∀ j, j ∈ x ∨ j ∈ y → ¬ (w = j.wp ∧ f = j.fd) :=
        fun j hj e => other_ne huniq hj ⟨e.1.symm.trans h1.symm, e.2.symm.trans h2.symm⟩
      have hclear : i.flags &&& ~~~fl = 0 → i.flags.getLsbD b = true → fl.getLsbD b = true := by
        intro h0 hi
        by_contra hfl
        have h31 : b < 32 := by rcases hb with rfl | rfl | rfl <;> decide
        have : (i.flags &&& ~~~fl).getLsbD b = true := by
          rw [BitVec.getLsbD_and, hi, BitVec.getLsbD_not, Bool.eq_false_iff.2 hfl]; simp [h31]
        rw [h0] at this; simp at this
      rcases h3 with ⟨h0, rfl⟩ | rfl
      · simp only [Has, List.mem_append, List.mem_cons]
        constructor
        · rintro ⟨j, hj, hw, hfd, hbit⟩
          refine ⟨⟨j, ?_, hw, hfd, hbit⟩, ?_⟩
          · rcases hj with hj | hj <;> simp [hj]
          · rintro ⟨e1, e2, _⟩
            exact hother j hj ⟨e1.trans hw.symm, e2.trans hfd.symm⟩
        · rintro ⟨⟨j, hj, hw, hfd, hbit⟩, hn⟩
          rcases hj with hj | rfl | hj
          · exact ⟨j, Or.inl hj, hw, hfd, hbit⟩
          · exact absurd ⟨h1.symm.trans hw, h2.symm.trans hfd, hclear h0 hbit⟩ hn
          · exact ⟨j, Or.inr hj, hw, hfd, hbit⟩
      · simp only [Has, List.mem_append, List.mem_cons]
        constructor
        · rintro ⟨j, hj, hw, hfd, hbit⟩
          rcases hj with hj | rfl | hj
          · exact ⟨⟨j, Or.inl hj, hw, hfd, hbit⟩,
              fun e => hother j (Or.inl hj) ⟨e.1.trans hw.symm, e.2.1.trans hfd.symm⟩⟩
          · simp only [BitVec.getLsbD_and, BitVec.getLsbD_not, Bool.and_eq_true, Bool.not_eq_true'] at hbit
            exact ⟨⟨i, Or.inr (Or.inl rfl), hw, hfd, hbit.1⟩, fun e => by
              rw [hbit.2.2] at e; simp at e⟩
          · exact ⟨⟨j, Or.inr (Or.inr hj), hw, hfd, hbit⟩,
              fun e => hother j (Or.inr hj) ⟨e.1.trans hw.symm, e.2.1.trans hfd.symm⟩⟩
        · rintro ⟨⟨j, hj, hw, hfd, hbit⟩, hn⟩
          rcases hj with hj | rfl | hj
          · exact ⟨j, Or.inl hj, hw, hfd, hbit⟩
          · have hfl : fl.getLsbD b = false := by
              by_contra hfl
              exact hn ⟨h1.symm.trans hw, h2.symm.trans hfd, by simpa using hfl⟩
            have h31 : b < 32 := by rcases hb with rfl | rfl | rfl <;> decide
            exact ⟨_, Or.inr (Or.inl rfl), hw, hfd, by
              rw [BitVec.getLsbD_and, hbit, BitVec.getLsbD_not, hfl]; simp [h31]⟩
          · exact ⟨j, Or.inr (Or.inr hj), hw, hfd, hbit⟩
  | detach w =>
    simp only [istep, detachInputs, Wanted, Has, List.mem_filter]
    rw [← ih]
    constructor
    · rintro ⟨j, ⟨hj, hne⟩, hw, hfd, hbit⟩
      exact ⟨⟨j, hj, hw, hfd, hbit⟩, fun e => by simp at hne; exact hne (hw.trans e.symm)⟩
    · rintro ⟨⟨j, hj, hw, hfd, hbit⟩, hne⟩
      exact ⟨j, ⟨hj, by simp; exact fun e => hne (e.symm.trans hw)⟩, hw, hfd, hbit⟩

theorem irun_inv (ops : List IOp) (ho : ∀ o ∈ ops, IOpOk o) : IInv (irun ops) := by
  unfold irun
  have : ∀ s, IInv s → IInv (ops.foldl istep s) := by
    induction ops with
    | nil => exact fun s h => h
    | cons o os ih =>
      exact fun s h => ih (fun x hx => ho x (List.mem_cons_of_mem _ hx)) _ (istep_inv h o (ho o (by simp)))
  exact this _ ⟨by simp, by simp, rfl⟩

theorem irun_has (ops : List IOp) (ho : ∀ o ∈ ops, IOpOk o) (wp : Nat) (fd : Int) (b : Nat)
    (hb : b = 8 ∨ b = 9 ∨ b = 10) : Has (irun ops).inputs wp fd b ↔ Wanted ops.reverse wp fd b := by
  induction ops using List.reverseRecOn with
  | nil => simp [irun, Has, Wanted]
  | append_singleton ops o ih =>
    have ho' : ∀ x ∈ ops, IOpOk x := fun x hx => ho x (by simp [hx])
    have := istep_has (irun_inv ops ho') o (ho o (by simp)) ops.reverse wp fd b hb (ih ho')
    simpa [irun] using this

theorem mem_rebuild (l : List Input) (fd : Int) (b : Nat) (hb : b = 8 ∨ b = 9 ∨ b = 10) :
    (fd, b) ∈ rebuild l ↔ ∃ wp, Has l wp fd b := by
  unfold rebuild Has
  rw [List.mem_flatMap]
  constructor
  · rintro ⟨i, hi, h⟩
    obtain ⟨b', hb', he⟩ := List.mem_map.1 h
    rw [List.mem_filter] at hb'
    simp only [Prod.mk.injEq] at he
    exact ⟨i.wp, i, hi, rfl, he.1, by rw [← he.2]; exact hb'.2⟩
  · rintro ⟨wp, i, hi, _, rfl, hbit⟩
    refine ⟨i, hi, List.mem_map.2 ⟨b, ?_, rfl⟩⟩
    rw [List.mem_filter]
    refine ⟨by simp; omega, hbit⟩

/-- Kinds of `i` that are ready. -/
def raisedKinds (ready : Int → Nat → Bool) (i : Input) : List Nat :=
  [8, 9, 10].filter fun b => i.flags.getLsbD b && ready i.fd b

theorem checkInputsLoop_cons (ready : Int → Nat → Bool) (i : Input) (rest : List Input) :
    checkInputsLoop ready (i :: rest) =
      if raisedKinds ready i ≠ [] then
        if i.flags.getLsbD 0 then
          ((checkInputsLoop ready rest).1, (i.wp, i.fd, raisedKinds ready i) :: (checkInputsLoop ready rest).2)
        else (i :: (checkInputsLoop ready rest).1,
          (i.wp, i.fd, raisedKinds ready i) :: (checkInputsLoop ready rest).2)
      else (i :: (checkInputsLoop ready rest).1, (checkInputsLoop ready rest).2) := rfl

theorem checkInputsLoop_result (ready : Int → Nat → Bool) (l : List Input) :
    (checkInputsLoop ready l).2 =
      (l.map fun i => (i.wp, i.fd, raisedKinds ready i)).filter (fun e => decide (e.2.2 ≠ [])) ∧
    (checkInputsLoop ready l).1 =
      l.filter (fun i => !(i.flags.getLsbD 0 && decide (raisedKinds ready i ≠ []))) := by
  induction l with
  | nil => exact ⟨rfl, rfl⟩
  | cons i rest ih =>
    rw [checkInputsLoop_cons, List.map_cons, List.filter_cons, List.filter_cons, ih.1, ih.2]
    generalize raisedKinds ready = R
    by_cases hr : R i = [] <;> by_cases ho : i.flags.getLsbD 0 = true <;> simp only [hr, ho] <;> simp [hr]

theorem raised_any (ready : Int → Nat → Bool) (i : Input) :
    decide (raisedKinds ready i ≠ []) = [8, 9, 10].any (fun b => i.flags.getLsbD b && ready i.fd b) := by
  symm
  rw [Bool.eq_iff_iff, List.any_eq_true, decide_eq_true_eq, ne_eq, raisedKinds, List.filter_eq_nil_iff]
  constructor
  · rintro ⟨b, hb, h1⟩ hn; exact hn b hb h1
  · intro hn; by_contra hc; exact hn (fun b hb h1 => hc ⟨b, hb, h1⟩)

end Verif.Events
