import Verif.Model.GwClient
/-!
# Lemmas on the keeper of connections
-/
namespace Verif.GwClient

/-- Same host and port. -/
def Same (c d : Cx) : Prop := c.host = d.host ∧ c.port = d.port

/-! ## One attempt -/

theorem tryConnect_cases (now : Nat) (a : Answer) (c : Cx) (hs : c.sock = true ↔ c.st = .connecting) :
    (c.st = .connected ∧ tryConnect now a c = ⟨some c, false, false⟩) ∨
      (c.st ≠ .connected ∧ ∃ fl, (fl = now + failConnectTimeout ∨ (c.st = .connecting ∧ fl = c.fail)) ∧
        ((∃ g, a = .ok g ∧ tryConnect now a c = ⟨some ⟨c.host, c.port, c.unix, false, .connected, c.retry, fl, c.giveUp, some g⟩, false, true⟩) ∨
          (a = .inProgress ∧ tryConnect now a c = ⟨some ⟨c.host, c.port, c.unix, true, .connecting, c.retry, fl, c.giveUp, c.gw⟩, true, true⟩) ∨
          (a = .error ∧ c.giveUp ≠ 0 ∧ c.giveUp < now ∧ tryConnect now a c = ⟨none, false, true⟩) ∨
          (a = .error ∧ ¬ (c.giveUp ≠ 0 ∧ c.giveUp < now) ∧
            tryConnect now a c = ⟨some ⟨c.host, c.port, c.unix, false, .waiting, now + reopenTimeout, fl, c.giveUp, c.gw⟩, false, true⟩))) := by
  by_cases h : c.st = .connected
  · exact Or.inl ⟨h, by unfold tryConnect; rw [if_pos h]⟩
  · refine Or.inr ⟨h, ?_⟩
    by_cases h2 : c.st = .connecting
    · have hk := hs.mpr h2
      refine ⟨c.fail, Or.inr ⟨h2, rfl⟩, ?_⟩
      have hu : tryConnect now a c = match a with
          | .ok g => ⟨some { c with st := .connected, gw := some g, sock := false }, false, true⟩
          | .inProgress => ⟨some c, true, true⟩
          | .error =>
            if c.giveUp ≠ 0 ∧ c.giveUp < now then ⟨none, false, true⟩
            else ⟨some { c with sock := false, st := .waiting, retry := now + reopenTimeout }, false, true⟩ := by
        unfold tryConnect
        simp [h2, hk]
        cases a <;> rfl
      rw [hu]
      cases a with
      | ok g => exact Or.inl ⟨g, rfl, rfl⟩
      | inProgress =>
        refine Or.inr (Or.inl ⟨rfl, ?_⟩)
        obtain ⟨_, _, _, _, _, _, _, _, _⟩ := c
        dsimp only at hk h2
        subst hk; subst h2
        rfl
      | error =>
        by_cases hg : c.giveUp ≠ 0 ∧ c.giveUp < now
        · exact Or.inr (Or.inr (Or.inl ⟨rfl, hg.1, hg.2, by dsimp only; rw [if_pos hg]⟩))
        · exact Or.inr (Or.inr (Or.inr ⟨rfl, hg, by dsimp only; rw [if_neg hg]⟩))
    · refine ⟨now + failConnectTimeout, Or.inl rfl, ?_⟩
      have hu : tryConnect now a c = match a with
          | .ok g => ⟨some ⟨c.host, c.port, c.unix, false, .connected, c.retry, now + failConnectTimeout, c.giveUp, some g⟩, false, true⟩
          | .inProgress => ⟨some ⟨c.host, c.port, c.unix, true, .connecting, c.retry, now + failConnectTimeout, c.giveUp, c.gw⟩, true, true⟩
          | .error =>
            if c.giveUp ≠ 0 ∧ c.giveUp < now then ⟨none, false, true⟩
            else ⟨some ⟨c.host, c.port, c.unix, false, .waiting, now + reopenTimeout, now + failConnectTimeout, c.giveUp, c.gw⟩, false, true⟩ := by
        unfold tryConnect
        simp [h, h2]
        cases a <;> rfl
      rw [hu]
      cases a with
      | ok g => exact Or.inl ⟨g, rfl, rfl⟩
      | inProgress => exact Or.inr (Or.inl ⟨rfl, rfl⟩)
      | error =>
        by_cases hg : c.giveUp ≠ 0 ∧ c.giveUp < now
        · exact Or.inr (Or.inr (Or.inl ⟨rfl, hg.1, hg.2, by dsimp only; rw [if_pos hg]⟩))
        · exact Or.inr (Or.inr (Or.inr ⟨rfl, hg, by dsimp only; rw [if_neg hg]⟩))

/-! ## The invariant -/

/-- What holds of each connection. -/
structure OkCx (now clock : Nat) (timer : Bool) (c : Cx) : Prop where
  sock : c.sock = true ↔ c.st = .connecting
  timer : c.st = .connecting → timer = true
  fail : c.st = .connecting → c.fail ≤ now + failConnectTimeout
  retry : c.retry ≤ clock + reopenTimeout

theorem OkCx.mono {now now' clock clock' : Nat} {tm tm' : Bool} {c : Cx} (h : OkCx now clock tm c) (h1 : now ≤ now') (h2 : clock ≤ clock') (h3 : tm = true → tm' = true) :
    OkCx now' clock' tm' c :=
  ⟨h.sock, fun e => h3 (h.timer e), fun e => Nat.le_trans (h.fail e) (by omega), by have := h.retry; omega⟩

/-- What an attempt makes of a connection. -/
theorem tryConnect_ok (now clock : Nat) (a : Answer) (c c' : Cx) (hs : c.sock = true ↔ c.st = .connecting) (hf : c.st = .connecting → c.fail ≤ now + failConnectTimeout)
    (hr : c.retry ≤ clock + reopenTimeout) (hn : now ≤ clock) (h : (tryConnect now a c).cx = some c') :
    Same c' c ∧ c'.giveUp = c.giveUp ∧ (c'.sock = true ↔ c'.st = .connecting) ∧ (c'.st = .connecting → (tryConnect now a c).timer = true) ∧
      (c'.st = .connecting → c'.fail ≤ now + failConnectTimeout) ∧ c'.retry ≤ clock + reopenTimeout := by
  rcases tryConnect_cases now a c hs with ⟨h1, h2⟩ | ⟨h1, fl, hfl, h2⟩
  · rw [h2] at h ⊢
    cases h
    refine ⟨⟨rfl, rfl⟩, rfl, hs, ?_, hf, hr⟩
    intro e
    rw [h1] at e
    cases e
  · rcases h2 with ⟨g, _, e⟩ | ⟨_, e⟩ | ⟨_, _, _, e⟩ | ⟨_, _, e⟩
    all_goals rw [e] at h ⊢
    all_goals cases h
    all_goals refine ⟨⟨rfl, rfl⟩, rfl, ?_, ?_, ?_, ?_⟩
    all_goals first
      | (simp; done)
      | exact hr
      | (intro _; dsimp only; rcases hfl with e | ⟨e1, e⟩ <;> rw [e] <;> first | exact Nat.le_refl _ | exact hf e1)
      | (dsimp only; omega)

theorem tickOne_ok (now : Nat) (a : Answer) (c c' : Cx) (hs : c.sock = true ↔ c.st = .connecting) (hf : c.st = .connecting → c.fail ≤ now + failConnectTimeout)
    (hr : c.retry ≤ now + reopenTimeout) (h : (tickOne now a c).cx = some c') :
    Same c' c ∧ c'.giveUp = c.giveUp ∧ (c'.sock = true ↔ c'.st = .connecting) ∧ (c'.st = .connecting → c'.fail ≤ now + failConnectTimeout) ∧
      c'.retry ≤ now + reopenTimeout := by
  have ht := fun h => tryConnect_ok now now a c c' hs hf hr (Nat.le_refl _) h
  have hc : some c = some c' → Same c' c ∧ c'.giveUp = c.giveUp ∧ (c'.sock = true ↔ c'.st = .connecting) ∧ (c'.st = .connecting → c'.fail ≤ now + failConnectTimeout) ∧
      c'.retry ≤ now + reopenTimeout := by
    intro e; cases e; exact ⟨⟨rfl, rfl⟩, rfl, hs, hf, hr⟩
  unfold tickOne at h
  split at h
  · exact hc h
  · split at h
    · cases h
      exact ⟨⟨rfl, rfl⟩, rfl, by simp, by simp, by simp⟩
    · split at h
      · obtain ⟨h1, h2, h3, _, h5, h6⟩ := ht h
        exact ⟨h1, h2, h3, h5, h6⟩
      · exact hc h
  all_goals
    split at h
    · obtain ⟨h1, h2, h3, _, h5, h6⟩ := ht h
      exact ⟨h1, h2, h3, h5, h6⟩
    · exact hc h

/-! ## Loops -/

theorem loop_spec (f : Cx → Tried) (now : Nat) (l : List Cx) : ∀ done tm log done' tm' log', loop f now l (done, tm, log) = .ok (done', tm', log') →
    done' = done ++ l.map (fun c => (f c).cx.getD c) ∧ (∀ c ∈ l, (f c).cx ≠ none) ∧ (tm' = true ↔ tm = true ∨ ∃ c ∈ l, (f c).timer = true) ∧
      (∀ c ∈ l, (f c).called = true → (now, c.host, c.port) ∈ log') ∧ (∀ x ∈ log, x ∈ log') ∧
      (∀ x ∈ log', x ∈ log ∨ ∃ c ∈ l, (f c).called = true ∧ x = (now, c.host, c.port)) := by
  induction l with
  | nil =>
    intro done tm log done' tm' log' h
    unfold loop at h
    cases h
    simp
  | cons c l ih =>
    intro done tm log done' tm' log' h
    unfold loop at h
    cases hc : (f c).cx with
    | none => rw [hc] at h; cases h
    | some c' =>
      rw [hc] at h
      obtain ⟨h1, h2, h3, h4, h5, h6⟩ := ih _ _ _ _ _ _ h
      refine ⟨?_, ?_, ?_, ?_, ?_, ?_⟩
      · rw [h1]; simp [hc]
      · intro d hd
        rcases List.mem_cons.mp hd with e | e
        · subst e; simp [hc]
        · exact h2 d e
      · rw [h3]
        simp only [Bool.or_eq_true, List.mem_cons, exists_eq_or_imp, or_assoc]
      · intro d hd hcd
        rcases List.mem_cons.mp hd with e | e
        · subst e
          exact h5 _ (by rw [if_pos hcd]; simp)
        · exact h4 d e hcd
      · intro x hx
        refine h5 x ?_
        split
        · exact List.mem_cons_of_mem _ hx
        · exact hx
      · intro x hx
        rcases h6 x hx with e | ⟨d, hd, e1, e2⟩
        · split at e
          · rename_i hcd
            rcases List.mem_cons.mp e with e | e
            · exact Or.inr ⟨c, by simp, hcd, e⟩
            · exact Or.inl e
          · exact Or.inl e
        · exact Or.inr ⟨d, by simp [hd], e1, e2⟩

theorem loop_defined (f : Cx → Tried) (now : Nat) (l : List Cx) : ∀ x, (∀ c ∈ l, (f c).cx ≠ none) → ∃ y, loop f now l x = .ok y := by
  induction l with
  | nil => intro ⟨_, _, _⟩ _; exact ⟨_, rfl⟩
  | cons c l ih =>
    intro ⟨d, tm, log⟩ h
    unfold loop
    cases hc : (f c).cx with
    | none => exact absurd hc (h c (by simp))
    | some c' => exact ih _ (fun d hd => h d (by simp [hd]))

theorem atFirst_spec (q : Cx → Bool) (f : Cx → Tried) (l : List Cx) : ∀ c t l', atFirst q f l = some (c, t, l') →
    ∃ l1 l2, l = l1 ++ c :: l2 ∧ q c = true ∧ (∀ x ∈ l1, q x = false) ∧ t = f c ∧ l' = l1 ++ (f c).cx.getD c :: l2 := by
  induction l with
  | nil => intro c t l' h; cases h
  | cons d l ih =>
    intro c t l' h
    unfold atFirst at h
    split at h
    · rename_i hq
      cases h
      exact ⟨[], l, rfl, hq, by simp, rfl, rfl⟩
    · rename_i hq
      cases hr : atFirst q f l with
      | none => rw [hr] at h; cases h
      | some y =>
        obtain ⟨c1, t1, l1'⟩ := y
        rw [hr] at h
        cases h
        obtain ⟨l1, l2, h1, h2, h3, h4, h5⟩ := ih _ _ _ hr
        refine ⟨d :: l1, l2, by rw [h1]; rfl, h2, ?_, h4, by rw [h5]; rfl⟩
        intro x hx
        rcases List.mem_cons.mp hx with e | e
        · subst e; simpa using hq
        · exact h3 x e

theorem atFirst_none (q : Cx → Bool) (f : Cx → Tried) (l : List Cx) : atFirst q f l = none ↔ ∀ x ∈ l, q x = false := by
  induction l with
  | nil => simp [atFirst]
  | cons d l ih =>
    unfold atFirst
    split
    · rename_i hq; simp [hq]
    · rename_i hq
      cases hr : atFirst q f l with
      | none => simp [hq]; exact ih.mp hr
      | some y =>
        simp only [reduceCtorEq, List.mem_cons, forall_eq_or_imp, false_iff, not_and]
        intro _ hc
        rw [ih.mpr hc] at hr
        cases hr

theorem removeSelf_spec (h : String) (p : Int) (l : List Cx) : ∀ l', removeSelf h p l = .ok l' → l'.Sublist l ∧ ∀ c ∈ l, ¬ (c.host = h ∧ c.port = p) → c ∈ l' := by
  induction l with
  | nil => intro l' e; cases e; simp
  | cons c l ih =>
    intro l' e
    unfold removeSelf at e
    split at e
    · rename_i hc
      split at e
      · cases e
      · cases e
        refine ⟨List.sublist_cons_self _ _, ?_⟩
        intro d hd hn
        rcases List.mem_cons.mp hd with e | e
        · subst e; exact absurd ⟨hc.2, hc.1⟩ hn
        · exact e
    · cases hr : removeSelf h p l with
      | err => rw [hr] at e; cases e
      | ub => rw [hr] at e; cases e
      | ok l1 =>
        rw [hr] at e
        cases e
        obtain ⟨h1, h2⟩ := ih l1 hr
        refine ⟨h1.cons_cons _, ?_⟩
        intro d hd hn
        rcases List.mem_cons.mp hd with e | e
        · subst e; simp
        · exact List.mem_cons_of_mem _ (h2 d e hn)

/-! ## States -/

/-- The invariant. -/
structure Inv (s : St) : Prop where
  time : s.now ≤ s.clock
  each : ∀ c ∈ s.cxs, OkCx s.now s.clock s.timer c
  once : s.cxs.Pairwise fun c d => ¬ Same c d

theorem pairwise_map_same (l : List Cx) (f : Cx → Cx) (hf : ∀ c ∈ l, Same (f c) c) (h : l.Pairwise fun c d => ¬ Same c d) : (l.map f).Pairwise fun c d => ¬ Same c d := by
  rw [List.pairwise_map]
  refine List.Pairwise.imp_of_mem ?_ h
  intro a b ha hb hn hs
  refine hn ⟨?_, ?_⟩
  · rw [← (hf a ha).1, ← (hf b hb).1]; exact hs.1
  · rw [← (hf a ha).2, ← (hf b hb).2]; exact hs.2

theorem inv_tick_clock (s : St) (dt : Nat) (h : Inv s) : Inv { s with clock := s.clock + dt } :=
  ⟨Nat.le_trans h.time (Nat.le_add_right _ _), fun c hc => (h.each c hc).mono (Nat.le_refl _) (Nat.le_add_right _ _) id, h.once⟩

/-- What `activate` does, if all goes well. -/
theorem activate_spec (env : String → Int → Answer) (s s' : St) (h : activate env s = .ok s') :
    ∃ tm log, loop (fun c => tryConnect s.clock (env c.host c.port) c) s.clock s.cxs ([], s.timer, s.log) =
        .ok (s.cxs.map (fun c => (tryConnect s.clock (env c.host c.port) c).cx.getD c), tm, log) ∧
      s' = ⟨s.cxs.map (fun c => (tryConnect s.clock (env c.host c.port) c).cx.getD c), s.clock, s.clock, tm, true, s.proactive, log⟩ := by
  unfold activate at h
  cases hl : loop (fun c => tryConnect s.clock (env c.host c.port) c) s.clock s.cxs ([], s.timer, s.log) with
  | err => rw [hl] at h; cases h
  | ub => rw [hl] at h; cases h
  | ok y =>
    obtain ⟨d, tm, log⟩ := y
    rw [hl] at h
    cases h
    have := (loop_spec _ _ _ _ _ _ _ _ _ hl).1
    rw [List.nil_append] at this
    subst this
    exact ⟨tm, log, rfl, rfl⟩

theorem timeout_spec (r : Bool) (env : String → Int → Answer) (s s' : St) (h : timeout r env s = .ok s') :
    ∃ tm log, loop (fun c => tickOne s.clock (env c.host c.port) c) s.clock s.cxs ([], s.timer, s.log) =
        .ok (s.cxs.map (fun c => (tickOne s.clock (env c.host c.port) c).cx.getD c), tm, log) ∧
      s'.cxs = s.cxs.map (fun c => (tickOne s.clock (env c.host c.port) c).cx.getD c) ∧ s'.clock = s.clock ∧ s'.now = s.clock ∧ s'.started = s.started ∧
      s'.proactive = s.proactive ∧ s'.log = log ∧ ((∃ c ∈ s'.cxs, c.st = .connecting) → s'.timer = true) ∧
      (r = true → (∀ c ∈ s'.cxs, c.st ≠ .connecting) → s'.timer = false) := by
  unfold timeout at h
  cases hl : loop (fun c => tickOne s.clock (env c.host c.port) c) s.clock s.cxs ([], s.timer, s.log) with
  | err => rw [hl] at h; cases h
  | ub => rw [hl] at h; cases h
  | ok y =>
    obtain ⟨d, tm, log⟩ := y
    rw [hl] at h
    cases h
    have := (loop_spec _ _ _ _ _ _ _ _ _ hl).1
    rw [List.nil_append] at this
    subst this
    refine ⟨tm, log, rfl, rfl, rfl, rfl, rfl, rfl, rfl, ?_, ?_⟩
    · rintro ⟨c, hc, hst⟩
      have hb : ((s.cxs.map (fun c => (tickOne s.clock (env c.host c.port) c).cx.getD c)).any fun c => decide (c.st = .connecting)) = true := by
        rw [List.any_eq_true]
        exact ⟨c, hc, by simp [hst]⟩
      dsimp only
      rw [hb]
      cases tm <;> simp
    · intro hr hno
      have hb : ((s.cxs.map (fun c => (tickOne s.clock (env c.host c.port) c).cx.getD c)).any fun c => decide (c.st = .connecting)) = false := by
        rw [List.any_eq_false]
        intro c hc
        simp [hno c hc]
      dsimp only
      rw [hb, hr]
      simp

theorem inv_activate (env : String → Int → Answer) (s s' : St) (hi : Inv s) (h : activate env s = .ok s') : Inv s' := by
  obtain ⟨tm, log, hl, e⟩ := activate_spec env s s' h
  obtain ⟨_, h2, h3, _, _, _⟩ := loop_spec _ _ _ _ _ _ _ _ _ hl
  have each : ∀ c ∈ s.cxs, ∃ c', (tryConnect s.clock (env c.host c.port) c).cx = some c' ∧ Same c' c ∧ OkCx s.clock s.clock tm c' := by
    intro c hc
    cases hx : (tryConnect s.clock (env c.host c.port) c).cx with
    | none => exact absurd hx (h2 c hc)
    | some c' =>
      have ho := hi.each c hc
      obtain ⟨g1, _, g3, g4, g5, g6⟩ := tryConnect_ok s.clock s.clock _ c c' ho.sock (fun e => Nat.le_trans (ho.fail e) (by have := hi.time; omega)) ho.retry (Nat.le_refl _) hx
      exact ⟨c', rfl, g1, g3, fun e => h3.mpr (Or.inr ⟨c, hc, g4 e⟩), g5, g6⟩
  subst e
  refine ⟨Nat.le_refl _, ?_, ?_⟩
  · intro c' hc'
    obtain ⟨c, hc, e⟩ := List.mem_map.mp hc'
    obtain ⟨c1, e1, _, e2⟩ := each c hc
    rw [e1] at e
    cases e
    exact e2
  · refine pairwise_map_same _ _ ?_ hi.once
    intro c hc
    obtain ⟨c1, e1, e2, _⟩ := each c hc
    rw [e1]
    exact e2

theorem inv_timeout (r : Bool) (env : String → Int → Answer) (s s' : St) (hi : Inv s) (h : timeout r env s = .ok s') : Inv s' := by
  obtain ⟨tm, log, hl, e1, e2, e3, e4, e5, e6, e7, _⟩ := timeout_spec r env s s' h
  obtain ⟨_, h2, _, _, _, _⟩ := loop_spec _ _ _ _ _ _ _ _ _ hl
  have each : ∀ c ∈ s.cxs, ∃ c', (tickOne s.clock (env c.host c.port) c).cx = some c' ∧ Same c' c ∧ (c'.sock = true ↔ c'.st = .connecting) ∧
      (c'.st = .connecting → c'.fail ≤ s.clock + failConnectTimeout) ∧ c'.retry ≤ s.clock + reopenTimeout := by
    intro c hc
    cases hx : (tickOne s.clock (env c.host c.port) c).cx with
    | none => exact absurd hx (h2 c hc)
    | some c' =>
      have ho := hi.each c hc
      obtain ⟨g1, _, g3, g4, g5⟩ := tickOne_ok s.clock _ c c' ho.sock (fun e => Nat.le_trans (ho.fail e) (by have := hi.time; omega)) ho.retry hx
      exact ⟨c', rfl, g1, g3, g4, g5⟩
  refine ⟨by rw [e2, e3]; exact Nat.le_refl _, ?_, ?_⟩
  · intro c' hc'
    have hc0 := hc'
    rw [e1] at hc'
    obtain ⟨c, hc, e⟩ := List.mem_map.mp hc'
    obtain ⟨c1, f1, _, f2, f3, f4⟩ := each c hc
    rw [f1] at e
    cases e
    rw [e2, e3]
    exact ⟨f2, fun hst => e7 ⟨_, hc0, hst⟩, f3, f4⟩
  · rw [e1]
    refine pairwise_map_same _ _ ?_ hi.once
    intro c hc
    obtain ⟨c1, f1, f2, _⟩ := each c hc
    rw [f1]
    exact f2

/-- What `tryFirst` does, if all goes well. -/
theorem tryFirst_spec (q : Cx → Bool) (g : Cx → Cx) (a : Answer) (s s' : St) (h : tryFirst q g a s = .ok s') :
    (s' = s ∧ ∀ x ∈ s.cxs, q x = false) ∨
      ∃ l1 c l2, s.cxs = l1 ++ c :: l2 ∧ q c = true ∧ (∀ x ∈ l1, q x = false) ∧
        s'.clock = s.clock ∧ s'.now = s.now ∧ s'.started = s.started ∧ s'.proactive = s.proactive ∧
        s'.log = (if (tryConnect s.now a (g c)).called then (s.now, c.host, c.port) :: s.log else s.log) ∧
        ((∃ c', (tryConnect s.now a (g c)).cx = some c' ∧ s'.cxs = l1 ++ c' :: l2 ∧ s'.timer = (s.timer || (tryConnect s.now a (g c)).timer)) ∨
          ((tryConnect s.now a (g c)).cx = none ∧ removeSelf c.host c.port s.cxs = .ok s'.cxs ∧ s'.timer = s.timer)) := by
  unfold tryFirst at h
  cases hx : atFirst q (fun c => tryConnect s.now a (g c)) s.cxs with
  | none =>
    rw [hx] at h
    cases h
    exact Or.inl ⟨rfl, (atFirst_none _ _ _).mp hx⟩
  | some y =>
    obtain ⟨c, t, l⟩ := y
    rw [hx] at h
    obtain ⟨l1, l2, h1, h2, h3, h4, h5⟩ := atFirst_spec _ _ _ _ _ _ hx
    dsimp only at h h4 h5
    subst h4
    refine Or.inr ⟨l1, c, l2, h1, h2, h3, ?_⟩
    cases ht : (tryConnect s.now a (g c)).cx with
    | some c' =>
      rw [ht] at h h5
      cases h
      exact ⟨rfl, rfl, rfl, rfl, rfl, Or.inl ⟨c', rfl, h5, rfl⟩⟩
    | none =>
      rw [ht] at h
      dsimp only at h
      cases hr : removeSelf c.host c.port s.cxs with
      | err => rw [hr] at h; cases h
      | ub => rw [hr] at h; cases h
      | ok l' =>
        rw [hr] at h
        cases h
        exact ⟨rfl, rfl, rfl, rfl, rfl, Or.inr ⟨rfl, rfl, rfl⟩⟩

theorem inv_tryFirst (q : Cx → Bool) (g : Cx → Cx) (a : Answer) (s s' : St) (hi : Inv s)
    (hg : ∀ c ∈ s.cxs, q c = true → Same (g c) c ∧ ((g c).sock = true ↔ (g c).st = .connecting) ∧
      ((g c).st = .connecting → (g c).fail ≤ s.now + failConnectTimeout) ∧ (g c).retry ≤ s.clock + reopenTimeout)
    (h : tryFirst q g a s = .ok s') : Inv s' := by
  rcases tryFirst_spec q g a s s' h with ⟨e, _⟩ | ⟨l1, c, l2, h1, h2, _, e1, e2, _, _, _, h3⟩
  · rw [e]; exact hi
  · have hc : c ∈ s.cxs := by rw [h1]; simp
    obtain ⟨g1, g2, g3, g4⟩ := hg c hc h2
    rcases h3 with ⟨c', k1, k2, k3⟩ | ⟨_, k2, k3⟩
    · obtain ⟨f1, _, f3, f4, f5, f6⟩ := tryConnect_ok s.now s.clock a (g c) c' g2 g3 g4 hi.time k1
      have hsame : Same c' c := ⟨f1.1.trans g1.1, f1.2.trans g1.2⟩
      refine ⟨by rw [e1, e2]; exact hi.time, ?_, ?_⟩
      · rw [e1, e2, k2, k3]
        intro x hx
        have hold : x ∈ l1 ∨ x ∈ l2 → OkCx s.now s.clock (s.timer || (tryConnect s.now a (g c)).timer) x := by
          intro hx
          refine (hi.each x ?_).mono (Nat.le_refl _) (Nat.le_refl _) (by simp +contextual)
          rw [h1]
          rcases hx with h | h <;> simp [h]
        rcases List.mem_append.mp hx with hx | hx
        · exact hold (Or.inl hx)
        · rcases List.mem_cons.mp hx with hx | hx
          · subst hx
            exact ⟨f3, fun e => by rw [f4 e]; simp, f5, f6⟩
          · exact hold (Or.inr hx)
      · rw [k2]
        have ho := hi.once
        rw [h1] at ho
        rw [List.pairwise_append, List.pairwise_cons] at ho ⊢
        obtain ⟨o1, ⟨o2, o3⟩, o4⟩ := ho
        have hl : ∀ x, ¬ Same c x → ¬ Same c' x := fun x hn hs => hn ⟨hsame.1.symm.trans hs.1, hsame.2.symm.trans hs.2⟩
        have hr : ∀ x, ¬ Same x c → ¬ Same x c' := fun x hn hs => hn ⟨hs.1.trans hsame.1, hs.2.trans hsame.2⟩
        refine ⟨o1, ⟨fun x hx => hl x (o2 x hx), o3⟩, ?_⟩
        intro x hx y hy
        rcases List.mem_cons.mp hy with e | e
        · subst e; exact hr x (o4 x hx c (by simp))
        · exact o4 x hx y (by simp [e])
    · have hsub := (removeSelf_spec _ _ _ _ k2).1
      refine ⟨by rw [e1, e2]; exact hi.time, ?_, hi.once.sublist hsub⟩
      intro x hx
      rw [e1, e2, k3]
      exact hi.each x (hsub.subset hx)

theorem addConnection_spec (clock : Nat) (h : String) (p : Int) (u : Bool) (l : List Cx) :
    ((∃ c ∈ l, c.host = h ∧ c.port = p) ∧ addConnection clock h p u l = l) ∨
      ((∀ c ∈ l, ¬ (c.host = h ∧ c.port = p)) ∧ addConnection clock h p u l = l ++ [⟨h, p, u, false, .stopped, clock, clock, 0, none⟩]) := by
  unfold addConnection
  split
  · rename_i hx
    left
    rw [List.any_eq_true] at hx
    obtain ⟨c, hc, e⟩ := hx
    simp only [Bool.and_eq_true, decide_eq_true_eq] at e
    exact ⟨⟨c, hc, e⟩, rfl⟩
  · rename_i hx
    right
    refine ⟨?_, rfl⟩
    intro c hc e
    apply hx
    rw [List.any_eq_true]
    exact ⟨c, hc, by simp [e.1, e.2]⟩

theorem inv_addConnection (s : St) (h : String) (p : Int) (u : Bool) (hi : Inv s) : Inv { s with cxs := addConnection s.clock h p u s.cxs } := by
  rcases addConnection_spec s.clock h p u s.cxs with ⟨_, e⟩ | ⟨hn, e⟩
  · rw [e]; exact hi
  · refine ⟨hi.time, ?_, ?_⟩
    · intro c hc
      dsimp only at hc
      rw [e] at hc
      rcases List.mem_append.mp hc with hc | hc
      · exact hi.each c hc
      · rw [List.mem_singleton] at hc
        subst hc
        exact ⟨by simp, by simp, by simp, by simp⟩
    · dsimp only
      rw [e, List.pairwise_append]
      refine ⟨hi.once, by simp, ?_⟩
      intro a ha b hb hs
      rw [List.mem_singleton] at hb
      subst hb
      exact hn a ha hs

theorem inv_step (s s' : St) (e : Ev) (hi : Inv s) (h : step s e = .ok s') : Inv s' := by
  cases e with
  | start env => exact inv_activate env s s' hi h
  | tick r env => exact inv_timeout r env s s' hi h
  | bindError hh p u a =>
    unfold step at h
    dsimp only at h
    split at h
    · have h1 := inv_addConnection s hh p u hi
      split at h
      · refine inv_tryFirst _ id a _ s' h1 ?_ h
        intro c hc _
        have ho := h1.each c hc
        exact ⟨⟨rfl, rfl⟩, ho.sock, ho.fail, ho.retry⟩
      · cases h; exact h1
    · cases h; exact hi
  | advert hh p u a =>
    unfold step at h
    dsimp only at h
    split at h
    · have h1 := inv_addConnection s hh p u hi
      split at h
      · refine inv_tryFirst _ _ a _ s' h1 ?_ h
        intro c hc _
        have ho := h1.each c hc
        exact ⟨⟨rfl, rfl⟩, ho.sock, ho.fail, ho.retry⟩
      · cases h
        refine ⟨hi.time, ?_, ?_⟩
        · intro c' hc'
          obtain ⟨c, hc, e⟩ := List.mem_map.mp hc'
          have ho := h1.each c hc
          subst e
          split
          · exact ⟨ho.sock, ho.timer, ho.fail, ho.retry⟩
          · exact ho
        · refine pairwise_map_same _ _ ?_ h1.once
          intro c _
          split <;> exact ⟨rfl, rfl⟩
    · cases h; exact hi
  | duplicate hh p =>
    unfold step at h
    dsimp only at h
    split at h
    · cases h
      exact ⟨hi.time, fun c hc => hi.each c (List.mem_filter.mp hc).1, hi.once.sublist List.filter_sublist⟩
    · cases h; exact hi
  | bye gw a =>
    unfold step at h
    dsimp only at h
    split at h
    · cases h; exact hi
    · rename_i c0 hf
      split at h
      · rename_i hst
        obtain ⟨l1', l2', hl', hno⟩ : ∃ l1 l2, s.cxs = l1 ++ c0 :: l2 ∧ ∀ x ∈ l1, decide (x.gw = some gw) = false := by
          obtain ⟨_, as, bs, e1, e2⟩ := List.find?_eq_some_iff_append.mp hf
          exact ⟨as, bs, e1, fun x hx => by simpa using e2 x hx⟩
        have hq0 : decide (c0.gw = some gw) = true := (List.find?_eq_some_iff_append.mp hf).1
        -- the first connection of that gateway is the connected one
        have hg0 : tryFirst (fun c => decide (c.gw = some gw)) (fun c => { c with giveUp := if c.giveUp ≠ 0 then s.clock + giveUpTimeout else 0, st := .waiting }) a s =
            tryFirst (fun c => decide (c.gw = some gw) && decide (c.st = .connected)) (fun c => { c with giveUp := if c.giveUp ≠ 0 then s.clock + giveUpTimeout else 0, st := .waiting }) a s := by
          have haf : ∀ f : Cx → Tried, atFirst (fun c => decide (c.gw = some gw)) f s.cxs = atFirst (fun c => decide (c.gw = some gw) && decide (c.st = .connected)) f s.cxs := by
            intro f
            rw [hl']
            clear hl' hf h hi
            induction l1' with
            | nil => simp only [List.nil_append]; unfold atFirst; rw [hq0]; simp [hst]
            | cons d l ih =>
              simp only [List.cons_append]
              unfold atFirst
              rw [hno d (by simp)]
              simp only [Bool.false_and, Bool.false_eq_true, if_false]
              rw [ih (fun x hx => hno x (by simp [hx]))]
          unfold tryFirst
          rw [haf]
        rw [hg0] at h
        refine inv_tryFirst _ _ a s s' hi ?_ h
        intro c hc hq
        simp only [Bool.and_eq_true, decide_eq_true_eq] at hq
        have ho := hi.each c hc
        refine ⟨⟨rfl, rfl⟩, ?_, by simp, ho.retry⟩
        have : c.sock = false := by
          cases hk : c.sock with
          | false => rfl
          | true => rw [ho.sock.mp hk] at hq; exact absurd hq.2 (by simp)
        simp [this]
      · cases h; exact hi

theorem inv_init (clock : Nat) (pro : Bool) (peers : List (String × Int × Bool)) : Inv (init clock pro peers) := by
  unfold init
  suffices h : ∀ l : List Cx, Inv ⟨l, clock, clock, false, false, pro, []⟩ → Inv ⟨peers.foldl (fun l p => addConnection clock p.1 p.2.1 p.2.2 l) l, clock, clock, false, false, pro, []⟩ from
    h [] ⟨Nat.le_refl _, by simp, by simp⟩
  induction peers with
  | nil => intro l h; exact h
  | cons p ps ih =>
    intro l h
    exact ih _ (inv_addConnection ⟨l, clock, clock, false, false, pro, []⟩ p.1 p.2.1 p.2.2 h)

theorem inv_run (evs : List (Nat × Ev)) : ∀ s s', Inv s → run s evs = .ok s' → Inv s' := by
  induction evs with
  | nil => intro s s' hi h; cases h; exact hi
  | cons e l ih =>
    intro s s' hi h
    obtain ⟨dt, e⟩ := e
    unfold run at h
    cases hs : step { s with clock := s.clock + dt } e with
    | err => rw [hs] at h; cases h
    | ub => rw [hs] at h; cases h
    | ok s1 =>
      rw [hs] at h
      exact ih s1 s' (inv_step _ s1 e (inv_tick_clock s dt hi) hs) h

/-! ## Without advertisements -/

/-- No connection will be given up. -/
def Lasting (s : St) : Prop := ∀ c ∈ s.cxs, c.giveUp = 0

theorem tryConnect_lasting (now : Nat) (a : Answer) (c : Cx) (hs : c.sock = true ↔ c.st = .connecting) (hg : c.giveUp = 0) : (tryConnect now a c).cx ≠ none := by
  rcases tryConnect_cases now a c hs with ⟨_, e⟩ | ⟨_, fl, _, ⟨g, _, e⟩ | ⟨_, e⟩ | ⟨_, h, _⟩ | ⟨_, _, e⟩⟩
  · rw [e]; simp
  · rw [e]; simp
  · rw [e]; simp
  · exact absurd hg h
  · rw [e]; simp

theorem tickOne_lasting (now : Nat) (a : Answer) (c : Cx) (hs : c.sock = true ↔ c.st = .connecting) (hg : c.giveUp = 0) : (tickOne now a c).cx ≠ none := by
  have h := tryConnect_lasting now a c hs hg
  unfold tickOne
  split
  · simp
  · split
    · simp
    · split
      · exact h
      · simp
  all_goals
    split
    · exact h
    · simp

theorem tryFirst_lasting (q : Cx → Bool) (g : Cx → Cx) (a : Answer) (s : St)
    (hg : ∀ c ∈ s.cxs, q c = true → ((g c).sock = true ↔ (g c).st = .connecting) ∧ (g c).giveUp = 0) : ∃ s', tryFirst q g a s = .ok s' := by
  unfold tryFirst
  cases hx : atFirst q (fun c => tryConnect s.now a (g c)) s.cxs with
  | none => exact ⟨_, rfl⟩
  | some y =>
    obtain ⟨c, t, l⟩ := y
    obtain ⟨l1, l2, h1, h2, _, h4, _⟩ := atFirst_spec _ _ _ _ _ _ hx
    dsimp only
    obtain ⟨k1, k2⟩ := hg c (by rw [h1]; simp) h2
    have := tryConnect_lasting s.now a (g c) k1 k2
    rw [← h4] at this
    cases ht : t.cx with
    | none => exact absurd ht this
    | some c' => exact ⟨_, rfl⟩

theorem tryFirst_keeps (q : Cx → Bool) (g : Cx → Cx) (a : Answer) (s s' : St) (hl : Lasting s)
    (hg : ∀ c ∈ s.cxs, q c = true → Same (g c) c ∧ ((g c).sock = true ↔ (g c).st = .connecting) ∧ (g c).giveUp = 0 ∧
      ((g c).st = .connecting → (g c).fail ≤ s.now + failConnectTimeout) ∧ (g c).retry ≤ s.clock + reopenTimeout) (hn : s.now ≤ s.clock)
    (h : tryFirst q g a s = .ok s') : Lasting s' ∧ ∀ c ∈ s.cxs, ∃ c' ∈ s'.cxs, Same c' c := by
  rcases tryFirst_spec q g a s s' h with ⟨e, _⟩ | ⟨l1, c, l2, h1, h2, _, e1, e2, _, _, _, h3⟩
  · rw [e]; exact ⟨hl, fun c hc => ⟨c, hc, rfl, rfl⟩⟩
  · obtain ⟨g1, g2, g3, g4, g5⟩ := hg c (by rw [h1]; simp) h2
    rcases h3 with ⟨c', k1, k2, _⟩ | ⟨k1, _, _⟩
    · obtain ⟨f1, f2, _⟩ := tryConnect_ok s.now s.clock a (g c) c' g2 g4 g5 hn k1
      unfold Lasting at hl ⊢
      rw [k2]
      rw [h1] at hl ⊢
      constructor
      · intro x hx
        rcases List.mem_append.mp hx with hx | hx
        · exact hl x (by simp [hx])
        · rcases List.mem_cons.mp hx with hx | hx
          · subst hx; rw [f2, g3]
          · exact hl x (by simp [hx])
      · intro x hx
        rcases List.mem_append.mp hx with hx | hx
        · exact ⟨x, by simp [hx], rfl, rfl⟩
        · rcases List.mem_cons.mp hx with hx | hx
          · subst hx; exact ⟨c', by simp, f1.1.trans g1.1, f1.2.trans g1.2⟩
          · exact ⟨x, by simp [hx], rfl, rfl⟩
    · exact absurd k1 (tryConnect_lasting s.now a (g c) g2 g3)

theorem addConnection_keeps (s : St) (h : String) (p : Int) (u : Bool) (hl : Lasting s) :
    Lasting { s with cxs := addConnection s.clock h p u s.cxs } ∧ (∀ c ∈ s.cxs, c ∈ addConnection s.clock h p u s.cxs) ∧
      ∃ c ∈ addConnection s.clock h p u s.cxs, c.host = h ∧ c.port = p := by
  unfold Lasting at hl ⊢
  dsimp only
  rcases addConnection_spec s.clock h p u s.cxs with ⟨hx, e⟩ | ⟨_, e⟩
  · rw [e]; exact ⟨hl, fun c hc => hc, hx⟩
  · rw [e]
    refine ⟨?_, fun c hc => by simp [hc], ⟨h, p, u, false, .stopped, s.clock, s.clock, 0, none⟩, by simp, rfl, rfl⟩
    intro c hc
    rcases List.mem_append.mp hc with hc | hc
    · exact hl c hc
    · rw [List.mem_singleton] at hc; subst hc; rfl

/-- An event that is no advertisement, or is ignored, makes no connection transient. -/
theorem step_lasting (s : St) (e : Ev) (hi : Inv s) (hl : Lasting s) (he : s.proactive = false ∨ ∀ h p u a, e ≠ .advert h p u a) :
    ∃ s', step s e = .ok s' ∧ s'.proactive = s.proactive ∧ Lasting s' ∧ ((∀ h p, e ≠ .duplicate h p) → ∀ c ∈ s.cxs, ∃ c' ∈ s'.cxs, Same c' c) := by
  cases e with
  | start env =>
    have hd := loop_defined (fun c => tryConnect s.clock (env c.host c.port) c) s.clock s.cxs ([], s.timer, s.log)
      (fun c hc => tryConnect_lasting _ _ c (hi.each c hc).sock (hl c hc))
    obtain ⟨⟨d, tm, log⟩, hd⟩ := hd
    have hx : ∃ s', activate env s = .ok s' := by unfold activate; rw [hd]; exact ⟨_, rfl⟩
    obtain ⟨s', hx⟩ := hx
    obtain ⟨tm, log, hloop, e⟩ := activate_spec env s s' hx
    have hsome := (loop_spec _ _ _ _ _ _ _ _ _ hloop).2.1
    have each : ∀ c ∈ s.cxs, ∃ c', (tryConnect s.clock (env c.host c.port) c).cx = some c' ∧ Same c' c ∧ c'.giveUp = 0 := by
      intro c hc
      cases hcx : (tryConnect s.clock (env c.host c.port) c).cx with
      | none => exact absurd hcx (hsome c hc)
      | some c' =>
        have ho := hi.each c hc
        obtain ⟨g1, g2, _⟩ := tryConnect_ok s.clock s.clock _ c c' ho.sock (fun e => Nat.le_trans (ho.fail e) (by have := hi.time; omega)) ho.retry (Nat.le_refl _) hcx
        exact ⟨c', rfl, g1, by rw [g2]; exact hl c hc⟩
    refine ⟨s', hx, by rw [e], ?_, fun _ => ?_⟩
    · rw [e]
      intro c' hc'
      obtain ⟨c, hc, e'⟩ := List.mem_map.mp hc'
      obtain ⟨c1, f1, _, f2⟩ := each c hc
      rw [f1] at e'
      cases e'
      exact f2
    · rw [e]
      intro c hc
      obtain ⟨c1, f1, f2, _⟩ := each c hc
      exact ⟨c1, List.mem_map.mpr ⟨c, hc, by rw [f1]; rfl⟩, f2⟩
  | tick r env =>
    have hd := loop_defined (fun c => tickOne s.clock (env c.host c.port) c) s.clock s.cxs ([], s.timer, s.log)
      (fun c hc => tickOne_lasting _ _ c (hi.each c hc).sock (hl c hc))
    obtain ⟨⟨d, tm, log⟩, hd⟩ := hd
    have hx : ∃ s', timeout r env s = .ok s' := by unfold timeout; rw [hd]; exact ⟨_, rfl⟩
    obtain ⟨s', hx⟩ := hx
    obtain ⟨tm, log, hloop, e1, _, _, _, e5, _, _, _⟩ := timeout_spec r env s s' hx
    have hsome := (loop_spec _ _ _ _ _ _ _ _ _ hloop).2.1
    have each : ∀ c ∈ s.cxs, ∃ c', (tickOne s.clock (env c.host c.port) c).cx = some c' ∧ Same c' c ∧ c'.giveUp = 0 := by
      intro c hc
      cases hcx : (tickOne s.clock (env c.host c.port) c).cx with
      | none => exact absurd hcx (hsome c hc)
      | some c' =>
        have ho := hi.each c hc
        obtain ⟨g1, g2, _⟩ := tickOne_ok s.clock _ c c' ho.sock (fun e => Nat.le_trans (ho.fail e) (by have := hi.time; omega)) ho.retry hcx
        exact ⟨c', rfl, g1, by rw [g2]; exact hl c hc⟩
    refine ⟨s', hx, e5, ?_, fun _ => ?_⟩
    · unfold Lasting
      rw [e1]
      intro c' hc'
      obtain ⟨c, hc, e'⟩ := List.mem_map.mp hc'
      obtain ⟨c1, f1, _, f2⟩ := each c hc
      rw [f1] at e'
      cases e'
      exact f2
    · rw [e1]
      intro c hc
      obtain ⟨c1, f1, f2, _⟩ := each c hc
      exact ⟨c1, List.mem_map.mpr ⟨c, hc, by rw [f1]; rfl⟩, f2⟩
  | bindError hh p u a =>
    unfold step
    dsimp only
    split
    · obtain ⟨h1, h2, _⟩ := addConnection_keeps s hh p u hl
      have hi1 := inv_addConnection s hh p u hi
      split
      · have hg : ∀ c ∈ addConnection s.clock hh p u s.cxs, (decide (c.host = hh) && decide (c.port = p)) = true →
            Same (id c) c ∧ ((id c).sock = true ↔ (id c).st = .connecting) ∧ (id c).giveUp = 0 ∧
            ((id c).st = .connecting → (id c).fail ≤ s.now + failConnectTimeout) ∧ (id c).retry ≤ s.clock + reopenTimeout := by
          intro c hc _
          have ho := hi1.each c hc
          exact ⟨⟨rfl, rfl⟩, ho.sock, h1 c hc, ho.fail, ho.retry⟩
        obtain ⟨s', hs'⟩ := tryFirst_lasting (fun c => decide (c.host = hh) && decide (c.port = p)) id a { s with cxs := addConnection s.clock hh p u s.cxs }
          (fun c hc hq => ⟨(hg c hc hq).2.1, (hg c hc hq).2.2.1⟩)
        obtain ⟨k1, k2⟩ := tryFirst_keeps _ id a _ s' h1 hg hi.time hs'
        refine ⟨s', hs', ?_, k1, fun _ c hc => k2 c (h2 c hc)⟩
        rcases tryFirst_spec _ _ _ _ _ hs' with ⟨e, _⟩ | ⟨_, _, _, _, _, _, _, _, _, e, _⟩
        · rw [e]
        · exact e
      · exact ⟨_, rfl, rfl, h1, fun _ c hc => ⟨c, h2 c hc, rfl, rfl⟩⟩
    · exact ⟨s, rfl, rfl, hl, fun _ c hc => ⟨c, hc, rfl, rfl⟩⟩
  | advert hh p u a =>
    rcases he with he | he
    · unfold step
      dsimp only
      rw [if_neg (by rw [he]; simp)]
      exact ⟨s, rfl, rfl, hl, fun _ c hc => ⟨c, hc, rfl, rfl⟩⟩
    · exact absurd rfl (he hh p u a)
  | duplicate hh p =>
    unfold step
    dsimp only
    split
    · refine ⟨_, rfl, rfl, fun c hc => hl c (List.mem_filter.mp hc).1, fun hd => absurd rfl (hd hh p)⟩
    · exact ⟨s, rfl, rfl, hl, fun _ c hc => ⟨c, hc, rfl, rfl⟩⟩
  | bye gw a =>
    unfold step
    dsimp only
    split
    · exact ⟨s, rfl, rfl, hl, fun _ c hc => ⟨c, hc, rfl, rfl⟩⟩
    · rename_i c0 hf
      split
      · rename_i hst
        obtain ⟨hq0, as, bs, hsplit, hno⟩ := List.find?_eq_some_iff_append.mp hf
        let f : Cx → Tried := fun c => tryConnect s.now a ⟨c.host, c.port, c.unix, c.sock, .waiting, c.retry, c.fail, if c.giveUp ≠ 0 then s.clock + giveUpTimeout else 0, c.gw⟩
        have hat : atFirst (fun c => decide (c.gw = some gw)) f s.cxs = some (c0, f c0, as ++ ((f c0).cx.getD c0) :: bs) := by
          rw [hsplit]
          clear hsplit hf hi hl
          induction as with
          | nil => simp only [List.nil_append]; unfold atFirst; rw [if_pos hq0]
          | cons d l ih =>
            simp only [List.cons_append]
            unfold atFirst
            rw [if_neg (by simpa using hno d (by simp)), ih (fun x hx => hno x (by simp [hx]))]
        have hc0 : c0 ∈ s.cxs := by rw [hsplit]; simp
        have ho := hi.each c0 hc0
        have hk : c0.sock = false := by
          cases hk : c0.sock with
          | false => rfl
          | true => rw [ho.sock.mp hk] at hst; cases hst
        have hg0 := hl c0 hc0
        have hne : (f c0).cx ≠ none := tryConnect_lasting s.now a _ (by simp [hk]) (by simp [hg0])
        cases hcx : (f c0).cx with
        | none => exact absurd hcx hne
        | some c' =>
          obtain ⟨f1, f2, _⟩ := tryConnect_ok s.now s.clock a ⟨c0.host, c0.port, c0.unix, c0.sock, .waiting, c0.retry, c0.fail, if c0.giveUp ≠ 0 then s.clock + giveUpTimeout else 0, c0.gw⟩ c' (by simp [hk]) (by simp) ho.retry hi.time hcx
          rw [hcx] at hat
          refine ⟨⟨as ++ c' :: bs, s.clock, s.now, s.timer || (f c0).timer, s.started, s.proactive, if (f c0).called then (s.now, c0.host, c0.port) :: s.log else s.log⟩, ?_, rfl, ?_, ?_⟩
          · unfold tryFirst
            rw [show atFirst (fun c => decide (c.gw = some gw)) (fun c => tryConnect s.now a ((fun c : Cx => ({ c with giveUp := if c.giveUp ≠ 0 then s.clock + giveUpTimeout else 0, st := .waiting } : Cx)) c)) s.cxs = _ from hat]
            dsimp only
            rw [hcx]
            rfl
          · intro x hx
            rcases List.mem_append.mp hx with hx | hx
            · exact hl x (by rw [hsplit]; simp [hx])
            · rcases List.mem_cons.mp hx with hx | hx
              · subst hx; rw [f2]; simp [hg0]
              · exact hl x (by rw [hsplit]; simp [hx])
          · intro _ x hx
            rw [hsplit] at hx
            rcases List.mem_append.mp hx with hx | hx
            · exact ⟨x, by simp [hx], rfl, rfl⟩
            · rcases List.mem_cons.mp hx with hx | hx
              · subst hx; exact ⟨c', by simp, f1.1, f1.2⟩
              · exact ⟨x, by simp [hx], rfl, rfl⟩
      · exact ⟨s, rfl, rfl, hl, fun _ c hc => ⟨c, hc, rfl, rfl⟩⟩

theorem run_lasting (evs : List (Nat × Ev)) : ∀ s, Inv s → Lasting s → (s.proactive = false ∨ ∀ e ∈ evs, ∀ h p u a, e.2 ≠ .advert h p u a) →
    ∃ s', run s evs = .ok s' ∧ ((∀ e ∈ evs, ∀ h p, e.2 ≠ .duplicate h p) → ∀ c ∈ s.cxs, ∃ c' ∈ s'.cxs, Same c' c) := by
  induction evs with
  | nil => intro s _ _ _; exact ⟨s, rfl, fun _ c hc => ⟨c, hc, rfl, rfl⟩⟩
  | cons e l ih =>
    intro s hi hl he
    obtain ⟨dt, e⟩ := e
    obtain ⟨s1, h1, h2, h3, h4⟩ := step_lasting { s with clock := s.clock + dt } e (inv_tick_clock s dt hi) hl
      (he.imp id fun h => h (dt, e) (by simp))
    obtain ⟨s', h5, h6⟩ := ih s1 (inv_step _ s1 e (inv_tick_clock s dt hi) h1) h3 (by rw [h2]; exact he.imp id fun h x hx => h x (by simp [hx]))
    refine ⟨s', ?_, ?_⟩
    · unfold run; rw [h1]; exact h5
    · intro hd c hc
      obtain ⟨c1, k1, k2⟩ := h4 (hd (dt, e) (by simp)) c hc
      obtain ⟨c2, k3, k4⟩ := h6 (fun x hx => hd x (by simp [hx])) c1 k1
      exact ⟨c2, k3, k4.1.trans k2.1, k4.2.trans k2.2⟩

theorem init_spec (clock : Nat) (pro : Bool) (peers : List (String × Int × Bool)) :
    Lasting (init clock pro peers) ∧ ∀ p ∈ peers, ∃ c ∈ (init clock pro peers).cxs, c.host = p.1 ∧ c.port = p.2.1 := by
  unfold init Lasting
  dsimp only
  suffices h : ∀ l : List Cx, (∀ c ∈ l, c.giveUp = 0) →
      (∀ c ∈ peers.foldl (fun l p => addConnection clock p.1 p.2.1 p.2.2 l) l, c.giveUp = 0) ∧
      (∀ c ∈ l, c ∈ peers.foldl (fun l p => addConnection clock p.1 p.2.1 p.2.2 l) l) ∧
      ∀ p ∈ peers, ∃ c ∈ peers.foldl (fun l p => addConnection clock p.1 p.2.1 p.2.2 l) l, c.host = p.1 ∧ c.port = p.2.1 by
    obtain ⟨h1, _, h3⟩ := h [] (by simp)
    exact ⟨h1, h3⟩
  induction peers with
  | nil => intro l hl; exact ⟨hl, fun c hc => hc, by simp⟩
  | cons p ps ih =>
    intro l hl
    obtain ⟨a1, a2, a3⟩ := addConnection_keeps ⟨l, clock, clock, false, false, pro, []⟩ p.1 p.2.1 p.2.2 hl
    obtain ⟨h1, h2, h3⟩ := ih (addConnection clock p.1 p.2.1 p.2.2 l) a1
    refine ⟨h1, fun c hc => h2 c (a2 c hc), ?_⟩
    intro q hq
    rcases List.mem_cons.mp hq with e | e
    · subst e
      obtain ⟨c, hc, e⟩ := a3
      exact ⟨c, h2 c hc, e⟩
    · exact h3 q e

end Verif.GwClient
