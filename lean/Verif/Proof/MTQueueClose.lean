import Verif.Proof.MTQueueOpen
/-! # Threaded channels: closing comes to an end -/
set_option linter.unusedSectionVars false
namespace Verif.MTQueue
variable {E X : Type}

theorem mstep_w (size : Nat) (a : App E X) (s : St E X) : (mstep size a s).w = s.w ∨ (mstep size a s).w = wk s.w := by
  have hck : ∀ (s : St E X) k, ((k s).w = s.w ∨ (k s).w = wk s.w) → (checkErr s k).w = s.w ∨ (checkErr s k).w = wk s.w := by
    intro s k h; unfold checkErr; split
    · exact h
    · right; rfl
  have htk : ∀ f, (take f s).w = s.w ∨ (take f s).w = wk s.w := by
    intro f; unfold take; split
    · left; rfl
    · split
      · right; rfl
      · left; rfl
  have hpl : ∀ e, (postLoop size e s).w = s.w ∨ (postLoop size e s).w = wk s.w := by
    intro e; unfold postLoop; split
    · left; rfl
    · apply hck; right; rfl
  have hgl : ∀ f, (getLoop f s).w = s.w ∨ (getLoop f s).w = wk s.w := by
    intro f; unfold getLoop; split
    · left; rfl
    · exact hck _ _ (htk f)
  have hfl : ∀ r, (flushLoop r s).w = s.w := by
    intro r; unfold flushLoop flushed; split
    · rfl
    · split <;> rfl
  unfold mstep
  cases s.m with
  | idle => left; cases a <;> rfl
  | asleep p => left; rfl
  | closing r => left; simp only; split <;> [rfl; (split <;> rfl)]
  | join r =>
    simp only
    split
    · rename_i hd
      unfold checkErr; split
      · left; rw [hd]; rfl
      · right; rw [hd]; rfl
    · left; rfl
  | want p =>
    simp only
    split
    · left; rfl
    · unfold mbody
      split
      · cases p with
        | post0 e =>
          simp only; split
          · left; rfl
          · exact hck _ _ (hpl e)
        | post1 e => exact hpl e
        | get0 b f =>
          simp only
          apply hck
          dsimp only
          split
          · split
            · left; rfl
            · split
              · exact hgl f
              · left; rfl
          · exact htk f
        | get1 f => exact hgl f
        | flush0 r => left; exact hfl r
        | flush1 r => left; exact hfl r
        | close1 r => right; simp only [closeLoop]; split <;> rfl
        | close2 r => left; simp only [closeLoop]; split <;> rfl
      · left; rfl

theorem mstep_gone (size : Nat) (a : App E X) (s : St E X) (h : s.gone = true) : (mstep size a s).gone = true := by
  have hck : ∀ (s : St E X) k, s.gone = true → (k s).gone = true → (checkErr s k).gone = true := by
    intro s k h1 h; unfold checkErr; split
    · exact h
    · exact h1
  have htk : ∀ f, (take f s).gone = true := by
    intro f; unfold take; split
    · exact h
    · split <;> exact h
  have hpl : ∀ e, (postLoop size e s).gone = true := by
    intro e; unfold postLoop; split
    · exact h
    · exact hck _ _ h h
  have hgl : ∀ f, (getLoop f s).gone = true := by
    intro f; unfold getLoop; split
    · exact h
    · exact hck _ _ h (htk f)
  have hfl : ∀ r, (flushLoop r s).gone = true := by
    intro r; unfold flushLoop flushed; split
    · exact h
    · split <;> exact h
  unfold mstep
  cases s.m with
  | idle => cases a <;> exact h
  | asleep p => exact h
  | closing r =>
    simp only
    rw [if_pos h]
    exact h
  | join r =>
    simp only
    split
    · unfold checkErr; split <;> rfl
    · exact h
  | want p =>
    simp only
    split
    · exact h
    · unfold mbody
      split
      · cases p with
        | post0 e =>
          simp only; split
          · exact h
          · exact hck _ _ h (hpl e)
        | post1 e => exact hpl e
        | get0 b f =>
          simp only
          apply hck _ _ h
          dsimp only
          split
          · split
            · exact h
            · split
              · exact hgl f
              · exact h
          · exact htk f
        | get1 f => exact hgl f
        | flush0 r => exact hfl r
        | flush1 r => exact hfl r
        | close1 r => simp only [closeLoop]; split <;> exact h
        | close2 r => simp only [closeLoop]; split <;> exact h
      · exact h

theorem sends_mk {m : MPc E X} (h : Sends m = true) : Sends (mk m) = true := by
  cases m with
  | asleep p =>
    cases p with
    | flush0 r => cases r <;> simp_all [Sends, mk]
    | flush1 r => cases r <;> simp_all [Sends, mk]
    | _ => simp_all [Sends, mk]
  | _ => simp_all [mk]

/-- Who posts or flushes does not come to wait for an event. -/
theorem sends_mstep {size : Nat} {s : St E X} (a : App E X) (h : Sends s.m = true) (f : E → Bool) : (mstep size a s).m ≠ .asleep (.get1 f) := by
  have hck : ∀ k : St E X → St E X, (k s).m ≠ .asleep (.get1 f) → (checkErr s k).m ≠ .asleep (.get1 f) := by
    intro k h; unfold checkErr; split
    · exact h
    · simp [ret]
  have hpl : ∀ e, (postLoop size e s).m ≠ .asleep (.get1 f) := by
    intro e; unfold postLoop; split
    · simp
    · apply hck; simp [ret]
  have hfl : ∀ r, (flushLoop r s).m ≠ .asleep (.get1 f) := by
    intro r; unfold flushLoop flushed; split
    · simp
    · split <;> simp [ret]
  unfold mstep
  cases hm : s.m with
  | want p =>
    rw [hm] at h
    simp only
    split
    · rw [hm]; simp
    · unfold mbody
      split
      · cases p with
        | post0 e =>
          simp only; split
          · simp
          · exact hck _ (hpl e)
        | post1 e => exact hpl e
        | flush0 r => exact hfl r
        | flush1 r => exact hfl r
        | _ => simp [Sends] at h
      · cases p <;> simp_all [Sends]
  | asleep p => rw [hm] at h; simp only [hm]; cases p <;> simp_all [Sends]
  | _ => rw [hm] at h; simp [Sends] at h

/-! ## Closing -/

/-- The application is closing the channel, with nothing to be sent and nothing thrown. -/
structure Closing (s : St E X) : Prop where
  fl : Flushed s
  calm : Calm s
  call : (closeRet s.m).isSome = true
  ngone : s.gone = false
  sleep : ∀ p, s.m = .asleep p → (s.rinit = false ∧ late s.m = false) ∨ (∃ r, p = .close2 r ∧ s.w ≠ .done)
  dr : s.w = .drain ∨ s.w = .asleep .drain ∨ s.w = .woken .drain → s.rclosed = true
  awake : late s.m = true → ∀ k, s.w ≠ .asleep k
  lri : late s.m = true → s.rinit = true

theorem wstep_rinit (size : Nat) (v : Env E X) (s : St E X) : s.rinit = true → (wstep size v s).rinit = true := by
  have hcr : ∀ s : St E X, (closeRemote s).rinit = s.rinit := by intro s; unfold closeRemote; split <;> rfl
  intro h
  unfold wstep
  cases s.w with
  | asleep k => exact h
  | done => exact h
  | start => simp only; cases v.init.outcome <;> rfl
  | top => simp only; split <;> exact h
  | errLoop => simp only; split <;> [exact h; (split <;> (simp only [hcr]; exact h))]
  | postLoop => simp only; split <;> [exact h; (split <;> simp only [bcast_rinit, hcr] <;> exact h)]
  | posting e => exact h
  | relock x => cases x <;> exact h
  | mid => simp only; split <;> [exact h; (split <;> simp only [hcr] <;> exact h)]
  | drain => simp only; split <;> exact h
  | fetch =>
    simp only
    cases v.fetch.outcome with
    | error x => exact h
    | ok g => cases g <;> simp only <;> split <;> simp only [hcr, bcast_rinit] <;> exact h
  | woken k => exact h

/-- The worker goes to sleep in no state of the application that has emptied the queues, and goes on to drain only if the remote channel is closed. -/
theorem wstep_closing {size : Nat} {s : St E X} (hpos : 0 < size) (v : Env E X) (hi : Inv size s) (h : Closing s) :
    ((wstep size v s).w = .drain ∨ (wstep size v s).w = .asleep .drain ∨ (wstep size v s).w = .woken .drain → (wstep size v s).rclosed = true) ∧
    (late s.m = true → ∀ k, (wstep size v s).w ≠ .asleep k) ∧
    ((wstep size v s).w = .done → s.w = .done ∨ (wstep size v s).m = mk s.m) := by
  have hcr : ∀ s : St E X, (closeRemote s).w = s.w := by intro s; unfold closeRemote; split <;> rfl
  have he := h.calm.1
  unfold wstep
  cases hw : s.w with
  | asleep k =>
    refine ⟨fun a => h.dr a, fun a => h.awake a, ?_⟩
    simp [hw]
  | done => simp [hw]
  | start => simp only; cases v.init.outcome <;> simp [addErr, wk]
  | top => simp only; split <;> simp [wk]
  | errLoop => simp [he]
  | postLoop =>
    simp only [h.fl.post]
    simp
  | posting e => simp
  | relock x =>
    cases x with
    | none => simp
    | some x => exact absurd hw (h.calm.2 x)
  | mid =>
    simp only
    split
    · rename_i hf
      refine ⟨by simp, ?_, by simp⟩
      intro hl
      have := (hi.late_empty (Or.inl hl)).2.1
      rw [this] at hf; simp at hf; omega
    · split
      · rename_i hr; simp only [hr]; simp
      · simp
  | drain =>
    simp only
    split
    · simp
    · rename_i hg
      refine ⟨fun _ => h.dr (Or.inl hw), ?_, by simp⟩
      intro hl
      have := (hi.late_empty (Or.inl hl)).2.1
      rw [this] at hg; simp at hg
  | fetch =>
    have hnl : ¬ late s.m = true := by intro hl; exact (hi.late_empty (Or.inl hl)).2.2.2 hw
    simp only
    cases hg : v.fetch.outcome with
    | error x => simp [addErr, wk]
    | ok g =>
      cases g with
      | event e => simp only; split <;> simp [hcr, wk]
      | wait => simp only; split <;> simp [hcr, hnl]
      | other => simp only; split <;> simp [hcr]
  | woken k =>
    cases k with
    | drain => simp [WW.resume, h.dr (Or.inr (Or.inr hw))]
    | _ => simp [WW.resume]

theorem closing_wstep {size : Nat} {s : St E X} (hpos : 0 < size) (v : Env E X) (hv : v.silent) (hi : Inv size s) (h : Closing s) : Closing (wstep size v s) := by
  obtain ⟨h1, h2, h3⟩ := wstep_closing hpos v hi h
  obtain ⟨hm, hg, _⟩ := wstep_app size v s
  have hl : late (wstep size v s).m = late s.m := by rcases hm with hm | hm <;> rw [hm]; exact late_mk _
  refine ⟨flushed_wstep v h.fl, calm_wstep v hv h.calm, ?_, by rw [hg]; exact h.ngone, ?_, h1, ?_, ?_⟩
  · rcases hm with hm | hm <;> rw [hm]
    · exact h.call
    · rw [closeRet_mk]; exact h.call
  · intro p hp
    have hms : (wstep size v s).m = s.m := by
      rcases hm with hm | hm
      · exact hm
      · rw [hm] at hp; exact absurd hp (mk_awake _ _)
    rw [hms] at hp
    rcases h.sleep p hp with ⟨a, b⟩ | ⟨r, a, b⟩
    · have hw := hi.rinit.1 a
      exfalso
      have : (wstep size v s).m = mk s.m := by
        unfold wstep; rw [hw]; simp only; cases v.init.outcome <;> simp [addErr]
      rw [hms, hp] at this
      cases this
    · right
      refine ⟨r, a, ?_⟩
      intro hd
      rcases h3 hd with h | h
      · exact b h
      · rw [hms, hp] at h; cases h
  · rw [hl]; exact h2
  · rw [hl]; intro a; exact wstep_rinit size v s (h.lri a)

theorem closing_bcast {s : St E X} (h : Closing s) : Closing (bcast s) := by
  refine ⟨flushed_bcast h.fl, ⟨h.calm.1, ?_⟩, by simp [h.call], h.ngone, ?_, ?_, ?_, ?_⟩
  · simp only [bcast_w]; intro x a; apply h.calm.2 x; revert a; cases s.w <;> simp [wk]
  · intro p a; simp only [bcast_m] at a; exact absurd a (mk_awake _ _)
  · simp only [bcast_w, bcast_rclosed]; intro a; apply h.dr; revert a; cases s.w <;> simp [wk]
  · intro _ k; simp only [bcast_w]; exact wk_awake _ _
  · simp only [bcast_m, late_mk]; exact h.lri

theorem closing_mstep {size : Nat} {s : St E X} (a : App E X) (hi : Inv size s) (h2 : Inv2 s) (h : Closing s) : Closing (mstep size a s) ∨ (mstep size a s).gone = true := by
  have hfl := flushed_mstep (size := size) a hi h2 h.fl
  have hcall := h.call
  revert hfl
  unfold mstep
  cases hm : s.m with
  | idle => rw [hm] at hcall; cases hcall
  | asleep p => intro _; exact Or.inl h
  | closing r =>
    simp only
    rw [if_neg (by rw [h.ngone]; simp)]
    have hnl : late s.m = false := by rw [hm]; rfl
    split
    · intro hfl; exact Or.inl ⟨hfl, h.calm, rfl, h.ngone, by simp, h.dr, by simp [late], by simp [late]⟩
    · intro hfl; exact Or.inl ⟨hfl, h.calm, rfl, h.ngone, by simp, h.dr, by simp [late], by simp [late]⟩
  | join r =>
    simp only
    split
    · intro _; right; unfold checkErr; split <;> rfl
    · intro _; exact Or.inl h
  | want p =>
    simp only
    split
    · intro _; exact Or.inl h
    · unfold mbody
      split
      · rename_i hri
        have hflush : ∀ r, p = .flush0 r ∨ p = .flush1 r → Flushed (flushLoop r s) → Closing (flushLoop r s) ∨ (flushLoop r s).gone = true := by
          intro r hp hf
          left
          cases r with
          | none => rw [hm] at hcall; rcases hp with hp | hp <;> rw [hp] at hcall <;> cases hcall
          | some r =>
            revert hf
            unfold flushLoop
            rw [if_neg (by rw [h.fl.post]; simp)]
            intro hf
            exact ⟨hf, h.calm, rfl, h.ngone, by simp [flushed], h.dr, by simp [flushed, late], by simp [flushed, late]⟩
        cases p with
        | post0 e => rw [hm] at hcall; cases hcall
        | post1 e => rw [hm] at hcall; cases hcall
        | get0 b f => rw [hm] at hcall; cases hcall
        | get1 f => rw [hm] at hcall; cases hcall
        | flush0 r => exact hflush r (Or.inl rfl)
        | flush1 r => exact hflush r (Or.inr rfl)
        | close1 r =>
          simp only [closeLoop]
          have hcb := closing_bcast h
          split
          · intro hfl
            exact Or.inl ⟨hfl, hcb.calm, rfl, h.ngone, by simp, hcb.dr, fun _ => wk_awake _, fun _ => hri⟩
          · rename_i hrc
            intro hfl
            refine Or.inl ⟨hfl, hcb.calm, rfl, h.ngone, ?_, hcb.dr, fun _ => wk_awake _, fun _ => hri⟩
            intro p hp
            simp only [MPc.asleep.injEq] at hp
            refine Or.inr ⟨r, hp.symm, ?_⟩
            intro hd
            have hd : s.w = .done := by simpa [wk_done] using hd
            exact hrc (hi.done_closed hd)
        | close2 r =>
          simp only [closeLoop]
          have haw := h.awake (by rw [hm]; rfl)
          split
          · intro hfl
            exact Or.inl ⟨hfl, h.calm, rfl, h.ngone, by simp, h.dr, fun _ => haw, fun _ => hri⟩
          · rename_i hrc
            intro hfl
            refine Or.inl ⟨hfl, h.calm, rfl, h.ngone, ?_, h.dr, fun _ => haw, fun _ => hri⟩
            intro p hp
            simp only [MPc.asleep.injEq] at hp
            refine Or.inr ⟨r, hp.symm, ?_⟩
            intro hd
            exact hrc (hi.done_closed hd)
      · rename_i hri
        have hri : s.rinit = false := by simpa using hri
        have hnl : late s.m = false := by
          cases hl : late s.m with
          | false => rfl
          | true => have := h.lri hl; rw [hri] at this; cases this
        have hnl' : late (.asleep p : MPc E X) = false := by rw [hm] at hnl; rw [← hnl]; cases p <;> rfl
        intro hfl
        refine Or.inl ⟨hfl, h.calm, ?_, h.ngone, ?_, h.dr, ?_, ?_⟩
        · rw [hm] at hcall; rw [← hcall]
          have := closeRet_mk (.asleep p : MPc E X)
          simp only [mk] at this
          simp only [this]
        · intro q hq
          exact Or.inl ⟨hri, hnl'⟩
        · simp only [hnl']; simp
        · simp only [hnl']; simp

/-! ## A way to the end -/

/-- A remote channel that takes everything and has nothing. -/
def quietEnv : Env E X := ⟨⟨.ok (), false⟩, ⟨.ok (), false⟩, ⟨.ok .wait, false⟩⟩

theorem quiet_silent : (quietEnv : Env E X).silent := ⟨rfl, rfl, by intro x; simp [quietEnv]⟩

/-- The call can end. -/
def Ends (size : Nat) (s : St E X) : Prop := ∃ acts, (run size s acts).m = .idle

theorem ends_step {size : Nat} {s : St E X} (a : Act E X) (h : Ends size (step size s a)) : Ends size s := by
  obtain ⟨l, h⟩ := h; exact ⟨a :: l, h⟩

theorem ends_now {size : Nat} {s : St E X} (h : s.m = .idle) : Ends size s := ⟨[], h⟩

/-- Steps of the worker before it gives the lock away. -/
def rankA (s : St E X) : Nat :=
  match s.w with
  | .start => 8
  | .fetch => if s.closed || s.rclosed then 7 else 1
  | .top => if s.rclosed && s.get.isEmpty then 1 else 6
  | .errLoop => 5
  | .postLoop => 4
  | .mid => 3
  | .drain => 2
  | _ => 0

theorem rankA_step {size : Nat} {s : St E X} (h : Closing s) (hw : s.w.holds = true ∨ s.w = .start) : rankA (wstep size quietEnv s) < rankA s := by
  have he := h.calm.1
  have hp := h.fl.post
  unfold wstep
  cases hww : s.w with
  | start => simp [quietEnv, rankA, hww, wk]
  | top => 
    simp only
    split
    · rename_i hc; simp only [rankA, bcast_w, wk, hww, hc]; simp
    · rename_i hc; simp only [rankA, hww]; rw [if_neg hc]; omega
  | errLoop => simp [he, rankA, hww]
  | postLoop => simp [hp, rankA, hww]
  | mid =>
    simp only
    split
    · simp [rankA, hww]
    · unfold closeRemote
      split
      · simp [rankA, hww]
      · rename_i hc
        split
        · simp [rankA, hww]
        · rename_i hr
          simp [rankA, hww]
          simp [hc, hr]
  | drain =>
    have hr := h.dr (Or.inl hww)
    simp only
    split
    · rename_i hg; simp [rankA, hww, hr, hg]
    · simp [rankA, hww]
  | fetch =>
    simp only [quietEnv, Bool.or_false]
    unfold closeRemote
    split
    · rename_i hc
      have hc : s.closed = true := hc
      simp [rankA, hww, hc]; split <;> omega
    · rename_i hc
      have hc : s.closed = false := by simpa using hc
      split
      · rename_i hr
        have hr : s.rclosed = true := hr
        simp [rankA, hww, hr]; split <;> omega
      · simp [rankA, hww]; split <;> omega
  | _ => rw [hww] at hw; simp [WPc.holds] at hw

/-- The worker gives the lock away. -/
theorem free {size : Nat} (hpos : 0 < size) (m0 : MPc E X)
    (hk : ∀ t : St E X, Closing t → Inv size t → Inv2 t → t.m = m0 ∨ t.m = mk m0 → t.w.holds = false → t.w ≠ .start → Ends size t) :
    ∀ (n : Nat) (s : St E X), rankA s ≤ n → Closing s → Inv size s → Inv2 s → s.m = m0 ∨ s.m = mk m0 → Ends size s := by
  intro n
  have hmk : ∀ m : MPc E X, mk (mk m) = mk m := by intro m; cases m <;> rfl
  have hmm : ∀ s : St E X, s.m = m0 ∨ s.m = mk m0 → (wstep size quietEnv s).m = m0 ∨ (wstep size quietEnv s).m = mk m0 := by
    intro s h
    rcases (wstep_app size quietEnv s).1 with a | a <;> rcases h with b | b <;> rw [a, b]
    · exact Or.inl rfl
    · exact Or.inr rfl
    · exact Or.inr rfl
    · rw [hmk]; exact Or.inr rfl
  induction n with
  | zero =>
    intro s hr h hi h2 hm
    by_cases hw : s.w.holds = true ∨ s.w = .start
    · have := rankA_step (size := size) h hw; omega
    · exact hk s h hi h2 hm (by simp at hw; exact hw.1) (by intro a; exact hw (Or.inr a))
  | succ n ih =>
    intro s hr h hi h2 hm
    by_cases hw : s.w.holds = true ∨ s.w = .start
    · have := rankA_step (size := size) h hw
      exact ends_step (.worker quietEnv) (ih _ (by show rankA (wstep size quietEnv s) ≤ n; omega) (closing_wstep hpos _ quiet_silent hi h) (inv_wstep quietEnv hi) (inv2_wstep quietEnv h2) (hmm s hm))
    · exact hk s h hi h2 hm (by simp at hw; exact hw.1) (by intro a; exact hw (Or.inr a))

/-- Steps of the worker to its end. -/
def rankB (s : St E X) : Nat :=
  match s.w with
  | .start => 7
  | .woken _ => 7
  | .posting _ => 6
  | .relock _ => 5
  | .top => if s.rclosed then 1 else 6
  | .errLoop => 5
  | .postLoop => 4
  | .mid => 3
  | .drain => 2
  | _ => 0

theorem rankB_step {size : Nat} {s : St E X} (hpos : 0 < size) (hi : Inv size s) (h : Closing s) (hl : late s.m = true) (hw : s.w ≠ .done) : rankB (wstep size quietEnv s) < rankB s := by
  have he := h.calm.1
  have hp := h.fl.post
  obtain ⟨hc, hg, _, hnf⟩ := hi.late_empty (Or.inl hl)
  unfold wstep
  cases hww : s.w with
  | start => simp [quietEnv, rankB, hww, wk]
  | top => 
    simp only [hg]
    split
    · rename_i hr; simp at hr; simp [rankB, wk, hww, hr]
    · rename_i hr; simp at hr; simp [rankB, hww, hr]
  | errLoop => simp [he, rankB, hww]
  | postLoop => simp [hp, rankB, hww]
  | mid =>
    simp only [hg]
    rw [if_neg (by simp; omega)]
    unfold closeRemote
    rw [if_pos hc]
    simp [rankB, hww]
  | drain =>
    have hr := h.dr (Or.inl hww)
    simp [hg, rankB, hww, hr]
  | fetch => exact absurd hww hnf
  | posting e => simp [rankB, hww]
  | relock x =>
    cases x with
    | none => simp [rankB, hww]
    | some x => exact absurd hww (h.calm.2 x)
  | woken k => cases k <;> simp [rankB, hww, WW.resume]; all_goals (split <;> omega)
  | asleep k => exact absurd hww (h.awake hl k)
  | done => exact absurd hww hw

theorem late_ends {size : Nat} (hpos : 0 < size) : ∀ (n : Nat) (s : St E X), rankB s ≤ n → Closing s → Inv size s → Inv2 s → late s.m = true → Ends size s := by
  have hfin : ∀ s : St E X, Closing s → Inv size s → late s.m = true → s.w = .done → Ends size s := by
    intro s h hi hl hd
    have hj : ∀ (t : St E X) (r : Ret E X), t.m = .join r → t.w = .done → t.err = [] → Ends size t := by
      intro t r h1 h2 h3
      apply ends_step (.app .close)
      apply ends_now
      show (mstep size .close t).m = .idle
      unfold mstep
      rw [h1, h2]
      simp only [checkErr, h3]
      rfl
    cases hm : s.m with
    | join r => exact hj s r hm hd h.calm.1
    | want p =>
      cases p with
      | close2 r =>
        apply ends_step (.app .close)
        have hs : step size s (.app .close) = { s with m := .join r } := by
          show mstep size .close s = _
          unfold mstep
          rw [hm]
          simp only
          rw [if_neg (by rw [hd]; simp [WPc.holds])]
          unfold mbody
          rw [if_pos (h.lri hl)]
          simp only [closeLoop]
          rw [if_pos (hi.done_closed hd)]
        rw [hs]
        exact hj _ r rfl hd h.calm.1
      | _ => rw [hm] at hl; cases hl
    | asleep p =>
      rcases h.sleep p hm with ⟨_, a⟩ | ⟨r, _, a⟩
      · rw [hl] at a; cases a
      · exact absurd hd a
    | _ => rw [hm] at hl; cases hl
  intro n
  induction n with
  | zero =>
    intro s hr h hi h2 hl
    by_cases hd : s.w = .done
    · exact hfin s h hi hl hd
    · have := rankB_step hpos hi h hl hd; omega
  | succ n ih =>
    intro s hr h hi h2 hl
    by_cases hd : s.w = .done
    · exact hfin s h hi hl hd
    · have := rankB_step hpos hi h hl hd
      refine ends_step (.worker quietEnv) (ih _ (by show rankB (wstep size quietEnv s) ≤ n; omega) (closing_wstep hpos _ quiet_silent hi h) (inv_wstep quietEnv hi) (inv2_wstep quietEnv h2) ?_)
      show late (wstep size quietEnv s).m = true
      rcases (wstep_app size quietEnv s).1 with a | a <;> rw [a]
      · exact hl
      · rw [late_mk]; exact hl

/-- Closing a flushed channel can always come to an end. -/
theorem closing_ends {size : Nat} (hpos : 0 < size) (s : St E X) (h : Closing s) (hi : Inv size s) (h2 : Inv2 s) : Ends size s := by
  have hstep : ∀ (t : St E X), Closing t → Inv size t → Inv2 t → (Closing (mstep size .close t) → Inv size (mstep size .close t) → Inv2 (mstep size .close t) → Ends size (mstep size .close t)) →
      (mstep size .close t).gone = false → Ends size t := by
    intro t h hi h2 hk hg
    apply ends_step (.app .close)
    obtain ⟨a, b⟩ := inv_mstep (size := size) .close hi h2
    rcases closing_mstep (size := size) .close hi h2 h with c | c
    · exact hk c a b
    · rw [hg] at c; cases c
  have hlate : ∀ t : St E X, Closing t → Inv size t → Inv2 t → late t.m = true → Ends size t := fun t a b c d => late_ends hpos _ t (Nat.le_refl _) a b c d
  have hri : ∀ t : St E X, Inv size t → t.w ≠ .start → t.rinit = true := by
    intro t hi hw
    cases hr : t.rinit with
    | true => rfl
    | false => exact absurd (hi.rinit.1 hr) hw
  -- at `close1`
  have hc1 : ∀ (r : Ret E X) (t : St E X), Closing t → Inv size t → Inv2 t → t.m = .want (.close1 r) → Ends size t := by
    intro r t h hi h2 hm
    refine free hpos (.want (.close1 r)) ?_ _ t (Nat.le_refl _) h hi h2 (Or.inl hm)
    intro t h hi h2 hm hh hs
    have hm : t.m = .want (.close1 r) := by rcases hm with hm | hm <;> exact hm
    have he : (mstep size .close t) = closeLoop r (bcast { t with get := [], post := [] }) := by
      unfold mstep; rw [hm]; simp only; rw [if_neg (by rw [hh]; simp)]
      unfold mbody; rw [if_pos (hri t hi hs), ← hm]
    apply hstep t h hi h2
    · intro a b c
      apply hlate _ a b c
      rw [he]; unfold closeLoop; split <;> rfl
    · rw [he]; unfold closeLoop; split <;> exact h.ngone
  have hfl : ∀ (r : Ret E X) (p : MP E X), (p = .flush0 (some r) ∨ p = .flush1 (some r)) → ∀ (t : St E X), Closing t → Inv size t → Inv2 t → t.m = .want p ∨ t.m = .asleep p → Ends size t := by
    intro r p hp t h hi h2 hm
    have hpl : late (.asleep p : MPc E X) = false := by rcases hp with rfl | rfl <;> rfl
    refine free hpos t.m ?_ _ t (Nat.le_refl _) h hi h2 (Or.inl rfl)
    intro u hu hiu h2u hmu hh hs
    have hmu : u.m = .want p := by
      have : u.m = .want p ∨ u.m = .asleep p := by
        rcases hmu with a | a <;> rcases hm with b | b <;> rw [a, b] <;> simp [mk]
      rcases this with a | a
      · exact a
      · exfalso
        rcases hu.sleep p a with ⟨c, _⟩ | ⟨r', c, _⟩
        · rw [hri u hiu hs] at c; cases c
        · rcases hp with rfl | rfl <;> cases c
    have he : (mstep size .close u) = { u with m := .want (.close1 r) } := by
      unfold mstep; rw [hmu]; simp only; rw [if_neg (by rw [hh]; simp)]
      unfold mbody; rw [if_pos (hri u hiu hs)]
      have : flushLoop (some r) u = { u with m := .want (.close1 r) } := by
        unfold flushLoop; rw [if_neg (by rw [hu.fl.post]; simp)]; rfl
      rcases hp with rfl | rfl <;> exact this
    apply hstep u hu hiu h2u
    · intro a b c
      exact hc1 r _ a b c (by rw [he])
    · rw [he]; exact hu.ngone
  have hcall := h.call
  cases hm : s.m with
  | idle => rw [hm] at hcall; cases hcall
  | join r => exact hlate s h hi h2 (by rw [hm]; rfl)
  | closing r =>
    have he : (mstep size .close s).gone = false ∧ ((mstep size .close s).m = .want (.close1 r) ∨ (mstep size .close s).m = .want (.flush0 (some r))) := by
      unfold mstep; rw [hm]; simp only; rw [if_neg (by rw [h.ngone]; simp)]
      split
      · exact ⟨h.ngone, Or.inl rfl⟩
      · exact ⟨h.ngone, Or.inr rfl⟩
    refine hstep s h hi h2 ?_ he.1
    intro a b c
    rcases he.2 with e | e
    · exact hc1 r _ a b c e
    · exact hfl r _ (Or.inl rfl) _ a b c (Or.inl e)
  | want p =>
    cases p with
    | flush0 r =>
      cases r with
      | none => rw [hm] at hcall; cases hcall
      | some r => exact hfl r _ (Or.inl rfl) s h hi h2 (Or.inl hm)
    | flush1 r =>
      cases r with
      | none => rw [hm] at hcall; cases hcall
      | some r => exact hfl r _ (Or.inr rfl) s h hi h2 (Or.inl hm)
    | close1 r => exact hc1 r s h hi h2 hm
    | close2 r => exact hlate s h hi h2 (by rw [hm]; rfl)
    | _ => rw [hm] at hcall; cases hcall
  | asleep p =>
    cases p with
    | flush0 r =>
      cases r with
      | none => rw [hm] at hcall; cases hcall
      | some r => exact hfl r _ (Or.inl rfl) s h hi h2 (Or.inr hm)
    | flush1 r =>
      cases r with
      | none => rw [hm] at hcall; cases hcall
      | some r => exact hfl r _ (Or.inr rfl) s h hi h2 (Or.inr hm)
    | close1 r =>
      apply ends_step .spurious
      exact hc1 r _ (closing_bcast h) (inv_bcast hi) (inv2_bcast h2) (by show mk s.m = _; rw [hm]; rfl)
    | close2 r => exact hlate s h hi h2 (by rw [hm]; rfl)
    | _ => rw [hm] at hcall; cases hcall

/-- After closing every call ends. -/
theorem gone_ends {size : Nat} (s : St E X) (hi : Inv size s) (h2 : Inv2 s) (hg : s.gone = true) : Ends size s := by
  obtain ⟨hd, he⟩ := hi.gone_done hg
  obtain ⟨_, hge, hp, _⟩ := hi.late_empty (Or.inr hg)
  have hrc := hi.done_closed hd
  have hri : s.rinit = true := by
    cases hr : s.rinit with
    | true => rfl
    | false => have := hi.rinit.1 hr; rw [hd] at this; cases this
  have hcl : ∀ (t : St E X) (r : Ret E X), t.m = .closing r → t.gone = true → Ends size t := by
    intro t r hm hg
    apply ends_step (.app .close)
    apply ends_now
    show (mstep size .close t).m = .idle
    unfold mstep; rw [hm]; simp only; rw [if_pos hg]; rfl
  have hb : ∀ p, s.m = .want p → mstep size .close s = mbody size p s := by
    intro p hm; unfold mstep; rw [hm]; simp only; rw [if_neg (by rw [hd]; simp [WPc.holds])]
  rcases h2.goneCalls hg with ⟨a, hm⟩ | hm | ⟨e, hm⟩ | ⟨b, f, hm⟩ | hm
  · exact hcl s a hm hg
  · exact ends_now hm
  · apply ends_step (.app .close)
    show Ends size (mstep size .close s)
    rw [hb _ hm]
    unfold mbody
    rw [if_pos hri]
    simp only
    rw [if_pos hrc]
    exact hcl _ (.dropped e) rfl hg
  · apply ends_step (.app .close)
    show Ends size (mstep size .close s)
    rw [hb _ hm]
    unfold mbody
    rw [if_pos hri]
    simp only [checkErr, he, List.isEmpty_nil, if_true, hge]
    rw [if_pos hrc]
    exact hcl _ .closed rfl hg
  · apply ends_step (.app .close)
    show Ends size (mstep size .close s)
    rw [hb _ hm]
    unfold mbody
    rw [if_pos hri]
    simp only [flushLoop, hp]
    rw [if_neg (by simp)]
    exact ends_now rfl

theorem closing_run {size : Nat} (hpos : 0 < size) (acts : List (Act E X)) (s : St E X) (ha : ∀ a ∈ acts, SilentAct a) (hi : Inv size s) (h2 : Inv2 s) (h : Closing s ∨ s.gone = true) :
    Closing (run size s acts) ∨ (run size s acts).gone = true := by
  induction acts generalizing s with
  | nil => exact h
  | cons a l ih =>
    have hl : ∀ b ∈ l, SilentAct b := fun b hb => ha b (List.mem_cons_of_mem _ hb)
    have h0 := ha a List.mem_cons_self
    show Closing (run size (step size s a) l) ∨ (run size (step size s a) l).gone = true
    cases a with
    | app a =>
      refine ih _ hl (inv_mstep a hi h2).1 (inv_mstep a hi h2).2 ?_
      rcases h with h | h
      · exact closing_mstep a hi h2 h
      · right; exact mstep_gone size a s h
    | worker v =>
      refine ih _ hl (inv_wstep v hi) (inv2_wstep v h2) ?_
      rcases h with h | h
      · exact Or.inl (closing_wstep hpos v h0 hi h)
      · right; exact (wstep_app size v s).2.1.trans h
    | spurious =>
      refine ih _ hl (inv_bcast hi) (inv2_bcast h2) ?_
      rcases h with h | h
      · exact Or.inl (closing_bcast h)
      · exact Or.inr h

/-! ## Calls that do not end -/

/-- The worker goes round in a loop, and never gives the lock away. -/
theorem spin_hangs {size : Nat} {s : St E X} (hw : s.w = .errLoop) (hr : s.rclosed = true) (he : s.err ≠ []) (hm : ∃ p, s.m = .want p ∨ s.m = .asleep p) : Hangs size s := by
  intro acts
  induction acts generalizing s with
  | nil => obtain ⟨p, hm | hm⟩ := hm <;> simp [run, hm]
  | cons a l ih =>
    show (run size (step size s a) l).m ≠ .idle
    cases a with
    | app a =>
      have : step size s (.app a) = s := by
        show mstep size a s = s
        unfold mstep
        obtain ⟨p, hm | hm⟩ := hm <;> rw [hm]
        simp only
        rw [hw]; rfl
      rw [this]; exact ih hw hr he hm
    | worker v =>
      have hcr : closeRemote s = s := by
        unfold closeRemote; split
        · rw [← hr]
        · rfl
      have : step size s (.worker v) = s := by
        show wstep size v s = s
        unfold wstep
        rw [hw]
        simp only
        rw [if_neg (by simpa using he), hcr, if_pos hr]
      rw [this]; exact ih hw hr he hm
    | spurious =>
      apply ih
      · show wk s.w = _; rw [hw]; rfl
      · exact hr
      · exact he
      · obtain ⟨p, hm | hm⟩ := hm
        · exact ⟨p, Or.inl (by show mk s.m = _; rw [hm]; rfl)⟩
        · exact ⟨p, Or.inl (by show mk s.m = _; rw [hm]; rfl)⟩

/-- Waiting for an event that nobody will fetch. -/
theorem wait_hangs {size : Nat} {s : St E X} (hw : s.w = .done) (hg : s.get = []) (he : s.err = []) (hr : s.rinit = true) (f : E → Bool) (hm : s.m = .want (.get1 f) ∨ s.m = .asleep (.get1 f)) : Hangs size s := by
  intro acts
  induction acts generalizing s with
  | nil => rcases hm with hm | hm <;> simp [run, hm]
  | cons a l ih =>
    show (run size (step size s a) l).m ≠ .idle
    cases a with
    | app a =>
      rcases hm with hm | hm
      · have : step size s (.app a) = { s with m := .asleep (.get1 f) } := by
          show mstep size a s = _
          unfold mstep
          rw [hm]
          simp only
          rw [if_neg (by rw [hw]; simp [WPc.holds])]
          unfold mbody getLoop
          rw [if_pos hr]
          simp only
          rw [if_pos (by rw [hg, he]; rfl)]
        rw [this]; exact ih hw hg he hr (Or.inr rfl)
      · have : step size s (.app a) = s := by
          show mstep size a s = _
          unfold mstep
          rw [hm]
        rw [this]; exact ih hw hg he hr (Or.inr hm)
    | worker v =>
      have : step size s (.worker v) = s := by
        show wstep size v s = s
        unfold wstep
        rw [hw]
      rw [this]; exact ih hw hg he hr hm
    | spurious =>
      apply ih
      · show wk s.w = _; rw [hw]; rfl
      · exact hg
      · exact he
      · exact hr
      · left; show mk s.m = _; rcases hm with hm | hm <;> rw [hm] <;> rfl

/-- Both threads sleep. -/
theorem asleep_stuck {size : Nat} {s : St E X} (hw : ∃ k, s.w = .asleep k) (hm : ∃ p, s.m = .asleep p) : Stuck size s := by
  obtain ⟨k, hw⟩ := hw
  obtain ⟨p, hm⟩ := hm
  intro acts ha
  induction acts with
  | nil => rfl
  | cons a l ih =>
    have h0 := ha a List.mem_cons_self
    have hs : step size s a = s := by
      cases a with
      | app a => show mstep size a s = s; unfold mstep; rw [hm]
      | worker v => show wstep size v s = s; unfold wstep; rw [hw]
      | spurious => exact absurd h0 (by simp)
    show run size (step size s a) l = s
    rw [hs]; exact ih (fun b hb => ha b (List.mem_cons_of_mem _ hb))

/-! ## What the remote channel sees -/

theorem mstep_hist (size : Nat) (a : App E X) (s : St E X) : (mstep size a s).sent = s.sent ∧ (mstep size a s).produced = s.produced ∧ (mstep size a s).raised = s.raised := by
  have hck : ∀ (s : St E X) k, ((k s).sent = s.sent ∧ (k s).produced = s.produced ∧ (k s).raised = s.raised) →
      (checkErr s k).sent = s.sent ∧ (checkErr s k).produced = s.produced ∧ (checkErr s k).raised = s.raised := by
    intro s k h; unfold checkErr; split
    · exact h
    · exact ⟨rfl, rfl, rfl⟩
  have htk : ∀ f, (take f s).sent = s.sent ∧ (take f s).produced = s.produced ∧ (take f s).raised = s.raised := by
    intro f; unfold take; split
    · exact ⟨rfl, rfl, rfl⟩
    · split <;> exact ⟨rfl, rfl, rfl⟩
  have hpl : ∀ e, (postLoop size e s).sent = s.sent ∧ (postLoop size e s).produced = s.produced ∧ (postLoop size e s).raised = s.raised := by
    intro e; unfold postLoop; split
    · exact ⟨rfl, rfl, rfl⟩
    · apply hck; exact ⟨rfl, rfl, rfl⟩
  have hgl : ∀ f, (getLoop f s).sent = s.sent ∧ (getLoop f s).produced = s.produced ∧ (getLoop f s).raised = s.raised := by
    intro f; unfold getLoop; split
    · exact ⟨rfl, rfl, rfl⟩
    · exact hck _ _ (htk f)
  have hfl : ∀ r, (flushLoop r s).sent = s.sent ∧ (flushLoop r s).produced = s.produced ∧ (flushLoop r s).raised = s.raised := by
    intro r; unfold flushLoop flushed; split
    · exact ⟨rfl, rfl, rfl⟩
    · split <;> exact ⟨rfl, rfl, rfl⟩
  unfold mstep
  cases s.m with
  | idle => cases a <;> exact ⟨rfl, rfl, rfl⟩
  | asleep p => exact ⟨rfl, rfl, rfl⟩
  | closing r =>
    simp only
    generalize hx : ({ s with closed := true } : St E X) = x
    split
    · exact ⟨rfl, rfl, rfl⟩
    · split <;> exact ⟨rfl, rfl, rfl⟩
  | join r =>
    simp only
    split
    · unfold checkErr; split <;> exact ⟨rfl, rfl, rfl⟩
    · exact ⟨rfl, rfl, rfl⟩
  | want p =>
    simp only
    split
    · exact ⟨rfl, rfl, rfl⟩
    · unfold mbody
      split
      · cases p with
        | post0 e =>
          simp only; split
          · exact ⟨rfl, rfl, rfl⟩
          · exact hck _ _ (hpl e)
        | post1 e => exact hpl e
        | get0 b f =>
          simp only
          apply hck
          dsimp only
          split
          · split
            · exact ⟨rfl, rfl, rfl⟩
            · split
              · exact hgl f
              · exact ⟨rfl, rfl, rfl⟩
          · exact htk f
        | get1 f => exact hgl f
        | flush0 r => exact hfl r
        | flush1 r => exact hfl r
        | close1 r => simp only [closeLoop]; split <;> exact ⟨rfl, rfl, rfl⟩
        | close2 r => simp only [closeLoop]; split <;> exact ⟨rfl, rfl, rfl⟩
      · exact ⟨rfl, rfl, rfl⟩

theorem caught_wk (w : WPc E X) : caught (wk w) = caught w := by cases w <;> rfl

theorem wstep_hist (size : Nat) (v : Env E X) (s : St E X) : (wstep size v s).sent = s.sent ++ given s (.worker v) ∧ (wstep size v s).produced = s.produced ++ yielded s (.worker v) ∧
    (wstep size v s).raised ++ caught (wstep size v s).w = s.raised ++ caught s.w ++ threw s (.worker v) := by
  have hcr : ∀ s : St E X, (closeRemote s).sent = s.sent ∧ (closeRemote s).produced = s.produced ∧ (closeRemote s).raised = s.raised ∧ (closeRemote s).w = s.w := by
    intro s; unfold closeRemote; split <;> simp
  unfold wstep given yielded threw
  cases hw : s.w with
  | asleep k => simp [hw]
  | done => simp [hw]
  | start => simp only; cases v.init.outcome <;> simp [addErr, wk, caught]
  | top => simp only; split <;> simp [wk, caught]
  | errLoop => simp only; split <;> [simp [caught]; (split <;> simp [hcr, caught, hw])]
  | postLoop =>
    simp only
    split
    · simp [caught]
    · split <;> simp [hcr, wk, caught]
  | posting e => simp only; cases v.post.outcome <;> simp [caught]
  | relock x => cases x <;> simp [addErr, wk, caught]
  | mid => simp only; split <;> [simp [caught]; (split <;> simp [hcr, caught])]
  | drain => simp only; split <;> simp [caught]
  | fetch =>
    simp only
    cases hg : v.fetch.outcome with
    | error x => simp [addErr, wk, caught]
    | ok g =>
      cases g with
      | event e => simp only; split <;> simp [hcr, wk, caught]
      | wait => simp only; split <;> simp [hcr, caught]
      | other => simp only; split <;> simp [hcr, caught]
  | woken k => cases k <;> simp [WW.resume, caught]

/-- The history of a state is what the remote channel saw. -/
theorem hist_run (size : Nat) (acts : List (Act E X)) (s : St E X) : (run size s acts).sent = s.sent ++ over given size s acts ∧
    (run size s acts).produced = s.produced ++ over yielded size s acts ∧
    (run size s acts).raised ++ caught (run size s acts).w = s.raised ++ caught s.w ++ over threw size s acts := by
  induction acts generalizing s with
  | nil => simp [run, over]
  | cons a l ih =>
    obtain ⟨h1, h2, h3⟩ := ih (step size s a)
    have hs : (step size s a).sent = s.sent ++ given s a ∧ (step size s a).produced = s.produced ++ yielded s a ∧
        (step size s a).raised ++ caught (step size s a).w = s.raised ++ caught s.w ++ threw s a := by
      cases a with
      | app a =>
        obtain ⟨e1, e2, e3⟩ := mstep_hist size a s
        show (mstep size a s).sent = _ ∧ (mstep size a s).produced = _ ∧ (mstep size a s).raised ++ caught (mstep size a s).w = _
        rw [e1, e2, e3]
        rcases mstep_w size a s with e | e <;> rw [e] <;> simp [given, yielded, threw, caught_wk]
      | worker v => exact wstep_hist size v s
      | spurious => simp [step, given, yielded, threw, caught_wk]
    show (run size (step size s a) l).sent = _ ∧ (run size (step size s a) l).produced = _ ∧ _
    refine ⟨?_, ?_, ?_⟩
    · rw [h1, hs.1]; simp [over]
    · rw [h2, hs.2.1]; simp [over]
    · have : run size s (a :: l) = run size (step size s a) l := rfl
      rw [this, h3, hs.2.2]; simp [over]

end Verif.MTQueue
