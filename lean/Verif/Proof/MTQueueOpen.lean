import Verif.Proof.MTQueue
/-! # Threaded channels: progress while the remote channel stays open -/
set_option linter.unusedSectionVars false
namespace Verif.MTQueue
variable {E X : Type}

/-- The worker has just made sure that nothing is to be sent. -/
def quiet : WPc E X → Bool
  | .mid | .fetch | .asleep _ => true
  | _ => false

/-- The worker is giving events to the remote channel. -/
def sending : WPc E X → Bool
  | .postLoop | .posting _ | .relock _ => true
  | _ => false

/-- States of the worker that are met while the remote channel is open. -/
def live : WPc E X → Bool
  | .done | .drain | .asleep .drain | .woken .drain => false
  | _ => true

/-- What holds while the remote channel is open. -/
structure Op (size : Nat) (s : St E X) : Prop where
  closed : s.closed = false
  rclosed : s.rclosed = false
  aborted : s.aborted = false
  mcall : closeRet s.m = none
  wlive : live s.w = true
  start : s.rinit = false ↔ s.w = .start
  startp : s.w = .start → s.post = []
  emp : quiet s.w = true → s.post = []
  errp : s.err ≠ [] → s.post = [] ∨ sending s.w = true
  werr : s.w = .asleep .err → s.err ≠ []
  wfull : s.w = .asleep .full → size ≤ s.get.length
  mpost : ∀ e, s.m = .asleep (.post1 e) → s.rinit = true → size ≤ s.post.length ∧ s.err = []
  mget : ∀ f, s.m = .asleep (.get1 f) → s.rinit = true → s.get = [] ∧ s.err = []
  mflush : ∀ r, s.m = .asleep (.flush1 r) → s.rinit = true → s.post ≠ []
  mpost0 : ∀ e, s.m = .asleep (.post0 e) → s.rinit = false
  mget0 : ∀ b f, s.m = .asleep (.get0 b f) → s.rinit = false
  mflush0 : ∀ r, s.m = .asleep (.flush0 r) → s.rinit = false

theorem op_init (size : Nat) : Op size (St.init : St E X) := by
  constructor <;> simp [St.init, closeRet, live, quiet]

theorem mk_awake (m : MPc E X) (p : MP E X) : mk m ≠ .asleep p := by cases m <;> simp [mk]

theorem wk_awake (w : WPc E X) (k : WW) : wk w ≠ .asleep k := by cases w <;> simp [wk]

/-- What a state has to satisfy before everybody is woken up. -/
theorem op_bcast' {size : Nat} {s : St E X} (h1 : s.closed = false) (h2 : s.rclosed = false) (h3 : s.aborted = false) (h4 : closeRet s.m = none)
    (h5 : live s.w = true) (h6 : s.rinit = false ↔ s.w = .start) (h6' : s.w = .start → s.post = []) (h7 : s.w = .mid ∨ s.w = .fetch → s.post = [])
    (h8 : s.err ≠ [] → s.post = [] ∨ sending s.w = true) : Op size (bcast s) := by
  constructor
  · exact h1
  · exact h2
  · exact h3
  · simpa using h4
  · simp only [bcast_w]; revert h5; cases s.w <;> simp [wk, live] ; rename_i k; cases k <;> simp
  · simp only [bcast_w, wk_start]; exact h6
  · simp only [bcast_w, wk_start]; exact h6'
  · simp only [bcast_w, bcast_post]
    intro a
    apply h7
    revert a
    cases s.w <;> simp [wk, quiet]
  · simp only [bcast_w, bcast_post, bcast_err]
    intro a
    rcases h8 a with h | h
    · exact Or.inl h
    · right; revert h; cases s.w <;> simp [wk, sending]
  · simp only [bcast_w]; intro a; exact absurd a (wk_awake _ _)
  · simp only [bcast_w]; intro a; exact absurd a (wk_awake _ _)
  · simp only [bcast_m]; intro e a; exact absurd a (mk_awake _ _)
  · simp only [bcast_m]; intro e a; exact absurd a (mk_awake _ _)
  · simp only [bcast_m]; intro e a; exact absurd a (mk_awake _ _)
  · simp only [bcast_m]; intro e a; exact absurd a (mk_awake _ _)
  · simp only [bcast_m]; intro e f a; exact absurd a (mk_awake _ _)
  · simp only [bcast_m]; intro e a; exact absurd a (mk_awake _ _)

theorem op_bcast {size : Nat} {s : St E X} (h : Op size s) : Op size (bcast s) :=
  op_bcast' h.closed h.rclosed h.aborted h.mcall h.wlive h.start h.startp (by intro a; apply h.emp; rcases a with a | a <;> rw [a] <;> rfl) h.errp

/-- The worker goes on. -/
theorem op_w {size : Nat} {s : St E X} (w' : WPc E X) (h : Op size s) (h1 : live w' = true) (h2 : s.w ≠ .start) (h2' : w' ≠ .start) (h3 : quiet w' = true → s.post = [])
    (h4 : s.err ≠ [] → s.post = [] ∨ sending w' = true) (h5 : w' = .asleep .err → s.err ≠ []) (h6 : w' = .asleep .full → size ≤ s.get.length) : Op size { s with w := w' } := by
  obtain ⟨i1, i2, i3, i4, i5, i6, i6', i7, i8, i9, i10, i11, i12, i13, i14, i15, i16⟩ := h
  refine ⟨i1, i2, i3, i4, h1, ?_, ?_, h3, h4, h5, h6, i11, i12, i13, i14, i15, i16⟩
  · constructor
    · intro a; exact absurd (i6.1 a) h2
    · intro a; exact absurd a h2'
  · intro a; exact absurd a h2'

theorem op_wstep {size : Nat} {s : St E X} (v : Env E X) (hv : v.keepsOpen) (hs : v.sane) (h : Op size s) : Op size (wstep size v s) := by
  obtain ⟨v1, v2, v3⟩ := hv
  have hcr : ∀ s : St E X, s.closed = false → closeRemote s = s := by intro s h; unfold closeRemote; rw [h]; rfl
  have hrt : s.w ≠ .start → s.rinit = true := by
    intro a
    cases hr : s.rinit with
    | true => rfl
    | false => exact absurd (h.start.1 hr) a
  have hep : sending s.w = false → s.err ≠ [] → s.post = [] := by
    intro a b; rcases h.errp b with h | h
    · exact h
    · rw [a] at h; cases h
  unfold wstep
  cases hw : s.w with
  | asleep k => exact h
  | done => exact h
  | start =>
    have hp := h.startp hw
    simp only
    cases v.init.outcome with
    | ok _ => exact op_bcast' h.closed v1 h.aborted h.mcall rfl (by simp) (by simp) (by simp) (fun _ => Or.inl hp)
    | error x => exact op_bcast' h.closed v1 h.aborted h.mcall rfl (by simp) (by simp) (by simp) (fun _ => Or.inl hp)
  | top =>
    simp only [h.rclosed, Bool.false_and, Bool.false_eq_true, if_false]
    have := op_w .errLoop h rfl (by rw [hw]; simp) (by simp) (by simp [quiet]) (fun a => Or.inl (hep (by rw [hw]; rfl) a)) (by simp) (by simp)
    rw [h.rclosed] at this
    exact this
  | errLoop =>
    simp only [hcr s h.closed]
    split
    · exact op_w .postLoop h rfl (by rw [hw]; simp) (by simp) (by simp [quiet]) (by intro _; exact Or.inr rfl) (by simp) (by simp)
    · rename_i he
      have he : s.err ≠ [] := by simpa using he
      have hp : s.post = [] := hep (by rw [hw]; rfl) he
      rw [if_neg (by rw [h.rclosed]; simp)]
      exact op_w (.asleep .err) h rfl (by rw [hw]; simp) (by simp) (fun _ => hp) (fun _ => Or.inl hp) (fun _ => he) (by simp)
  | postLoop =>
    simp only [hcr s h.closed]
    split
    · rename_i hp
      exact op_w .mid h rfl (by rw [hw]; simp) (by simp) (fun _ => hp) (fun _ => Or.inl hp) (by simp) (by simp)
    · rename_i e l hp
      rw [if_neg (by rw [h.rclosed]; simp)]
      exact op_bcast' h.closed h.rclosed h.aborted h.mcall rfl (by simp; exact hrt (by rw [hw]; simp)) (by simp) (by simp) (fun _ => Or.inr rfl)
  | posting e =>
    simp only
    rw [v2, Bool.or_false]
    have := op_w (.relock (match v.post.outcome with | .ok _ => none | .error x => some x)) h rfl (by rw [hw]; simp) (by simp) (by simp [quiet]) (by intro _; exact Or.inr rfl) (by simp) (by simp)
    obtain ⟨i1, i2, i3, i4, i5, i6, i6', i7, i8, i9, i10, i11, i12, i13, i14, i15, i16⟩ := this
    exact ⟨i1, i2, i3, i4, i5, i6, i6', i7, i8, i9, i10, i11, i12, i13, i14, i15, i16⟩
  | relock x =>
    cases x with
    | none => exact op_w .postLoop h rfl (by rw [hw]; simp) (by simp) (by simp [quiet]) (by intro _; exact Or.inr rfl) (by simp) (by simp)
    | some x => exact op_bcast' h.closed h.rclosed h.aborted h.mcall rfl (by simp; exact hrt (by rw [hw]; simp)) (by simp) (by simp) (fun _ => Or.inr rfl)
  | mid =>
    have hp := h.emp (by rw [hw]; rfl)
    simp only [hcr s h.closed]
    split
    · rename_i hf
      exact op_w (.asleep .full) h rfl (by rw [hw]; simp) (by simp) (fun _ => hp) (fun _ => Or.inl hp) (by simp) (fun _ => hf)
    · rw [if_neg (by rw [h.rclosed]; simp)]
      exact op_w .fetch h rfl (by rw [hw]; simp) (by simp) (fun _ => hp) (fun _ => Or.inl hp) (by simp) (by simp)
  | drain => have := h.wlive; rw [hw] at this; cases this
  | fetch =>
    have hp := h.emp (by rw [hw]; rfl)
    have hri := hrt (by rw [hw]; simp)
    rw [v3, Bool.or_false]
    simp only
    have htop := op_w .top h rfl (by rw [hw]; simp) (by simp) (fun _ => hp) (fun _ => Or.inl hp) (by simp) (by simp)
    cases hg : v.fetch.outcome with
    | error x => exact op_bcast' h.closed h.rclosed h.aborted h.mcall rfl (by simp; exact hri) (by simp) (by simp) (fun _ => Or.inl hp)
    | ok g =>
      cases g with
      | event e =>
        simp only
        rw [hcr]
        · rw [if_neg (by simp [h.rclosed])]
          exact op_bcast' h.closed h.rclosed h.aborted h.mcall rfl (by simp; exact hri) (by simp) (by simp) (fun _ => Or.inl hp)
        · exact h.closed
      | wait =>
        simp only
        rw [hcr]
        · rw [if_neg (by simp [h.rclosed])]
          exact op_w (.asleep .idle) htop rfl (by simp) (by simp) (fun _ => hp) (fun _ => Or.inl hp) (by simp) (by simp)
        · exact h.closed
      | other => exact absurd hg hs
  | woken k =>
    have hk : k ≠ .drain := by intro a; have := h.wlive; rw [hw, a] at this; cases this
    have hp := hep (by rw [hw]; rfl)
    cases k with
    | drain => exact absurd rfl hk
    | err => exact op_w .errLoop h rfl (by rw [hw]; simp) (by simp) (by simp [quiet]) (fun a => Or.inl (hp a)) (by simp) (by simp)
    | full => exact op_w .top h rfl (by rw [hw]; simp) (by simp) (by simp [quiet]) (fun a => Or.inl (hp a)) (by simp) (by simp)
    | idle => exact op_w .top h rfl (by rw [hw]; simp) (by simp) (by simp [quiet]) (fun a => Or.inl (hp a)) (by simp) (by simp)

/-- The application goes on. -/
theorem op_m {size : Nat} {s : St E X} (m' : MPc E X) (h : Op size s) (h0 : closeRet m' = none) (h1 : ∀ e, m' = .asleep (.post1 e) → s.rinit = true → size ≤ s.post.length ∧ s.err = [])
    (h2 : ∀ f, m' = .asleep (.get1 f) → s.rinit = true → s.get = [] ∧ s.err = []) (h3 : ∀ r, m' = .asleep (.flush1 r) → s.rinit = true → s.post ≠ [])
    (h4 : ∀ e, m' = .asleep (.post0 e) → s.rinit = false) (h5 : ∀ b f, m' = .asleep (.get0 b f) → s.rinit = false) (h6 : ∀ r, m' = .asleep (.flush0 r) → s.rinit = false) :
    Op size { s with m := m' } := by
  obtain ⟨i1, i2, i3, i4, i5, i6, i6', i7, i8, i9, i10, i11, i12, i13, i14, i15, i16⟩ := h
  exact ⟨i1, i2, i3, h0, i5, i6, i6', i7, i8, i9, i10, h1, h2, h3, h4, h5, h6⟩

theorem op_ret {size : Nat} {s : St E X} (r : Ret E X) (h : Op size s) : Op size (ret r s) := by
  have := op_m .idle h rfl (by simp) (by simp) (by simp) (by simp) (by simp) (by simp)
  obtain ⟨i1, i2, i3, i4, i5, i6, i6', i7, i8, i9, i10, i11, i12, i13, i14, i15, i16⟩ := this
  exact ⟨i1, i2, i3, i4, i5, i6, i6', i7, i8, i9, i10, i11, i12, i13, i14, i15, i16⟩

theorem op_checkErr {size : Nat} {s : St E X} (k : St E X → St E X) (h : Op size s) (hk : s.err = [] → Op size (k s)) : Op size (checkErr s k) := by
  unfold checkErr
  split
  · rename_i he; exact hk (by simpa using he)
  · apply op_ret
    exact op_bcast' h.closed h.rclosed h.aborted h.mcall h.wlive h.start h.startp (by intro a; apply h.emp; rcases a with a | a <;> rw [a] <;> rfl) (by simp)

theorem op_take {size : Nat} {s : St E X} (f : E → Bool) (h : Op size s) : Op size (take f s) := by
  unfold take
  split
  · exact op_ret _ h
  · split
    · apply op_ret
      exact op_bcast' h.closed h.rclosed h.aborted h.mcall h.wlive h.start h.startp (by intro a; apply h.emp; rcases a with a | a <;> rw [a] <;> rfl) h.errp
    · exact op_ret _ h

theorem op_postLoop {size : Nat} {s : St E X} (e : E) (h : Op size s) (hri : s.rinit = true) (hh : s.w.holds = false) : Op size (postLoop size e s) := by
  unfold postLoop
  split
  · rename_i hc
    simp only [Bool.and_eq_true, decide_eq_true_eq, List.isEmpty_iff] at hc
    exact op_m _ h rfl (by intro _ _ _; exact hc) (by simp) (by simp) (by simp) (by simp) (by simp)
  · apply op_checkErr _ h
    intro he
    apply op_ret
    refine op_bcast' h.closed h.rclosed h.aborted h.mcall h.wlive h.start ?_ ?_ ?_
    · intro a; simp only at a; rw [← h.start, hri] at a; cases a
    · intro a; simp only at a; rcases a with a | a <;> rw [a] at hh <;> cases hh
    · intro a; exact absurd he a

theorem op_getLoop {size : Nat} {s : St E X} (f : E → Bool) (h : Op size s) : Op size (getLoop f s) := by
  unfold getLoop
  split
  · rename_i hc
    simp only [Bool.and_eq_true, List.isEmpty_iff] at hc
    exact op_m _ h rfl (by simp) (by intro _ _ _; exact hc) (by simp) (by simp) (by simp) (by simp)
  · exact op_checkErr _ h (fun _ => op_take f h)

theorem op_flushLoop {size : Nat} {s : St E X} (h : Op size s) : Op size (flushLoop none s) := by
  unfold flushLoop
  split
  · rename_i hc
    simp only [Bool.and_eq_true, Bool.not_eq_true', List.isEmpty_eq_false_iff] at hc
    exact op_m _ h rfl (by simp) (by simp) (by intro _ _ _; exact hc.2) (by simp) (by simp) (by simp)
  · exact op_ret _ h

theorem op_mstep {size : Nat} {s : St E X} (a : App E X) (ha : OpenAct (.app a : Act E X)) (h : Op size s) : Op size (mstep size a s) := by
  unfold mstep
  have hcr := h.mcall
  cases hm : s.m with
  | idle =>
    cases a with
    | post e => exact op_m _ h rfl (by simp) (by simp) (by simp) (by simp) (by simp) (by simp)
    | get b f => exact op_m _ h rfl (by simp) (by simp) (by simp) (by simp) (by simp) (by simp)
    | flush => exact op_m _ h rfl (by simp) (by simp) (by simp) (by simp) (by simp) (by simp)
    | close => exact absurd ha (by simp [OpenAct])
    | abort => exact absurd ha (by simp [OpenAct])
  | want p =>
    simp only
    split
    · exact h
    · rename_i hh
      have hh : s.w.holds = false := by simpa using hh
      unfold mbody
      split
      · rename_i hri
        cases p with
        | post0 e =>
          simp only
          rw [if_neg (by simp [h.rclosed])]
          exact op_checkErr _ h (fun _ => op_postLoop e h hri hh)
        | post1 e => exact op_postLoop e h hri hh
        | get0 b f =>
          simp only
          apply op_checkErr _ h
          intro _
          split
          · rw [if_neg (by simp [h.rclosed])]
            split
            · exact op_getLoop f h
            · exact op_ret _ h
          · exact op_take f h
        | get1 f => exact op_getLoop f h
        | flush0 r =>
          cases r with
          | none => exact op_flushLoop h
          | some r => rw [hm] at hcr; cases hcr
        | flush1 r =>
          cases r with
          | none => exact op_flushLoop h
          | some r => rw [hm] at hcr; cases hcr
        | close1 r => rw [hm] at hcr; cases hcr
        | close2 r => rw [hm] at hcr; cases hcr
      · rename_i hri
        have hri : s.rinit = false := by simpa using hri
        refine op_m _ h ?_ (by simp [hri]) (by simp [hri]) (by simp [hri]) (by simp [hri]) (by simp [hri]) (by simp [hri])
        rw [hm] at hcr
        cases p with
        | flush0 r => cases r with
          | none => rfl
          | some r => cases hcr
        | flush1 r => cases r with
          | none => rfl
          | some r => cases hcr
        | close1 r => cases hcr
        | close2 r => cases hcr
        | _ => rfl
  | asleep p => exact h
  | closing r => rw [hm] at hcr; cases hcr
  | join r => rw [hm] at hcr; cases hcr

theorem op_reach {size : Nat} {s : St E X} (h : OpenReachable size s) : Op size s := by
  obtain ⟨acts, ha, rfl⟩ := h
  have : ∀ (acts : List (Act E X)) (s : St E X), (∀ a ∈ acts, OpenAct a) → Op size s → Op size (run size s acts) := by
    intro acts
    induction acts with
    | nil => intro s _ h; exact h
    | cons a l ih =>
      intro s ha h
      have hl : ∀ b ∈ l, OpenAct b := fun b hb => ha b (List.mem_cons_of_mem _ hb)
      have h0 := ha a List.mem_cons_self
      show Op size (run size (step size s a) l)
      cases a with
      | app a => exact ih _ hl (op_mstep a h0 h)
      | worker v => exact ih _ hl (op_wstep v h0.1 h0.2 h)
      | spurious => exact ih _ hl (op_bcast h)
  exact this acts _ ha (op_init size)

/-! ## The worker comes to rest -/

/-- A bound for the steps the worker takes before it sleeps. -/
def dist (size : Nat) (s : St E X) : Nat :=
  5 * (size - s.get.length) + 3 * s.post.length + (match s.w with
    | .asleep _ => 0
    | .errLoop => if s.err.isEmpty then 7 else 2
    | .top => if s.err.isEmpty then 8 else 3
    | .fetch => 4
    | .mid => 5
    | .postLoop => 6
    | .woken _ => 9
    | .relock _ => 7
    | .posting _ => 8
    | .start => 10
    | _ => 0)

theorem dist_le {size : Nat} {s : St E X} (h : Inv size s) : dist size s ≤ 8 * size + 10 := by
  have h1 := h.post_le
  unfold dist
  have : (match s.w with
    | .asleep _ => 0
    | .errLoop => if s.err.isEmpty then 7 else 2
    | .top => if s.err.isEmpty then 8 else 3
    | .fetch => 4
    | .mid => 5
    | .postLoop => 6
    | .woken _ => 9
    | .relock _ => 7
    | .posting _ => 8
    | .start => 10
    | _ => 0 : Nat) ≤ 10 := by
    split <;> first | omega | (split <;> omega)
  omega

theorem dist_step {size : Nat} {s : St E X} (v : Env E X) (hv : v.keepsOpen) (hs : v.sane) (h : Op size s) (hi : Inv size s) (hn : ∀ k, s.w ≠ .asleep k) :
    dist size (wstep size v s) < dist size s := by
  obtain ⟨v1, v2, v3⟩ := hv
  have hcr : ∀ s : St E X, s.closed = false → closeRemote s = s := by intro s h; unfold closeRemote; rw [h]; rfl
  have hl := h.wlive
  unfold wstep
  cases hw : s.w with
  | asleep k => exact absurd hw (hn k)
  | done => rw [hw] at hl; cases hl
  | drain => rw [hw] at hl; cases hl
  | start =>
    simp only
    cases v.init.outcome with
    | ok _ => simp only [dist, bcast_w, bcast_get, bcast_post, bcast_err, wk, hw]; cases s.err <;> simp
    | error x => simp only [dist, addErr, bcast_w, bcast_get, bcast_post, bcast_err, wk, hw]; cases s.err <;> simp
  | top =>
    simp only [h.rclosed, Bool.false_and, Bool.false_eq_true, if_false, dist, hw]
    cases s.err <;> simp
  | errLoop =>
    simp only [hcr s h.closed]
    split
    · rename_i he; simp only [dist, hw, he]; simp
    · rename_i he
      rw [if_neg (by rw [h.rclosed]; simp)]
      simp only [dist, hw]; rw [if_neg he]; omega
  | postLoop =>
    simp only [hcr s h.closed]
    split
    · simp only [dist, hw]; omega
    · rename_i e l hp
      rw [if_neg (by rw [h.rclosed]; simp)]
      simp only [dist, bcast_w, bcast_get, bcast_post, wk, hw, hp, List.length_cons]; omega
  | posting e => simp only [dist, hw]; omega
  | relock x =>
    cases x with
    | none => simp only [dist, hw]; omega
    | some x => simp only [dist, addErr, bcast_w, bcast_get, bcast_post, wk, hw]; omega
  | mid =>
    simp only [hcr s h.closed]
    split
    · simp only [dist, hw]; omega
    · rw [if_neg (by rw [h.rclosed]; simp)]
      simp only [dist, hw]; omega
  | fetch =>
    rw [v3, Bool.or_false]
    simp only
    cases hg : v.fetch.outcome with
    | error x => simp [dist, addErr, bcast_w, bcast_get, bcast_post, wk, hw]
    | ok g =>
      cases g with
      | event e =>
        simp only
        rw [hcr]
        · rw [if_neg (by simp [h.rclosed])]
          have := hi.fetch_lt hw
          simp only [dist, bcast_w, bcast_get, bcast_post, bcast_err, wk, hw, List.length_append, List.length_cons, List.length_nil]
          cases s.err <;> simp <;> omega
        · exact h.closed
      | wait =>
        simp only
        rw [hcr]
        · rw [if_neg (by simp [h.rclosed])]
          simp only [dist, hw]; omega
        · exact h.closed
      | other => exact absurd hg hs
  | woken k =>
    cases k with
    | drain => rw [hw] at hl; cases hl
    | err => simp only [dist, hw, WW.resume]; cases s.err <;> simp
    | full => simp only [dist, hw, WW.resume]; cases s.err <;> simp
    | idle => simp only [dist, hw, WW.resume]; cases s.err <;> simp

/-- The worker waits for events after the remote channel had none. -/
theorem wstep_idle {size : Nat} {s : St E X} (v : Env E X) (hn : s.w ≠ .asleep .idle) (h : (wstep size v s).w = .asleep .idle) : v.fetch.outcome = .ok .wait := by
  have hcr : ∀ s : St E X, (closeRemote s).w = s.w := by intro s; unfold closeRemote; split <;> rfl
  unfold wstep at h
  cases hw : s.w with
  | asleep k => simp only [hw] at h; exact absurd (hw.trans h) hn
  | done => simp [hw] at h
  | start => simp only [hw] at h; cases hi : v.init.outcome <;> simp [hi, addErr, wk] at h
  | top => simp only [hw] at h; split at h <;> simp [wk] at h
  | errLoop => simp only [hw] at h; split at h <;> [simp at h; (split at h <;> simp [hcr, hw] at h)]
  | postLoop => simp only [hw] at h; split at h <;> [simp at h; (split at h <;> simp [wk] at h)]
  | posting e => simp [hw] at h
  | relock x => simp only [hw] at h; cases x <;> simp [addErr, wk] at h
  | mid => simp only [hw] at h; split at h <;> [simp at h; (split at h <;> simp at h)]
  | drain => simp only [hw] at h; split at h <;> simp at h
  | fetch =>
    simp only [hw] at h
    cases hg : v.fetch.outcome with
    | error x => simp [hg, addErr, wk] at h
    | ok g =>
      cases g with
      | event e => simp only [hg] at h; split at h <;> simp [hcr, wk] at h
      | wait => rfl
      | other => simp only [hg] at h; split at h <;> simp [hcr] at h
  | woken k => simp only [hw] at h; cases k <;> simp [WW.resume] at h

/-- Nothing has been thrown. -/
def Calm (s : St E X) : Prop := s.err = [] ∧ ∀ x, s.w ≠ .relock (some x)

/-- Without exceptions the list of errors stays empty. -/
theorem calm_wstep {size : Nat} {s : St E X} (v : Env E X) (hv : v.silent) (h : Calm s) : Calm (wstep size v s) := by
  have hcr : ∀ s : St E X, (closeRemote s).err = s.err ∧ (closeRemote s).w = s.w := by intro s; unfold closeRemote; split <;> simp
  obtain ⟨he, hx⟩ := h
  obtain ⟨v1, v2, v3⟩ := hv
  unfold wstep Calm
  cases hw : s.w with
  | asleep k => simp [he, hw]
  | done => simp [he, hw]
  | start => simp [v1, he, wk]
  | top => simp only; split <;> simp [he, wk]
  | errLoop => simp [he]
  | postLoop => simp only; split <;> [simp [he]; (split <;> simp [hcr, he, wk])]
  | posting e => simp [v2, he]
  | relock x =>
    cases x with
    | none => simp [he]
    | some x => exact absurd hw (hx x)
  | mid => simp only; split <;> [simp [he]; (split <;> simp [hcr, he])]
  | drain => simp only; split <;> simp [he]
  | fetch =>
    simp only
    cases hg : v.fetch.outcome with
    | error x => exact absurd hg (v3 x)
    | ok g =>
      cases g with
      | event e => simp only; split <;> simp [hcr, he, wk]
      | wait => simp only; split <;> simp [hcr, he]
      | other => simp only; split <;> simp [hcr, he]
  | woken k => cases k <;> simp [he, WW.resume]

/-- The worker sleeps after so many steps of its own. -/
theorem rests (size : Nat) : ∀ (n : Nat) (v : Nat → Env E X) (s : St E X), (∀ k, (v k).keepsOpen ∧ (v k).sane) → Op size s → Inv size s → dist size s ≤ n →
    ∃ j ≤ n, ∃ k, (work size v j s).w = .asleep k ∧ Op size (work size v j s) ∧ Inv size (work size v j s) ∧ (0 < j → k = .idle → ∃ i < j, (v i).fetch.outcome = .ok .wait) ∧
      ((∀ i, (v i).silent) → Calm s → Calm (work size v j s)) ∧ ((work size v j s).m = s.m ∨ (work size v j s).m = mk s.m) ∧ (work size v j s).log = s.log := by
  intro n
  induction n with
  | zero =>
    intro v s hv h hi hd
    by_cases hn : ∃ k, s.w = .asleep k
    · obtain ⟨k, hk⟩ := hn
      exact ⟨0, Nat.le_refl _, k, hk, h, hi, by intro a; omega, fun _ h => h, Or.inl rfl, rfl⟩
    · have := dist_step (v 0) (hv 0).1 (hv 0).2 h hi (by intro k hk; exact hn ⟨k, hk⟩)
      omega
  | succ n ih =>
    intro v s hv h hi hd
    by_cases hn : ∃ k, s.w = .asleep k
    · obtain ⟨k, hk⟩ := hn
      exact ⟨0, Nat.zero_le _, k, hk, h, hi, by intro a; omega, fun _ h => h, Or.inl rfl, rfl⟩
    · have hlt := dist_step (v 0) (hv 0).1 (hv 0).2 h hi (by intro k hk; exact hn ⟨k, hk⟩)
      obtain ⟨j, hj, k, h1, h2, h3, h4, h5, h6⟩ := ih (fun k => v (k + 1)) (wstep size (v 0) s) (fun k => hv (k + 1)) (op_wstep _ (hv 0).1 (hv 0).2 h) (inv_wstep _ hi) (by omega)
      refine ⟨j + 1, by omega, k, h1, h2, h3, ?_, ?_, ?_, ?_⟩
      · intro _ hk
        by_cases hj0 : 0 < j
        · obtain ⟨i, hi, hg⟩ := h4 hj0 hk
          exact ⟨i + 1, by omega, hg⟩
        · have hj0 : j = 0 := by omega
          subst hj0
          refine ⟨0, by omega, ?_⟩
          rw [hk] at h1
          exact wstep_idle (size := size) (s := s) (v 0) (by intro a; exact hn ⟨_, a⟩) h1
      · intro hs hc
        exact h5 (fun i => hs (i + 1)) (calm_wstep _ (hs 0) hc)
      · have h0 := (wstep_app size (v 0) s).1
        have hmk : ∀ m : MPc E X, mk (mk m) = mk m := by intro m; cases m <;> rfl
        show (work size (fun k => v (k + 1)) j (wstep size (v 0) s)).m = s.m ∨ _
        rcases h6.1 with a | a <;> rcases h0 with b | b
        · left; rw [a, b]
        · right; exact a.trans b
        · right; exact a.trans (by rw [b])
        · right; exact a.trans (by rw [b, hmk])
      · exact h6.2.trans (wstep_app size (v 0) s).2.2.2.2.1

/-! ## Calls end -/

theorem ret_idle (r : Ret E X) (s : St E X) : (ret r s).m = .idle := rfl

theorem checkErr_idle {s : St E X} {k : St E X → St E X} (h : s.err = [] → (k s).m = .idle) : (checkErr s k).m = .idle := by
  unfold checkErr
  split
  · rename_i he; exact h (by simpa using he)
  · rfl

theorem take_idle (f : E → Bool) (s : St E X) : (take f s).m = .idle := by
  unfold take; split <;> [rfl; (split <;> rfl)]

/-- When the worker sleeps, the application can end its call, or wants an event when there is none. -/
theorem ends {size : Nat} {s : St E X} (hpos : 0 < size) (a : App E X) (h : Op size s) (k : WW) (hw : s.w = .asleep k) (hm : s.m ≠ .idle) :
    (mstep size a s).m = .idle ∨ Waiting (mstep size a s) := by
  have hri : s.rinit = true := by
    cases hr : s.rinit with
    | true => rfl
    | false => have := h.start.1 hr; rw [hw] at this; cases this
  have hp : s.post = [] := h.emp (by rw [hw]; rfl)
  have hcr := h.mcall
  have hh : s.w.holds = false := by rw [hw]; rfl
  have hfull : s.get = [] → s.err = [] → k = .idle := by
    intro h1 h2
    cases k with
    | idle => rfl
    | err => exact absurd h2 (h.werr hw)
    | full => have := h.wfull hw; rw [h1] at this; simp at this; omega
    | drain => have := h.wlive; rw [hw] at this; cases this
  have hpl : ∀ e, (postLoop size e s).m = .idle := by
    intro e
    unfold postLoop
    rw [if_neg (by rw [hp]; simp; omega)]
    exact checkErr_idle (fun _ => rfl)
  have hgl : ∀ f, (getLoop f s).m = .idle ∨ Waiting (getLoop f s) := by
    intro f
    unfold getLoop
    split
    · rename_i hc
      simp only [Bool.and_eq_true, List.isEmpty_iff] at hc
      exact Or.inr ⟨⟨f, rfl⟩, by rw [← hfull hc.1 hc.2]; exact hw, hc.1, hc.2⟩
    · exact Or.inl (checkErr_idle (fun _ => take_idle f s))
  have hfl : (flushLoop none s).m = .idle := by
    unfold flushLoop; rw [if_neg (by rw [hp]; simp)]; rfl
  unfold mstep
  cases hmm : s.m with
  | idle => exact absurd hmm hm
  | asleep p =>
    cases p with
    | post0 e => have := h.mpost0 e hmm; rw [hri] at this; cases this
    | post1 e => have := (h.mpost e hmm hri).1; rw [hp] at this; simp at this; omega
    | get0 b f => have := h.mget0 b f hmm; rw [hri] at this; cases this
    | get1 f =>
      obtain ⟨h1, h2⟩ := h.mget f hmm hri
      exact Or.inr ⟨⟨f, hmm⟩, by rw [← hfull h1 h2]; exact hw, h1, h2⟩
    | flush0 r => have := h.mflush0 r hmm; rw [hri] at this; cases this
    | flush1 r => exact absurd hp (h.mflush r hmm hri)
    | close1 r => rw [hmm] at hcr; cases hcr
    | close2 r => rw [hmm] at hcr; cases hcr
  | want p =>
    simp only
    rw [if_neg (by rw [hh]; simp)]
    unfold mbody
    rw [if_pos hri]
    cases p with
    | post0 e =>
      simp only
      rw [if_neg (by simp [h.rclosed])]
      exact Or.inl (checkErr_idle (fun _ => hpl e))
    | post1 e => exact Or.inl (hpl e)
    | get0 b f =>
      simp only
      unfold checkErr
      split
      · dsimp only
        split
        · rw [if_neg (by simp [h.rclosed])]
          split
          · exact hgl f
          · exact Or.inl rfl
        · exact Or.inl (take_idle f s)
      · exact Or.inl rfl
    | get1 f => exact hgl f
    | flush0 r =>
      cases r with
      | none => exact Or.inl hfl
      | some r => rw [hmm] at hcr; cases hcr
    | flush1 r =>
      cases r with
      | none => exact Or.inl hfl
      | some r => rw [hmm] at hcr; cases hcr
    | close1 r => rw [hmm] at hcr; cases hcr
    | close2 r => rw [hmm] at hcr; cases hcr
  | closing r => rw [hmm] at hcr; cases hcr
  | join r => rw [hmm] at hcr; cases hcr

end Verif.MTQueue
