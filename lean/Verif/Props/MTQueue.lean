import Verif.Proof.MTQueueClose
/-! # Threaded channels: C103 - C107 -/
namespace Verif.MTQueue

/-! ## Material for examples: events and errors are numbers -/

/-- A remote channel that takes everything and has no events. -/
def exQuiet : Env Nat Nat := ⟨⟨.ok (), false⟩, ⟨.ok (), false⟩, ⟨.ok .wait, false⟩⟩
/-- A remote channel that has an event. -/
def exEvent (e : Nat) : Env Nat Nat := ⟨⟨.ok (), false⟩, ⟨.ok (), false⟩, ⟨.ok (.event e), false⟩⟩
/-- A remote channel that fails. -/
def exFail (x : Nat) : Env Nat Nat := ⟨⟨.ok (), false⟩, ⟨.error x, false⟩, ⟨.error x, false⟩⟩
/-- A remote channel that closes when it is asked for events. -/
def exClose : Env Nat Nat := ⟨⟨.ok (), false⟩, ⟨.ok (), false⟩, ⟨.ok .wait, true⟩⟩

/-- `n` steps of the worker. -/
def exW (n : Nat) (v : Env Nat Nat) : List (Act Nat Nat) := List.replicate n (.worker v)
/-- `n` steps of the application. -/
def exA (n : Nat) (a : App Nat Nat) : List (Act Nat Nat) := List.replicate n (.app a)

/-! ## C103: what is posted -/

/-- Every event whose posting succeeded reaches the remote channel, in order and once, before the channel is closed. -/
def C103_full : Prop :=
  ∀ (E X : Type) (size : Nat) (acts : List (Act E X)), let s := run size St.init acts
    over given size St.init acts <+: postedOf s.log ∧ (s.gone = true → over given size St.init acts = postedOf s.log)

/-- The remote channel gets the events that were posted, in the order of posting, each at most once. -/
theorem C103_order_partial {E X : Type} (size : Nat) (acts : List (Act E X)) : over given size St.init acts <+: postedOf (run size (St.init : St E X) acts).log := by
  obtain ⟨hi, _⟩ := inv_run size acts _ (inv_init size) (inv2_init (E := E) (X := X))
  obtain ⟨h1, _⟩ := hist_run size acts (St.init : St E X)
  rw [← hi.acc, show over given size St.init acts = (run size St.init acts).sent by rw [h1]; rfl]
  exact (List.prefix_append _ _).trans hi.pre

/-- While both channels are open every event posted has been given to the remote channel, is being given to it, or is queued. -/
theorem C103_open_partial {E X : Type} (size : Nat) (acts : List (Act E X)) : let s := run size (St.init : St E X) acts
    s.closed = false → s.rclosed = false → postedOf s.log = over given size St.init acts ++ inFlight s.w ++ s.post := by
  intro s h1 h2
  obtain ⟨hi, _⟩ := inv_run size acts _ (inv_init size) (inv2_init (E := E) (X := X))
  obtain ⟨h3, _⟩ := hist_run size acts (St.init : St E X)
  rw [← hi.acc, show over given size St.init acts = (run size St.init acts).sent by rw [h3]; rfl]
  exact hi.exact h1 h2

/-- If the channel is closed when nothing is queued, the remote channel gets all that was posted, whatever happens then. -/
theorem C103_flushed_partial {E X : Type} (size : Nat) (before after : List (Act E X)) : let s := run size (St.init : St E X) before; let all := before ++ [.app .close] ++ after
    let t := run size (St.init : St E X) all
    s.closed = false → s.rclosed = false → s.m = .idle → s.post = [] →
      postedOf t.log = over given size St.init all ++ inFlight t.w ∧ (t.gone = true → over given size St.init all = postedOf t.log) := by
  intro s all t h1 h2 hm hp
  obtain ⟨hi, hi2⟩ := inv_run size before _ (inv_init size) (inv2_init (E := E) (X := X))
  have hx := hi.exact h1 h2
  have hp' : (run size (St.init : St E X) before).post = [] := hp
  have hm' : (run size (St.init : St E X) before).m = .idle := hm
  rw [hp', List.append_nil] at hx
  obtain ⟨hj, hj2⟩ := inv_mstep .close hi hi2
  have hf : Flushed (mstep size .close s) := by
    unfold mstep
    rw [hm]; exact ⟨hp, hx, Or.inr ⟨_, rfl⟩⟩
  obtain ⟨hk, _⟩ := inv_run size after _ hj hj2
  have ht := flushed_run size after _ hj hj2 hf
  have e : run size (mstep size .close s) after = t := by simp only [t, all, run, List.foldl_append]; rfl
  rw [e] at ht
  have hk : Inv size t := by rw [← e]; exact hk
  obtain ⟨h3, _⟩ := hist_run size all (St.init : St E X)
  have h3 : over given size St.init all = t.sent := by show _ = (run size St.init all).sent; rw [h3]; rfl
  rw [h3]
  refine ⟨by rw [← hk.acc]; exact ht.all, ?_⟩
  intro hg
  rw [← hk.acc, ht.all, (hk.gone_done hg).1]
  simp [inFlight]

/-- Closing an open channel with an event in the queue: the event is thrown away. -/
def exLost : List (Act Nat Nat) := exW 6 exQuiet ++ exA 2 (.post 7) ++ exA 3 .close ++ exW 7 exQuiet ++ exA 4 .close

/-- One event given to the remote channel, one being given, one queued. -/
def exSent : List (Act Nat Nat) := exW 6 exQuiet ++ exA 2 (.post 7) ++ exA 2 (.post 8) ++ exW 4 exQuiet ++ exA 2 (.post 9) ++ exW 3 exQuiet

example : let s := run 2 St.init exSent; s.closed = false ∧ s.rclosed = false ∧ over given 2 St.init exSent = [7] ∧ inFlight s.w = [8] ∧ s.post = [9] ∧ postedOf s.log = [7, 8, 9] := by
  decide +kernel

/-- Flushed and closed. -/
example : let before := exW 6 exQuiet ++ exA 2 (.post 7) ++ exW 9 exQuiet; let all := before ++ [.app .close] ++ (exA 3 .close ++ exW 9 exQuiet ++ exA 4 .close)
    let s := run 2 St.init before; let t := run 2 St.init all
    s.closed = false ∧ s.rclosed = false ∧ s.post = [] ∧ t.gone = true ∧ over given 2 St.init all = [7] := by decide +kernel

theorem C103_refuted : ¬ C103_full := by
  intro h
  have := (h Nat Nat 2 exLost).2 (by decide +kernel)
  revert this
  decide +kernel

/-! ## C104: what is fetched -/

/-- The application gets the events of the remote channel in order, each at most once; until the channel is closed every event that
was fetched from the remote channel has been got or is queued. -/
theorem C104_fetched {E X : Type} (size : Nat) (acts : List (Act E X)) : let s := run size (St.init : St E X) acts
    gotOf s.log <+: over yielded size St.init acts ∧ (s.closed = false → over yielded size St.init acts = gotOf s.log ++ s.get) := by
  intro s
  obtain ⟨hi, _⟩ := inv_run size acts _ (inv_init size) (inv2_init (E := E) (X := X))
  obtain ⟨_, h3, _⟩ := hist_run size acts (St.init : St E X)
  rw [show over yielded size St.init acts = s.produced by show _ = (run size St.init acts).produced; rw [h3]; rfl]
  refine ⟨hi.got_pre, ?_⟩
  intro hc
  apply hi.got
  intro a
  have := (hi.late_empty a).1
  rw [show (run size St.init acts).closed = s.closed from rfl, hc] at this; cases this

/-- Two events of the remote channel, one got and one queued. -/
def exGot : List (Act Nat Nat) := exW 6 exQuiet ++ [.spurious] ++ exW 6 (exEvent 5) ++ exW 5 (exEvent 6) ++ exW 4 exQuiet ++ exA 2 (.get true fun _ => true)

example : let s := run 2 St.init exGot; s.closed = false ∧ gotOf s.log = [5] ∧ over yielded 2 St.init exGot = [5, 6] ∧ s.get = [6] := by decide +kernel

/-! ## C105: sizes of the queues -/

/-- Neither queue ever holds more than its size, whoever is faster. -/
theorem C105_sizes {E X : Type} (size : Nat) (s : St E X) (h : Reachable size s) : s.post.length ≤ size ∧ s.get.length ≤ size :=
  ⟨(inv_reach h).1.post_le, (inv_reach h).1.get_le⟩

/-- A full queue of either kind. -/
example : (run 2 St.init (exW 6 exQuiet ++ exA 6 (.post 7)) : St Nat Nat).post.length = 2 ∧
    (run 2 St.init (exW 1 exQuiet ++ exW 20 (exEvent 5)) : St Nat Nat).get.length = 2 := by decide +kernel

/-! ## C106: errors -/

/-- Every exception of the remote channel is thrown to the application, once and in order: those it has not seen yet are on the list
or about to be put there; and after the channel has been closed there are none. -/
theorem C106_errors {E X : Type} (size : Nat) (acts : List (Act E X)) : let s := run size (St.init : St E X) acts
    over threw size St.init acts = thrownOf s.log ++ s.err ++ caught s.w ∧ (s.gone = true → thrownOf s.log = over threw size St.init acts) := by
  intro s
  obtain ⟨hi, _⟩ := inv_run size acts _ (inv_init size) (inv2_init (E := E) (X := X))
  obtain ⟨_, _, h3⟩ := hist_run size acts (St.init : St E X)
  have h3 : over threw size St.init acts = s.raised ++ caught s.w := by
    show _ = (run size St.init acts).raised ++ caught (run size St.init acts).w
    rw [h3]; simp [St.init, caught]
  rw [h3]
  refine ⟨by rw [show s.raised = _ from hi.errs], ?_⟩
  intro hg
  have hd := hi.gone_done hg
  rw [show s.raised = _ from hi.errs, show s.err = [] from hd.2, show s.w = .done from hd.1, List.append_nil]; simp [caught]; rfl

/-- Nothing is posted or fetched while there are errors: the call throws them instead. -/
theorem C106_first {E X : Type} (size : Nat) (s : St E X) (a : App E X) (hr : s.rinit = true) (hw : s.w.holds = false) (he : s.err ≠ [])
    (hm : (∃ b f, s.m = .want (.get0 b f)) ∨ (∃ f, s.m = .want (.get1 f)) ∨ (∃ e, s.m = .want (.post1 e)) ∨ (s.rclosed = false ∧ ∃ e, s.m = .want (.post0 e))) :
    (mstep size a s).m = .idle ∧ (mstep size a s).log = s.log ++ [.thrown s.err] ∧ (mstep size a s).err = [] ∧ (mstep size a s).post = s.post ∧ (mstep size a s).get = s.get := by
  have hck : ∀ k, checkErr s k = ret (.thrown s.err) (bcast { s with err := [] }) := by
    intro k; unfold checkErr; rw [if_neg (by simpa using he)]
  unfold mstep
  rcases hm with ⟨b, f, hm⟩ | ⟨f, hm⟩ | ⟨e, hm⟩ | ⟨hc, e, hm⟩ <;> simp only [hm, hw, Bool.false_eq_true, if_false, mbody, hr, if_true]
  · simp only [hck]; exact ⟨rfl, rfl, rfl, rfl, rfl⟩
  · unfold getLoop
    rw [if_neg (by simp [he]), hck]; exact ⟨rfl, rfl, rfl, rfl, rfl⟩
  · unfold postLoop
    rw [if_neg (by simp [he]), hck]; exact ⟨rfl, rfl, rfl, rfl, rfl⟩
  · simp only [hc, Bool.false_eq_true, if_false, hck]; exact ⟨rfl, rfl, rfl, rfl, rfl⟩

/-- Two errors: one thrown, the other on the list; the application is about to be told. -/
def exErr : St Nat Nat := run 2 St.init (exW 5 exQuiet ++ exW 4 (exFail 1) ++ exA 3 (.get false fun _ => true) ++ exW 9 (exFail 2))

example : Reachable 2 exErr ∧ exErr.err = [2] ∧ thrownOf exErr.log = [1] ∧ exErr.w.holds = false ∧ exErr.rinit = true ∧
    (match exErr.m with | .want (.get0 _ _) => true | _ => false) = true := ⟨⟨_, rfl⟩, by decide +kernel⟩

/-! ## C107: calls end -/

/-- From every state that can be reached a call of the application can end. -/
def C107_full : Prop := ∀ (E X : Type) (size : Nat) (s : St E X), 0 < size → Reachable size s → ∃ acts, (run size s acts).m = .idle

/-- While the remote channel stays open every call ends: after a bounded number of steps of the worker, whatever the remote channel
does, the next step of the application ends its call -- unless it waits for an event and the remote channel has none. -/
theorem C107_open_partial {E X : Type} (size : Nat) (s : St E X) (hpos : 0 < size) (h : OpenReachable size s) (hm : s.m ≠ .idle) (a : App E X)
    (v : Nat → Env E X) (hv : ∀ k, (v k).keepsOpen ∧ (v k).sane) :
    ∃ n ≤ 8 * size + 10, (mstep size a (work size v n s)).m = .idle ∨ Waiting (mstep size a (work size v n s)) := by
  have hi := (inv_reach (s := s) (by obtain ⟨l, _, e⟩ := h; exact ⟨l, e⟩)).1
  have ho := op_reach h
  obtain ⟨j, hj, k, h1, h2, h3, _, _, h5, _⟩ := rests size _ v s hv ho hi (dist_le hi)
  refine ⟨j, hj, ends hpos a h2 k h1 ?_⟩
  rcases h5 with h5 | h5 <;> rw [h5]
  · exact hm
  · cases hmm : s.m <;> simp_all [mk]

/-- Posting and flushing always end: they do not wait for the remote channel to have an event. -/
theorem C107_post_partial {E X : Type} (size : Nat) (s : St E X) (hpos : 0 < size) (h : OpenReachable size s) (hm : Sends s.m = true) (a : App E X)
    (v : Nat → Env E X) (hv : ∀ k, (v k).keepsOpen ∧ (v k).sane) : ∃ n ≤ 8 * size + 10, (mstep size a (work size v n s)).m = .idle := by
  have hi := (inv_reach (s := s) (by obtain ⟨l, _, e⟩ := h; exact ⟨l, e⟩)).1
  obtain ⟨j, hj, k, h1, h2, h3, _, _, h5, _⟩ := rests size _ v s hv (op_reach h) hi (dist_le hi)
  have hs : Sends (work size v j s).m = true := by
    rcases h5 with h5 | h5 <;> rw [h5]
    · exact hm
    · exact sends_mk hm
  refine ⟨j, hj, ?_⟩
  rcases ends hpos a h2 k h1 (by intro e; rw [e] at hs; cases hs) with h | ⟨⟨f, h⟩, _⟩
  · exact h
  · exact absurd h (sends_mstep a hs f)

/-- A wait for an event ends when the remote channel has one: once woken up the worker fetches it, and the call ends. -/
theorem C107_wait_partial {E X : Type} (size : Nat) (s : St E X) (hpos : 0 < size) (h : OpenReachable size s) (hm : s.m ≠ .idle) (a : App E X)
    (v : Nat → Env E X) (hv : ∀ k, (v k).keepsOpen ∧ (v k).sane) (hw : ∀ k, (v k).fetch.outcome ≠ .ok .wait) :
    ∃ n ≤ 8 * size + 10, (mstep size a (work size v n (bcast s))).m = .idle := by
  have hi := inv_bcast (inv_reach (s := s) (by obtain ⟨l, _, e⟩ := h; exact ⟨l, e⟩)).1
  obtain ⟨j, hj, k, h1, h2, h3, h4, _, h5, _⟩ := rests size _ v (bcast s) hv (op_bcast (op_reach h)) hi (dist_le hi)
  have hj0 : 0 < j := by
    rcases Nat.eq_zero_or_pos j with e | e
    · subst e; exact absurd h1 (wk_awake _ _)
    · exact e
  have hk : k ≠ .idle := by
    intro e; obtain ⟨i, _, hi⟩ := h4 hj0 e; exact hw i hi
  refine ⟨j, hj, ?_⟩
  have hne : (work size v j (bcast s)).m ≠ .idle := by
    have : (bcast s).m ≠ .idle := by simp only [bcast_m]; cases hmm : s.m <;> simp_all [mk]
    rcases h5 with h5 | h5 <;> rw [h5]
    · exact this
    · cases hmm : (bcast s).m <;> simp_all [mk]
  rcases ends hpos a h2 k h1 hne with h | ⟨_, h, _⟩
  · exact h
  · rcases mstep_w size a (work size v j (bcast s)) with e | e <;> rw [e, h1] at h
    · injection h with h; exact absurd h hk
    · cases h

/-- Closing a channel with nothing queued for sending and no errors can come to an end, whatever has happened since -- as long
as the remote channel throws nothing. -/
theorem C107_close_partial {E X : Type} (size : Nat) (s : St E X) (hpos : 0 < size) (h : OpenReachable size s) (hm : s.m = .idle) (hp : s.post = []) (he : s.err = [])
    (hx : ∀ x, s.w ≠ .relock (some x)) (acts : List (Act E X)) (ha : ∀ a ∈ acts, SilentAct a) : ∃ more, (run size (run size (mstep size .close s) acts) more).m = .idle := by
  obtain ⟨hi, h2⟩ := inv_reach (s := s) (by obtain ⟨l, _, e⟩ := h; exact ⟨l, e⟩)
  have ho := op_reach h
  have hg : s.gone = false := by
    cases hg : s.gone with
    | false => rfl
    | true => have := (hi.late_empty (Or.inr hg)).1; rw [ho.closed] at this; cases this
  have hx2 := hi.exact ho.closed ho.rclosed
  rw [hp, List.append_nil] at hx2
  have hms : mstep size .close s = { s with m := .closing .flushed } := by unfold mstep; rw [hm]
  obtain ⟨hj, hj2⟩ := inv_mstep (size := size) .close hi h2
  have hc : Closing (mstep size .close s) := by
    rw [hms]
    refine ⟨⟨hp, hx2, Or.inr ⟨_, rfl⟩⟩, ⟨he, hx⟩, rfl, hg, by simp, ?_, by simp [late], by simp [late]⟩
    intro a
    have := ho.wlive
    simp only at a
    rcases a with a | a | a <;> rw [a] at this <;> cases this
  obtain ⟨hk, hk2⟩ := inv_run size acts _ hj hj2
  rcases closing_run hpos acts _ ha hj hj2 (Or.inl hc) with h | h
  · exact closing_ends hpos _ h hk hk2
  · exact gone_ends _ hk hk2 h

/-- An application that waits for an event when the remote channel is closed. -/
def exHang1 : St Nat Nat := run 2 St.init (exW 6 exQuiet ++ exA 2 (.get true fun _ => true) ++ [.spurious] ++ exW 7 exClose)

theorem C107_wait_hangs : Reachable 2 exHang1 ∧ Hangs 2 exHang1 := by
  refine ⟨⟨_, rfl⟩, ?_⟩
  exact wait_hangs (by decide +kernel) (by decide +kernel) (by decide +kernel) (by decide +kernel) (fun _ => true) (Or.inl rfl)

theorem C107_refuted : ¬ C107_full := by
  intro h
  obtain ⟨acts, h1⟩ := h Nat Nat 2 exHang1 (by decide) C107_wait_hangs.1
  exact C107_wait_hangs.2 acts h1

/-- Closing the channel while there is an error nobody has seen: the worker never gives the lock back. -/
def exHang2 : St Nat Nat := run 2 St.init (exW 5 exQuiet ++ exW 4 (exFail 1) ++ exA 4 .close ++ exW 2 exQuiet)

theorem C107_close_hangs : Reachable 2 exHang2 ∧ Hangs 2 exHang2 := by
  refine ⟨⟨_, rfl⟩, ?_⟩
  exact spin_hangs (by decide +kernel) (by decide +kernel) (by decide +kernel) ⟨.close2 .flushed, Or.inr rfl⟩

/-- Closing the channel with events in both queues: both threads sleep. -/
def exStuck1 : St Nat Nat := run 2 St.init (exW 6 exQuiet ++ [.spurious] ++ exW 6 (exEvent 5) ++ exW 5 exQuiet ++ exA 2 (.post 7) ++ exA 3 .close ++ exW 7 exQuiet)

theorem C107_close_stuck : Reachable 2 exStuck1 ∧ exStuck1.m ≠ .idle ∧ Stuck 2 exStuck1 := by
  refine ⟨⟨_, rfl⟩, ?_, asleep_stuck ⟨.drain, by decide +kernel⟩ ⟨.flush1 (some .flushed), rfl⟩⟩
  intro h; cases h

/-- A remote channel that closes when it gets an event. -/
def exCloseP : Env Nat Nat := ⟨⟨.ok (), false⟩, ⟨.ok (), true⟩, ⟨.ok .wait, false⟩⟩

/-- Posting to a full queue when the remote channel closes and there are events to fetch: both threads sleep. -/
def exStuck2 : St Nat Nat :=
  run 2 St.init (exW 6 exQuiet ++ [.spurious] ++ exW 6 (exEvent 5) ++ exW 5 exQuiet ++ exA 2 (.post 7) ++ exA 2 (.post 8) ++ exW 4 exQuiet ++ exA 2 (.post 9) ++ exA 2 (.post 10) ++ exW 5 exCloseP)

theorem C107_post_stuck : Reachable 2 exStuck2 ∧ exStuck2.m ≠ .idle ∧ Stuck 2 exStuck2 := by
  refine ⟨⟨_, rfl⟩, ?_, asleep_stuck ⟨.drain, by decide +kernel⟩ ⟨.post1 10, rfl⟩⟩
  intro h; cases h

/-- Posting to a full queue. -/
def exPosting : St Nat Nat := run 2 St.init (exW 6 exQuiet ++ exA 2 (.post 7) ++ exA 2 (.post 8) ++ exA 2 (.post 9))

example : OpenReachable 2 exPosting ∧ Sends exPosting.m = true ∧ exPosting.m = .asleep (.post1 9) := by
  refine ⟨⟨_, ?_, rfl⟩, rfl, rfl⟩
  simp [exW, exA, OpenAct, Env.keepsOpen, Env.sane, exQuiet, or_imp, forall_and]

/-- Waiting for an event. -/
def exWaiting : St Nat Nat := run 2 St.init (exW 6 exQuiet ++ exA 2 (.get true fun _ => true))

example : OpenReachable 2 exWaiting ∧ Waiting exWaiting := by
  refine ⟨⟨_, ?_, rfl⟩, ⟨_, rfl⟩, rfl, rfl, rfl⟩
  simp [exW, exA, OpenAct, Env.keepsOpen, Env.sane, exQuiet, or_imp, forall_and]

/-- A channel with an event in its input queue, ready to be closed. -/
def exReady : St Nat Nat := run 2 St.init (exW 6 exQuiet ++ [.spurious] ++ exW 6 (exEvent 5) ++ exW 5 exQuiet)

example : OpenReachable 2 exReady ∧ exReady.m = .idle ∧ exReady.post = [] ∧ exReady.err = [] ∧ exReady.get = [5] ∧ exReady.w = .asleep .idle := by
  refine ⟨⟨_, ?_, rfl⟩, rfl, rfl, rfl, rfl, rfl⟩
  simp [exW, OpenAct, Env.keepsOpen, Env.sane, exQuiet, exEvent, or_imp, forall_and]

end Verif.MTQueue
