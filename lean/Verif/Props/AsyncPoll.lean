import Verif.Proof.AsyncPoll
/-!
# C180, C181: asynchronous and background polls
-/
namespace Verif.AsyncPoll

/-! ## C180 -/

/-- **C180, in full**: whatever polls are started, aborted and started again, and in whatever order the threads work, the results handed out are those
of the present poll, none twice, and the caller is told that there are no more when all the polled children's results have been handed out. -/
def C180_full : Prop := ∀ s : Poll, Reach Any s → HandsOutAll s

/-- The schedule of the counterexample: a worker still executes child 0 when the poll is aborted and the next one started. -/
def stale : List Act :=
  [.start false [0, 1], .take 0, .abort, .start false [0, 1], .finish 0, .await, .go, .take 0, .finish 0, .await, .go, .await, .go]

theorem reach_run (ok : Poll → Act → Prop) (l : List Act) : ∀ s s', Reach ok s → (∀ t, ∀ a ∈ l, ok t a) → run s l = some s' → Reach ok s' := by
  induction l with
  | nil => intro s s' hs _ h; cases h; exact hs
  | cons a l ih =>
    intro s s' hs ha h
    unfold run at h
    split at h
    · rename_i t ht
      exact ih t s' (.step hs (ha s a (by simp)) ht) (fun t b hb => ha t b (by simp [hb])) h
    · cases h

/-- The result of the aborted poll is handed out in the next one, and child 1's never is. -/
theorem C180_stale : (run Poll.init stale).map (fun s => (s.polls, s.got, s.ended, s.queue)) =
    some (2, [⟨1, 0⟩, ⟨2, 0⟩], true, [⟨2, 1⟩]) := by decide +kernel

theorem C180_refuted : ¬ C180_full := by
  intro h
  have h1 := C180_stale
  cases hr : run Poll.init stale with
  | none => rw [hr] at h1; cases h1
  | some s =>
    rw [hr] at h1
    simp only [Option.map_some, Option.some.injEq, Prod.mk.injEq] at h1
    obtain ⟨rest, hp⟩ := (h s (reach_run Any stale _ _ .init (fun _ _ _ => trivial) hr)).1
    have hm : (⟨1, 0⟩ : Order) ∈ ordered s := hp.subset (by rw [h1.2.1]; simp)
    unfold ordered at hm
    rw [h1.1] at hm
    simp at hm

/-- **C180, in part**: provided that no poll is started while work orders of an earlier one are queued or being filled.
Missing: polls started sooner after an abort, for which it is false. -/
theorem C180_partial (s : Poll) (h : Reach Settled s) : HandsOutAll s := inv_handsOut s (inv_reach s h)

/-- If polls are never aborted no such proviso is needed: it is always met. -/
theorem C180_no_abort_partial (s : Poll) (h : Reach NoAbort s) : HandsOutAll s := inv_handsOut s (inv2_reach s h).inv

theorem C180_starts_settled (s : Poll) (h : Reach NoAbort s) (hp : s.prog = false) : s.queue = [] ∧ s.running = [] :=
  inv2_quiet s (inv2_reach s h) hp

/-- No lost wake-up: with aborts or without. -/
theorem C180_sleeps_safely (s : Poll) (h : Reach Settled s) : SleepsSafely s := inv_sleeps s (inv_reach s h)

theorem C180_sleeps_safely_no_abort (s : Poll) (h : Reach NoAbort s) : SleepsSafely s := inv_sleeps s (inv2_reach s h).inv

/-- From wherever the threads are, the poll can be brought to its end, with all results handed out. -/
theorem C180_completes (s : Poll) (h : Reach NoAbort s) (hp : s.prog = true) (hb : s.bg = false)
    (hpc : s.pc = .out ∨ s.pc = .top ∨ s.pc = .look ∨ s.pc = .asleep ∨ ∃ w, s.pc = .busy w) :
    ∃ l t, (∀ a ∈ l, Within a) ∧ run s l = some t ∧ t.ended = true ∧ t.polls = s.polls ∧ t.cur = s.cur ∧ t.got.Perm (s.cur.map (Order.mk s.polls)) := by
  have hpc' : s.pc = .out ∨ awaiting s.pc = true := by
    rcases hpc with e | e | e | e | ⟨w, e⟩ <;> rw [e] <;> simp [awaiting]
  obtain ⟨l, t, h1, h2, h3, h4, h5⟩ := completes_await s (inv2_reach s h) hp hb hpc'
  refine ⟨l, t, h1, h2, h3, h4, h5, ?_⟩
  have := (inv_handsOut t (inv2_run l s t (inv2_reach s h) (fun a ha => (h1 a ha).1) h2).inv).2 h3
  unfold ordered at this
  rw [h4, h5] at this
  exact this

/-- What is ordered: the enabled children, in the poll order. -/
theorem C180_orders (order : List Nat) (enabled : Nat → Bool) (c : Nat) :
    c ∈ asyncOrders order enabled ↔ c ∈ order ∧ enabled c = true := by
  unfold asyncOrders; exact List.mem_filter

/-- Starting a poll orders those children: one work order each, and the caller is told how many. -/
theorem C180_start (s t : Poll) (bg : Bool) (ch : List Nat) (h : step s (.start bg ch) = some t) :
    s.prog = false ∧ t.polls = s.polls + 1 ∧ t.cur = ch ∧ t.bg = bg ∧ t.got = [] ∧ t.filled = [] ∧ t.ended = false ∧ t.waited = false ∧ t.num = ch.length ∧
      t.queue = ch.map (Order.mk (s.polls + 1)) ++ s.queue ∧ (t.prog = true ↔ bg = true ∨ ch ≠ []) := by
  unfold step at h
  dsimp only at h
  split at h
  · rename_i hc
    cases h
    refine ⟨hc.2, rfl, rfl, rfl, rfl, rfl, rfl, rfl, rfl, rfl, ?_⟩
    cases bg <;> simp [startPoll]
  · cases h

theorem C180_refuses (s : Poll) (bg : Bool) (ch : List Nat) (h : s.prog = true) : step s (.start bg ch) = none := by
  unfold step
  dsimp only
  rw [if_neg (by simp [h])]

/-- Without threads: the enabled children in the poll order, one for each call. -/
theorem C180_single (order : List Nat) (enabled : Nat → Bool) :
    handedOut order enabled 0 (order.length + 1) = order.filter enabled := by
  have := handedOut_eq order enabled (order.length + 1) 0 (by omega)
  simpa using this

/-- … and as many as `startAsyncPoll` said, if the poll order is an order of all the children. -/
theorem C180_single_count (order : List Nat) (enabled : Nat → Bool) (h : order.Perm (List.range order.length)) :
    startSingle order enabled = (handedOut order enabled 0 (order.length + 1)).length := by
  rw [C180_single]
  exact ((h.filter enabled).length_eq).symm

/-- Non-vacuity: two children; the parent helps, sleeps, is woken; results are handed out last first. -/
def calm : List Act :=
  [.start false [2, 0, 1], .take 0, .await, .go, .help 0, .go, .go, .await, .go, .none, .finish 0, .go, .take 0, .finish 0, .await, .go, .await, .go]

example : (run Poll.init calm).map (fun s => (s.got, s.ended, s.prog)) = some ([⟨1, 0⟩, ⟨1, 2⟩, ⟨1, 1⟩], true, false) := by decide +kernel

example : ∃ s, Reach NoAbort s ∧ s.ended = true ∧ s.got.length = 3 := by
  have h1 : (run Poll.init calm).map (fun s => (s.ended, s.got.length)) = some (true, 3) := by decide +kernel
  cases hr : run Poll.init calm with
  | none => rw [hr] at h1; cases h1
  | some s =>
    rw [hr] at h1
    simp only [Option.map_some, Option.some.injEq, Prod.mk.injEq] at h1
    refine ⟨s, reach_run NoAbort calm _ _ .init ?_ hr, h1⟩
    intro _ a ha
    unfold NoAbort
    rintro rfl
    revert ha
    decide

/-- An aborted poll whose orders were all filled before the next one. -/
example : (run Poll.init [.start false [0, 1], .take 0, .abort, .finish 0, .start false [0, 1], .take 0, .take 0, .finish 1, .finish 0,
    .await, .go, .await, .go, .await, .go]).map (fun s => (s.polls, s.got, s.ended)) = some (2, [⟨2, 0⟩, ⟨2, 1⟩], true) := by decide +kernel

example : handedOut [2, 0, 1] (fun c => decide (c ≠ 0)) 0 4 = [2, 1] := (C180_single [2, 0, 1] _).trans (by decide)

/-! ## C181 -/

/-- **C181, in full**: when `finishPoll` returns, whatever was started and aborted before, all the children of the present poll have been executed for it. -/
def C181_full : Prop := ∀ s : Poll, Reach Any s → WaitsForAll s

/-- The flag that an abort raises stays up, and later polls are not waited for. -/
def unwaited : List Act := [.start true [0, 1], .abort, .wait, .go, .start true [0, 1], .wait, .go]

theorem C181_unwaited : (run Poll.init unwaited).map (fun s => (s.polls, s.cur, s.filled, s.waited, s.queue)) =
    some (2, [0, 1], [], true, [⟨2, 0⟩, ⟨2, 1⟩]) := by decide +kernel

theorem C181_refuted : ¬ C181_full := by
  intro h
  have h1 := C181_unwaited
  cases hr : run Poll.init unwaited with
  | none => rw [hr] at h1; cases h1
  | some s =>
    rw [hr] at h1
    simp only [Option.map_some, Option.some.injEq, Prod.mk.injEq] at h1
    have hp := (h s (reach_run Any unwaited _ _ .init (fun _ _ _ => trivial) hr)) h1.2.2.2.1
    have := hp.length_eq
    rw [h1.2.2.1] at this
    unfold ordered at this
    rw [h1.2.1] at this
    simp at this

/-- **C181, in part**: if polls are never aborted.  Missing: nurseries a poll of which was ever aborted, for which it is false. -/
theorem C181_partial (s : Poll) (h : Reach NoAbort s) : WaitsForAll s := by
  intro hw
  have hi := inv2_reach s h
  cases hp : s.polling with
  | true => exact (inv_full s hi.inv hp (hi.wtd hw)).2.2.2
  | false =>
    have h2 := hi.inv.num
    have h5 : s.num = 0 := by
      rcases (hi.inv.off hp).2.2.2 with e | e
      · rw [hi.abn] at e; cases e
      · exact e
    have h6 : s.cur = [] := List.length_eq_zero_iff.mp (by omega)
    rw [(hi.pol hp).2.2.2]
    unfold ordered
    rw [h6]
    exact List.Perm.refl _

/-- … and `finishPoll` can always be brought to its return, with all the children executed. -/
theorem C181_completes (s : Poll) (h : Reach NoAbort s) (hp : 0 < s.polls)
    (hpc : s.pc = .out ∨ s.pc = .ftop ∨ s.pc = .fasleep ∨ ∃ w, s.pc = .fbusy w) :
    ∃ l t, (∀ a ∈ l, a ≠ .abort ∧ ∀ bg ch, a ≠ .start bg ch) ∧ run s l = some t ∧ t.waited = true ∧ t.polls = s.polls ∧ t.cur = s.cur := by
  have hpc' : awaiting s.pc = false := by
    rcases hpc with e | e | e | ⟨w, e⟩ <;> rw [e] <;> rfl
  exact completes_wait s (inv2_reach s h) hp hpc'

/-- Who is ordered in a background poll: the enabled children, if the poll order is the default one. -/
theorem C181_orders_partial (n : Nat) (enabled : Nat → Bool) : bgOrders (List.range n) enabled = (List.range n).filter enabled := by
  unfold bgOrders
  rw [List.length_range]
  conv_rhs => rw [← List.map_id ((List.range n).filter enabled)]
  apply List.map_congr_left
  intro i hi
  have : i < n := by simpa using (List.mem_filter.mp hi).1
  simp [List.getD, this]

/-- For another poll order it is not so: a child is ordered that is not enabled. -/
theorem C181_orders_refuted : ¬ ∀ (order : List Nat) (enabled : Nat → Bool), order.Perm (List.range order.length) →
    bgOrders order enabled = order.filter enabled := by
  intro h
  have := h [1, 0] (fun c => decide (c = 0)) (by decide)
  revert this
  decide

/-- Non-vacuity: the parent waits, helps, sleeps, and only the last result wakes it. -/
def waiting : List Act := [.start true [0, 1, 2], .take 0, .take 0, .wait, .help 0, .go, .none, .finish 0, .finish 0, .go]

example : (run Poll.init waiting).map (fun s => (s.filled, s.waited, s.prog)) = some ([⟨1, 2⟩, ⟨1, 0⟩, ⟨1, 1⟩], true, false) := by decide +kernel

example : (run Poll.init (waiting.take 8)).map (fun s => s.pc) = some .fasleep := by decide +kernel

example : bgOrders (List.range 3) (fun c => decide (c ≠ 1)) = [0, 2] := by decide

end Verif.AsyncPoll
