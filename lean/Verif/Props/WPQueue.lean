import Verif.Proof.WPQueue
/-!
# Properties of worker-process queues (C22, C54, C55)
-/
namespace Verif.WPQueue
open WPQueueSpec

/-- **C22.** After any history of deliveries, removals and polling rounds (with any handler results
and any queue operations made while handlers run) the queue serves exactly the pending messages:
highest priority first, first-come-first-served within a priority, none lost or duplicated. -/
theorem C22_queue_serves_pending (ops : List Op) :
    ∃ pending, Pending (run ops).2 [] pending ∧
      Serves ((run ops).1.queue.map Entry.msg) pending :=
  runFrom_SQ (q := init) (l := []) ⟨by simp [init], by simp [init]⟩ ops

/-- **C22.** Taking one message by id pattern returns the first match in service order, and removes
nothing else. -/
theorem C22_dequeue_first (q : Q) (id : List Int) :
    (∃ x e y, q.queue = x ++ e :: y ∧ Hiid.matches_ false id e.msg.id = true ∧
      (∀ z ∈ x, Hiid.matches_ false id z.msg.id = false) ∧
      (dequeueId q id true).1.queue = x ++ y ∧ (dequeueId q id true).2 = [e.msg]) ∨
    ((∀ z ∈ q.queue, Hiid.matches_ false id z.msg.id = false) ∧
      (dequeueId q id true).1.queue = q.queue ∧ (dequeueId q id true).2 = []) := by
  rcases eraseFirst_split (fun x => Hiid.matches_ false id x.msg.id) q.queue with
    ⟨x, e, y, h1, h2, h3, h4⟩ | ⟨h1, h2⟩
  · left; exact ⟨x, e, y, h1, h2, h3, by simp [dequeueId, h4], by simp [dequeueId, h4]⟩
  · right; exact ⟨h1, by simp [dequeueId, h2], by simp [dequeueId, h2]⟩

/-- **C22.** Taking all messages matching an id pattern removes those and only those. -/
theorem C22_dequeue_all (q : Q) (id : List Int) :
    (∀ e, e ∈ (dequeueId q id false).1.queue ↔ e ∈ q.queue ∧ Hiid.matches_ false id e.msg.id = false) ∧
    (dequeueId q id false).1.queue.Sublist q.queue := by
  simp [dequeueId]

/-- **C22.** Searching from a position finds the first match at or after that position. -/
theorem C22_search (q : Q) (id : List Int) (pos : Nat) (k : Nat) (m : Msg) :
    searchQueue q id pos = some (some (k, m)) ↔
      pos ≤ k ∧ (∃ e, q.queue[k]? = some e ∧ e.msg = m ∧ Hiid.matches_ false id m.id = true) ∧
      ∀ j, pos ≤ j → j < k → ∀ e, q.queue[j]? = some e → Hiid.matches_ false id e.msg.id = false := by
  have key : ∀ (l : List Entry) (p : Nat), searchFrom id l p = some (k, m) ↔
      p ≤ k ∧ (∃ e, l[k - p]? = some e ∧ e.msg = m ∧ Hiid.matches_ false id m.id = true) ∧
      ∀ j, j < k - p → ∀ e, l[j]? = some e → Hiid.matches_ false id e.msg.id = false := by
    intro l
    induction l with
    | nil => intro p; simp [searchFrom]
    | cons x l ih =>
      intro p
      simp only [searchFrom]
      split
      · rename_i hm
        constructor
        · intro h
          simp at h
          obtain ⟨rfl, rfl⟩ := h
          refine ⟨Nat.le_refl _, ⟨x, by simp, rfl, hm⟩, by simp⟩
        · rintro ⟨hp, ⟨e, he, rfl, hme⟩, hall⟩
          by_cases hk : k = p
          · subst hk; simp at he; subst he; rfl
          · have := hall 0 (by omega) x (by simp)
            rw [this] at hm; simp at hm
      · rename_i hm
        rw [ih]
        constructor
        · rintro ⟨hp, ⟨e, he, h1, h2⟩, hall⟩
          refine ⟨by omega, ⟨e, ?_, h1, h2⟩, ?_⟩
          · have : k - p = (k - (p + 1)) + 1 := by omega
            rw [this]; simpa using he
          · intro j hj e' he'
            cases j with
            | zero => simp at he'; subst he'; simpa using hm
            | succ j => exact hall j (by omega) e' (by simpa using he')
        · rintro ⟨hp, ⟨e, he, h1, h2⟩, hall⟩
          have hk : k ≠ p := by
            rintro rfl
            simp at he; subst he; subst h1; exact hm h2
          have hkp : k - p = (k - (p + 1)) + 1 := by omega
          refine ⟨by omega, ⟨e, ?_, h1, h2⟩, ?_⟩
          · rw [hkp] at he; simpa using he
          · intro j hj e' he'
            exact hall (j + 1) (by omega) e' (by simpa using he')
  unfold searchQueue
  split
  · rename_i hp
    constructor
    · intro h; simp at h
    · rintro ⟨hk, ⟨e, he, _⟩, _⟩
      have := (List.getElem?_eq_some_iff.1 he).1
      omega
  · rename_i hp
    simp only [Option.some.injEq, key, List.getElem?_drop]
    constructor
    · rintro ⟨h1, h2, h3⟩
      have hk : pos + (k - pos) = k := by omega
      rw [hk] at h2
      refine ⟨h1, h2, ?_⟩
      intro j hj hjk e he
      exact h3 (j - pos) (by omega) e (by rw [show pos + (j - pos) = j by omega]; exact he)
    · rintro ⟨h1, h2, h3⟩
      have hk : pos + (k - pos) = k := by omega
      rw [hk]
      exact ⟨h1, h2, fun j hj e he => h3 (pos + j) (by omega) (by omega) e he⟩

/-- **C54.** A worker never sleeps on unseen messages: after any history, if the queue is not empty
and no repoll is pending, the message at its head has already been offered to its handler, which
held or requeued it. -/
theorem C54_no_unseen_head (ops : List Op) (e : Entry) (rest : List Entry)
    (hq : (run ops).1.queue = e :: rest) (hr : (run ops).1.repoll = false) :
    Offered init ops e.msg.ident :=
  run_headOk ops e rest hq hr

/-- **C55 (partial).** An accepted message is handed out exactly once: with the message reference
left in place by the handler, accepting removes that entry from the queue.  The full claim — whatever
the handler does with its reference — is false, see `C55_accepted_but_redelivered`. -/
theorem C55_accept_removes_partial (e : Entry) (rest : List Entry) (repoll up : Bool) (t : Nat) :
    (doPoll ⟨e :: rest, repoll⟩ up [] true .accept t).queue.map Entry.msg = rest.map Entry.msg := by
  simp [doPoll, qsteps, finish, eraseFirst, touchHead_map]

/-- **C55 (refutation).** A handler that accepts a message after transferring its reference away
(with exception catching off, the default) leaves the message in the queue with a repoll pending, so
it is delivered again. -/
theorem C55_accepted_but_redelivered :
    let m : Msg := ⟨1, [-1001], 256⟩
    let q := (run [.q (.enqueue m 0), .poll false [] false .accept 1]).1
    q.queue.map Entry.msg = [m] ∧ q.repoll = true := by decide

-- A history with three priorities, a requeue and a message arriving while a handler runs.
example :
    let m (i : Nat) (p : Int) : Msg := ⟨i, [-1001, i], p⟩
    let h := [Op.q (.enqueue (m 1 256) 0), .q (.enqueue (m 2 512) 0), .q (.enqueue (m 3 256) 1),
      .q (.enqueue (m 4 300) 1), .poll false [.enqueue (m 5 512) 2] true .requeue 2,
      .q (.dequeueId [-1001, 4] true)]
    (run h).1.queue.map (fun e => e.msg.ident) = [5, 2, 1, 3] ∧ (run h).1.repoll = true := by decide

-- A held message blocks the queue without a pending repoll.
example :
    let h := [Op.q (.enqueue ⟨1, [-1001], 256⟩ 0), .poll false [] true .hold 2]
    (run h).1.queue.length = 1 ∧ (run h).1.repoll = false := by decide

end Verif.WPQueue
