import Verif.Proof.Events
/-! # Event sources: C26, C56, C59 -/
namespace Verif.Events
open EventsSpec

/-! ### C26 — removing an event source only removes that source

Full statement: a removal withdraws exactly the registrations it names and leaves all others in place
and in order.  It fails for `removeInput` with a negative descriptor, documented as "remove all the
worker's inputs" (`C26_removeInput_all_false`). -/

/-- After any history of valid calls, the registered inputs are exactly the wanted (worker, fd, kind)
triples, and `select` is asked for exactly the (fd, kind) pairs some worker wants. -/
theorem C26_inputs_partial (ops : List IOp) (h : ∀ o ∈ ops, IOpOk o) (fd : Int) (b : Nat)
    (hb : b = 8 ∨ b = 9 ∨ b = 10) :
    (∀ wp, (∃ i ∈ (irun ops).inputs, i.wp = wp ∧ i.fd = fd ∧ i.flags.getLsbD b = true) ↔
      Wanted ops.reverse wp fd b) ∧
    ((fd, b) ∈ (irun ops).watched ↔ ∃ wp, Wanted ops.reverse wp fd b) := by
  refine ⟨fun wp => irun_has ops h wp fd b hb, ?_⟩
  rw [(irun_inv ops h).watched, mem_rebuild _ _ _ hb]
  exact ⟨fun ⟨wp, h'⟩ => ⟨wp, (irun_has ops h wp fd b hb).1 h'⟩,
    fun ⟨wp, h'⟩ => ⟨wp, (irun_has ops h wp fd b hb).2 h'⟩⟩

example : ((5 : Int), 8) ∈ (irun [.add 1 5 0x300#32, .add 2 5 0x100#32, .remove 1 5 0x300#32]).watched ∧
    ((5 : Int), 9) ∉ (irun [.add 1 5 0x300#32, .add 2 5 0x100#32, .remove 1 5 0x300#32]).watched := by
  decide

/-- `removeInput(-1)` does not remove all inputs of the worker. -/
theorem C26_removeInput_all_false : ∃ ops : List IOp, ∃ wp,
    (removeInput (irun ops) wp (-1) 0).1.inputs.any (fun i => i.wp = wp) = true :=
  ⟨[.add 1 5 0x100#32, .add 1 6 0x100#32], 1, by decide⟩

/-- Removing a timeout: either one registration of that worker matching the identifier (the most
recent) disappears and all others stay in order, or there was none and nothing changes. -/
theorem C26_removeTimeout (s : TState) (wp : Nat) (id : List Int) :
    (∃ x t y, s.list = x ++ t :: y ∧ t.wp = wp ∧ Hiid.matches_ false id t.id = true ∧
      (∀ z ∈ x, ¬ (z.wp = wp ∧ Hiid.matches_ false id z.id = true)) ∧
      (removeTimeout s wp id).1.list = x ++ y ∧ (removeTimeout s wp id).2 = true) ∨
    ((∀ z ∈ s.list, ¬ (z.wp = wp ∧ Hiid.matches_ false id z.id = true)) ∧
      (removeTimeout s wp id).1.list = s.list ∧ (removeTimeout s wp id).2 = false) := by
  unfold removeTimeout
  rcases removeTimeoutLoop_split wp id s.list with ⟨x, t, y, hl, ⟨h1, h2⟩, h3, h4⟩ | ⟨h3, h4⟩
  · left; exact ⟨x, t, y, hl, h1, h2, h3, by rw [h4], by rw [h4]⟩
  · right; exact ⟨h3, by rw [h4], by rw [h4]⟩

/-- Removing a worker's timeouts leaves all others in order. -/
theorem C26_detachTimeouts (s : TState) (wp : Nat) :
    (detachTimeouts s wp).list.Sublist s.list ∧
    ∀ t, t ∈ (detachTimeouts s wp).list ↔ t ∈ s.list ∧ t.wp ≠ wp := by
  unfold detachTimeouts
  exact ⟨List.filter_sublist, fun t => by simp [List.mem_filter]⟩

example : (removeTimeout (trun [.add 0 1 5 [7] false, .add 0 2 5 [7] false, .add 0 1 9 [8] true]) 1 [7]).1.list.map
    (fun t => (t.wp, t.id)) = [(1, [8]), (2, [7])] := by decide

/-- After any history, the handled signals are exactly the ones added and not removed since. -/
theorem C26_signals (ops : List SOp) (wp s : Nat) :
    (∃ e ∈ srun ops, e.wp = wp ∧ e.signum = s) ↔ Handles ops.reverse wp s := by
  induction ops using List.reverseRecOn with
  | nil => simp [srun, Handles]
  | append_singleton ops o ih =>
    have hr : srun (ops ++ [o]) = sstep (srun ops) o := by simp [srun]
    rw [hr, List.reverse_append, List.reverse_singleton, List.singleton_append]
    cases o with
    | add w n f =>
      simp only [Handles, sstep, addSignal]
      rw [← ih]
      split
      · rename_i hc
        rw [List.any_eq_true] at hc
        obtain ⟨e, he, hp⟩ := hc
        simp only [Bool.and_eq_true, decide_eq_true_eq] at hp
        constructor
        · exact Or.inr
        · rintro (⟨rfl, rfl⟩ | h)
          · exact ⟨e, he, hp.2, hp.1⟩
          · exact h
      · simp only [List.mem_append, List.mem_singleton]
        constructor
        · rintro ⟨e, he | rfl, h1, h2⟩
          · exact Or.inr ⟨e, he, h1, h2⟩
          · exact Or.inl ⟨h1, h2⟩
        · rintro (⟨h1, h2⟩ | ⟨e, he, h1, h2⟩)
          · exact ⟨_, Or.inr rfl, h1, h2⟩
          · exact ⟨e, Or.inl he, h1, h2⟩
    | remove w n =>
      simp only [Handles, sstep, removeSignal, List.mem_filter, decide_eq_true_eq]
      rw [← ih]
      constructor
      · rintro ⟨e, ⟨he, hn⟩, h1, h2⟩
        refine ⟨⟨e, he, h1, h2⟩, ?_⟩
        rintro ⟨rfl, h⟩
        exact hn ⟨h1, by rw [h2]; exact h⟩
      · rintro ⟨⟨e, he, h1, h2⟩, hn⟩
        refine ⟨e, ⟨he, ?_⟩, h1, h2⟩
        rintro ⟨h3, h4⟩
        exact hn ⟨h3.symm.trans h1, by rw [← h2]; exact h4⟩

/-- Removing signals keeps the other registrations in order, and reports whether anything was removed. -/
theorem C26_removeSignal (l : List Sig) (wp : Nat) (n : Option Nat) :
    (removeSignal l wp n).1.Sublist l ∧
    ((removeSignal l wp n).2 = true ↔ ∃ e ∈ l, e.wp = wp ∧ (n = none ∨ n = some e.signum)) := by
  unfold removeSignal
  exact ⟨List.filter_sublist, by simp⟩

example : srun [.add 1 2 0, .add 1 3 0, .add 2 2 0, .remove 1 (some 2)] = [⟨3, 1, 0⟩, ⟨2, 2, 0⟩] := by decide

/-! ### C56 — timeouts fire when due -/

/-- After any history, an event check at time `now` fires exactly the timeouts that are due, each once;
a one-shot timeout is then gone, a continuous one is due again one period later, and all others are
untouched.  (The shortcut through the cached nearest time never skips a due timeout.) -/
theorem C56_due_timeouts_fire (ops : List TOp) (now : Nat) :
    (checkTimeouts (trun ops) now).2 = (trun ops).list.filter (fun t => t.next ≤ now) ∧
    (checkTimeouts (trun ops) now).1.list =
      ((trun ops).list.filter (fun t => ¬ (t.next ≤ now ∧ t.oneshot = true))).map
        (fun t => if t.next ≤ now then { t with next := now + t.period } else t) := by
  have hinv := trun_inv ops
  have hskip : (∀ t ∈ (trun ops).list, ¬ t.next ≤ now) →
      ([] : List Timeout) = (trun ops).list.filter (fun t => t.next ≤ now) ∧
      (trun ops).list = ((trun ops).list.filter (fun t => ¬ (t.next ≤ now ∧ t.oneshot = true))).map
        (fun t => if t.next ≤ now then { t with next := now + t.period } else t) := by
    intro h
    constructor
    · symm; rw [List.filter_eq_nil_iff]; intro t ht; simpa using h t ht
    · rw [List.filter_eq_self.2 (fun t ht => by simp [h t ht])]
      symm
      conv_rhs => rw [← List.map_id (trun ops).list]
      exact List.map_congr_left (fun t ht => by simp [h t ht])
  unfold checkTimeouts
  cases hn : (trun ops).nextTo with
  | none =>
    exact hskip (fun t ht => by obtain ⟨n, h, _⟩ := hinv t ht; rw [hn] at h; simp at h)
  | some n =>
    simp only
    split
    · exact checkLoop_result now _ none
    · rename_i hlt
      exact hskip (fun t ht => by
        obtain ⟨m, h, hm⟩ := hinv t ht
        rw [hn] at h; simp at h; omega)

/-- A timeout registered with a positive period becomes due exactly one period later. -/
theorem C56_registered (s : TState) (now wp period : Nat) (id : List Int) (o : Bool) :
    (addTimeout s now wp period id o = none ↔ period = 0) ∧
    ∀ s', addTimeout s now wp period id o = some s' →
      s'.list = ⟨wp, id, now + period, period, o⟩ :: s.list := by
  unfold addTimeout
  split <;> simp_all

example : (checkTimeouts (trun [.add 0 1 5 [7] false, .add 1 2 2 [8] true, .add 0 3 50 [9] true]) 6).2.map
    (fun t => t.wp) = [2, 1] ∧
    (checkTimeouts (trun [.add 0 1 5 [7] false, .add 1 2 2 [8] true, .add 0 3 50 [9] true]) 6).1.list.map
      (fun t => (t.wp, t.next)) = [(3, 50), (1, 11)] := by decide

/-! ### C59 — each ready input is reported once, with the kinds it was registered for -/

/-- After any history of valid calls, one event check reports exactly, for every registered input with
some ready kind, one event listing exactly the wanted kinds that are ready; one-shot inputs that fired
are gone and all others stay. -/
theorem C59_ready_inputs_reported (ops : List IOp) (h : ∀ o ∈ ops, IOpOk o) (ready : Int → Nat → Bool) :
    (checkInputs (irun ops) ready).2 =
      ((irun ops).inputs.map (fun i => (i.wp, i.fd,
        [8, 9, 10].filter (fun b => i.flags.getLsbD b && ready i.fd b)))).filter (fun e => e.2.2 ≠ []) ∧
    (checkInputs (irun ops) ready).1.inputs =
      (irun ops).inputs.filter (fun i => !(i.flags.getLsbD 0 &&
        [8, 9, 10].any (fun b => i.flags.getLsbD b && ready i.fd b))) := by
  have hw := (irun_inv ops h).watched
  have hcont : ∀ i ∈ (irun ops).inputs, ∀ b, (b = 8 ∨ b = 9 ∨ b = 10) → i.flags.getLsbD b = true →
      (irun ops).watched.contains (i.fd, b) = true := by
    intro i hi b hb hbit
    rw [hw, List.contains_iff_mem, mem_rebuild _ _ _ hb]
    exact ⟨i.wp, i, hi, rfl, rfl, hbit⟩
  have hf : ∀ i ∈ (irun ops).inputs,
      raisedKinds (fun fd b => ready fd b && (irun ops).watched.contains (fd, b)) i = raisedKinds ready i := by
    intro i hi
    apply List.filter_congr
    intro b hb
    by_cases hbit : i.flags.getLsbD b = true
    · have := hcont i hi b (by simpa using hb) hbit
      simp only [this, Bool.and_true]
    · rw [Bool.eq_false_iff.2 hbit]; rfl
  obtain ⟨h1, h2⟩ := checkInputsLoop_result
    (fun fd b => ready fd b && (irun ops).watched.contains (fd, b)) (irun ops).inputs
  unfold checkInputs
  constructor
  · refine h1.trans ?_
    congr 1
    apply List.map_congr_left
    intro i hi
    rw [hf i hi]; rfl
  · refine h2.trans ?_
    apply List.filter_congr
    intro i hi
    rw [hf i hi, raised_any]

example : (checkInputs (irun [.add 1 5 0x301#32, .add 2 5 0x100#32]) (fun fd b => fd == 5 && b == 8)).2 =
    [(2, 5, [8]), (1, 5, [8])] ∧
    (checkInputs (irun [.add 1 5 0x301#32, .add 2 5 0x100#32]) (fun fd b => fd == 5 && b == 8)).1.inputs.map
      (fun i => i.wp) = [2] := by decide

end Verif.Events
