import Verif.Proof.NodeLock
/-! # Several threads at one node (C168–C170) -/
namespace Verif.NodeLock

/-! ## C168: one at a time -/

/-- Whatever any number of threads do, at most one of them executes the node at any time. -/
theorem C168_one_executes (s : St) (h : Reachable s) (i j : Nat) (hi : Running (s.pcs i)) (hj : Running (s.pcs j)) : i = j :=
  (inv_reachable s h).one i j ((runs_iff _).2 hi) ((runs_iff _).2 hj)

/-- At most one thread uses the cache, and at most one the state. -/
theorem C168_cache_and_state (s : St) (h : Reachable s) (i j : Nat) :
    (UsesCache (s.pcs i) → UsesCache (s.pcs j) → i = j) ∧ (UsesState (s.pcs i) → UsesState (s.pcs j) → i = j) := by
  have hs := inv_reachable s h
  constructor
  · intro h1 h2
    have e1 := (hs.exec i).2 (by cases hp : s.pcs i <;> rw [hp] at h1 <;> simp_all [UsesCache, hasExec])
    have e2 := (hs.exec j).2 (by cases hp : s.pcs j <;> rw [hp] at h2 <;> simp_all [UsesCache, hasExec])
    have := e1.symm.trans e2
    injection this
  · intro h1 h2
    have e1 := (hs.state i).2 (by cases hp : s.pcs i <;> rw [hp] at h1 <;> simp_all [UsesState, hasState])
    have e2 := (hs.state j).2 (by cases hp : s.pcs j <;> rw [hp] at h2 <;> simp_all [UsesState, hasState])
    have := e1.symm.trans e2
    injection this

/-- The flag says whether the node is being executed. -/
theorem C168_flag (s : St) (h : Reachable s) : s.executing = true ↔ ∃ i, Running (s.pcs i) := by
  rw [(inv_reachable s h).flag]
  simp only [runs_iff]

/-- Two threads that want to execute the node: one is evaluating, without the mutexes, the other asleep; a third has the cache. -/
example : (run init [(0, .callExecute), (1, .callExecute), (2, .callHold), (0, .go), (0, .go), (0, .go), (1, .go), (0, .out), (2, .go)]).map
    (fun s => (s.pcs 0, s.pcs 1, s.pcs 2)) = some (.bodyOut, .waiting, .hHold) ∧ Running .bodyOut ∧ UsesCache .hHold :=
  ⟨by decide +kernel, by simp [Running], by simp [UsesCache]⟩

/-! ## C169: nobody waits for ever -/

/-- While any thread is in a call, some thread can go on, other than to sleep. -/
theorem C169_no_deadlock (s : St) (h : Reachable s) (j : Nat) (hj : s.pcs j ≠ .idle) :
    ∃ i s', s.pcs i ≠ .idle ∧ step s i .go = some s' ∧ s'.pcs i ≠ .waiting := by
  obtain ⟨i, s', h1, h2, h3⟩ := progress s (inv_reachable s h) j hj
  refine ⟨i, s', h1, h2, ?_⟩
  unfold step takeExec takeState at h2
  cases hp : s.pcs i <;> rw [hp] at h2 <;> dsimp only at h2 <;> (try (cases h2; done)) <;>
    first
    | (injection h2 with h2; subst h2; dsimp only; rw [put_same]; simp; done)
    | (split at h2
       · split at h2
         · rename_i hx; rw [h3 hp] at hx; cases hx
         · injection h2 with h2; subst h2; dsimp only; rw [put_same]; simp
       · cases h2)
    | (split at h2
       · injection h2 with h2; subst h2; dsimp only; rw [put_same]; simp
       · cases h2)

/-- However threads are scheduled, calls in progress come to an end unless threads go on starting calls, stopping, or waking for no
reason. -/
theorem C169_ends (f : Nat → St) (h0 : Reachable (f 0)) : ¬ ∀ k, ∃ i a, (a = .go ∨ a = .hit ∨ a = .alt) ∧ step (f k) i a = some (f (k + 1)) := by
  intro hinf
  obtain ⟨l, hl⟩ := h0
  obtain ⟨n, hn⟩ := reach_bound l init (f 0) 0 (fun _ _ => rfl) hl
  have key : ∀ k, meas n (f k) + k ≤ meas n (f 0) ∧ ∀ j, n ≤ j → (f k).pcs j = .idle := by
    intro k
    induction k with
    | zero => exact ⟨le_refl _, hn⟩
    | succ k ih =>
      obtain ⟨i, a, ha, hst⟩ := hinf k
      obtain ⟨m1, m2⟩ := meas_step n (f k) (f (k + 1)) i a ih.2 ha hst
      exact ⟨by have := ih.1; omega, m2⟩
  have := (key (meas n (f 0) + 1)).1
  omega

/-- From every reachable state the threads can finish: all outside, mutexes free, the node not executing. -/
theorem C169_finishes (s : St) (h : Reachable s) :
    ∃ l s', (∀ e ∈ l, e.2 = Act.go) ∧ run s l = some s' ∧ (∀ i, s'.pcs i = .idle) ∧ s'.exec = none ∧ s'.state = none ∧ s'.executing = false := by
  obtain ⟨l0, hl0⟩ := h
  obtain ⟨n, hn⟩ := reach_bound l0 init s 0 (fun _ _ => rfl) hl0
  have hinv := inv_run l0 init s inv_init hl0
  clear hl0
  generalize hm : meas n s = m
  induction m using Nat.strong_induction_on generalizing s with
  | h m ih =>
    by_cases hall : ∀ i, s.pcs i = .idle
    · refine ⟨[], s, fun e he => (by simp at he), rfl, hall, ?_, ?_, ?_⟩
      · cases he : s.exec with
        | none => rfl
        | some i => have := (hinv.exec i).1 he; rw [hall i] at this; cases this
      · cases he : s.state with
        | none => rfl
        | some i => have := (hinv.state i).1 he; rw [hall i] at this; cases this
      · cases he : s.executing with
        | false => rfl
        | true => obtain ⟨i, hi⟩ := hinv.flag.1 he; rw [hall i] at hi; cases hi
    · push Not at hall
      obtain ⟨j, hj⟩ := hall
      obtain ⟨i, s1, _, h2, _⟩ := progress s hinv j hj
      obtain ⟨m1, m2⟩ := meas_step n s s1 i .go hn (Or.inl rfl) h2
      obtain ⟨l, s', a1, a2, a3⟩ := ih (meas n s1) (by omega) s1 m2 (inv_step s s1 i .go hinv h2) rfl
      refine ⟨(i, .go) :: l, s', ?_, ?_, a3⟩
      · intro e he
        rcases List.mem_cons.1 he with rfl | he
        · rfl
        · exact a1 e he
      · unfold run
        rw [h2]
        exact a2

/-! ## C170: the control status under two mutexes -/

/-- The breakpoint flag of the status says whether there are breakpoints, when both threads are done. -/
def C170_full : Prop :=
  ∀ (bp : Nat) (cached : Bool) (l : List Bool), let x := runB bp ⟨false, cached, 0, .start, .start⟩ l
    x.s = .ended → x.h = .ended → x.flag = (x.mask != 0)

/-- False: a cache being cleared while a breakpoint is set, by another thread, takes the flag away again. -/
theorem C170_refuted : ¬ C170_full := by
  intro h
  have := h 1 true [false, true, true, false] rfl rfl
  revert this
  decide +kernel

/-- True if there is no cache to be cleared, or if one of the two ends before the other starts. -/
theorem C170_status_partial (bp : Nat) (cached : Bool) (l : List Bool) (hend : (runB bp ⟨false, cached, 0, .start, .start⟩ l).s = .ended)
    (hc : cached = false ∨ ∃ a b, l = a ++ b ∧ ((runB bp ⟨false, cached, 0, .start, .start⟩ a).s = .ended ∧ (runB bp ⟨false, cached, 0, .start, .start⟩ a).h = .start ∨
      (runB bp ⟨false, cached, 0, .start, .start⟩ a).h = .ended ∧ (runB bp ⟨false, cached, 0, .start, .start⟩ a).s = .start)) :
    (runB bp ⟨false, cached, 0, .start, .start⟩ l).flag = ((runB bp ⟨false, cached, 0, .start, .start⟩ l).mask != 0) := by
  rcases hc with hc | ⟨a, b, rfl, hc⟩
  · -- without a cache the second thread writes nothing
    have key : ∀ (l : List Bool) (x : Sh), x.cached = false → (x.h = .start ∨ x.h = .ended) →
        (x.s = .start → x.mask = 0 ∧ x.flag = false) → (∀ f c, x.s = .read f c → f = (x.mask != 0) ∧ c = false) → (x.s = .ended → x.flag = (x.mask != 0)) →
        (runB bp x l).s = .ended → (runB bp x l).flag = ((runB bp x l).mask != 0) := by
      intro l
      induction l with
      | nil => intro x _ _ _ _ h3 h; exact h3 h
      | cons e l ih =>
        intro x hx hh h1 h2 h3
        obtain ⟨fl, ca, ma, ss, hs⟩ := x
        dsimp only at hx hh h1 h2 h3
        subst hx
        cases e with
        | true =>
          unfold runB
          cases ss with
          | start =>
            refine ih _ rfl hh (fun h => by cases h) ?_ (fun h => by cases h)
            intro f c h
            injection h with h4 h5
            exact ⟨h4.symm, h5.symm⟩
          | read f c =>
            obtain ⟨rfl, rfl⟩ := h2 f c rfl
            exact ih _ rfl hh (fun h => by cases h) (fun f c h => by cases h) (fun _ => rfl)
          | ended => exact ih _ rfl hh h1 h2 h3
        | false =>
          unfold runB
          rcases hh with rfl | rfl
          · exact ih _ rfl (Or.inr rfl) h1 h2 h3
          · exact ih _ rfl (Or.inr rfl) h1 h2 h3
    subst hc
    exact key l _ rfl (Or.inl rfl) (fun _ => ⟨rfl, rfl⟩) (fun f c h => by cases h) (fun h => by cases h) hend
  · have happ : ∀ (a b : List Bool) (x : Sh), runB bp x (a ++ b) = runB bp (runB bp x a) b := by
      intro a b
      induction a with
      | nil => intro x; rfl
      | cons e a ih => intro x; cases e <;> exact ih _
    rw [happ] at hend ⊢
    -- invariants of the first phase
    have hs0 : ∀ (a : List Bool) (x : Sh), (runB bp x a).s = .start → x.s = .start := by
      intro a
      induction a with
      | nil => intro x h; exact h
      | cons e a ih =>
        intro x h
        cases e with
        | true =>
          have := ih _ h
          unfold stepS at this
          cases hx : x.s <;> rw [hx] at this <;> simp_all
        | false =>
          have := ih _ h
          unfold stepH at this
          cases hx : x.h <;> rw [hx] at this <;> simp_all
          split at this <;> simpa using this
    have hh0 : ∀ (a : List Bool) (x : Sh), (runB bp x a).h = .start → x.h = .start := by
      intro a
      induction a with
      | nil => intro x h; exact h
      | cons e a ih =>
        intro x h
        cases e with
        | true =>
          have := ih _ h
          unfold stepS at this
          cases hx : x.s <;> rw [hx] at this <;> simp_all
        | false =>
          have := ih _ h
          unfold stepH at this
          cases hx : x.h <;> rw [hx] at this <;> simp_all
    have g1 : ∀ (a : List Bool) (x : Sh), (x.s = .start → x.mask = 0 ∧ x.flag = false) → (∀ f c, x.s = .read f c → f = (x.mask != 0)) →
        (x.s = .ended → x.flag = (x.mask != 0)) → (runB bp x a).h = .start → ((runB bp x a).s = .ended → (runB bp x a).flag = ((runB bp x a).mask != 0)) := by
      intro a
      induction a with
      | nil => intro x _ _ h3 _ h; exact h3 h
      | cons e a ih =>
        intro x h1 h2 h3 hh
        obtain ⟨fl, ca, ma, ss, hs⟩ := x
        dsimp only at h1 h2 h3
        cases e with
        | true =>
          unfold runB at hh ⊢
          cases ss with
          | start => exact ih _ (fun h => by cases h) (fun f c h => by injection h with h4; exact h4.symm) (fun h => by cases h) hh
          | read f c =>
            have := h2 f c rfl
            exact ih _ (fun h => by cases h) (fun f c h => by cases h) (fun _ => this) hh
          | ended => exact ih _ h1 h2 h3 hh
        | false =>
          exfalso
          unfold runB at hh
          have := hh0 _ _ hh
          unfold stepH at this
          cases hs <;> simp at this
          split at this <;> cases this
    have g2 : ∀ (a : List Bool) (x : Sh), x.mask = 0 → x.flag = false → (∀ f c, x.h = .read f c → f = false) → (runB bp x a).s = .start →
        (runB bp x a).mask = 0 ∧ (runB bp x a).flag = false := by
      intro a
      induction a with
      | nil => intro x h1 h2 _ _; exact ⟨h1, h2⟩
      | cons e a ih =>
        intro x h1 h2 h3 hh
        obtain ⟨fl, ca, ma, ss, hs⟩ := x
        dsimp only at h1 h2 h3
        cases e with
        | true =>
          exfalso
          unfold runB at hh
          have := hs0 _ _ hh
          unfold stepS at this
          cases ss <;> simp at this
        | false =>
          unfold runB at hh ⊢
          cases hs with
          | start =>
            unfold stepH at hh ⊢
            dsimp only at hh ⊢
            cases ca with
            | true => exact ih _ h1 h2 (fun f c h => by injection h with h4; rw [← h4]; exact h2) hh
            | false => exact ih _ h1 h2 (fun f c h => by cases h) hh
          | read f c => exact ih _ h1 (h3 f c rfl) (fun f c h => by cases h) hh
          | ended => exact ih _ h1 h2 h3 hh
    rcases hc with ⟨c1, c2⟩ | ⟨c1, c2⟩
    · -- the breakpoint first: the other thread keeps the flag it reads
      have hf := g1 a ⟨false, cached, 0, .start, .start⟩ (fun _ => ⟨rfl, rfl⟩) (fun f c h => by cases h) (fun h => by cases h) c2 c1
      have key : ∀ (l : List Bool) (x : Sh), x.s = .ended → x.flag = (x.mask != 0) → (∀ f c, x.h = .read f c → f = x.flag) →
          (runB bp x l).flag = ((runB bp x l).mask != 0) := by
        intro l
        induction l with
        | nil => intro x _ h _; exact h
        | cons e l ih =>
          intro x h1 h2 h3
          obtain ⟨fl, ca, ma, ss, hs⟩ := x
          dsimp only at h1 h2 h3
          subst h1
          cases e with
          | true => exact ih _ rfl h2 h3
          | false =>
            unfold runB
            cases hs with
            | start =>
              unfold stepH
              dsimp only
              cases ca with
              | true => exact ih _ rfl h2 (fun f c h => by injection h with h4; exact h4.symm)
              | false => exact ih _ rfl h2 (fun f c h => by cases h)
            | read f c =>
              have := h3 f c rfl
              exact ih _ rfl (by dsimp only [stepH]; rw [this]; exact h2) (fun f c h => by cases h)
            | ended => exact ih _ rfl h2 h3
      exact key b _ c1 hf (fun f c h => by rw [c2] at h; cases h)
    · obtain ⟨m0, f0⟩ := g2 a ⟨false, cached, 0, .start, .start⟩ rfl rfl (fun f c h => by cases h) c2
      have key : ∀ (l : List Bool) (x : Sh), x.h = .ended → (x.s = .start → x.mask = 0 ∧ x.flag = false) → (∀ f c, x.s = .read f c → f = (x.mask != 0)) →
          (x.s = .ended → x.flag = (x.mask != 0)) → (runB bp x l).s = .ended → (runB bp x l).flag = ((runB bp x l).mask != 0) := by
        intro l
        induction l with
        | nil => intro x _ _ _ h3 h; exact h3 h
        | cons e l ih =>
          intro x h1 h2 h3 h4
          obtain ⟨fl, ca, ma, ss, hs⟩ := x
          dsimp only at h1 h2 h3 h4
          subst h1
          cases e with
          | true =>
            unfold runB
            cases ss with
            | start => exact ih _ rfl (fun h => by cases h) (fun f c h => by injection h with h5; exact h5.symm) (fun h => by cases h)
            | read f c =>
              have := h3 f c rfl
              exact ih _ rfl (fun h => by cases h) (fun f c h => by cases h) (fun _ => this)
            | ended => exact ih _ rfl h2 h3 h4
          | false => exact ih _ rfl h2 h3 h4
      exact key b _ c1 (fun _ => ⟨m0, f0⟩) (fun f c h => by rw [c2] at h; cases h) (fun h => by rw [c2] at h; cases h) hend

example : (runB 5 ⟨false, true, 0, .start, .start⟩ [true, true, false, false]) = ⟨true, false, 5, .ended, .ended⟩ := by decide +kernel

end Verif.NodeLock
