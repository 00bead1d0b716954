import Verif.Proof.Threads
import Mathlib.Algebra.Order.Floor.Ring
import Mathlib.Tactic.Linarith
/-! # Properties of locks and condition variables (C174–C177) -/
namespace Verif.Threads

/-! ## C174: lock objects -/

/-- C174: whatever a number of threads do with lock objects, an object that says it is locked has its thread holding the mutex, and
no two objects of different threads say so of one mutex. -/
def C174_full : Prop := ∀ (n : Nat) (th : Nat → Nat) (l : List LOp) (s : Locks), (∀ k, th k < n) → lrun n th Locks.init l = some s →
  (∀ k m, s.obj k = some m → s.held m (th k) ≠ 0) ∧ (∀ k k' m, s.obj k = some m → s.obj k' = some m → th k = th k')

/-- One thread locks, another tries: both objects say they are locked. -/
theorem C174_refuted : ¬ C174_full := by
  intro h
  have h1 := h 2 (fun k => k % 2) [.make 0 7 false, .make 1 7 true] _ (fun k => Nat.mod_lt _ (by omega)) rfl
  exact absurd (h1.2 0 1 7 rfl rfl) (by decide)

/-- C174 as far as it holds: without `TRY`.  Besides, a mutex is held as often as objects say so: nothing is held for ever. -/
theorem C174_partial (n : Nat) (th : Nat → Nat) (N : Nat) (l : List LOp) (s : Locks) (hth : ∀ k, th k < n) (hl : ∀ o ∈ l, NoTry o ∧ On N o)
    (h : lrun n th Locks.init l = some s) :
    (∀ k m, s.obj k = some m → s.held m (th k) ≠ 0) ∧ (∀ k k' m, s.obj k = some m → s.obj k' = some m → th k = th k') ∧
    (∀ m t, s.held m t = pointing th s m t N) ∧ (∀ m t u, t < n → u < n → s.held m t ≠ 0 → s.held m u ≠ 0 → t = u) := by
  have hi := linv_run n th N l _ s hl (linv_start n th N) h
  have h1 : ∀ k m, s.obj k = some m → s.held m (th k) ≠ 0 := by
    intro k m hk
    have hkN : k < N := by
      by_contra hc
      rw [hi.out k (by omega)] at hk
      cases hk
    rw [hi.count]
    have := pointing_pos th s m k N hkN hk
    omega
  exact ⟨h1, fun k k' m hk hk' => hi.excl m _ _ (hth k) (hth k') (h1 k m hk) (h1 k' m hk'), hi.count, hi.excl⟩

/-- What the operations do when nobody else is in the way: the object points to the mutex and its thread holds it once more. -/
theorem C174_locks (n : Nat) (th : Nat → Nat) (s : Locks) (l m : Nat) (hl : s.obj l = none) (hf : ∀ u, u < n → u ≠ th l → s.held m u = 0) :
    ∃ s', lstep n th s (.make l m false) = some s' ∧ s'.obj l = some m ∧ s'.held m (th l) = s.held m (th l) + 1 ∧ (∀ k, k ≠ l → s'.obj k = s.obj k) := by
  have hp : ∃ s1, plock n s m (th l) = some s1 := by
    unfold plock
    rw [if_neg]
    · exact ⟨_, rfl⟩
    · rw [List.any_eq_true]
      rintro ⟨u, hu, hc⟩
      have hu' := List.mem_range.1 hu
      simp only [Bool.and_eq_true, decide_eq_true_eq] at hc
      exact hc.2 (hf u hu' hc.1)
  obtain ⟨s1, hs1⟩ := hp
  obtain ⟨p1, p2, -⟩ := plock_spec n s s1 m (th l) hs1
  refine ⟨setObj s1 l (some m), ?_, upd_same _ _ _, ?_, fun k hk => ?_⟩
  · unfold lstep initLock
    simp only [hl, if_true, hs1]
    simp
  · exact (p2 m (th l)).trans (by simp)
  · exact (upd_other _ _ _ _ hk).trans (by rw [p1])

/-- It waits if another thread holds the mutex. -/
theorem C174_waits (n : Nat) (th : Nat → Nat) (s : Locks) (l m u : Nat) (hu : u < n) (hne : u ≠ th l) (hh : s.held m u ≠ 0) :
    lstep n th s (.make l m false) = none := by
  have hp : plock n s m (th l) = none := by
    unfold plock
    exact if_pos (List.any_eq_true.2 ⟨u, List.mem_range.2 hu, by simp [hne, hh]⟩)
  unfold lstep initLock
  dsimp only
  rw [hp]
  split <;> rfl

/-- Releasing an object that is locked: it says so no more, and its thread holds the mutex once less. -/
theorem C174_release (n : Nat) (th : Nat → Nat) (s : Locks) (l m : Nat) (ho : s.obj l = some m) (hh : s.held m (th l) ≠ 0) :
    ∃ s', lstep n th s (.release l) = some s' ∧ s'.obj l = none ∧ s'.held m (th l) + 1 = s.held m (th l) ∧ (∀ k, k ≠ l → s'.obj k = s.obj k) := by
  refine ⟨_, rfl, upd_same _ _ _, ?_, fun k hk => ?_⟩
  · rw [ho]
    refine Eq.trans (congrArg (· + 1) (held_upd s.held m (th l) _ m (th l))) ?_
    simp
    omega
  · rw [ho]; exact upd_other _ _ _ _ hk

/-- Moving an object to another mutex, in the three ways there are, or copying it: the object then says it holds that mutex, and the others
are left alone. -/
theorem C174_moves (n : Nat) (th : Nat → Nat) (s s' : Locks) (o : LOp) (l m : Nat) (h : lstep n th s o = some s')
    (ho : o = .relock l m ∨ o = .lock l m ∨ ∃ k, s.obj k = some m ∧ (o = .assign l k ∨ o = .copy l k)) : s'.obj l = some m ∧ ∀ k, k ≠ l → s'.obj k = s.obj k := by
  have hinit : ∀ s0 s1 : Locks, initLock n s0 l m (th l) false = some s1 → s1.obj = upd s0.obj l (some m) := by
    intro s0 s1 h1
    unfold initLock at h1
    rw [if_neg (by simp)] at h1
    cases hp : plock n s0 m (th l) with
    | none => rw [hp] at h1; cases h1
    | some s2 =>
      rw [hp] at h1
      cases h1
      show upd s2.obj l (some m) = _
      rw [(plock_spec n s0 s2 m (th l) hp).1]
  have hun : ∀ (s0 : Locks) (p : Option Nat) (t : Nat), (unlockObj s0 p t).obj = s0.obj := by
    intro s0 p t; cases p <;> rfl
  rcases ho with rfl | rfl | ⟨k, hk, rfl | rfl⟩
  · unfold lstep at h
    dsimp only at h
    cases hi : initLock n s l m (th l) false with
    | none => rw [hi] at h; cases h
    | some s1 =>
      rw [hi] at h
      cases h
      dsimp only
      rw [hun, hinit s s1 hi]
      exact ⟨upd_same _ _ _, fun k hk => upd_other _ _ _ _ hk⟩
  · rw [hinit _ s' h]
    refine ⟨upd_same _ _ _, fun k hk => ?_⟩
    rw [upd_other _ _ _ _ hk]
    refine (upd_other _ _ _ _ hk).trans ?_
    rw [hun]
  · unfold lstep at h
    dsimp only at h
    rw [hk] at h
    dsimp only at h
    rw [hinit _ s' h, hun]
    exact ⟨upd_same _ _ _, fun k hk => upd_other _ _ _ _ hk⟩
  · unfold lstep at h
    dsimp only at h
    rw [hk] at h
    dsimp only at h
    split at h
    · rw [hinit _ s' h]
      exact ⟨upd_same _ _ _, fun k hk => upd_other _ _ _ _ hk⟩
    · cases h

example : (lrun 2 (fun k => k % 2) Locks.init [.make 0 7 false, .make 2 8 false, .copy 4 0, .relock 2 7, .release 0, .lock 4 8, .make 1 9 false, .assign 2 4]).map
    (fun s => (s.held 7 0, s.held 8 0, s.held 9 1, s.obj 2)) = some (0, 2, 1, some 8) := by decide
example : (lrun 2 (fun k => k % 2) Locks.init [.make 0 7 false, .make 1 7 false]).isNone := by decide

/-! ## C175: waiting with a timeout -/

/-- C175: a wait with a timeout, if nobody wakes the thread, ends when the timeout is over, within a nanosecond. -/
def C175_full : Prop := ∀ (sec usec : Int) (timeout : ℚ), 0 ≤ usec → usec < 1000000 → 0 ≤ timeout →
  ∃ t, waitFor sec usec timeout = .at t ∧ (t : ℚ) ≤ sec * 1000000000 + usec * 1000 + timeout * 1000000000 ∧ (sec * 1000000000 + usec * 1000 + timeout * 1000000000 : ℚ) < t + 1

/-- Half a second, begun at half past a second: the wait ends at once. -/
theorem C175_refuted : ¬ C175_full := by
  intro h
  obtain ⟨t, ht, -⟩ := h 100 500000 (1 / 2) (by norm_num) (by norm_num) (by norm_num)
  have : waitFor 100 500000 (1 / 2) = .atOnce := by decide +kernel
  rw [this] at ht
  cases ht

/-- C175 as far as it holds: it does if the fraction of a second now and the fraction in the timeout come to less than a second;
otherwise the wait ends at once. -/
theorem C175_partial (sec usec : Int) (timeout : ℚ) (h0 : 0 ≤ usec) (_ht : 0 ≤ timeout) :
    ((usec * 1000 : ℚ) + Int.fract timeout * 1000000000 < 1000000000 →
      ∃ t, waitFor sec usec timeout = .at t ∧ (t : ℚ) ≤ sec * 1000000000 + usec * 1000 + timeout * 1000000000 ∧ (sec * 1000000000 + usec * 1000 + timeout * 1000000000 : ℚ) < t + 1) ∧
    (1000000000 ≤ (usec * 1000 : ℚ) + Int.fract timeout * 1000000000 → waitFor sec usec timeout = .atOnce) := by
  have hfr : timeout - ⌊timeout⌋ = Int.fract timeout := Int.self_sub_floor timeout
  have hf0 := Int.fract_nonneg timeout
  have hsum := Int.floor_add_fract timeout
  generalize hk : ⌊Int.fract timeout * 1000000000⌋ = k
  have hk1 : (k : ℚ) ≤ Int.fract timeout * 1000000000 := by rw [← hk]; exact Int.floor_le _
  have hk2 : Int.fract timeout * 1000000000 < k + 1 := by rw [← hk]; exact Int.lt_floor_add_one _
  have hk0 : 0 ≤ k := by rw [← hk]; exact Int.floor_nonneg.2 (by linarith)
  constructor
  · intro h
    have hlt : usec * 1000 + k < 1000000000 := by
      have : ((usec * 1000 + k : Int) : ℚ) < ((1000000000 : Int) : ℚ) := by push_cast; linarith
      exact_mod_cast this
    refine ⟨(sec + ⌊timeout⌋) * 1000000000 + (usec * 1000 + k), ?_, ?_, ?_⟩
    · unfold waitFor waitInt
      rw [hfr, hk, if_pos ⟨by omega, hlt⟩]
    · push_cast; nlinarith
    · push_cast; nlinarith
  · intro h
    have hge : 1000000000 ≤ usec * 1000 + k := by
      have h1 : ((1000000000 - usec * 1000 : Int) : ℚ) ≤ Int.fract timeout * 1000000000 := by push_cast; linarith
      have := Int.le_floor.2 h1
      rw [hk] at this
      omega
    unfold waitFor waitInt
    rw [hfr, hk, if_neg (by omega)]

example : waitFor 100 250000 (5 / 2) = .at 102750000000 := by decide +kernel
example : waitFor 100 750000 (5 / 2) = .atOnce := by decide +kernel

/-! ## C176: reading and writing exclude each other -/

/-- C176: whatever the schedule, upgrades, downgrades, spurious wake-ups and nested locks included, while a thread has a write lock no
other thread has a lock. -/
theorem C176 (n : Nat) (s : SL) (h : Reachable n s) (i j : Nat) (hi : i < n) (hj : j < n) (hij : i ≠ j) (hw : 0 < s.wh i) : s.rh j = 0 ∧ s.wh j = 0 :=
  (sinv_reachable _ n s h).excl i j hi hj hij hw

/-- A thread that asks to read goes on exactly if no other thread has a write lock (no downgrades); then it has one more read lock. -/
theorem C176_read (n : Nat) (s : SL) (h : ReachableBy NoDowngrade n s) (i : Nat) (hi : i < n) (hp : s.pcs i = .wantR) :
    ((∀ j, j < n → j ≠ i → s.wh j = 0) → ∃ s', sstep n s i .go = some s' ∧ s'.pcs i = .idle ∧ s'.rh i = s.rh i + 1 ∧ s'.wh = s.wh) ∧
    ((∃ j, j < n ∧ j ≠ i ∧ 0 < s.wh j) → ∃ s', sstep n s i .go = some s' ∧ s'.pcs i = .sleepR ∧ s'.rh = s.rh ∧ s'.wh = s.wh) := by
  obtain ⟨hs, hw⟩ := winv_reachable n s h
  unfold sstep
  rw [if_pos hi, hp]
  dsimp only
  constructor
  · intro hno
    rw [if_neg]
    · exact ⟨_, rfl, upd_same _ _ _, upd_same _ _ _, rfl⟩
    · rintro ⟨h1, h2⟩
      rw [hs.sumw] at h2
      obtain ⟨k, hk, hpos⟩ := tot_pos n _ h2
      by_cases hki : k = i
      · subst hki; exact h1 (hw k hk hpos)
      · have := hno k hk hki; omega
  · rintro ⟨j, hj, hji, hpos⟩
    rw [if_pos]
    · exact ⟨_, rfl, upd_same _ _ _, rfl, rfl⟩
    · have h1 := hw j hj hpos
      refine ⟨?_, ?_⟩
      · rw [h1]; intro hc; injection hc with hc; exact hji hc
      · have h2 := tot_le n s.wh j hj
        rw [hs.sumw]; omega

/-- A thread that asks to write goes on exactly if it has a write lock already, or nobody has any lock (no downgrades). -/
theorem C176_write (n : Nat) (s : SL) (h : ReachableBy NoDowngrade n s) (i : Nat) (hi : i < n) (hp : s.pcs i = .wantW) :
    ((0 < s.wh i ∨ ∀ j, j < n → s.rh j = 0 ∧ s.wh j = 0) → ∃ s', sstep n s i .go = some s' ∧ s'.pcs i = .idle ∧ s'.wh i = s.wh i + 1 ∧ s'.rh = s.rh) ∧
    ((s.wh i = 0 ∧ ∃ j, j < n ∧ (0 < s.rh j ∨ 0 < s.wh j)) → ∃ s', sstep n s i .go = some s' ∧ s'.pcs i = .sleepW ∧ s'.rh = s.rh ∧ s'.wh = s.wh) := by
  obtain ⟨hs, hw⟩ := winv_reachable n s h
  unfold sstep
  rw [if_pos hi, hp]
  dsimp only
  constructor
  · rintro (h1 | h1)
    · rw [if_pos (hw i hi h1)]
      exact ⟨_, rfl, upd_same _ _ _, upd_same _ _ _, rfl⟩
    · rw [if_neg, if_neg]
      · exact ⟨_, rfl, upd_same _ _ _, upd_same _ _ _, rfl⟩
      · rw [hs.sumr, hs.sumw, tot_zero n _ fun j hj => (h1 j hj).1, tot_zero n _ fun j hj => (h1 j hj).2]
        simp
      · intro hc
        have h2 := (hs.wr i hc).2
        have h3 := (h1 i hi).2
        omega
  · rintro ⟨h0, j, hj, hpos⟩
    rw [if_neg, if_pos]
    · exact ⟨_, rfl, upd_same _ _ _, rfl, rfl⟩
    · rw [hs.sumr, hs.sumw]
      have h1 := tot_le n s.rh j hj
      have h2 := tot_le n s.wh j hj
      omega
    · intro hc
      have := (hs.wr i hc).2
      omega

/-- A thread with one read lock that asks to upgrade goes on exactly if no other thread has a lock (no downgrades); then it has a
write lock instead. -/
theorem C176_upgrade (n : Nat) (s : SL) (h : ReachableBy NoDowngrade n s) (i : Nat) (hi : i < n) (hp : s.pcs i = .wantU) (h1 : s.rh i = 1) (h0 : s.wh i = 0) :
    ((∀ j, j < n → j ≠ i → s.rh j = 0 ∧ s.wh j = 0) → ∃ s', sstep n s i .go = some s' ∧ s'.pcs i = .idle ∧ s'.wh i = 1 ∧ s'.rh i = 0) ∧
    ((∃ j, j < n ∧ j ≠ i ∧ (0 < s.rh j ∨ 0 < s.wh j)) → ∃ s', sstep n s i .go = some s' ∧ s'.pcs i = .sleepU ∧ s'.rh = s.rh ∧ s'.wh = s.wh) := by
  obtain ⟨hs, hw⟩ := winv_reachable n s h
  have hnw : ¬ s.writer = some i := by
    intro hc
    have := (hs.wr i hc).2
    omega
  unfold sstep
  rw [if_pos hi, hp]
  dsimp only
  rw [if_neg hnw]
  constructor
  · intro hno
    rw [if_neg]
    · exact ⟨_, rfl, upd_same _ _ _, (upd_same _ _ _).trans (by omega), (upd_same _ _ _).trans (by omega)⟩
    · have e1 : tot n s.rh = 1 := by
        have h2 := tot_upd n s.rh i 0 hi
        have h3 : tot n (upd s.rh i 0) = 0 := tot_zero n _ fun j hj => by
          by_cases hc : j = i
          · subst hc; exact upd_same _ _ _
          · rw [upd_other _ _ _ _ hc]; exact (hno j hj hc).1
        omega
      have e2 : tot n s.wh = 0 := tot_zero n _ fun j hj => by
        by_cases hc : j = i
        · subst hc; exact h0
        · exact (hno j hj hc).2
      rw [hs.sumr, hs.sumw, e1, e2]
      simp
  · rintro ⟨j, hj, hji, hpos⟩
    rw [if_pos]
    · exact ⟨_, rfl, upd_same _ _ _, rfl, rfl⟩
    · rw [hs.sumr, hs.sumw]
      have h1 := tot_two n s.rh i j hi hj hji
      have h2 := tot_le n s.wh j hj
      omega

/-- Locks given back are gone: the thread has one less. -/
theorem C176_back (n : Nat) (s s' : SL) (i : Nat) (w : Option Nat) :
    (sstep n s i (.runlock w) = some s' → s'.rh i + 1 = s.rh i ∧ s'.wh = s.wh) ∧ (sstep n s i (.wunlock w) = some s' → s'.wh i + 1 = s.wh i ∧ s'.rh = s.rh) := by
  constructor
  · intro h
    unfold sstep at h
    split at h
    swap
    · cases h
    cases hp : s.pcs i <;> rw [hp] at h <;> dsimp only at h <;> try (cases h; done)
    split at h
    swap
    · cases h
    rename_i hpos
    split at h
    · obtain ⟨-, -, -, e4, e5⟩ := signal_fields n _ s' _ h
      exact ⟨by rw [e4]; dsimp only; rw [upd_same]; omega, e5⟩
    · cases h
      exact ⟨by dsimp only; rw [upd_same]; omega, rfl⟩
  · intro h
    unfold sstep at h
    split at h
    swap
    · cases h
    cases hp : s.pcs i <;> rw [hp] at h <;> dsimp only at h <;> try (cases h; done)
    split at h
    swap
    · cases h
    rename_i hpos
    split at h
    · obtain ⟨-, -, -, e4, e5⟩ := signal_fields n _ s' _ h
      exact ⟨by rw [e5]; dsimp only; rw [upd_same]; omega, e4⟩
    · cases h
      exact ⟨by dsimp only; rw [upd_same]; omega, rfl⟩

/-- A write lock downgraded is a read lock. -/
theorem C176_downgrade (n : Nat) (s s' : SL) (h : Reachable n s) (i : Nat) (w : Option Nat) (hw : s.writer = some i) (hst : sstep n s i (.downgrade w) = some s') :
    s'.wh i + 1 = s.wh i ∧ s'.rh i = s.rh i + 1 := by
  have hpos := ((sinv_reachable _ n s h).wr i hw).2
  unfold sstep at hst
  split at hst
  swap
  · cases hst
  cases hp : s.pcs i <;> rw [hp] at hst <;> dsimp only at hst <;> try (cases hst; done)
  obtain ⟨-, -, -, e4, e5⟩ := signal_fields n _ s' _ hst
  exact ⟨by rw [e5]; dsimp only; rw [upd_same]; omega, by rw [e4]; dsimp only; rw [upd_same]⟩

/-- Two readers at once; one goes, the other upgrades and then has the lock to itself. -/
example : (srun 2 SL.init [(0, .rlock), (0, .go), (1, .rlock), (1, .go), (0, .runlock none), (1, .upgrade), (1, .go), (0, .rlock), (0, .go)]).map
    (fun s => (s.rh 0, s.rh 1, s.wh 1, s.pcs 0)) = some (0, 0, 1, .sleepR) := by decide

/-- By the way: a thread with two write locks that downgrades one of them waits for itself when it asks to read. -/
example : (srun 1 SL.init [(0, .wlock), (0, .go), (0, .wlock), (0, .go), (0, .downgrade none), (0, .rlock), (0, .go)]).map
    (fun s => (s.rh 0, s.wh 0, s.pcs 0)) = some (1, 1, .sleepR) := by decide

/-! ## C177: sleepers are woken -/

/-- C177: whatever the schedule, a thread that is asleep though it could have the lock is not forgotten: some thread is awake in a call. -/
def C177_full : Prop := ∀ (n : Nat) (s : SL), Reachable n s → ∀ i, i < n → Asleep (s.pcs i) →
  (∀ s1 s2, sstep n s i .wake = some s1 → sstep n s1 i .go = some s2 → Asleep (s2.pcs i)) ∨ ∃ j, j < n ∧ Awake (s.pcs j)

/-- Two readers; one upgrades and has to wait for the other; the other gives its lock back, which wakes nobody. -/
theorem C177_refuted : ¬ C177_full := by
  intro h
  have h1 := h 2 _ ⟨[(0, .rlock), (0, .go), (1, .rlock), (1, .go), (0, .upgrade), (0, .go), (1, .runlock none)], by simp, rfl⟩ 0 (by omega) (by simp [Asleep, upd])
  rcases h1 with h1 | ⟨j, hj, hw⟩
  · have := h1 _ _ rfl rfl
    simp [Asleep, upd] at this
  · have : j = 0 ∨ j = 1 := by omega
    rcases this with rfl | rfl <;> simp [Awake, upd] at hw

/-- Nor is it so without upgrades: two readers wait for a writer, which wakes only one of them. -/
theorem C177_refuted_readers : ∃ s, ReachableBy (fun a => a ≠ .upgrade ∧ ∀ w, a ≠ .downgrade w) 3 s ∧ s.pcs 2 = .sleepR ∧ (∀ i, i < 3 → s.wh i = 0) ∧ ∀ i, i < 3 → ¬ Awake (s.pcs i) := by
  refine ⟨_, ⟨[(0, .wlock), (0, .go), (1, .rlock), (1, .go), (2, .rlock), (2, .go), (0, .wunlock (some 1)), (1, .go)], by simp, rfl⟩, by simp [upd], ?_, ?_⟩
  · intro i hi
    have : i = 0 ∨ i = 1 ∨ i = 2 := by omega
    rcases this with rfl | rfl | rfl <;> simp [upd, SL.init]
  · intro i hi
    have : i = 0 ∨ i = 1 ∨ i = 2 := by omega
    rcases this with rfl | rfl | rfl <;> simp [upd, Awake]

/-- C177 as far as it holds: nobody sleeps at a lock that nobody has, unless some thread is awake in a call. -/
theorem C177_partial (n : Nat) (s : SL) (h : Reachable n s) (i : Nat) (hi : i < n) (hsl : Asleep (s.pcs i)) :
    ∃ j, j < n ∧ (Awake (s.pcs j) ∨ 0 < s.rh j ∨ 0 < s.wh j) := by
  have hs := sinv_reachable _ n s h
  rcases ninv_reachable _ n s h ⟨i, hi, hsl⟩ with ⟨j, hj, hw⟩ | h1 | h1
  · exact ⟨j, hj, Or.inl hw⟩
  · rw [hs.sumr] at h1
    obtain ⟨j, hj, hp⟩ := tot_pos n _ h1
    exact ⟨j, hj, Or.inr (Or.inl hp)⟩
  · rw [hs.sumw] at h1
    obtain ⟨j, hj, hp⟩ := tot_pos n _ h1
    exact ⟨j, hj, Or.inr (Or.inr hp)⟩

example : (srun 3 SL.init [(0, .wlock), (0, .go), (1, .rlock), (1, .go), (2, .wlock), (2, .go), (0, .wunlock (some 2)), (2, .go), (2, .wunlock (some 1)), (1, .go)]).map
    (fun s => (s.rh 1, s.wh 2, s.pcs 1)) = some (1, 0, .idle) := by decide

end Verif.Threads
