import Verif.Proof.SolveWorkersLive
import Verif.Spec.SolveWorkers
/-! # C131 - C133: the solver's worker threads -/
namespace Verif.SolveWorkers
variable {S X : Type} {zero : S} {N : Nat}

/-! ## Lemmas -/

theorem call_core (hN : 0 < N) {s s' : St S X} {subs fit acts} (c : Call zero N s subs fit acts s') :
    s'.rets = s.rets ++ [retOf s'] ∧ Core zero fit subs [] s'.num s'.conv s'.exc s'.subs ∧ (s'.num = subs.length ∨ s'.exc ≠ []) := by
  obtain ⟨hb, hp⟩ := call_phase hN c
  have h := hp.2
  have hc := c.back
  rw [hc] at h
  dsimp only at h
  have hj : jobs s'.m s'.w = [] := by
    rw [hc]; simp only [jobs, jobM]; rw [jobs_quiet hb (hb.quiet (by rw [hc]; trivial))]; rfl
  have := h.2.1
  unfold CoreS at this
  rw [hj] at this
  exact ⟨h.1, this, h.2.2⟩

theorem out_error {fit : Nat → Except X (S × Bool)} {subs : List (SolveLoop.Sub S)} {j : Nat} {e : X} :
    out zero fit subs j = .error e ↔ Throws fit subs j e := by
  unfold out Throws trySolve
  rcases h : subs[j]? with _ | a
  · simp
  · dsimp only
    rcases hc : a.converged with _ | _
    · by_cases hn : a.neq = 0
      · simp [hc, hn]
      · have : (a.neq == 0) = false := by simpa using hn
        rw [this]
        simp only [Bool.or_false, Bool.false_eq_true, if_false]
        rcases hf : fit j with e' | ⟨x, r⟩ <;> simp [hc, hn]
    · simp [hc]

theorem isE_iff [DecidableEq X] {e : X} {r : Except X Bool} : isE e r = true ↔ r = .error e := by
  cases r <;> simp [isE]

theorem after_of {fit : Nat → Except X (S × Bool)} {subs : List (SolveLoop.Sub S)} {j : Nat} {a : SolveLoop.Sub S} (h : subs[j]? = some a)
    (hne : ∀ e, ¬ Throws fit subs j e) : After zero fit j a (trySolve zero fit j a).1 (isT (out zero fit subs j)) := by
  have ho : out zero fit subs j = (trySolve zero fit j a).2 := by unfold out; rw [h]
  rw [ho]
  unfold After trySolve
  rcases hc : a.converged with _ | _
  · by_cases hn : a.neq = 0
    · left; simp [hn, isT]
    · right
      have : (a.neq == 0) = false := by simpa using hn
      rw [this]
      simp only [Bool.or_false, Bool.false_eq_true, if_false]
      rcases hf : fit j with e' | ⟨x, r⟩
      · exact absurd ⟨a, h, hc, hn, hf⟩ (hne e')
      · exact ⟨⟨trivial, hn⟩, x, by cases r <;> simp [isT], by cases r <;> simp [isT]⟩
  · left; simp [isT]

theorem ok_of_no_throw (hN : 0 < N) {s s' : St S X} {subs fit acts} (c : Call zero N s subs fit acts s') (hok : ∀ j e, ¬ Throws fit subs j e) :
    s'.exc = [] := by
  obtain ⟨_, hc, _⟩ := call_core hN c
  classical
  rcases he : s'.exc with _ | ⟨e, l⟩
  · rfl
  · have := hc.excEq e
    rw [he] at this
    have hpos : 0 < (List.range s'.num).countP fun j => isE e (out zero fit subs j) := by
      rw [← this]; simp
    obtain ⟨j, _, hj⟩ := List.countP_pos_iff.1 hpos
    exact absurd (out_error.1 (isE_iff.1 hj)) (hok j e)

theorem solveAll_get (t : SolveLoop.Turn S) (fit : Nat → Except X (S × Bool)) (hf : ∀ j, fit j = .ok (t.fit j)) (o : List (SolveLoop.Sub S)) :
    ∀ (l : List (SolveLoop.Sub S)) (i : Nat), (∀ k, l[k]? = o[i + k]?) → (SolveLoop.solveAll zero t i l).1.length = l.length ∧
      (∀ k : Nat, (SolveLoop.solveAll zero t i l).1[k]? = l[k]?.map fun a => (trySolve zero fit (i + k) a).1) ∧
      (SolveLoop.solveAll zero t i l).2 = (List.range' i l.length).countP fun j => isT (out zero fit o j) := by
  intro l
  induction l with
  | nil => intro i _; simp [SolveLoop.solveAll]
  | cons a l ih =>
    intro i h
    have hi := h 0
    simp only [List.getElem?_cons_zero, Nat.add_zero] at hi
    have hs : SolveLoop.solve zero t i a = ((trySolve zero fit i a).1, isT (out zero fit o i)) := by
      unfold out; rw [← hi]; unfold SolveLoop.solve trySolve; dsimp only
      split
      · rfl
      · rw [hf i]; dsimp only
        have : ∀ r : Bool, isT (Except.ok r : Except X Bool) = r := by intro r; cases r <;> rfl
        rw [this]
    obtain ⟨h1, h2, h3⟩ := ih (i + 1) (fun k => by rw [Nat.add_assoc, Nat.add_comm 1 k, ← h (k + 1)]; rfl)
    simp only [SolveLoop.solveAll, hs, List.length_cons, h1]
    refine ⟨trivial, ?_, ?_⟩
    · intro k
      cases k with
      | zero => rfl
      | succ k => rw [List.getElem?_cons_succ, h2 k, List.getElem?_cons_succ, Nat.add_assoc, Nat.add_comm 1 k]
    · rw [List.range'_succ, List.countP_cons, h3]
      split <;> simp_all

/-! ## C131 -/

/-- C131.  However the threads take turns, and with threads waking for no reason, a call in which no fit throws leaves every subsolver
as one thread alone would leave it, and counts the converged ones right. -/
theorem C131_same (hN : 0 < N) {s s' : St S X} {subs fit acts} (c : Call zero N s subs fit acts s') (hok : ∀ j e, ¬ Throws fit subs j e) :
    ∃ cs : List Bool, s'.rets = s.rets ++ [.ok (cs.count true)] ∧ cs.length = subs.length ∧ s'.subs.length = subs.length ∧
      ∀ j a, subs[j]? = some a → ∃ b r, s'.subs[j]? = some b ∧ cs[j]? = some r ∧ After zero fit j a b r := by
  obtain ⟨h1, hc, hf⟩ := call_core hN c
  have he := ok_of_no_throw hN c hok
  have hn : s'.num = subs.length := by
    rcases hf with h | h
    · exact h
    · exact absurd he h
  refine ⟨(List.range subs.length).map fun j => isT (out zero fit subs j), ?_, by simp, hc.len, ?_⟩
  · rw [h1]
    have := hc.convEq
    simp only [List.countP_nil, Nat.add_zero] at this
    unfold retOf
    rw [he, this, hn, List.count_eq_countP, List.countP_map]
    simp only [List.isEmpty_nil, if_true]
    congr 3
    apply List.countP_congr
    intro x _
    simp [Function.comp]
  · intro j a ha
    have hj := (List.getElem?_eq_some_iff.1 ha).1
    have hd := hc.done j (by omega) (by simp)
    rw [ha] at hd
    exact ⟨_, _, hd, by simp [hj], after_of ha fun e => hok j e⟩

/-- C131.  The same as the loop of the single-threaded solver gives: subsolvers and count. -/
theorem C131_single (hN : 0 < N) {s s' : St S X} {subs fit acts} (c : Call zero N s subs fit acts s') (t : SolveLoop.Turn S)
    (ht : ∀ j, fit j = .ok (t.fit j)) :
    s'.subs = (SolveLoop.solveAll zero t 0 subs).1 ∧ s'.rets = s.rets ++ [.ok (SolveLoop.solveAll zero t 0 subs).2] := by
  have hok : ∀ j e, ¬ Throws fit subs j e := by
    rintro j e ⟨a, _, _, _, h⟩
    rw [ht] at h; cases h
  obtain ⟨h1, hc, hf⟩ := call_core hN c
  have he := ok_of_no_throw hN c hok
  have hn : s'.num = subs.length := by
    rcases hf with h | h
    · exact h
    · exact absurd he h
  obtain ⟨g1, g2, g3⟩ := solveAll_get (zero := zero) t fit ht subs subs 0 (by simp)
  constructor
  · apply List.ext_getElem?
    intro k
    rw [g2 k, Nat.zero_add]
    by_cases hk : k < s'.num
    · exact hc.done k hk (by simp)
    · rw [List.getElem?_eq_none (by rw [hc.len]; omega), List.getElem?_eq_none (by omega)]; rfl
  · rw [h1]
    have := hc.convEq
    simp only [List.countP_nil, Nat.add_zero] at this
    unfold retOf
    rw [he, this, hn, g3, List.range_eq_range']
    rfl

/-- C131.  No two threads ever work on the same subsolver. -/
theorem C131_exclusive (hN : 0 < N) {s : St S X} (h : Reachable zero N s) (j : Nat) :
    (∀ (i k : Nat) (x y : W X), s.w[i]? = some x → s.w[k]? = some y → x.pc.on = some j → y.pc.on = some j → i = k) ∧
    (s.m.on = some j → ∀ x ∈ s.w, x.pc.on ≠ some j) := by
  have hb := base_reach hN h
  have hjob : ∀ x : W X, x.pc.on = some j → job x.pc = some (j, none) := by
    intro x hx
    cases hpc : x.pc <;> rw [hpc] at hx <;> simp [WPc.on] at hx
    subst hx; rfl
  by_cases ho : Out s.m
  · have hq := hb.quiet ho
    have none : ∀ x ∈ s.w, x.pc.on ≠ some j := by
      intro x hx e
      have := (job_quiet (hb.fits x hx) (hq x hx)).1
      rw [hjob x e] at this; cases this
    exact ⟨fun i k x y hx _ e _ => absurd e (none x (List.mem_of_getElem? hx)), fun _ => none⟩
  · have hnd : ((jobs s.m s.w).map Prod.fst).Nodup := by
      rcases live_reach hN h with hm | ⟨f, o, R, hp⟩
      · exact absurd (by rw [hm]; trivial) ho
      · have h2 := hp.2
        have hc : CoreS zero f o s := by
          cases hm' : s.m <;> rw [hm'] at h2 ho <;> dsimp only at h2
          case idle => exact absurd trivial ho
          case wantW => exact absurd trivial ho
          case wantE => exact absurd trivial ho
          case loop => exact h2.2
          case solving => exact h2.2
          case solved => exact h2.2
          all_goals exact h2.2.1
        exact hc.nodup
    unfold jobs at hnd
    rw [List.map_append, List.nodup_append] at hnd
    obtain ⟨_, hw, hd⟩ := hnd
    have hmem : ∀ x ∈ s.w, x.pc.on = some j → j ∈ (jobsW s.w).map Prod.fst := by
      intro x hx e
      exact List.mem_map.2 ⟨(j, none), List.mem_filterMap.2 ⟨x, hx, hjob x e⟩, rfl⟩
    constructor
    · intro i k x y hx hy ex ey
      clear hmem hd ho
      unfold jobsW at hw
      generalize s.w = l at hw hx hy
      have main : ∀ (l : List (W X)) (i k : Nat), ((l.filterMap fun x => job x.pc).map Prod.fst).Nodup → l[i]? = some x → l[k]? = some y → i = k := by
        intro l
        induction l with
        | nil => intro i k _ h; cases i <;> simp at h
        | cons z l ih =>
          intro i k hw hx hy
          have tail : ((l.filterMap fun x => job x.pc).map Prod.fst).Nodup := by
            rw [List.filterMap_cons] at hw
            split at hw
            · exact hw
            · rw [List.map_cons, List.nodup_cons] at hw; exact hw.2
          have clash : ∀ u : W X, u ∈ l → u.pc.on = some j → z.pc.on = some j → False := by
            intro u hu eu ez
            rw [List.filterMap_cons, hjob z ez] at hw
            dsimp only at hw
            rw [List.map_cons, List.nodup_cons] at hw
            exact hw.1 (List.mem_map.2 ⟨(j, none), List.mem_filterMap.2 ⟨u, hu, hjob u eu⟩, rfl⟩)
          cases i with
          | zero =>
            cases k with
            | zero => rfl
            | succ k =>
              simp only [List.getElem?_cons_zero, List.getElem?_cons_succ, Option.some.injEq] at hx hy
              subst hx
              exact (clash y (List.mem_of_getElem? hy) ey ex).elim
          | succ i =>
            cases k with
            | zero =>
              simp only [List.getElem?_cons_zero, List.getElem?_cons_succ, Option.some.injEq] at hx hy
              subst hy
              exact (clash x (List.mem_of_getElem? hx) ex ey).elim
            | succ k =>
              simp only [List.getElem?_cons_succ] at hx hy
              rw [ih i k tail hx hy]
      exact main l i k hw hx hy
    · intro hm x hx e
      refine hd j ?_ j (hmem x hx e) rfl
      cases hm' : s.m <;> rw [hm'] at hm <;> simp [MPc.on] at hm
      subst hm
      exact List.mem_map.2 ⟨(_, none), List.mem_singleton.2 rfl, rfl⟩

/-- C131.  When the call is back no worker works on a subsolver or holds a mutex: the solver's thread has the subsolvers to itself. -/
theorem C131_alone (hN : 0 < N) {s s' : St S X} {subs fit acts} (c : Call zero N s subs fit acts s') : (∀ x ∈ s'.w, ¬ Busy x) ∧ s'.wl = false ∧ s'.el = false := by
  obtain ⟨hb, _⟩ := call_phase hN c
  have hq := hb.quiet (by rw [c.back]; trivial)
  have h1 : ∀ x ∈ s'.w, ¬ Busy x := by
    intro x hx h
    rcases (job_quiet (hb.fits x hx) (hq x hx)).2 with hp | hp | hp <;> simp [Busy, hp] at h
  refine ⟨h1, ?_, ?_⟩
  · have hw := hb.wl
    rw [c.back] at hw
    have : s'.w.countP holds = 0 := by
      rw [List.countP_eq_zero]
      intro x hx hh
      apply h1 x hx
      unfold holds at hh
      unfold Busy
      cases hp : x.pc <;> rw [hp] at hh <;> simp at hh ⊢
    rw [this] at hw
    cases hwl : s'.wl
    · rfl
    · rw [hwl] at hw; simp [mW] at hw
  · rw [hb.el, c.back]; rfl

/-! ## C132 -/

open Classical in
/-- C132.  A call ends once, normally exactly when no fit of it throws, and otherwise with exceptions that were thrown, each subsolver's
at most once. -/
theorem C132_exceptions (hN : 0 < N) {s s' : St S X} {subs fit acts} (c : Call zero N s subs fit acts s') :
    ∃ r, s'.rets = s.rets ++ [r] ∧ ((∃ m, r = .ok m) ↔ ∀ j e, ¬ Throws fit subs j e) ∧
      ∀ l, r = .thrown l → l ≠ [] ∧ ∀ e, l.count e ≤ (List.range subs.length).countP fun j => decide (Throws fit subs j e) := by
  obtain ⟨h1, hc, hf⟩ := call_core hN c
  refine ⟨retOf s', h1, ⟨?_, ?_⟩, ?_⟩
  · rintro ⟨m, hm⟩ j e ht
    have he : s'.exc = [] := by
      unfold retOf at hm
      split at hm
      · next h => simpa using h
      · cases hm
    have hn : s'.num = subs.length := by
      rcases hf with h | h
      · exact h
      · exact absurd he h
    have := hc.excEq e
    rw [he] at this
    simp only [List.count_nil, List.countP_nil, Nat.add_zero] at this
    have hz := List.countP_eq_zero.1 this.symm
    obtain ⟨a, ha, _⟩ := id ht
    have hj := (List.getElem?_eq_some_iff.1 ha).1
    exact hz j (List.mem_range.2 (by omega)) (isE_iff.2 (out_error.2 ht))
  · intro h
    exact ⟨s'.conv, by unfold retOf; rw [ok_of_no_throw hN c h]; rfl⟩
  · intro l hl
    unfold retOf at hl
    split at hl
    · cases hl
    · next hne =>
      cases hl
      refine ⟨by simpa using hne, fun e => ?_⟩
      have := hc.excEq e
      simp only [List.countP_nil, Nat.add_zero] at this
      rw [this]
      have heq : ∀ j, isE e (out zero fit subs j) = decide (Throws fit subs j e) := by
        intro j
        rw [Bool.eq_iff_iff, isE_iff, decide_eq_true_iff]
        exact out_error
      simp only [heq]
      have hsub : (List.range s'.num).Sublist (List.range subs.length) := List.range_sublist.2 hc.numLe
      exact hsub.countP_le

/-- C132.  After a call that throws every subsolver is as before, as one thread alone would leave it, or it is one whose fit threw, with no
equations left. -/
theorem C132_subsolvers (hN : 0 < N) {s s' : St S X} {subs fit acts} (c : Call zero N s subs fit acts s') :
    s'.subs.length = subs.length ∧ ∀ j a, subs[j]? = some a → s'.subs[j]? = some a ∨
      (∃ b r, s'.subs[j]? = some b ∧ After zero fit j a b r) ∨
      ∃ e, Throws fit subs j e ∧ s'.subs[j]? = some ⟨false, 0, zero⟩ := by
  obtain ⟨_, hc, _⟩ := call_core hN c
  refine ⟨hc.len, fun j a ha => ?_⟩
  by_cases hj : j < s'.num
  · have hd := hc.done j hj (by simp)
    rw [ha] at hd
    right
    by_cases ht : ∃ e, Throws fit subs j e
    · obtain ⟨e, ht⟩ := ht
      right
      refine ⟨e, ht, ?_⟩
      obtain ⟨a', ha', h1, h2, h3⟩ := ht
      rw [ha] at ha'; cases ha'
      rw [hd]
      simp [trySolve, h1, h2, h3]
    · left
      exact ⟨_, _, hd, after_of ha fun e h => ht ⟨e, h⟩⟩
  · left
    rw [hc.fresh j (.inl (by omega)), ha]

/-! ## C133 -/

/-- C133.  As long as the main thread is in a call some thread can go on by itself: there is no deadlock and no lost wake-up. -/
theorem C133_no_deadlock (hN : 0 < N) {s : St S X} (h : Reachable zero N s) (hm : s.m ≠ .idle) : ∃ a : Act S X, Proper a ∧ step zero s a ≠ s :=
  progress (base_reach hN h) (live_reach hN h) hm

/-- C133.  The threads cannot go on for ever by themselves: there is a bound on the number of steps. -/
theorem C133_bounded (hN : 0 < N) {s : St S X} (h : Reachable zero N s) :
    ∃ B, ∀ acts : List (Act S X), (∀ a ∈ acts, Proper a) → Effective zero s acts → acts.length ≤ B := by
  refine ⟨mu s, fun acts hp he => ?_⟩
  have hb := base_reach hN h
  clear h
  induction acts generalizing s with
  | nil => exact Nat.zero_le _
  | cons a l ih =>
    have h1 := (mu_step (zero := zero) hb (hp a (List.mem_cons_self ..))).resolve_left he.1
    have h2 := ih (fun b hb => hp b (List.mem_cons_of_mem _ hb)) he.2 (base_step hN hb a)
    simp only [List.length_cons]; omega

theorem reach_step {s : St S X} (h : Reachable zero N s) (a : Act S X) : Reachable zero N (step zero s a) := by
  obtain ⟨fit, acts, rfl⟩ := h
  exact ⟨fit, acts ++ [a], by simp [run]⟩

/-- C133.  So from every state the call comes back, whatever steps the threads have made before. -/
theorem C133_returns (hN : 0 < N) {s : St S X} (h : Reachable zero N s) :
    ∃ acts : List (Act S X), (∀ a ∈ acts, Proper a) ∧ (run zero s acts).m = .idle := by
  generalize hn : mu s = n
  induction n using Nat.strongRecOn generalizing s with
  | _ n ih =>
    by_cases hm : s.m = .idle
    · exact ⟨[], by simp, hm⟩
    · obtain ⟨a, ha, hne⟩ := C133_no_deadlock hN h hm
      have := (mu_step (zero := zero) (base_reach hN h) ha).resolve_left hne
      obtain ⟨l, h1, h2⟩ := ih _ (by omega) (reach_step h a) rfl
      exact ⟨a :: l, by intro b hb; rcases List.mem_cons.1 hb with rfl | hb; exacts [ha, h1 b hb], h2⟩

/-- C133.  Workers told to stop all do: as long as one has not some thread can go on. -/
theorem C133_stop (hN : 0 < N) {s : St S X} (h : Reachable zero N s) (hs : s.stop = true) {x : W X} (hx : x ∈ s.w) (hp : x.pc ≠ .stopped) :
    ∃ a : Act S X, Proper a ∧ step zero s a ≠ s :=
  stop_progress (base_reach hN h) hs (stop_reach hN h hs) hx hp

/-! ## Cases -/

/-- Four subsolvers: with equations, converged, without equations, with equations. -/
def exSubs : List (SolveLoop.Sub Nat) := [⟨false, 3, 0⟩, ⟨true, 2, 9⟩, ⟨false, 0, 9⟩, ⟨false, 5, 0⟩]

def exFit : Nat → Except String (Nat × Bool) := fun j => .ok (j + 40, j == 3)

def exBad : Nat → Except String (Nat × Bool) := fun j => if j = 3 then .error "svd" else .ok (j + 40, false)

def exActs : List (Act Nat String) :=
  [.worker 0, .main, .main, .worker 0, .main, .worker 0, .worker 1, .worker 0, .main, .spurious 1, .worker 0, .main, .worker 1, .worker 0,
   .worker 1, .worker 1, .main, .worker 1, .worker 0, .worker 0, .main, .worker 0, .worker 1, .worker 1, .main, .worker 1,
   .worker 0, .worker 1, .main, .main, .main, .worker 1, .worker 0, .worker 0, .worker 0, .worker 1, .worker 1, .main, .main,
   .spuriousMain, .main, .worker 0, .worker 1, .main, .main]

theorem exReach : Reachable (0 : Nat) 2 (St.init (S := Nat) (X := String) 2 exFit) := ⟨exFit, [], rfl⟩

example : let s' := run (0 : Nat) (step 0 (St.init 2 exFit) (.call exSubs exFit)) exActs
    (s'.rets, s'.subs.map (fun a => (a.converged, a.neq, a.sol)), s'.w.map (·.active), s'.m.on) =
    ([.ok 3], [(false, 0, 40), (true, 2, 0), (false, 0, 0), (true, 0, 43)], [false, false], none) := by decide +kernel

/-- The hypotheses of C131 and C132 met. -/
example : Call (0 : Nat) 2 (St.init 2 exFit) exSubs exFit exActs (run 0 (step 0 (St.init 2 exFit) (.call exSubs exFit)) exActs) where
  reach := exReach
  outside := rfl
  running := rfl
  threads := by
    intro a ha
    simp only [exActs, List.mem_cons, List.not_mem_nil, or_false] at ha
    rcases ha with rfl | rfl | rfl | rfl | rfl | rfl | rfl | rfl | rfl | rfl | rfl | rfl | rfl | rfl | rfl | rfl | rfl | rfl | rfl | rfl | rfl | rfl | rfl | rfl | rfl | rfl | rfl | rfl | rfl | rfl | rfl | rfl | rfl | rfl | rfl | rfl | rfl | rfl | rfl | rfl | rfl | rfl | rfl | rfl | rfl <;> trivial
  run := rfl
  back := by
    have h : (match (run (0 : Nat) (step 0 (St.init 2 exFit) (.call exSubs exFit)) exActs).m with | .idle => true | _ => false) = true := by decide +kernel
    generalize (run (0 : Nat) (step 0 (St.init 2 exFit) (.call exSubs exFit)) exActs).m = m at h ⊢
    cases m <;> first | rfl | cases h

example : Throws exBad exSubs 3 "svd" := ⟨⟨false, 5, 0⟩, rfl, rfl, by decide, rfl⟩

example : (run (0 : Nat) (step 0 (St.init 2 exBad) (.call exSubs exBad)) exActs).rets = [.thrown ["svd"]] := by decide +kernel

end Verif.SolveWorkers
