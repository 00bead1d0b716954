import Verif.Proof.GwClient
/-!
# C187–C190: connections between processes
-/
namespace Verif.GwClient

/-! ## C187 -/

/-- `A` makes a connection when it hears of a server of `B`'s. -/
def Calls (A B : Me) : Prop :=
  ∃ (unix : Bool) (at_ : String) (port : Int), (if unix then B.localServer else B.netServer) = true ∧ answer A ⟨B.process, B.host, unix, at_, port⟩ ≠ none

theorem answer_iff (A B : Me) (unix : Bool) (at_ : String) (port : Int) (hA : A.proactive = true) (hne : ¬ (A.process = B.process ∧ A.host = B.host))
    (hc : A.connectedTo [B.process, B.host] = false) :
    answer A ⟨B.process, B.host, unix, at_, port⟩ ≠ none ↔
      (unix = true ↔ A.host = B.host) ∧ ((if unix then A.localServer else A.netServer) = false ∨ A.process < B.process ∨ (A.process = B.process ∧ A.host < B.host)) := by
  have hne' : ¬ [B.process, B.host] = [A.process, A.host] := by
    intro h
    simp only [List.cons.injEq, and_true] at h
    exact hne ⟨h.1.symm, h.2.symm⟩
  have hlt : Hiid.lt false [A.process, A.host] [B.process, B.host] = true ↔ A.process < B.process ∨ (A.process = B.process ∧ A.host < B.host) := by
    unfold Hiid.lt
    simp only [Bool.false_eq_true, if_false, Hiid.ltLoop]
    by_cases h1 : A.process < B.process
    · simp [h1]
    · by_cases h2 : A.process > B.process
      · simp [h1, h2]; omega
      · by_cases h3 : A.host < B.host
        · simp [h1, h2, h3]; omega
        · simp [h1, h2, h3]
  unfold answer
  dsimp only
  rw [if_neg (by rw [hA]; simp), if_neg hne', hc]
  simp only [hlt]
  cases unix
  · by_cases hh : B.host = A.host
    · simp [hh]
    · have hh' : ¬ A.host = B.host := fun e => hh e.symm
      simp [hh, hh']
      cases A.netServer <;> simp <;> omega
  · by_cases hh : B.host = A.host
    · simp [hh]
      cases A.localServer <;> simp
    · have hh' : ¬ A.host = B.host := fun e => hh e.symm
      simp [hh, hh']

/-- **C187**: of two processes that are not yet connected exactly one makes a connection when they hear of each other's servers, if either has a server
the other can use: a local one on the same host, else a network one. -/
theorem C187 (A B : Me) (hA : A.proactive = true) (hB : B.proactive = true) (hne : ¬ (A.process = B.process ∧ A.host = B.host))
    (hAB : A.connectedTo [B.process, B.host] = false) (hBA : B.connectedTo [A.process, A.host] = false) :
    ((Calls A B ∨ Calls B A) ↔ if A.host = B.host then A.localServer = true ∨ B.localServer = true else A.netServer = true ∨ B.netServer = true) ∧
      ¬ (Calls A B ∧ Calls B A) := by
  have hne2 : ¬ (B.process = A.process ∧ B.host = A.host) := fun h => hne ⟨h.1.symm, h.2.symm⟩
  have e1 : Calls A B ↔ ∃ unix : Bool, (if unix then B.localServer else B.netServer) = true ∧ (unix = true ↔ A.host = B.host) ∧
      ((if unix then A.localServer else A.netServer) = false ∨ A.process < B.process ∨ (A.process = B.process ∧ A.host < B.host)) := by
    constructor
    · rintro ⟨u, at_, p, h1, h2⟩
      exact ⟨u, h1, (answer_iff A B u at_ p hA hne hAB).mp h2⟩
    · rintro ⟨u, h1, h2⟩
      exact ⟨u, "", 0, h1, (answer_iff A B u "" 0 hA hne hAB).mpr h2⟩
  have e2 : Calls B A ↔ ∃ unix : Bool, (if unix then A.localServer else A.netServer) = true ∧ (unix = true ↔ B.host = A.host) ∧
      ((if unix then B.localServer else B.netServer) = false ∨ B.process < A.process ∨ (B.process = A.process ∧ B.host < A.host)) := by
    constructor
    · rintro ⟨u, at_, p, h1, h2⟩
      exact ⟨u, h1, (answer_iff B A u at_ p hB hne2 hBA).mp h2⟩
    · rintro ⟨u, h1, h2⟩
      exact ⟨u, "", 0, h1, (answer_iff B A u "" 0 hB hne2 hBA).mpr h2⟩
  rw [e1, e2]
  by_cases hh : A.host = B.host
  · have hh' : B.host = A.host := hh.symm
    rw [if_pos hh]
    have hp : A.process ≠ B.process := fun e => hne ⟨e, hh⟩
    rw [Bool.exists_bool, Bool.exists_bool]
    rw [iff_true_right hh, iff_true_right hh, iff_true_right hh', iff_true_right hh']
    cases A.localServer <;> cases B.localServer <;> simp <;> omega
  · have hh' : ¬ B.host = A.host := fun e => hh e.symm
    rw [if_neg hh]
    rw [Bool.exists_bool, Bool.exists_bool]
    rw [iff_false_right hh, iff_false_right hh, iff_false_right hh', iff_false_right hh']
    cases A.netServer <;> cases B.netServer <;> simp <;> omega

/-- What is connected to is what was advertised, under the name `localhost` if it is the process's own host. -/
theorem C187_what (A : Me) (a : Adv) (h : String) (p : Int) (u : Bool) (e : answer A a = some (h, p, u)) :
    p = a.port ∧ u = a.unix ∧ (u = true ↔ a.host = A.host) ∧ h = (if u = false ∧ a.at_ = A.hostname then "localhost" else a.at_) ∧
      A.proactive = true ∧ A.connectedTo [a.process, a.host] = false := by
  unfold answer at e
  split at e
  · cases e
  split at e
  · cases e
  split at e
  · cases e
  split at e
  · cases e
  split at e
  · cases e
  rename_i h1 h2 h3 h4 h5
  split at e
  · rename_i hu
    split at e
    · cases e
      refine ⟨rfl, hu.symm, ?_, by simp, by simpa using h1, by simpa using h5⟩
      simp [hu] at h3
      simp [h3]
    · cases e
  · rename_i hu
    split at e
    · cases e
      refine ⟨rfl, by simpa using hu, ?_, by simp, by simpa using h1, by simpa using h5⟩
      simp [hu] at h4
      simp [h4]
    · cases e

example : Calls ⟨true, 7, 1, "h1", true, true, fun _ => false⟩ ⟨true, 9, 2, "h2", false, true, fun _ => false⟩ := ⟨false, "h2", 4808, rfl, by decide⟩

/-! ## C188 -/

/-- **C188, in full**: whatever happens, in whatever order, the keeper of connections does nothing undefined. -/
def C188_full : Prop := ∀ (clock : Nat) (pro : Bool) (peers : List (String × Int × Bool)) (evs : List (Nat × Ev)), run (init clock pro peers) evs ≠ .ub

/-- A server is heard of that cannot be connected to for more than thirty seconds: the connection is removed while it is being looked at. -/
theorem C188_given_up : run (init 0 true []) [(0, .start fun _ _ => .error), (0, .advert "far" 4808 false .error), (31000, .tick false fun _ _ => .error)] = .ub := by
  decide +kernel

theorem C188_refuted : ¬ C188_full := fun h => h 0 true [] _ C188_given_up

/-- **C188, in part**: nothing undefined happens to a client that does not look for servers (as the one of `meqserver`), or hears of none.  Missing: connections that are given up. -/
theorem C188_partial (clock : Nat) (pro : Bool) (peers : List (String × Int × Bool)) (evs : List (Nat × Ev))
    (h : pro = false ∨ ∀ e ∈ evs, ∀ h p u a, e.2 ≠ .advert h p u a) : ∃ s, run (init clock pro peers) evs = .ok s := by
  obtain ⟨s, hs, _⟩ := run_lasting evs (init clock pro peers) (inv_init clock pro peers) (init_spec clock pro peers).1 h
  exact ⟨s, hs⟩

/-! ## C189 -/

/-- **C189, in full**: a peer that was configured stays on the list, unless there was a message that the connection is a duplicate. -/
def C189_full : Prop := ∀ (clock : Nat) (pro : Bool) (peers : List (String × Int × Bool)) (evs : List (Nat × Ev)) (s : St),
  (∀ e ∈ evs, ∀ h p, e.2 ≠ .duplicate h p) → run (init clock pro peers) evs = .ok s → ∀ p ∈ peers, ∃ c ∈ s.cxs, c.host = p.1 ∧ c.port = p.2.1

/-- An advertisement makes a configured peer one that is given up. -/
theorem C189_forgotten : ∃ s, run (init 0 true [("=sock", 4808, true)]) [(0, .start fun _ _ => .error), (0, .advert "=sock" 4808 true .error),
    (31000, .tick false fun _ _ => .inProgress), (10000, .tick true fun _ _ => .inProgress), (0, .bindError "=sock" 4808 true .error)] = .ok s ∧ s.cxs = [] := by
  refine ⟨⟨[], 41000, 41000, false, true, true, [(41000, "=sock", 4808), (31000, "=sock", 4808), (0, "=sock", 4808), (0, "=sock", 4808)]⟩, ?_, rfl⟩
  decide +kernel

theorem C189_refuted : ¬ C189_full := by
  intro h
  obtain ⟨s, h1, h2⟩ := C189_forgotten
  obtain ⟨c, hc, _⟩ := h 0 true [("=sock", 4808, true)] _ s (by
    intro e he
    simp only [List.mem_cons, List.not_mem_nil, or_false] at he
    rcases he with e | e | e | e | e <;> subst e <;> simp) h1 ("=sock", 4808, true) (by simp)
  rw [h2] at hc
  cases hc

/-- **C189, in part**: it does if the client does not look for servers, or hears of none.  Missing: advertisements. -/
theorem C189_partial (clock : Nat) (pro : Bool) (peers : List (String × Int × Bool)) (evs : List (Nat × Ev)) (s : St)
    (hd : ∀ e ∈ evs, ∀ h p, e.2 ≠ .duplicate h p) (ha : pro = false ∨ ∀ e ∈ evs, ∀ h p u a, e.2 ≠ .advert h p u a)
    (hr : run (init clock pro peers) evs = .ok s) : ∀ p ∈ peers, ∃ c ∈ s.cxs, c.host = p.1 ∧ c.port = p.2.1 := by
  obtain ⟨s', hs, hk⟩ := run_lasting evs (init clock pro peers) (inv_init clock pro peers) (init_spec clock pro peers).1 ha
  rw [hr] at hs
  cases hs
  intro p hp
  obtain ⟨c, hc, h1, h2⟩ := (init_spec clock pro peers).2 p hp
  obtain ⟨c', hc', h3⟩ := hk hd c hc
  exact ⟨c', hc', h3.1.trans h1, h3.2.trans h2⟩

/-- What the tick does to one connection. -/
theorem tick_one (s s' : St) (r : Bool) (env : String → Int → Answer) (h : timeout r env s = .ok s') (c : Cx) (hc : c ∈ s.cxs) :
    ∃ c', (tickOne s.clock (env c.host c.port) c).cx = some c' ∧ c' ∈ s'.cxs ∧
      ((tickOne s.clock (env c.host c.port) c).called = true → (s.clock, c.host, c.port) ∈ s'.log) := by
  obtain ⟨tm, log, hl, e1, _, _, _, _, e6, _, _⟩ := timeout_spec r env s s' h
  obtain ⟨_, h2, _, h4, _, _⟩ := loop_spec _ _ _ _ _ _ _ _ _ hl
  cases hx : (tickOne s.clock (env c.host c.port) c).cx with
  | none => exact absurd hx (h2 c hc)
  | some c' =>
    refine ⟨c', rfl, ?_, ?_⟩
    · rw [e1]; exact List.mem_map.mpr ⟨c, hc, by rw [hx]; rfl⟩
    · rw [e6]; exact h4 c hc

/-- A peer that is not connected is tried again at each tick two seconds after the last event, unless that tick finds the attempt under way too old. -/
theorem C189_retries (clock : Nat) (pro : Bool) (peers : List (String × Int × Bool)) (evs : List (Nat × Ev)) (s s' : St) (dt : Nat) (r : Bool)
    (env : String → Int → Answer) (hr : run (init clock pro peers) evs = .ok s) (hdt : 2000 ≤ dt) (hs : run s [(dt, .tick r env)] = .ok s')
    (c : Cx) (hc : c ∈ s.cxs) (hst : c.st ≠ .connected) :
    (s.clock + dt, c.host, c.port) ∈ s'.log ∨
      (c.st = .connecting ∧ ∃ c' ∈ s'.cxs, c'.host = c.host ∧ c'.port = c.port ∧ c'.st = .waiting ∧ c'.retry = s.clock + dt + 2000) := by
  have hi := inv_run evs _ s (inv_init clock pro peers) hr
  have ho := hi.each c hc
  have hs' : timeout r env { s with clock := s.clock + dt } = .ok s' := by
    unfold run at hs
    cases h : step { s with clock := s.clock + dt } (.tick r env) with
    | err => rw [h] at hs; cases hs
    | ub => rw [h] at hs; cases hs
    | ok y => rw [h] at hs; cases hs; exact h
  obtain ⟨c', h1, h2, h3⟩ := tick_one _ s' r env hs' c hc
  dsimp only at h1 h3
  have hret : c.retry ≤ s.clock + dt := by
    have := ho.retry
    unfold reopenTimeout at this
    omega
  have called : ∀ a, (tryConnect (s.clock + dt) a c).called = true := by
    intro a
    rcases tryConnect_cases (s.clock + dt) a c ho.sock with ⟨e, _⟩ | ⟨_, fl, _, ⟨g, _, e⟩ | ⟨_, e⟩ | ⟨_, _, _, e⟩ | ⟨_, _, e⟩⟩
    · exact absurd e hst
    all_goals rw [e]
  by_cases hold : c.st = .connecting ∧ c.fail ≤ s.clock + dt
  · right
    refine ⟨hold.1, c', h2, ?_⟩
    unfold tickOne at h1
    simp only [hold.1, if_pos hold.2] at h1
    cases h1
    exact ⟨rfl, rfl, rfl, rfl⟩
  · left
    apply h3
    unfold tickOne
    cases hst' : c.st with
    | connected => exact absurd hst' hst
    | connecting =>
      dsimp only
      rw [if_neg (fun h => hold ⟨hst', h⟩), if_pos hret]
      exact called _
    | stopped => dsimp only; rw [if_pos hret]; exact called _
    | waiting => dsimp only; rw [if_pos hret]; exact called _

/-- So that of two such ticks in a row one tries. -/
theorem C189_tries_within_two (clock : Nat) (pro : Bool) (peers : List (String × Int × Bool)) (evs : List (Nat × Ev)) (s s1 s2 : St) (dt dt' : Nat) (r r' : Bool)
    (env env' : String → Int → Answer) (hr : run (init clock pro peers) evs = .ok s) (hdt : 2000 ≤ dt) (hdt' : 2000 ≤ dt')
    (h1 : run s [(dt, .tick r env)] = .ok s1) (h2 : run s1 [(dt', .tick r' env')] = .ok s2) (c : Cx) (hc : c ∈ s.cxs) (hst : c.st ≠ .connected) :
    (s.clock + dt, c.host, c.port) ∈ s1.log ∨ (s.clock + dt + dt', c.host, c.port) ∈ s2.log := by
  rcases C189_retries clock pro peers evs s s1 dt r env hr hdt h1 c hc hst with h | ⟨_, c', hc', e1, e2, e3, _⟩
  · exact Or.inl h
  · right
    have happ : run (init clock pro peers) (evs ++ [(dt, .tick r env)]) = .ok s1 := by
      have : ∀ (l : List (Nat × Ev)) (x y : St), run x l = .ok y → run y [(dt, .tick r env)] = .ok s1 → run x (l ++ [(dt, .tick r env)]) = .ok s1 := by
        intro l
        induction l with
        | nil => intro x y hx hy; cases hx; exact hy
        | cons e l ih =>
          intro x y hx hy
          obtain ⟨d, e⟩ := e
          simp only [List.cons_append]
          unfold run at hx ⊢
          cases hst : step { x with clock := x.clock + d } e with
          | err => rw [hst] at hx; cases hx
          | ub => rw [hst] at hx; cases hx
          | ok z => rw [hst] at hx; exact ih z y hx hy
      exact this evs _ s hr h1
    have hclk : s1.clock = s.clock + dt := by
      unfold run at h1
      cases hst : step { s with clock := s.clock + dt } (.tick r env) with
      | err => rw [hst] at h1; cases h1
      | ub => rw [hst] at h1; cases h1
      | ok z =>
        rw [hst] at h1
        cases h1
        obtain ⟨_, _, _, _, e, _⟩ := timeout_spec r env _ _ hst
        exact e
    rcases C189_retries clock pro peers _ s1 s2 dt' r' env' happ hdt' h2 c' hc' (by rw [e3]; simp) with h | ⟨h, _⟩
    · rw [e1, e2, hclk] at h; exact h
    · rw [e3] at h; cases h

/-- An attempt under way for ten seconds is ended. -/
theorem C189_times_out (clock : Nat) (pro : Bool) (peers : List (String × Int × Bool)) (evs : List (Nat × Ev)) (s s' : St) (dt : Nat) (r : Bool)
    (env : String → Int → Answer) (hr : run (init clock pro peers) evs = .ok s) (hdt : 10000 ≤ dt) (hs : run s [(dt, .tick r env)] = .ok s')
    (c : Cx) (hc : c ∈ s.cxs) (hst : c.st = .connecting) :
    ∃ c' ∈ s'.cxs, c'.host = c.host ∧ c'.port = c.port ∧ c'.st = .waiting ∧ c'.sock = false ∧ c'.retry = s.clock + dt + 2000 := by
  have hi := inv_run evs _ s (inv_init clock pro peers) hr
  have ho := hi.each c hc
  have hs' : timeout r env { s with clock := s.clock + dt } = .ok s' := by
    unfold run at hs
    cases h : step { s with clock := s.clock + dt } (.tick r env) with
    | err => rw [h] at hs; cases hs
    | ub => rw [h] at hs; cases hs
    | ok y => rw [h] at hs; cases hs; exact h
  obtain ⟨c', h1, h2, _⟩ := tick_one _ s' r env hs' c hc
  refine ⟨c', h2, ?_⟩
  have hf : c.fail ≤ s.clock + dt := by
    have h3 := ho.fail hst
    have h4 := hi.time
    unfold failConnectTimeout at h3
    omega
  unfold tickOne at h1
  simp only [hst, if_pos hf] at h1
  cases h1
  exact ⟨rfl, rfl, rfl, rfl, rfl⟩

/-- A tick leaves connections that are up alone. -/
theorem C189_connected (s s' : St) (dt : Nat) (r : Bool) (env : String → Int → Answer) (hs : run s [(dt, .tick r env)] = .ok s')
    (c : Cx) (hc : c ∈ s.cxs) (hst : c.st = .connected) : c ∈ s'.cxs := by
  have hs' : timeout r env { s with clock := s.clock + dt } = .ok s' := by
    unfold run at hs
    cases h : step { s with clock := s.clock + dt } (.tick r env) with
    | err => rw [h] at hs; cases hs
    | ub => rw [h] at hs; cases hs
    | ok y => rw [h] at hs; cases hs; exact h
  obtain ⟨c', h1, h2, _⟩ := tick_one _ s' r env hs' c hc
  unfold tickOne at h1
  simp only [hst] at h1
  cases h1
  exact h2

/-- What comes of an attempt at a tick. -/
theorem C189_outcome (clock : Nat) (pro : Bool) (peers : List (String × Int × Bool)) (evs : List (Nat × Ev)) (s s' : St) (dt : Nat) (r : Bool)
    (env : String → Int → Answer) (hr : run (init clock pro peers) evs = .ok s) (hs : run s [(dt, .tick r env)] = .ok s')
    (c : Cx) (hc : c ∈ s.cxs) (hst : c.st = .stopped ∨ c.st = .waiting) (hdue : c.retry ≤ s.clock + dt) :
    ∃ c' ∈ s'.cxs, c'.host = c.host ∧ c'.port = c.port ∧ c'.giveUp = c.giveUp ∧
      match env c.host c.port with
      | .ok g => c'.st = .connected ∧ c'.gw = some g ∧ c'.sock = false
      | .inProgress => c'.st = .connecting ∧ c'.sock = true ∧ c'.fail = s.clock + dt + 10000 ∧ s'.timer = true
      | .error => c'.st = .waiting ∧ c'.sock = false ∧ c'.retry = s.clock + dt + 2000 := by
  have hi := inv_run evs _ s (inv_init clock pro peers) hr
  have ho := hi.each c hc
  have hs' : timeout r env { s with clock := s.clock + dt } = .ok s' := by
    unfold run at hs
    cases h : step { s with clock := s.clock + dt } (.tick r env) with
    | err => rw [h] at hs; cases hs
    | ub => rw [h] at hs; cases hs
    | ok y => rw [h] at hs; cases hs; exact h
  obtain ⟨c', h1, h2, _⟩ := tick_one _ s' r env hs' c hc
  have htm := (timeout_spec r env _ s' hs')
  obtain ⟨_, _, _, _, _, _, _, _, _, htm, _⟩ := htm
  refine ⟨c', h2, ?_⟩
  have hto : tickOne (s.clock + dt) (env c.host c.port) c = tryConnect (s.clock + dt) (env c.host c.port) c := by
    unfold tickOne
    rcases hst with e | e <;> rw [e] <;> dsimp only <;> rw [if_pos hdue]
  dsimp only at h1
  rw [hto] at h1
  rcases tryConnect_cases (s.clock + dt) (env c.host c.port) c ho.sock with ⟨e, _⟩ | ⟨_, fl, hfl, ⟨g, e0, e⟩ | ⟨e0, e⟩ | ⟨_, _, _, e⟩ | ⟨e0, _, e⟩⟩
  · rcases hst with h | h <;> rw [h] at e <;> cases e
  · rw [e] at h1
    cases h1
    rw [e0]
    exact ⟨rfl, rfl, rfl, rfl, rfl, rfl⟩
  · rw [e] at h1
    cases h1
    rw [e0]
    refine ⟨rfl, rfl, rfl, rfl, rfl, ?_, htm ⟨_, h2, rfl⟩⟩
    rcases hfl with h | ⟨h, _⟩
    · exact h
    · rcases hst with h' | h' <;> rw [h'] at h <;> cases h
  · rw [e] at h1; cases h1
  · rw [e] at h1
    cases h1
    rw [e0]
    exact ⟨rfl, rfl, rfl, rfl, rfl, rfl⟩

/-- A peer whose gateway says good-bye is tried again at once. -/
theorem C189_bye (clock : Nat) (pro : Bool) (peers : List (String × Int × Bool)) (evs : List (Nat × Ev)) (s s' : St) (gw : Nat) (a : Answer)
    (hr : run (init clock pro peers) evs = .ok s) (hs : step s (.bye gw a) = .ok s')
    (c : Cx) (hf : s.cxs.find? (fun c => decide (c.gw = some gw)) = some c) (hst : c.st = .connected) : s'.log = (s.now, c.host, c.port) :: s.log := by
  have hi := inv_run evs _ s (inv_init clock pro peers) hr
  unfold step at hs
  dsimp only at hs
  rw [hf] at hs
  dsimp only at hs
  rw [if_pos hst] at hs
  obtain ⟨hq0, as, bs, hsplit, hno⟩ := List.find?_eq_some_iff_append.mp hf
  rcases tryFirst_spec _ _ _ _ _ hs with ⟨_, h⟩ | ⟨l1, c1, l2, h1, h2, h3, _, _, _, _, hlog, hrest⟩
  · have := h c (by rw [hsplit]; simp)
    rw [hq0] at this
    cases this
  · have hcc : c1 = c := by
      rw [hsplit] at h1
      clear hsplit hs hf hi hr hrest
      induction as generalizing l1 with
      | nil =>
        cases l1 with
        | nil => simp at h1; exact h1.1.symm
        | cons d l =>
          simp only [List.nil_append, List.cons_append, List.cons.injEq] at h1
          have := h3 d (by simp)
          rw [← h1.1, hq0] at this
          cases this
      | cons d l ih =>
        cases l1 with
        | nil =>
          simp only [List.nil_append, List.cons_append, List.cons.injEq] at h1
          have := hno d (by simp)
          rw [h1.1, h2] at this
          cases this
        | cons d' l' =>
          simp only [List.cons_append, List.cons.injEq] at h1
          exact ih (fun x hx => hno x (by simp [hx])) l' h1.2 (fun x hx => h3 x (by simp [hx]))
    subst hcc
    have ho := hi.each c1 (by rw [hsplit]; simp)
    have hk : c1.sock = false := by
      cases hk : c1.sock with
      | false => rfl
      | true => rw [ho.sock.mp hk] at hst; cases hst
    rw [hlog, if_pos]
    rcases tryConnect_cases s.now a ⟨c1.host, c1.port, c1.unix, c1.sock, .waiting, c1.retry, c1.fail, if c1.giveUp ≠ 0 then s.clock + giveUpTimeout else 0, c1.gw⟩ (by simp [hk]) with
      ⟨e, _⟩ | ⟨_, fl, _, ⟨g, _, e⟩ | ⟨_, e⟩ | ⟨_, _, _, e⟩ | ⟨_, _, e⟩⟩
    · cases e
    all_goals rw [e]

theorem tryFirst_log (h : String) (p : Int) (g : Cx → Cx) (a : Answer) (s s' : St) (hi : Inv s) (hx : ∃ c ∈ s.cxs, c.host = h ∧ c.port = p)
    (hg : ∀ c : Cx, (g c).sock = c.sock ∧ (g c).st = c.st) (hn : ∀ c ∈ s.cxs, c.host = h → c.port = p → c.st ≠ .connected)
    (hs : tryFirst (fun c => decide (c.host = h) && decide (c.port = p)) g a s = .ok s') : s'.log = (s.now, h, p) :: s.log := by
  rcases tryFirst_spec _ _ _ _ _ hs with ⟨_, hno⟩ | ⟨l1, c, l2, h1, h2, _, _, _, _, _, hlog, _⟩
  · obtain ⟨c, hc, e1, e2⟩ := hx
    have := hno c hc
    simp [e1, e2] at this
  · simp only [Bool.and_eq_true, decide_eq_true_eq] at h2
    have hc : c ∈ s.cxs := by rw [h1]; simp
    have ho := hi.each c hc
    obtain ⟨g1, g2⟩ := hg c
    rw [hlog, if_pos, h2.1, h2.2]
    rcases tryConnect_cases s.now a (g c) (by rw [g1, g2]; exact ho.sock) with ⟨e, _⟩ | ⟨_, fl, _, ⟨g, _, e⟩ | ⟨_, e⟩ | ⟨_, _, _, e⟩ | ⟨_, _, e⟩⟩
    · rw [g2] at e; exact absurd e (hn c hc h2.1 h2.2)
    all_goals rw [e]

/-- A server that is heard of, and to be connected to, is tried at once. -/
theorem C189_advert (clock : Nat) (peers : List (String × Int × Bool)) (evs : List (Nat × Ev)) (s s' : St) (h : String) (p : Int) (u : Bool) (a : Answer)
    (hr : run (init clock true peers) evs = .ok s) (hpro : s.proactive = true) (hst : s.started = true) (hs : step s (.advert h p u a) = .ok s')
    (hn : ∀ c ∈ s.cxs, c.host = h → c.port = p → c.st ≠ .connected) : s'.log = (s.now, h, p) :: s.log := by
  have hi := inv_run evs _ s (inv_init clock true peers) hr
  have hi1 := inv_addConnection s h p u hi
  unfold step at hs
  dsimp only at hs
  rw [if_pos hpro, if_pos hst] at hs
  have hx : (∃ c ∈ addConnection s.clock h p u s.cxs, c.host = h ∧ c.port = p) ∧ ∀ c ∈ addConnection s.clock h p u s.cxs, c.host = h → c.port = p → c.st ≠ .connected := by
    rcases addConnection_spec s.clock h p u s.cxs with ⟨hx, e⟩ | ⟨_, e⟩
    · rw [e]; exact ⟨hx, hn⟩
    · rw [e]
      refine ⟨⟨_, List.mem_append_right _ (List.mem_singleton.mpr rfl), rfl, rfl⟩, ?_⟩
      intro c hc e1 e2
      rcases List.mem_append.mp hc with hc | hc
      · exact hn c hc e1 e2
      · rw [List.mem_singleton] at hc; subst hc; simp
  have := tryFirst_log h p _ a _ s' hi1 hx.1 (by intro c; exact ⟨rfl, rfl⟩) hx.2 hs
  exact this

/-- Before the start it is put on the list, to be given up after thirty seconds. -/
theorem C189_advert_early (s s' : St) (h : String) (p : Int) (u : Bool) (a : Answer) (hpro : s.proactive = true) (hst : s.started = false)
    (hs : step s (.advert h p u a) = .ok s') : ∃ c ∈ s'.cxs, c.host = h ∧ c.port = p ∧ c.giveUp = s.clock + 30000 := by
  unfold step at hs
  dsimp only at hs
  rw [if_pos hpro, if_neg (by rw [hst]; simp)] at hs
  cases hs
  have hx : ∃ c ∈ addConnection s.clock h p u s.cxs, c.host = h ∧ c.port = p := by
    rcases addConnection_spec s.clock h p u s.cxs with ⟨hx, e⟩ | ⟨_, e⟩
    · rw [e]; exact hx
    · rw [e]; exact ⟨_, List.mem_append_right _ (List.mem_singleton.mpr rfl), rfl, rfl⟩
  obtain ⟨c, hc, e1, e2⟩ := hx
  refine ⟨⟨c.host, c.port, c.unix, c.sock, c.st, c.retry, c.fail, s.clock + giveUpTimeout, c.gw⟩, List.mem_map.mpr ⟨c, hc, by rw [if_pos ⟨e1, e2⟩]⟩, e1, e2, rfl⟩

/-- So is a local server that was in the way of the process's own. -/
theorem C189_bindError (clock : Nat) (peers : List (String × Int × Bool)) (evs : List (Nat × Ev)) (s s' : St) (h : String) (p : Int) (a : Answer)
    (hr : run (init clock true peers) evs = .ok s) (hpro : s.proactive = true) (hst : s.started = true) (hs : step s (.bindError h p true a) = .ok s')
    (hn : ∀ c ∈ s.cxs, c.host = h → c.port = p → c.st ≠ .connected) : s'.log = (s.now, h, p) :: s.log := by
  have hi := inv_run evs _ s (inv_init clock true peers) hr
  have hi1 := inv_addConnection s h p true hi
  unfold step at hs
  dsimp only at hs
  rw [if_pos (by rw [hpro]; rfl), if_pos hst] at hs
  have hx : (∃ c ∈ addConnection s.clock h p true s.cxs, c.host = h ∧ c.port = p) ∧ ∀ c ∈ addConnection s.clock h p true s.cxs, c.host = h → c.port = p → c.st ≠ .connected := by
    rcases addConnection_spec s.clock h p true s.cxs with ⟨hx, e⟩ | ⟨_, e⟩
    · rw [e]; exact ⟨hx, hn⟩
    · rw [e]
      refine ⟨⟨_, List.mem_append_right _ (List.mem_singleton.mpr rfl), rfl, rfl⟩, ?_⟩
      intro c hc e1 e2
      rcases List.mem_append.mp hc with hc | hc
      · exact hn c hc e1 e2
      · rw [List.mem_singleton] at hc; subst hc; simp
  have := tryFirst_log h p _ a _ s' hi1 hx.1 (by intro c; exact ⟨rfl, rfl⟩) hx.2 hs
  exact this

/-- A peer that is connected is not connected to again, whatever is heard of its server. -/
theorem C189_once (clock : Nat) (peers : List (String × Int × Bool)) (evs : List (Nat × Ev)) (s s' : St) (h : String) (p : Int) (u : Bool) (a : Answer) (c : Cx)
    (hr : run (init clock true peers) evs = .ok s) (hc : c ∈ s.cxs) (e1 : c.host = h) (e2 : c.port = p) (hcon : c.st = .connected)
    (hs : step s (.advert h p u a) = .ok s' ∨ step s (.bindError h p u a) = .ok s') :
    s'.log = s.log ∧ ∃ c' ∈ s'.cxs, c'.host = h ∧ c'.port = p ∧ c'.st = .connected ∧ c'.gw = c.gw ∧ c'.sock = false := by
  have hi := inv_run evs _ s (inv_init clock true peers) hr
  have hk : ∀ d ∈ s.cxs, d.host = h → d.port = p → d = c := by
    intro d hd d1 d2
    obtain ⟨i, hi1, hi2⟩ := List.getElem_of_mem hd
    obtain ⟨j, hj1, hj2⟩ := List.getElem_of_mem hc
    have hp := List.pairwise_iff_getElem.mp hi.once
    rcases Nat.lt_trichotomy i j with h | h | h
    · exact absurd (show Same _ _ from ⟨by rw [hi2, hj2, d1, e1], by rw [hi2, hj2, d2, e2]⟩) (hp i j hi1 hj1 h)
    · subst h; exact hi2.symm.trans hj2
    · exact absurd (show Same _ _ from ⟨by rw [hi2, hj2, d1, e1], by rw [hi2, hj2, d2, e2]⟩) (hp j i hj1 hi1 h)
  have hsock : c.sock = false := by
    cases hk : c.sock with
    | false => rfl
    | true => rw [(hi.each c hc).sock.mp hk] at hcon; cases hcon
  have hadd : addConnection s.clock h p u s.cxs = s.cxs := by
    rcases addConnection_spec s.clock h p u s.cxs with ⟨_, e⟩ | ⟨hn, _⟩
    · exact e
    · exact absurd ⟨e1, e2⟩ (hn c hc)
  have key : ∀ g : Cx → Cx, (∀ d, (g d).host = d.host ∧ (g d).port = d.port ∧ (g d).st = d.st ∧ (g d).gw = d.gw ∧ (g d).sock = d.sock) →
      tryFirst (fun c => decide (c.host = h) && decide (c.port = p)) g a s = .ok s' →
      s'.log = s.log ∧ ∃ c' ∈ s'.cxs, c'.host = h ∧ c'.port = p ∧ c'.st = .connected ∧ c'.gw = c.gw ∧ c'.sock = false := by
    intro g hg ht
    rcases tryFirst_spec _ _ _ _ _ ht with ⟨_, hno⟩ | ⟨l1, c1, l2, h1, h2, _, _, _, _, _, hlog, h3⟩
    · have := hno c hc
      simp [e1, e2] at this
    · simp only [Bool.and_eq_true, decide_eq_true_eq] at h2
      have := hk c1 (by rw [h1]; simp) h2.1 h2.2
      subst this
      obtain ⟨g1, g2, g3, g4, g5⟩ := hg c1
      have ht : tryConnect s.now a (g c1) = ⟨some (g c1), false, false⟩ := by
        rcases tryConnect_cases s.now a (g c1) (by rw [g3, g5]; exact (hi.each c1 hc).sock) with ⟨_, e⟩ | ⟨e, _⟩
        · exact e
        · rw [g3] at e; exact absurd hcon e
      rw [ht] at hlog h3
      refine ⟨hlog, ?_⟩
      rcases h3 with ⟨c', k1, k2, _⟩ | ⟨k1, _⟩
      · cases k1
        exact ⟨g c1, by rw [k2]; simp, g1.trans e1, g2.trans e2, g3.trans hcon, g4, g5.trans hsock⟩
      · cases k1
  have hid : (⟨s.cxs, s.clock, s.now, s.timer, s.started, s.proactive, s.log⟩ : St) = s := rfl
  rcases hs with hs | hs
  · unfold step at hs
    dsimp only at hs
    split at hs
    · rw [hadd, hid] at hs
      split at hs
      · exact key _ (by intro d; exact ⟨rfl, rfl, rfl, rfl, rfl⟩) hs
      · cases hs
        exact ⟨rfl, ⟨c.host, c.port, c.unix, c.sock, c.st, c.retry, c.fail, s.clock + giveUpTimeout, c.gw⟩,
          List.mem_map.mpr ⟨c, hc, by rw [if_pos ⟨e1, e2⟩]⟩, e1, e2, hcon, rfl, hsock⟩
    · cases hs
      exact ⟨rfl, c, hc, e1, e2, hcon, rfl, hsock⟩
  · unfold step at hs
    dsimp only at hs
    split at hs
    · rw [hadd, hid] at hs
      split at hs
      · exact key id (by intro d; exact ⟨rfl, rfl, rfl, rfl, rfl⟩) hs
      · cases hs
        exact ⟨rfl, c, hc, e1, e2, hcon, rfl, hsock⟩
    · cases hs
      exact ⟨rfl, c, hc, e1, e2, hcon, rfl, hsock⟩

/-- A network server in the way is none of the client's business. -/
theorem C189_bindError_net (s : St) (h : String) (p : Int) (a : Answer) : step s (.bindError h p false a) = .ok s := by
  unfold step
  simp

/-- A connection said to be a duplicate is taken off the list. -/
theorem C189_duplicate (s s' : St) (h : String) (p : Int) (hpro : s.proactive = true) (hs : step s (.duplicate h p) = .ok s') :
    ∀ c, c ∈ s'.cxs ↔ c ∈ s.cxs ∧ ¬ (c.host = h ∧ c.port = p) := by
  unfold step at hs
  dsimp only at hs
  rw [if_pos hpro] at hs
  cases hs
  intro c
  unfold removeConnection
  simp only [List.mem_filter, Bool.not_eq_true', Bool.and_eq_false_iff, decide_eq_false_iff_not, not_and]
  constructor
  · rintro ⟨h1, h2⟩
    exact ⟨h1, fun e1 e2 => by rcases h2 with h | h <;> contradiction⟩
  · rintro ⟨h1, h2⟩
    refine ⟨h1, ?_⟩
    by_cases hp : c.port = p
    · exact Or.inr fun e => h2 e hp
    · exact Or.inl hp

example : ∃ s, run (init 5 false [("a", 1, true), ("b", 2, false)]) [(0, .start fun h _ => if h = "a" then .ok 7 else .inProgress), (200, .tick true fun _ _ => .inProgress),
    (10000, .tick true fun _ _ => .error), (2000, .tick false fun _ _ => .error), (1, .bye 7 .error)] = .ok s ∧ s.cxs.length = 2 ∧ s.log.length = 5 := by
  refine ⟨⟨[⟨"a", 1, true, false, .waiting, 14205, 22205, 0, some 7⟩, ⟨"b", 2, false, false, .waiting, 14205, 22205, 0, none⟩], 12206, 12205, false, true, false,
    [(12205, "a", 1), (12205, "b", 2), (205, "b", 2), (5, "b", 2), (5, "a", 1)]⟩, ?_, rfl, rfl⟩
  decide +kernel

/-! ## C190 -/

/-- **C190**: whatever happened, there is one connection for each host and port; a connection has a socket of its own exactly while it is being made; and while one is,
the short timer that looks after it runs. -/
theorem C190 (clock : Nat) (pro : Bool) (peers : List (String × Int × Bool)) (evs : List (Nat × Ev)) (s : St) (hr : run (init clock pro peers) evs = .ok s) :
    (∀ (i j : Nat) (c d : Cx), s.cxs[i]? = some c → s.cxs[j]? = some d → c.host = d.host → c.port = d.port → i = j) ∧
      (∀ c ∈ s.cxs, c.sock = true ↔ c.st = .connecting) ∧ ((∃ c ∈ s.cxs, c.st = .connecting) → s.timer = true) := by
  have hi := inv_run evs _ s (inv_init clock pro peers) hr
  refine ⟨?_, fun c hc => (hi.each c hc).sock, ?_⟩
  · intro i j c d hc hd h1 h2
    obtain ⟨hil, hc⟩ := List.getElem?_eq_some_iff.mp hc
    obtain ⟨hjl, hd⟩ := List.getElem?_eq_some_iff.mp hd
    have hp := List.pairwise_iff_getElem.mp hi.once
    rcases Nat.lt_trichotomy i j with h | h | h
    · exact absurd (show Same _ _ from ⟨by rw [hc, hd]; exact h1, by rw [hc, hd]; exact h2⟩) (hp i j hil hjl h)
    · exact h
    · exact absurd (show Same _ _ from ⟨by rw [hc, hd]; exact h1.symm, by rw [hc, hd]; exact h2.symm⟩) (hp j i hjl hil h)
  · rintro ⟨c, hc, e⟩
    exact (hi.each c hc).timer e

/-- When the short timer goes off and no connection is being made any more, it is stopped. -/
theorem C190_stops (s s' : St) (env : String → Int → Answer) (h : step s (.tick true env) = .ok s') (hn : ∀ c ∈ s'.cxs, c.st ≠ .connecting) : s'.timer = false := by
  obtain ⟨_, _, _, _, _, _, _, _, _, _, h2⟩ := timeout_spec true env s s' h
  exact h2 rfl hn

example : ∃ s, run (init 0 true []) [(0, .start fun _ _ => .error), (3, .advert "far" 4808 false .inProgress), (5, .advert "far" 4808 false .inProgress)] = .ok s ∧ s.cxs.length = 1 ∧
    s.timer = true := by
  refine ⟨⟨[⟨"far", 4808, false, true, .connecting, 3, 10000, 30008, none⟩], 8, 0, true, true, true, [(0, "far", 4808), (0, "far", 4808)]⟩, ?_, rfl, rfl⟩
  decide +kernel

end Verif.GwClient
