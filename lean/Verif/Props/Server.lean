import Verif.Proof.Server

/-!
# The command loop of the server: properties C220-C224
-/
namespace Verif.Server
open Verif.ServerSpec

variable {β : Type}

theorem reached_inv {ops : List (Op β)} {s : Sys β} (hP : ProperHistory ops) (h : Reached ops s) :
    Inv s ∧ s.crashed = false ∧ s.died = false := inv_run inv_init rfl rfl ops (properOps hP) h

/-! ## C220: every command is answered -/

/-- C220 in full: whenever nothing is waiting or being executed, and when the server has ended, each command
has got its reply (other events none). -/
def C220_full (β : Type) : Prop :=
  ∀ (ops : List (Op β)) (s : Sys β), ProperHistory ops → Reached ops s → Idle s ∨ s.main = .finished →
    ∀ (n : Nat) ev, s.events[n]? = some ev → Answered ev (repliesTo n s.out)

/-- What is missing: commands waiting when the server ends get no reply.  In every other case: a command
that need not wait has its reply as soon as it is taken, a command whose reply is missing is still in the
queue, and when nothing is waiting or being executed no reply is missing. -/
theorem C220_replies_partial {ops : List (Op β)} {s : Sys β} (hP : ProperHistory ops) (h : Reached ops s) (n : Nat)
    (ev : Event β) (hn : s.events[n]? = some ev) :
    (¬ QueuedAt s.events n → Answered ev (repliesTo n s.out)) ∧
    (¬ Answered ev (repliesTo n s.out) → repliesTo n s.out = [] ∧ ∃ e ∈ s.queue, e.n = n) ∧
    (Idle s → Answered ev (repliesTo n s.out)) := by
  obtain ⟨hi, _, _⟩ := reached_inv hP h
  obtain ⟨r1, r2⟩ := hi.rep n ev hn
  refine ⟨?_, ?_, ?_⟩
  · intro hq
    apply r2
    intro hm
    obtain ⟨e, he, rfl⟩ := List.mem_map.1 hm
    obtain ⟨_, _, _, _, _, _, g⟩ := issued_known (hi.issued e (pend_sub he))
    exact hq g
  · intro ha
    by_cases hm : n ∈ (pend s).map Entry.n
    · obtain ⟨e, he, hen⟩ := List.mem_map.1 hm
      exact ⟨r1 hm, e, pend_sub he, hen⟩
    · exact absurd (r2 hm) ha
  · intro hid
    apply r2
    intro hm
    obtain ⟨e, he, _⟩ := List.mem_map.1 hm
    have := pend_sub he
    rw [hid.1] at this
    cases this

/-- Commands that wait for their turn are answered in the order in which they came. -/
theorem C220_order {ops : List (Op β)} {s : Sys β} (hP : ProperHistory ops) (h : Reached ops s) :
    (answered s.out).Pairwise (fun a b => QueuedAt s.events a → QueuedAt s.events b → a < b) :=
  (reached_inv hP h).1.order

/-- No command is executed twice, and each with the arguments the client gave. -/
theorem C220_once {ops : List (Op β)} {s : Sys β} (hP : ProperHistory ops) (h : Reached ops s) :
    (s.ran.map Prod.fst).Nodup ∧
    ∀ n cmd a, (n, cmd, a) ∈ s.ran → ∃ ev p, s.events[n]? = some ev ∧ commandOf ev = some (cmd, p) ∧ a = argsOf p :=
  ⟨(reached_inv hP h).1.ranOnce, fun n cmd a hm => (reached_inv hP h).1.ran (n, cmd, a) hm⟩

theorem went_of_recv {s s' : Sys β} {ev : Event β} {o : Out β} (hs : step s (.recv ev o) = some s')
    {cmd : List String} {p : Payload β} (hc : commandOf ev = some (cmd, p)) :
    Went { s with main := .head, events := s.events ++ [ev] } s.events.length cmd p o s' := by
  have e := step_recv hs
  have hH := handle_eq { s with main := .head, events := s.events ++ [ev] } s.events.length ev o
  rw [← e] at hH
  cases hH with
  | command cmd' p' _ hc' hw => rw [hc] at hc'; cases hc'; exact hw
  | error hc' => rw [hc] at hc'; cases hc'
  | state hc' => rw [hc] at hc'; cases hc'
  | halt hc' => rw [hc] at hc'; cases hc'

theorem proper_not_bad {ev : Event β} {cmd : List String} {p : Payload β} (hP : Proper ev)
    (hc : commandOf ev = some (cmd, p)) : cmd ≠ [] ∧
    ¬ (p.index = .bad ∨ p.args = .bad ∨ ∃ a, p.args = .val a ∧ (a.silent = .bad ∨ a.sync = .bad)) := by
  unfold Proper at hP
  rw [hc] at hP
  refine ⟨hP.1, ?_⟩
  rintro (h | h | ⟨a, h, h' | h'⟩)
  · exact hP.2.1 h
  · exact hP.2.2.1 h
  · exact (hP.2.2.2 a h).1 h'
  · exact (hP.2.2.2 a h).2 h'

/-- A command that need not wait is executed at once, in whatever state the server is; the reply carries its
result, or the error it ended with. -/
theorem C220_direct {s s' : Sys β} {ev : Event β} {o : Out β} {cmd : List String} {p : Payload β} (hP : Proper ev)
    (hc : commandOf ev = some (cmd, p)) (hk : Known cmd) (hq : ¬ Queued cmd p)
    (hs : step s (.recv ev o) = some s') :
    s'.ran = s.ran ++ [(s.events.length, cmd, argsOf p)] ∧ s'.queue = s.queue ∧
    (∀ r, o = .done r → ¬ silent p → s'.out = s.out ++ [.reply s.events.length ("Result" :: cmd) (indexOf p) none
      (.result (decide (cmd = ["Execute", "Abort"] ∧ s.state = .executing)) r)]) ∧
    (o = .throws ∨ o = .noCommand → s'.out = s.out ++
      [.reply s.events.length ("Result" :: cmd) (indexOf p) none .error]) ∧
    s'.running = (if cmd = ["Halt"] then false else s.running) := by
  have hw := went_of_recv hs hc
  obtain ⟨b1, b2⟩ := proper_not_bad hP hc
  cases hw with
  | push hQ => exact absurd hQ hq
  | unknown hk' => exact absurd hk hk'
  | crash h => exact absurd h b1
  | die h => exact absurd h b2
  | direct _ _ =>
    obtain ⟨f1, f2, f3, f4, f5, f6, f7, f8⟩ := direct_frame
      { s with main := .head, events := s.events ++ [ev] } (entryOf s.events.length cmd p) o
    refine ⟨f6, f1, ?_, ?_, ?_⟩
    · intro r ho hsil
      subst ho
      rw [f4]
      have hns : ¬ (entryOf s.events.length cmd p).silent = true := fun h => hsil ((entry_silent _ _ _).1 h)
      unfold replyPosts content
      dsimp only
      rw [if_neg hns]
      rfl
    · rintro (ho | ho) <;> subst ho <;> exact f4
    · have hr : ∀ t : Sys β, (effect cmd t).running = (if cmd = ["Halt"] then false else t.running) := by
        intro t
        unfold effect
        split
        · rfl
        · split <;> rfl
      unfold Sys.direct
      dsimp only
      split
      · exact hr _
      · exact hr _

/-- A command that must wait is added to the end of the queue, and nothing else happens to it then. -/
theorem C220_queue {s s' : Sys β} {ev : Event β} {o : Out β} {cmd : List String} {p : Payload β} (hP : Proper ev)
    (hc : commandOf ev = some (cmd, p)) (hq : Queued cmd p) (hs : step s (.recv ev o) = some s') :
    ∃ e, s'.queue = s.queue ++ [e] ∧ e.n = s.events.length ∧ e.cmd = cmd ∧ e.index = indexOf p ∧ e.args = argsOf p ∧
      (e.silent = true ↔ silent p) ∧ s'.ran = s.ran ∧ s'.exec = s.exec ∧ s'.running = s.running := by
  have hw := went_of_recv hs hc
  obtain ⟨b1, b2⟩ := proper_not_bad hP hc
  cases hw with
  | push hQ => exact ⟨_, rfl, rfl, rfl, rfl, rfl, entry_silent _ _ _, rfl, rfl, rfl⟩
  | unknown hk' =>
    refine absurd ?_ hk'
    rcases hq with h | h
    · exact Or.inl h
    · exact h.1
  | crash h => exact absurd h b1
  | die h => exact absurd h b2
  | direct _ hq' => exact absurd hq hq'

/-- Events that are no commands get an error, except requests for the state and to halt. -/
theorem C220_other {s s' : Sys β} {ev : Event β} {o : Out β} (hc : commandOf ev = none)
    (hs : step s (.recv ev o) = some s') :
    (ev.id = ["Request", "State"] → s'.out = s.out ++ [.state s.state]) ∧
    (ev.id = ["Halt"] → s'.running = false) ∧
    (ev.id ≠ ["Request", "State"] → ev.id ≠ ["Halt"] → s'.out = s.out ++ [.error] ∧ s'.running = s.running) := by
  have e := step_recv hs
  subst e
  unfold Sys.handle
  split
  · rename_i cmd hid
    have hl : ev.load = none := by
      cases hl : ev.load with
      | none => rfl
      | some p =>
        unfold commandOf at hc
        rw [hid, hl] at hc
        cases hc
    rw [hl]
    refine ⟨?_, ?_, ?_⟩
    · intro h; rw [hid] at h; injection h with h _; exact absurd h (by decide)
    · intro h; rw [hid] at h; injection h with h _; exact absurd h (by decide)
    · intro _ _; exact ⟨rfl, rfl⟩
  · refine ⟨?_, ?_, ?_⟩
    · intro h; rw [if_pos h]; rfl
    · intro h
      rw [if_neg (by rw [h]; decide), if_pos h]
    · intro h1 h2
      rw [if_neg h1, if_neg h2]
      exact ⟨rfl, rfl⟩

/-- The queue never gets stuck: the execution thread can begin the first command that waits, whatever way
the command ends the thread posts its reply, and then goes on to the next one. -/
theorem C220_next {ops : List (Op β)} {s : Sys β} (hP : ProperHistory ops) (h : Reached ops s) :
    (∀ e q, s.running = true → s.exec = .idle → s.queue = e :: q →
      ∃ s', step s .take = some s' ∧ s'.exec = .began e .idle false ∧ s'.ran = s.ran ++ [(e.n, e.cmd, e.args)]) ∧
    (∀ e old, s.exec = .began e old false → e.cmd = ["Node", "Execute"] →
      ∃ s', step s .clear = some s' ∧ s'.exec = .began e old true ∧ s'.abort = false) ∧
    (∀ e old cl o, s.exec = .began e old cl → e.cmd ≠ ["Node", "Execute"] ∨ cl = true ∨ o = .throws →
      ∃ s', step s (.finish o) = some s' ∧ s'.exec = .posted e ∧
        (∀ r, o = .done r → e.silent = false → ∃ b, repliesTo e.n s'.out = [("Result" :: e.cmd, e.index, .result b r)]) ∧
        (o = .throws ∨ o = .noCommand → repliesTo e.n s'.out = [("Result" :: e.cmd, e.index, .error)])) ∧
    (∀ e, s.exec = .posted e → ∃ s' q, step s .pop = some s' ∧ s'.exec = .idle ∧ s.queue = e :: q ∧ s'.queue = q) := by
  obtain ⟨hi, hc, hd⟩ := reached_inv hP h
  have ha : ¬ (s.crashed = true ∨ s.died = true) := by rw [hc, hd]; simp
  refine ⟨?_, ?_, ?_, ?_⟩
  · intro e q hr hx hq
    obtain ⟨s', h1, h2, h3, _⟩ := can_take s ha hr e q hx hq
    rw [hi.st (by intro e' o c h'; rw [hx] at h'; cases h')] at h2
    exact ⟨s', h1, h2, h3⟩
  · intro e old hx he
    exact can_clear s ha e old hx he
  · intro e old cl o hx hcond
    obtain ⟨s', h1, h2, _, app, ps, h4, h5⟩ := can_finish s ha e old cl hx o hcond
    obtain ⟨q, hq⟩ := hi.head e old cl hx
    have hm : e ∈ s.queue := by rw [hq]; exact List.mem_cons_self
    obtain ⟨ev, p, g1, _⟩ := issued_known (hi.issued e hm)
    have h0 : repliesTo e.n s.out = [] := by
      refine (hi.rep e.n ev g1).1 ?_
      unfold pend
      rw [hx]
      exact List.mem_map.2 ⟨e, hm, rfl⟩
    have h6 : repliesTo e.n s'.out = repliesTo e.n (replyPosts e app s.state o) := by
      rw [h4, repliesTo_append, repliesTo_append, h0, repliesTo_nil (ps := ps) (by rw [h5]; exact List.not_mem_nil),
        List.append_nil, List.nil_append]
    refine ⟨s', h1, h2, ?_, ?_⟩
    · intro r ho hsil
      subst ho
      refine ⟨aborting e.cmd s.state, ?_⟩
      rw [h6]
      unfold replyPosts content
      dsimp only
      rw [if_neg (by rw [hsil]; decide)]
      dsimp only
      rw [repliesTo, if_pos rfl]
      rfl
    · rintro (ho | ho) <;> subst ho <;> rw [h6] <;> unfold replyPosts content <;> dsimp only <;>
        rw [repliesTo, if_pos rfl] <;> rfl
  · intro e hx
    obtain ⟨s', h1, h2, h3⟩ := can_pop s ha e hx
    obtain ⟨q, hq⟩ := hi.headP e hx
    exact ⟨s', q, h1, h2, hq, by rw [h3, hq]; rfl⟩

/-- A command of a client. -/
def cmdEv (cmd : List String) (ix : Int) : Event Nat := ⟨"Command" :: cmd, some ⟨.val ix, .absent⟩⟩

/-- Two commands that wait, then a request to halt. -/
def haltOps : List (Op Nat) :=
  [.check, .recv (cmdEv ["Create", "Node"] 1) .throws, .check, .recv (cmdEv ["Delete", "Node"] 2) .throws,
   .check, .recv ⟨["Halt"], none⟩ .throws, .exit, .check, .join]

theorem cmdEv_proper {cmd : List String} (h : cmd ≠ []) (ix : Int) : Proper (cmdEv cmd ix) :=
  ⟨h, (fun h => by cases h), (fun h => by cases h), (fun a h => by cases h)⟩

theorem halt_proper : Proper (⟨["Halt"], none⟩ : Event Nat) := by
  unfold Proper
  have : commandOf (⟨["Halt"], none⟩ : Event Nat) = none := rfl
  rw [this]
  trivial

theorem haltOps_proper : ProperHistory haltOps := by
  intro ev o hm
  simp only [haltOps, List.mem_cons, List.not_mem_nil, or_false, reduceCtorEq, false_or, Op.recv.injEq] at hm
  rcases hm with ⟨rfl, _⟩ | ⟨rfl, _⟩ | ⟨rfl, _⟩
  · exact cmdEv_proper (by decide) 1
  · exact cmdEv_proper (by decide) 2
  · exact halt_proper

/-- The full statement is false: a request to halt ends the server with commands in the queue that never get
a reply. -/
theorem C220_refuted : ¬ C220_full Nat := by
  intro hf
  cases hs : run (Sys.init Nat) haltOps with
  | none => have h : (run (Sys.init Nat) haltOps).isSome = true := by decide +kernel
            rw [hs] at h; cases h
  | some s =>
    have h1 : (run (Sys.init Nat) haltOps).map (fun s => s.main) = some .finished := rfl
    have h2 : (run (Sys.init Nat) haltOps).map (fun s => s.events[1]?) = some (some (cmdEv ["Delete", "Node"] 2)) := rfl
    have h3 : (run (Sys.init Nat) haltOps).map (fun s => repliesTo 1 s.out) = some [] := rfl
    rw [hs] at h1 h2 h3
    injection h1 with h1
    injection h2 with h2
    injection h3 with h3
    have h4 := hf haltOps s haltOps_proper hs (Or.inr h1) 1 _ h2
    rw [show repliesTo 1 s.out = [] from h3] at h4
    rcases h4 with ⟨_, _, _, h⟩ | ⟨_, ⟨a, h, _⟩, _⟩ | ⟨_, h⟩
    · cases h
    · cases h
    · cases h

/-- A history with a queued command, a direct one answered first, and their replies. -/
def workOps : List (Op Nat) :=
  [.check, .recv (cmdEv ["Node", "Execute"] 7) .throws, .check, .take, .clear,
   .recv (cmdEv ["Get", "Node", "List"] 8) (.done 5), .finish (.done 3), .pop, .check]

theorem workOps_proper : ProperHistory workOps := by
  intro ev o hm
  simp only [workOps, List.mem_cons, List.not_mem_nil, or_false, reduceCtorEq, false_or, Op.recv.injEq] at hm
  rcases hm with ⟨rfl, _⟩ | ⟨rfl, _⟩
  · exact cmdEv_proper (by decide) 7
  · exact cmdEv_proper (by decide) 8

example : ∃ s, Reached workOps s ∧ Idle s ∧
    repliesTo 0 s.out = [(["Result", "Node", "Execute"], 7, .result false 3)] ∧
    repliesTo 1 s.out = [(["Result", "Get", "Node", "List"], 8, .result false 5)] ∧ answered s.out = [1, 0] ∧
    s.ran.map Prod.fst = [0, 1] :=
  ⟨_, rfl, ⟨rfl, rfl⟩, rfl, rfl, rfl, rfl⟩

example : ¬ QueuedAt [cmdEv ["Node", "Execute"] 7, cmdEv ["Get", "Node", "List"] 8] 1 := by
  rintro ⟨ev, cmd, p, h1, h2, h3⟩
  cases h1
  cases h2
  rcases h3 with h3 | ⟨_, a, h3, _⟩
  · exact absurd h3 (by decide)
  · cases h3

/-! ## C221: no event ends the server -/

/-- C221 in full: whatever clients send, the server does not crash or end by an exception. -/
def C221_full (β : Type) : Prop :=
  ∀ (ops : List (Op β)) (s : Sys β), Reached ops s → s.crashed = false ∧ s.died = false

/-- Missing: events that are not made as they should be. -/
theorem C221_survives_partial {ops : List (Op β)} {s : Sys β} (hP : ProperHistory ops) (h : Reached ops s) :
    s.crashed = false ∧ s.died = false := (reached_inv hP h).2

/-- The full statement is false: the event `Command`, with no name of a command, makes the server read the
first element of an empty vector. -/
theorem C221_refuted : ¬ C221_full Nat := by
  intro hf
  have := (hf [.check, .recv ⟨["Command"], some ⟨.absent, .absent⟩⟩ .throws] _ rfl).1
  exact absurd this (by decide)

/-- And an index, arguments or a flag of the wrong type end it by an exception nobody catches, whatever the
command. -/
theorem C221_refuted_types (cmd : List String) (p : Payload Nat)
    (hb : p.index = .bad ∨ p.args = .bad ∨ ∃ a, p.args = .val a ∧ (a.silent = .bad ∨ a.sync = .bad)) :
    ∃ s, Reached [.check, .recv ⟨"Command" :: cmd, some p⟩ .throws] s ∧ s.died = true := by
  refine ⟨_, rfl, ?_⟩
  have e : ∀ t : Sys Nat, t.command 0 cmd p .throws = { t with died := true } := by
    intro t
    unfold Sys.command
    rcases hb with h | h | ⟨a, h, h' | h'⟩
    · rw [h]; rfl
    · rw [h]
      cases p.index.get 0 <;> rfl
    · rw [h]
      unfold readArgs
      dsimp only
      rw [h']
      cases p.index.get 0 <;> rfl
    · rw [h]
      unfold readArgs
      dsimp only
      rw [h']
      cases p.index.get 0 <;> cases a.silent.get false <;> rfl
  show (Sys.command _ 0 cmd p .throws).died = true
  rw [e]

example : ∃ (p : Payload Nat) (a : Args Nat), p.args = .val a ∧ a.silent = .bad :=
  ⟨⟨.val 1, .val ⟨.bad, .absent, 0⟩⟩, _, rfl, rfl⟩

/-! ## C222: the state clients are told -/

/-- At every moment the state that clients were told last is the state of the server, and that state says
what the server is doing: executing a node, making nodes, clearing the forest, or none of these. -/
theorem C222_state {ops : List (Op β)} {s : Sys β} (hP : ProperHistory ops) (h : Reached ops s) :
    told s.out = s.state ∧
    (s.state = .executing ↔ ∃ e old cl, s.exec = .began e old cl ∧ e.cmd = ["Node", "Execute"]) ∧
    (s.state = .constructing ↔ ∃ e old cl, s.exec = .began e old cl ∧ e.cmd = ["Create", "Node", "Batch"]) ∧
    (s.state = .updating ↔ ∃ e old cl, s.exec = .began e old cl ∧ e.cmd = ["Clear", "Forest"]) := by
  obtain ⟨hi, _, _⟩ := reached_inv hP h
  refine ⟨hi.told, ?_⟩
  by_cases hb : ∃ e old cl, s.exec = .began e old cl
  · obtain ⟨e, old, cl, hx⟩ := hb
    obtain ⟨_, hst⟩ := hi.old e old cl hx
    have key : ∀ c : List String, (∃ e' old' cl', s.exec = .began e' old' cl' ∧ e'.cmd = c) ↔ e.cmd = c := by
      intro c
      constructor
      · rintro ⟨e', o', c', h1, h2⟩
        rw [hx] at h1
        cases h1
        exact h2
      · intro h1
        exact ⟨e, old, cl, hx, h1⟩
    rw [key, key, key, hst]
    unfold stateOf
    by_cases h1 : e.cmd = ["Node", "Execute"]
    · rw [h1]; decide
    · by_cases h2 : e.cmd = ["Create", "Node", "Batch"]
      · rw [h2]; decide
      · by_cases h3 : e.cmd = ["Clear", "Forest"]
        · rw [h3]; decide
        · simp [h1, h2, h3]
  · have hst := hi.st (fun e old cl hx => hb ⟨e, old, cl, hx⟩)
    have key : ∀ c : List String, ¬ ∃ e' old' cl', s.exec = .began e' old' cl' ∧ e'.cmd = c := by
      rintro c ⟨e', o', c', h1, _⟩
      exact hb ⟨e', o', c', h1⟩
    rw [hst]
    exact ⟨⟨(fun h => by cases h), (fun h => absurd h (key _))⟩, ⟨(fun h => by cases h), (fun h => absurd h (key _))⟩,
      ⟨(fun h => by cases h), (fun h => absurd h (key _))⟩⟩

example : ∃ s, Reached (workOps.take 5) s ∧ s.state = .executing ∧ told s.out = .executing ∧
    ∃ s', Reached workOps s' ∧ told s'.out = .idle :=
  ⟨_, rfl, rfl, rfl, _, rfl, rfl⟩

/-! ## C223: requests to abort -/

/-- C223 in full: after the reply that the execution is being aborted, the request stays raised until that
execution ends. -/
def C223_full (β : Type) : Prop :=
  ∀ (ops ops' : List (Op β)) (s s1 s2 : Sys β) ev o id ix r n, ProperHistory ops → ProperHistory ops' → Proper ev →
    Reached ops s → Executing s n → step s (.recv ev o) = some s1 →
    repliesTo s.events.length s1.out = [(id, ix, .result true r)] →
    run s1 ops' = some s2 → Executing s2 n → s2.abort = true

/-- Missing: requests that come before the execution has got past its start.  After that, a request that is
taken is answered so, is raised at once and stays raised until the execution ends. -/
theorem C223_abort_partial {ops ops' : List (Op β)} {s s1 s2 : Sys β} {ev : Event β} {p : Payload β} {r : β} {n : Nat}
    (hP : ProperHistory ops) (hP' : ProperHistory ops') (hPe : Proper ev) (h : Reached ops s) (hx : Started s n)
    (hc : commandOf ev = some (["Execute", "Abort"], p)) (hsync : ¬ sync p)
    (hs : step s (.recv ev (.done r)) = some s1) (hr : run s1 ops' = some s2) :
    s1.abort = true ∧
    (¬ silent p → repliesTo s.events.length s1.out = [(["Result", "Execute", "Abort"], indexOf p, .result true r)]) ∧
    (Executing s2 n → s2.abort = true) := by
  obtain ⟨hi, _, _⟩ := reached_inv hP h
  obtain ⟨e, old, hx1, hx2, hx3⟩ := hx
  have hk : Known ["Execute", "Abort"] := Or.inr (Or.inl (by decide))
  have hq : ¬ Queued ["Execute", "Abort"] p := by
    rintro (h1 | h1)
    · exact absurd h1 (by decide)
    · exact hsync h1.2
  obtain ⟨d1, d2, d3, d4, d5⟩ := C220_direct hPe hc hk hq hs
  have hw := went_of_recv hs hc
  have hab : s1.abort = true ∧ s1.exec = s.exec := by
    obtain ⟨b1, b2⟩ := proper_not_bad hPe hc
    cases hw with
    | push hQ => exact absurd hQ hq
    | unknown hk' => exact absurd hk hk'
    | crash h => exact absurd h b1
    | die h => exact absurd h b2
    | direct _ _ =>
      refine ⟨?_, (direct_frame _ _ _).2.1⟩
      rw [direct_abort]
      rfl
  have hst : s.state = .executing := by
    have := (hi.old e old true hx1).2
    rw [hx3] at this
    exact this
  refine ⟨hab.1, ?_, ?_⟩
  · intro hsil
    rw [d3 r rfl hsil, repliesTo_append, repliesTo_nil (fun hm => Nat.lt_irrefl _ (hi.lt _ hm)), hst]
    rw [repliesTo, if_pos rfl]
    rfl
  · rintro ⟨e2, old2, cl2, g1, g2, g3⟩
    have hran : RanHead s := ranHead_run (fun e old cl h => by cases h) ops h
    obtain ⟨rr, hrr⟩ := step_ran _ hs
    have ht : Track e old true s1 := by
      refine ⟨?_, Or.inl ⟨hab.2.trans hx1, hab.1⟩⟩
      rw [hrr, List.map_append]
      exact List.mem_append_left _ (hran e old true hx1)
    have hi1 := (inv_step hi _ (show ProperOp (.recv ev (.done r)) from hPe) hs).1
    obtain ⟨_, ht2⟩ := track_run hi1 e old true ht ops' (properOps hP') (Or.inl rfl) hr
    rcases ht2 with ht2 | ht2
    · exact ht2.2
    · exact absurd (g2.trans hx2.symm) (ht2 e2 old2 cl2 g1)

/-- An execution is not aborted by requests made before it: without a new request, the flag that it cleared
at its start stays so until it ends. -/
theorem C223_no_leak {ops ops' : List (Op β)} {s s1 s2 : Sys β} {n : Nat} (hP : ProperHistory ops)
    (hP' : ProperHistory ops') (h : Reached ops s) (hs : step s .clear = some s1) (hx : Started s1 n)
    (hno : ∀ o ∈ ops', ¬ IsAbort o) (hr : run s1 ops' = some s2) (hx2 : Executing s2 n) : s2.abort = false := by
  obtain ⟨hi, _, _⟩ := reached_inv hP h
  obtain ⟨e, old, hx1, hxn, hx3⟩ := hx
  obtain ⟨e2, old2, cl2, g1, g2, g3⟩ := hx2
  have hran : RanHead s1 := ranHead_step (ranHead_run (fun e old cl h => by cases h) ops h) _ hs
  have hab : s1.abort = false := by
    have ha := step_alive hs
    unfold step at hs
    rw [if_neg ha] at hs
    dsimp only at hs
    split at hs
    · split at hs
      · cases hs; rfl
      · cases hs
    · cases hs
  have hi1 := (inv_step hi .clear trivial hs).1
  obtain ⟨_, ht2⟩ := track_run hi1 e old false ⟨hran e old true hx1, Or.inl ⟨hx1, hab⟩⟩ ops' (properOps hP')
    (Or.inr hno) hr
  rcases ht2 with ht2 | ht2
  · exact ht2.2
  · exact absurd (g2.trans hxn.symm) (ht2 e2 old2 cl2 g1)

/-- An execution that has begun but not yet cleared the flag. -/
def beginOps : List (Op Nat) := [.check, .recv (cmdEv ["Node", "Execute"] 7) .throws, .check, .take]

theorem beginOps_proper : ProperHistory beginOps := by
  intro ev o hm
  simp only [beginOps, List.mem_cons, List.not_mem_nil, or_false, reduceCtorEq, false_or, Op.recv.injEq] at hm
  rcases hm with ⟨rfl, _⟩
  exact cmdEv_proper (by decide) 7

/-- The full statement is false: the server says that it is executing before the flag is cleared, and a
request in between is forgotten although it was answered. -/
theorem C223_refuted : ¬ C223_full Nat := by
  intro hf
  have h := hf beginOps [.clear] _ _ _ (cmdEv ["Execute", "Abort"] 9) (.done 0) _ _ _ 0 beginOps_proper
    (by intro ev o hm; simp at hm) (cmdEv_proper (by decide) 9) rfl ⟨_, _, _, rfl, rfl, rfl⟩ rfl rfl rfl
    ⟨_, _, _, rfl, rfl, rfl⟩
  exact absurd h (by decide)

example : ∃ s s1 s2, Reached (beginOps ++ [.clear]) s ∧ Started s 0 ∧
    step s (.recv (cmdEv ["Execute", "Abort"] 9) (.done 0)) = some s1 ∧ run s1 [.check] = some s2 ∧ Executing s2 0 ∧
    s2.abort = true :=
  ⟨_, _, _, rfl, ⟨_, _, rfl, rfl, rfl⟩, rfl, rfl, ⟨_, _, _, rfl, rfl, rfl⟩, rfl⟩

/-! ## C224: the list of nodes -/

/-- C224 in full: a client that is told that its list is still good has the list of the nodes there are (no
change being under way). -/
def C224_full (ν : Type) : Prop :=
  ∀ (f : ν) (ops : List (NOp ν)) (s s' : Nodes ν) k, NReached f ops s → s.pending = false → s.get = .asked k →
    nstep s .compare = some s' → s'.get = .idle → ∃ l k', s.known = some (l, k') ∧ l = s.forest

/-- Missing: lists that were copied while the forest was being changed, and more than 2^31 - 3 changes. -/
theorem C224_unchanged_partial {ν : Type} {f : ν} {ops : List (NOp ν)} {s s' : Nodes ν} {k : Nat}
    (h : NReached f ops s) (hcalm : Calm f ops) (hb : s.changes + 2 < 2 ^ 31) (hp : s.pending = false)
    (hg : s.get = .asked k) (hs : nstep s .compare = some s') (hs' : s'.get = .idle) :
    ∃ l k', s.known = some (l, k') ∧ l = s.forest := by
  have hi := ninv_run (ninv_init f) ops hb hcalm h
  unfold nstep at hs
  dsimp only at hs
  rw [hg] at hs
  dsimp only at hs
  split at hs
  · cases hs; cases hs'
  · next hk =>
    have hk0 : k ≠ 0 := fun h => hk (Or.inl h)
    have hks : k = s.serial := Decidable.of_not_not (fun h => hk (Or.inr h))
    rcases hi.asked k hg with h0 | ⟨l, hl⟩
    · exact absurd h0 hk0
    · rcases (hi.known l k hl).2.2 hks with h1 | h1
      · exact ⟨l, k, hl, h1⟩
      · rw [hp] at h1; cases h1

/-- A client that has no list, or one with another number, gets the nodes there are when it asks. -/
theorem C224_list {ν : Type} (s : Nodes ν) (hg : s.get = .idle)
    (hk : s.known = none ∨ ∃ l k, s.known = some (l, k) ∧ (k = 0 ∨ k ≠ s.serial)) :
    ∃ s', nrun s [.ask, .compare, .reply] = some s' ∧ s'.known = some (s.forest, s.serial) ∧ s'.get = .idle := by
  rcases hk with hk | ⟨l, k, hk, hk'⟩
  · refine ⟨{ s with get := .idle, known := some (s.forest, s.serial) }, ?_, rfl, rfl⟩
    simp [nrun, nstep, hg, hk]
  · refine ⟨{ s with get := .idle, known := some (s.forest, s.serial) }, ?_, rfl, rfl⟩
    simp only [nrun, nstep, hg, hk]
    rw [if_pos hk']

/-- The full statement is false: the list is copied, the forest is changed and its number incremented, and
the new number goes out with the old list. -/
theorem C224_refuted : ¬ C224_full Bool := by
  intro hf
  obtain ⟨l, k, h1, h2⟩ := hf false [.ask, .compare, .change true, .incr, .reply, .ask] _ _ 2 rfl rfl rfl rfl rfl
  cases h1
  cases h2

theorem calm_example : Calm false [.change true, .incr, .ask, .compare, .reply, .ask] := by
  intro pre g post s he hr l
  have : pre = [] := by
    cases pre with
    | nil => rfl
    | cons a as =>
      exfalso
      have hm : NOp.change g ∈ ([.incr, .ask, .compare, .reply, .ask] : List (NOp Bool)) := by
        injection he with _ he
        rw [he]
        exact List.mem_append_right _ List.mem_cons_self
      simp at hm
  subst this
  cases hr
  intro h
  cases h

example : ∃ s s', NReached false [.change true, .incr, .ask, .compare, .reply, .ask] s ∧ s.get = .asked 2 ∧
    nstep s .compare = some s' ∧ s'.get = .idle ∧ s.known = some (true, 2) :=
  ⟨_, _, rfl, rfl, rfl, rfl, rfl⟩

end Verif.Server
