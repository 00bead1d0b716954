import Verif.Proof.GatewayRoute
/-! # Routing between processes (C93-C97) -/
namespace Verif.Route
open Disp

/-! ## C93: which messages a gateway takes -/

/-- **C93, in full**: a gateway with a table that describes the process at the other end takes a message that was just sent if and only if
a WP there, other than a gateway, gets it. -/
def C93_full : Prop := ∀ (g : Gw) (d : Disp.State) (e : Env), Sane d → Linked g d → Fresh e →
  (willForward g e = true ↔ ∃ w, Gets d e w ∧ w.cls ≠ aidGatewayWP)

/-- **C93**: nothing is held back: a message that a WP at the other end gets is taken, whatever its destination. -/
theorem C93_no_loss (g : Gw) (d : Disp.State) (e : Env) (w : Wpid) (hs : Sane d) (hl : Linked g d) (hf : Fresh e) (h : Gets d e w) (hw : w.cls ≠ aidGatewayWP) :
    willForward g e = true := forward_of_gets hs hl hf h hw

/-- **C93**: for destinations without `*` the gateway takes a message if and only if a WP at the other end gets it.  (Missing:
destinations with `*`, see `C93_refuted`.) -/
theorem C93_partial (g : Gw) (d : Disp.State) (e : Env) (hs : Sane d) (hl : Linked g d) (hf : Fresh e)
    (hd : ∀ x ∈ ids e.dst, x ≠ -2) :
    willForward g e = true ↔ ∃ w, Gets d e w ∧ w.cls ≠ aidGatewayWP :=
  ⟨fun h => gets_of_forward hs hl hf hd h, fun ⟨_, h, hw⟩ => forward_of_gets hs hl hf h hw⟩

namespace Demo
/-- A WP. -/
def w : Wpid := ⟨-1005, 0⟩
/-- A gateway. -/
def gid : Wpid := ⟨-1071, 0⟩
/-- The subscriptions of the WP: everything of class 7. -/
def subs : Subs.State := Subs.run (.subscribe .new [7, -2] [-1, -1, -1, -1])
/-- A process with the WP and a gateway. -/
def disp (proc : Int) : Disp.State := ⟨1, proc, [(w, ⟨WPQueue.init, subs⟩), (gid, ⟨WPQueue.init, Subs.init⟩)], [], [gid], false, 0⟩
/-- Its gateway, connected to another such process. -/
def gate (proc other : Int) : Gw := ⟨⟨gid, proc, 1⟩, true, other, 1, mirror (disp other)⟩
/-- Two processes. -/
def net : Net := ⟨fun p => if p = 0 then ⟨disp 2, fun x => if x.cls = -1071 then some { gate 2 3 with addr := ⟨x, 2, 1⟩ } else none⟩
  else ⟨disp 3, fun x => if x.cls = -1071 then some { gate 3 2 with addr := ⟨x, 3, 1⟩ } else none⟩, fun p _ => if p = 0 then (1, gid) else (0, gid)⟩
/-- A message. -/
def env (id : List Int) (dst : Addr) : Env := ⟨⟨0, id, 0⟩, ⟨w, 2, 1⟩, dst, 0, none⟩

theorem sane (p : Int) (hp : p = 2 ∨ p = 3) : Sane (disp p) := by
  refine ⟨?_, ?_, ?_, ?_⟩
  · show (1 : Int) ≠ -1 ∧ (1 : Int) ≠ -2
    decide
  · unfold Concrete
    rcases hp with rfl | rfl <;> decide
  · show [w, gid].Nodup
    decide
  · intro x hx
    simp only [disp, List.mem_cons, List.not_mem_nil, or_false] at hx
    rcases hx with rfl | rfl <;> (unfold Concrete; decide)

theorem linked (p q : Int) : Linked (gate p q) (disp q) := ⟨rfl, rfl, rfl, rfl⟩

theorem mesh : Mesh net 2 := by
  have two : ∀ p, p < 2 → p = 0 ∨ p = 1 := by omega
  refine ⟨?_, ?_, ?_, ?_, ?_, ?_, ?_, ?_⟩
  · intro p hp
    rcases two p hp with rfl | rfl
    · exact sane 2 (Or.inl rfl)
    · exact sane 3 (Or.inr rfl)
  · intro p hp
    rcases two p hp with rfl | rfl <;> simp [net, disp]
  · intro p q hp hq hne
    rcases two p hp with rfl | rfl <;> rcases two q hq with rfl | rfl
    · exact absurd rfl hne
    · decide
    · decide
    · exact absurd rfl hne
  · intro p x hp
    rcases two p hp with rfl | rfl
    · simp only [net, if_true, aidGatewayWP]
      split <;> simp_all
    · simp only [net, if_neg (show ¬ (1 : Nat) = 0 by decide), aidGatewayWP]
      split <;> simp_all
  · intro p x g hp hg
    rcases two p hp with rfl | rfl
    · simp only [net, if_true] at hg
      split at hg
      · injection hg with hg; rw [← hg]
      · cases hg
    · simp only [net, if_neg (show ¬ (1 : Nat) = 0 by decide)] at hg
      split at hg
      · injection hg with hg; rw [← hg]
      · cases hg
  · intro p x hp hx
    rcases two p hp with rfl | rfl
    · have : x = gid := by simpa [net, disp] using hx
      subst this
      exact ⟨by decide, by decide, _, rfl, linked 2 3⟩
    · have : x = gid := by simpa [net, disp] using hx
      subst this
      exact ⟨by decide, by decide, _, rfl, linked 3 2⟩
  · intro p x x' hp hx hx' _
    rcases two p hp with rfl | rfl
    · have h1 : x = gid := by simpa [net, disp] using hx
      have h2 : x' = gid := by simpa [net, disp] using hx'
      rw [h1, h2]
    · have h1 : x = gid := by simpa [net, disp] using hx
      have h2 : x' = gid := by simpa [net, disp] using hx'
      rw [h1, h2]
  · intro p q hp hq hne
    rcases two p hp with rfl | rfl <;> rcases two q hq with rfl | rfl
    · exact absurd rfl hne
    · exact ⟨gid, by decide, rfl⟩
    · exact ⟨gid, by decide, rfl⟩
    · exact absurd rfl hne
end Demo

/-- **C93 is false of the code**: a message to `*` as a class and an instance is taken by the gateway, although no WP at the other end gets
it. -/
theorem C93_refuted : ¬ C93_full := by
  intro h
  have := (h (Demo.gate 2 3) (Demo.disp 3) (Demo.env [7, 1] ⟨⟨-2, 0⟩, 3, 1⟩) (Demo.sane 3 (Or.inr rfl)) (Demo.linked 2 3) (by unfold Fresh; decide +kernel)).1 (by decide +kernel)
  obtain ⟨w, hw, _⟩ := this
  have : localRecipients (Demo.disp 3) (Demo.env [7, 1] ⟨⟨-2, 0⟩, 3, 1⟩).m (ids (Demo.env [7, 1] ⟨⟨-2, 0⟩, 3, 1⟩).sender) ⟨⟨-2, 0⟩, 3, 1⟩ = [] := by decide +kernel
  unfold Gets at hw
  rw [show (Demo.env [7, 1] ⟨⟨-2, 0⟩, 3, 1⟩).dst = ⟨⟨-2, 0⟩, 3, 1⟩ from rfl, this] at hw
  cases hw

/-- C93 is not vacuous: a published message of class 7 is taken, one of class 8 is not; a message to the WP is taken, one to another is not. -/
example : willForward (Demo.gate 2 3) (Demo.env [7, 1] ⟨⟨-1060, -1060⟩, -1, -1⟩) = true ∧ willForward (Demo.gate 2 3) (Demo.env [8, 1] ⟨⟨-1060, -1060⟩, -1, -1⟩) = false ∧
    willForward (Demo.gate 2 3) (Demo.env [8, 1] ⟨Demo.w, 3, 1⟩) = true ∧ willForward (Demo.gate 2 3) (Demo.env [8, 1] ⟨⟨-1006, 0⟩, 3, 1⟩) = false ∧
    Fresh (Demo.env [8, 1] ⟨Demo.w, 3, 1⟩) := by unfold Fresh; decide +kernel

/-! ## C94: the table follows the WPs of the peer -/

/-- **C94, in full**: whatever happened before the gateway subscribed to the news (`e1`), between that and the moment the first message of
the connection was made up (`e2`), and since (`e3`): once all news have arrived the table says of each WP what is true of it, provided
that all WPs are started. -/
def C94_full : Prop := ∀ (e1 e2 e3 : List Ev), let start : Peer := ⟨[], []⟩
  let p1 := (start.run e1).1
  let p2 := (p1.run e2).1
  let p3 := (p2.run e3).1
  start.valid (e1 ++ (e2 ++ e3)) → (∀ id x, mapGet id p3.wps = some x → x.2 = true) →
  ∀ id, known (((p1.run e2).2 ++ (p2.run e3).2).foldl learn p2.table) id = actual p3 id

/-- **C94**: so it is, if WPs leave their subscriptions alone while they stop. -/
theorem C94_partial (e1 e2 e3 : List Ev) : let start : Peer := ⟨[], []⟩
    let p1 := (start.run e1).1
    let p2 := (p1.run e2).1
    let p3 := (p2.run e3).1
    start.valid (e1 ++ (e2 ++ e3)) → NoLate (e2 ++ e3) → (∀ id x, mapGet id p3.wps = some x → x.2 = true) →
    ∀ id, known (((p1.run e2).2 ++ (p2.run e3).2).foldl learn p2.table) id = actual p3 id := by
  intro start p1 p2 p3 hv hn hs id
  have k0 : Known start := fun id h => absurd rfl h
  have k1 : Known p1 := run_known e1 _ k0
  obtain ⟨_, v1⟩ := valid_append e1 (e2 ++ e3) start hv
  have hr := run_append e2 e3 p1
  have k2 : Known p2 := run_known e2 _ k1
  obtain ⟨_, v2⟩ := valid_append e2 e3 p1 v1
  unfold known actual
  rcases about_cases id ((p1.run e2).2 ++ (p2.run e3).2) with hc | hc
  · have := run_learns id (e2 ++ e3) p1 p2.table k1 v1 hn (by rw [hr]; exact hc)
    rw [hr] at this
    unfold Knows at this
    dsimp only at this
    cases h3 : mapGet id p3.wps with
    | none => rw [h3] at this; simpa using this
    | some x =>
      obtain ⟨s, st⟩ := x
      rw [h3] at this
      simpa using this.2
  · rw [learns_other id _ _ hc, table_get]
    obtain ⟨q1, q2, q3⟩ := run_quiet id e3 p2 k2 v2 fun x hx => hc x (List.mem_append_right _ hx)
    cases h2 : mapGet id p2.wps with
    | none =>
      rcases q3 (Or.inl h2) with h | ⟨s, h⟩
      · rw [h]
      · exact absurd (hs id _ h) (by simp)
    | some x =>
      obtain ⟨s, st⟩ := x
      cases st with
      | true => rw [q1 s h2]
      | false =>
        rcases q3 (Or.inr ⟨s, h2⟩) with h | ⟨s', h⟩
        · exfalso
          have hfalse : ∀ l p, mapGet id (p : Peer).wps ≠ none → (∀ x ∈ (p.run l).2, about id x = false) → mapGet id (p.run l).1.wps ≠ none := by
            intro l
            induction l with
            | nil => exact fun p h _ => h
            | cons e l ih =>
              intro p hp hq
              simp only [Peer.run] at hq ⊢
              apply ih
              · rcases step_quiet id (p := p) (e := e) fun x hx => hq x (List.mem_append_left _ hx) with h | ⟨_, h⟩ | ⟨a, b, _, h⟩
                · rw [h]; exact hp
                · rw [h]; simp
                · rw [h]; simp
              · exact fun x hx => hq x (List.mem_append_right _ hx)
          exact hfalse e3 p2 (by rw [h2]; simp) (fun x hx => hc x (List.mem_append_right _ hx)) h
        · exact absurd (hs id _ h) (by simp)

/-- **C94 is false of the code**: `do_stop` publishes that the WP is gone before it calls the WP's own `stop()`.  If that unsubscribes from
something, the subscriptions are published once more, and the table has an entry for a WP that does not exist. -/
theorem C94_refuted : ¬ C94_full := by
  intro h
  have := h [.attach Demo.w, .start Demo.w] [] [.stop Demo.w [Demo.subs]] (by
    simp only [List.nil_append, List.cons_append, Peer.valid]
    decide +kernel) (by
    intro id x hx
    have : ((((⟨[], []⟩ : Peer).run [.attach Demo.w, .start Demo.w]).1.run []).1.run [.stop Demo.w [Demo.subs]]).1.wps = [] := by decide +kernel
    rw [this] at hx
    cases hx) Demo.w
  revert this
  decide +kernel

/-- C94 is not vacuous: a WP changes its subscriptions before the table is sent and after, another comes and one goes. -/
example : let start : Peer := ⟨[], []⟩
    let e1 := [Ev.attach Demo.w, .start Demo.w, .attach ⟨5, 0⟩, .start ⟨5, 0⟩]
    let e2 := [Ev.change Demo.w Demo.subs]
    let e3 := [Ev.stop ⟨5, 0⟩ [], .attach ⟨5, 1⟩, .start ⟨5, 1⟩, .change Demo.w Subs.init]
    start.valid (e1 ++ (e2 ++ e3)) ∧ NoLate (e2 ++ e3) := by
  refine ⟨?_, ?_⟩
  · simp only [List.cons_append, List.nil_append, Peer.valid]
    decide +kernel
  · intro e he id late h
    simp only [List.cons_append, List.nil_append, List.mem_cons, List.not_mem_nil, or_false] at he
    rcases he with rfl | rfl | rfl | rfl | rfl <;> first | cases h; done | (injection h with _ h2; exact h2.symm)

/-- **C94**: the first message of a connection is understood: the other end gets the table that was sent. -/
theorem C94_first_message (l : List (List Int × Subs.State)) (hl : ∀ x ∈ l, Packs x) (hn : (l.map Prod.fst).Nodup) (hlen : l.length < 2 ^ 30) :
    ∃ b, initBlock l = .ok b ∧ readInit b = .ok l := by
  obtain ⟨h, d, h1, h2, h3⟩ := init_loop l hl
  refine ⟨encSize l.length ++ h ++ d, by simp only [initBlock, h1, Res.bind], ?_⟩
  unfold readInit
  have e0 : (encSize l.length ++ h ++ d).length = 8 + 16 * l.length + d.length := by simp only [List.length_append, encSize_length, h2]
  have e1 : leDec ((encSize l.length ++ h ++ d).take 8) = l.length := by
    rw [List.append_assoc, List.take_left' (encSize_length _), leDec_encSize _ (by omega)]
  have e2 : (encSize l.length ++ h ++ d).drop 8 = h ++ d := by
    rw [List.append_assoc, List.drop_left' (encSize_length _)]
  have e3 : (encSize l.length ++ h ++ d).drop (8 * (1 + 2 * l.length)) = d := by
    rw [List.drop_left' (by simp only [List.length_append, encSize_length, h2]; omega)]
  rw [if_neg (by omega)]
  simp only [e1, Nat.mod_eq_of_lt (show l.length < 2 ^ 32 by omega)]
  rw [if_neg (by omega), if_neg (by omega), e2, e3, h3, fold_new l [] (by simpa using hn)]
  rfl

/-- Such tables exist. -/
example : Packs (ids ⟨Demo.w, 3, 1⟩, Demo.subs) := by
  refine ⟨by decide, by decide, _, rfl, ?_, by decide +kernel, by decide +kernel⟩
  refine ⟨trivial, by decide, by decide⟩

/-! ## C95: exactly once -/

/-- **C95, in full**: among processes each of which is connected to each other one by a gateway, a message that was sent gets at most once to
each WP that should have it, at whatever process, and to no other; and when all work is done, each of them got it.  The processes and
gateways may do their work in any order. -/
def C95_full : Prop := ∀ (net : Net) (n p : Nat) (e : Env) (sched : List Nat), Mesh net n → p < n → Fresh e → e.sender.wpid.cls ≠ aidGatewayWP →
  let r := net.run ⟨[.send p e], []⟩ sched
  ∀ q w, w.cls ≠ aidGatewayWP → r.log.count (q, w) ≤ 1 ∧ ((q, w) ∈ r.log → q < n ∧ Gets (net.procs q).d e w) ∧
    (r.tasks = [] → q < n → Gets (net.procs q).d e w → r.log.count (q, w) = 1)

/-- **C95**: so it is, if the message is not for a gateway. -/
theorem C95_partial (net : Net) (n p : Nat) (e : Env) (sched : List Nat) (hm : Mesh net n) (hp : p < n) (hf : Fresh e) (hs : e.sender.wpid.cls ≠ aidGatewayWP)
    (hno : ∀ q w, q < n → Gets (net.procs q).d e w → w.cls ≠ aidGatewayWP) : let r := net.run ⟨[.send p e], []⟩ sched
    ∀ q w, r.log.count (q, w) ≤ 1 ∧ ((q, w) ∈ r.log → q < n ∧ Gets (net.procs q).d e w) ∧
      (r.tasks = [] → q < n → Gets (net.procs q).d e w → r.log.count (q, w) = 1) := by
  intro r q w
  obtain ⟨_, r2, r3⟩ := run_fine hm hp hf hs hno sched ⟨[.send p e], []⟩ (by
    intro t ht
    simp only [List.mem_singleton] at ht
    subst ht
    exact Or.inl ⟨rfl, rfl⟩) (fun x hx => (by cases hx))
  by_cases hq : q < n
  · have := r3 q w hq
    change (r.tasks.map (pot net e q w)).sum + r.log.count (q, w) = _ at this
    simp only [List.map_nil, List.sum_nil, List.map_cons, pot, hf.1, true_or, if_true, List.sum_cons, Nat.add_zero, List.count_nil] at this
    have hnd : (locals net e q).Nodup := recips_nodup (hm.sane q hq).nodup _ _ _
    have hle : (locals net e q).count w ≤ 1 := List.nodup_iff_count.1 hnd w
    refine ⟨by omega, ?_, ?_⟩
    · intro h1
      have : 0 < r.log.count (q, w) := List.count_pos_iff.2 h1
      exact ⟨hq, List.count_pos_iff.1 (show 0 < (locals net e q).count w by omega)⟩
    · intro hend _ h1
      have h2 : 0 < (locals net e q).count w := List.count_pos_iff.2 h1
      have h3 : (r.tasks.map (pot net e q w)).sum = 0 := by rw [hend]; rfl
      omega
  · have hn : (q, w) ∉ r.log := fun h => hq (r2 _ h)
    have : r.log.count (q, w) = 0 := List.count_eq_zero.2 hn
    exact ⟨by omega, fun h => absurd h hn, fun _ h => absurd h hq⟩

/-- C95 is not vacuous: a published message of class 7 in the network of two processes. -/
example : Mesh Demo.net 2 ∧ Fresh (Demo.env [7, 1] ⟨⟨-1060, -1060⟩, -1, -1⟩) ∧ (∀ q w, q < 2 → Gets (Demo.net.procs q).d (Demo.env [7, 1] ⟨⟨-1060, -1060⟩, -1, -1⟩) w → w.cls ≠ aidGatewayWP) ∧
    (Demo.net.run ⟨[.send 0 (Demo.env [7, 1] ⟨⟨-1060, -1060⟩, -1, -1⟩)], []⟩ [0, 0, 0]).tasks = [] ∧
    (Demo.net.run ⟨[.send 0 (Demo.env [7, 1] ⟨⟨-1060, -1060⟩, -1, -1⟩)], []⟩ [0, 0, 0]).log = [(0, Demo.w), (1, Demo.w)] := by
  refine ⟨Demo.mesh, by unfold Fresh; decide +kernel, ?_, ?_, by decide +kernel⟩
  · intro q w hq hw
    have h : q = 0 ∨ q = 1 := by omega
    rcases h with rfl | rfl
    · have : localRecipients (Demo.net.procs 0).d ⟨0, [7, 1], 0⟩ (ids ⟨Demo.w, 2, 1⟩) ⟨⟨-1060, -1060⟩, -1, -1⟩ = [Demo.w] := by decide +kernel
      unfold Gets Demo.env at hw
      rw [this] at hw
      rw [List.mem_singleton.1 hw]; decide
    · have : localRecipients (Demo.net.procs 1).d ⟨0, [7, 1], 0⟩ (ids ⟨Demo.w, 2, 1⟩) ⟨⟨-1060, -1060⟩, -1, -1⟩ = [Demo.w] := by decide +kernel
      unfold Gets Demo.env at hw
      rw [this] at hw
      rw [List.mem_singleton.1 hw]; decide
  · rfl

/-- A message to everybody: class and instance `?`. -/
def Demo.everybody (h : Nat) (f : Option Addr) : Env := { Demo.env [7, 1] ⟨⟨-1, -1⟩, -1, -1⟩ with hops := h, fwd := f }

theorem Demo.loop (x : Task) (h : Nat) (f : Option Addr) (log : List (Nat × Wpid)) : ∃ f', Demo.net.run ⟨[x, .gw 0 Demo.gid (Demo.everybody h f)], log⟩ [1, 1, 1, 1] =
    ⟨[x, .gw 0 Demo.gid (Demo.everybody (h + 2) f')], log ++ [(1, Demo.w)] ++ [(0, Demo.w)]⟩ := by
  refine ⟨some ⟨Demo.gid, 2, 1⟩, ?_⟩
  have : Demo.net.run ⟨[x, .gw 0 Demo.gid (Demo.everybody h f)], log⟩ [1, 1, 1, 1] =
    ⟨[x, .gw 0 Demo.gid (Demo.everybody (h + 2) (some ⟨Demo.gid, 2, 1⟩))], (((log ++ []) ++ [(1, Demo.w)]) ++ []) ++ [(0, Demo.w)]⟩ := rfl
  rw [this, List.append_nil, List.append_nil]

theorem Demo.again (k : Nat) : ∃ sched x h f log, Demo.net.run ⟨[.send 0 (Demo.everybody 0 none)], []⟩ sched = ⟨[x, .gw 0 Demo.gid (Demo.everybody h f)], log⟩ ∧ k ≤ log.count (0, Demo.w) := by
  induction k with
  | zero => exact ⟨[0], .gw 0 Demo.gid (Demo.everybody 0 none), 0, none, [(0, Demo.w)], rfl, Nat.zero_le _⟩
  | succ k ih =>
    obtain ⟨sched, x, h, f, log, h1, h2⟩ := ih
    obtain ⟨f', h3⟩ := Demo.loop x h f log
    refine ⟨sched ++ [1, 1, 1, 1], x, h + 2, f', log ++ [(1, Demo.w)] ++ [(0, Demo.w)], ?_, ?_⟩
    · unfold Net.run at h1 h3 ⊢
      rw [List.foldl_append, h1, h3]
    · rw [List.count_append, List.count_append]
      have : [(0, Demo.w)].count (0, Demo.w) = 1 := by decide
      omega

/-- **C95**: a message to everybody (`?` for class and instance) is also for the gateways, which do not look at the hop count of what is sent to them: in a
network of two processes a WP gets it as often as one likes. -/
theorem C95_everybody (k : Nat) : ∃ sched, k ≤ (Demo.net.run ⟨[.send 0 (Demo.everybody 0 none)], []⟩ sched).log.count (0, Demo.w) := by
  obtain ⟨sched, x, h, f, log, h1, h2⟩ := Demo.again k
  exact ⟨sched, by rw [h1]; exact h2⟩

/-- **C95 is false of the code**: such a message gets to a WP twice. -/
theorem C95_refuted : ¬ C95_full := by
  intro h
  obtain ⟨sched, hk⟩ := C95_everybody 2
  have := (h Demo.net 2 0 (Demo.everybody 0 none) sched Demo.mesh (by decide) (by unfold Fresh; decide +kernel) (by decide) 0 Demo.w (by decide)).1
  omega

/-! ## C97: messages do not circulate -/

/-- **C97, in full**: in a network of processes, connected in whatever way and whatever the tables of the gateways say, a message that was sent causes a
bounded number of steps. -/
def C97_full : Prop := ∀ (net : Net) (p : Nat) (e : Env), e.hops = 0 → ∃ N, ∀ sched, Effective net ⟨[.send p e], []⟩ sched → sched.length ≤ N

/-- **C97**: so it does, if the message is not for a gateway; and when there is nothing left to do, that is reached from every state on the way. -/
theorem C97_partial (net : Net) (p : Nat) (e : Env) (h0 : e.hops = 0) (hno : ∀ q w, Gets (net.procs q).d e w → (net.procs q).gw w = none) :
    ∃ N, ∀ sched, Effective net ⟨[.send p e], []⟩ sched → sched.length ≤ N ∧
      ((net.run ⟨[.send p e], []⟩ sched).tasks = [] ↔ sched.length = N) := by
  have hsh : ∀ t ∈ (⟨[.send p e], []⟩ : Run).tasks, Short e.m e.sender e.dst t := by
    intro t ht
    simp only [List.mem_singleton] at ht
    subst ht
    exact ⟨by omega, rfl, rfl, rfl⟩
  refine ⟨(([.send p e] : List Task).map (total net)).sum, fun sched he => ?_⟩
  have := steps_le (m := e.m) (src := e.sender) (dst := e.dst) hno sched ⟨[.send p e], []⟩ hsh he
  simp only at this
  refine ⟨by omega, ?_⟩
  constructor
  · intro h
    rw [h] at this
    simpa using this
  · intro h
    have hz : ((net.run ⟨[.send p e], []⟩ sched).tasks.map (total net)).sum = 0 := by omega
    cases ht : (net.run ⟨[.send p e], []⟩ sched).tasks with
    | nil => rfl
    | cons t l =>
      rw [ht, List.map_cons, List.sum_cons] at hz
      have := total_pos (net := net) t
      omega

/-- **C97 is false of the code**: a message to everybody goes round for ever. -/
theorem C97_refuted : ¬ C97_full := by
  intro h
  obtain ⟨N, hN⟩ := h Demo.net 0 (Demo.everybody 0 none) rfl
  have key : ∀ k, ∃ sched x h f log, Demo.net.run ⟨[.send 0 (Demo.everybody 0 none)], []⟩ sched = ⟨[x, .gw 0 Demo.gid (Demo.everybody h f)], log⟩ ∧ k ≤ sched.length ∧
      Effective Demo.net ⟨[.send 0 (Demo.everybody 0 none)], []⟩ sched := by
    intro k
    induction k with
    | zero => exact ⟨[0], .gw 0 Demo.gid (Demo.everybody 0 none), 0, none, [(0, Demo.w)], rfl, Nat.zero_le _, by simp [Effective]⟩
    | succ k ih =>
      obtain ⟨sched, x, h, f, log, h1, h2, h3⟩ := ih
      obtain ⟨f', h4⟩ := Demo.loop x h f log
      refine ⟨sched ++ [1, 1, 1, 1], x, h + 2, f', log ++ [(1, Demo.w)] ++ [(0, Demo.w)], ?_, by simp; omega, ?_⟩
      · unfold Net.run at h1 h4 ⊢
        rw [List.foldl_append, h1, h4]
      · have app : ∀ (l r : List Nat) (s : Run), Effective Demo.net s l → Effective Demo.net (Demo.net.run s l) r → Effective Demo.net s (l ++ r) := by
          intro l
          induction l with
          | nil => exact fun r s _ h => h
          | cons i l ih => exact fun r s h h' => ⟨h.1, ih r _ h.2 h'⟩
        apply app _ _ _ h3
        rw [h1]
        refine ⟨by simp, ?_, ?_, ?_, trivial⟩
        · exact Nat.lt_of_lt_of_le (by decide) (Nat.le_of_eq (show 2 = _ from rfl))
        · exact Nat.lt_of_lt_of_le (by decide) (Nat.le_of_eq (show 2 = _ from rfl))
        · exact Nat.lt_of_lt_of_le (by decide) (Nat.le_of_eq (show 2 = _ from rfl))
  obtain ⟨sched, _, _, _, _, _, h2, h3⟩ := key (N + 1)
  have := hN sched h3
  omega

/-- C97 is not vacuous: a published message of class 7, which takes three steps. -/
example : (∀ q w, Gets (Demo.net.procs q).d (Demo.env [7, 1] ⟨⟨-1060, -1060⟩, -1, -1⟩) w → (Demo.net.procs q).gw w = none) ∧
    Effective Demo.net ⟨[.send 0 (Demo.env [7, 1] ⟨⟨-1060, -1060⟩, -1, -1⟩)], []⟩ [0, 0, 0] := by
  refine ⟨?_, ⟨by decide, by decide, by decide, trivial⟩⟩
  intro q w hw
  unfold Gets Demo.env at hw
  by_cases h : q = 0
  · subst h
    have : localRecipients (Demo.net.procs 0).d ⟨0, [7, 1], 0⟩ (ids ⟨Demo.w, 2, 1⟩) ⟨⟨-1060, -1060⟩, -1, -1⟩ = [Demo.w] := by decide +kernel
    rw [this] at hw
    rw [List.mem_singleton.1 hw]
    rfl
  · have he : Demo.net.procs q = Demo.net.procs 1 := by simp only [Demo.net, if_neg h, if_neg (show ¬ (1 : Nat) = 0 by decide)]
    have : localRecipients (Demo.net.procs 1).d ⟨0, [7, 1], 0⟩ (ids ⟨Demo.w, 2, 1⟩) ⟨⟨-1060, -1060⟩, -1, -1⟩ = [Demo.w] := by decide +kernel
    rw [he] at hw ⊢
    rw [this] at hw
    rw [List.mem_singleton.1 hw]
    rfl

/-! ## C96: the scope of published messages -/

/-- The forms of `publish`: with a message, with an id, and with a message and the scope as the second argument. -/
def publishForms : List (Addr → Scope → Addr) := [publishMsg, publishId, publishTwo]

/-- **C96, in full**: a message published with a scope gets to the WPs within the scope that have subscribed to it, and to no others;
in whatever form it was published. -/
def C96_full : Prop := ∀ pub ∈ publishForms, ∀ (self : Addr) (sc : Scope) (d : Disp.State) (e : Env) (w : Wpid), Sane d → Concrete self.proc → Concrete self.host →
  e.dst = pub self sc → (Gets d e w ↔ InScope sc self d.proc d.host ∧ ∃ x, (w, x) ∈ d.wps ∧ Subs.matches_ x.subs e.m.id (ids e.sender) = true)

/-- **C96**: so it is, if it was published with `publish(msg,flags,scope)`. -/
theorem C96_partial (self : Addr) (sc : Scope) (d : Disp.State) (e : Env) (w : Wpid) (hd : Sane d) (hp : Concrete self.proc) (hh : Concrete self.host)
    (he : e.dst = publishMsg self sc) : Gets d e w ↔ InScope sc self d.proc d.host ∧ ∃ x, (w, x) ∈ d.wps ∧ Subs.matches_ x.subs e.m.id (ids e.sender) = true := by
  rw [gets_iff hd (by rw [he]; simp [publishMsg, aidPublish])]
  have hcls : e.dst.wpid.cls = aidPublish := by rw [he]; rfl
  rw [← and_assoc, scope_iff self sc d.proc d.host e.dst he hd.proc hd.host hp hh, hcls]
  constructor
  · rintro ⟨h1, x, h2, h3⟩
    refine ⟨h1, x, h2, ?_⟩
    rcases h3 with h3 | h3
    · exfalso
      have hw := (hd.wps _ h2)
      have := (aidM hw.1).1 h3.1
      simp only [aidPublish] at this hw
      omega
    · exact h3.2
  · rintro ⟨h1, x, h2, h3⟩
    exact ⟨h1, x, h2, Or.inr ⟨rfl, h3⟩⟩

/-- **C96**: and the gateways do not take it to processes out of the scope. -/
theorem C96_gateways (self : Addr) (sc : Scope) (d : Disp.State) (e : Env) (g : Gw) (hd : Sane d) (hp : Concrete self.proc) (hh : Concrete self.host)
    (he : e.dst = publishMsg self sc) (hl : Linked g d) (h : willForward g e = true) : InScope sc self d.proc d.host := by
  rw [← scope_iff self sc d.proc d.host e.dst he hd.proc hd.host hp hh]
  unfold willForward at h
  split at h
  · cases h
  · generalize (if Hiid.matches_ false e.m.id (msgServerOpen ++ [Hiid.aidWild]) = true then decide (e.fwd = some g.addr) || decide (3 < e.hops) else decide (0 < e.hops)) = c at h
    cases c with
    | true => simp at h
    | false =>
      rw [if_neg (by simp)] at h
      by_cases h2 : (!Hiid.aidMatches g.rproc e.dst.proc || !Hiid.aidMatches g.rhost e.dst.host) = true
      · rw [if_pos h2] at h; cases h
      · simp only [Bool.or_eq_true, Bool.not_eq_true', not_or, Bool.not_eq_false] at h2
        rw [hl.rproc, hl.rhost] at h2
        rw [aidM_comm, aidM_comm e.dst.proc]
        exact ⟨h2.2, h2.1⟩

/-- **C96 is false of the code**: published with an id and a scope, a message goes everywhere. -/
theorem C96_refuted : ¬ C96_full := by
  intro h
  have := (h publishId (by simp [publishForms]) ⟨Demo.w, 2, 1⟩ .process (Demo.disp 3) (Demo.env [7, 1] (publishId ⟨Demo.w, 2, 1⟩ .process)) Demo.w (Demo.sane 3 (Or.inr rfl))
    (by unfold Concrete; decide) (by unfold Concrete; decide) rfl).1 (by unfold Gets; decide +kernel)
  exact absurd this.1.2 (by decide)

/-- C96 is not vacuous: published for the process only, a message of class 7 gets to the WP of this process, and to none of the other. -/
example : Gets (Demo.disp 2) (Demo.env [7, 1] (publishMsg ⟨Demo.w, 2, 1⟩ .process)) Demo.w ∧ ¬ Gets (Demo.disp 3) (Demo.env [7, 1] (publishMsg ⟨Demo.w, 2, 1⟩ .process)) Demo.w ∧
    Gets (Demo.disp 3) (Demo.env [7, 1] (publishMsg ⟨Demo.w, 2, 1⟩ .host)) Demo.w := by
  unfold Gets
  decide +kernel

/-- **C96**: a subscription with a scope takes messages from senders within the scope, and from no others. -/
theorem C96_subscribe (self sender : Addr) (sc : Scope) (mask msgId : List Int) (hp : Concrete self.proc) (hh : Concrete self.host)
    (hsp : Concrete sender.proc) (hsh : Concrete sender.host) (hs : Concrete sender.wpid.cls ∧ Concrete sender.wpid.inst) :
    Subs.matches_ (Subs.add Subs.init mask (subscribeScope self sc)).1 msgId (ids sender) = true ↔ Hiid.matches_ false msgId mask = true ∧ InScope sc self sender.proc sender.host := by
  have key : Hiid.matches_ false (ids sender) (subscribeScope self sc) = true ↔ InScope sc self sender.proc sender.host := by
    unfold subscribeScope
    rw [match_scope sender _ _ (by unfold Concrete at *; omega) (by split; exact hp.2; decide)
      (by split; decide; exact hh.2), and_comm, aidM_comm, aidM_comm sender.proc]
    exact scope_iff self sc sender.proc sender.host _ rfl hsp hsh hp hh
  rw [show (Subs.add Subs.init mask (subscribeScope self sc)).1 = ⟨[⟨mask, subscribeScope self sc⟩], _⟩ from rfl]
  simp only [Subs.matches_, List.any_cons, List.any_nil, Bool.or_false, Bool.and_eq_true, key]

/-- Such a subscription takes a message from its own process, and not from another. -/
example : Subs.matches_ (Subs.add Subs.init [7, -2] (subscribeScope ⟨Demo.w, 2, 1⟩ .process)).1 [7, 1] (ids ⟨⟨5, 0⟩, 2, 1⟩) = true ∧
    Subs.matches_ (Subs.add Subs.init [7, -2] (subscribeScope ⟨Demo.w, 2, 1⟩ .process)).1 [7, 1] (ids ⟨⟨5, 0⟩, 3, 1⟩) = false := by decide +kernel

end Verif.Route
