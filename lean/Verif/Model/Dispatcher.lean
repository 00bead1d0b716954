import Verif.Model.WPQueue
import Verif.Model.Subscriptions
/-!
# The dispatcher (OCTOPUSSY/src/Dispatcher.cc)

Simplifications: a worker process (WP) is its message queue and its subscriptions; all WPs are
polled (not threaded) and their queues are not locked.  `wps`, a `std::map` keyed by WP id, is an
association list with distinct keys, iterated in list order.  Mutexes, debug output and latency
measurements are not modelled: each public call is one atomic step.
-/
namespace Verif.Disp
open WPQueue hiding init

/-- A WP id: class and instance (OCTOPUSSY/src/MsgAddress.h:38-56). -/
structure Wpid where
  cls : Int
  inst : Int
  deriving DecidableEq, Repr

/-- A full address (MsgAddress.h:59-86). -/
structure Addr where
  wpid : Wpid
  proc : Int
  host : Int
  deriving DecidableEq, Repr

/-- A worker process, reduced to queue and subscriptions (WPInterface.h:500-560). -/
structure Wp where
  q : Q
  subs : Subs.State

/-- Dispatcher state (Dispatcher.h:319-420). -/
structure State where
  host : Int
  proc : Int
  wps : List (Wpid × Wp)
  insts : List (Int × Nat)
  gateways : List Wpid
  repoll : Bool
  tick : Nat

/-- A dispatcher without WPs (Dispatcher.cc:110-140). -/
def init (host proc : Int) : State := ⟨host, proc, [], [], [], false, 0⟩

/-- `AidPublish` (AID-OCTOPUSSY.h:284). -/
def aidPublish : Int := -1060

/-- `Dispatcher::wildcardAddr` (Dispatcher.h:308-309). -/
def wildcardAddr (a : Int) : Bool := a == aidPublish || a == Hiid.aidAny

/-- `map[key] = value` for association lists. -/
def mapSet {α β : Type} [DecidableEq α] (k : α) (v : β) : List (α × β) → List (α × β)
  | [] => [(k, v)]
  | p :: r => if p.1 = k then (k, v) :: r else p :: mapSet k v r

/-- `map.find(key)`. -/
def mapGet {α β : Type} [DecidableEq α] (k : α) : List (α × β) → Option β
  | [] => none
  | p :: r => if p.1 = k then some p.2 else mapGet k r

/-- `wp_instances[wpclass]++` (Dispatcher.cc:151): a missing entry counts as 0. -/
def nextInst (cls : Int) (l : List (Int × Nat)) : Nat × List (Int × Nat) :=
  let n := (mapGet cls l).getD 0
  (n, mapSet cls (n + 1) l)

/-- `Dispatcher::attach` (Dispatcher.cc:143-172) outside `start()`, with the dispatcher not running
(no `do_init`/`do_start` calls). -/
def attach (d : State) (cls : Int) (w : Wp) : State × Addr :=
  let (n, insts) := nextInst cls d.insts
  let id : Wpid := ⟨cls, n⟩
  ({ d with insts := insts, wps := mapSet id w d.wps }, ⟨id, d.proc, d.host⟩)

/-- `Dispatcher::detach(WPID)` (Dispatcher.cc:190-219); event tables are in `Verif.Model.Events`.
`none` is the exception for an unknown id. -/
def detach (d : State) (id : Wpid) : Option State :=
  match mapGet id d.wps with
  | none => none
  | some _ => some { d with wps := d.wps.filter (fun p => decide (p.1 ≠ id)),
                            gateways := d.gateways.filter (fun g => decide (g ≠ id)) }

/-- `Dispatcher::declareForwarder` (Dispatcher.cc:222-230). -/
def declareForwarder (d : State) (id : Wpid) : Option State :=
  match mapGet id d.wps with
  | none => none
  | some _ => some { d with gateways := if id ∈ d.gateways then d.gateways else d.gateways ++ [id] }

/-- Replace the queue of one WP. -/
def setQ (id : Wpid) (f : Q → Q) (l : List (Wpid × Wp)) : List (Wpid × Wp) :=
  l.map fun p => if p.1 = id then (p.1, { p.2 with q := f p.2.q }) else p

/-- `Dispatcher::enqueue` (Dispatcher.cc:1040-1064): queue for one WP, raise `repoll` if the WP's
`enqueue` returned a non-negative number. -/
def enqueueTo (d : State) (id : Wpid) (m : Msg) : State :=
  match mapGet id d.wps with
  | none => d
  | some w =>
    let r := WPQueue.enqueue w.q m d.tick false
    { d with wps := setQ id (fun _ => r.1) d.wps, repoll := d.repoll || decide (r.2 ≥ 0) }

/-- The local recipients chosen by `Dispatcher::send` (Dispatcher.cc:377-413). -/
def localRecipients (d : State) (m : Msg) (sender : List Int) (dst : Addr) : List Wpid :=
  if Hiid.aidMatches dst.host d.host && Hiid.aidMatches dst.proc d.proc then
    if !wildcardAddr dst.wpid.cls && !wildcardAddr dst.wpid.inst then
      match mapGet dst.wpid d.wps with
      | some _ => [dst.wpid]
      | none => []
    else
      (d.wps.filter fun p =>
        (Hiid.aidMatches dst.wpid.cls p.1.cls && Hiid.aidMatches dst.wpid.inst p.1.inst) ||
        (dst.wpid.cls == aidPublish && Subs.matches_ p.2.subs m.id sender)).map (·.1)
  else []

/-- The gateways chosen by `Dispatcher::send` (Dispatcher.cc:414-425); `forwards` is the virtual
`willForward` of each gateway for this message. -/
def gatewayRecipients (d : State) (forwards : Wpid → Bool) (dst : Addr) : List Wpid :=
  if dst.host ≠ d.host ∨ dst.proc ≠ d.proc then d.gateways.filter forwards else []

/-- `Dispatcher::send` (Dispatcher.cc:365-432): new state and number of deliveries. -/
def send (d : State) (m : Msg) (sender : List Int) (dst : Addr) (forwards : Wpid → Bool) :
    State × Nat :=
  let rs := localRecipients d m sender dst ++ gatewayRecipients d forwards dst
  (rs.foldl (fun d id => enqueueTo d id m) d, rs.length)

/-- The search loop of `Dispatcher::poll` (Dispatcher.cc:479-499): WP with maximum poll priority so
far (the last one on ties), that maximum, and the number of WPs needing a poll. -/
def selectLoop (tick : Nat) : List (Wpid × Wp) → Int → Option Wpid → Nat → Option Wpid × Nat
  | [], _, best, n => (best, n)
  | p :: rest, maxpri, best, n =>
    match pollPriority p.2.q tick with
    | some pri =>
      if pri ≥ maxpri then selectLoop tick rest pri (some p.1) (n + 1)
      else selectLoop tick rest maxpri best (n + 1)
    | none => selectLoop tick rest maxpri best n

/-- What happens while the handler of the selected WP runs: messages queued for any WPs through the
dispatcher, and queue operations of the polled WP itself. -/
inductive Effect where
  | post (id : Wpid) (m : Msg)
  | own (o : QOp)

/-- One effect, the polled WP being `id`. -/
def effect (id : Wpid) (d : State) : Effect → State
  | .post w m => enqueueTo d w m
  | .own o => { d with wps := setQ id (fun q => (qstep q o).1) d.wps }

/-- One round of the loop of `Dispatcher::poll` (Dispatcher.cc:473-526) in which the handler does
not throw.  The middle part is `WPInterface::do_poll` (see `WPQueue.doPoll`), with the handler's
effects acting on the whole dispatcher; its result sets `repoll` (Dispatcher.cc:511-512). -/
def pollRound (d : State) (userPoll : Bool) (effects : List Effect) (kept : Bool) (res : Code) : State :=
  let d1 := { d with tick := d.tick + 1, repoll := false }
  let (best, n) := selectLoop d1.tick d1.wps (-1) none 0
  let d2 := { d1 with repoll := decide (n > 1) }
  match best with
  | none => d2
  | some id =>
    match mapGet id d2.wps with
    | none => d2
    | some w =>
      match w.q.queue with
      | [] => d2
      | e :: _ =>
        let d3 := { d2 with wps := setQ id (fun q => ⟨q.queue, userPoll⟩) d2.wps }
        let d4 := effects.foldl (effect id) d3
        let d5 := { d4 with wps := setQ id (fun q => (finish q e.msg kept res d1.tick).1) d4.wps }
        match mapGet id d5.wps with
        | none => d5
        | some w' => { d5 with repoll := d5.repoll || w'.q.repoll }

/-! ### Histories -/

/-- Calls on a dispatcher. -/
inductive Op where
  | attach (cls : Int)
  | detach (id : Wpid)
  | forwarder (id : Wpid)
  | setSubs (id : Wpid) (s : Subs.State)
  | send (m : Msg) (sender : List Int) (dst : Addr) (forwards : Wpid → Bool)
  | poll (userPoll : Bool) (effects : List Effect) (kept : Bool) (res : Code)

/-- One call; failed calls change nothing.  The second component is the address handed out, if
any. -/
def step (d : State) : Op → State × Option Addr
  | .attach cls => let r := attach d cls ⟨WPQueue.init, Subs.init⟩; (r.1, some r.2)
  | .detach id => ((detach d id).getD d, none)
  | .forwarder id => ((declareForwarder d id).getD d, none)
  | .setSubs id s =>
    ({ d with wps := d.wps.map fun p => if p.1 = id then (p.1, { p.2 with subs := s }) else p }, none)
  | .send m sender dst fw => ((send d m sender dst fw).1, none)
  | .poll up eff kept res => (pollRound d up eff kept res, none)

/-- A history: final state and the addresses handed out, in order. -/
def runFrom (d : State) : List Op → State × List Addr
  | [] => (d, [])
  | o :: os =>
    let r := step d o
    let s := runFrom r.1 os
    (s.1, r.2.toList ++ s.2)

/-- Queueing the same message `n` times. -/
def enqN (m : Msg) (tick : Nat) : Nat → Q → Q
  | 0, q => q
  | n + 1, q => enqN m tick n (WPQueue.enqueue q m tick false).1

/-- Effects whose messages have non-negative priority. -/
def EffectNonneg : Effect → Prop
  | .post _ m => m.pri ≥ 0
  | .own _ => True

/-- All messages of a call have non-negative priority. -/
def OpNonneg : Op → Prop
  | .send m _ _ _ => m.pri ≥ 0
  | .poll _ eff _ _ => ∀ e ∈ eff, EffectNonneg e
  | _ => True

end Verif.Disp
