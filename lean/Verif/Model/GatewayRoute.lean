import Verif.Model.Dispatcher
import Verif.Model.Outcome
/-!
# Routing between processes (OCTOPUSSY/src/MTGatewayWP.cc)

Simplifications: the hop count, a `short`, is a natural number; a gateway whose connection is being set up holds its messages
(MTGatewayWP.cc:262-264) and is not modelled; addresses have four fields.  The connections are those of `Verif.Model.GatewayWire`: here
a transmitted message is simply a task of the other process.
-/
namespace Verif.Route
open Disp

/-- `AidGatewayWP` (AID-OCTOPUSSY.h:143). -/
def aidGatewayWP : Int := -1071

/-- `MsgGWServerOpen` (Gateways.h:58). -/
def msgServerOpen : List Int := [-1069, -1078, -1045]

/-- `MsgGWRemoteUp` (Gateways.h:80). -/
def msgRemoteUp : List Int := [-1069, -1073, -1091]

/-- `MsgSubscribe` (WPInterface.h:57). -/
def msgSubscribe : List Int := [-1084, -1042]

/-- `MsgBye` (WPInterface.h:55). -/
def msgBye : List Int := [-1084, -1090]

/-- An address as an id (MsgAddress.h:62-103). -/
def ids (a : Addr) : List Int := [a.wpid.cls, a.wpid.inst, a.proc, a.host]

/-- A message under way: `from`, `to`, `hops` and `forwarder` (Message.h:282-300). -/
structure Env where
  m : WPQueue.Msg
  sender : Addr
  dst : Addr
  hops : Nat
  fwd : Option Addr
  deriving DecidableEq, Repr

/-- A gateway: its address, whether `peerState()` is `CONNECTED`, the process at the other end, `remote_subs` (MTGatewayWP.h:280-300). -/
structure Gw where
  addr : Addr
  connected : Bool
  rproc : Int
  rhost : Int
  table : List (Addr × Subs.State)

/-- `MTGatewayWP::willForward` (MTGatewayWP.cc:191-252). -/
def willForward (g : Gw) (e : Env) : Bool :=
  if !g.connected then false
  else if (if Hiid.matches_ false e.m.id (msgServerOpen ++ [Hiid.aidWild]) then decide (e.fwd = some g.addr) || decide (3 < e.hops) else decide (0 < e.hops)) then false
  else if !Hiid.aidMatches g.rproc e.dst.proc || !Hiid.aidMatches g.rhost e.dst.host then false
  else if e.dst.wpid.cls = aidPublish then g.table.any fun p => Subs.matches_ p.2 e.m.id (ids e.sender)
  else g.table.any fun p => Hiid.matches_ false (ids p.1) (ids e.dst)

/-- Whether `MTGatewayWP::receive` transmits a message (MTGatewayWP.cc:254-287). -/
def transmits (g : Gw) (e : Env) : Bool :=
  if e.m.id = [-1090] ∧ e.sender = g.addr then false
  else if !g.connected then false
  else if !Hiid.aidMatches g.rproc e.dst.proc || !Hiid.aidMatches g.rhost e.dst.host then false
  else if e.sender.wpid.cls = aidGatewayWP ∧ !Hiid.matches_ false e.m.id msgRemoteUp then false
  else true

/-! ### The routing table -/

/-- What the peer tells about one of its WPs: its subscriptions, or that it is gone. -/
inductive News where
  | subs (id : Wpid) (s : Subs.State)
  | bye (id : Wpid)

/-- The part of `processIncoming` that keeps the table (MTGatewayWP.cc:351-400), for messages that can be unpacked; keys without the process
and the host, which are always those of the peer. -/
def learn (t : List (Wpid × Subs.State)) : News → List (Wpid × Subs.State)
  | .subs id s => mapSet id s t
  | .bye id => t.filter fun p => decide (p.1 ≠ id)

/-- A WP at the peer: its subscriptions and whether it was started (WPInterface.h:560-600). -/
structure Peer where
  wps : List (Wpid × Subs.State × Bool)
  used : List Wpid

/-- What can happen to the WPs of a process: `attach`, `subscribe` or `unsubscribe` when they change something, `do_start`, `do_stop` with
`detach` (Dispatcher.cc:143-219, WPInterface.cc:517-610, 1028-1052).  `late` are the changes made by the WP's own `stop()`, after `MsgBye`. -/
inductive Ev where
  | attach (id : Wpid)
  | change (id : Wpid) (s : Subs.State)
  | start (id : Wpid)
  | stop (id : Wpid) (late : List Subs.State)

/-- One event, and what is published (WPInterface.cc:555, 576, 1036-1037, 1250-1262).  `used` remembers the ids given out. -/
def Peer.step (p : Peer) : Ev → Peer × List News
  | .attach id => (⟨mapSet id (Subs.init, false) p.wps, id :: p.used⟩, [])
  | .change id s =>
    match mapGet id p.wps with
    | none => (p, [])
    | some (_, started) => (⟨mapSet id (s, started) p.wps, p.used⟩, if started then [.subs id s] else [])
  | .start id =>
    match mapGet id p.wps with
    | none => (p, [])
    | some (s, _) => (⟨mapSet id (s, true) p.wps, p.used⟩, [.subs id s])
  | .stop id late =>
    match mapGet id p.wps with
    | none => (p, [])
    | some (_, started) => (⟨p.wps.filter fun x => decide (x.1 ≠ id), p.used⟩, .bye id :: if started then late.map (.subs id) else [])

/-- Events one after the other. -/
def Peer.run (p : Peer) : List Ev → Peer × List News
  | [] => (p, [])
  | e :: r =>
    let a := p.step e
    let b := a.1.run r
    (b.1, a.2 ++ b.2)

/-- The table in the first message of a connection (MTGatewayWP.cc:102-143), without gateways. -/
def Peer.table (p : Peer) : List (Wpid × Subs.State) := p.wps.map fun x => (x.1, x.2.1)

/-! ### The first message of a connection -/

/-- The second loop of `start` (MTGatewayWP.cc:126-136): sizes, and data.  `pack` succeeds, as there is room for everything. -/
def initLoop : List (List Int × Subs.State) → Res (Bytes × Bytes)
  | [] => .ok ([], [])
  | (a, s) :: r =>
    match Hiid.pack (Hiid.packSize a) a, Subs.pack s s.pksize.toNat, initLoop r with
    | some (b1, _), .ok (b2, _), .ok (h, d) => .ok (encSize b1.length ++ encSize b2.length ++ h, b1 ++ b2 ++ d)
    | _, _, _ => .err

/-- The block of `start` (MTGatewayWP.cc:102-143): addresses and subscriptions of the WPs. -/
def initBlock (l : List (List Int × Subs.State)) : Res Bytes := (initLoop l).bind fun (h, d) => .ok (encSize l.length ++ h ++ d)

/-- The loop of `processInitMessage` (MTGatewayWP.cc:523-537).  `data+asz+ssz` may not go beyond the address space. -/
def readLoop : Nat → Bytes → Bytes → List (List Int × Subs.State) → Res (List (List Int × Subs.State))
  | 0, _, data, t => if data = [] then .ok t else .err
  | n + 1, hdr, data, t =>
    let asz := leDec (hdr.take 8)
    let ssz := leDec ((hdr.drop 8).take 8)
    if 2 ^ 62 ≤ asz + ssz then .ub
    else if data.length < asz + ssz then .err
    else
      match Hiid.unpack (data.take asz) with
      | none => .err
      | some a => (Subs.unpack ((data.drop asz).take ssz)).bind fun s => readLoop n (hdr.drop 16) (data.drop (asz + ssz)) (mapSet a s t)

/-- `processInitMessage` (MTGatewayWP.cc:507-541) into an empty table.  The number of WPs is an `int`, and so is the size of the header. -/
def readInit (b : Bytes) : Res (List (List Int × Subs.State)) :=
  if b.length < 8 then .err
  else
    let n := leDec (b.take 8) % 2 ^ 32
    if 2 ^ 30 ≤ n then .ub
    else if b.length < 8 * (1 + 2 * n) then .err
    else readLoop n (b.drop 8) (b.drop (8 * (1 + 2 * n))) []

/-! ### Several processes -/

/-- A process: its dispatcher, and the state of its gateways. -/
structure Proc where
  d : Disp.State
  gw : Wpid → Option Gw

/-- Processes and connections: `peer p w` is the process and the gateway at the other end of gateway `w` of process `p`. -/
structure Net where
  procs : Nat → Proc
  peer : Nat → Wpid → Nat × Wpid

/-- A message to be sent by the dispatcher of a process, or in the queue of one of its gateways. -/
inductive Task where
  | send (p : Nat) (e : Env)
  | gw (p : Nat) (w : Wpid) (e : Env)

/-- The recipients `Dispatcher::send` finds (Dispatcher.cc:365-432). -/
def recipients (x : Proc) (e : Env) : List Wpid :=
  localRecipients x.d e.m (ids e.sender) e.dst ++
    gatewayRecipients x.d (fun w => match x.gw w with | some g => willForward g e | none => false) e.dst

/-- Process a task: new tasks, and WPs that get the message.  The other end counts a hop and notes the forwarder (MTGatewayWP.cc:344-345, 404). -/
def Net.work (net : Net) : Task → List Task × List (Nat × Wpid)
  | .send p e =>
    let x := net.procs p
    let rs := recipients x e
    ((rs.filter fun w => (x.gw w).isSome).map fun w => .gw p w e, (rs.filter fun w => !(x.gw w).isSome).map fun w => (p, w))
  | .gw p w e =>
    match (net.procs p).gw w with
    | none => ([], [])
    | some g =>
      if transmits g e then
        let q := net.peer p w
        ([.send q.1 { e with hops := e.hops + 1, fwd := some ⟨q.2, (net.procs q.1).d.proc, (net.procs q.1).d.host⟩ }], [])
      else ([], [])

/-- Tasks that are left, and WPs that got the message. -/
structure Run where
  tasks : List Task
  log : List (Nat × Wpid)

/-- Process the `i`-th task. -/
def Net.step (net : Net) (s : Run) (i : Nat) : Run :=
  match s.tasks[i]? with
  | none => s
  | some t => ⟨s.tasks.eraseIdx i ++ (net.work t).1, s.log ++ (net.work t).2⟩

/-- Process tasks in some order. -/
def Net.run (net : Net) (s : Run) (sched : List Nat) : Run := sched.foldl net.step s

/-! ### Scopes -/

/-- `Message::MessageScope` (Message.h:77-82). -/
inductive Scope where
  | global
  | host
  | process
  deriving DecidableEq, Repr

/-- `WPInterface::publish(Message::Ref&,int,int scope)` (WPInterface.cc:1107-1117): the destination. -/
def publishMsg (self : Addr) (scope : Scope) : Addr :=
  ⟨⟨aidPublish, aidPublish⟩, if scope = .process then self.proc else Hiid.aidAny, if scope = .global then Hiid.aidAny else self.host⟩

/-- `WPInterface::publish(const HIID&,int,int scope,int)` (WPInterface.cc:1120-1124): the scope becomes the unused second argument of the other
`publish`, whose scope is `GLOBAL` by default (WPInterface.h:234). -/
def publishId (self : Addr) (_scope : Scope) : Addr := publishMsg self .global

/-- `publish(mref,scope)` as written in OctoChannel.cc:232 and GWServerWP.cc:203-204. -/
def publishTwo (self : Addr) (_scope : Scope) : Addr := publishMsg self .global

/-- `WPInterface::subscribe(const HIID&,int scope)` (WPInterface.h:605-614): the scope as an address. -/
def subscribeScope (self : Addr) (scope : Scope) : List Int :=
  [Hiid.aidAny, Hiid.aidAny, if scope = .process then self.proc else Hiid.aidAny, if scope = .global then Hiid.aidAny else self.host]

end Verif.Route
