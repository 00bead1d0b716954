/-!
# Calls between the processes of a parallel server

`/repo/MeqMPI/src/MeqMPI.cc`, `/repo/MeqMPI/src/MeqMPI_commands.cc` and `/repo/MeqMPI/src/MPIProxy.cc`.
Every process runs one communicator thread, which receives messages and sends those that the other
threads have put into the send queue.  A caller that wants a reply puts the address of an endpoint on
its own stack into the header, and waits until the communicator thread hands a reply to it.

Simplifications: MPI delivers the messages from one process to another in the order they were sent and
loses none (its own guarantee for one communicator and one thread); the probe and the receive that
follows it (lines 164-186) take the same message; the halt command and broadcasts are left out; a
message is not encoded (see `Verif.Model.MpiWire`); the local cache of a proxy is left out (see
`Verif.Model.NodeCache`).  The fields marked *ghost* are not in the program: they record what happened.
-/
namespace Verif.Mpi

variable {n : Nat} {α : Type}

/-- What a message asks for: the tags of `/repo/MeqMPI/src/MeqMPI.h` lines 231-259. -/
inductive Cmd (α : Type) where
  /-- `TAG_NODE_EXECUTE`: node index, depth, request. -/
  | execute (node depth : Nat) (req : α)
  /-- `TAG_NODE_GET_STATE`. -/
  | getState (node : Nat)
  /-- `TAG_NODE_SET_STATE`: node index, record. -/
  | setState (node : Nat) (rec : α)
  /-- `TAG_NODE_PROCESS_COMMAND`: node index, record with the command. -/
  | command (node : Nat) (args : α)
  /-- `TAG_NODE_CLEAR_CACHE`, `.._PROPAGATE_STATE_DEP`, `.._PUBLISH_PARENTAL_STAT`,
  `.._SET_BREAKPOINT`, `.._CLEAR_BREAKPOINT`, `.._SET_PUBLISHING_LEVEL`: tag, node index, argument. -/
  | control (tag node : Nat) (arg : α)
  /-- `TAG_CREATE_NODES`, `TAG_GET_NODE_LIST`. -/
  | server (tag : Nat) (arg : α)

/-- A message.  `ep` is the address of the endpoint in the header (`none`: null pointer). -/
inductive Msg (α : Type) where
  /-- A command; `id` is the number of the call (*ghost*). -/
  | req (id : Nat) (ep : Option Nat) (cmd : Cmd α)
  /-- `TAG_REPLY`; `id` is the number of the call it answers (*ghost*). -/
  | reply (id : Nat) (ep : Option Nat) (code : Nat) (obj : Option α)
  /-- `TAG_EVENT` with an error. -/
  | event

/-- `MpiExecWorkOrder` (MeqMPI_commands.cc lines 246-308). -/
structure Job (n : Nat) (α : Type) where
  id : Nat
  src : Fin n
  ep : Option Nat
  node : Nat
  depth : Nat
  req : α

/-- What happened at the address of an endpoint (MeqMPI.h lines 42-70): no endpoint there, an endpoint
waited for by the call `id` (a call of `MPIProxy::execute` if `ex`), or one that has its reply. -/
inductive Ep (α : Type) where
  | free
  | waiting (id : Nat) (ex : Bool)
  | replied (id : Nat) (ex : Bool) (code : Nat) (obj : Option α)

/-- *Ghost*: a call that was made. -/
structure Call (n : Nat) (α : Type) where
  id : Nat
  src : Fin n
  dst : Fin n
  cmd : Cmd α

/-- *Ghost*: what a node (or the server) did for a call. `seen`: the settings of the node by then. -/
structure Entry (n : Nat) (α : Type) where
  id : Nat
  src : Fin n
  at_ : Fin n
  cmd : Cmd α
  seen : List (Nat × Fin n × α)
  code : Nat
  obj : Option α

/-- *Ghost*: what a call returned. -/
structure Ret (n : Nat) (α : Type) where
  id : Nat
  proc : Fin n
  code : Nat
  obj : Option α

/-- The processes and what is between them. -/
structure Sys (n : Nat) (α : Type) where
  /-- `sendqueue_` of each process: destination and message. -/
  queue : Fin n → List (Fin n × Msg α)
  /-- Messages on the way from one process to another. -/
  chan : Fin n → Fin n → List (Msg α)
  /-- Work orders of each process that are not done. -/
  jobs : Fin n → List (Job n α)
  /-- The endpoints of each process, by address. -/
  ep : Fin n → Nat → Ep α
  /-- Errors that reached the user of the main server. -/
  errors : Nat
  /-- A reply was written to memory that is no endpoint. -/
  crashed : Bool
  /-- Settings each node has accepted through the protocol: call, caller, record. -/
  sett : Fin n → Nat → List (Nat × Fin n × α)
  /-- Controls each node has accepted through the protocol. -/
  ctrl : Fin n → Nat → List (Nat × α)
  /-- *Ghost*: calls made so far. -/
  calls : List (Call n α)
  /-- *Ghost*: operations done so far. -/
  log : List (Entry n α)
  /-- *Ghost*: calls that have returned. -/
  done : List (Ret n α)

/-- Which nodes a process has (`Forest::get` does not throw). -/
abbrev Has (n : Nat) := Fin n → Nat → Bool

/-- No messages, no calls. -/
def Sys.init (n : Nat) (α : Type) : Sys n α :=
  { queue := fun _ => [], chan := fun _ _ => [], jobs := fun _ => [], ep := fun _ _ => .free,
    errors := 0, crashed := false, sett := fun _ _ => [], ctrl := fun _ _ => [], calls := [],
    log := [], done := [] }

/-- `f` with another value at `p`. -/
def upd {ι β : Type} [DecidableEq ι] (f : ι → β) (p : ι) (v : β) : ι → β :=
  fun i => if i = p then v else f i

/-- `sendqueue_.push_back` (lines 434-435 and the like). -/
def Sys.push (s : Sys n α) (p d : Fin n) (m : Msg α) : Sys n α :=
  { s with queue := upd s.queue p (s.queue p ++ [(d, m)]) }

/-- `MeqMPI::postReply` (lines 430-445). -/
def Sys.postReply (s : Sys n α) (p d : Fin n) (id : Nat) (ep : Option Nat) (code : Nat)
    (obj : Option α) : Sys n α :=
  s.push p d (.reply id ep code obj)

/-- `MeqMPI::postError` and `postEvent` (lines 448-480): at the main server the event goes to the
forest, elsewhere a message goes to process 0. -/
def Sys.postError (s : Sys n α) (p : Fin n) : Sys n α :=
  if p.val = 0 then { s with errors := s.errors + 1 }
  else s.push p ⟨0, Nat.lt_of_le_of_lt (Nat.zero_le _) p.isLt⟩ .event

/-- `MeqMPI::postCommand` (lines 497-545). -/
def Sys.postCommand (s : Sys n α) (p d : Fin n) (ep : Option Nat) (cmd : Cmd α) : Sys n α :=
  let id := s.calls.length
  { s.push p d (.req id ep cmd) with calls := s.calls ++ [⟨id, p, d, cmd⟩] }

/-- A call with an endpoint at address `a` (which no other call is using): `getSyncState`, `execute`,
`processCommand` of a proxy (MPIProxy.cc lines 48-57, 87-95, 121-140) and the calls of the main server
(`/repo/MeqServer/src/MeqServer.cc` lines 426-431, 555-559). -/
def Sys.call (s : Sys n α) (p d : Fin n) (a : Nat) (ex : Bool) (cmd : Cmd α) : Option (Sys n α) :=
  match s.ep p a with
  | .free =>
    let s' := s.postCommand p d (some a) cmd
    some { s' with ep := upd s'.ep p (upd (s'.ep p) a (.waiting s.calls.length ex)) }
  | _ => none

/-- The communicator thread sends the first message of its queue (lines 275-286). -/
def Sys.send (s : Sys n α) (p : Fin n) : Option (Sys n α) :=
  match s.queue p with
  | [] => none
  | (d, m) :: rest =>
    some { s with queue := upd s.queue p rest,
                  chan := upd s.chan p (upd (s.chan p) d (s.chan p d ++ [m])) }

/-- `MeqMPI::procReply` (lines 418-427) and `ReplyEndpoint::receive` (lines 565-573). -/
def Sys.procReply (s : Sys n α) (q : Fin n) (ep : Option Nat) (code : Nat) (obj : Option α) :
    Sys n α :=
  match ep with
  | none => s
  | some a =>
    match s.ep q a with
    | .free => { s with crashed := true }
    | .waiting id ex => { s with ep := upd s.ep q (upd (s.ep q) a (.replied id ex code obj)) }
    | .replied id ex _ _ => { s with ep := upd s.ep q (upd (s.ep q) a (.replied id ex code obj)) }

/-- Dispatch of a command by tag (lines 195-269) at process `q`, and the functions of
MeqMPI_commands.cc it calls.  `out` is what the method of the node (or server) does: `none`: an
exception, `some (code, obj)`: its outcome. -/
def Sys.procReq (has : Has n) (s : Sys n α) (q src : Fin n) (id : Nat) (ep : Option Nat)
    (out : Option (Nat × Option α)) : Cmd α → Sys n α
  -- procNodeExecute (MeqMPI_commands.cc lines 311-323)
  | .execute node depth req =>
    if has q node then { s with jobs := upd s.jobs q (s.jobs q ++ [⟨id, src, ep, node, depth, req⟩]) }
    else s.postError q
  -- procNodeGetState (lines 216-228)
  | .getState node =>
    if has q node then
      match out with
      | some (_, obj) =>
        { s.postReply q src id ep 0 obj with
            log := s.log ++ [⟨id, src, q, .getState node, s.sett q node, 0, obj⟩] }
      | none => s.postError q
    else s.postError q
  -- procNodeSetState (lines 231-243)
  | .setState node rec =>
    if has q node then
      match out with
      | some _ =>
        let s' := { s with sett := upd s.sett q (upd (s.sett q) node (s.sett q node ++ [(id, src, rec)])) }
        match ep with
        | some _ => s'.postReply q src id ep 0 none
        | none => s'
      | none => s.postError q
    else s.postError q
  -- no function is called (MeqMPI.cc lines 236-244)
  | .command _ _ => s
  | .control _ _ _ => s
  -- procCreateNodes, procGetNodeList (lines 47-84, 170-183)
  | .server tag arg =>
    if q.val = 0 then s.postError q
    else
      match out with
      | some (code, obj) =>
        { s.postReply q src id ep code obj with
            log := s.log ++ [⟨id, src, q, .server tag arg, [], code, obj⟩] }
      | none => s.postError q

/-- The communicator thread of `q` takes a message from `src` (MeqMPI.cc lines 164-270). -/
def Sys.recv (has : Has n) (s : Sys n α) (q src : Fin n) (out : Option (Nat × Option α)) :
    Option (Sys n α) :=
  match s.chan src q with
  | [] => none
  | m :: rest =>
    let s' := { s with chan := upd s.chan src (upd (s.chan src) q rest) }
    match m with
    | .req id ep cmd => some (s'.procReq has q src id ep out cmd)
    | .reply _ ep code obj => some (s'.procReply q ep code obj)
    -- procEvent (MeqMPI_commands.cc lines 201-213)
    | .event => if q.val = 0 then some { s' with errors := s'.errors + 1 } else some (s'.postError q)

/-- `RES_FAIL` (`/repo/MEQ/src/NodeFace.h` line 79). -/
def RES_FAIL : Nat := 0x80 * 2 ^ 16

/-- `MpiExecWorkOrder::execute` (MeqMPI_commands.cc lines 256-292) for the `k`th work order. -/
def Sys.work (s : Sys n α) (q : Fin n) (k : Nat) (out : Option (Nat × Option α)) :
    Option (Sys n α) :=
  match (s.jobs q)[k]? with
  | none => none
  | some j =>
    let s1 := { s with jobs := upd s.jobs q ((s.jobs q).eraseIdx k) }
    let res := out.getD (RES_FAIL, none)
    let s2 := if out.isNone then s1.postError q else s1
    let s3 := { s2 with log := s2.log ++ [⟨j.id, j.src, q, .execute j.node j.depth j.req,
                                           s.sett q j.node, res.1, res.2⟩] }
    match j.ep with
    | some _ => some (s3.postReply q j.src j.id j.ep res.1 res.2)
    | none => some s3

/-- The end of `MPIProxy::execute` (MPIProxy.cc lines 98-107): without a result object a fail is made
(here an absent object) and the code says so. -/
def proxyResult (code : Nat) : Option α → Nat × Option α
  | none => (code ||| RES_FAIL, none)
  | some o => (code, some o)

/-- `ReplyEndpoint::await` (MeqMPI.cc lines 554-562) returns, and with it the call. -/
def Sys.await (s : Sys n α) (p : Fin n) (a : Nat) : Option (Sys n α) :=
  match s.ep p a with
  | .replied id ex code obj =>
    let r := if ex then proxyResult code obj else (code, obj)
    some { s with ep := upd s.ep p (upd (s.ep p) a .free), done := s.done ++ [⟨id, p, r.1, r.2⟩] }
  | _ => none

/-- What can happen next.  The outcomes of the methods of remote nodes are part of the step. -/
inductive Op (n : Nat) (α : Type) where
  /-- `MPIProxy::execute` by a thread of `p` for a node of `d`, with its endpoint at `a`. -/
  | execute (p d : Fin n) (a node depth : Nat) (req : α)
  /-- `MPIProxy::getSyncState`. -/
  | getState (p d : Fin n) (a node : Nat)
  /-- `MPIProxy::setState`. -/
  | setState (p d : Fin n) (node : Nat) (rec : α)
  /-- `MPIProxy::processCommand`. -/
  | command (p d : Fin n) (a node : Nat) (args : α)
  /-- `MPIProxy::clearCache`, `setBreakpoint`, `setPublishingLevel` and the like. -/
  | control (p d : Fin n) (tag node : Nat) (arg : α)
  /-- Creation or listing of the nodes of `d`. -/
  | server (p d : Fin n) (a tag : Nat) (arg : α)
  | send (p : Fin n)
  | recv (q src : Fin n) (out : Option (Nat × Option α))
  | work (q : Fin n) (k : Nat) (out : Option (Nat × Option α))
  | await (p : Fin n) (a : Nat)

/-- One step; `none` if it cannot happen now. -/
def step (has : Has n) (s : Sys n α) : Op n α → Option (Sys n α)
  | .execute p d a node depth req => s.call p d a true (.execute node depth req)
  | .getState p d a node => s.call p d a false (.getState node)
  -- MPIProxy.cc lines 114-119
  | .setState p d node rec => some (s.postCommand p d none (.setState node rec))
  | .command p d a node args => s.call p d a false (.command node args)
  -- MPIProxy.cc lines 142-189
  | .control p d tag node arg => some (s.postCommand p d none (.control tag node arg))
  | .server p d a tag arg => s.call p d a false (.server tag arg)
  | .send p => s.send p
  | .recv q src out => s.recv has q src out
  | .work q k out => s.work q k out
  | .await p a => s.await p a

/-- A whole history. -/
def run (has : Has n) (s : Sys n α) : List (Op n α) → Option (Sys n α)
  | [] => some s
  | o :: os =>
    match step has s o with
    | some s' => run has s' os
    | none => none

end Verif.Mpi
