/-!
# The command loop of the server

`/repo/MeqServer/src/MeqServer.cc` (lines 112-185, 220-245, 582-645, 1047-1370): one thread takes events
from the control channel and executes commands or puts them into a queue; a second thread executes the
commands of the queue one after another.

Simplifications: identifiers have no wildcards; what the methods for commands do to the forest is left out,
their outcome is part of a step; the debugger (`clear_stop_flag_` and breakpoints), the queue size in
notifications and commands from Python (`post_results=false`) are left out; posting an event cannot fail.
The fields marked *ghost* are not in the program: they record what happened.
-/
namespace Verif.Server

variable {β : Type}

/-- A field of a record as `Hook::as<T>` finds it (`/repo/DMI/src/Container.cc` lines 447-490): missing,
convertible, or of another type. -/
inductive Fld (γ : Type) where
  | absent
  | val (v : γ)
  | bad

/-- `as<T>(default)`; `none`: an exception. -/
def Fld.get {γ : Type} (d : γ) : Fld γ → Option γ
  | .absent => some d
  | .val v => some v
  | .bad => none

/-- The `Args` record of a command: its `Silent` and `Sync` flags and the rest. -/
structure Args (β : Type) where
  silent : Fld Bool
  sync : Fld Bool
  body : β

/-- The record of a command (lines 1179-1195). -/
structure Payload (β : Type) where
  index : Fld Int
  args : Fld (Args β)

/-- An event from the control channel; `load` is `none` when it is no record. -/
structure Event (β : Type) where
  id : List String
  load : Option (Payload β)

/-- `async_commands` (lines 131-172). -/
def asyncCommands : List (List String) :=
  [["Halt"], ["Get", "Forest", "State"], ["Set", "Forest", "State"], ["Set", "Cwd"], ["Set", "Session", "Name"],
   ["Get", "Node", "List"], ["Get", "Forest", "Status"], ["Get", "NodeIndex"], ["Disable", "Publish", "Results"],
   ["Node", "Get", "State"], ["Set", "Forest", "Breakpoint"], ["Clear", "Forest", "Breakpoint"], ["Execute", "Abort"],
   ["Debug", "Set", "Level"], ["Debug", "Interrupt"], ["Debug", "Single", "Step"], ["Debug", "Next", "Node"],
   ["Debug", "Until", "Node"], ["Debug", "Continue"]]

/-- `sync_commands` (lines 134-161). -/
def syncCommands : List (List String) :=
  [["Create", "Node"], ["Create", "Node", "Batch"], ["Delete", "Node"], ["Clear", "Forest"], ["Node", "Execute"],
   ["Node", "Clear", "Cache"]]

/-- Application states (`state_`). -/
inductive App where
  | idle
  | executing
  | constructing
  | updating
  deriving DecidableEq

/-- What the method for a command does: it fills in the reply, it throws, or (`Node.*` commands only) the
node does not know the command (lines 1078-1084). -/
inductive Out (β : Type) where
  | done (r : β)
  | noCommand
  | throws

/-- What a reply says: the result (with the message that an execution is being aborted), or an error. -/
inductive Content (β : Type) where
  | result (aborting : Bool) (r : β)
  | error

/-- An event on the control channel.  `n` is the number of the event it answers (*ghost*). -/
inductive Post (β : Type) where
  | reply (n : Nat) (id : List String) (index : Int) (app : Option App) (c : Content β)
  | error
  | message
  | state (a : App)

/-- `ExecQueueEntry` (`/repo/MeqServer/src/MeqServer.h`); `index = 0`: none.  `n`: *ghost*. -/
structure Entry (β : Type) where
  n : Nat
  cmd : List String
  index : Int
  silent : Bool
  args : Option β

/-- Where the execution thread is. -/
inductive Exec (β : Type) where
  | idle
  | began (e : Entry β) (old : App) (cleared : Bool)
  | posted (e : Entry β)
  | exited

/-- Where the main thread is: at the head of its loop, waiting for an event, waiting for the other thread,
or at the end. -/
inductive Main where
  | head
  | waiting
  | joining
  | finished

structure Sys (β : Type) where
  queue : List (Entry β)
  exec : Exec β
  main : Main
  running : Bool
  state : App
  abort : Bool
  out : List (Post β)
  /-- Undefined behaviour. -/
  crashed : Bool
  /-- An exception has left `run()`, and the program ends (meqserver_main.cc lines 219-223). -/
  died : Bool
  /-- *Ghost*: events taken. -/
  events : List (Event β)
  /-- *Ghost*: methods called: number of the event, command, arguments. -/
  ran : List (Nat × List String × Option β)

/-- After lines 1257-1271. -/
def Sys.init (β : Type) : Sys β :=
  { queue := [], exec := .idle, main := .head, running := true, state := .idle, abort := false, out := [],
    crashed := false, died := false, events := [], ran := [] }

def Sys.post (s : Sys β) (ps : List (Post β)) : Sys β := { s with out := s.out ++ ps }

/-- The state that a method sets first (lines 338, 600, 786); others set none. -/
def stateOf (cmd : List String) : Option App :=
  if cmd = ["Node", "Execute"] then some .executing
  else if cmd = ["Create", "Node", "Batch"] then some .constructing
  else if cmd = ["Clear", "Forest"] then some .updating
  else none

/-- What `halt` (lines 238-244) and `executeAbort` (line 584) do to the server. -/
def effect (cmd : List String) (s : Sys β) : Sys β :=
  if cmd = ["Halt"] then { s with running := false }
  else if cmd = ["Execute", "Abort"] then { s with abort := true }
  else s

/-- Whether the reply says that an execution is being aborted (lines 585-586). -/
def aborting (cmd : List String) (a : App) : Bool :=
  decide (cmd = ["Execute", "Abort"] ∧ a = .executing)

/-- The reply of `execCommandEntry`, if there is one (lines 1097-1138, 1150). -/
def content (e : Entry β) (a : App) : Out β → Option (Content β)
  | .done r => if e.silent then none else some (.result (aborting e.cmd a) r)
  | .noCommand => some .error
  | .throws => some .error

/-- The identifier of a reply (line 1184). -/
def replyId (cmd : List String) : List String := "Result" :: cmd

/-- `execCommandEntry` with `savestate=false`, in the main thread (lines 1094-1164). -/
def Sys.direct (s : Sys β) (e : Entry β) (o : Out β) : Sys β :=
  let s1 := effect e.cmd { s with ran := s.ran ++ [(e.n, e.cmd, e.args)] }
  match content e s.state o with
  | some c => s1.post [.reply e.n (replyId e.cmd) e.index none c]
  | none => s1

/-- Lines 1235-1245: the command goes into the queue. -/
def Sys.push (s : Sys β) (e : Entry β) : Sys β :=
  { s with queue := s.queue ++ [e], out := s.out ++ (if s.queue.isEmpty then [] else [.message]) }

/-- Lines 1191-1195: arguments, silent and sync flag.  `none`: an exception. -/
def readArgs : Fld (Args β) → Option (Option β × Bool × Bool)
  | .absent => some (none, false, false)
  | .bad => none
  | .val a =>
    match a.silent.get false, a.sync.get false with
    | some si, some sy => some (some a.body, si, sy)
    | _, _ => none

/-- `executeCommand` with `post_results=true` (lines 1166-1252), for the event `n`. -/
def Sys.command (s : Sys β) (n : Nat) (cmd : List String) (p : Payload β) (o : Out β) : Sys β :=
  match p.index.get 0, readArgs p.args with
  | some ix, some (args, silent, sync) =>
    let e : Entry β := ⟨n, cmd, ix, silent, args⟩
    if cmd ∈ asyncCommands then if sync then s.push e else s.direct e o
    else if cmd ∈ syncCommands then s.push e
    else
      match cmd with
      -- qe.command[0] of an empty identifier (line 1213)
      | [] => { s with crashed := true }
      | c :: _ =>
        if c = "Node" then if sync then s.push e else s.direct e o
        else s.post [.reply n (replyId cmd) ix none .error]
  | _, _ => { s with died := true }

/-- Handling of an event in `run` (lines 1285-1317). -/
def Sys.handle (s : Sys β) (n : Nat) (ev : Event β) (o : Out β) : Sys β :=
  match ev.id with
  | "Command" :: cmd =>
    match ev.load with
    | none => s.post [.error]
    | some p => s.command n cmd p o
  | id =>
    if id = ["Request", "State"] then s.post [.state s.state]
    else if id = ["Halt"] then { s with running := false, out := s.out ++ [.message] }
    else s.post [.error]

/-- What can happen next. -/
inductive Op (β : Type) where
  /-- The main thread looks at `running_` (line 1272). -/
  | check
  /-- It gets an event and handles it; `o` is the outcome of the method, if one is called. -/
  | recv (ev : Event β) (o : Out β)
  /-- The channel is closed (lines 1279-1283). -/
  | closed
  /-- The execution thread takes an entry and calls its method (lines 1357-1360, 1096). -/
  | take
  /-- `nodeExecute` clears the abort flag (line 607). -/
  | clear
  /-- The method ends, and the reply is posted (lines 1105-1164, 1361). -/
  | finish (o : Out β)
  /-- The entry is removed (lines 1363-1367). -/
  | pop
  /-- The execution thread ends (lines 1353-1354). -/
  | exit
  /-- The main thread waits for that (line 1323) and ends. -/
  | join

/-- One step; `none` if it cannot happen now. -/
def step (s : Sys β) (o : Op β) : Option (Sys β) :=
  if s.crashed ∨ s.died then none
  else
    match o with
    | .check =>
      match s.main with
      | .head => if s.running then some { s with main := .waiting } else some { s with main := .joining }
      | _ => none
    | .recv ev o =>
      match s.main with
      | .waiting =>
        some ({ s with main := .head, events := s.events ++ [ev] }.handle s.events.length ev o)
      | _ => none
    | .closed =>
      match s.main with
      | .waiting => some { s with main := .joining, running := false }
      | _ => none
    | .take =>
      match s.exec, s.queue with
      | .idle, e :: _ =>
        if s.running then
          let s1 := { s with exec := .began e s.state false, ran := s.ran ++ [(e.n, e.cmd, e.args)] }
          match stateOf e.cmd with
          | some a => if a ≠ s.state then some { s1 with state := a, out := s1.out ++ [.state a] } else some s1
          | none => some s1
        else none
      | _, _ => none
    | .clear =>
      match s.exec with
      | .began e old false =>
        if e.cmd = ["Node", "Execute"] then some { s with exec := .began e old true, abort := false } else none
      | _ => none
    | .finish o =>
      match s.exec with
      | .began e old cleared =>
        match e.cmd = ["Node", "Execute"] && !cleared, o with
        -- an execution that has not cleared the flag ends by an exception only
        | true, .done _ => none
        | true, .noCommand => none
        | _, o =>
          let s1 := effect e.cmd s
          let changed := s.state ≠ old
          match content e s.state o with
          | some c =>
            some { s1 with state := old, exec := .posted e, out := s1.out ++
              [.reply e.n (replyId e.cmd) e.index (if changed then some old else none) c, .state old] }
          | none =>
            some { s1 with state := old, exec := .posted e, out := s1.out ++
              (if changed then [.state old] else []) ++ [.state old] }
      | _ => none
    | .pop =>
      match s.exec with
      | .posted _ => some { s with exec := .idle, queue := s.queue.tail }
      | _ => none
    | .exit =>
      match s.exec with
      | .idle => if s.running then none else some { s with exec := .exited }
      | _ => none
    | .join =>
      match s.main, s.exec with
      | .joining, .exited => some { s with main := .finished }
      | _, _ => none

/-- A whole history. -/
def run (s : Sys β) : List (Op β) → Option (Sys β)
  | [] => some s
  | o :: os =>
    match step s o with
    | some s' => run s' os
    | none => none

/-! ### The list of nodes and its number

`createNode`, `createNodeBatch`, `deleteNode`, `clearForest` change the forest and then call
`incrementForestSerial`, in the execution thread; `getNodeList` (lines 516-536) compares the number it is
given, copies the list and then reads the number, in the main thread. -/

/-- `incrementForestSerial` (MeqServer.h).  Simplification: the overflow of the `int` wraps, as the code
expects. -/
def nextSerial (k : Nat) : Nat := if k + 1 < 2 ^ 31 then k + 1 else 1

/-- Where `getNodeList` is. -/
inductive Getting (ν : Type) where
  | idle
  | asked (k : Nat)
  | copied (l : ν)

/-- `forest`: the nodes.  `pending`: changed, but the number has not been incremented yet. `known`: what
the client got last. -/
structure Nodes (ν : Type) where
  forest : ν
  serial : Nat
  pending : Bool
  get : Getting ν
  known : Option (ν × Nat)
  /-- *Ghost*: changes so far. -/
  changes : Nat

inductive NOp (ν : Type) where
  /-- The forest changes. -/
  | change (f : ν)
  | incr
  /-- The client asks, giving the number it has (0: none). -/
  | ask
  /-- The number is compared: the client's list is still good, or the list is copied. -/
  | compare
  /-- The number is put into the reply, which is sent. -/
  | reply

def nstep {ν : Type} (s : Nodes ν) : NOp ν → Option (Nodes ν)
  | .change f => if s.pending then none else some { s with forest := f, pending := true, changes := s.changes + 1 }
  | .incr => if s.pending then some { s with serial := nextSerial s.serial, pending := false } else none
  | .ask =>
    match s.get with
    | .idle => some { s with get := .asked (match s.known with | some (_, k) => k | none => 0) }
    | _ => none
  | .compare =>
    match s.get with
    | .asked k =>
      if k = 0 ∨ k ≠ s.serial then some { s with get := .copied s.forest } else some { s with get := .idle }
    | _ => none
  | .reply =>
    match s.get with
    | .copied l => some { s with get := .idle, known := some (l, s.serial) }
    | _ => none

def nrun {ν : Type} (s : Nodes ν) : List (NOp ν) → Option (Nodes ν)
  | [] => some s
  | o :: os =>
    match nstep s o with
    | some s' => nrun s' os
    | none => none

/-- The server at its start (line 123). -/
def Nodes.init {ν : Type} (f : ν) : Nodes ν :=
  { forest := f, serial := 1, pending := false, get := .idle, known := none, changes := 0 }

end Verif.Server
