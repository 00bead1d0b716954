import Verif.Model.Hiid
/-!
# The message queue of a worker process (OCTOPUSSY/src/WPInterface.cc)

Simplifications: a message is an identity (which object it is), its id and its priority, which does
not change while queued.  Latency statistics, debug output and the condition variable are not
modelled; each function body between taking and releasing `queue_cond` is one atomic step.
-/
namespace Verif.WPQueue

/-- A message as seen by the queue (OCTOPUSSY/src/Message.h:59-260; identity, id, priority only). -/
structure Msg where
  ident : Nat
  id : List Int
  pri : Int
  deriving DecidableEq, Repr

/-- `WPInterface::QueueEntry` (WPInterface.h:117-151): message, cached priority (here `msg.pri`),
tick at which it was queued. -/
structure Entry where
  msg : Msg
  tick : Nat
  deriving DecidableEq, Repr

/-- Queue and the `needRepoll` flag of a WP (WPInterface.h:520-560). -/
structure Q where
  queue : List Entry
  repoll : Bool
  deriving DecidableEq, Repr

/-- Initial state (WPInterface.cc:470-480). -/
def init : Q := ⟨[], false⟩

/-- Insert before the first entry whose priority is lower (`while(iter->priority >= pri) iter++`,
WPInterface.cc:926-939).  The result also says how many entries were skipped. -/
def insertD (e : Entry) : List Entry → List Entry × Nat
  | [] => ([e], 0)
  | x :: rest =>
    if x.msg.pri ≥ e.msg.pri then
      let r := insertD e rest
      (x :: r.1, r.2 + 1)
    else (e :: x :: rest, 0)

/-- `WPInterface::enqueue` (WPInterface.cc:889-941).  `norepoll` is the flag `ENQ_NOREPOLL`.  The
second result is the returned priority, or -1.  In case D with `count = 0` the code returns without
inserting the message; so does the model. -/
def enqueue (q : Q) (m : Msg) (tick : Nat) (norepoll : Bool) : Q × Int :=
  let qe : Entry := ⟨m, tick⟩
  match q.queue with
  | [] => (⟨[qe], q.repoll || !norepoll⟩, m.pri)                                       -- case A
  | front :: rest =>
    let back := (front :: rest).getLast (by simp)
    if m.pri ≤ back.msg.pri then (⟨(front :: rest) ++ [qe], q.repoll⟩, -1)             -- case B
    else if m.pri > front.msg.pri then
      (⟨qe :: front :: rest, q.repoll || !norepoll⟩, m.pri)                            -- case C
    else
      let r := insertD qe (front :: rest)                                              -- case D
      if r.2 = 0 then (⟨front :: rest, q.repoll || !norepoll⟩, m.pri)
      else (⟨r.1, q.repoll⟩, -1)

/-- `WPInterface::enqueueFront` (WPInterface.cc:1221-1244): insert before the first entry whose
priority is not higher; the repoll flag is raised if that is the head and `setrepoll`. -/
def enqueueFront (q : Q) (m : Msg) (tick : Nat) (setrepoll : Bool) : Q :=
  let before := q.queue.takeWhile (fun x => decide (x.msg.pri > m.pri))
  let after := q.queue.dropWhile (fun x => decide (x.msg.pri > m.pri))
  ⟨before ++ ⟨m, tick⟩ :: after, if before.length = 0 then q.repoll || setrepoll else q.repoll⟩

/-- Remove the first entry satisfying `p`; also return it. -/
def eraseFirst (p : Entry → Bool) : List Entry → List Entry × Option Entry
  | [] => ([], none)
  | x :: rest =>
    if p x then (rest, some x)
    else
      let r := eraseFirst p rest
      (x :: r.1, r.2)

/-- `WPInterface::dequeue(const HIID&,Message::Ref*)` (WPInterface.cc:944-970).  With a reference
asked for (`wantRef`) only the first match is removed, otherwise all.  `erased_head` starts as true
in the code, so the flag is raised whenever something is left in the queue.  The second component
is the list of removed messages. -/
def dequeueId (q : Q) (id : List Int) (wantRef : Bool) : Q × List Msg :=
  let p := fun (x : Entry) => Hiid.matches_ false id x.msg.id
  if wantRef then
    let r := eraseFirst p q.queue
    (⟨r.1, q.repoll || !r.1.isEmpty⟩, (r.2.map Entry.msg).toList)
  else
    let r := q.queue.filter (fun x => !p x)
    (⟨r, q.repoll || !r.isEmpty⟩, (q.queue.filter p).map Entry.msg)

/-- `WPInterface::dequeue(int,Message::Ref*)` (WPInterface.cc:973-991): `none` is the exception for
`pos >= size`.  Positions are non-negative (a negative position runs off the list in the code). -/
def dequeuePos (q : Q) (pos : Nat) : Option (Q × Msg) :=
  match q.queue[pos]? with
  | none => none
  | some e =>
    some (⟨q.queue.eraseIdx pos, q.repoll || (decide (pos = 0) && decide (q.queue.length > 1))⟩, e.msg)

/-- `WPInterface::searchQueue` (WPInterface.cc:994-1012), loop part: position of the first matching
entry, counting from `pos`. -/
def searchFrom (id : List Int) : List Entry → Nat → Option (Nat × Msg)
  | [], _ => none
  | x :: rest, pos =>
    if Hiid.matches_ false id x.msg.id then some (pos, x.msg) else searchFrom id rest (pos + 1)

/-- `WPInterface::searchQueue` (WPInterface.cc:994-1012): outer `none` is the exception, inner `none`
stands for -1. -/
def searchQueue (q : Q) (id : List Int) (pos : Nat) : Option (Option (Nat × Msg)) :=
  if pos ≥ q.queue.length then none else some (searchFrom id (q.queue.drop pos) pos)

/-- `WPInterface::getPollPriority` (WPInterface.cc:632-653) for a WP with polling enabled and the
queue not locked; ages are assumed to fit an `int`.  `none` stands for -1. -/
def pollPriority (q : Q) (tick : Nat) : Option Int :=
  if q.repoll then
    match q.queue with
    | [] => none
    | e :: _ => some (max e.msg.pri 0 + ((tick - e.tick : Nat) : Int))
  else none

/-- Queue operations that message handlers and other threads perform. -/
inductive QOp where
  | enqueue (m : Msg) (tick : Nat)
  | dequeueId (id : List Int) (wantRef : Bool)
  | dequeuePos (pos : Nat)

/-- One queue operation: new queue and the messages removed.  Failed calls change nothing. -/
def qstep (q : Q) : QOp → Q × List Msg
  | .enqueue m t => ((enqueue q m t false).1, [])
  | .dequeueId id w => dequeueId q id w
  | .dequeuePos p =>
    match dequeuePos q p with
    | some (q', m) => (q', [m])
    | none => (q, [])

/-- Result codes of a message handler (Message.h:86-91). -/
inductive Code where
  | accept | hold | requeue
  deriving DecidableEq, Repr

/-- Set the tick of the head entry (WPInterface.cc:837, 860). -/
def touchHead (tick : Nat) : List Entry → List Entry
  | [] => []
  | e :: r => ⟨e.msg, tick⟩ :: r

/-- The end of `WPInterface::do_poll` (WPInterface.cc:812-867): dispose of message `m` according to
the handler's result.  `kept` says that the handler left the message reference in place (when
`autoCatch` is off, the handler is given the very reference that is used to find the queue entry; if
it transfers it away the entry is not found).  The second component lists the removed messages. -/
def finish (q : Q) (m : Msg) (kept : Bool) (res : Code) (tick : Nat) : Q × List Msg :=
  let erased := if kept then eraseFirst (fun x => decide (x.msg.ident = m.ident)) q.queue
                else (q.queue, none)
  match res with
  | .accept =>
    (⟨touchHead tick erased.1, q.repoll || !erased.1.isEmpty⟩, (erased.2.map Entry.msg).toList)
  | .hold => (q, [])
  | .requeue =>
    let q1 := (enqueue ⟨erased.1, q.repoll⟩ m tick true).1
    match q1.queue with
    | [] => (q1, (erased.2.map Entry.msg).toList)
    | e :: _ =>
      (⟨touchHead tick q1.queue, q1.repoll || decide (e.msg.ident ≠ m.ident)⟩,
        (erased.2.map Entry.msg).toList)

/-- A sequence of queue operations, accumulating the removed messages. -/
def qsteps (q : Q) : List QOp → Q × List Msg
  | [] => (q, [])
  | o :: os =>
    let r := qstep q o
    let s := qsteps r.1 os
    (s.1, r.2 ++ s.2)

/-- `WPInterface::do_poll` (WPInterface.cc:656-868).  `userPoll` is the result of the virtual
`poll()`; `effects` are the queue operations performed while the handler runs. -/
def doPoll (q : Q) (userPoll : Bool) (effects : List QOp) (kept : Bool) (res : Code) (tick : Nat) : Q :=
  let q0 : Q := ⟨q.queue, userPoll⟩
  match q.queue with
  | [] => q0
  | e :: _ =>
    let q1 := (qsteps q0 effects).1
    (finish q1 e.msg kept res tick).1

end Verif.WPQueue
