import Verif.Model.WPQueue
/-!
# What a message queue should do

Only the type `Msg` of messages is shared with the model.
-/
namespace Verif.WPQueueSpec
open WPQueue (Msg)

/-- Observable events of a queue. -/
inductive Event where
  /-- a message was put into the queue -/
  | arrive (m : Msg)
  /-- a message was handed out (delivered and accepted, or taken out by a dequeue call) -/
  | leave (m : Msg)

/-- `Pending es l l'`: starting with the messages `l` (in order of arrival), the events `es` leave
the messages `l'`, in order of arrival.  Only a message that is there can leave, and it leaves
once. -/
inductive Pending : List Event → List Msg → List Msg → Prop
  | nil (l) : Pending [] l l
  | arrive (m es l l') : Pending es (l ++ [m]) l' → Pending (.arrive m :: es) l l'
  | leave (m es a b l') : Pending es (a ++ b) l' → Pending (.leave m :: es) (a ++ m :: b) l'

/-- `q` serves the pending messages `l` by priority, and first-come-first-served within one
priority; nothing is lost or invented. -/
structure Serves (q l : List Msg) : Prop where
  byPriority : q.Pairwise (fun a b => a.pri ≥ b.pri)
  fifo : ∀ p : Int, q.filter (fun m => m.pri = p) = l.filter (fun m => m.pri = p)

end Verif.WPQueueSpec

/-! ## Histories of the model and their events -/
namespace Verif.WPQueue
open WPQueueSpec

/-- Calls on the queue: a queue operation, or one round of `do_poll`. -/
inductive Op where
  | q (o : QOp)
  | poll (userPoll : Bool) (effects : List QOp) (kept : Bool) (res : Code) (tick : Nat)

/-- Events of a queue operation. -/
def qevents (q : Q) : QOp → List Event
  | .enqueue m _ => [.arrive m]
  | o => (qstep q o).2.map .leave

/-- Events of a sequence of queue operations. -/
def qsevents (q : Q) : List QOp → List Event
  | [] => []
  | o :: os => qevents q o ++ qsevents (qstep q o).1 os

/-- One call: new state and events. -/
def step (q : Q) : Op → Q × List Event
  | .q o => ((qstep q o).1, qevents q o)
  | .poll up eff kept res tick =>
    (doPoll q up eff kept res tick,
      match q.queue with
      | [] => []
      | e :: _ =>
        let q0 : Q := ⟨q.queue, up⟩
        qsevents q0 eff ++ (finish (qsteps q0 eff).1 e.msg kept res tick).2.map .leave ++
          (if res = .requeue then [.arrive e.msg] else []))

/-- A history of calls: final state and all events. -/
def runFrom (q : Q) : List Op → Q × List Event
  | [] => (q, [])
  | o :: os =>
    let r := step q o
    let s := runFrom r.1 os
    (s.1, r.2 ++ s.2)

def run (ops : List Op) : Q × List Event := runFrom init ops

/-- A round of polling in `ops` offered the message with this identity at the head of the queue to
its handler, which held or requeued it. -/
def Offered (q0 : Q) (ops : List Op) (ident : Nat) : Prop :=
  ∃ pre up eff kept res t post, ops = pre ++ .poll up eff kept res t :: post ∧ res ≠ .accept ∧
    ((runFrom q0 pre).1.queue.head?.map fun e => e.msg.ident) = some ident

end Verif.WPQueue
