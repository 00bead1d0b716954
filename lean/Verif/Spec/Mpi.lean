import Verif.Model.Mpi
import Mathlib.Algebra.BigOperators.Fin

/-!
# What is promised about calls between processes
-/
namespace Verif.MpiSpec
open Verif.Mpi

variable {n : Nat} {α : Type}

/-- The call an operation makes: who asks whom for what. -/
def madeBy : Op n α → Option (Fin n × Fin n × Cmd α)
  | .execute p d _ node depth req => some (p, d, .execute node depth req)
  | .getState p d _ node => some (p, d, .getState node)
  | .setState p d node rec => some (p, d, .setState node rec)
  | .command p d _ node args => some (p, d, .command node args)
  | .control p d tag node arg => some (p, d, .control tag node arg)
  | .server p d _ tag arg => some (p, d, .server tag arg)
  | _ => none

/-- A step of a communicator or worker thread. -/
def internal : Op n α → Bool
  | .send _ => true
  | .recv _ _ _ => true
  | .work _ _ _ => true
  | _ => false

/-- The entry records what the node or the server really did: the outcome of a method call in the
history, a failed `execute` being the code for failure (`0x800000`) without a result. -/
def Happened (ops : List (Op n α)) (e : Entry n α) : Prop :=
  match e.cmd with
  | .execute _ _ _ =>
    (∃ k, Op.work e.at_ k (some (e.code, e.obj)) ∈ ops) ∨
    ((∃ k, Op.work e.at_ k none ∈ ops) ∧ e.code = 0x800000 ∧ e.obj = none)
  | .getState _ => e.code = 0 ∧ ∃ c, Op.recv e.at_ e.src (some (c, e.obj)) ∈ ops
  | .server _ _ => Op.recv e.at_ e.src (some (e.code, e.obj)) ∈ ops
  | _ => False

/-- What the caller gets when the remote side did `e`: the same code and object, except that an
`execute` without a result is turned into a fail. -/
def Delivers (e : Entry n α) (r : Ret n α) : Prop :=
  match e.cmd, e.obj with
  | .execute _ _ _, none => r.obj = none ∧ r.code = e.code ||| 0x800000
  | _, _ => r.obj = e.obj ∧ r.code = e.code

/-- Nothing is on the way and nothing is being worked on. -/
def Quiet (s : Sys n α) : Prop :=
  (∀ p, s.queue p = []) ∧ (∀ p d, s.chan p d = []) ∧ ∀ q, s.jobs q = []

/-- Some thread is waiting for a reply. -/
def Waiting (s : Sys n α) (p : Fin n) (a : Nat) : Prop := ∃ id ex, s.ep p a = .waiting id ex

/-- A step without surprises: calls go to nodes that exist and are of kinds the remote side handles,
and methods called by a communicator thread do not throw. -/
def Regular (has : Has n) : Op n α → Prop
  | .execute _ d _ node _ _ => has d node = true
  | .getState _ d _ node => has d node = true
  | .setState _ d node _ => has d node = true
  | .command _ _ _ _ _ => False
  | .server _ d _ _ _ => d.val ≠ 0
  | .recv _ _ out => out ≠ none
  | _ => True

/-- `setState` calls are for nodes that exist, and methods called by a communicator thread do not
throw. -/
def Settable (has : Has n) : Op n α → Prop
  | .setState _ d node _ => has d node = true
  | .recv _ _ out => out ≠ none
  | _ => True

/-- The `setState` calls of `p` for a node of `q`, in order: number of the call and record. -/
def settingsMade (p q : Fin n) (node : Nat) : List (Call n α) → List (Nat × α)
  | [] => []
  | c :: cs =>
    match c.cmd with
    | .setState node' rec =>
      if c.src = p ∧ c.dst = q ∧ node' = node then (c.id, rec) :: settingsMade p q node cs
      else settingsMade p q node cs
    | _ => settingsMade p q node cs

/-- The settings of `p` among those a node has accepted, in order. -/
def settingsOf (p : Fin n) (l : List (Nat × Fin n × α)) : List (Nat × α) :=
  (l.filter (fun x => x.2.1 = p)).map (fun x => (x.1, x.2.2))

/-- The commands that a node serves by itself, with their node. -/
def servedNode : Cmd α → Option Nat
  | .execute node _ _ => some node
  | .getState node => some node
  | _ => none

/-- The calls that return a reply: all but `setState` and the controls. -/
def AsksReply : Cmd α → Prop
  | .setState _ _ => False
  | .control _ _ _ => False
  | _ => True

/-- A call has returned, or returns as soon as its thread is woken up. -/
def Answered (has : Has n) (s : Sys n α) (c : Call n α) : Prop :=
  (∃ r ∈ s.done, r.id = c.id ∧ r.proc = c.src) ∨
  ∃ a s', step has s (.await c.src a) = some s' ∧ ∃ r ∈ s'.done, r.id = c.id ∧ r.proc = c.src

/-- An error on its way to the main server. -/
def isEvent : Msg α → Bool
  | .event => true
  | _ => false

/-- Errors the user has been told about, or that are on their way. -/
def reports (s : Sys n α) : Nat :=
  s.errors + (∑ p, ((s.queue p).filter (fun x => isEvent x.2)).length)
    + ∑ p, ∑ d, ((s.chan p d).filter isEvent).length

/-- A step in which something goes wrong at the remote side: an `execute` throws, or a message asks
for a node that does not exist, makes a method throw, or asks the main server to manage its nodes. -/
def Failing (has : Has n) (s : Sys n α) : Op n α → Prop
  | .work _ _ out => out = none
  | .recv q src out =>
    match s.chan src q with
    | .req _ _ (.execute node _ _) :: _ => has q node = false
    | .req _ _ (.getState node) :: _ => has q node = false ∨ out = none
    | .req _ _ (.setState node _) :: _ => has q node = false ∨ out = none
    | .req _ _ (.server _ _) :: _ => q.val = 0 ∨ out = none
    | _ => False
  | _ => False

end Verif.MpiSpec
