import Verif.Model.Server

/-!
# What is promised to clients of the server
-/
namespace Verif.ServerSpec
open Verif.Server

variable {β : Type}

/-- The command an event asks for: `Command.<..>` with a record. -/
def commandOf (ev : Event β) : Option (List String × Payload β) :=
  match ev.id, ev.load with
  | "Command" :: cmd, some p => some (cmd, p)
  | _, _ => none

/-- The client does not want a reply. -/
def silent (p : Payload β) : Prop := ∃ a, p.args = .val a ∧ a.silent = .val true

/-- The client wants the command to wait for its turn. -/
def sync (p : Payload β) : Prop := ∃ a, p.args = .val a ∧ a.sync = .val true

/-- Commands that change the forest or execute it, which always wait for their turn. -/
def exclusive : List (List String) :=
  [["Create", "Node"], ["Create", "Node", "Batch"], ["Delete", "Node"], ["Clear", "Forest"], ["Node", "Execute"],
   ["Node", "Clear", "Cache"]]

/-- Commands that are done at once, other than those for a node. -/
def immediate : List (List String) :=
  [["Halt"], ["Get", "Forest", "State"], ["Set", "Forest", "State"], ["Set", "Cwd"], ["Set", "Session", "Name"],
   ["Get", "Node", "List"], ["Get", "Forest", "Status"], ["Get", "NodeIndex"], ["Disable", "Publish", "Results"],
   ["Set", "Forest", "Breakpoint"], ["Clear", "Forest", "Breakpoint"], ["Execute", "Abort"],
   ["Debug", "Set", "Level"], ["Debug", "Interrupt"], ["Debug", "Single", "Step"], ["Debug", "Next", "Node"],
   ["Debug", "Until", "Node"], ["Debug", "Continue"]]

/-- A command that exists; those for nodes are known to the node only. -/
def Known (cmd : List String) : Prop := cmd ∈ exclusive ∨ cmd ∈ immediate ∨ ∃ rest, cmd = "Node" :: rest

/-- A command that waits for its turn. -/
def Queued (cmd : List String) (p : Payload β) : Prop := cmd ∈ exclusive ∨ (Known cmd ∧ sync p)

/-- Event `n` of a history is such a command. -/
def QueuedAt (evs : List (Event β)) (n : Nat) : Prop :=
  ∃ ev cmd p, evs[n]? = some ev ∧ commandOf ev = some (cmd, p) ∧ Queued cmd p

/-- An event made as clients should: a command has a name, and the fields of its record have the right
types. -/
def Proper (ev : Event β) : Prop :=
  match commandOf ev with
  | none => True
  | some (cmd, p) =>
    cmd ≠ [] ∧ p.index ≠ .bad ∧ p.args ≠ .bad ∧ ∀ a, p.args = .val a → a.silent ≠ .bad ∧ a.sync ≠ .bad

/-- The number a client gave to its command (0: none). -/
def indexOf (p : Payload β) : Int :=
  match p.index with
  | .val i => i
  | _ => 0

def argsOf (p : Payload β) : Option β :=
  match p.args with
  | .val a => some a.body
  | _ => none

/-- The replies to event `n`: identifier, number, content. -/
def repliesTo (n : Nat) : List (Post β) → List (List String × Int × Content β)
  | [] => []
  | .reply m id ix _ c :: ps => if m = n then (id, ix, c) :: repliesTo n ps else repliesTo n ps
  | _ :: ps => repliesTo n ps

/-- The numbers of the events answered, in the order of the replies. -/
def answered : List (Post β) → List Nat
  | [] => []
  | .reply m _ _ _ _ :: ps => m :: answered ps
  | _ :: ps => answered ps

/-- An event has got the replies it should: a command one, with its name and number, unless it was silent,
when it has none or one for an error; an unknown command one for an error; other events none. -/
def Answered (ev : Event β) (rs : List (List String × Int × Content β)) : Prop :=
  match commandOf ev with
  | none => rs = []
  | some (cmd, p) =>
    (Known cmd ∧ ¬ silent p ∧ ∃ c, rs = [("Result" :: cmd, indexOf p, c)]) ∨
    (Known cmd ∧ silent p ∧ (rs = [] ∨ rs = [("Result" :: cmd, indexOf p, .error)])) ∨
    (¬ Known cmd ∧ rs = [("Result" :: cmd, indexOf p, .error)])

/-- No command is waiting or being executed. -/
def Idle (s : Sys β) : Prop := s.queue = [] ∧ s.exec = .idle

/-- The state clients were told last, in a notification or with a reply. -/
def told : List (Post β) → App
  | [] => .idle
  | ps => match ps.reverse.findSome? (fun x => match x with
      | .state a => some a
      | .reply _ _ _ app _ => app
      | _ => none) with
    | some a => a
    | none => .idle

/-- A node is being executed for the command with number `n`. -/
def Executing (s : Sys β) (n : Nat) : Prop :=
  ∃ e old cl, s.exec = .began e old cl ∧ e.n = n ∧ e.cmd = ["Node", "Execute"]

/-- The same, and the execution has got past its start, where it forgets earlier requests to abort. -/
def Started (s : Sys β) (n : Nat) : Prop :=
  ∃ e old, s.exec = .began e old true ∧ e.n = n ∧ e.cmd = ["Node", "Execute"]

/-- The clients of a history make events as they should. -/
def ProperHistory (ops : List (Op β)) : Prop := ∀ ev o, Op.recv ev o ∈ ops → Proper ev

/-- The server has taken the operations from its start to the state `s`. -/
def Reached (ops : List (Op β)) (s : Sys β) : Prop := run (Sys.init β) ops = some s

/-- The same for the list of nodes, `f` at the start. -/
def NReached {ν : Type} (f : ν) (ops : List (NOp ν)) (s : Nodes ν) : Prop := nrun (Nodes.init f) ops = some s

/-- No change is made while a copied list waits for its number. -/
def Calm {ν : Type} (f : ν) (ops : List (NOp ν)) : Prop :=
  ∀ pre g post s, ops = pre ++ .change g :: post → NReached f pre s → ∀ l, s.get ≠ .copied l

/-- Whether the operation is an event with a request to abort. -/
def IsAbort : Op β → Prop
  | .recv ev _ => ∃ p, commandOf ev = some (["Execute", "Abort"], p)
  | _ => False

end Verif.ServerSpec
