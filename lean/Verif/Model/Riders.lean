import Verif.Model.Outcome
/-!
# Riders: commands to nodes that travel with a request

(MEQ/src/Rider.cc, Rider.h, Node_commands.cc.)  Groups, commands, names and arguments are arbitrary types.  Records are iterated in
the order of their fields (C12), which here is the order of the lists.  What a command does is a parameter.
-/
namespace Verif.Riders

/-- A node as far as riders go: its groups (Node.cc:332-340 puts "All" first), its name and its index. -/
structure Target (G N : Type) where
  groups : List G
  name : N
  index : Int

/-- A record of commands: for each field the arguments, or nothing if the field is not a record. -/
abbrev Cmds (K A : Type) := List (K × Option A)

/-- An entry of `command_by_list` (Node_commands.cc:163-171): lists of names and indices, each of which may be absent, and commands. -/
structure Entry (N K A : Type) where
  names : Option (List N)
  indices : Option (List Int)
  cmds : Cmds K A

/-- What may be in `command_by_nodeindex`: a record with a record of commands for each index, or a vector of entries (Rider.cc:109-114). -/
inductive IndexField (N K A : Type)
  | table (t : List (Int × Cmds K A))
  | vec (l : List (Entry N K A))

/-- The record of a group: `command_all`, `command_by_list` and `command_by_nodeindex`. -/
structure Group (N K A : Type) where
  all : Option (Cmds K A)
  byList : Option (List (Entry N K A))
  byIndex : Option (IndexField N K A)

/-- A rider: a record for each group in it. -/
abbrev Rider (G N K A : Type) := G → Option (Group N K A)

/-! ## Receiving (Node_commands.cc) -/

/-- `a`, and then `f` unless there was an exception (`none`); return codes are ORed. -/
def andThen (a : σ × Option Nat) (f : σ → σ × Option Nat) : σ × Option Nat :=
  match a.2 with
  | none => (a.1, none)
  | some c => ((f a.1).1, (f a.1).2.map fun d => c ||| d)

/-- `processCommands` (Node_commands.cc:117-132), without the fields `name` and `nodeindex`, which it skips.  `h` is `processCommand`:
the new state of the node, and the return code unless there is an exception. -/
def runCmds (h : σ → K → A → σ × Option Nat) : Cmds K A → σ → σ × Option Nat
  | [], s => (s, some 0)
  | (_, none) :: _, s => (s, none)
  | (k, some a) :: l, s => andThen (h s k a) (runCmds h l)

/-- Whether an entry is for a node (Node_commands.cc:175-179). -/
def matched [DecidableEq N] (n : Target G N) (e : Entry N K A) : Bool :=
  (e.indices.getD []).contains n.index || (e.names.getD []).contains n.name || ((e.names.getD []).isEmpty && (e.indices.getD []).isEmpty)

/-- The loop over the list (Node_commands.cc:154-191): the first entry that matches. -/
def runList [DecidableEq N] (h : σ → K → A → σ × Option Nat) (n : Target G N) : List (Entry N K A) → σ → σ × Option Nat
  | [], s => (s, some 0)
  | e :: l, s => if matched n e then runCmds h e.cmds s else runList h n l s

/-- Commands by index (Node_commands.cc:192-202); a vector is not a record (exception). -/
def runIndex (h : σ → K → A → σ × Option Nat) (ni : Int) : IndexField N K A → σ → σ × Option Nat
  | .vec _, s => (s, none)
  | .table t, s =>
    match t.find? (fun e => e.1 == ni) with
    | none => (s, some 0)
    | some e => runCmds h e.2 s

/-- `f` on a field, if it is there. -/
def ifPresent (o : Option α) (f : α → σ → σ × Option Nat) (s : σ) : σ × Option Nat :=
  match o with
  | none => (s, some 0)
  | some x => f x s

/-- The commands of a group (Node_commands.cc:147-202). -/
def runGroup [DecidableEq N] (h : σ → K → A → σ × Option Nat) (n : Target G N) (g : Group N K A) (s : σ) : σ × Option Nat :=
  andThen (ifPresent g.all (runCmds h) s) fun s =>
    andThen (ifPresent g.byList (runList h n) s) fun s => ifPresent g.byIndex (runIndex h n.index) s

/-- The loop of `processRequestRider` over the groups of the node (Node_commands.cc:134-205). -/
def runGroups [DecidableEq N] (h : σ → K → A → σ × Option Nat) (n : Target G N) (r : Rider G N K A) : List G → σ → σ × Option Nat
  | [], s => (s, some 0)
  | g :: l, s => andThen (ifPresent (r g) (runGroup h n) s) (runGroups h n r l)

/-- `processRequestRider`. -/
def runRider [DecidableEq N] (h : σ → K → A → σ × Option Nat) (n : Target G N) (r : Rider G N K A) (s : σ) : σ × Option Nat :=
  runGroups h n r n.groups s

/-! ## Sending (Rider.cc) -/

/-- The flags (Rider.h:40-45). -/
structure Flags where
  newRider : Bool
  newGroup : Bool
  newCmd : Bool

/-- One of the flags is given (`flags&NEW_ALL`). -/
def Flags.any (f : Flags) : Bool := f.newRider || f.newGroup || f.newCmd

/-- `getRider` (Rider.cc:65-68) on a request with or without a rider. -/
def getRider (f : Flags) (r : Option (Rider G N K A)) : Rider G N K A := if f.newRider then fun _ => none else r.getD fun _ => none

/-- `getGroupRec` (Rider.cc:74-78). -/
def getGroup (f : Flags) (r : Rider G N K A) (g : G) : Group N K A :=
  if f.newGroup || f.newRider then ⟨none, none, none⟩ else (r g).getD ⟨none, none, none⟩

/-- Storing the record of a group. -/
def setGroup [DecidableEq G] (r : Rider G N K A) (g : G) (x : Group N K A) : Rider G N K A := fun g' => if g' = g then some x else r g'

/-- `getCmdRec_All` (Rider.cc:85-90), and what the caller then does with the record. -/
def editAll [DecidableEq G] (f : Flags) (r : Option (Rider G N K A)) (g : G) (fn : Cmds K A → Cmds K A) : Res (Rider G N K A) :=
  let gr := getGroup f (getRider f r) g
  .ok (setGroup (getRider f r) g ⟨some (fn (if f.any then [] else gr.all.getD [])), gr.byList, gr.byIndex⟩)

/-- `getCmdRec_ByNodeIndex` (Rider.cc:97-102), and then storing commands for a node index.  A vector there is an exception. -/
def editIndex [DecidableEq G] (f : Flags) (r : Option (Rider G N K A)) (g : G) (ni : Int) (c : Cmds K A) : Res (Rider G N K A) :=
  let gr := getGroup f (getRider f r) g
  match if f.any then none else gr.byIndex with
  | some (.vec _) => .err
  | some (.table t) => .ok (setGroup (getRider f r) g ⟨gr.all, gr.byList, some (.table ((ni, c) :: t.filter fun e => e.1 != ni))⟩)
  | none => .ok (setGroup (getRider f r) g ⟨gr.all, gr.byList, some (.table [(ni, c)])⟩)

/-- `getCmdRec_ByList` (Rider.cc:109-114), and then adding an entry.  The field it takes is `command_by_nodeindex`. -/
def editList [DecidableEq G] (f : Flags) (r : Option (Rider G N K A)) (g : G) (e : Entry N K A) : Res (Rider G N K A) :=
  let gr := getGroup f (getRider f r) g
  match if f.any then none else gr.byIndex with
  | some (.table _) => .err
  | some (.vec l) => .ok (setGroup (getRider f r) g ⟨gr.all, gr.byList, some (.vec (l ++ [e]))⟩)
  | none => .ok (setGroup (getRider f r) g ⟨gr.all, gr.byList, some (.vec [e])⟩)

end Verif.Riders
