import Verif.Model.Riders
/-! # Specification of riders (C166, C167) -/
namespace Verif.Riders

/-- An entry lists the node. -/
def Listed (n : Target G N) (e : Entry N K A) : Prop := (∃ l, e.names = some l ∧ n.name ∈ l) ∨ ∃ l, e.indices = some l ∧ n.index ∈ l

/-- An entry lists no node at all. -/
def NoList (e : Entry N K A) : Prop := (∀ l, e.names = some l → l = []) ∧ ∀ l, e.indices = some l → l = []

open Classical in
/-- The first entry that lists the node or none at all. -/
noncomputable def firstFor (n : Target G N) (l : List (Entry N K A)) : Cmds K A :=
  match l.find? (fun e => decide (Listed n e ∨ NoList e)) with
  | some e => e.cmds
  | none => []

/-- The commands for a node index. -/
def atIndex (ni : Int) (t : List (Int × Cmds K A)) : Cmds K A := (t.lookup ni).getD []

/-- The commands a group has for a node: those for all, those of the first entry, those for its index. -/
noncomputable def inGroup (n : Target G N) (g : Group N K A) : Cmds K A :=
  g.all.getD [] ++ firstFor n (g.byList.getD []) ++ (match g.byIndex with | some (.table t) => atIndex n.index t | _ => [])

/-- All commands for a node, in the order of its groups. -/
noncomputable def addressed (n : Target G N) (r : Rider G N K A) : Cmds K A :=
  n.groups.flatMap fun g => match r g with | some gr => inGroup n gr | none => []

/-- What performing commands one after the other comes to: states, and the codes ORed; an exception ends it. -/
inductive Performs (h : σ → K → A → σ × Option Nat) : Cmds K A → σ → σ → Option Nat → Prop
  | done : Performs h [] s s (some 0)
  | notRecord : Performs h ((k, none) :: l) s s none
  | throws : h s k a = (s', none) → Performs h ((k, some a) :: l) s s' none
  | next : h s k a = (s', some c) → Performs h l s' s'' o → Performs h ((k, some a) :: l) s s'' (o.map fun d => c ||| d)

end Verif.Riders
