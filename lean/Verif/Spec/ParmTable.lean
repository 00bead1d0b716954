import Verif.Model.ParmTable
/-! # Specification of parameter tables (C48, C84-C86) -/
namespace Verif.ParmTable

/-- Two ranges have more than an end point in common, on all axes that both domains have. -/
def Overlap (d e : Dom) : Prop := ∀ i r s, i < maxAxis → d.axis i = some r → e.axis i = some s → r.1 < s.2 ∧ s.1 < r.2

/-- Equal on all axes. -/
def SameDom (d e : Dom) : Prop := ∀ i, i < maxAxis → d.axis i = e.axis i

/-- The same axes, with ends that differ by no more than 1e-16. -/
def Close (d e : Dom) : Prop := ∀ i, i < maxAxis →
  (d.axis i = none ∧ e.axis i = none) ∨ ∃ r s, d.axis i = some r ∧ e.axis i = some s ∧ |r.1 - s.1| ≤ 1 / 10 ^ 16 ∧ |r.2 - s.2| ≤ 1 / 10 ^ 16

/-- Calls that change a table. -/
inductive Op where
  | put (name : Bytes) (f : Funk)
  | del (name : Bytes) (i : Nat)
  | delAll (name : Bytes)

/-- The table after a call; a call that raises an exception changes nothing. -/
def step (t : Table) : Op → Table
  | .put name f => (put t name f).1
  | .del name i => match delete t name i with | .ok t' => t' | _ => t
  | .delAll name => deleteAll t name

/-- The table after a series of calls. -/
def run (t : Table) (ops : List Op) : Table := ops.foldl step t

/-- Tables made by calls, from a new one, with fewer than 2^31 domains. -/
def Reachable (t : Table) : Prop := t.doms.length < 2 ^ 31 ∧ ∃ ops, t = run ⟨[], []⟩ ops

/-- The call stores or deletes the funklet for a parameter and a domain number. -/
def Touches (t : Table) (name : Bytes) (i : Nat) : Op → Prop
  | .put n f => n = name ∧ (put t n f).2 = i
  | .del n j => n = name ∧ j = i
  | .delAll n => n = name

/-- None of the calls does. -/
def Untouched (name : Bytes) (i : Nat) : Table → List Op → Prop
  | _, [] => True
  | t, op :: ops => ¬ Touches t name i op ∧ Untouched name i (step t op) ops

/-- Numbers in calls fit an `int`. -/
def OpWf : Op → Prop
  | .del _ i => i < 2 ^ 31
  | _ => True

/-- A funklet as it comes back: of a constant polynomial only the coefficient is kept. -/
def restored (f : Funk) (i : Nat) (d : Dom) : Funk :=
  if f.polc = true ∧ f.ncoeff ≤ 1 then ⟨d, i, true, 1, f.c00, defaultPert, defaultWeight, 0⟩ else f

/-- A set of domains of which no two different ones are close. -/
def Apart (S : Dom → Prop) : Prop := ∀ d e, S d → S e → Close d e → SameDom d e

/-- All domains in the calls are in the set. -/
def OpsIn (S : Dom → Prop) (ops : List Op) : Prop := ∀ n f, Op.put n f ∈ ops → S f.dom

/-- What happens to the file of domains. -/
inductive DOp where
  | add (d : Dom)
  | reopen

/-- The effect. -/
def dstep (s : Disk) : DOp → Disk
  | .add d => s.add d
  | .reopen => .open s.file

/-- The domains that were added. -/
def added : List DOp → List Dom
  | [] => []
  | .add d :: l => d :: added l
  | .reopen :: l => added l

/-- A new table, with no domains. -/
def emptyDisk : Disk := ⟨[], []⟩

end Verif.ParmTable
