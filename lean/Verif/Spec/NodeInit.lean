import Verif.Model.NodeInit
/-!
# Specification of the creation of nodes
-/
namespace Verif.NodeInit

/-- A label means child `k` if it is the class's label for it, or if the class does not have that label and it is the number. -/
def Means (labels : List (List Int)) (l : List Int) (k : Nat) : Prop :=
  (labels[k]? = some l ∧ ∀ j, k < j → labels[j]? ≠ some l) ∨ (l ∉ labels ∧ l = [(k : Int)])

/-- A class of nodes that takes at least `mn` and at most `mx` children: the constructor's arguments are the number `n` of children, or `-(n+1)`
for `n` or more, the labels, if any, of `n` children, and the number of mandatory ones, or a negative number for all `n`. -/
def Takes (c : Cls) (mn : Nat) (mx : Option Nat) : Prop :=
  ∃ n : Nat, ((c.nchildren = n ∧ mx = some n) ∨ (c.nchildren = -((n : Int) + 1) ∧ mx = none)) ∧
    ((c.nmandatory < 0 ∧ mn = n) ∨ (c.nmandatory = mn ∧ mn ≤ n)) ∧ (c.labels = [] ∨ (c.labels.length = n ∧ 0 < n))

/-- The init record names node `j` as child `k`. -/
def Names (labels : List (List Int)) (kids : Kids) (k : Nat) (j : Nat) : Prop :=
  match kids with
  | .fields l => ∃ lab, (lab, (j : Int)) ∈ l ∧ Means labels lab k
  | .vector l => l[k]? = some (j : Int)
  | _ => False

/-- No two fields mean the same child. -/
def Single (labels : List (List Int)) (kids : Kids) : Prop :=
  match kids with
  | .fields l => l.Pairwise (fun p q => ∀ k, Means labels p.1 k → ¬ Means labels q.1 k)
  | _ => True

/-- There is such a node. -/
def Exists (f : Forest) (j : Nat) : Prop := ∃ n, f.nodes[j]? = some (some n)

/-- The node is what its init record asks for, and all nodes it refers to exist. -/
structure Right (f : Forest) (s : Spec) (n : Node) : Prop where
  name : n.name = s.name
  active : n.active = true
  kids : ∀ k j : Nat, n.kids[k]? = some (some j) ↔ Names s.cls.labels s.kids k j
  labels : ∀ k j : Nat, n.kids[k]? = some (some j) → n.kidLabels[k]? = some ((s.cls.labels[k]?).getD [(k : Int)])
  steps : ∀ k j : Nat, n.steps[k]? = some (some j) ↔ s.step[k]? = some (j : Int)
  stepsAll : n.steps.length = s.step.length ∧ none ∉ n.steps
  parents : ∀ k j : Nat, n.parents[k]? = some (some j) ↔ s.parents[k]? = some (j : Int)
  parentsAll : n.parents.length = s.parents.length ∧ none ∉ n.parents
  there : ∀ j : Nat, (some j ∈ n.kids ∨ some j ∈ n.steps ∨ some j ∈ n.parents) → Exists f j

/-- All nodes an init record refers to exist, and its settings are accepted. -/
def RefsExist (f : Forest) (s : Spec) : Prop :=
  (∀ k j, Names s.cls.labels s.kids k j → Exists f j) ∧ (∀ i ∈ s.step, 0 < i ∧ Exists f i.toNat) ∧
    (∀ i ∈ s.parents, 0 < i ∧ Exists f i.toNat) ∧ s.settings = true

/-- An init record whose children are as its class asks: labels are known, there are not too many children, and mandatory ones are there. -/
def Legal (s : Spec) : Prop :=
  ∃ mn mx, Takes s.cls mn mx ∧ (∀ k, k < mn → ∃ j, Names s.cls.labels s.kids k j) ∧
    match s.kids with
    | .absent => True
    | .fields l => (∀ p ∈ l, ∃ k, Means s.cls.labels p.1 k ∧ ∀ m, mx = some m → k < m)
    | .vector l => ∀ m, mx = some m → l.length ≤ m
    | .other => False

end Verif.NodeInit
