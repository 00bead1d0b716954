import Verif.Model.Forest
/-! # Specification of the node repository (C32) -/
namespace Verif.Forest

/-- Node number `i` exists and is called `name`. -/
def Live (s : Forest) (i : Nat) (name : String) : Prop := s.nodes[i]? = some (some name)

/-- How many nodes exist. -/
def liveCount (s : Forest) : Nat := s.nodes.countP (·.isSome)

/-- The forest is in order: nodes are found under their index and, if they have one, their name; names belong to one
live node only; the count is right; a lookup of what does not exist fails. -/
structure Ok (s : Forest) : Prop where
  by_index : ∀ i name, Live s i name → get s i = .ok name
  by_name : ∀ i name, Live s i name → name ≠ "" → findIndex s name = i ∧ findNode s name = .ok name
  unique : ∀ i j name, Live s i name → Live s j name → name ≠ "" → i = j
  count : s.num = liveCount s
  no_ghost_name : ∀ name, findIndex s name ≠ -1 → ∃ i : Nat, findIndex s name = i ∧ Live s i name
  valid_iff : ∀ i : Int, valid s i = true ↔ ∃ (k : Nat) (name : String), i = k ∧ Live s k name
  positive : ∀ i name, Live s i name → 0 < i

end Verif.Forest
