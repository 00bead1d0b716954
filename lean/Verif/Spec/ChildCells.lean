import Verif.Model.ChildCells
/-! # Specification of cells and spid maps of children (C178, C179) -/
namespace Verif.ChildCells
open Verif.Vells (ext)

/-- Bounds that agree to ten digits. -/
def Near (a b : ℚ) : Prop := |a - b| ≤ max |a| |b| / 10000000000

/-- The child's values conform to its cells: along axes on which they vary there are as many of them as cells. -/
def Conforms (c : Child) : Prop := ∀ a, ext c.shape a ≠ 1 → 1 < ext c.shape a ∧ ∃ y, c.ax a = some y ∧ y.n = ext c.shape a

/-- Cells are right for a child: along axes on which it varies they have as many points as its own, over the same domain. -/
def Right (ax : Nat → Option Ax) (c : Child) : Prop :=
  ∀ a, ext c.shape a ≠ 1 → ∃ x y, ax a = some x ∧ c.ax a = some y ∧ x.n = y.n ∧ Near x.s y.s ∧ Near x.e y.e

/-- The values found for a spid by children in their order: the first. -/
def firstOf {β V : Type} (k : Nat) : List (Option (Res β V)) → Option V
  | [] => none
  | none :: l => firstOf k l
  | some c :: l => match c.map with | none => firstOf k l | some m => (match m k with | some v => some v | none => firstOf k l)

end Verif.ChildCells
