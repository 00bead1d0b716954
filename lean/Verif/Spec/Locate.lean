import Verif.Model.Locate
import Verif.Spec.Vells

/-!
# Specification of splitting, grids and locations
-/
namespace Verif.Locate

/-- The pieces with the separator between them. -/
def join {α} (c : α) : List (List α) → List α
  | [] => []
  | [p] => p
  | p :: ps => p ++ c :: join c ps

/-- The value at a point is at least as good as those at all points of the array. -/
def BestAt (better : ℚ → ℚ → Prop) (a : Vells.Arr ℚ) (idx : Nat → Nat) : Prop :=
  ∃ m, a.at idx = some m ∧ ∀ idx' m', Vells.Inside a.shape idx' → a.at idx' = some m' → ¬ better m' m

/-- A result for each axis with cells: the centre, along that axis, of a cell where the child has its largest
(smallest) value. -/
def Located (better : ℚ → ℚ → Prop) (c : CellGrid.Cells) (a : Vells.Arr ℚ) (r : Res (List (Option ℚ))) (dim : Nat) : Prop :=
  ∃ out idx, r = .ok out ∧ out.length = c.rank ∧ Vells.Inside a.shape idx ∧ BestAt better a idx ∧
    ∀ i, i < dim → ∀ g, c.axis i = some g → g.x ≠ [] → ∃ x, g.x[idx i]? = some x ∧ out[i]? = some (some x)

end Verif.Locate
