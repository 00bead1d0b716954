import Verif.Model.Cells
/-! # Specification of domains and cells (C41-C44, C73-C75) -/
namespace Verif.CellGrid

/-- A proper domain: ranges are not empty, and only the axes there can be are defined. -/
def Dom.Wf (d : Dom) : Prop := (∀ i r, d.axis i = some r → r.1 < r.2) ∧ ∀ i, maxAxis ≤ i → d.axis i = none

/-- `e` covers `d`: every axis of `d` is an axis of `e` with a range including that of `d`. -/
def Covers (e d : Dom) : Prop := ∀ i r, d.axis i = some r → ∃ s, e.axis i = some s ∧ s.1 ≤ r.1 ∧ r.2 ≤ s.2

/-- `d` includes the projection of `o` onto the axes of `d`. -/
def IncludesProj (d o : Dom) : Prop := ∀ i r, d.axis i = some r → ∃ s, o.axis i = some s ∧ r.1 ≤ s.1 ∧ s.2 ≤ r.2

/-- The cells of a segment. -/
def cellsOf (p : Int × Int) : List Nat := List.range' p.1.toNat (p.2 - p.1 + 1).toNat

/-- Centre of cell `i`, size of cell `i`. -/
def at' (l : List ℚ) (i : Nat) : ℚ := l.getD i 0

/-- Within a segment, neighbouring steps are equal up to `eps`, and so are the sizes. -/
def Regular (x h : List ℚ) (eps : ℚ) (p : Int × Int) : Prop :=
  (∀ i : Nat, p.1 < i → (i : Int) < p.2 → |(at' x (i + 1) - at' x i) - (at' x i - at' x (i - 1))| ≤ eps) ∧
  ∀ i : Nat, p.1 ≤ i → (i : Int) ≤ p.2 → |at' h i - at' h p.1.toNat| ≤ eps

/-- Where one segment ends and the next one begins there is a change of size or of step. -/
def Break (x h : List ℚ) (eps : ℚ) (p q : Int × Int) : Prop :=
  eps < |at' h q.1.toNat - at' h p.1.toNat| ∨
  (p.1 < p.2 ∧ eps < |(at' x q.1.toNat - at' x p.2.toNat) - (at' x p.2.toNat - at' x (p.2.toNat - 1))|)

/-- The grid has cells, each with a size. -/
def Grid.Wf (g : Grid) : Prop := g.x.length = g.h.length ∧ g.x ≠ []

/-- Each cell starts where the one before ends. -/
def Contiguous (l : List (ℚ × ℚ)) : Prop := l.IsChain fun p q => p.2 = q.1

/-- Proper cells: a domain, at most the axes there can be, cells along exactly the axes of the domain. -/
def Cells.Wf (c : Cells) : Prop :=
  ∃ d, c.dom = some d ∧ d.Wf ∧ c.rank ≤ maxAxis ∧ (∀ i, (c.axis i).isSome = d.isDefined i) ∧
    ∀ i g, c.axis i = some g → g.Wf

/-- Two cells are the same: same domain, same rank and same cells along all axes. -/
def Same (a b : Cells) : Prop :=
  (a.dom.map Dom.axis = b.dom.map Dom.axis) ∧ a.rank = b.rank ∧
    ∀ i, (a.axis i).map (fun g => (g.x, g.h)) = (b.axis i).map (fun g => (g.x, g.h))

/-- Subdivision of an interval. -/
def parts (n : Nat) (p : ℚ × ℚ) : List (ℚ × ℚ) :=
  (List.range n).map fun j : Nat => (p.1 + (p.2 - p.1) / n * j, p.1 + (p.2 - p.1) / n * (j + 1))

/-- Number of cells of the outcome. -/
def count (g : Option Grid) : Nat := match g with | none => 0 | some g => g.x.length

/-- Number of cells asked for. -/
def asked (op : Op) (arg np : Nat) : Nat :=
  match op with
  | .none => np
  | .setNCells => arg
  | .integrate => np / arg
  | .upsample => np * arg

/-- The interval from the first start to the last end. -/
def extent (l : List (ℚ × ℚ)) : ℚ × ℚ := ((l.headD (0, 0)).1, (l.getLastD (0, 0)).2)

/-- Cells along an axis as a pair of vectors. -/
def xh (c : Cells) (i : Nat) : Option (List ℚ × List ℚ) := (c.axis i).map fun g => (g.x, g.h)

/-- The two conflict: along an axis both have cells the numbers of cells or the ranges differ. -/
def Conflict (a b : Cells) (da db : Dom) : Prop :=
  ∃ i g g', a.axis i = some g ∧ b.axis i = some g' ∧ (g.x.length ≠ g'.x.length ∨ da.axis i ≠ db.axis i)

/-- The cells fill their domain: each range reaches from the start of the first cell to the end of the last. -/
def Tight (c : Cells) : Prop := ∀ d, c.dom = some d → ∀ i g, c.axis i = some g →
  d.axis i = some (g.x.headD 0 - g.h.headD 0 / 2, g.x.getLastD 0 + g.h.getLastD 0 / 2)

end Verif.CellGrid
