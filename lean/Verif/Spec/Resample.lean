import Verif.Model.Resample
import Mathlib.Algebra.BigOperators.Group.Finset.Basic
/-!
# Specification of the integration of values to coarser cells
-/
namespace Verif.Resample

/-- A cell, given by its centre and its size, is an interval. -/
def lo (c : ℚ × ℚ) : ℚ := c.1 - c.2 / 2
def hi (c : ℚ × ℚ) : ℚ := c.1 + c.2 / 2

/-- Cells fill the domain without gaps or overlaps, in order. -/
structure Fills (d : ℚ × ℚ) (l : List (ℚ × ℚ)) : Prop where
  pos : ∀ c ∈ l, 0 < c.2
  next : ∀ (i : Nat) c c', l[i]? = some c → l[i + 1]? = some c' → hi c = lo c'
  first : ∃ c, l.head? = some c ∧ lo c = d.1
  last : ∃ c, l.getLast? = some c ∧ hi c = d.2

/-- The part of old cell `k` that lies in cell `o`. -/
def part (l : List (ℚ × ℚ)) (k : Nat) (o : ℚ × ℚ) : ℚ :=
  match l[k]? with
  | none => 0
  | some c => max 0 (min (hi c) (hi o) - max (lo c) (lo o)) / c.2

/-- Old cell `k` meets cell `o`, or ends where it starts. -/
def Meets (l : List (ℚ × ℚ)) (k : Nat) (o : ℚ × ℚ) : Prop := ∃ c, l[k]? = some c ∧ lo c < hi o ∧ lo o ≤ hi c

/-- The table has the values `B`, for `n` and `m` cells; with one row, or one column, all are the same. -/
structure Holds (b : List (List ℚ)) (n m : Nat) (B : Nat → Nat → ℚ) : Prop where
  rows : b.length = n ∨ b.length = 1
  cols : ∃ w, (w = m ∨ w = 1) ∧ ∀ r ∈ b, r.length = w
  vals : ∀ i j, i < n → j < m → ∃ r, b[if b.length = 1 then 0 else i]? = some r ∧ r[if r.length = 1 then 0 else j]? = some (B i j)

/-- Sum over all old cells. -/
def total (n m : Nat) (f : Nat → Nat → ℚ) : ℚ := ∑ i ∈ Finset.range n, ∑ j ∈ Finset.range m, f i j

/-- An element of a table. -/
def At {α : Type} (a : List (List α)) (i j : Nat) (v : α) : Prop := ∃ r, a[i]? = some r ∧ r[j]? = some v

/-- The table has the flags `F`, for `n` and `m` cells. -/
def HasFlags (f : List (List Nat)) (n m : Nat) (F : Nat → Nat → Nat) : Prop := ∀ i j, i < n → j < m → At f i j (F i j)

/-- The table has a value for each pair of cells. -/
def Shape {α : Type} (a : List (List α)) (n m : Nat) : Prop := a.length = n ∧ ∀ r ∈ a, r.length = m

/-- The new values are means of the old ones, weighted with the parts of the old cells that lie in the new ones. -/
def Means (ix iy ox oy : List (ℚ × ℚ)) (B : Nat → Nat → ℚ) (a : List (List ℚ)) : Prop :=
  Shape a ox.length oy.length ∧ ∀ (i j : Nat) o p, ox[i]? = some o → oy[j]? = some p → ∃ v, At a i j v ∧
    0 < total ix.length iy.length (fun k l => part ix k o * part iy l p) ∧
    v * total ix.length iy.length (fun k l => part ix k o * part iy l p) =
      total ix.length iy.length (fun k l => part ix k o * part iy l p * B k l)

open Classical in
/-- Number of old cells with the property. -/
noncomputable def count (n m : Nat) (P : Nat → Nat → Prop) : ℚ := total n m (fun k l => if P k l then 1 else 0)

open Classical in
/-- A new value and its flags: a mean of those old values that are not flagged, or 0 if no part of them counts; flagged if, of the old cells that are
counted, more than the given part are flagged. -/
def FlaggedMean (p : Policy) (n m : Nat) (w : Nat → Nat → ℚ) (C : Nat → Nat → Prop) (B : Nat → Nat → ℚ) (F : Nat → Nat → Nat) (v : ℚ) (g : Nat) : Prop :=
  (v * total n m (fun k l => if F k l &&& p.mask = 0 then w k l else 0) = total n m (fun k l => if F k l &&& p.mask = 0 then w k l * B k l else 0)) ∧
  (total n m (fun k l => if F k l &&& p.mask = 0 then w k l else 0) = 0 → v = 0) ∧
  (¬ p.density * count n m C < count n m (fun k l => C k l ∧ F k l &&& p.mask ≠ 0) → g = 0) ∧
  (p.density * count n m C < count n m (fun k l => C k l ∧ F k l &&& p.mask ≠ 0) → (p.bit ≠ 0 → g = p.bit) ∧
    (p.bit = 0 → ∀ t, g.testBit t = true ↔ ∃ k l, k < n ∧ l < m ∧ C k l ∧ (F k l &&& p.mask).testBit t = true))

/-- All new values and flags, with the old cells that count given for each pair of new ones. -/
def FlaggedMeans (p : Policy) (ix iy ox oy : List (ℚ × ℚ)) (C : ℚ × ℚ → ℚ × ℚ → Nat → Nat → Prop) (B : Nat → Nat → ℚ) (F : Nat → Nat → Nat)
    (a : List (List (ℚ × Nat))) : Prop :=
  Shape a ox.length oy.length ∧ ∀ (i j : Nat) o q, ox[i]? = some o → oy[j]? = some q → ∃ v g, At a i j (v, g) ∧
    FlaggedMean p ix.length iy.length (fun k l => part ix k o * part iy l q) (C o q) B F v g

end Verif.Resample
