import Verif.Model.Outcome
import Verif.Model.Vells
import Verif.Model.Cells

/-!
# Splitting of strings, nodes for grids, and nodes for locations of extremes

`/repo/TimBase/src/StringUtil.cc`, `/repo/MeqNodes/src/Grid.cc`, `Freq.cc`, `TimeNode.cc`, `MaxLocation.cc`,
`MinLocation.cc`.
-/
namespace Verif.Locate

/-! ### Splitting -/

/-- `s.find(c,i)`, of the standard library (StringUtil.cc line 41). -/
def find {α} [DecidableEq α] (s : List α) (c : α) (i : Nat) : Option Nat :=
  ((s.drop i).findIdx? (fun x => decide (x = c))).map (· + i)

theorem find_bound {α} [DecidableEq α] {s : List α} {c : α} {i j : Nat} (h : find s c i = some j) :
    i ≤ j ∧ j < s.length := by
  unfold find at h
  rw [Option.map_eq_some_iff] at h
  obtain ⟨k, hk, rfl⟩ := h
  obtain ⟨hl, _⟩ := List.findIdx?_eq_some_iff_getElem.1 hk
  rw [List.length_drop] at hl
  omega

/-- The loop of `split` (StringUtil.cc lines 40-45). -/
def splitLoop {α} [DecidableEq α] (s : List α) (c : α) (i : Nat) (v : List (List α)) : List (List α) :=
  match h : find s c i with
  | none => v ++ [s.drop i]
  | some j => splitLoop s c (j + 1) (v ++ [(s.drop i).take (j - i)])
termination_by s.length - i
decreasing_by have := find_bound h; omega

/-- `split` (StringUtil.cc lines 35-47). -/
def split {α} [DecidableEq α] (s : List α) (c : α) : List (List α) := splitLoop s c 0 []

/-! ### Grids -/

/-- The value of `Grid::getResult` (Grid.cc lines 77-104); with axis 1 that of `Freq` (Freq.cc lines 44-66), with axis 0
that of `Time` (TimeNode.cc). -/
def gridValue (c : CellGrid.Cells) (ax : Nat) : Vells.Arr ℚ :=
  if (c.axis ax).isSome then ⟨(List.replicate c.rank 1).set ax (c.ncells ax), (c.center ax).take (c.ncells ax)⟩
  else ⟨[1], [0]⟩

/-! ### Locations -/

/-- The indices of an array in the order in which it is stored, and in which `blitz::maxIndex` looks at them
(MaxLocation.cc line 107; Simplification: the loop of the library is not in this repository). -/
def counters : List Nat → List (List Nat)
  | [] => [[]]
  | n :: s => (List.range n).flatMap fun i => (counters s).map (i :: ·)

/-- `blitz::maxIndex` and `blitz::minIndex` (MaxLocation.cc lines 100, 107, 116, 125): the first of the best ones. -/
def bestIndex (better : ℚ → ℚ → Bool) : Option (List Nat × ℚ) → List (List Nat × ℚ) → Option (List Nat × ℚ)
  | b, [] => b
  | none, x :: xs => bestIndex better (some x) xs
  | some b, x :: xs => bestIndex better (if better x.2 b.2 then some x else some b) xs

/-- The loop over axes of the value (MaxLocation.cc lines 108-113): `none` is a value that is not set. -/
def place (c : CellGrid.Cells) (dim : Nat) (v : List Nat) : List Nat → Res (List (Option ℚ))
  | [] => .ok []
  | i :: is =>
    match place c dim v is with
    | .ok l =>
      if i < dim ∧ (c.center i).length > 0 then
        match (c.center i)[v.getD i 0]? with
        | some x => .ok (some x :: l)
        | none => .ub
      else .ok (none :: l)
    | .err => .err
    | .ub => .ub

/-- `evaluateTensors` (MaxLocation.cc lines 78-145, and the same in MinLocation.cc) with a real value, and the number of
results of `getResultDims` (lines 65-75); `c` are the cells of the child (lines 52-62). -/
def locate (better : ℚ → ℚ → Bool) (c : CellGrid.Cells) (a : Vells.Arr ℚ) : Res (List (Option ℚ)) :=
  if a.shape.length = 0 ∨ 4 < a.shape.length then .ok (List.replicate c.rank none)
  else
    match bestIndex better none ((counters a.shape).zip a.data) with
    | some b => place c a.shape.length b.1 (List.range c.rank)
    | none => .ok (List.replicate c.rank none)

/-- `MaxLocation`. -/
def maxLocation : CellGrid.Cells → Vells.Arr ℚ → Res (List (Option ℚ)) := locate fun x y => decide (y < x)

/-- `MinLocation`. -/
def minLocation : CellGrid.Cells → Vells.Arr ℚ → Res (List (Option ℚ)) := locate fun x y => decide (x < y)

end Verif.Locate
