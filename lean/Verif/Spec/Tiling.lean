import Verif.Model.Tiling
/-! # Tilings: what is meant (C118, C119) -/
namespace Verif.Tiling

/-- A cell of a grid: an index below the extent on each axis. -/
def CellOf : List Nat → List Nat → Prop
  | n :: sh, c :: cs => c < n ∧ CellOf sh cs
  | [], [] => True
  | _, _ => False

/-- Number of cells. -/
def cells (sh : List Nat) : Nat := sh.foldr (· * ·) 1

/-- Position of a cell when the grid is written down with the last axis running fastest. -/
def position : List Nat → List Nat → Nat
  | _ :: sh, c :: cs => c * cells sh + position sh cs
  | _, _ => 0

/-- The shape of the cells: one where the axis is not defined. -/
def shapeOf (nc : List Nat) : List Nat := nc.map fun n => if n = 0 then 1 else n

/-- A tile size of 0 stands for the whole axis. -/
def tileLen (t n : Nat) : Nat := if t = 0 then n else t

/-- `m` tiles of `t` cells cover `n` cells, and no fewer would. -/
def Covers (m t n : Nat) : Prop := n ≤ m * t ∧ (m - 1) * t < n

/-- The grid of tiles: on each axis as many tiles as are needed to cover it, one if the axis is not defined. -/
def GridOf : List Nat → List Nat → List Nat → Prop
  | t :: ts, n :: ns, m :: ms => (if n = 0 then m = 1 else Covers m (tileLen t n) n) ∧ GridOf ts ns ms
  | [], [], [] => True
  | _, _, _ => False

/-- Cell `c` is in tile `k`: on each defined axis the index is in the range of the tile. -/
def InTile : List Nat → List Nat → List Nat → List Nat → Prop
  | t :: ts, n :: ns, c :: cs, k :: ks =>
    (if n = 0 then k = 0 else k * tileLen t n ≤ c ∧ c < (k + 1) * tileLen t n) ∧ InTile ts ns cs ks
  | [], [], [], [] => True
  | _, _, _, _ => False

end Verif.Tiling
