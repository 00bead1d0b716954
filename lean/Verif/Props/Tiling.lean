import Verif.Proof.SolverPlan
/-! # C118: tilings -/
namespace Verif.Tiling

/-- C118.  For any tile sizes and any grid: the tiling has the tiles that cover the grid, and the walk over the cells ends, meets
each cell once in order, and the tiling's current tile is at each cell the tile that cell is in. -/
theorem C118_tile_of_cell (ts nc : List Nat) (hlen : ts.length = nc.length) :
    ∃ g w, GridOf ts nc g ∧ (init ts nc).total = cells g ∧ walkAll (shapeOf nc) (init ts nc) = some w ∧ w.length = cells (shapeOf nc) ∧
      (∀ (i : Nat) (c : List Nat) (k : Int), w[i]? = some (c, k) → CellOf (shapeOf nc) c ∧ position (shapeOf nc) c = i ∧
        ∃ ks, InTile ts nc c ks ∧ k = (position g ks : Int)) ∧
      ∀ c, CellOf (shapeOf nc) c → ∃ k, (c, k) ∈ w := by
  have hinit := init_eq ts nc (nc.map fun _ => 0) hlen (by simp) (by simp)
  have hz : (shapeOf nc).map (fun _ => 0) = nc.map fun _ => 0 := by rw [shapeOf, List.map_map]; rfl
  have hpos : ∀ m ∈ shapeOf nc, m ≠ 0 := by
    intro m hm
    obtain ⟨n, _, rfl⟩ := List.mem_map.1 hm
    split <;> omega
  obtain ⟨w, h1, h2, h3⟩ := walk_ok ts nc hlen (cells (shapeOf nc)) ((shapeOf nc).map fun _ => 0) (init ts nc) (Solver.cellOf_zeros hpos)
    (by rw [position_zero]; simp) (by rw [hz]; show (initAxes _ _).1 = _; rw [hinit]) (by rw [hz, tileIdx_zero]; rfl)
  refine ⟨grid ts nc, w, grid_ok ts nc hlen, Solver.init_total hlen, h1, h2, ?_, ?_⟩
  · intro i c k hi
    obtain ⟨a, b, d⟩ := h3 i c k hi
    rw [position_zero, Nat.zero_add] at b
    exact ⟨a, b, _, inTile_idx ts nc c hlen a, d⟩
  · intro c hc
    have hlt := position_lt hc
    have hi : position (shapeOf nc) c < w.length := by omega
    obtain ⟨a, b, _⟩ := h3 _ w[position (shapeOf nc) c].1 w[position (shapeOf nc) c].2 (List.getElem?_eq_getElem hi)
    rw [position_zero, Nat.zero_add] at b
    have e := position_inj a hc b
    refine ⟨w[position (shapeOf nc) c].2, ?_⟩
    have := List.getElem_mem hi
    rw [show w[position (shapeOf nc) c] = (w[position (shapeOf nc) c].1, w[position (shapeOf nc) c].2) from rfl, e] at this
    exact this

/-- The spec of C118 determines the tile. -/
theorem C118_tile_unique {ts nc c ks ks' : List Nat} (h : InTile ts nc c ks) (h' : InTile ts nc c ks') : ks = ks' := by
  rw [inTile_unique h, inTile_unique h']

/-- Five by three cells, an axis that is not there between them, in tiles of two by three. -/
example : (init [2, 0, 3] [5, 0, 3]).total = 3 ∧
    (walkAll (shapeOf [5, 0, 3]) (init [2, 0, 3] [5, 0, 3])).map (fun w => w.map (·.2)) = some [0, 0, 0, 0, 0, 0, 1, 1, 1, 1, 1, 1, 2, 2, 2] := by decide

example : (walkAll (shapeOf [3, 4]) (init [2, 2] [3, 4])).map (fun w => w.map (·.2)) = some [0, 0, 1, 1, 0, 0, 1, 1, 2, 2, 3, 3] := by decide

end Verif.Tiling
