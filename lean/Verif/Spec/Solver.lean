import Verif.Spec.Tiling
import Verif.Model.Solver
/-! # The solver's unknowns: what is meant (C119 - C123) -/
namespace Verif.Solver
open Verif.Tiling

/-- The tile sizes of a parameter on each axis: the whole axis where none is given. -/
def sizes : List Nat → List Nat → List Nat
  | n :: ns, ts => tileLen (ts.headD 0) n :: sizes ns ts.tail
  | [], _ => []

/-- No tile is larger than the grid, and no axis is tiled that is not there. -/
def Fits : List Nat → List Nat → Prop
  | n :: ns, ts => ts.headD 0 ≤ n ∧ Fits ns ts.tail
  | [], ts => ∀ t ∈ ts, t = 0

/-- One set of tile sizes is nowhere larger than the other. -/
def Comparable (a b : List Nat) : Prop := List.Forall₂ (· ≤ ·) a b ∨ List.Forall₂ (· ≤ ·) b a

/-- The parameters' tile sizes can be put in order, fit in the grid, and all axes are defined; each spid is there once. -/
structure Good (nc : List Nat) (recs : List SpidRec) : Prop where
  some : recs ≠ []
  spids : (recs.map (·.spid)).Nodup
  defined : ∀ n ∈ nc, n ≠ 0
  fits : ∀ r ∈ recs, Fits nc r.tile
  chain : ∀ r ∈ recs, ∀ r' ∈ recs, Comparable (sizes nc r.tile) (sizes nc r'.tile)

/-- Cell `c` is in tile number `p` when a grid is cut in tiles of the given sizes. -/
def TileNo (nc ts c : List Nat) (p : Nat) : Prop := ∃ g k, GridOf ts nc g ∧ InTile ts nc c k ∧ position g k = p

/-- The number of tiles. -/
def TilesOf (nc ts : List Nat) (n : Nat) : Prop := ∃ g, GridOf ts nc g ∧ cells g = n

/-- `l` is the least common multiple. -/
def IsLcm (l : Nat) (ts : List Nat) : Prop := 0 < l ∧ (∀ t ∈ ts, t ∣ l) ∧ ∀ m, 0 < m → (∀ t ∈ ts, t ∣ m) → l ≤ m

/-- The tile sizes of the solver: on each axis that is defined, the least common multiple of all tile sizes, or the whole axis if that is less. -/
def SolverSizes (nc : List Nat) (recs : List SpidRec) (s : List Nat) : Prop :=
  s.length = nc.length ∧ ∀ (i n : Nat), nc[i]? = some n → n ≠ 0 → ∃ l, IsLcm l (recs.map fun r => (sizes nc r.tile).getD i 0) ∧ s[i]? = some (min l n)

/-- The entry of the plan for a parameter. -/
def EntryOf (p : Plan) (r : SpidRec) (u : Uks) : Prop := u ∈ p.uks ∧ u.info.spid = r.spid ∧ u.info.node = r.node

/-- The solver tile of each tile of each parameter is as it should be. -/
def SuperRight (nc : List Nat) (recs : List SpidRec) (p : Plan) (st : List Nat) : Prop :=
  TilesOf nc st p.T ∧ ∀ r ∈ recs, ∃ u, EntryOf p r u ∧ TilesOf nc (sizes nc r.tile) u.super.length ∧
    ∀ c f q, CellOf (shapeOf nc) c → TileNo nc (sizes nc r.tile) c f → TileNo nc st c q → u.super[f]? = some q

/-- The place of a parameter among those of its node: how many have a smaller spid. -/
def RankOf (recs : List SpidRec) (r : SpidRec) (i : Nat) : Prop :=
  i = ((recs.filter fun q => q.node = r.node ∧ q.spid < r.spid).length)

/-- A point takes part: not flagged by the mask, of positive weight, and no number is invalid. -/
def Used {α β : Type} (num : Num α β) (mask : Nat) (d : Data α β) (c : List Nat) : Prop :=
  d.flags c &&& mask = 0 ∧ num.positive (d.weight c) = true ∧ num.valid (d.diff c) = true ∧
    ∀ i < d.spids.length, num.valid (d.deriv i c) = true

/-- Tiles of a parameter come in the same order as the solver's tiles they are in. -/
def SameOrder (nc ts st : List Nat) : Prop :=
  ∀ c c' p p' q q', CellOf (shapeOf nc) c → CellOf (shapeOf nc) c' → TileNo nc ts c p → TileNo nc ts c' p' → TileNo nc st c q → TileNo nc st c' q' →
    p ≤ p' → q ≤ q'

/-- All cells of the grid in order. -/
def AllCells (nc : List Nat) (cs : List (List Nat)) : Prop :=
  cs.length = cells (shapeOf nc) ∧ ∀ (i : Nat) (c : List Nat), cs[i]? = some c → CellOf (shapeOf nc) c ∧ position (shapeOf nc) c = i

/-- The solve groups, each once. -/
def AllGroups (recs : List SpidRec) (gs : List String) : Prop := gs.Nodup ∧ ∀ g, g ∈ gs ↔ ∃ r ∈ recs, r.group = g

instance {α β : Type} (num : Num α β) (mask : Nat) (d : Data α β) (c : List Nat) : Decidable (Used num mask d c) := by
  unfold Used; infer_instance

/-- The equations that should be made of a result: for each point that takes part, for each solve group it has a derivative
for, one for each part of the number, unless the subsolver has converged.  `rs` are the parameters the result depends on, `sub`
the subsolver for a parameter and a point, `col` the column. -/
def expected {α β : Type} (num : Num α β) (conv : Nat → Bool) (mask : Nat) (d : Data α β) (rs : List SpidRec) (gs : List String)
    (cs : List (List Nat)) (sub col : SpidRec → List Nat → Nat) : List (Eqn α) :=
  cs.flatMap fun c =>
    if Used num mask d c then
      gs.flatMap fun g =>
        match rs.zipIdx.filter fun x => decide (x.1.group = g) with
        | [] => []
        | x :: l =>
          if conv (sub x.1 c) then []
          else num.parts.map fun f => ⟨sub x.1 c, (x :: l).map fun y => (col y.1 c, f (d.deriv y.2 c)), d.weight c, f (d.diff c)⟩
    else []

/-! In the following `unk` gives an unknown (subsolver and column) for a spid and a tile. -/

/-- No two tiles have the same unknown. -/
def Distinct (nc : List Nat) (recs : List SpidRec) (unk : Nat → Nat → Nat × Nat) : Prop :=
  ∀ r ∈ recs, ∀ r' ∈ recs, ∀ n n' f f', TilesOf nc (sizes nc r.tile) n → TilesOf nc (sizes nc r'.tile) n' → f < n → f' < n' →
    unk r.spid f = unk r'.spid f' → r = r' ∧ f = f'

/-- Two tiles are in the same subsolver if they are of the same solve group and in the same solver tile. -/
def SubsolverRight (nc : List Nat) (recs : List SpidRec) (st : List Nat) (unk : Nat → Nat → Nat × Nat) : Prop :=
  ∀ r ∈ recs, ∀ r' ∈ recs, ∀ c c' f f' q q', CellOf (shapeOf nc) c → CellOf (shapeOf nc) c' → TileNo nc (sizes nc r.tile) c f →
    TileNo nc (sizes nc r'.tile) c' f' → TileNo nc st c q → TileNo nc st c' q' →
    ((unk r.spid f).1 = (unk r'.spid f').1 ↔ r.group = r'.group ∧ q = q')

/-- A parameter has as many unknowns as tiles, and the unknowns of a subsolver are numbered without gaps. -/
def Numbered (nc : List Nat) (recs : List SpidRec) (p : Plan) (unk : Nat → Nat → Nat × Nat) : Prop :=
  (∀ r ∈ recs, ∃ u, EntryOf p r u ∧ TilesOf nc (sizes nc r.tile) u.uk.length ∧ ∀ f < u.uk.length, u.uk[f]? = some (unk r.spid f).2) ∧
  (∀ r ∈ recs, ∀ n f, TilesOf nc (sizes nc r.tile) n → f < n → (unk r.spid f).2 < p.nuk (unk r.spid f).1) ∧
  ∀ j x, x < p.nuk j → ∃ r ∈ recs, ∃ n f, TilesOf nc (sizes nc r.tile) n ∧ f < n ∧ unk r.spid f = (j, x)

/-- The right points make equations, for the right subsolvers, with the right values (nothing is said of columns). -/
def PointsRight (nc : List Nat) (recs : List SpidRec) (p : Plan) (st : List Nat) : Prop :=
  ∃ gs sub, AllGroups recs gs ∧
    (∀ r ∈ recs, ∀ r' ∈ recs, ∀ c c' q q', CellOf (shapeOf nc) c → CellOf (shapeOf nc) c' → TileNo nc st c q → TileNo nc st c' q' →
      (sub r c = sub r' c' ↔ r.group = r'.group ∧ q = q')) ∧
    ∀ (α β : Type) (num : Num α β) (conv : Nat → Bool) (mask : Nat) (d : Data α β) (rs : List SpidRec) (cs : List (List Nat)),
      (∀ r ∈ rs, r ∈ recs) → rs.map (·.spid) = d.spids → rs.length ≤ recs.length → AllCells nc cs →
      ∃ col, fillEquations num nc p conv mask d = .ok (expected num conv mask d rs gs cs sub col)

/-- Every equation is about the tile its point is in; `tn` is the tile of a cell. -/
def EquationsRight (nc : List Nat) (recs : List SpidRec) (p : Plan) (unk : Nat → Nat → Nat × Nat) : Prop :=
  ∃ gs, AllGroups recs gs ∧ ∀ (α β : Type) (num : Num α β) (conv : Nat → Bool) (mask : Nat) (d : Data α β) (rs : List SpidRec)
    (cs : List (List Nat)) (tn : SpidRec → List Nat → Nat), (∀ r ∈ rs, r ∈ recs) → rs.map (·.spid) = d.spids → rs.length ≤ recs.length →
    AllCells nc cs → (∀ r ∈ recs, ∀ c ∈ cs, TileNo nc (sizes nc r.tile) c (tn r c)) →
    fillEquations num nc p conv mask d =
      .ok (expected num conv mask d rs gs cs (fun r c => (unk r.spid (tn r c)).1) fun r c => (unk r.spid (tn r c)).2)

/-- Every tile is updated by the solution for its unknown. -/
def UpdatesRight (nc : List Nat) (recs : List SpidRec) (p : Plan) (unk : Nat → Nat → Nat × Nat) : Prop :=
  ∀ (α : Type) (sol : Nat → Nat → α), ∀ r ∈ recs, ∀ n i f, TilesOf nc (sizes nc r.tile) n → RankOf recs r i → f < n →
    applied (updates p sol r.node) n i f = .ok (sol (unk r.spid f).1 (unk r.spid f).2)

/-- All coefficients of a node are tiled in the same way. -/
def NodesAlike (recs : List SpidRec) : Prop := ∀ r ∈ recs, ∀ r' ∈ recs, r.node = r'.node → r.tile = r'.tile

/-- All that the code asks for: some parameters, each spid once, and no axis tiled that is not defined. -/
structure Sound (nc : List Nat) (recs : List SpidRec) : Prop where
  nonempty : recs ≠ []
  spids : (recs.map (·.spid)).Nodup
  defined : ∀ r ∈ recs, ∀ (i t : Nat), r.tile[i]? = some t → t ≠ 0 → ∃ n, nc[i]? = some n ∧ n ≠ 0

/-- On all axes but `a` no parameter is tiled. -/
def OneAxis (nc : List Nat) (recs : List SpidRec) (a : Nat) : Prop :=
  ∀ r ∈ recs, ∀ i, i ≠ a → (sizes nc r.tile)[i]? = nc[i]?

/-- Coefficient `i` of a parameter is solvable, the `j`th one that is. -/
def Coefficient (q : ParmNode) (i j : Nat) : Prop :=
  q.solvable = true ∧ q.mask[i]? = some true ∧ j = (q.mask.take i).count true

end Verif.Solver
