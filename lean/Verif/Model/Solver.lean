import Verif.Model.Tiling
import Verif.Model.Outcome
import Mathlib.Data.List.Sort
/-!
# The solver's unknowns, equations and updates

(MeqNodes/src/Solver.cc:270-545, 572-650, 652-760, 1453-1500; Solver.h:198-360; the receiving end is Parm.cc:224-262, 810-860 and
MEQ/src/ComposedPolc.cc:449-474.)  Each solvable coefficient ("spid") has one unknown per tile; the unknowns are spread over
subsolvers, one per solve group and solver tile.  Only the axes up to the last one defined in the cells are listed (the others
are not tiled and have one cell).  Reals are a type parameter.  The matrix work itself (casacore's `LSQaips`) is not modelled:
the solution of a subsolver is any function.
-/
namespace Verif.Solver
open Verif.Tiling

/-- An entry of the spid map (Parm.cc:540-560): solve group by name, tile sizes as given (none or zero: not tiled). -/
structure SpidRec where
  spid : Nat
  node : Nat
  group : String
  tile : List Nat
  deriving DecidableEq, Repr

/-- The tile sizes made complete (Solver.cc:310-335): the whole axis where nothing is given.  An error if an axis is tiled that
is not defined. -/
def normTiles : List Nat → List Nat → Option (List Nat)
  | [], ts => if ts.all (· == 0) then some [] else none
  | n :: ns, [] => (normTiles ns []).map (n :: ·)
  | n :: ns, t :: ts =>
    if n = 0 then (if t = 0 then (normTiles ns ts).map (0 :: ·) else none)
    else (normTiles ns ts).map ((if t = 0 then n else t) :: ·)

/-- The largest tile size so far (Solver.cc:321-329). -/
def maxTiles : List Nat → List Nat → List Nat → List Nat
  | n :: ns, ts, m :: ms =>
    (if n = 0 then m else if ts.headD 0 = 0 then n else max m (ts.headD 0)) :: maxTiles ns ts.tail ms
  | _, _, ms => ms

/-- `DimVector::operator <` (Solver.h:215-225): no component is larger, and not all are equal. -/
def less : List Nat → List Nat → Bool → Bool
  | a :: as, b :: bs, equal => if b < a then false else less as bs (equal && !decide (a < b))
  | _, _, equal => !equal

/-- `std::map::find` with that order (Solver.cc:338, 404): the key found.  The map is the list of its keys in order; the
search goes to the first key that is not less and takes it if the given one is not less either.  (The order is not the kind
that `std::map` needs, so the standard says nothing about maps with keys none of which is less; the list gives what any search
tree does when there is one key, or when all are ordered.) -/
def lookup (k : List Nat) : List (List Nat) → Option (List Nat)
  | [] => none
  | k' :: m => if less k' k true then lookup k m else if less k k' true then none else some k'

/-- `operator []` for a key that was not found (Solver.cc:342, 407). -/
def insert (k : List Nat) : List (List Nat) → List (List Nat)
  | [] => [k]
  | k' :: m => if less k' k true then k' :: insert k m else k :: k' :: m

/-- Find or insert: the map and the key of the tiling to use (Solver.cc:338-348, 403-413). -/
def obtain_ (k : List Nat) (m : List (List Nat)) : List (List Nat) × List Nat :=
  match lookup k m with
  | some k' => (m, k')
  | none => (insert k m, k)

/-- What is known of a spid after the first loop (Solver.h:323-336); `key` says which tiling it uses. -/
structure Info where
  spid : Nat
  node : Nat
  group : Nat
  key : List Nat
  deriving DecidableEq, Repr

/-- State of the first loop of `populateSpidMap`: names of the solve groups, keys of the tilings, largest tile sizes, spids in
increasing order. -/
structure Pop where
  groups : List String
  keys : List (List Nat)
  maxs : List Nat
  infos : List Info
  deriving DecidableEq, Repr

/-- A turn of the loop (Solver.cc:292-358). -/
def popStep (nc : List Nat) (p : Pop) (r : SpidRec) : Option Pop :=
  (normTiles nc r.tile).map fun k =>
    let groups := if r.group ∈ p.groups then p.groups else p.groups ++ [r.group]
    let o := obtain_ k p.keys
    { groups := groups, keys := o.1, maxs := maxTiles nc r.tile p.maxs
      infos := p.infos.orderedInsert (fun a b => a.spid ≤ b.spid) ⟨r.spid, r.node, groups.idxOf r.group, o.2⟩ }

/-- The loop (Solver.cc:290-358). -/
def popLoop (nc : List Nat) : Pop → List SpidRec → Option Pop
  | p, [] => some p
  | p, r :: l => (popStep nc p r).bind fun p => popLoop nc p l

/-- Search for the least common multiple on an axis (Solver.cc:382-397): `m` is the largest tile size. -/
def lcmSearch (ts : List Nat) (m n : Nat) : Nat → Nat → Nat
  | 0, l => l
  | f + 1, l => if l < n then (if ts.all (fun t => l % t == 0) then l else lcmSearch ts m n f (l + m)) else l

/-- The tile sizes of the solver (Solver.cc:371-401), axis by axis; `i` is the number of the first. -/
def solverTiles (keys : List (List Nat)) : Nat → List Nat → List Nat → List Nat
  | i, n :: ns, m :: ms =>
    (if n = 0 then m else min (lcmSearch (keys.map fun k => k.getD i 0) m n n m) n) :: solverTiles keys (i + 1) ns ms
  | _, _, _ => []

/-- Sizes of the solver tiles in units of the tiles of a tiling (Solver.cc:435-438); `none`: division by zero. -/
def subSizes : List Nat → List Axis → Option (List Nat)
  | s :: ss, a :: as => if a.size = 0 then none else (subSizes ss as).map ((s / a.size + (if s % a.size = 0 then 0 else 1)) :: ·)
  | _, _ => some []

/-- The solver tile of each tile (Solver.cc:421-460); `sk` is the key of the solver's tiling, `st` its tile sizes.  (The loop
takes one turn per tile, and the counter ends with it.) -/
def superTiles (nc sk st key : List Nat) : Option (List Nat) :=
  let t := init key nc
  if key = sk then some (List.range t.total)
  else
    (subSizes st t.axes).bind fun sub =>
      let shape := t.axes.map (·.tiles)
      (walk shape t.total (shape.map fun _ => 0) (init sub shape)).map fun w => w.map fun x => x.2.toNat

/-- The unknowns of one spid (Solver.cc:512-520): the index of each tile's unknown in its subsolver, and the number of unknowns
of each subsolver afterwards.  `base` is the first subsolver of the group. -/
def alloc (base : Nat) : List Nat → (Nat → Nat) → List Nat × (Nat → Nat)
  | [], n => ([], n)
  | s :: ss, n =>
    let r := alloc base ss (fun j => if j = base + s then n j + 1 else n j)
    (n (base + s) :: r.1, r.2)

/-- A spid with its unknowns (Solver.h:323-336, 349-356): `super` the solver tiles, `uk` the indices, `slice` the range in each
solver tile. -/
structure Uks where
  info : Info
  super : List Nat
  uk : List Nat
  slice : List (Nat × Nat)
  deriving DecidableEq, Repr

/-- The second loop (Solver.cc:490-533), over the spids in increasing order; `T` is the number of solver tiles.  The first
unknown of a slice is the number there were before, the end the number there are after. -/
def allocAll (T : Nat) (super : List Nat → Option (List Nat)) : List Info → (Nat → Nat) → Option (List Uks × (Nat → Nat))
  | [], n => some ([], n)
  | i :: l, n =>
    (super i.key).bind fun s =>
      let r := alloc (i.group * T) s n
      (allocAll T super l r.2).map fun x =>
        (⟨i, s, r.1, (List.range T).map fun j => (n (i.group * T + j), r.2 (i.group * T + j))⟩ :: x.1, x.2)

/-- What `populateSpidMap` sets up: the key of the solver's tiling, the number of solver tiles, of solve groups, the spids, and the
number of unknowns of each subsolver. -/
structure Plan where
  solverKey : List Nat
  T : Nat
  groups : Nat
  uks : List Uks
  nuk : Nat → Nat

/-- `populateSpidMap` (Solver.cc:270-545) for cells with `nc` cells on each axis; `err`: an exception, `ub`: division by zero. -/
def populate (nc : List Nat) (recs : List SpidRec) : Res Plan :=
  match popLoop nc ⟨[], [], nc.map (fun _ => 0), []⟩ recs with
  | none => .err
  | some p =>
    if p.infos = [] then .err
    else
      let st := solverTiles p.keys 0 nc p.maxs
      let o := obtain_ st p.keys
      let T := (init o.2 nc).total
      match allocAll T (superTiles nc o.2 st) p.infos (fun _ => 0) with
      | none => .ub
      | some (u, n) => .ok ⟨o.2, T, p.groups.length, u, n⟩

/-- The column of a derivative in `fillEqVectors` (Solver.cc:572, 618): `itile` is the current solver tile. -/
def column (u : Uks) (itile : Nat) : Res Nat := match u.uk[itile]? with | some k => .ok k | none => .ub

/-- The columns of the derivatives of a point (Solver.cc:565-574, 612-621). -/
def columns {β : Type} (itile : Nat) : List (Uks × β) → Res (List (Nat × β))
  | [] => .ok []
  | d :: l => (column d.1 itile).bind fun k => (columns itile l).bind fun r => .ok ((k, d.2) :: r)

/-- An equation given to a subsolver (Solver.cc:594, 640-641): columns and values, weight, right hand side. -/
structure Eqn (α : Type) where
  sub : Nat
  lhs : List (Nat × α)
  weight : α
  rhs : α

/-- What a child's result has for the solver (Solver.cc:652-720): for each cell the difference, flags and weight, and the derivative
by each of its spids.  Values that do not vary along an axis are taken as repeated (the strided iterators do that). -/
structure Data (α β : Type) where
  spids : List Nat
  diff : List Nat → β
  deriv : Nat → List Nat → β
  flags : List Nat → Nat
  weight : List Nat → α

/-- The numbers as the solver sees them: `parts` the real equations a value makes (itself if real, real and imaginary part if
complex), `valid` not NAN or INF, `positive` larger than zero. -/
structure Num (α β : Type) where
  parts : List (β → α)
  valid : β → Bool
  positive : α → Bool

/-- The spids of a result (Solver.cc:655-657, 700-712): an exception if there are too many or one is not known. -/
def findAll (us : List Uks) : List Nat → Option (List Uks)
  | [] => some []
  | s :: l => (us.find? fun u => u.info.spid == s).bind fun u => (findAll us l).map (u :: ·)

/-- The equations of one solve group at a point (Solver.cc:586-600, 632-648). -/
def groupEqs {α β : Type} (num : Num α β) (p : Plan) (conv : Nat → Bool) (itile : Nat) (cols : List (Uks × Nat × β)) (weight : α) (diff : β)
    (g : Nat) : List (Eqn α) :=
  let mine := cols.filter fun c => c.1.info.group == g
  if mine.isEmpty || conv (g * p.T + itile) then []
  else num.parts.map fun f => ⟨g * p.T + itile, mine.map fun c => (c.2.1, f c.2.2), weight, f diff⟩

/-- `fillEqVectors` (Solver.cc:556-650) for a point in solver tile `itile`.  (The code stops at the first number that is not valid.) -/
def fillEqs {α β : Type} (num : Num α β) (p : Plan) (conv : Nat → Bool) (itile : Nat) (derivs : List (Uks × β)) (weight : α) (diff : β) :
    Res (List (Eqn α)) :=
  (columns itile derivs).bind fun cs =>
    if num.valid diff && derivs.all (fun d => num.valid d.2) then
      .ok ((List.range p.groups).flatMap fun g =>
        groupEqs num p conv itile (List.zipWith (fun d c => (d.1, c)) derivs cs) weight diff g)
    else .ok []

/-- The loop of `fillEquations` (Solver.cc:734-758) over the cells, each with the current tile of the solver's tiling. -/
def fillLoop {α β : Type} (num : Num α β) (p : Plan) (conv : Nat → Bool) (mask : Nat) (us : List Uks) (d : Data α β) :
    List (List Nat × Int) → Res (List (Eqn α))
  | [] => .ok []
  | (c, t) :: l =>
    (if (d.flags c &&& mask == 0) && num.positive (d.weight c) then
      fillEqs num p conv t.toNat (us.zipIdx.map fun x => (x.1, d.deriv x.2 c)) (d.weight c) (d.diff c)
    else .ok []).bind fun e => (fillLoop num p conv mask us d l).bind fun r => .ok (e ++ r)

/-- `fillEquations` (Solver.cc:652-760): the equations a child's result adds; `conv` says which subsolvers have converged. -/
def fillEquations {α β : Type} (num : Num α β) (nc : List Nat) (p : Plan) (conv : Nat → Bool) (mask : Nat) (d : Data α β) :
    Res (List (Eqn α)) :=
  if p.uks.length < d.spids.length then .err
  else
    match findAll p.uks d.spids with
    | none => .err
    | some us =>
      let sh := nc.map fun n => if n = 0 then 1 else n
      match walkAll sh (init p.solverKey nc) with
      | none => .ub
      | some w => fillLoop num p conv mask us d w

/-- The updates of one spid (Solver.cc:1478-1487). -/
def spidUpdates {α : Type} (T : Nat) (sol : Nat → Nat → α) (u : Uks) : List α :=
  (u.slice.zipIdx).flatMap fun x => (List.range' x.1.1 (x.1.2 - x.1.1)).map fun k => sol (u.info.group * T + x.2) k

/-- `fillRider` (Solver.cc:1453-1500): the updates of a node, spids in increasing order. -/
def updates {α : Type} (p : Plan) (sol : Nat → Nat → α) (node : Nat) : List α :=
  (p.uks.filter fun u => u.info.node == node).flatMap (spidUpdates p.T sol)

/-- What `ComposedPolc::do_update` (ComposedPolc.cc:449-474) adds to a coefficient: the value for spid number `i` (in the
node) and tile `f` of `nf`. -/
def applied {α : Type} (values : List α) (nf i f : Nat) : Res α :=
  match values[i * nf + f]? with | some v => .ok v | none => .ub

/-! ## Where the spids come from -/

/-- A parameter node: index, whether it is solvable, which of its coefficients are (all if there is no mask), solve group and tile
sizes (MeqNodes/src/Parm.cc:198-210, 509-562). -/
structure ParmNode where
  index : Nat
  solvable : Bool
  mask : List Bool
  group : String
  tile : List Nat
  deriving DecidableEq, Repr

/-- `Funklet::makeSolvable` (MEQ/src/Funklet.cc:267-321): for each coefficient its place among the solvable ones (`spidInx_`, here
`none` for -1); `isp` is the next place. -/
def coefSlots : Nat → List Bool → List (Option Nat)
  | _, [] => []
  | isp, true :: l => some isp :: coefSlots (isp + 1) l
  | isp, false :: l => none :: coefSlots isp l

/-- The spids (Funklet.cc:306-312, Parm.cc:202): consecutive from 256 times the node index. -/
def parmSpids (base : Nat) : List Bool → List Nat
  | [] => []
  | true :: l => base :: parmSpids (base + 1) l
  | false :: l => parmSpids base l

/-- `Parm::discoverSpids` (Parm.cc:509-562). -/
def parmRecs (q : ParmNode) : List SpidRec :=
  if q.solvable then (parmSpids (256 * q.index) q.mask).map fun s => ⟨s, q.index, q.group, q.tile⟩ else []

/-- `Record::merge` without overwriting (Node.cc:867-900): entries whose key is there already are left out. -/
def mergeRecs (m : List SpidRec) : List SpidRec → List SpidRec
  | [] => m
  | r :: l => mergeRecs (if r.spid ∈ m.map (·.spid) then m else m ++ [r]) l

/-- The spid map as it reaches the solver (Node.cc:867-900): the maps of all parameters, merged. -/
def spidMap : List SpidRec → List ParmNode → List SpidRec
  | m, [] => m
  | m, q :: l => spidMap (mergeRecs m (parmRecs q)) l

end Verif.Solver
