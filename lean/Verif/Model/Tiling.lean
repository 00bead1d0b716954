/-!
# Tilings of a grid of cells

(MeqNodes/src/Solver.h:200-310, Solver.cc:198-248, 270-540.)  The solver cuts the grid of the request into tiles, one grid of
tiles for each set of tile sizes in use, and walks through all of them at the same time as through the cells.  Axes are listed
from the first (slowest) to the last (fastest).  The code keeps one array of `MaxAxis` numbers for each attribute of a tiling;
here an axis is a record with all of them.  Sizes are natural numbers: negative tile sizes are not modelled.
-/
namespace Verif.Tiling

/-- An axis of a tiling (Solver.h:262-271): number of tiles, tile size, stride, and the counter in the current tile. -/
structure Axis where
  tiles : Nat
  size : Nat
  stride : Nat
  count : Nat
  deriving DecidableEq, Repr

/-- A tiling (Solver.h:259-279).  `super` is the solver tile each tile belongs to. -/
structure Tiling where
  axes : List Axis
  total : Nat
  cur : Int
  super : List Nat
  deriving DecidableEq, Repr

/-- The loop of `Tiling::init` (Solver.cc:205-221), from the last axis to the first: the axes and the number of tiles so far.
An axis of no cells is not defined. -/
def initAxes : List Nat → List Nat → List Axis × Nat
  | t :: ts, n :: ns =>
    let r := initAxes ts ns
    if n = 0 then (⟨0, t, 0, 0⟩ :: r.1, r.2)
    else if t = 0 then (⟨1, n, r.2, 0⟩ :: r.1, r.2 * 1)
    else
      let k := n / t + (if n % t = 0 then 0 else 1)
      (⟨k, t, r.2, 0⟩ :: r.1, r.2 * k)
  | _, _ => ([], 1)

/-- `Tiling::init` and `activate` (Solver.cc:199-222, Solver.h:293-301): all counters at zero. -/
def init (tsz shape : List Nat) : Tiling := ⟨(initAxes tsz shape).1, (initAxes tsz shape).2, 0, []⟩

/-- The rolled-over axes (Solver.cc:244-245). -/
def rewind (l : List Axis) : List Axis := l.map fun a => { a with count := 0 }

/-- `Tiling::advance` on the axes (Solver.cc:224-248): axis `d` has been incremented, the later ones start again.  Also what is
added to the current tile. -/
def advanceAxes : Nat → List Axis → List Axis × Int
  | _, [] => ([], 0)
  | 0, a :: l =>
    if a.size ≤ a.count + 1 then ({ a with count := 0 } :: rewind l, 1)
    else ({ a with count := a.count + 1 } :: rewind l, -((a.stride : Int) - 1))
  | d + 1, a :: l => (a :: (advanceAxes d l).1, (advanceAxes d l).2)

/-- `Tiling::advance` (Solver.cc:224-248). -/
def Tiling.advance (t : Tiling) (d : Nat) : Tiling :=
  { t with axes := (advanceAxes d t.axes).1, cur := t.cur + (advanceAxes d t.axes).2 }

/-- `DimCounter::incr` (Vells.h:750-761), here with the slowest axis first: the new counter and the outermost axis that was
incremented (the code returns the number of axes from there to the last), or `none` at the end.  An axis of no cells counts as
one of one cell. -/
def incr : List Nat → List Nat → Option (List Nat × Nat)
  | n :: sh, c :: cs =>
    (match incr sh cs with
    | some (cs', d) => some (c :: cs', d + 1)
    | none => if n ≤ c + 1 then none else some ((c + 1) :: cs.map (fun _ => 0), 0))
  | _, _ => none

/-- The loop over all cells (Solver.cc:725-760): the cells and the tile each is in, as the tiling says.  `none` if it does not
end within `fuel` turns. -/
def walk (sh : List Nat) : Nat → List Nat → Tiling → Option (List (List Nat × Int))
  | 0, _, _ => none
  | fuel + 1, cs, t =>
    (match incr sh cs with
    | none => some [(cs, t.cur)]
    | some (cs', d) => (walk sh fuel cs' (t.advance d)).map ((cs, t.cur) :: ·))

/-- The walk from the beginning.  `shape` is the shape of the cells (Cells.cc:215-231): one where an axis is not defined.
Fuel: a turn per cell. -/
def walkAll (shape : List Nat) (t : Tiling) : Option (List (List Nat × Int)) :=
  walk shape (shape.foldr (· * ·) 1) (shape.map fun _ => 0) t

end Verif.Tiling
