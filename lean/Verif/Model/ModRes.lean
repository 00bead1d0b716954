import Verif.Model.Outcome
import Mathlib.Algebra.Field.Rat
/-!
# Change of resolution of requests

`MeqNodes/src/ModRes.cc`: the cells of the request that is passed on to the child.

Simplifications: coordinates are rational numbers; an axis is the list of centres and sizes of its cells; the id of the new request (modelled in
`RequestId`) and the segments of cells (modelled in `Cells`) are left out, and so are requests without cells, which are passed on as they are.
-/
namespace Verif.ModRes

/-- What a request has: the domain of the first two axes, their cells, and those of other axes. -/
structure Req where
  d0 : ℚ × ℚ
  d1 : ℚ × ℚ
  x : List (ℚ × ℚ)
  y : List (ℚ × ℚ)
  rest : List (List (ℚ × ℚ))
deriving DecidableEq

/-- The fields of a state record, if they are given. -/
structure Rec where
  num : Option (List Int)
  up : Option (List Int)
  down : Option (List Int)
deriving DecidableEq, Repr

/-- The node's members (ModRes.h:98-105); `none` for what was not initialised. -/
structure St where
  nx : Option Int
  ny : Option Int
  resample : Bool
  doUp : Bool
  doDown : Bool
  up : List Int
  down : List Int
deriving DecidableEq, Repr

/-- The constructor (ModRes.cc:46-52). -/
def init : St := ⟨none, none, false, false, false, [], []⟩

/-- `setStateImpl`, `num_cells` (ModRes.cc:62-74). -/
def setNum (s : St) : Option (List Int) → St
  | some (a :: b :: _) => { s with resample := true, nx := some a, ny := some b }
  | some [a] => { s with resample := true, nx := some a }
  | _ => s

/-- `upsample` (ModRes.cc:76-86). -/
def setUp (s : St) : Option (List Int) → St
  | some l => if l.length = 2 then { s with up := l, resample := true, doUp := true } else { s with up := l }
  | none => s

/-- `downsample` (ModRes.cc:87-97). -/
def setDown (s : St) : Option (List Int) → St
  | some l => if l.length = 2 then { s with down := l, resample := true, doDown := true } else { s with down := l }
  | none => s

/-- `setStateImpl` (ModRes.cc:58-104). -/
def setState (s : St) (r : Rec) : St := setDown (setUp (setNum s r.num) r.up) r.down

/-- Cells of one size, one after the other (ModRes.cc:151-156). -/
def cellsFrom (x h : ℚ) : Nat → List (ℚ × ℚ)
  | 0 => []
  | n + 1 => (x, h) :: cellsFrom (x + h) h n

/-- A cell is divided (ModRes.cc:148-156). -/
def divide (k : Nat) (c : ℚ × ℚ) : List (ℚ × ℚ) :=
  let x0 := c.1 - c.2 * (1 / 2)
  let x1 := c.2 / k
  cellsFrom (x0 + x1 * (1 / 2)) x1 k

/-- Upsampling of an axis (ModRes.cc:140-157, 202-219). -/
def upAxis (k : Nat) (l : List (ℚ × ℚ)) : List (ℚ × ℚ) := l.flatMap (divide k)

/-- The cell from the start of cell `a` to the end of cell `b` (ModRes.cc:180-183). -/
def merge (l : List (ℚ × ℚ)) (a b : Nat) : ℚ × ℚ :=
  let p := (l[a]?).getD (0, 0)
  let q := (l[b]?).getD (0, 0)
  let x0 := p.1 - p.2 * (1 / 2)
  let x1 := q.1 + q.2 * (1 / 2)
  ((x0 + x1) * (1 / 2), x1 - x0)

/-- Downsampling of an axis (ModRes.cc:175-189, 234-248). -/
def downAxis (k : Nat) (l : List (ℚ × ℚ)) : List (ℚ × ℚ) :=
  let n := (l.length + k - 1) / k
  (List.range (n - 1)).map (fun i => merge l (i * k) ((i + 1) * k - 1)) ++ [merge l ((n - 1) * k) (l.length - 1)]

/-- A factor: reading beyond the end of the vector is undefined. -/
def factor (on : Bool) (l : List Int) (i : Nat) : Res (Option Nat) :=
  if on then
    match l[i]? with
    | none => .ub
    | some f => .ok (if 1 < f then some f.toNat else none)
  else .ok none

/-- One axis (ModRes.cc:140-201, 202-260), with the factors for downsampling, which are changed if there are fewer cells. Without cells the number of new
ones is that of 0/0. -/
def axis (s : St) (i : Nat) (down : List Int) (l : List (ℚ × ℚ)) : Res (List Int × List (ℚ × ℚ)) := do
  match ← factor s.doUp s.up i with
  | some k => .ok (down, upAxis k l)
  | none =>
    match ← factor s.doDown down i with
    | some k =>
      if l = [] then .ub
      else if l.length < k then .ok (down.set i l.length, downAxis l.length l)
      else .ok (down, downAxis k l)
    | none => .ok (down, l)

/-- A regular grid (Cells.cc:278-290). -/
def uniform (d : ℚ × ℚ) (n : Nat) : List (ℚ × ℚ) :=
  let h := (d.2 - d.1) / n
  (List.range n).map (fun i => (d.1 + h / 2 + h * (i : Nat), h))

/-- The request for the child: `pollChildren` (ModRes.cc:106-285). -/
def ask (s : St) (r : Req) : Res (St × Req) :=
  if !s.resample then .ok (s, r)
  else if !(s.doUp || s.doDown) then
    match s.nx, s.ny with
    | some nx, some ny =>
      .ok (s, { r with
        x := uniform r.d0 (if nx < 1 then r.x.length else nx.toNat)
        y := uniform r.d1 (if ny < 1 then r.y.length else ny.toNat)
        rest := [] })
    | _, _ => .ub
  else do
    let (down, x) ← axis s 0 s.down r.x
    let (down, y) ← axis s 1 down r.y
    .ok ({ s with down := down }, { r with x := x, y := y, rest := [] })

/-- What happens to a node. -/
inductive Event where
  | set (r : Rec)
  | ask (r : Req)

def run : St → List Event → Res St
  | s, [] => .ok s
  | s, .set r :: l => run (setState s r) l
  | s, .ask r :: l => do
    let (s, _) ← ask s r
    run s l

end Verif.ModRes
