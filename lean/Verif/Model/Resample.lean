import Verif.Model.Outcome
import Mathlib.Algebra.Field.Rat
import Mathlib.Algebra.Order.Ring.Rat
/-!
# Integration of values to coarser cells

`MeqNodes/src/Resampler.cc`, `Resampler.h`: the binary search and the class `Integrator` (mode 2 of the node).

Simplifications: coordinates and values are rational numbers; the real and the complex versions are one; a cell is its centre and its size; the arrays'
memory layout is left out, as are flags of other shapes than the values; perturbed values, which are not resampled, are left out; flags and masks are
natural numbers; reading beyond the end of an array is undefined, though it is not checked.
-/
namespace Verif.Resample

/-- The end of a cell (Resampler.cc:336, 346, 702, 706). -/
def right (c : ℚ × ℚ) : ℚ := c.1 + c.2 * (1 / 2)
/-- The start of a cell (Resampler.cc:701, 705). -/
def left (c : ℚ × ℚ) : ℚ := c.1 - c.2 * (1 / 2)

/-- `bin_search` (Resampler.cc:219-264); the first argument bounds the depth of the recursion, which it does not reach (see `bin_spec`). -/
def bin (l : List ℚ) (x : ℚ) : Nat → Nat → Nat → Res Int
  | 0, _, _ => .err
  | f + 1, s, e =>
    if s = e then
      match l[s]? with
      | none => .ub
      | some v => .ok (if v = x then s else -1)
    else if e = s + 1 then
      match l[s]? with
      | none => .ub
      | some v =>
        if v ≤ x then
          match l[e]? with
          | none => .ub
          | some u => .ok (if x < u then s else -2)
        else .ok (-2)
    else
      match l[(s + e) / 2]? with
      | none => .ub
      | some v =>
        if v ≤ x then
          match l[(s + e) / 2 + 1]? with
          | none => .ub
          | some u => if x < u then .ok ((s + e) / 2 : Nat) else bin l x f ((s + e) / 2) e
        else bin l x f s ((s + e) / 2)

/-- Search for all of a list (Resampler.cc:351-354). -/
def search (b : List ℚ) : List ℚ → Res (List Int)
  | [] => .ok []
  | x :: r => do
    let i ← bin b x (b.length + 1) 0 b.length
    let l ← search b r
    .ok (i :: l)

/-- `inxx` (Resampler.cc:341-347). -/
def bounds (d : ℚ × ℚ) (out : List (ℚ × ℚ)) : List ℚ := d.1 :: (out.dropLast.map right ++ [d.2])

/-- `INSERT` (Resampler.cc:680-685): a graph is, for each new cell, a list of old cells and weights (Resampler.h:98-165). -/
def addEdge (g : List (List (Nat × ℚ))) (j : Int) (a : Nat) (w : ℚ) : Res (List (List (Nat × ℚ))) :=
  if j < 0 then .ub
  else
    match g[j.toNat]? with
    | none => .ub
    | some l => .ok (g.set j.toNat (l ++ [(a, w)]))

/-- The loop of `insert` (Resampler.cc:703-713). -/
def insertLoop (out : List (ℚ × ℚ)) (a : Nat) (c : ℚ × ℚ) : List Int → List (List (Nat × ℚ)) → Res (List (List (Nat × ℚ)))
  | [], g => .ok g
  | i :: r, g =>
    if i < 0 then .ub
    else
      match out[i.toNat]? with
      | none => .ub
      | some o => do
        let comm := min (right o) (right c) - max (left o) (left c)
        let g ← addEdge g i a (comm / c.2)
        insertLoop out a c r g

/-- `insert` (Resampler.cc:690-715). -/
def insert (inn out : List (ℚ × ℚ)) (g : List (List (Nat × ℚ))) (a : Nat) (c1 c2 : Int) : Res (List (List (Nat × ℚ))) :=
  if c1 = c2 then addEdge g c1 a 1
  else
    match inn[a]? with
    | none => .ub
    | some c => insertLoop out a c ((List.range (c2 - c1 + 1).toNat).map (fun k => c1 + (k : Nat))) g

/-- All insertions of an axis (Resampler.cc:364-381). -/
def insertAll (inn out : List (ℚ × ℚ)) : List ((Int × Int) × Nat) → List (List (Nat × ℚ)) → Res (List (List (Nat × ℚ)))
  | [], g => .ok g
  | ((c1, c2), a) :: r, g => do
    let g ← insert inn out g a c1 c2
    insertAll inn out r g

/-- An axis in `setup` (Resampler.cc:331-381, 387-437): old cell `k` is put into new cells from where the one before it ends to where it ends itself,
the first from the first one, the last to the last one. With one old cell there are two insertions. -/
def graph (d : ℚ × ℚ) (inn out : List (ℚ × ℚ)) : Res (List (List (Nat × ℚ))) := do
  let idx ← if 1 < inn.length then search (bounds d out) (inn.dropLast.map right) else .ok [0]
  insertAll inn out (((0 : Int) :: idx).zip (idx ++ [(out.length : Int) - 1])).zipIdx (List.replicate out.length [])

/-- An element; in the code's special cases, where there is one row or column, its index is 0 (Resampler.cc:478, 497). -/
def elem (b : List (List ℚ)) (i j : Nat) : ℚ :=
  ((b[if b.length = 1 then 0 else i]?).bind (fun r => r[if r.length = 1 then 0 else j]?)).getD 0

/-- All elements that are used exist (Resampler.cc:478, 497, 521). -/
def inside (b : List (List ℚ)) (xs ys : List (Nat × ℚ)) : Bool :=
  xs.all (fun x => ys.all (fun y => ((b[if b.length = 1 then 0 else x.1]?).bind (fun r => r[if r.length = 1 then 0 else y.1]?)).isSome))

/-- The weight of a new cell and the sum (Resampler.cc:509-528), and the quotient (Resampler.cc:535-540). -/
def value (b : List (List ℚ)) (xs ys : List (Nat × ℚ)) : ℚ :=
  let w := (xs.map (fun x => (ys.map (fun y => x.2 * y.2)).sum)).sum
  let s := (xs.map (fun x => (ys.map (fun y => x.2 * y.2 * elem b x.1 y.1)).sum)).sum
  if w ≠ 0 then s / w else s

/-- Number of columns (Resampler.cc:458). -/
def width (b : List (List ℚ)) : Nat := (b.head?.map List.length).getD 0

/-- What the cells of an axis are: their domain, and centres and sizes (Resampler.cc:279-286). -/
structure Axis where
  d : ℚ × ℚ
  cells : List (ℚ × ℚ)

/-- `setup`, `do_resample` without flags (Resampler.cc:268-542, `getResult` 133-139): with the same numbers of cells values are passed on as they are; a
constant is multiplied by a quotient of integers. -/
def integrate (ix iy : List (ℚ × ℚ)) (ox oy : Axis) (b : List (List ℚ)) : Res (List (List ℚ)) :=
  if ox.cells.length = ix.length ∧ oy.cells.length = iy.length then .ok b
  else do
    let gx ← graph ox.d ix ox.cells
    let gy ← graph oy.d iy oy.cells
    if b.length = 1 ∧ width b = 1 then
      let q : Nat := (ix.length * iy.length) / (ox.cells.length * oy.cells.length)
      .ok (gx.map (fun _ => gy.map (fun _ => elem b 0 0 * q)))
    else if gx.all (fun xs => gy.all (fun ys => inside b xs ys)) then .ok (gx.map (fun xs => gy.map (fun ys => value b xs ys)))
    else .ub

/-- Flags of an element (Resampler.cc:553). -/
def flagAt (f : List (List Nat)) (i j : Nat) : Nat := ((f[i]?).bind (fun r => r[j]?)).getD 0

/-- The flag policy (Resampler.h:193-194). -/
structure Policy where
  mask : Nat
  bit : Nat
  density : ℚ

/-- A new value and its flags with flagged old values left out (Resampler.cc:615-666). -/
def flagged (p : Policy) (b : List (List ℚ)) (f : List (List Nat)) (xs ys : List (Nat × ℚ)) : ℚ × Nat :=
  let all := xs.flatMap (fun x => ys.map (fun y => (x, y)))
  let bad := all.filter (fun q => decide (flagAt f q.1.1 q.2.1 &&& p.mask ≠ 0))
  let good := all.filter (fun q => decide (flagAt f q.1.1 q.2.1 &&& p.mask = 0))
  let w := (good.map (fun q => q.1.2 * q.2.2)).sum
  let s := (good.map (fun q => q.1.2 * q.2.2 * elem b q.1.1 q.2.1)).sum
  let fl := bad.foldl (fun m q => m ||| (flagAt f q.1.1 q.2.1 &&& p.mask)) 0
  (if w ≠ 0 then s / w else s, if p.density < (bad.length : ℚ) / all.length then (if p.bit ≠ 0 then p.bit else fl) else 0)

/-- `do_resample` with flags (Resampler.cc:546-668): with one row or column they are not considered, and no flags come out; they are attached if any is
set (Resampler.cc:761-762), which is not told apart here from flags that are all 0. -/
def integrateF (p : Policy) (ix iy : List (ℚ × ℚ)) (ox oy : Axis) (b : List (List ℚ)) (f : List (List Nat)) : Res (List (List (ℚ × Nat))) :=
  if ox.cells.length = ix.length ∧ oy.cells.length = iy.length then .ok ((b.zip f).map (fun r => r.1.zip r.2))
  else if b.length = 1 ∨ width b = 1 then do
    let a ← integrate ix iy ox oy b
    .ok (a.map (fun r => r.map (fun v => (v, 0))))
  else do
    let gx ← graph ox.d ix ox.cells
    let gy ← graph oy.d iy oy.cells
    if gx.all (fun xs => gy.all (fun ys => inside b xs ys)) then .ok (gx.map (fun xs => gy.map (fun ys => flagged p b f xs ys)))
    else .ub

end Verif.Resample
