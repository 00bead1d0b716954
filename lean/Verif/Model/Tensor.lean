import Verif.Model.Function
/-!
# Tensor results and the nodes that compose, select, paste and multiply them

(MEQ/src/Result.h, MEQ/src/Result.cc, MeqNodes/src/Composer.cc, MeqNodes/src/Selector.cc, MeqNodes/src/Paster.cc,
MeqNodes/src/MatrixMultiply.cc.)  For all but the multiplication a plane is of any type, with tests for a failure and for an
empty plane.  Extents are not negative.  Cells, shapes and flags are left out.
-/
namespace Verif.Tensor
open Verif.Func (mapRes Plane ChildRes Code failPlane addFails evalPlane)

/-! ## Results -/

/-- A result (Result.h:271-279): dimensions in memory, dimensions stored in the record, planes. -/
structure TRes (P : Type) where
  dims : List Nat
  stored : Option (List Nat)
  planes : List P
  deriving DecidableEq, Repr

/-- `LoShape::product`. -/
def prod (d : List Nat) : Nat := d.foldr (· * ·) 1

/-- `Result(int)`: `allocateVellSets` (Result.cc:206-220); the planes are new ones. -/
def allocN (e : P) (n : Nat) : TRes P := ⟨if 1 < n then [n] else [], none, List.replicate n e⟩

/-- `Result(Dims)`: `allocateVellSets` (Result.cc:222-243). -/
def allocDims (e : P) (d : List Nat) : TRes P :=
  ⟨if prod d = 1 then [] else d, if 1 < d.length then some d else none, List.replicate (prod d) e⟩

/-- `setDims` (Result.cc:245-268). -/
def setDims (e : P) (r : TRes P) (d : List Nat) : Res (TRes P) :=
  if r.planes.length = 0 then .ok (allocDims e d)
  else if prod d ≠ r.planes.length then .err
  else
    let dims := if 1 < prod d then d else []
    .ok ⟨dims, if 1 < dims.length then some dims else none, r.planes⟩

/-- `setVellSet` (Result.h:214-232): `DMI::Vec::put` with `prepareForPut` (Vec.cc:290-301, 802-824), which makes the vector one
longer if the place is just behind its end. -/
def putPlane (r : TRes P) (i : Nat) (p : P) : Res (TRes P) :=
  if i = r.planes.length then .ok { r with planes := r.planes ++ [p] }
  else if r.planes.length ≤ i then .err
  else .ok { r with planes := r.planes.set i p }

/-- Setting all planes of a new result in turn: `setVellSet` for 0, 1, 2, ... -/
def fill (r : TRes P) (ps : List P) : TRes P := { r with planes := ps }

/-- `vellSet` (Result.h:203-204): throws if there is no such plane (`checkIndex`, Vec.h:292-295). -/
def getPlane (r : TRes P) (i : Nat) : Res P := match r.planes[i]? with | none => .err | some p => .ok p

/-- `validateContent` (Result.cc:168-183): dimensions of a result made of a record, e.g. one that was sent. -/
def validate (stored : Option (List Nat)) (planes : List P) : Res (TRes P) :=
  match stored with
  | some d => if prod d ≠ planes.length then .err else .ok ⟨d, some d, planes⟩
  | none => .ok ⟨if 1 < planes.length then [planes.length] else [], none, planes⟩

/-- Sending a result: the record has the stored dimensions and the planes. -/
def transmit (r : TRes P) : Res (TRes P) := validate r.stored r.planes

/-- The loop of `getOffsetChk` (Result.h:104-115) over the axes from the last: offset and stride. -/
def offsetLoop : List Nat → List Int → Res (Int × Nat)
  | d :: ds, i :: is =>
    (offsetLoop ds is).bind fun r => if i < 0 ∨ (d : Int) ≤ i then .err else .ok (r.1 + i * r.2, r.2 * d)
  | _, _ => .ok (0, 1)

/-- `getOffsetChk` (Result.h:104-115). -/
def getOffsetChk (dims : List Nat) (ind : List Int) : Res Int :=
  if ind.length ≠ dims.length then .err else (offsetLoop dims ind).bind fun r => .ok r.1

/-! ## Composer -/

/-- What is known of a plane: whether it is a failure (VellSet.h:357), whether it is empty (VellSet.h:170-171); the new plane
and the plane made for a wrong selection. -/
structure Ops (P : Type) where
  isFail : P → Bool
  isEmpty : P → Bool
  new : P
  bad : P

/-- The tensor dimensions common to the children (Composer.cc:73-96): dimensions and number of planes. -/
def commonDims : List (TRes P) → List Nat → Nat → Res (List Nat × Nat)
  | [], d, n => .ok (d, n)
  | c :: l, d, n =>
    if c.planes.length < 2 then commonDims l d (if d = [] then 1 else n)
    else if d = [] then commonDims l c.dims (prod c.dims)
    else if d ≠ c.dims then .err
    else commonDims l d n

/-- Variables of the loop over the children: the result, the place for the next plane, the counts. -/
structure CSt (P : Type) where
  res : TRes P
  ires : Nat
  nfails : Nat
  nmissing : Nat

/-- Copying planes (Composer.cc:128-136, 162-170). -/
def copyPlanes (o : Ops P) : List P → CSt P → Res (CSt P)
  | [], s => .ok s
  | p :: l, s =>
    (putPlane s.res s.ires p).bind fun r =>
      copyPlanes o l ⟨r, s.ires + 1, if o.isFail p then s.nfails + 1 else s.nfails,
        if o.isFail p then s.nmissing else if o.isEmpty p then s.nmissing + 1 else s.nmissing⟩

/-- Repeating a plane (Composer.cc:153-154). -/
def repeatPlane (p : P) : Nat → CSt P → Res (CSt P)
  | 0, s => .ok s
  | n + 1, s => (putPlane s.res s.ires p).bind fun r => repeatPlane p n { s with res := r, ires := s.ires + 1 }

/-- One child in tensor mode (Composer.cc:123-158). -/
def tensorChild (o : Ops P) (n : Nat) (c : TRes P) (s : CSt P) : Res (CSt P) :=
  if c.planes.length = n then copyPlanes o c.planes s
  else match c.planes with
    | [] => repeatPlane o.new n { s with nmissing := s.nmissing + n }
    | [p] => repeatPlane p n { s with nfails := if o.isFail p then s.nfails + n else s.nfails }
    | _ => .err

/-- The loop over the children (Composer.cc:118-174); `step` is what is done with a child. -/
def childLoop (step : TRes P → CSt P → Res (CSt P)) : List (TRes P) → CSt P → Res (CSt P)
  | [], s => .ok s
  | c :: l, s => (step c s).bind (childLoop step l)

/-- The return code (Composer.cc:175-186). -/
def composeCode (nres : Nat) (s : CSt P) : Code :=
  if nres = 0 then .fine else if s.nfails = nres then .fail else if s.nmissing = nres then .missing else .fine

/-- `Composer::getResult` (Composer.cc:59-187); `dims` is the node's `dims_`. -/
def compose (o : Ops P) (dims : List Nat) (ch : List (TRes P)) : Res (TRes P × Code) :=
  let nres := (ch.map fun c => c.planes.length).sum
  if dims = [0] then
    (commonDims ch [] 0).bind fun d =>
      (childLoop (tensorChild o d.2) ch ⟨allocDims o.new (ch.length :: d.1), 0, 0, 0⟩).bind fun s => .ok (s.res, composeCode nres s)
  else
    let r0 := if dims = [] then allocN o.new nres else allocDims o.new dims
    (childLoop (fun c s => copyPlanes o c.planes s) ch ⟨r0, 0, 0, 0⟩).bind fun s => .ok (s.res, composeCode nres s)

/-! ## Selections of a tensor -/

/-- What the loop over the axes finds out: whether an axis is sliced, the last sliced axis + 1, the running stride, the first
offset, and for each axis its stride, its extent in the selection and the same with 0 for axes that are not sliced
(`shp0`). -/
structure SelSt where
  slice : Bool
  rank : Nat
  strd : Nat
  offset : Nat
  strides : List Nat
  shp : List Nat
  shp0 : List Nat
  deriving DecidableEq, Repr

/-- The loop over the axes, from the last to the first (Selector.cc:96-120; Paster.cc:93-117); `i` is the number of the first
axis of the list. -/
def setup : Nat → List (Int × Nat) → Res SelSt
  | i, [] => .ok ⟨false, i, 1, 0, [], [], []⟩
  | i, (s, d) :: l =>
    (setup (i + 1) l).bind fun r =>
      if (d : Int) ≤ s then .err
      else if s < 0 then .ok ⟨true, r.rank, r.strd * d, r.offset, r.strd :: r.strides, d :: r.shp, d :: r.shp0⟩
      else .ok ⟨r.slice, if r.slice then r.rank else i, r.strd * d, r.offset + s.toNat * r.strd, r.strd :: r.strides, 1 :: r.shp, 0 :: r.shp0⟩

/-- Going on to the next offset, from the last axis (Selector.cc:155-163; Paster.cc:144-152): the axes are stride, extent and
what is left (`shp0`); the Boolean tells whether the loop has not been left by `break`. -/
def advance : List (Nat × Nat × Nat) → Nat → List (Nat × Nat × Nat) × Nat × Bool
  | [], off => ([], off, true)
  | (st, sh, s0) :: l, off =>
    let r := advance l off
    if !r.2.2 then ((st, sh, s0) :: r.1, r.2.1, false)
    else if s0 ≠ 0 then
      (if s0 - 1 ≠ 0 then ((st, sh, s0 - 1) :: r.1, r.2.1 + st, false) else ((st, sh, sh) :: r.1, r.2.1 + st, true))
    else ((st, sh, s0) :: r.1, r.2.1, true)

/-- The offsets visited (Selector.cc:146-164; Paster.cc:140-153). -/
def walk : Nat → List (Nat × Nat × Nat) → Nat → List Nat
  | 0, _, _ => []
  | n + 1, ax, off => let r := advance ax off; off :: walk n r.1 r.2.1

/-- Shape and offsets of a selection in a tensor of the given dimensions; the shape is `none` for a single element
(Selector.cc:94-164; Paster.cc:91-153). -/
def selOffsets (dims : List Nat) (sel : List Int) : Res (Option (List Nat) × List Nat) :=
  if dims.length ≠ sel.length then .err
  else (setup 0 (sel.zip dims)).bind fun s =>
    if s.rank = 0 then .ok (none, [s.offset])
    else
      let shp := s.shp.take s.rank
      .ok (some shp, walk (prod shp) ((s.strides.take s.rank).zip (shp.zip (s.shp0.take s.rank))) s.offset)

/-! ## Selector -/

/-- The return code (Selector.cc:63-64, 167-171), given the planes that were selected. -/
def selCode (o : Ops P) (ps : List P) : Code :=
  if ps.all o.isFail then .fail else if ps.all o.isEmpty then .missing else .fine

/-- `Selector::getResult` (Selector.cc:53-178). -/
def select (o : Ops P) (multi : Bool) (sel : List Int) (c : TRes P) : Res (TRes P × Code) :=
  if sel = [] then .ok (c, .fine)
  else if multi || sel.length == 1 then
    let ps := sel.map fun i => if i < 0 then none else c.planes[i.toNat]?
    .ok (fill (allocN o.bad sel.length) (ps.map (·.getD o.bad)), selCode o (ps.filterMap id))
  else
    (selOffsets c.dims sel).bind fun s =>
      (mapRes (getPlane c) s.2).bind fun ps =>
        match s.1 with
        | none => .ok (fill (allocN o.new 1) ps, selCode o ps)
        | some shp => .ok (fill (allocDims o.new shp) ps, selCode o ps)

/-! ## Paster -/

/-- Putting planes at given places (Paster.cc:140-142, 77-86). -/
def putAll : List (Nat × P) → TRes P → Res (TRes P)
  | [], r => .ok r
  | (i, p) :: l, r => (putPlane r i p).bind (putAll l)

/-- `Paster::getResult` (Paster.cc:54-161), the final check of shapes left out: pasting `c` into `r`. -/
def paste (multi : Bool) (sel : List Int) (r c : TRes P) : Res (TRes P) :=
  if sel = [] then .ok r
  else if multi || sel.length == 1 then
    (if c.planes.length ≠ sel.length then .err
    else if sel.any fun i => i < 0 || (r.planes.length : Int) ≤ i then .err
    else putAll ((sel.map Int.toNat).zip c.planes) r)
  else
    (selOffsets r.dims sel).bind fun s =>
      match s.1 with
      | none => if c.planes.length ≠ 1 then .err else putAll (s.2.zip c.planes) r
      | some shp => if c.dims ≠ shp then .err else (mapRes (getPlane c) (List.range s.2.length)).bind fun ps => putAll (s.2.zip ps) r

/-! ## MatrixMultiply -/

/-- `computeSum` (MatrixMultiply.cc:39-50): pairs of values alternate; a pair that lacks one counts as zero. -/
def computeSum [CommRing V] : V → List (Option V) → V
  | out, some a :: some b :: l => computeSum (out + a * b) l
  | out, _ :: _ :: l => computeSum out l
  | out, _ => out

/-- The planes of one sum (MatrixMultiply.cc:302-329): (i,j) of A and (j,k) of B alternating, j from 0; an absent plane throws. -/
def terms (a b : TRes (Plane V F)) (ca cb i k : Nat) : Nat → Nat → Res (List (Plane V F))
  | _, 0 => .ok []
  | j, n + 1 =>
    (getPlane a (i * ca + j)).bind fun pa => (getPlane b (k + j * cb)).bind fun pb =>
      (terms a b ca cb i k (j + 1) n).bind fun l => .ok (pa :: pb :: l)

/-- An argument of a sum: a plane without value counts as null (MatrixMultiply.cc:318-320, 367-369); such planes have no
solvable parameters. -/
def argV (p : Plane V F) : Option (Plane V F) := if p.value.isSome then some p else none

/-- One plane of the product (MatrixMultiply.cc:296-404), from the planes that go in; an exception is thrown out of the call.  The
perturbed values are worked out as in `Function::getResult` (MatrixMultiply.cc:338-404 repeats Function.cc:205-284), without
the test of shapes. -/
def sumPlane [CommRing V] [Inhabited V] (ps : List (Plane V F)) : Res (Plane V F) :=
  let fails := ps.foldl (fun cur p => addFails cur (p.fail.getD [])) none
  match fails with
  | some fs => .ok (failPlane (some fs))
  | none => evalPlane (fun _ => true) (fun vs => .ok (computeSum 0 vs)) (ps.map argV)

/-- Rows and columns of an argument (MatrixMultiply.cc:255-270). -/
def matDims (r : TRes P) : Res (Nat × Nat) :=
  match r.dims with
  | [_] => .ok (r.planes.length, 1)
  | [m, n] => .ok (m, n)
  | _ => .err

/-- The product of two tensors (MatrixMultiply.cc:253-407). -/
def matMul [CommRing V] [Inhabited V] (a b : TRes (Plane V F)) : Res (TRes (Plane V F)) :=
  (matDims a).bind fun da => (matDims b).bind fun db =>
    if da.2 ≠ db.1 then .err
    else
      (mapRes (fun q => (terms a b da.2 db.2 (q / db.2) (q % db.2) 0 da.2).bind sumPlane) (List.range (da.1 * db.2))).bind fun ps =>
        .ok (fill (if db.2 = 1 then allocN (failPlane none) da.1 else allocDims (failPlane none) [da.1, db.2]) ps)

/-- The product of the two values, which are both there. -/
def mulTwo [CommRing V] : List (Option V) → V
  | [some x, some y] => x * y
  | _ => 0

/-- One plane of the product of a tensor and a scalar (MatrixMultiply.cc:121-213). -/
def scalePlane [CommRing V] [Inhabited V] (s t : Plane V F) : Res (Plane V F) :=
  if t.value.isSome then
    evalPlane (fun _ => true) (fun vs => .ok (mulTwo vs)) [some t, some s]
  else .ok t

/-- `scalarMultiply` (MatrixMultiply.cc:53-214); `isNull` and `isUnity` are the tests of a value (Vells.h:313-319). -/
def scalarMul [CommRing V] [Inhabited V] (isNull isUnity : V → Bool) (s t : TRes (Plane V F)) : Res (TRes (Plane V F)) :=
  if 2 < t.dims.length then .err
  else match s.planes with
    | [] => .ok (allocN (failPlane none) 1)
    | p :: _ =>
      if p.fail.isSome then .ok (fill (allocN (failPlane none) 1) [p])
      else match p.value with
        | none => .ok (allocN (failPlane none) 1)
        | some v =>
          if p.spids = [] ∧ isNull v = true then .ok (fill (allocN (failPlane none) 1) [⟨none, some 0, [], 0, fun _ _ => 0, fun _ _ => 0⟩])
          else if p.spids = [] ∧ isUnity v = true then .ok t
          else (mapRes (fun i => (getPlane t i).bind (scalePlane p)) (List.range (prod t.dims))).bind fun ps =>
            .ok (fill (allocDims (failPlane none) t.dims) ps)

/-- One step of the loop over the children (MatrixMultiply.cc:244-409). -/
def mulStep [CommRing V] [Inhabited V] (isNull isUnity : V → Bool) (a b : TRes (Plane V F)) : Res (TRes (Plane V F)) :=
  if a.dims = [] then scalarMul isNull isUnity a b
  else if b.dims = [] then scalarMul isNull isUnity b a
  else matMul a b

/-- The loop over the children (MatrixMultiply.cc:240-416): left as soon as all planes fail. -/
def mulLoop [CommRing V] [Inhabited V] (isNull isUnity : V → Bool) : TRes (Plane V F) → List (TRes (Plane V F)) → Res (TRes (Plane V F) × Code)
  | a, [] => .ok (a, .fine)
  | a, b :: l =>
    (mulStep isNull isUnity a b).bind fun r =>
      if (r.planes.filter fun p => p.fail.isSome).length = r.planes.length then .ok (r, .fail)
      else mulLoop isNull isUnity r l

/-- `MatrixMultiply::getResult` (MatrixMultiply.cc:216-417): at least two children. -/
def multiply [CommRing V] [Inhabited V] (isNull isUnity : V → Bool) : List (TRes (Plane V F)) → Res (TRes (Plane V F) × Code)
  | a :: b :: l => mulLoop isNull isUnity a (b :: l)
  | _ => .err

end Verif.Tensor
