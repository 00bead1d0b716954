import Verif.Model.Tensor
import Verif.Model.Condeq
import Mathlib.Algebra.Field.Basic
/-!
# Functions of whole tensors, matrix inversion, transposition and Stokes parameters

(MEQ/src/TensorFunction.cc, MeqNodes/src/MatrixInvert22.cc, Transpose.cc, Stokes.cc.)  Values are of any type with the operations
needed: all operations are pointwise (C38).  Flags (see C144) and cells are left out.
-/
namespace Verif.MatNodes
open Verif.Func (Plane findSpids idsOf maxSets spidLoop failPlane addFails Code)
open Verif.Tensor (TRes prod allocDims setDims putPlane getPlane)

/-! ## Functions of tensors -/

/-- A flat list as one list for each child, given how many elements each has.  (The code keeps such lists of lists throughout,
TensorFunction.cc:102-131; here all elements are in one list and are grouped for the function.) -/
def regroup : List Nat → List α → List (List α)
  | [], _ => []
  | n :: l, a => a.take n :: regroup l (a.drop n)

/-- Element `j` of the output (TensorFunction.cc:161-172, 238-243). -/
def outPlane [Inhabited V] (main : List V) (spids : List Int) (n : Nat) (rows : List (List (ℚ × List V))) (j : Nat) : Plane V F :=
  ⟨none, main[j]?, spids, n, fun i k => ((rows.getD i []).getD k (0, [])).1, fun i k => ((rows.getD i []).getD k (0, [])).2.getD j default⟩

/-- Main values, parameters and perturbed values of all elements (TensorFunction.cc:141-245; the same loop is in
MatrixInvert22.cc:149-240).  `g` gives all elements of the output. -/
def tensorCore [Inhabited V] (g : List (Option V) → Res (List V)) (fl : List (Option (Plane V F))) : Res (List (Plane V F)) :=
  let values := fl.map fun c => c.bind (·.value)
  (g values).bind fun main =>
    (findSpids (idsOf fl)).bind fun spids =>
      (spidLoop (fun _ => true) g (maxSets fl) fl values spids (List.replicate fl.length 0)).bind fun rows =>
        .ok ((List.range main.length).map (outPlane main spids (maxSets fl) rows))

/-- `computeTensorResult` (TensorFunction.cc:98-248), given the elements of each child; `f` stands for `evaluateTensors`, taken to fill
all elements of its output.  An element without a value, failures among them, is an exception (TensorFunction.cc:129, VellSet.h:187). -/
def tensorEval [Inhabited V] (f : List (List (Option V)) → Res (List V)) (ch : List (List (Plane V F))) : Res (List (Plane V F)) :=
  if ch.flatten.any (fun c => c.value.isNone) then .err
  else tensorCore (fun vs => f (regroup (ch.map List.length) vs)) (ch.flatten.map some)

/-! ## Inverting 2x2 matrices -/

/-- The inverse of a matrix given by rows (MatrixInvert22.cc:150-157, 226-237).  The products are kept there if they have not changed. -/
def inv22 [Field V] : List (Option V) → Res (List V)
  | [some a, some b, some c, some d] =>
    let det := 1 / (a * d - b * c)
    let mdet := -det
    .ok [d * det, b * mdet, c * mdet, a * det]
  | _ => .ub

/-- An element without a value counts as zero (MatrixInvert22.cc:126, 192); such an element has no parameters. -/
def orZero [Field V] (p : Plane V F) : Plane V F :=
  match p.value with
  | some _ => p
  | none => ⟨p.fail, some 0, [], 0, p.pert, p.pval⟩

/-- A scalar (MatrixInvert22.cc:71-93). -/
def invScalar [Field V] (p : Plane V F) : Res (Plane V F × Code) :=
  match p.fail with
  | some _ => .ok (p, .fail)
  | none =>
    match p.value with
    | none => .err
    | some v => .ok (⟨none, some (1 / v), p.spids, p.npert, p.pert, fun i k => 1 / p.pval i k⟩, .fine)

/-- Failures of the elements (MatrixInvert22.cc:113-124). -/
def collectFails (ps : List (Plane V F)) : Option (List F) := ps.foldl (fun cur p => match p.fail with | some fs => addFails cur fs | none => cur) none

/-- `MatrixInvert22::getResult` (MatrixInvert22.cc:57-245). -/
def matrixInvert [Field V] [Inhabited V] (c : TRes (Plane V F)) : Res (TRes (Plane V F) × Code) :=
  if c.dims = [] then
    match c.planes with
    | [p] => (invScalar p).bind fun r => .ok (⟨[], none, [r.1]⟩, r.2)
    | _ => .err
  else if c.dims ≠ [2, 2] then .err
  else if c.planes.length ≠ 4 then .err
  else
    match collectFails c.planes with
    | some fs => .ok (⟨[], none, [failPlane (some fs)]⟩, .fail)
    | none => (tensorCore inv22 (c.planes.map fun p => some (orZero p))).bind fun out => .ok (⟨[2, 2], some [2, 2], out⟩, .fine)

/-! ## Transposing -/

/-- Where each element of `nmat` matrices goes and where it is from (Transpose.cc:108-110, 133-139). -/
def moves (nmat nx ny : Nat) : List (Nat × Nat) :=
  (List.range nmat).flatMap fun k => (List.range ny).flatMap fun i => (List.range nx).map fun j =>
    (k * (nx * ny) + (i * nx + j), k * (nx * ny) + (j * ny + i))

/-- Moving elements of the child `c` to the result. -/
def moveAll (c : TRes P) : List (Nat × Nat) → TRes P → Res (TRes P)
  | [], r => .ok r
  | m :: l, r => (getPlane c m.2).bind fun p => (putPlane r m.1 p).bind fun r => moveAll c l r

/-- Reshaping and transposing (Transpose.cc:75-142).  `e` is a new element. -/
def reshape (e : P) (tensor : Bool) (c : TRes P) : Res (TRes P) :=
  match c.dims.reverse with
  | [] => .ok c
  | [_] => if tensor then .ok c else setDims e c [1, c.planes.length]
  | [ny, nx] =>
    if tensor && ny == 1 then .ok c
    else if nx = 1 then setDims e c [ny]
    else (setDims e c [ny, nx]).bind fun r => moveAll c (moves 1 nx ny) r
  | ny :: nx :: l =>
    if nx = 1 then setDims e c (l.reverse ++ [ny])
    else (setDims e c (l.reverse ++ [ny, nx])).bind fun r => moveAll c (moves (c.planes.length / (nx * ny)) nx ny) r

/-- `Transpose::getResult` (Transpose.cc:70-151); `cj` conjugates an element (Transpose.cc:52-67). -/
def transpose (e : P) (cj : P → P) (conj tensor : Bool) (c : TRes P) : Res (TRes P) :=
  (reshape e tensor c).bind fun r => .ok (if conj then ⟨r.dims, r.stored, r.planes.map cj⟩ else r)

/-- Conjugating an element (Transpose.cc:52-67): value and perturbed values, if there is a value. -/
def conjugate (cc : V → V) (p : Plane V F) : Plane V F :=
  match p.value with
  | none => p
  | some v => ⟨p.fail, some (cc v), p.spids, p.npert, p.pert, fun i k => cc (p.pval i k)⟩

/-! ## Stokes parameters -/

/-- An element of the child: its value at a point (real), whether that is the special null value, the number of parameters it has. -/
structure SElem where
  value : Option ℚ
  nul : Bool
  nspids : Nat
  deriving DecidableEq, Repr

/-- `VellSet::isNull` (VellSet.h:175-176). -/
def SElem.isNull (s : SElem) : Bool := s.value.isNone || (s.nspids == 0 && s.nul)

/-- `getValue` (VellSet.h:184-189). -/
def SElem.get (s : SElem) : Res ℚ :=
  match s.value with
  | none => .err
  | some v => .ok v

/-- A real number. -/
def real (x : ℚ) : Condeq.Num := ⟨false, x, 0⟩

/-- The part of `getResult` that makes the elements (Stokes.cc:64-122): dimensions and values; none has parameters or flags. -/
def stokesOf (scale : ℚ) (i q u v : SElem) : Res (List Nat × List (Option Condeq.Num)) :=
  i.get.bind fun vi =>
    if u.isNull && v.isNull then
      (if q.isNull then .ok ([], [some (real (vi * scale))])
      else q.get.bind fun vq => .ok ([2, 2], [some (real ((vi + vq) * scale)), none, none, some (real ((vi - vq) * scale))]))
    else
      q.get.bind fun vq => u.get.bind fun vu => v.get.bind fun vv =>
        .ok ([2, 2], [some (real ((vi + vq) * scale)), some ⟨true, vu * scale, vv * scale⟩, some ⟨true, vu * scale, -vv * scale⟩,
          some (real ((vi - vq) * scale))])

/-- `Stokes::getResult` (Stokes.cc:43-127): there must be four elements (Result.h:204-210). -/
def stokes (scale : ℚ) (ch : List SElem) : Res (List Nat × List (Option Condeq.Num)) :=
  match ch with
  | i :: q :: u :: v :: _ => stokesOf scale i q u v
  | _ => .err

end Verif.MatNodes
