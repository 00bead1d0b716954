import Verif.Model.Function
import Mathlib.Algebra.Order.Ring.Rat
import Mathlib.Data.Rat.Floor
/-!
# Conditional equations (MeqNodes/src/Condeq.cc)

Values are those at one point of the grid: all operations used are pointwise (C38).  A number has a type, real or complex,
shared by all points.  Simplifications: numbers are rational, so a division by a perturbation of 0 is not what it is in
the code (inf or NaN); the statements exclude it.  Cells are left out.
-/
namespace Verif.Condeq

open Verif.Func

/-- A number at one point, and whether the array it is from is complex. -/
structure Num where
  cplx : Bool
  re : ℚ
  im : ℚ
  deriving DecidableEq, Repr

/-- `a - b`: complex if one of them is (Vells.h:895-945). -/
def Num.sub (a b : Num) : Num := ⟨a.cplx || b.cplx, a.re - b.re, a.im - b.im⟩

/-- `a /= p` with a real scalar. -/
def Num.scale (a : Num) (p : ℚ) : Num := ⟨a.cplx, a.re / p, a.im / p⟩

/-- `tocomplex(a,0)` for a real array. -/
def Num.toC (a : Num) : Num := ⟨true, a.re, 0⟩

/-- The integer nearest to `q`, the even one of two that are equally near. -/
def nearest (q : ℚ) : Int :=
  let f := ⌊q⌋
  if q - f < 1 / 2 then f else if 1 / 2 < q - f then f + 1 else if f % 2 = 0 then f else f + 1

/-- `remainder(x,m)` of the C library: `x` less the nearest multiple of `m`. -/
def remQ (x m : ℚ) : ℚ := x - nearest (x / m) * m

/-- `VellsMath::remainder` (Vells.h:1137): for real arrays only. -/
def remainder (a : Num) (m : ℚ) : Res Num := if a.cplx then .err else .ok ⟨false, remQ a.re m, 0⟩

/-- One element of a child's result: whether it is a fail, its main value, flags, parameters, number of perturbation sets, and
the perturbations and perturbed values of parameter `i` in set `k`. -/
structure Plane where
  fail : Bool
  value : Option Num
  flags : Option (BitVec 32)
  spids : List Int
  npert : Nat
  pert : Nat → Nat → ℚ
  pval : Nat → Nat → Num

/-- The difference of values and the step (Condeq.cc:66-87). -/
def diff (c : Plane) (v : Num) (index : Nat) (minus : Bool) : Res (Num × ℚ) :=
  if c.npert = 1 then
    .ok (if minus then v.sub (c.pval index 0) else (c.pval index 0).sub v, c.pert index 0)
  else if c.npert = 2 then
    .ok (if minus then (c.pval index 1).sub (c.pval index 0) else (c.pval index 0).sub (c.pval index 1),
      c.pert index 0 - c.pert index 1)
  else .err

/-- `calcDerivative` (Condeq.cc:64-92): derivative and step. -/
def calcDerivative (modulo : ℚ) (c : Plane) (v : Num) (index : Nat) (minus : Bool) : Res (Num × ℚ) :=
  (diff c v index minus).bind fun d =>
    (if modulo ≠ 0 then remainder d.1 modulo else .ok d.1).bind fun x => .ok (x.scale d.2, d.2)

/-- The derivative for one parameter (Condeq.cc:200-216), given where it is in the children's lists. -/
def derivative (modulo : ℚ) (c0 c1 : Plane) (v0 v1 : Num) (inx0 inx1 : Option Nat) : Res (Num × ℚ) :=
  match inx1, inx0 with
  | some i1, some i0 =>
    (calcDerivative modulo c1 v1 i1 true).bind fun d =>
      (calcDerivative modulo c0 v0 i0 true).bind fun d1 => .ok (d.1.sub d1.1, d.2)
  | some i1, none => calcDerivative modulo c1 v1 i1 true
  | none, some i0 => calcDerivative modulo c0 v0 i0 false
  | none, none => .ok (⟨false, 0, 0⟩, 0)

/-- Variables of the loop over parameters: `force_complex`, the output's main value, derivatives and perturbations so far, and the
positions in the children's lists. -/
structure Acc where
  force : Bool
  value : Num
  derivs : List Num
  perts : List ℚ
  i0 : Nat
  i1 : Nat
  deriving DecidableEq, Repr

/-- Storing a derivative (Condeq.cc:217-231). -/
def store (a : Acc) (d : Num) (p : ℚ) (i0 i1 : Nat) : Acc :=
  if a.force then ⟨true, a.value, a.derivs ++ [if d.cplx then d else d.toC], a.perts ++ [p], i0, i1⟩
  else if d.cplx then ⟨true, a.value.toC, a.derivs.map Num.toC ++ [d], a.perts ++ [p], i0, i1⟩
  else ⟨false, a.value, a.derivs ++ [d], a.perts ++ [p], i0, i1⟩

/-- The loop over parameters (Condeq.cc:195-232). -/
def spidLoop (modulo : ℚ) (c0 c1 : Plane) (v0 v1 : Num) : List Int → Acc → Res Acc
  | [], a => .ok a
  | s :: l, a =>
    let r0 := isDefined c0.spids s a.i0
    let r1 := isDefined c1.spids s a.i1
    (derivative modulo c0 c1 v0 v1 r0.1 r1.1).bind fun d => spidLoop modulo c0 c1 v0 v1 l (store a d.1 d.2 r0.2 r1.2)

/-- An element of the output: main value, flags, parameters, derivatives and perturbations, weight. -/
structure Out where
  value : Num
  flags : Option (BitVec 32)
  spids : List Int
  derivs : List Num
  perts : List ℚ
  weight : Option ℚ
  deriving DecidableEq, Repr

/-- Flags of both children, if any, or'ed (Condeq.cc:153-158). -/
def orFlags (f g : Option (BitVec 32)) : Option (BitVec 32) :=
  match f, g with
  | some a, some b => some (a ||| b)
  | some a, none => some a
  | none, g => g

/-- The main value (Condeq.cc:183-185). -/
def mainValue (modulo : ℚ) (v0 v1 : Num) : Res Num :=
  if modulo ≠ 0 then remainder (v1.sub v0) modulo else .ok (v1.sub v0)

/-- `setDataWeights` (Condeq.cc:235-236, VellSet.cc:545-552): real weights only. -/
def setWeight (w : Option Num) : Res (Option ℚ) :=
  match w with
  | none => .ok none
  | some x => if x.cplx then .err else .ok (some x.re)

/-- One element of the output (Condeq.cc:137-237), given those of both children and the weight; `none` is an element without a
value.  That a child's element is a fail is not looked at. -/
def plane (modulo : ℚ) (c0 c1 : Plane) (w : Option Num) : Res (Option Out) :=
  match c0.value, c1.value with
  | some v0, some v1 =>
    (findSpids [c0.spids, c1.spids]).bind fun spids =>
      (mainValue modulo v0 v1).bind fun m =>
        (spidLoop modulo c0 c1 v0 v1 spids ⟨m.cplx, m, [], [], 0, 0⟩).bind fun a =>
          (setWeight w).bind fun wt => .ok (some ⟨a.value, orFlags c0.flags c1.flags, spids, a.derivs, a.perts, wt⟩)
  | _, _ => .ok none

/-! ## All elements -/

/-- A child's result: tensor dimensions (none for a scalar) and elements. -/
structure CRes where
  dims : List Nat
  planes : List Plane

/-- Dimensions after one more child (Condeq.cc:111-120). -/
def joinDims (d : List Nat) (c : CRes) : Res (List Nat) :=
  if c.planes.length = 0 then .err
  else if c.dims ≠ [] then (if d = [] then .ok c.dims else if d ≠ c.dims then .err else .ok d)
  else .ok d

/-- The same for the third child, which may have no result (Condeq.cc:107-126). -/
def joinOpt (d : List Nat) (c2 : Option CRes) : Res (List Nat) :=
  match c2 with
  | none => .ok d
  | some c => joinDims d c

/-- The element of a child used for element `i` of the output (Condeq.cc:146,170). -/
def pick (c : CRes) (i : Nat) : Res Plane :=
  match c.planes[if 0 < c.dims.length then i else 0]? with
  | none => .ub
  | some p => .ok p

/-- The weight of element `i` (Condeq.cc:168-175). -/
def pickWeight (c2 : Option CRes) (i : Nat) : Res (Option Num) :=
  match c2 with
  | none => .ok none
  | some c => (pick c i).bind fun p => .ok p.value

/-- What `getResult` ends in: a result (dimensions and elements), or the code MISSING without one. -/
inductive Answer where
  | result (dims : List Nat) (planes : List (Option Out))
  | missing
  deriving DecidableEq, Repr

/-- The loop over elements. -/
def planes (modulo : ℚ) (c0 c1 : CRes) (c2 : Option CRes) : List Nat → Res (List (Option Out))
  | [] => .ok []
  | i :: l =>
    (pick c0 i).bind fun p0 => (pick c1 i).bind fun p1 => (pickWeight c2 i).bind fun w =>
      (plane modulo p0 p1 w).bind fun o => (planes modulo c0 c1 c2 l).bind fun r => .ok (o :: r)

/-- `getResult` (Condeq.cc:97-240); `none` is a child result that is not valid.  The first child's is dereferenced without being
checked (Condeq.cc:105), which raises an exception. -/
def getResult (modulo : ℚ) (c0 c1 c2 : Option CRes) : Res Answer :=
  match c0 with
  | none => .err
  | some a =>
    if a.planes.length = 0 then .err
    else match c1 with
      | none => .ok .missing
      | some b =>
        (joinDims a.dims b).bind fun d =>
          (joinOpt d c2).bind fun d =>
            (planes modulo a b c2 (List.range (d.foldr (· * ·) 1))).bind fun r => .ok (.result d r)

end Verif.Condeq
