import Verif.Model.Vells
import Mathlib.Algebra.Order.Ring.Rat
import Mathlib.Algebra.Order.Group.Unbundled.Abs
/-!
# Cells and spid maps of children (MEQ/src/Node.cc:763-895)
-/
namespace Verif.ChildCells
open Verif.Vells (ext mergeShape)

/-- One axis of cells: the number of cells and the domain they span.  Simplification: centres and sizes are left out, and the domain
of an axis goes with it (`recomputeDomain`, Cells.cc:373-391, computes it from the cells). -/
structure Ax where
  n : Nat
  s : ℚ
  e : ℚ
  deriving DecidableEq

/-- A child's result that has cells: the identity of the cells object, its axes, and the shape of the result's values
(`getVellSetShape`, Result.cc:104-111). -/
structure Child where
  id : Nat
  ax : Nat → Option Ax
  shape : List Nat

/-- The cells so far: the child's object they are, if they have not been changed (a change makes a copy); and the shape so far. -/
structure Acc where
  id : Option Nat
  ax : Nat → Option Ax
  shape : List Nat

/-- The test that two bounds differ (Node.cc:851-852). -/
def far (a b : ℚ) : Bool := decide (max |a| |b| / 10000000000 < |a - b|)

/-- One axis (Node.cc:800-862): given the extents so far and of the child, and the axis so far and of the child; the axis, and if it was
set.  `none` for an exception. -/
def axisStep (re ce : Nat) (acc new : Option Ax) : Option (Option Ax × Bool) :=
  match new with
  | none => some (acc, false)
  | some y =>
    (match acc with
    | none => some (some y, true)
    | some x =>
      if re = 1 then (if 1 < ce then some (some y, true) else some (some x, false))
      else if ce = 1 then some (some x, false)
      else if x.n ≠ y.n then none
      else if far x.s y.s || far x.e y.e then none
      else some (some x, false))

/-- The loop over axes (Node.cc:800-862). -/
def axLoop (rs cs : List Nat) (cc : Nat → Option Ax) : List Nat → (Nat → Option Ax) → Bool → Option ((Nat → Option Ax) × Bool)
  | [], ax, ch => some (ax, ch)
  | i :: l, ax, ch =>
    match axisStep (ext rs i) (ext cs i) (ax i) (cc i) with
    | none => none
    | some (x, c) => axLoop rs cs cc l (fun j => if j = i then x else ax j) (ch || c)

/-- One child (Node.cc:780-866). -/
def childStep (acc : Option Acc) (c : Option Child) : Option (Option Acc) :=
  match c with
  | none => some acc
  | some c =>
    (match acc with
    | none => some (some ⟨some c.id, c.ax, c.shape⟩)
    | some a =>
      if a.id = some c.id then some (some a)
      else
        (match axLoop a.shape c.shape c.ax (List.range (max a.shape.length c.shape.length)) a.ax false with
        | none => none
        | some (ax, ch) =>
          (match mergeShape a.shape c.shape with
          | none => none
          | some m => some (some ⟨if ch then none else a.id, ax, m⟩))))

/-- The loop over children (Node.cc:780-866). -/
def childLoop (acc : Option Acc) : List (Option Child) → Option (Option Acc)
  | [] => some acc
  | c :: l => match childStep acc c with | none => none | some acc => childLoop acc l

/-- `Node::checkChildCells` (Node.cc:763-866), called with no cells (Node.cc:1022, 1067), for children's results that are there and have
cells, or not: the axes of the cells, if any; `none` for an exception.  `off` is `RESAMPLE_NONE`. -/
def checkChildCells (off : Bool) (ch : List (Option Child)) : Option (Option (Nat → Option Ax)) :=
  if off then some none
  else
    (match ch with
    | [some c] => some (some c.ax)
    | [none] => some none
    | _ => (childLoop none ch).map fun a => a.map Acc.ax)

/-! ## Spid maps -/

/-- A result: its spid map, if it has one, and the rest. -/
structure Res (β V : Type) where
  map : Option (Nat → Option V)
  rest : β

/-- `Record::merge` without overwriting (Record.cc:132-156). -/
def merge {V : Type} (m o : Nat → Option V) : Nat → Option V := fun k => match m k with | some v => some v | none => o k

/-- The loop of `Node::discoverSpids` (Node.cc:867-895). -/
def discoverSpids {β V : Type} (ref : Option (Res β V)) : List (Option (Res β V)) → Option (Res β V)
  | [] => ref
  | none :: l => discoverSpids ref l
  | some c :: l =>
    match c.map with
    | none => discoverSpids ref l
    | some m =>
      (match ref with
      | none => discoverSpids (some c) l
      | some r => (match r.map with | none => discoverSpids (some ⟨some m, r.rest⟩) l | some m' => discoverSpids (some ⟨some (merge m' m), r.rest⟩) l))

end Verif.ChildCells
