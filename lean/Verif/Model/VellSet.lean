import Verif.Model.Vells
/-!
# Vellsets: shape, parts, failures (MEQ/src/VellSet.cc, VellSet.h)

Of each part only the shape is kept; `none` is a part that is not there.  The record behind the vellset is left out, except
for its field of failures.
-/
namespace Verif.VellSet
open Verif.Vells

/-- Where a part is kept: main value, flags, weights, perturbed value `i` of set `k`. -/
inductive Slot where
  | value
  | flags
  | weights
  | pert (i k : Nat)
  deriving DecidableEq, Repr

/-- A vellset (VellSet.h:411-445).  `dangling` says that the pointer to the weights is set while the record field it
points into is gone. -/
structure VSet (F : Type) where
  shape : List Nat
  part : Slot → Option (List Nat)
  dangling : Bool
  isFail : Bool
  fails : Option (List F)

/-- A new vellset (VellSet.cc:62-87). -/
def VSet.new {F : Type} : VSet F := ⟨[], fun _ => none, false, false, none⟩

/-- `isScalar` (Vells.h:350-351). -/
def isScalar (s : List Nat) : Bool := decide (size s = 1)

/-- The loop of `adjustShape` (VellSet.cc:194-207), over a shape that has been made at least as long as the other: the new
shape and whether it changed. -/
def adjustLoop : List Nat → List Nat → Res (List Nat × Bool)
  | s, [] => .ok (s, false)
  | [], _ :: _ => .ub
  | a :: s, v :: vs =>
    if 1 < v then
      (if a ≤ 1 then (adjustLoop s vs).bind fun r => .ok (v :: r.1, true)
       else if a ≠ v then .err else (adjustLoop s vs).bind fun r => .ok (a :: r.1, r.2))
    else if a = 0 then (adjustLoop s vs).bind fun r => .ok (1 :: r.1, true)
    else (adjustLoop s vs).bind fun r => .ok (a :: r.1, r.2)

/-- `adjustShape` on a shape (VellSet.cc:178-209), for a part that is there. -/
def adjust (shp vs : List Nat) : Res (List Nat × Bool) :=
  if isScalar vs then .ok (shp, false)
  else if shp = [] then .ok (vs, true)
  else adjustLoop (if shp.length < vs.length then shp ++ List.replicate (vs.length - shp.length) 0 else shp) vs

/-- `setShape` (VellSet.cc:144-155). -/
def setShape {F : Type} (s : VSet F) (shp : List Nat) : Res (VSet F) :=
  if s.shape ≠ [] ∧ !isCompatible s.shape shp then .err else .ok { s with shape := shp }

/-- `adjustShape` (VellSet.cc:211-219). -/
def adjustShape {F : Type} (s : VSet F) (vs : List Nat) : Res (VSet F) :=
  if isScalar vs then .ok s
  else (adjust s.shape vs).bind fun r => if r.2 then setShape s r.1 else .ok s

/-- `setValue`, `setPerturbedValue`, `setDataFlags`, `setDataWeights` (VellSet.cc:500-586): the shape is adjusted first. -/
def setPart {F : Type} (s : VSet F) (slot : Slot) (vs : List Nat) : Res (VSet F) :=
  (adjustShape s vs).bind fun s => .ok { s with part := fun t => if t = slot then some vs else s.part t,
                                                dangling := if slot = .weights then false else s.dangling }

/-- `clearDataFlags`, `clearDataWeights` (VellSet.cc:522-561). -/
def clearPart {F : Type} (s : VSet F) (slot : Slot) : VSet F :=
  { s with part := fun t => if t = slot then none else s.part t, dangling := if slot = .weights then false else s.dangling }

/-- `hasDataWeights`, `dataWeights` (VellSet.h:298-303). -/
def hasDataWeights {F : Type} (s : VSet F) : Bool := s.dangling || (s.part .weights).isSome

@[inherit_doc hasDataWeights]
def dataWeights {F : Type} (s : VSet F) : Res (List Nat) :=
  if s.dangling then .ub else match s.part .weights with | none => .ub | some w => .ok w

/-- Adjusting to one part in `verifyShape`. -/
def verifyStep (p : Option (List Nat)) (s : List Nat × Bool) : Res (List Nat × Bool) :=
  match p with
  | none => .ok s
  | some vs => (adjust s.1 vs).bind fun r => .ok (r.1, s.2 || r.2)

/-- Adjusting to all parts in turn. -/
def verifyLoop : List (Option (List Nat)) → List Nat × Bool → Res (List Nat × Bool)
  | [], s => .ok s
  | p :: l, s => (verifyStep p s).bind (verifyLoop l)

/-- `verifyShape` (VellSet.cc:157-176) with `slots` the slots of the perturbed values in the order of the loops; all of
them are there. -/
def verifyShape {F : Type} (s : VSet F) (reset : Bool) (slots : List Slot) : Res (VSet F) :=
  if s.dangling then .ub
  else
    (verifyLoop ((Slot.value :: Slot.flags :: Slot.weights :: slots).map s.part) (if reset then [] else s.shape, false)).bind fun r =>
      if r.2 then setShape s r.1 else .ok s

/-! ## Failures -/

/-- `clear` (VellSet.cc:372-383): the record is emptied; the pointer to the weights is forgotten about. -/
def clear {F : Type} (s : VSet F) : VSet F :=
  ⟨[], fun _ => none, s.dangling || (s.part .weights).isSome, false, none⟩

/-- What is added by `addFail`: a failure or a list of failures. -/
inductive FailObj (F : Type) where
  | one (f : F)
  | many (l : List F)

/-- `addFail` (VellSet.cc:589-621). -/
def addFail {F : Type} (s : VSet F) (f : FailObj F) : VSet F :=
  let s := { clear s with isFail := true }
  match s.fails with
  | none => match f with
    | .many l => { s with fails := some l }
    | .one x => { s with fails := some [x] }
  | some fs => match f with
    | .many l => { s with fails := some (fs ++ l) }
    | .one x => { s with fails := some (fs ++ [x]) }

/-- `numFails`, `getFail` (VellSet.cc:624-633): all that is reported. -/
def reported {F : Type} (s : VSet F) : List F := s.fails.getD []

end Verif.VellSet
