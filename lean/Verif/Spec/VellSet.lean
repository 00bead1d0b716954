import Verif.Model.VellSet
import Verif.Spec.Vells
/-! # Specification of vellsets (C49, C50, C79) -/
namespace Verif.VellSet
open Verif.Vells

/-- What may be done to a vellset. -/
inductive Op (F : Type) where
  | set (slot : Slot) (shape : List Nat)
  | clr (slot : Slot)
  | fail (f : FailObj F)

/-- One operation: a request that is rejected leaves the vellset as it is. -/
def step {F : Type} (s : VSet F) : Op F → VSet F
  | .set slot shape => match setPart s slot shape with | .ok s' => s' | _ => s
  | .clr slot => clearPart s slot
  | .fail f => addFail s f

/-- A history. -/
def run {F : Type} (s : VSet F) (ops : List (Op F)) : VSet F := ops.foldl step s

/-- Shapes given are without empty axes. -/
def OpWf {F : Type} : Op F → Prop
  | .set _ shape => Positive shape
  | _ => True

/-- Shapes of the parts that are not scalars. -/
def Varies {F : Type} (s : VSet F) (slot : Slot) (vs : List Nat) : Prop := s.part slot = some vs ∧ size vs ≠ 1

/-- The shape is the merge of those of the parts: all parts fit it, and it fits whatever all parts fit. -/
def IsMerge {F : Type} (s : VSet F) : Prop :=
  (∀ slot vs, Varies s slot vs → Broadcasts vs s.shape) ∧
  ∀ c, (∀ slot vs, Varies s slot vs → Broadcasts vs c) → Broadcasts s.shape c

end Verif.VellSet
