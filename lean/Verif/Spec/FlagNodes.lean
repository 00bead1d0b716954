import Verif.Model.FlagNodes
import Verif.Spec.Vells
/-! # Specification of flags (C144-C150) -/
namespace Verif.FlagNodes
open Verif.Vells

/-- The flag of a point: none set if there is no array. -/
def flagAt (o : Option (Arr Flag)) (idx : Nat → Nat) : Flag :=
  match o with
  | none => 0
  | some a => (a.at idx).getD 0

/-- Bit `b` is set in a flag. -/
def Has (f : Flag) (b : Nat) : Prop := f.getLsbD b = true

instance (f : Flag) (b : Nat) : Decidable (Has f b) := inferInstanceAs (Decidable (_ = true))

/-- Bit `b` is set at a point in flags seen through a mask. -/
def Sees (o : Option (Arr Flag)) (m : Flag) (idx : Nat → Nat) (b : Nat) : Prop := Has (flagAt o idx) b ∧ Has m b

/-- Flags, if there are any, are a proper array that broadcasts to the grid. -/
def OnGrid (G : List Nat) (o : Option (Arr Flag)) : Prop := ∀ a, o = some a → a.Wf ∧ Broadcasts a.shape G

/-- A point of a child is flagged: a bit of the mask is set there. -/
def Flagged (o : Option (Arr Flag)) (m : Flag) (idx : Nat → Nat) : Prop := ∃ b, Sees o m idx b

/-- How the flags of a further child reach element `k` of the result of MergeFlags: by elements `j` of the child for which this
holds. -/
def Reaches (mergeAll : Bool) (dims0 dims1 : List Nat) (k j : Nat) : Prop :=
  mergeAll = true ∨ (dims0 = dims1 ∧ k = j) ∨ (dims0 ≠ dims1 ∧ (dims0 = [] ∨ dims1 = []))

/-- A result has as many elements as its dimensions say, or none. -/
def Shaped {V} (r : Result V) : Prop := r.vs = [] ∨ r.vs.length = r.dims.foldr (· * ·) 1

/-- The comparison with 0 named by the operation. -/
def Holds : Oper → ℚ → Prop
  | .eq, v => v = 0
  | .ne, v => v ≠ 0
  | .lt, v => v < 0
  | .gt, v => v > 0
  | .le, v => v ≤ 0
  | .ge, v => v ≥ 0
  | .other, _ => False

/-- What the flagger of zeros leaves as flags of an element with value `a` that had flags `old`: if some point satisfies the
comparison, the bits at exactly these points and no others, whatever was there before; otherwise no bits at all if output is
forced, and the old flags if not. -/
def ZeroOut (op : Oper) (bit : Flag) (force : Bool) (a : Arr ℚ) (old new : Option (Arr Flag)) : Prop :=
  ((∃ idx v, Inside a.shape idx ∧ a.at idx = some v ∧ Holds op v ∧ bit ≠ 0) →
    ∀ idx v, Inside a.shape idx → a.at idx = some v → ∀ b, Has (flagAt new idx) b ↔ Holds op v ∧ Has bit b) ∧
  ((∀ idx v, Inside a.shape idx → a.at idx = some v → Holds op v → bit = 0) →
    (force = true → new ≠ none ∧ ∀ idx b, ¬ Has (flagAt new idx) b) ∧ (force = false → new = old))

end Verif.FlagNodes
