import Verif.Model.VellsReduce
import Verif.Spec.Vells
/-! # Specification of reductions (C39, C72) -/
namespace Verif.Vells

/-- A point from the index along the first axis and the rest. -/
def consIdx (i : Nat) (idx : Nat → Nat) : Nat → Nat
  | 0 => i
  | k + 1 => idx k

/-- All points of a grid. -/
def points : List Nat → List (Nat → Nat)
  | [] => [fun _ => 0]
  | n :: s => (List.range n).flatMap fun i => (points s).map (consIdx i)

/-- Is the array flagged at a point? -/
def flaggedAt {φ} (hit : φ → Bool) (fl : Option (Arr φ)) (idx : Nat → Nat) : Bool :=
  match fl with
  | none => false
  | some f => match f.at idx with | some v => hit v | none => false

/-- The elements of the fully expanded array at its unflagged points, one per point of the grid. -/
def unflagged {α φ} (hit : φ → Bool) (x : Arr α) (fl : Option (Arr φ)) (shape : List Nat) : List α :=
  (points shape).filterMap fun idx => if flaggedAt hit fl idx then none else x.at idx

/-- An array with flags living on a grid. -/
def OnGrid {α φ} (x : Arr α) (fl : Option (Arr φ)) (shape : List Nat) : Prop :=
  x.Wf ∧ Positive shape ∧ Broadcasts x.shape shape ∧ ∀ f, fl = some f → f.Wf ∧ Broadcasts f.shape shape

end Verif.Vells
