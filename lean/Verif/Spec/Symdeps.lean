import Verif.Model.Symdeps
/-!
# Specification of symbolic dependencies
-/
namespace Verif.Symdeps

/-- What was asked for: the active dependencies, a mask that replaces theirs, if any, and the dependencies that were given in records. -/
structure Want where
  active : List Nat
  fixed : Option Nat
  shown : List Nat

/-- A record with the fields `a` and `m`. -/
def Want.given (w : Want) (a : Option (List Nat)) (m : Option Nat) : Want :=
  match a, m with
  | some (d :: r), m => ⟨d :: r, m, d :: r⟩
  | _, some m => { w with fixed := some m }
  | _, none => w

/-- A refused record has no effect. -/
def Want.step (w : Want) : Op → Want
  | .state a m .well => w.given a m
  | .state _ _ _ => w
  | .python deps => ⟨deps, none, w.shown⟩

/-- The node depends on bit `b` of a request's id. -/
def Want.On (w : Want) (map : List (Nat × Nat)) (b : Nat) : Prop :=
  match w.fixed with
  | some m => m.testBit b = true
  | none => ∃ d ∈ w.active, ∃ m, map.lookup d = some m ∧ m.testBit b = true

/-- Where the code does what was asked for: from Python the list is not empty, and records are refused only if the node's dependencies are those of
its record and no mask was given. -/
def Want.fine (w : Want) : List Op → Prop
  | [] => True
  | o :: r => (match o with
      | .state _ _ .well => True
      | .state _ _ .untouched => True
      | .state _ _ _ => w.fixed = none ∧ w.shown = w.active
      | .python deps => deps ≠ []) ∧ (w.step o).fine r

end Verif.Symdeps
