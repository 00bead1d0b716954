import Verif.Model.Vells
/-! # Specification of arrays with collapsed axes (C37, C38) -/
namespace Verif.Vells

/-- A shape broadcasts to another: it has no more axes, and along each axis it is constant or has the same extent. -/
def Broadcasts (s t : List Nat) : Prop := s.length ≤ t.length ∧ ∀ i, ext s i = 1 ∨ ext s i = ext t i

/-- No axis is empty. -/
def Positive (s : List Nat) : Prop := ∀ n ∈ s, 0 < n

/-- Position of a point in row-major order. -/
def position (s : List Nat) (idx : Nat → Nat) : Nat := (List.range s.length).foldl (fun p i => p * ext s i + idx i) 0

/-- The element of an array at a point of a larger grid: along axes where the array is constant the point's index does not
matter. -/
def Arr.at {α} (a : Arr α) (idx : Nat → Nat) : Option α :=
  a.data[position a.shape fun i => if ext a.shape i = 1 then 0 else idx i]?

/-- A point of a grid. -/
def Inside (s : List Nat) (idx : Nat → Nat) : Prop := ∀ i, idx i < ext s i

/-- A proper array. -/
def Arr.Wf {α} (a : Arr α) : Prop := Positive a.shape ∧ a.data.length = size a.shape

end Verif.Vells
