import Verif.Model.Slicer
import Verif.Spec.VellsReduce
/-! # Specification of slicing (C40) -/
namespace Verif.Slicer
open Verif.Vells

/-- The grid of slices: the axes along which the array is sliced collapsed. -/
def collapsed (shape axes : List Nat) : List Nat :=
  (List.range shape.length).map fun i => if i ∈ axes then 1 else ext shape i

/-- The point of the array that is at `j` within the slice at `base`. -/
def within (axes : List Nat) (base : Nat → Nat) (j : Nat → Nat) (i : Nat) : Nat :=
  if i ∈ axes then j (axes.idxOf i) else base i

/-- Offset of a point of a strided array. -/
def strided (strides : List Int) (j : Nat → Nat) : Int := ((List.range strides.length).map fun i => strides.getD i 0 * (j i : Int)).sum

/-- The point of an array at a point of a larger grid: its index is zero along axes where the array is constant. -/
def onto (s : List Nat) (idx : Nat → Nat) (i : Nat) : Nat := if ext s i = 1 then 0 else idx i

end Verif.Slicer
