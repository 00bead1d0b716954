import Verif.Model.WSum
/-!
# What weighted sums and means are
-/
namespace Verif.WSum

/-- The last weights that were given, latest operation first. -/
def lastGiven : List Op → Option (List ℚ)
  | [] => none
  | .set (some w) :: _ => some w
  | .set none :: l => lastGiven l
  | .get _ :: l => lastGiven l

/-- The weight of child `i`: 1 if none were given, the one given if it is the only one, otherwise the `i`-th given, or 0 if there are not so many. -/
def weight (given : Option (List ℚ)) (i : Nat) : ℚ :=
  match given with
  | none => 1
  | some [] => 1
  | some [w] => w
  | some l => l.getD i 0

/-- Σ wᵢ vᵢ. -/
def weightedSum (given : Option (List ℚ)) (values : List ℚ) : ℚ :=
  ((List.range values.length).map fun i => weight given i * values.getD i 0).sum

/-- Σ wᵢ, over `n` children. -/
def totalWeight (given : Option (List ℚ)) (n : Nat) : ℚ := ((List.range n).map fun i => weight given i).sum

/-- Several weights were given. -/
def Several (given : Option (List ℚ)) : Prop := ∃ l, given = some l ∧ 1 < l.length

end Verif.WSum
