import Verif.Model.AxisMap
/-!
# What names of axes are for
-/
namespace Verif.AxisMap

/-- Names and numbers go together: the axis called by the name of axis `n` is axis `n`, and the axes of time and frequency are those called so. -/
def Faithful (m : AMap) : Prop :=
  (∀ n < maxAxis, axis m (m.names n) = some n) ∧ m.names m.time = Nm.str "Time" ∧ m.names m.freq = Nm.str "Freq"

/-- The true names in a list are different from each other. -/
def Distinct (l : List Nm) : Prop := ∀ (i j : Nat) (s : String), l[i]? = some (Nm.str s) → l[j]? = some (Nm.str s) → i = j

/-- A domain whose axes are among the first `MaxAxis`, and whose ranges are not empty, as `defineAxis` makes them. -/
def Proper (d : Dom) : Prop := (∀ i, maxAxis ≤ i → d i = none) ∧ ∀ i a b, d i = some (a, b) → a < b

end Verif.AxisMap
