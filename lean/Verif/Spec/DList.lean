import Verif.Model.DList
/-! Positions in a finite sequence, with negative numbers counting from the end. -/
namespace Verif.DList.Spec
variable {V : Type}

/-- The item number `n` denotes in a sequence of `len` items; `-1` is the last. -/
def pos (len : Nat) (n : Int) : Option Nat :=
  if 0 ≤ n ∧ n < len then some n.toNat else if n < 0 ∧ 0 ≤ len + n then some (len + n).toNat else none

/-- The gap number `n` denotes for an insertion; `-1` is after the last item. -/
def gap (len : Nat) (n : Int) : Option Nat :=
  if 0 ≤ n ∧ n ≤ len then some n.toNat else if n < 0 ∧ 0 ≤ len + 1 + n then some (len + 1 + n).toNat else none

/-- The effect of a call on a sequence, and whether it succeeds. -/
def step (l : List V) : Op V → List V × Bool
  | .put n v => match pos l.length n with | some k => (l.set k v, true) | none => (l, false)
  | .insert n v => match gap l.length n with | some k => (l.take k ++ v :: l.drop k, true) | none => (l, false)
  | .append o => (l ++ o, true)
  | .remove n => match pos l.length n with | some k => (l.take k ++ l.drop (k + 1), true) | none => (l, false)

end Verif.DList.Spec
