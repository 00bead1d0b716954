import Verif.Model.Collect

/-!
# Specification of nodes that collect data, and of flags of events
-/
namespace Verif.Collect

variable {α ρ ν : Type}

/-- The items found since the history was last cleared. -/
def found (acc : List α) : List (HOp α) → List α
  | [] => acc
  | .result (some x) :: os => found (acc ++ [x]) os
  | .result none :: os => found acc os
  | .setMax _ :: os => found acc os
  | .clear :: os => found [] os
  | .reset :: os => found [] os

/-- The value of an item, if it is one. -/
def Item.val : Item ρ ν → Option ν
  | .value v => some v
  | .plot _ => none

/-- The entry shows all of a child's result: its only item, or the list of its items: first the plot record, then
the values that are not fails. -/
def Shown (c : ChildRes ρ ν) (e : Entry ρ ν) : Prop :=
  ∃ l, (∀ p, .plot p ∈ l ↔ c.plot = some p) ∧
    l.filterMap Item.val = c.vells.filterMap id ∧
    l.length = c.plot.toList.length + (c.vells.filterMap id).length ∧
    (∀ p, c.plot = some p → l.head? = some (.plot p)) ∧
    ((∃ x, l = [x] ∧ e = .one x) ∨ (l.length ≠ 1 ∧ e = .list l))

/-- Labels for the values of a plot record: its own, or empty ones. -/
def LabelsOf (p : Plot α ν) (ls : List String) : Prop :=
  ls.length = p.values.length ∧
    ((∃ s l, p.labels = some (s :: l) ∧ ls = s :: l) ∨
     ((p.labels = none ∨ p.labels = some []) ∧ ∀ s ∈ ls, s = ""))

/-- The record has labels. -/
def HasLabels (p : Plot α ν) : Prop := ∃ s l, p.labels = some (s :: l)

/-- The source was raised, and not cleared since; operations on sources that do not exist (yet) do not count. -/
def raised (n k : Nat) (b : Bool) : List FOp → Bool
  | [] => b
  | .add :: os => raised (if n < 32 then n + 1 else n) k b os
  | .raise m :: os => raised n k (b || decide (m = k ∧ k < n)) os
  | .clear m :: os => raised n k (b && !decide (m = k ∧ k < n)) os

end Verif.Collect
