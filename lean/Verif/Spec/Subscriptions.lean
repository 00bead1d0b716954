import Verif.Spec.Hiid
/-!
# What a history of subscription calls means

Independent of the model of `Subscriptions`: the set of (id pattern, scope) pairs in force after a
history of calls, and the messages such a set accepts.
-/
namespace Verif.SubsSpec
open HiidSpec

/-- Two patterns have a common concrete identifier. -/
def Overlap (p q : List Int) : Prop := ∃ c, Concrete c ∧ Denotes p c ∧ Denotes q c

/-- Every concrete identifier of `p` is one of `q`. -/
def Included (p q : List Int) : Prop := ∀ c, Concrete c → Denotes p c → Denotes q c

/-- Histories of API calls. -/
inductive History where
  | new
  | subscribe (h : History) (id scope : List Int)
  | unsubscribe (h : History) (id : List Int)
  | clear (h : History)
  | merge (h other : History)

/-- The pairs subscribed to after a history: subscribing adds one pair, unsubscribing from `id`
removes all pairs whose pattern is included in `id`, merging adds those of the other set. -/
def InForce : History → List Int → List Int → Prop
  | .new, _, _ => False
  | .subscribe h id scope, m, s => (m = id ∧ s = scope) ∨ InForce h m s
  | .unsubscribe h id, m, s => InForce h m s ∧ ¬ Included m id
  | .clear _, _, _ => False
  | .merge h o, m, s => InForce h m s ∨ InForce o m s

/-- A message is accepted if one subscription in force covers both its id and its sender. -/
def Accepts (h : History) (msgId sender : List Int) : Prop :=
  ∃ m s, InForce h m s ∧ Overlap msgId m ∧ Overlap sender s

/-- All ids occurring in a history consist of 32-bit components. -/
def Ints : History → Prop
  | .new => True
  | .subscribe h id scope => Ints h ∧ (∀ a ∈ id, -(2 ^ 31 : Int) ≤ a ∧ a < 2 ^ 31) ∧
      (∀ a ∈ scope, -(2 ^ 31 : Int) ≤ a ∧ a < 2 ^ 31)
  | .unsubscribe h _ => Ints h
  | .clear h => Ints h
  | .merge h o => Ints h ∧ Ints o

end Verif.SubsSpec
