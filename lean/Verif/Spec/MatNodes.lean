import Verif.Model.MatNodes
import Verif.Spec.Function
import Verif.Spec.Tensor
/-! # Specification of functions of tensors (C162–C165) -/
namespace Verif.MatNodes
open Verif.Func (Plane IdsWf PlaneWf pertVal)
open Verif.Tensor (TRes)

/-- The arguments of the function: the main value of each element of each child. -/
def mainArgs (ch : List (List (Plane V F))) : List (List (Option V)) := ch.map fun c => c.map (·.value)

/-- The arguments when parameter `s` is perturbed (set `k`): elements that depend on it have their perturbed value. -/
def pertArgs (s : Int) (k : Nat) (ch : List (List (Plane V F))) : List (List (Option V)) := ch.map fun c => c.map fun p => pertVal s k (some p)

/-- Some element of some child depends on the parameter. -/
def DependsT (ch : List (List (Plane V F))) (s : Int) : Prop := ∃ c ∈ ch, ∃ p ∈ c, s ∈ p.spids

/-- Element `j` of the result of a function `f` of tensors, which is `main` for the main values: its perturbed values are those of the function of perturbed arguments. -/
def ElemIs [Inhabited V] (f : List (List (Option V)) → Res (List V)) (n : Nat) (ch : List (List (Plane V F))) (main : List V) (j : Nat) (p : Plane V F) : Prop :=
  p.fail = none ∧ p.value = main[j]? ∧ IdsWf p.spids ∧ (∀ s, s ∈ p.spids ↔ DependsT ch s) ∧ (p.spids ≠ [] → p.npert = n) ∧
  ∀ (i : Nat) (s : Int), p.spids[i]? = some s → ∀ k < n,
    (∃ vs, f (pertArgs s k ch) = .ok vs ∧ p.pval i k = vs.getD j default) ∧
    ∀ c ∈ ch, ∀ q ∈ c, ∀ l : Nat, q.spids[l]? = some s → p.pert i k = q.pert l k

/-- Elements that depend on the same parameter perturb it by the same amount. -/
def AgreeT (n : Nat) (ch : List (List (Plane V F))) : Prop :=
  ∀ c ∈ ch, ∀ d ∈ ch, ∀ p ∈ c, ∀ q ∈ d, ∀ (i j : Nat) (s : Int), p.spids[i]? = some s → q.spids[j]? = some s → ∀ k < n, p.pert i k = q.pert j k

/-- `b` (by rows) is the inverse of `a`. -/
def Inverse [Field V] (a b : List V) : Prop :=
  ∃ a0 a1 a2 a3 b0 b1 b2 b3 : V, a = [a0, a1, a2, a3] ∧ b = [b0, b1, b2, b3] ∧
    a0 * b0 + a1 * b2 = 1 ∧ a0 * b1 + a1 * b3 = 0 ∧ a2 * b0 + a3 * b2 = 0 ∧ a2 * b1 + a3 * b3 = 1

/-- Determinant of a matrix given by rows. -/
def det [Field V] : List V → V
  | [a, b, c, d] => a * d - b * c
  | _ => 0

/-- Values of a matrix; an element without a value is zero. -/
def matMain [Field V] (ps : List (Plane V F)) : List V := ps.map fun p => p.value.getD 0

/-- The same with parameter `s` perturbed. -/
def matPert [Field V] (s : Int) (k : Nat) (ps : List (Plane V F)) : List V := ps.map fun p => (pertVal s k (some p)).getD 0

end Verif.MatNodes
