import Verif.Model.SolveLoop
/-! # What C125 - C129 say, in terms of the world, the requests and the result -/
namespace Verif.SolveLoop
variable {S : Type}

/-- The children give an equation for subsolver `j` in iteration `k`. -/
def HasEq (w : World S) (j k : Nat) : Prop :=
  ∃ r ∈ (w.turn k).replies, r.skip = false ∧ ∃ v ∈ r.vells, v.1 = false ∧ j ∈ v.2

instance (w : World S) (j k : Nat) : Decidable (HasEq w j k) := by unfold HasEq; infer_instance

/-- The fit of subsolver `j` reported that it was ready before iteration `k`. -/
def Retired (w : World S) (j k : Nat) : Prop := ∃ k' < k, HasEq w j k' ∧ ((w.turn k').fit j).2 = true

instance (w : World S) (j k : Nat) : Decidable (Retired w j k) :=
  inferInstanceAs (Decidable (∃ k' < k, HasEq w j k' ∧ ((w.turn k').fit j).2 = true))

/-- The solution of subsolver `j` in iteration `k`: that of the fit if it has equations and was not ready before, else zero. -/
def solOf (zero : S) (w : World S) (j k : Nat) : S :=
  if HasEq w j k ∧ ¬ Retired w j k then ((w.turn k).fit j).1 else zero

/-- The row of solutions of iteration `k`. -/
def rowOf (zero : S) (w : World S) (n k : Nat) : List S := (List.range n).map fun j => solOf zero w j k

/-- How many of `n` subsolvers are done after iteration `k`: ready, or with no equations in it. -/
def doneAfter (w : World S) (n k : Nat) : Nat := (List.range n).countP fun j => decide (Retired w j (k + 1) ∨ ¬ HasEq w j k)

/-- `m` of `n` is at least the quota, or all. -/
def Enough (c : Cfg) (n m : Nat) : Prop := n * c.num ≤ m * c.den ∨ n ≤ m

/-- There is an equation for a subsolver that is still at work in iteration `k`. -/
def Work (w : World S) (n k : Nat) : Prop := ∃ j < n, HasEq w j k ∧ ¬ Retired w j k

/-- The sequence of requests: one discovery, evaluations, perhaps one update; numbered in order, each evaluation announcing the
number of the next. -/
structure Sequence (l : List (Req S)) : Prop where
  numbered : ∀ (i : Nat) r, l[i]? = some r → r.iter = i
  discover : ∀ (i : Nat) r, l[i]? = some r → (r.kind = .discover ↔ i = 0)
  eval : ∀ (i : Nat) r, l[i]? = some r → r.kind = .eval → r.next = some (i + 1)
  update : ∀ (i : Nat) r, l[i]? = some r → r.kind = .update → i + 1 = l.length

/-- The number of evaluations. -/
def evals (l : List (Req S)) : Nat := l.countP fun r => decide (r.kind = .eval)

/-- The updates the parameters are sent, in order. -/
def delivered (l : List (Req S)) : List (List S) := l.filterMap fun r => r.rider.map (·.sols)

/-- The interrupt flag, once raised, stays up. -/
structure IntrStable (w : World S) : Prop where
  fill : ∀ k, (w.turn k).intr = true → (w.turn k).intrFill = true
  next : ∀ k, (w.turn k).intrFill = true → (w.turn (k + 1)).intr = true
  last : ∀ k, (w.turn k).intr = true → w.intrEnd = true

/-- The interrupt flag is never raised. -/
def Undisturbed (w : World S) : Prop := (∀ k, (w.turn k).intr = false ∧ (w.turn k).intrFill = false) ∧ w.intrEnd = false

/-- The abort flag is raised in iteration `k`. -/
def AbortIn (w : World S) (k : Nat) : Prop :=
  (w.turn k).abort1 = true ∨ (w.turn k).abort2 = true ∨ ∃ r ∈ (w.turn k).replies, r.abort = true

/-- The abort flag is never raised. -/
def NoAbort (w : World S) : Prop := (∀ k, ¬ AbortIn w k) ∧ w.abortEnd = false ∧ w.abortLast = false

end Verif.SolveLoop

namespace Verif.SolveLoop
variable {S : Type}

/-- The abort flag, once raised, stays up. -/
structure AbortStable (w : World S) : Prop where
  turns : ∀ k, AbortIn w k → w.abortEnd = true
  last : w.abortEnd = true → w.abortLast = true

/-- The interrupt flag is not raised between the time the rider is filled and the next evaluation of the loop condition. -/
def Prompt (w : World S) : Prop := ∀ k, (w.turn (k + 1)).intr = true → (w.turn k).intrFill = true

/-- The world without the replies that are only a failure, missing data or a wait. -/
def withoutFailures (w : World S) : World S :=
  { w with turn := fun k => { w.turn k with replies := (w.turn k).replies.filter fun r => !r.skip || r.abort } }

/-- All children fail in iteration `k`. -/
def AllFail (w : World S) (k : Nat) : Prop := (w.turn k).replies ≠ [] ∧ ∀ r ∈ (w.turn k).replies, r.skip = true

/-- A request tells the parameters to save. -/
def Saves (r : Req S) : Prop := ∃ x, r.rider = some x ∧ x.save = true

end Verif.SolveLoop
