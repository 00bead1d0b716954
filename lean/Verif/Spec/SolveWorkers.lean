import Verif.Model.SolveWorkers
/-! # What C131 - C133 say: schedules, one call, what each subsolver ends as -/
namespace Verif.SolveWorkers

variable {S X : Type}

/-- A state some schedule leads to. -/
def Reachable (zero : S) (N : Nat) (s : St S X) : Prop := ∃ fit acts, s = run zero (St.init N fit) acts

/-- Steps of the threads, with or without a reason to wake. -/
def Threads : Act S X → Prop
  | .main | .worker _ | .spurious _ | .spuriousMain => True
  | _ => False

/-- Steps of the threads that they make by themselves. -/
def Proper : Act S X → Prop
  | .main | .worker _ => True
  | _ => False

/-- The main thread, outside and with the workers running, makes a call, and after the steps `acts` is outside again, in `s'`. -/
structure Call (zero : S) (N : Nat) (s : St S X) (subs : List (SolveLoop.Sub S)) (fit : Nat → Except X (S × Bool)) (acts : List (Act S X)) (s' : St S X) : Prop where
  reach : Reachable zero N s
  outside : s.m = .idle
  running : s.stop = false
  threads : ∀ a ∈ acts, Threads a
  run : s' = run zero (step zero s (.call subs fit)) acts
  back : s'.m = .idle

/-- What one subsolver ends as and whether it counts as converged, by itself: nothing to do, or the fit. -/
def After (zero : S) (fit : Nat → Except X (S × Bool)) (j : Nat) (a b : SolveLoop.Sub S) (c : Bool) : Prop :=
  (a.converged = true ∨ a.neq = 0) ∧ b = ⟨a.converged, a.neq, zero⟩ ∧ c = true ∨
  (a.converged = false ∧ a.neq ≠ 0) ∧ ∃ x, fit j = .ok (x, c) ∧ b = ⟨c, 0, x⟩

/-- The fit of subsolver `j` is made, and throws `e`. -/
def Throws (fit : Nat → Except X (S × Bool)) (subs : List (SolveLoop.Sub S)) (j : Nat) (e : X) : Prop :=
  ∃ a, subs[j]? = some a ∧ a.converged = false ∧ a.neq ≠ 0 ∧ fit j = .error e

/-- A worker works on a subsolver, or holds the mutex. -/
def Busy (x : W X) : Prop := match x.pc with | .loop | .solving _ | .solved _ _ | .leaving => True | _ => False

/-- The subsolver a thread works on. -/
def WPc.on : WPc X → Option Nat
  | .solving j => some j
  | _ => none

/-- The subsolver the main thread works on. -/
def MPc.on : MPc X → Option Nat
  | .solving j => some j
  | _ => none

end Verif.SolveWorkers

namespace Verif.SolveWorkers
variable {S X : Type}

/-- Every step of the schedule changes something: no thread that has to wait is chosen. -/
def Effective (zero : S) : St S X → List (Act S X) → Prop
  | _, [] => True
  | s, a :: l => step zero s a ≠ s ∧ Effective zero (step zero s a) l

end Verif.SolveWorkers
