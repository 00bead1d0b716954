import Verif.Model.Threads
/-! # Specification of locks (C174–C177) -/
namespace Verif.Threads

/-- The operation does not try a lock. -/
def NoTry : LOp → Prop
  | .make _ _ true => False
  | _ => True

/-- The operation is on lock object number less than `N`. -/
def On (N : Nat) : LOp → Prop
  | .make l _ _ | .copy l _ | .release l | .relock l _ | .lock l _ | .assign l _ => l < N

/-- The number of lock objects of a thread, among the first `N`, that point to a mutex. -/
def pointing (th : Nat → Nat) (s : Locks) (m t : Nat) : Nat → Nat
  | 0 => 0
  | N + 1 => pointing th s m t N + if s.obj N = some m ∧ th N = t then 1 else 0

/-- A state of a `SmartLock` that some schedule of threads `0, …, n-1` leads to, in which they do only certain things. -/
def ReachableBy (P : Act → Prop) (n : Nat) (s : SL) : Prop := ∃ l : List (Nat × Act), (∀ p ∈ l, P p.2) ∧ srun n SL.init l = some s

/-- A state that some schedule leads to. -/
def Reachable (n : Nat) (s : SL) : Prop := ReachableBy (fun _ => True) n s

/-- The thread is in a call and awake. -/
def Awake : Pc → Prop
  | .wantR | .wantW | .wantU => True
  | _ => False

/-- The thread is asleep. -/
def Asleep : Pc → Prop
  | .sleepR | .sleepW | .sleepU => True
  | _ => False

/-- Write locks are not downgraded. -/
def NoDowngrade : Act → Prop
  | .downgrade _ => False
  | _ => True

end Verif.Threads
