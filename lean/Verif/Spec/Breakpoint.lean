import Verif.Model.Breakpoint
/-! # Specification of breakpoints (C33) -/
namespace Verif.Breakpoint

/-- The event is a stop of node `n` at one of its own single-shot breakpoints. -/
def isSsStop (n : Nat) (e : Op × Stop) : Bool :=
  match e.1 with
  | .event m _ _ _ => decide (m = n) && e.2.localSs
  | _ => false

/-- The call sets single-shot breakpoints on node `n`. -/
def setsSs (n : Nat) : Op → Bool
  | .set m _ o => decide (m = n) && o
  | .state m _ ss => decide (m = n) && ss.isSome
  | _ => false

/-- The call sets global single-shot breakpoints. -/
def setsGlobalSs : Op → Bool
  | .gset _ o => o
  | _ => false

/-- The call may change node `n`'s persistent breakpoints. -/
def touchesBp (n : Nat) : Op → Bool
  | .set m _ o => decide (m = n) && !o
  | .clear m _ o => decide (m = n) && !o
  | .state m b _ => decide (m = n) && b.isSome
  | _ => false

end Verif.Breakpoint
