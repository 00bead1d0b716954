import Verif.Model.MTPool
/-! # Specification of the worker pool (C36) -/
namespace Verif.MTPool

/-- The orders placed in a history, oldest first. -/
def placed (ops : List Op) : List WO := ops.filterMap fun op => match op with | .place w => some w | _ => none

/-- The history has no further thread joining. -/
def NoJoin (ops : List Op) : Prop := ∀ i d, Op.join i d ∉ ops

/-- The orders being executed at a depth. -/
def busyAt (p : Pool) (d : Nat) : Nat := (p.running.filter fun w => decide (w.depth = d)).length

end Verif.MTPool
