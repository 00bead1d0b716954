import Verif.Model.CRef
/-!
# What counted references promise

`Refs`/`Obj`/`State` are the observable records (who points where, what exists, what it contains).
-/
namespace Verif.CRefSpec
open CRef

/-- Number of references pointing at target `t`. -/
def pointing (s : State) (t : Nat) : Nat := s.refs.countP (fun x => x.tgt = some t)

/-- A call whose arguments exist: references are constructed, and a target to be attached has not been
deleted. -/
def Valid (s : State) : Op → Prop
  | .newObj _ => True
  | .newRef => True
  | .attach r t _ => r < s.refs.length ∧ ∃ o, s.objs[t]? = some o ∧ o.alive = true
  | .copy r o _ => r < s.refs.length ∧ o < s.refs.length
  | .xfer r o _ => r < s.refs.length ∧ o < s.refs.length
  | .privatize r _ => r < s.refs.length
  | .change r _ => r < s.refs.length
  | .lock r _ => r < s.refs.length
  | .detach r => r < s.refs.length
  | .destroy r => r < s.refs.length
  | .write r _ => r < s.refs.length

/-- States reachable by valid calls. -/
inductive Reach : State → Prop
  | init : Reach ⟨[], []⟩
  | step {s s' : State} {o : Op} {ok : Bool} : Reach s → Valid s o → step s o = some (s', ok) → Reach s'

/-- Calls that neither deep-copy nor make an existing reference read-only. -/
def Plain : Op → Prop
  | .attach _ _ f => f.deep = false
  | .copy _ _ f => f.deep = false
  | .xfer _ _ f => f.deep = false
  | .privatize _ f => f.deep = false
  | .change _ f => f.readonly = false
  | _ => True

/-- States reachable by valid plain calls. -/
inductive ReachPlain : State → Prop
  | init : ReachPlain ⟨[], []⟩
  | step {s s' : State} {o : Op} {ok : Bool} :
    ReachPlain s → Valid s o → Plain o → step s o = some (s', ok) → ReachPlain s'

/-- The references a call is about. -/
def About : Op → Nat → Prop
  | .newObj _, _ => False
  | .newRef, _ => False
  | .attach r _ _, q => q = r
  | .copy r _ _, q => q = r
  | .xfer r o _, q => q = r ∨ q = o
  | .privatize r _, q => q = r
  | .change r _, q => q = r
  | .lock r _, q => q = r
  | .detach r, q => q = r
  | .destroy r, q => q = r
  | .write r _, q => q = r

/-- The flags a call passes for reference `q`. -/
def FlagsFor : Op → Nat → Flags → Prop
  | .attach r _ f, q, g => q = r ∧ g = f
  | .copy r _ f, q, g => q = r ∧ g = f
  | .xfer r _ f, q, g => q = r ∧ g = f
  | .privatize r f, q, g => q = r ∧ g = f
  | .change r f, q, g => q = r ∧ g = f
  | _, _, _ => False

/-- The reference a call copies or transfers into `q`. -/
def SourceFor : Op → Nat → Nat → Prop
  | .copy r o _, q, p => q = r ∧ p = o
  | .xfer r o _, q, p => q = r ∧ p = o
  | _, _, _ => False

end Verif.CRefSpec
