import Verif.Model.Events
/-!
# Registrations in force

Only the types of calls (`TOp`, `IOp`, `SOp`) are shared with the model.  Histories are given latest
call last; these definitions look at the reversed list, so the head is the latest call.
-/
namespace Verif.EventsSpec
open Events (IOp SOp)

/-- Worker `wp` wants events of kind `b` (8 read, 9 write, 10 exception) on `fd`: some earlier
valid registration asked for it and no later removal withdrew it. -/
def Wanted : List IOp → Nat → Int → Nat → Prop
  | [], _, _, _ => False
  | .add w f fl :: past, wp, fd, b =>
    (0 ≤ f ∧ w = wp ∧ f = fd ∧ fl.getLsbD b = true) ∨ Wanted past wp fd b
  | .remove w f fl :: past, wp, fd, b =>
    Wanted past wp fd b ∧ ¬ (w = wp ∧ f = fd ∧ fl.getLsbD b = true)
  | .detach w :: past, wp, fd, b => Wanted past wp fd b ∧ w ≠ wp

/-- Worker `wp` handles signal `s`. -/
def Handles : List SOp → Nat → Nat → Prop
  | [], _, _ => False
  | .add w n _ :: past, wp, s => (w = wp ∧ n = s) ∨ Handles past wp s
  | .remove w n :: past, wp, s => Handles past wp s ∧ ¬ (w = wp ∧ (n = none ∨ n = some s))

end Verif.EventsSpec
