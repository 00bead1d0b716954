import Verif.Spec.Subscriptions
/-!
# Who should receive a message

Addresses have four fields: worker class, instance, process, host.  In a destination each field is
a concrete value or a wildcard (`-1` = "?", `-2` = "*"); a class of `-1060` means "publish".
-/
namespace Verif.DispSpec
open SubsSpec

/-- A destination field covers an actual (concrete) value. -/
def Field (pattern actual : Int) : Prop := pattern = -1 ∨ pattern = -2 ∨ pattern = actual

/-- The worker `(cls, inst)` with subscription history `subs` on the given host and process is a
recipient of a message sent to `(toCls, toInst, toProc, toHost)`. -/
def Recipient (host proc cls inst : Int) (subs : History)
    (toCls toInst toProc toHost : Int) (msgId sender : List Int) : Prop :=
  Field toHost host ∧ Field toProc proc ∧
    ((Field toCls cls ∧ Field toInst inst) ∨ (toCls = -1060 ∧ Accepts subs msgId sender))

end Verif.DispSpec
