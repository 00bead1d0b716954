import Verif.Model.ReqNodes
import Verif.Spec.Nursery
import Verif.Spec.RequestId
/-! # Specification of request multiplexers and sequencers (C151–C156) -/
namespace Verif.ReqNodes

open Verif.RequestId Verif.Nursery

/-- Child `i` of a sequence whose request has the id `id` should get the id `x`: `i` added to each component in the mask. -/
def IdAt (mask : Nat) (id : List Int) (i : Nat) (x : List Int) : Prop :=
  ∀ k, comp x k = if k < 16 ∧ mask.testBit k = true then comp id k + i else comp id k

/-- A child reports what its replies depend on: requests that agree in the components it names get the same reply. -/
def Honest {R} (exe : Nat → List Int → Reply R) : Prop :=
  ∀ i (id id' : List Int), (∀ k, k < 16 → (exe i id).code.deps.testBit k = true → comp id' k = comp id k) → exe i id' = exe i id

/-- No child is aborted. -/
def NoAbort {R} (exe : Nat → Reply R) : Prop := ∀ i, (exe i).code.abort = false

/-- The default policies of both nodes (ReqMux.cc:40-41, ReqSeq.cc:46-47). -/
def Default (c : Cfg) : Prop := c.fp = .ignore ∧ c.mp = .ignore

/-- After this reply a sequence with these policies goes no further. -/
def ends (fp mp : Pol) (k : Code) : Bool := (k.fail && decide (fp ≠ .ignore)) || (k.missing && decide (mp ≠ .ignore))

end Verif.ReqNodes
