import Verif.Model.RequestId
/-! # Components of request ids -/
namespace Verif.RequestId

/-- Component `i` of a request id; missing components count as 0. -/
def comp (id : List Int) (i : Nat) : Int := id.getD i 0

/-- The mask of symbolic dependency `d`; 0 if it is unknown. -/
def maskOf (map : List (List Int × Nat)) (d : List Int) : Nat := (Assoc.find map d).getD 0

end Verif.RequestId
