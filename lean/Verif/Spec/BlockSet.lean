import Verif.Model.BlockSet
/-! # What a family of block sets should do: plain queues -/
namespace Verif.BlockSetSpec
open BlockSet

/-- Replace one queue. -/
def put (q : Nat → List Bytes) (i : Nat) (l : List Bytes) : Nat → List Bytes := fun k => if k = i then l else q k

/-- Effect of a call on queues.  Requests to move more blocks than there are change nothing. -/
def act (q : Nat → List Bytes) : Op → (Nat → List Bytes)
  | .push i b => put q i (q i ++ [b])
  | .pushFront i b => put q i (b :: q i)
  | .pop i => put q i (q i).tail
  | .clear i => put q i []
  | .popMove i j n => if n ≤ (q i).length then put (put q i ((q i).drop n)) j (q j ++ (q i).take n) else q
  | .pushCopy i j => put q i (q i ++ q j)
  | .copyAll i j => put q j (q i)
  | _ => q

/-- Calls between two sets name two different ones, and nothing is flushed. -/
def Ordinary : Op → Prop
  | .popMove i j _ => i ≠ j
  | .pushCopy i j => i ≠ j
  | .copyAll i j => i ≠ j
  | .flush _ => False
  | _ => True

end Verif.BlockSetSpec
