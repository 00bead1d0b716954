import Verif.Model.Serial
/-! What may be written, and what a faithful conversion of a class is. -/
namespace Verif.Serial.Spec
variable {L : Type}

/-- The other classes convert faithfully: reading takes exactly the blocks written, whatever follows, and
the first block begins with the type id, under which the class is registered. -/
structure LeafOk (C : Leaf L) (kind : Int → Option Kind) : Prop where
  round : ∀ x rest, C.fromB (C.toB x ++ rest) = .ok (x, rest)
  head : ∀ x, ∃ b bs, C.toB x = (encInt32 (C.tid x) ++ b) :: bs
  reg : ∀ x, IsInt32 (C.tid x) ∧ kind (C.tid x) = some .leaf

/-- The identifiers of the fields. -/
def ids : Fields L → List (List Int)
  | .nil => []
  | .empty id r => id :: ids r
  | .full id _ r => id :: ids r

/-- The number of items. -/
def count : Items L → Nat
  | .nil => 0
  | .empty r => count r + 1
  | .full _ r => count r + 1

mutual
/-- The object can be written: type ids are registered, one field per identifier, and every number in a
header fits an `int`. -/
def Ok (C : Leaf L) (kind : Int → Option Kind) : Obj L → Prop
  | .leaf _ => True
  | .record tid fs => IsInt32 tid ∧ kind tid = some .record ∧ (ids fs).Nodup ∧ (ids fs).length < 2 ^ 31
      ∧ (toBlocks C (.record tid fs)).length < 2 ^ 31 ∧ OkF C kind fs
  | .list tid is => IsInt32 tid ∧ kind tid = some .list ∧ count is < 2 ^ 31
      ∧ (toBlocks C (.list tid is)).length < 2 ^ 31 ∧ OkI C kind is
/-- The same for each field. -/
def OkF (C : Leaf L) (kind : Int → Option Kind) : Fields L → Prop
  | .nil => True
  | .empty id r => (4 * id.length < 2 ^ 31 ∧ ∀ a ∈ id, IsInt32 a) ∧ OkF C kind r
  | .full id o r => (4 * id.length < 2 ^ 31 ∧ ∀ a ∈ id, IsInt32 a) ∧ Ok C kind o ∧ OkF C kind r
/-- The same for each item. -/
def OkI (C : Leaf L) (kind : Int → Option Kind) : Items L → Prop
  | .nil => True
  | .empty r => OkI C kind r
  | .full o r => Ok C kind o ∧ OkI C kind r
end

end Verif.Serial.Spec
