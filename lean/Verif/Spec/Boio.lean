import Verif.Model.Boio
/-! # Which objects an object file can hold -/
namespace Verif.Boio
variable {O : Type}

/-- An object can be stored: a non-zero type id, at least one block, no empty block, sizes within range. -/
structure Storable (C : Codec O) (o : O) : Prop where
  tid : IsInt32 (C.tid o) ∧ C.tid o ≠ 0
  round : C.fromB (C.tid o) (C.toB o) = some o
  some_block : C.toB o ≠ []
  count : (C.toB o).length < 2 ^ 31
  nonempty : ∀ b ∈ C.toB o, b ≠ [] ∧ b.length < 2 ^ 64

end Verif.Boio
