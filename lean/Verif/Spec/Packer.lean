import Verif.Model.Packer
/-! # What the packers of containers need of the packers of their elements -/
namespace Verif.Packer
variable {A : Type}

/-- An element packer is faithful. -/
structure EPOk (E : EP A) : Prop where
  read : ∀ x, E.read (E.bytes x) = some x
  size : ∀ x, E.size x = (E.bytes x).length
  bin : E.bin ≠ 0 → ∀ x, (E.bytes x).length = E.bin

end Verif.Packer
