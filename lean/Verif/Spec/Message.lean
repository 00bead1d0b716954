import Verif.Model.Message
/-! # Which messages and payload classes the wire format is meant for -/
namespace Verif.Message
variable {P : Type}

/-- The payload's class converts faithfully: whatever follows its blocks is left alone. -/
structure PayloadOk (C : Payload P) : Prop where
  tid : ∀ p, IsInt32 (C.tid p) ∧ C.tid p ≠ 0
  round : ∀ p rest, C.fromB (C.tid p) (C.toB p ++ rest) = .ok (p, rest)

/-- The message's values fit their C++ types. -/
structure Fits (C : Payload P) (m : Msg P) : Prop where
  pri : IsInt32 m.priority
  state : IsInt32 m.state
  flags : IsInt32 m.flags
  hops : -(2 ^ 15 : Int) ≤ m.hops ∧ m.hops < 2 ^ 15
  id : (∀ a ∈ m.id, IsInt32 a) ∧ 4 * m.id.length < 2 ^ 31
  src : (∀ a ∈ m.src, IsInt32 a) ∧ 4 * m.src.length < 2 ^ 31
  dst : (∀ a ∈ m.dst, IsInt32 a) ∧ 4 * m.dst.length < 2 ^ 31
  blocks : ∀ p, m.payload = some p → (C.toB p).length < 2 ^ 31 - 2

end Verif.Message
