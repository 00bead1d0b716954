import Verif.Model.GatewayWire
/-! # Specification of the connection between two processes (C90-C92) -/
namespace Verif.Gateway

/-- The bytes between fields are where the compiler leaves them. -/
def PadsOk (pads : Nat → Pads) : Prop := ∀ n, (pads n).h.length = 4 ∧ (pads n).t1.length = 4 ∧ (pads n).t2.length = 4

/-- Messages that can be sent: at least one block, and no block above the limit. -/
def Fits (m : List Bytes) : Prop := m ≠ [] ∧ m.length < 2 ^ 31 ∧ ∀ b ∈ m, (b.length : Int) ≤ maxBlock

/-- Junk without the first letter of the signature. -/
def Quiet (j : Bytes) : Prop := ∀ c ∈ j, c ≠ 111

/-- What passes through a connection: each message after some junk. -/
def wire (pads : Nat → Pads) : Nat → List (Bytes × List Bytes) → Bytes
  | _, [] => []
  | seq, (j, m) :: r => j ++ (transmit pads m.length seq m ++ wire pads (seq + m.length) r)

/-- Messages without junk. -/
def plain (msgs : List (List Bytes)) : List (Bytes × List Bytes) := msgs.map fun m => ([], m)

/-- Everything has been read, and all threads are waiting for more. -/
def AllRead (s : Rd) : Prop := s.rest = [] ∧ ∀ i, s.ph i = .wait

/-- A header that starts like a signature and is not that of a data packet. -/
def Hangs (h : Bytes) : Prop := h.length = 16 ∧ h.head? = some 111 ∧ ¬ (h.take 3 = sig ∧ h.getD 3 0 = 1)

end Verif.Gateway
