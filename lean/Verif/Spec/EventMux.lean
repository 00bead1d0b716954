import Verif.Model.EventMux

/-!
# Specification of channels of events
-/
namespace Verif.EventMux

variable {δ : Type}

/-- A message with this id is for the channel `i`, the first one that maps it, as the event `e`. -/
def Goes (maps : List (List Int → Option (List Int))) (id : List Int) (i : Nat) (e : List Int) : Prop :=
  (∃ f, maps[i]? = some f ∧ f id = some e) ∧ ∀ j f, j < i → maps[j]? = some f → f id = none

/-- No channel maps it. -/
def Unmapped (maps : List (List Int → Option (List Int))) (id : List Int) : Prop := ∀ f ∈ maps, f id = none

/-- The messages that arrive. -/
def arrivals : List (Op δ) → List (Msg δ)
  | [] => []
  | .arrive _ m :: os => m :: arrivals os
  | .get .. :: os => arrivals os

/-- No message arrives at the address of one that is in the queue. -/
def Fresh (maps : List (List Int → Option (List Int))) : Mux δ → List (Op δ) → Prop
  | _, [] => True
  | s, .arrive pos m :: os => m.addr ∉ s.queue.map Msg.addr ∧ Fresh maps (step maps s (.arrive pos m)).1 os
  | s, .get c k b :: os => Fresh maps (step maps s (.get c k b)).1 os

/-- A running multiplexer with nothing in its queue. -/
def init : Mux δ := ⟨true, [], none⟩

end Verif.EventMux
