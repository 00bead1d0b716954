import Verif.Model.Nursery
/-! # Specification of polling (C34, C35, C70) -/
namespace Verif.Nursery

/-- The list up to and including the first element with property `p`. -/
def through {α : Type} (p : α → Bool) : List α → List α
  | [] => []
  | a :: l => if p a then [a] else a :: through p l

/-- After this outcome no further child is asked. -/
def endsPoll (fp mp : Pol) (c : Code) : Bool :=
  c.abort || (c.fail && decide (fp = .abandon)) || (!c.fail && c.missing && decide (mp = .abandon))

/-- The bits of a list of codes. -/
def anyCode (l : List Code) : Code := l.foldr Code.or Code.zero

/-- No event is possible, but the parent is waiting. -/
def Stuck (fp mp : Pol) (code : Nat → Code) (s : MT) : Prop := s.parent ≠ .finished ∧ ∀ e, mtStep fp mp code s e = none

/-- The poll order after a history of requests to change it, successful or not. -/
def orders (names : List (Option String)) (reqs : List (List String)) : List Nat :=
  reqs.foldl (fun po o => (setChildPollOrder names o po).1) (defaultOrder names.length)

/-- The state after a list of events, if they are possible. -/
def runEvs (fp mp : Pol) (code : Nat → Code) : MT → List Ev → Option MT
  | s, [] => some s
  | s, e :: l => (mtStep fp mp code s e).bind fun t => runEvs fp mp code t l

end Verif.Nursery
