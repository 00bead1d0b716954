import Verif.Model.NodeCache
import Verif.Spec.RequestId
/-! # Specification of result caching (C31) -/
namespace Verif.NodeCache

open Verif.RequestId

/-- Polling without caches: the children's outcomes up to the first that stops the poll. -/
def freshPoll {R} (f : Nat → R × Code) (fp mp : Pol) : List Nat → List (Option (R × Code))
  | [] => []
  | c :: cs => if stops fp mp (f c).2 then some (f c) :: cs.map (fun _ => none) else some (f c) :: freshPoll f fp mp cs

/-- Evaluation of a node from scratch: no caches anywhere. -/
def eval {R} (F : Forest R) (id : List Int) : Nat → Nat → R × Code
  | 0, _ => (F.empty, Code.zero)
  | fuel + 1, n =>
    match (F.node n).rider id with
    | some e => (e, addType ⟨0, true, false, false⟩)
    | none =>
      if (F.node n).active then
        let o := combine F n id
          (freshPoll (eval F id fuel) (F.node n).failPol (F.node n).missPol (F.node n).children)
        (o.1, addType o.2)
      else (F.empty, addType Code.zero)

/-- The fresh outcome of a node. -/
def fresh {R} (F : Forest R) (id : List Int) (n : Nat) : R × Code := eval F id (n + 1) n

/-- Two ids agree on all components selected by the mask. -/
def SameOn (a b : List Int) (m : Nat) : Prop := ∀ i < 16, m.testBit i = true → comp a i = comp b i

/-- The dependencies a node reports for its own computation: the declared mask, what `getResult` returned, and the
request type unless it says otherwise. -/
def reported {R} (F : Forest R) (n : Nat) (c : Code) : Nat := (F.node n).own ||| c.deps ||| if c.ign then 0 else 1

/-- What is assumed of forests: children come first; the request types are different; every node's result depends only
on the components it reports; a result without derivatives is one with derivatives, stripped of them. -/
structure Honest {R} (F : Forest R) : Prop where
  children_lt : ∀ n c, c ∈ (F.node n).children → c < n
  types : F.tPu ≠ 0 ∧ F.tPu ≠ F.tEv ∧ F.tPu ≠ F.tE1 ∧ F.tPu ≠ F.tE2
  respect : ∀ n a b (cr : List (Option R)), SameOn a b (reported F n ((F.node n).get b cr).2) →
    (F.node n).get a cr = (F.node n).get b cr
  strips : ∀ n a b (cr : List (Option R)), evalMode F a = 0 → 0 < evalMode F b →
    (∀ i < 16, i ≠ 0 → (reported F n ((F.node n).get b cr).2).testBit i = true → comp a i = comp b i) →
    (F.node n).get a (cr.map (Option.map F.strip)) = (F.strip ((F.node n).get b cr).1, ((F.node n).get b cr).2)
  strip_empty : F.strip F.empty = F.empty
  strip_missing : F.strip F.missing = F.missing
  strip_failOf : ∀ l, F.strip (F.failOf l) = F.failOf (l.map F.strip)

/-- No rider ever fails. -/
def NoRiderFails {R} (F : Forest R) : Prop := ∀ n id, (F.node n).rider id = none

/-- No node claims independence of the request type. -/
def NoIgnoreType {R} (F : Forest R) : Prop := ∀ n id cr, ((F.node n).get id cr).2.ign = false

end Verif.NodeCache
