import Verif.Model.Names
/-!
# What symbolic names promise
-/
namespace Verif.NamesSpec
open Names

/-- The id and name of a registration. -/
def Op.id : Op → Int
  | .registrar k _ => k
  | .registerId k _ => k
def Op.name : Op → Bytes
  | .registrar _ v => v
  | .registerId _ v => v

/-- No name, compared without regard to case, is ever registered for two ids. -/
def Unambiguous (h : List Op) : Prop :=
  ∀ o1 ∈ h, ∀ o2 ∈ h, lower (Op.name o1) = lower (Op.name o2) → Op.id o1 = Op.id o2

/-- A component of an identifier: a symbolic or numeric atom, or a literal string. -/
inductive Item where
  | atom (a : Int)
  | lit (s : Bytes)

/-- How two components are joined: plainly, by a slash, or by a range sign. -/
inductive Join where
  | plain
  | slash
  | range

/-- The atoms of a component. -/
def Item.atoms : Item → List Int
  | .atom a => [a]
  | .lit s => makeLiteral s
/-- The atoms of a join. -/
def Join.atoms : Join → List Int
  | .plain => []
  | .slash => [-3]
  | .range => [-4]

/-- The identifier made of a first component and further joined components. -/
def ident (i : Item) (l : List (Join × Item)) : List Int :=
  i.atoms ++ l.flatMap fun p => p.1.atoms ++ p.2.atoms

/-- Components that have a faithful text: indices; ids whose registered name is not numeric, has none of
the separator characters, does not start with `$` and is registered for no other id; literal strings in
lower case without separator characters, shorter than 2^16. -/
def Item.Printable (r : Reg) : Item → Prop
  | .atom a => (0 ≤ a ∧ a < 0x7FFF0000) ∨
    (a < 0 ∧ ∃ n, look r.fwd a = some n ∧ look r.rev (lower n) = some a ∧
      n.all isDigit = false ∧ (∀ b ∈ n, b ≠ 46 ∧ b ≠ 95 ∧ b ≠ 47 ∧ b ≠ 58) ∧ n.head? ≠ some 36)
  | .lit s => lower s = s ∧ (∀ b ∈ s, b ≠ 46 ∧ b ≠ 95 ∧ b ≠ 47 ∧ b ≠ 58) ∧ s.length < 2 ^ 16

end Verif.NamesSpec
