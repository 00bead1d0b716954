import Verif.Model.Config
/-!
# Specification of configurations
-/
namespace Verif.Config

/-- Bytes of a text. -/
def bytes (s : String) : List Nat := s.toList.map Char.toNat

/-- White space: blank, tab, and ends of lines and pages. -/
def Space (c : Nat) : Prop := c = 32 ∨ c = 9 ∨ c = 10 ∨ c = 11 ∨ c = 12 ∨ c = 13

/-- A line that is read in one piece. -/
def Line (l : List Nat) : Prop := 10 ∉ l ∧ 0 ∉ l ∧ l.length ≤ 1023

/-- A line that gives a name a value: a name, not starting with `#`, a blank and a value, with white space before either. -/
def Setting (l n v : List Nat) : Prop :=
  ∃ w u : List Nat, l = w ++ n ++ 32 :: (u ++ v) ∧ (∀ c ∈ w, Space c) ∧ (∀ c ∈ u, Space c) ∧ 32 ∉ n ∧
    (∃ c r, n = c :: r ∧ ¬ Space c ∧ c ≠ 35) ∧ ∀ c r, v = c :: r → ¬ Space c

/-- An argument `name=value`. -/
def Assignment (a n v : List Nat) : Prop := a = n ++ 61 :: v ∧ 61 ∉ n ∧ ∀ r, n ≠ 45 :: r

/-- The lines of a file; the last one may lack its end. -/
def IsText (f : List Nat) (ls : List (List Nat)) : Prop :=
  f = ls.flatMap (· ++ [10]) ∨ ∃ ls' l, ls = ls' ++ [l] ∧ l ≠ [] ∧ f = ls'.flatMap (· ++ [10]) ++ l

/-- The last element of a list that has something to say. -/
def Last {α β : Type} (R : α → β → Prop) (l : List α) (v : β) : Prop :=
  ∃ a x b, l = a ++ x :: b ∧ R x v ∧ ∀ y ∈ b, ∀ v', ¬ R y v'

/-- An entry that a file can hold. -/
def Plain (n v : List Nat) : Prop :=
  32 ∉ n ∧ 10 ∉ n ∧ 0 ∉ n ∧ (∃ c r, n = c :: r ∧ ¬ Space c ∧ c ≠ 35) ∧ 10 ∉ v ∧ 0 ∉ v ∧ (∀ c r, v = c :: r → ¬ Space c) ∧
    n.length + v.length + 1 ≤ 1023

/-- A configuration: names are different. -/
def Distinct (c : List (List Nat × List Nat)) : Prop := (c.map (·.1)).Nodup

/-- The file named on the command line: the last argument with that ending. -/
def LocalFile (args : List (List Nat)) (loc : List (List Nat)) : Prop :=
  (loc = [] ∧ ∀ a ∈ args, ∀ p, p ≠ [] → a ≠ p ++ bytes ".conf") ∨
  ∃ f, loc = [f] ∧ Last (fun a f => a = f ∧ ∃ p, p ≠ [] ∧ a = p ++ bytes ".conf") args f

/-- The files that are read, in order: `d` is the directory, `h` the host's name, `prog` the program's. -/
def Files (d h prog : List Nat) (loc : List (List Nat)) : List (List Nat) :=
  [d ++ bytes "/octopussy.conf", d ++ bytes "/" ++ h ++ bytes ".conf", d ++ bytes "/" ++ prog ++ bytes ".conf",
   bytes "octopussy.conf", h ++ bytes ".conf", prog ++ bytes ".conf"] ++ loc

/-- Something that may give a setting: a line of a file or an argument. -/
inductive Src where
  | line (l : List Nat)
  | arg (a : List Nat)

def Gives (n : List Nat) : Src → List Nat → Prop
  | .line l, v => Setting l n v
  | .arg a, v => Assignment a n v

end Verif.Config
