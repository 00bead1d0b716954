import Verif.Model.Parm
/-! # What C138 - C143 say: which values a parameter starts from, which updates count, what a table must hold -/
namespace Verif.Parm
variable {B : Type}

/-- Two domains have an area in common. -/
def Meet (a b : Dom) : Prop := a.x0 < b.x1 ∧ b.x0 < a.x1 ∧ a.y0 < b.y1 ∧ b.y0 < a.y1

/-- A domain lies inside another. -/
def Inside (b a : Dom) : Prop := a.x0 ≤ b.x0 ∧ b.x1 ≤ a.x1 ∧ a.y0 ≤ b.y0 ∧ b.y1 ≤ a.y1

/-- The entries of a table for a domain: all rows with coefficients whose domain has an area in common with it, in order. -/
structure Entries (t : Tab B) (d : Dom) (l : List (Nat × Dom × B)) : Prop where
  ordered : l.Pairwise fun a b => a.1 < b.1
  mem : ∀ (i : Nat) (e : Dom) (b : B), (i, e, b) ∈ l ↔ t.rows[i]? = some (e, some b) ∧ Meet e d

/-- The coefficients of what a parameter has: those of the funklet, or of the first part. -/
inductive Head : Funk B → B → Prop
  | single (f : F B) : Head (.single f) f.body
  | comp (f : F B) (l : List (F B)) : Head (.comp (f :: l)) f.body

/-- The settings allow starting from the coefficients the parameter has. -/
def MayUsePrevious (c : Cfg B) (s : St B) : Prop := 2 ≤ c.usePrevious ∨ (c.usePrevious = 1 ∧ s.conv = true)

/-- The table has nothing to start from: there is none, it is not to be used, or it has no entry. -/
def NoEntry (c : Cfg B) (t : Tab B) (d : Dom) : Prop := c.table = true → c.reset = true ∨ Entries t d []

/-- A funklet newly made for a domain. -/
def fresh (d : Dom) (b : B) : Funk B := .single ⟨some d, -1, false, b⟩

/-- What a parameter starts from for a domain: its entry of the table, or the first of several if it is solvable; all of several if it
is not; the default of the table; what it has, if that is allowed; the initial funklet; the default value. -/
inductive Start (c : Cfg B) (s : St B) (d : Dom) : Funk B → Prop
  | entry (i : Nat) (e : Dom) (b : B) (l : List (Nat × Dom × B)) : c.table = true → c.reset = false → Entries s.tab d ((i, e, b) :: l) →
      (c.solvable = true ∨ l = []) → Start c s d (.single ⟨some d, if e = d then i else -1, false, b⟩)
  | entries (l : List (Nat × Dom × B)) : c.table = true → c.reset = false → c.solvable = false → Entries s.tab d l → 2 ≤ l.length →
      Start c s d (.comp (l.map fun x => ⟨some x.2.1, x.1, false, x.2.2⟩))
  | tableDefault (b : B) : NoEntry c s.tab d → c.table = true → s.tab.default = some b → Start c s d (fresh d b)
  | previous (k : Funk B) (b : B) : NoEntry c s.tab d → (c.table = true → s.tab.default = none) → MayUsePrevious c s → s.fk = some k →
      Head k b → Start c s d (fresh d b)
  | init (b : B) : NoEntry c s.tab d → (c.table = true → s.tab.default = none) → (s.fk = none ∨ ¬ MayUsePrevious c s) → c.init = some b →
      Start c s d (fresh d b)
  | value : NoEntry c s.tab d → (c.table = true → s.tab.default = none) → (s.fk = none ∨ ¬ MayUsePrevious c s) → c.init = none →
      Start c s d (fresh d c.default)

/-- A parameter goes on with what it has: the request is for the same domain, or it has one funklet, without a domain or with one that
the domain of the request lies inside. -/
def Keeps (s : St B) (r : Req) : Prop :=
  (s.fk ≠ none ∧ r.domId ≠ none ∧ r.domId = s.domId) ∨
  ∃ f, s.fk = some (.single f) ∧ ∀ e, f.dom = some e → Inside r.dom e

/-- The parameter is being asked for values to solve with. -/
def Solving (c : Cfg B) (r : Req) : Prop := c.solvable = true ∧ r.solve = true

/-- A parameter at the beginning, with a table. -/
def begin (t : Tab B) : St B := ⟨false, none, none, none, t⟩

/-- It is not given a funklet through its state. -/
def NotSet (l : List (Act B)) : Prop := ∀ b, Act.setFunklet b ∉ l

/-- Part of solving for one domain: asking for values to solve with, for that domain, and commands other than clearing, with updates of
`n` values. -/
def InSolution (n : Nat) (D : Nat) : Act B → Prop
  | .eval r => r.solve = true ∧ r.domId = some D
  | .discover r => r.domId = some D
  | .command q cmd => q ≠ none ∧ match cmd with
    | .update _ incr _ clear => clear = false ∧ ∀ v, incr = some v → v.length = n
    | .save => True
    | .clear => False
    | .other => True
  | .setFunklet _ => False

/-- All updates in commands. -/
def updates : List (Act B) → List (List ℚ)
  | [] => []
  | .command _ (.update _ (some v) _ _) :: l => v :: updates l
  | _ :: l => updates l

/-- The updates in commands whose request differs from that of the command before, not counting the resolution; `last` is the request of
the command before the first. -/
def newUpdates : Option (Nat × Nat) → List (Act B) → List (List ℚ)
  | _, [] => []
  | last, .command q cmd :: l =>
    (if last.map (·.2) = q.map (·.2) ∧ q ≠ none then [] else match cmd with | .update _ (some v) _ _ => [v] | _ => []) ++ newUpdates q l
  | last, _ :: l => newUpdates last l

/-- The commands sent, with their requests. -/
def sent : List (Act B) → List (Option (Nat × Nat) × Cmd)
  | [] => []
  | .command q cmd :: l => (q, cmd) :: sent l
  | _ :: l => sent l

/-- The request of a command is another one than that of the last command, not counting the resolution. -/
def NewRequest (s : St B) (q : Option (Nat × Nat)) : Prop := ∀ a b, q = some a → s.rqAll = some b → a.2 ≠ b.2

/-- One row of a table has been written, and no other is changed. -/
def Wrote (t t' : Tab B) (i : Nat) (d : Dom) (b : B) : Prop :=
  t'.rows[i]? = some (d, some b) ∧ (∀ j, j ≠ i → t'.rows[j]? = t.rows[j]?) ∧ (∀ e, t.rows[i]?.map (·.1) = some e → e = d) ∧
  t'.default = t.default

/-- No row with coefficients but this one has an area in common with a domain. -/
def Alone (t : Tab B) (i : Nat) (d : Dom) : Prop := ∀ j e b, t.rows[j]? = some (e, some b) → Meet e d → j = i

/-- No command says that a solution has converged, and none is to save outright. -/
def NeverConverged (l : List (Act B)) : Prop := ∀ q cmd, Act.command q cmd ∈ l → cmd ≠ .save ∧ ∀ v s k, cmd ≠ .update true v s k

/-- Coefficients with an update, if there is one. -/
def Updated (o : Ops B) (b : B) (v : Option (List ℚ)) (b' : B) : Prop := (v = none ∧ b' = b) ∨ ∃ w, v = some w ∧ b' = o.upd b w

/-- When a command to update writes to the table: there is one, and either there is an update and all are to be saved, or it is asked for
and this or an earlier solution has converged, or that does not matter. -/
def Saves (c : Cfg B) (s : St B) (converged : Bool) (v : Option (List ℚ)) (asked : Bool) : Prop :=
  c.table = true ∧ ((v ≠ none ∧ c.autoSave = true) ∨ (asked = true ∧ (converged = true ∨ s.conv = true ∨ c.saveAll = true)))

/-- An update cannot be added: the parameter is not solvable, has no funklet, or the number of values is wrong. -/
def Refused (o : Ops B) (c : Cfg B) (s : St B) (v : List ℚ) : Prop :=
  c.solvable = false ∨ s.fk = none ∨ ∃ f, s.fk = some (.single f) ∧
    ((f.solv = true ∧ v.length ≠ o.size f.body) ∨ (f.solv = false ∧ v ≠ []))

end Verif.Parm
