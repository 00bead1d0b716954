import Verif.Model.Record
/-! What a record is supposed to be: a finite map from identifiers to a value and a protection flag. -/
namespace Verif.Record.Spec
variable {V : Type}

/-- The abstract record: for each identifier, no field, or a field with a value (or empty) and a flag. -/
abbrev Map (V : Type) := List Int → Option (Option V × Bool)

/-- Change one entry. -/
def upd (m : Map V) (id : List Int) (x : Option (Option V × Bool)) : Map V :=
  fun k => if k = id then x else m k

/-- Some field of `o` may not be written into `m`. -/
def Blocked (m o : Map V) : Prop := ∃ id v w, m id = some (v, true) ∧ o id = some w

/-- What the record shows of a field. -/
def fieldView (f : Field V) : Option V × Bool := ((match f.obj with | some v => some v | none => f.packed), f.prot)

/-- What a record shows. -/
def view (r : Rec V) : Map V := fun id => (Assoc.find r id).map fieldView

/-- The effect of a call: state before, state after, and whether it returned normally. -/
inductive Step : Map V → Op V → Map V → Bool → Prop
  | add_new {m id v fl} : id ≠ [] → m id = none → Step m (.add id v fl) (upd m id (some (v, fl.protect))) true
  | add_over {m id v fl x p} : id ≠ [] → m id = some (x, p) → (p = true → fl.honor = false) → fl.replace = true →
      Step m (.add id v fl) (upd m id (some (v, fl.protect))) true
  | add_null {m v fl} : Step m (.add [] v fl) m false
  | add_protected {m id v fl x} : m id = some (x, true) → fl.honor = true → Step m (.add id v fl) m false
  | add_exists {m id v fl x} : m id = some x → fl.replace = false → Step m (.add id v fl) m false
  | protect {m id p x q} : id ≠ [] → m id = some (x, q) → Step m (.protect id p) (upd m id (some (x, p))) true
  | protect_fail {m id p} : id = [] ∨ m id = none → Step m (.protect id p) m false
  | removeField {m id i h x q} : id ≠ [] → m id = some (x, q) → (q = true → h = false) →
      Step m (.removeField id i h) (upd m id none) true
  | removeField_none {m id h} : id ≠ [] → m id = none → Step m (.removeField id true h) m true
  | removeField_missing {m id h} : id = [] ∨ m id = none → Step m (.removeField id false h) m false
  | removeField_null {m i h} : Step m (.removeField [] i h) m false
  | removeField_protected {m id i x} : m id = some (x, true) → Step m (.removeField id i true) m false
  | remove {m id x} : id ≠ [] → m id = some (x, false) → Step m (.remove id) (upd m id none) true
  | remove_none {m id} : id ≠ [] → m id = none → Step m (.remove id) m true
  | remove_fail {m id x} : id = [] ∨ m id = some (x, true) → Step m (.remove id) m false
  | get {m id i} : Step m (.get id i) m (decide (id ≠ []) && (i || (m id).isSome))
  | clear {m} : Step m .clear (fun _ => none) true
  | merge_keep {m o} : Step m (.merge o false) (fun id => match m id with | some x => some x | none => view o id) true
  | merge_over {m o} : ¬ Blocked m (view o) →
      Step m (.merge o true) (fun id => match view o id with | some x => some x | none => m id) true
  | merge_fail {m o m'} : Blocked m (view o) → (∀ id, m' id = m id ∨ m' id = view o id ∧ (view o id).isSome) →
      (∀ id v, m id = some (v, true) → m' id = m id) → Step m (.merge o true) m' false
  | load {m id v} : Step m (.load id v) (upd m id (some (some v, false))) true

/-- The states a sequence of calls may lead to. -/
inductive Steps : Map V → List (Op V) → Map V → Prop
  | nil {m} : Steps m [] m
  | snoc {m ops m' o m'' b} : Steps m ops m' → Step m' o m'' b → Steps m (ops ++ [o]) m''

/-- The other record of a merge is a record: one field per identifier. -/
def OpOk : Op V → Prop
  | .merge o _ => (Assoc.keys o).Nodup
  | _ => True

end Verif.Record.Spec
