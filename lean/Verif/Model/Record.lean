import Verif.Model.Assoc
import Verif.Model.Hiid
import Verif.Model.Outcome
/-!
# Records (DMI/src/Record.h, Record.cc)

A record maps identifiers to fields; a field holds an object, or the packed form of one (a block set),
and a protection flag.  Objects are elements of an arbitrary type `V`; the packed form is represented by
the object it unpacks to (that packing and unpacking are inverse is C15).  The mutex is not modelled.
The order of `hash_map` iteration is the order of the list.
-/
namespace Verif.Record
open Assoc
variable {V : Type}

/-- `Record::Field` (Record.h:63-148): `ref_`, `bset_`, `protected_`. -/
structure Field (V : Type) where
  obj : Option V
  packed : Option V
  prot : Bool
  deriving DecidableEq, Repr

/-- The record's map (Record.h:152). -/
abbrev Rec (V : Type) := List (List Int × Field V)

/-- Flags of `addField` (DMI.h, Record.h:159-171). -/
structure Flags where
  replace : Bool := false
  protect : Bool := false
  honor : Bool := true

/-- `Field::makeObject` (Record.cc:117-128): drops the object held, then unpacks if there is a packed form. -/
def makeObject (f : Field V) : Field V :=
  match f.packed with
  | none => ⟨none, none, f.prot⟩
  | some v => ⟨some v, none, f.prot⟩

/-- `Field::ref` (Record.h:112-126). -/
def Field.ref (f : Field V) : Option V × Field V :=
  match f.obj with
  | some v => (some v, f)
  | none => ((makeObject f).obj, makeObject f)

/-- `Field::xfer` (Record.h:129-134): what the caller gets. -/
def Field.xfer (f : Field V) : Option V := (makeObject f).obj

/-- `Field::attach` (Record.cc:78-86). -/
def Field.attach (v : Option V) (fl : Flags) : Field V := ⟨v, none, fl.protect⟩

/-- `Record::addField` (Record.cc:159-179), behind `add`, `insert`, `replace` (Record.h:507-514). -/
def addField (r : Rec V) (id : List Int) (v : Option V) (fl : Flags) : Option (Rec V) :=
  if id = [] then none
  else
    match find r id with
    | none => some (set r id (Field.attach v fl))
    | some f =>
      if f.prot && fl.honor then none
      else if !fl.replace then none
      else some (set r id (Field.attach v fl))

/-- `Record::protectField` (Record.cc:181-189). -/
def protectField (r : Rec V) (id : List Int) (p : Bool) : Option (Rec V) :=
  if id = [] then none
  else
    match find r id with
    | none => none
    | some f => some (set r id ⟨f.obj, f.packed, p⟩)

/-- `Record::removeField` (Record.cc:192-209): the reference returned and the record left. -/
def removeField (r : Rec V) (id : List Int) (ignoreFail honor : Bool) : Option (Option V × Rec V) :=
  if id = [] then none
  else
    match find r id with
    | some f => if f.prot && honor then none else some (f.xfer, erase r id)
    | none => if ignoreFail then some (none, r) else none

/-- `Record::remove` (Record.cc:397-412), used by container access. -/
def remove (r : Rec V) (id : List Int) : Option (Bool × Rec V) :=
  if id = [] then none
  else
    match find r id with
    | some f => if f.prot then none else some (true, erase r id)
    | none => some (false, r)

/-- `Record::get` (Record.cc:212-223): the reference returned, and the record left (unpacking is cached). -/
def get (r : Rec V) (id : List Int) (ignoreFail : Bool) : Option (Option V × Rec V) :=
  if id = [] then none
  else
    match find r id with
    | none => if ignoreFail then some (none, r) else none
    | some f => some (f.ref.1, set r id f.ref.2)

/-- Loop of `Record::merge` (Record.cc:141-154) over the other record's fields; `err` carries the record
as the exception leaves it. -/
def mergeLoop (overwrite : Bool) : Rec V → Rec V → Except (Rec V) (Rec V)
  | [], r => .ok r
  | (id, g) :: rest, r =>
    match find r id with
    | none => mergeLoop overwrite rest (set r id g)
    | some f =>
      if overwrite && f.prot then .error r
      else if overwrite then mergeLoop overwrite rest (set r id g)
      else mergeLoop overwrite rest r

/-- `Record::merge` of another record (Record.cc:132-156). -/
def merge (r other : Rec V) (overwrite : Bool) : Except (Rec V) (Rec V) := mergeLoop overwrite other r

/-- `Record::cloneOther` (Record.cc:320-329), behind the copy constructor and assignment. -/
def clone (other : Rec V) : Rec V := other.foldl (fun r p => set r p.1 p.2) []

/-- Container access by identifier (Record.cc:332-365), reading or writing: `ok none` is "no such field". -/
def getInfo (r : Rec V) (id : List Int) (writing : Bool) : Res (Option (Option V)) :=
  match id with
  | [] => .err
  | id =>
    match id with
    | [h, n] =>
      if h = Hiid.aidHash ∧ Hiid.index n ≥ 0 then
        if n = r.length then .ok none
        else if n > r.length then .err
        else .ub
      else byName r id
    | _ => byName r id
where
  /-- The branch that looks the field up by name (Record.cc:351-364). -/
  byName (r : Rec V) (id : List Int) : Res (Option (Option V)) :=
    match find r id with
    | none => .ok none
    | some f => if writing && f.prot then .err else .ok (some f.ref.1)

/-- Calls on a record. -/
inductive Op (V : Type) where
  | add (id : List Int) (v : Option V) (fl : Flags)
  | protect (id : List Int) (p : Bool)
  | removeField (id : List Int) (ignoreFail honor : Bool)
  | remove (id : List Int)
  | get (id : List Int) (ignoreFail : Bool)
  | clear
  | merge (other : Rec V) (overwrite : Bool)
  | load (id : List Int) (packed : V)

/-- One call; the flag is `false` if an exception was thrown.  `load` is the part of `fromBlock` that adds
one field in packed form (Record.cc:255-265). -/
def step (r : Rec V) : Op V → Rec V × Bool
  | .add id v fl => match addField r id v fl with | some r' => (r', true) | none => (r, false)
  | .protect id p => match protectField r id p with | some r' => (r', true) | none => (r, false)
  | .removeField id i h => match Record.removeField r id i h with | some (_, r') => (r', true) | none => (r, false)
  | .remove id => match Record.remove r id with | some (_, r') => (r', true) | none => (r, false)
  | .get id i => match Record.get r id i with | some (_, r') => (r', true) | none => (r, false)
  | .clear => ([], true)
  | .merge o w => match Record.merge r o w with | .ok r' => (r', true) | .error r' => (r', false)
  | .load id v => (set r id ⟨none, some v, false⟩, true)

/-- A history from the empty record. -/
def run (ops : List (Op V)) : Rec V := ops.foldl (fun r o => (step r o).1) []

end Verif.Record
