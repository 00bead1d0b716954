import Mathlib.Algebra.Order.Ring.Rat
import Verif.Model.Outcome
/-!
# Names of axes (MEQ/src/Axis.cc, Axis.h), and domains as records (MEQ/src/Domain.cc)

The map between numbers and names of axes is global.  Locking, and the axis records other than their names, are left out.
-/
namespace Verif.AxisMap

/-- A name: empty, a number (a `HIID` of one index), or a true name. -/
inductive Nm where
  | empty
  | num (i : Nat)
  | str (s : String)
deriving DecidableEq, Repr

/-- `Axis::MaxAxis` (Axis.h:46). -/
def maxAxis : Nat := 8

/-- `_name_map`, `_num_map`, `TIME`, `FREQ`, `_default_mapping` (Axis.cc:37-43). -/
structure AMap where
  names : Nat → Nm
  nums : String → Option Nat
  time : Nat
  freq : Nat
  dflt : Bool

/-- `defineAxis` (Axis.cc:55-108); nothing if it throws.  A name that an axis had before is not taken out of `_num_map`, nor from another axis. -/
def define (m : AMap) (i : Nat) : Nm → Option AMap
  | .empty => some m
  | .num k => if k ≠ i then none else some m
  | .str s =>
    some ⟨fun j => if j = i then .str s else m.names j, fun t => if t = s then some i else m.nums t,
      if s ≠ "Freq" ∧ s = "Time" then i else m.time, if s = "Freq" then i else m.freq, m.dflt⟩

/-- Axes from number `i` on are named, up to the first exception: the map by then, and whether all went well. -/
def defineFrom (m : AMap) : Nat → List Nm → AMap × Bool
  | _, [] => (m, true)
  | i, nm :: l => match define m i nm with | some m' => defineFrom m' (i + 1) l | none => (m, false)

/-- `_default_mapping = false`, if that is got to. -/
def notDefault (r : AMap × Bool) : AMap × Bool := if r.2 then ({ r.1 with dflt := false }, true) else r

/-- `setAxisMap` for a `DMI::Vec` of names (Axis.cc:131-140). -/
def setVec (m : AMap) (l : List Nm) : AMap × Bool :=
  if maxAxis < l.length then (m, false) else notDefault (defineFrom m 0 l)

/-- `setAxisMap` for iterators (Axis.cc:111-129): too many names are found out only when `MaxAxis` have been used.  The axes left over are "named" by their
number, which changes nothing (Axis.cc:76-81). -/
def setIter (m : AMap) (l : List Nm) : AMap × Bool :=
  let r := defineFrom m 0 (l.take maxAxis)
  if r.2 then
    if maxAxis < l.length then (r.1, false)
    else notDefault (defineFrom r.1 l.length ((List.range (maxAxis - l.length)).map fun j => .num (l.length + j)))
  else r

/-- `setAxisRecords` (Axis.cc:181-201): each record's name, or the number of the axis if it has none. -/
def setRecords (m : AMap) (l : List (Option Nm)) : AMap × Bool :=
  if maxAxis < l.length then (m, false)
  else notDefault (defineFrom m 0 ((List.range l.length).map fun i => (l.getD i none).getD (.num i)))

/-- `Axis::axis` (Axis.h:86-107); nothing if the name is not known. -/
def axis (m : AMap) : Nm → Option Nat
  | .num k => some k
  | .str s => m.nums s
  | .empty => none

/-- `addAxis` (Axis.cc:203-222): the first axis without a name gets it. -/
def addAxis (m : AMap) (nm : Nm) : AMap × Bool :=
  if (axis m nm).isSome then (m, true)
  else
    match (List.range maxAxis).find? fun i => decide (m.names i = .num i) with
    | none => (m, false)
    | some i => match define m i nm with | some m' => ({ m' with dflt := false }, true) | none => (m, false)

/-- `resetDefaultMap` (Axis.cc:225-243). -/
def reset (m : AMap) : AMap :=
  let m0 : AMap := ⟨fun i => .num i, fun _ => none, m.time, m.freq, m.dflt⟩
  { (setIter m0 [.str "Time", .str "Freq", .str "L", .str "M"]).1 with dflt := true }

/-- The map at the beginning (Axis.h:67-77, Axis.cc:37-38). -/
def AMap.init : AMap := reset ⟨fun _ => .empty, fun _ => none, 0, 1, true⟩

/-! ## Domains -/

/-- `range_` and `defined_` of a domain (Domain.h). -/
abbrev Dom : Type := Nat → Option (ℚ × ℚ)

/-- A domain's record: the fields that are not the axis map, in order, and the axis map. -/
structure Rec where
  fields : List (Nm × (ℚ × ℚ))
  map : Option (List Nm)

/-- `addField` with `REPLACE`. -/
def addField (fs : List (Nm × (ℚ × ℚ))) (nm : Nm) (r : ℚ × ℚ) : List (Nm × (ℚ × ℚ)) := fs.filter (fun f => decide (f.1 ≠ nm)) ++ [(nm, r)]

/-- The record that a domain has after `defineAxis` for each of its axes (Domain.cc:63-85): fields are named by the names of the axes, and the names of all axes
are added unless they are the default ones. -/
def toRec (m : AMap) (d : Dom) : Rec :=
  ⟨(List.range maxAxis).foldl (fun fs i => match d i with | some r => addField fs (m.names i) r | none => fs) [],
    if m.dflt then none else some ((List.range maxAxis).map m.names)⟩

/-- The loop of `validateContent` (Domain.cc:139-159).  A field named by a number is used for the axis of that number, which is not compared to `MaxAxis`. -/
def readFields (m : AMap) : List (Nm × (ℚ × ℚ)) → Dom → Res Dom
  | [], d => .ok d
  | (nm, r) :: l, d =>
    match axis m nm with
    | none => .err
    | some i =>
      if r.2 ≤ r.1 then .err
      else if maxAxis ≤ i then .ub
      else readFields m l fun j => if j = i then some r else d j

/-- `validateContent` (Domain.cc:119-182): the names of axes in the record become everybody's. -/
def fromRec (m : AMap) (r : Rec) : AMap × Res Dom :=
  match r.map with
  | none => (m, readFields m r.fields fun _ => none)
  | some l => let s := setVec m l; (s.1, if s.2 then readFields s.1 r.fields fun _ => none else .err)

/-! ## Histories -/

/-- What may happen to the map. -/
inductive Op where
  | setVec (l : List Nm)
  | setIter (l : List Nm)
  | setRecords (l : List (Option Nm))
  | addAxis (nm : Nm)
  | reset
deriving DecidableEq, Repr

/-- What comes of it. -/
def apply (m : AMap) : Op → AMap
  | .setVec l => (setVec m l).1
  | .setIter l => (setIter m l).1
  | .setRecords l => (setRecords m l).1
  | .addAxis nm => (addAxis m nm).1
  | .reset => reset m

/-- Operations one after the other, the last first. -/
def after : List Op → AMap
  | [] => .init
  | o :: l => apply (after l) o

end Verif.AxisMap
