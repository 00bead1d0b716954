import Verif.Model.Outcome
/-!
# Symbolic dependencies of nodes

`MEQ/src/SymdepMap.cc`, `MEQ/src/SymdepMap.h`, `MEQ/src/Node.cc` (`setDependMask`, the part of `setStateImpl` on dependencies, `setState`),
`MEQ/src/Node_init.cc` (`attachInitRecord`, `init`), `MeqServer/src/MeqPython.cc` (`set_node_active_symdeps`): on which parts of a request's id the
result of a node depends.

Simplifications: names of dependencies are numbers, 0 being the empty name; masks are natural numbers; of the state record only the fields `active_symdeps` and `depend_mask`
are kept; an empty list of dependencies in a record that is given is as if there were none; dependencies that classes set by themselves later on are left out.
-/
namespace Verif.Symdeps

/-- A node: `map_`, `active_set_` (SymdepMap.h), `depend_mask_` (Node.h:888) and the two fields of `staterec_`. -/
structure Node where
  map : List (Nat × Nat)
  active : List Nat
  mask : Nat
  recActive : Option (List Nat)
  recMask : Option Nat
deriving DecidableEq, Repr

/-- `getMask` (SymdepMap.cc:62-72). -/
def getMask (map : List (Nat × Nat)) : List Nat → Nat → Nat
  | [], mask => mask
  | d :: r, mask =>
    match map.lookup d with
    | some m => getMask map r (mask ||| m)
    | none => getMask map r mask

/-- `SymdepMap::set` of the forest's map (SymdepMap.cc:41-45): the first entry counts. -/
def setDep (map : List (Nat × Nat)) (d m : Nat) : List (Nat × Nat) := (d, m) :: map

/-- `setActiveSymDeps` (Node.h:634-641, SymdepMap.cc:76-81) and `setDependMask` (Node.cc:171-177), once there is a state record. -/
def setActive (n : Node) (deps : List Nat) : Node :=
  let m := getMask n.map deps 0
  { n with active := deps, mask := m, recMask := some m }

/-- The constructor, which may set dependencies while there is neither a map nor a record, and `attachInitRecord` (Node_init.cc:218-225,
SymdepMap.cc:55-59). -/
def attach (cls : List Nat) (map : List (Nat × Nat)) (a : Option (List Nat)) (m : Option Nat) : Node :=
  ⟨map, cls, getMask map cls 0, a.filter (fun l => !l.isEmpty), m⟩

/-- `setStateImpl` with the node's own record (Node.cc:315-327, `initializing`): what the record lacks is put into it. An empty vector of names is
stored as a vector of one empty name (NC-Hooks-Templ.h:83-89, Container.cc:904-918, Vec.cc:117). -/
def applyOwn (n : Node) : Node :=
  let n := match n.recActive with
    | some a => setActive n a
    | none => { n with recActive := some (if n.active = [] then [0] else n.active) }
  match n.recMask with
  | some m => { n with mask := m }
  | none => { n with recMask := some n.mask }

/-- `setStateImpl` with another record (Node.cc:315-327). -/
def applyOther (n : Node) (a : Option (List Nat)) (m : Option Nat) : Node :=
  let n := match a with
    | some (d :: r) => setActive n (d :: r)
    | _ => n
  match m with
  | some m => { n with mask := m }
  | none => n

/-- How `setStateImpl` ends: well, before it did anything and says so, with an error before dependencies were looked at, or after. -/
inductive Ends where
  | well | untouched | before | after
deriving DecidableEq, Repr

/-- `setState` (Node.cc:368-407). -/
def setState (n : Node) (a : Option (List Nat)) (m : Option Nat) : Ends → Node
  | .well =>
    let n := applyOther n a m
    { n with
      recActive := match a with
        | some (d :: r) => some (d :: r)
        | _ => n.recActive
      recMask := match m with
        | some m => some m
        | none => n.recMask }
  | .untouched => n
  | .before => applyOwn n
  | .after => applyOwn (applyOther n a m)

/-- What happens to a node. -/
inductive Op where
  /-- `setState` -/
  | state (a : Option (List Nat)) (m : Option Nat) (e : Ends)
  /-- `set_node_active_symdeps` (MeqPython.cc:203-236) -/
  | python (deps : List Nat)
deriving DecidableEq, Repr

/-- One event; a list without dependencies has no first one (SymdepMap.h:97). -/
def step (n : Node) : Op → Res Node
  | .state a m e => .ok (setState n a m e)
  | .python deps => if deps = [] then .ub else .ok (setActive n deps)

def run (n : Node) : List Op → Res Node
  | [] => .ok n
  | o :: r => do
    let n ← step n o
    run n r

/-- A node from its creation on. -/
def life (cls : List Nat) (map : List (Nat × Nat)) (a : Option (List Nat)) (m : Option Nat) (ops : List Op) : Res Node :=
  run (applyOwn (attach cls map a m)) ops

end Verif.Symdeps
