import Verif.Model.Assoc
import Verif.Model.Outcome
/-!
# The node repository (MEQ/src/Forest.cc)

A node is represented by its name (possibly empty).  Simplifications: construction of the node object and processing of
its init record either work or throw; memory exhaustion by a huge index is not modelled.
-/
namespace Verif.Forest

/-- `nodes`, `name_map`, `num_valid_nodes`, `num_init_errors` (Forest.h:319-349).  An invalid reference is `none`. -/
structure Forest where
  nodes : List (Option String)
  names : List (String × Nat)
  num : Int
  errs : Nat
  deriving DecidableEq, Repr

/-- A new forest: index 0 is never used (Forest.cc:61-64). -/
def init : Forest := ⟨[none], [], 0, 0⟩

/-- `clear` (Forest.cc:84-92). -/
def clear (s : Forest) : Forest := ⟨s.nodes.take 1, [], 0, 0⟩

/-- `nodes.resize(n)`. -/
def resize (l : List (Option String)) (n : Nat) : List (Option String) := l.take n ++ List.replicate (n - l.length) none

/-- The index a node is going to have, or an exception (Forest.cc:123-130). -/
def pickIndex (s : Forest) (idx : Int) : Option Nat :=
  if 0 < idx then
    (if idx < s.nodes.length ∧ (s.nodes.getD idx.toNat none).isSome then none else some idx.toNat)
  else some s.nodes.length

/-- Putting the node in (Forest.cc:151-160). -/
def insert (s : Forest) (name : String) (i : Nat) : Forest :=
  let l := if s.nodes.length ≤ i then resize s.nodes (i + 1) else s.nodes
  ⟨l.set i (some name), if name = "" then s.names else Assoc.set s.names name i, s.num + 1, s.errs⟩

/-- `create` (Forest.cc:96-162): `idx` is the index in the init record (-1 if none), `good` tells whether the class is a
node class and the init record is accepted.  Returns the index, or `none` for an exception. -/
def create (s : Forest) (name : String) (idx : Int) (good : Bool) : Forest × Option Nat :=
  if name ≠ "" ∧ (Assoc.find s.names name).isSome then ({ s with errs := s.errs + 1 }, none)
  else if good then
    match pickIndex s idx with
    | none => ({ s with errs := s.errs + 1 }, none)
    | some i => (insert s name i, some i)
  else ({ s with errs := s.errs + 1 }, none)

/-- The check and access shared by `get`, `getRef` and `remove` (Forest.cc:199-202,223-226). -/
def at_ (s : Forest) (i : Int) : Res String :=
  if i ≤ 0 ∨ (s.nodes.length : Int) < i then .err
  else
    match s.nodes[i.toNat]? with
    | none => .ub
    | some none => .err
    | some (some n) => .ok n

/-- `get` (Forest.cc:221-228). -/
def get (s : Forest) (i : Int) : Res String := at_ s i

/-- `valid` (Forest.cc:231-235). -/
def valid (s : Forest) (i : Int) : Bool :=
  decide (0 < i) && decide (i < s.nodes.length) && (s.nodes.getD i.toNat none).isSome

/-- The effect of `remove` on a valid node (Forest.cc:203-216). -/
def erase (s : Forest) (i : Nat) (name : String) : Forest :=
  let l := s.nodes.set i none
  ⟨if i = l.length - 1 then resize l i else l, if name = "" then s.names else Assoc.erase s.names name, s.num - 1, s.errs⟩

/-- `remove` (Forest.cc:197-218). -/
def remove (s : Forest) (i : Int) : Res Forest :=
  (at_ s i).bind fun name => .ok (erase s i.toNat name)

/-- `findIndex` (Forest.cc:238-242). -/
def findIndex (s : Forest) (name : String) : Int := ((Assoc.find s.names name).map fun i => (i : Int)).getD (-1)

/-- `findNode` (Forest.cc:245-256). -/
def findNode (s : Forest) (name : String) : Res String :=
  match Assoc.find s.names name with
  | none => .err
  | some i => at_ s i

/-- Calls on a forest. -/
inductive Op where
  | create (name : String) (idx : Int) (good : Bool)
  | remove (i : Int)
  | get (i : Int)
  | clear
  deriving DecidableEq, Repr

/-- One call: the forest afterwards (an exception leaves what was done before it), or undefined behaviour. -/
def step (s : Forest) : Op → Res Forest
  | .create name idx good => .ok (create s name idx good).1
  | .remove i =>
    match remove s i with
    | .ok s' => .ok s'
    | .err => .ok s
    | .ub => .ub
  | .get i => match get s i with | .ub => .ub | _ => .ok s
  | .clear => .ok (clear s)

/-- A history. -/
def runFrom (s : Forest) : List Op → Res Forest
  | [] => .ok s
  | op :: l => (step s op).bind fun s' => runFrom s' l

/-- A history of a new forest. -/
def run (ops : List Op) : Res Forest := runFrom init ops

end Verif.Forest
