import Verif.Model.Outcome
/-!
# Creation and initialisation of nodes

`MEQ/src/Node.cc` (constructor, labels), `MEQ/src/Node_init.cc`, `MEQ/src/NodeNursery.cc` (`init`, `setChild`), `MEQ/src/Forest.cc` (`create`,
`initAll`), `MeqServer/src/MeqServer.cc` (`createNodeBatch`): how nodes get their children.

Simplifications: a label is the list of the numbers of its atoms, non-negative if they are indices; of an init record only the name, the index, the
fields for children, stepchildren and parents and whether the settings are accepted are kept; indices fit into an `int`; the map from names to nodes
is a search of the nodes; `checkChildren`, which does nothing for all classes but one, is left out.
-/
namespace Verif.NodeInit

/-- What a class of nodes says of its children: the arguments of the constructor (Node.cc:46); no labels if the list is empty. -/
structure Cls where
  nchildren : Int
  labels : List (List Int)
  nmandatory : Int
deriving DecidableEq, Repr

/-- What the constructor keeps (Node.h:855-863); `max` is `none` if there is none. -/
structure Limits where
  min : Nat
  max : Option Nat
  labels : List (List Int)
deriving DecidableEq, Repr

/-- The constructor (Node.cc:55-82). -/
def limits (c : Cls) : Res Limits :=
  let n : Nat := if c.nchildren < 0 then (-(c.nchildren + 1)).toNat else c.nchildren.toNat
  let mx : Option Nat := if c.nchildren < 0 then none else some n
  if 0 ≤ c.nmandatory ∧ (n : Int) < c.nmandatory then .err
  else
    let mn : Nat := if 0 ≤ c.nmandatory then c.nmandatory.toNat else n
    if c.labels = [] then .ok ⟨mn, mx, []⟩
    else if n = 0 then .err
    else if c.labels.length < n then .ub
    else .ok ⟨mn, mx, c.labels.take n⟩

/-- `child_label_map_` (Node.cc:79): of equal labels the last one counts. -/
def lastIndex (l : List Int) : List (List Int) → Nat → Option Nat → Option Nat
  | [], _, r => r
  | x :: xs, i, r => lastIndex l xs (i + 1) (if x = l then some i else r)

/-- `childLabelToNumber` (Node.cc:127-136); `none` for -1. -/
def labelToNumber (labels : List (List Int)) (l : List Int) : Option Nat :=
  match lastIndex l labels 0 none with
  | some i => some i
  | none =>
    match l with
    | [a] => if 0 ≤ a then some a.toNat else none
    | _ => none

/-- `getChildLabel` (Node.h:694-695). -/
def childLabel (labels : List (List Int)) (i : Nat) : List Int := (labels[i]?).getD [(i : Int)]

/-- The `children` field of an init record: absent, a record, a vector, or something else. -/
inductive Kids where
  | absent
  | fields (l : List (List Int × Int))
  | vector (l : List Int)
  | other
deriving DecidableEq, Repr

/-- `vector::resize(n,-1)`, if it gets longer. -/
def grow (n : Nat) (v : List Int) : List Int := v ++ List.replicate (n - v.length) (-1)

/-- The loop over the fields (Node_init.cc:250-260). -/
def fill (labels : List (List Int)) : List (List Int × Int) → List Int → Res (List Int)
  | [], v => .ok v
  | (l, i) :: r, v =>
    match labelToNumber labels l with
    | none => .err
    | some k => fill labels r ((grow (k + 1) v).set k i)

/-- The part of `attachInitRecord` on children (Node_init.cc:238-280). -/
def attach (lim : Limits) (kids : Kids) : Res (List Int) := do
  let v ← match kids with
    | .absent => .ok []
    | .fields l => fill lim.labels l (grow l.length [])
    | .vector l => .ok l
    | .other => .err
  if v.length < lim.min then .err
  else if lim.max.any (fun m => decide (m < v.length)) then .err
  else if (v.take lim.min).any (fun i => decide (i < 0)) then .err
  else .ok v

/-- An init record. -/
structure Spec where
  cls : Cls
  name : List Nat
  index : Int
  kids : Kids
  step : List Int
  parents : List Int
  /-- whether `setStateImpl` accepts the settings -/
  settings : Bool
deriving DecidableEq, Repr

/-- A node: what was attached (Node.h:840-870), the nursery's children and labels, and whether `CS_ACTIVE` is set. -/
structure Node where
  name : List Nat
  labels : List (List Int)
  childIdx : List Int
  stepIdx : List Int
  parentIdx : List Int
  settings : Bool
  kids : List (Option Nat)
  kidLabels : List (List Int)
  steps : List (Option Nat)
  parents : List (Option Nat)
  active : Bool
deriving DecidableEq, Repr

/-- The forest: nodes by index, from 0, which is not used, and `num_init_errors`. -/
structure Forest where
  nodes : List (Option Node)
  errors : Nat
deriving DecidableEq, Repr

/-- `clear` (Forest.cc:85-93). -/
def empty : Forest := ⟨[none], 0⟩

/-- The part of `create` within `try` (Forest.cc:103-140). -/
def make (f : Forest) (s : Spec) : Res (Nat × Node) :=
  if s.name ≠ [] ∧ f.nodes.any (fun o => o.any (fun n => decide (n.name = s.name))) then .err
  else do
    let lim ← limits s.cls
    let i ← if 0 < s.index then
        (if (f.nodes[s.index.toNat]?).any Option.isSome then .err else .ok s.index.toNat)
      else .ok f.nodes.length
    let v ← attach lim s.kids
    .ok (i, ⟨s.name, lim.labels, v, s.step, s.parents, s.settings, [], [], [], [], true⟩)

/-- The rest of `create` (Forest.cc:141-161); exceptions are counted and, by the caller, caught. -/
def create (f : Forest) (s : Spec) : Res Forest :=
  match make f s with
  | .ok (i, n) => .ok { f with nodes := (f.nodes ++ List.replicate (i + 1 - f.nodes.length) none).set i (some n) }
  | .err => .ok { f with errors := f.errors + 1 }
  | .ub => .ub

/-- `get` (Forest.cc:221-228). -/
def get (nodes : List (Option Node)) (i : Int) : Res Nat :=
  if i ≤ 0 ∨ (nodes.length : Int) < i then .err
  else
    match nodes[i.toNat]? with
    | none => .ub
    | some none => .err
    | some (some _) => .ok i.toNat

/-- `children_.resize(n)`. -/
def resize (n : Nat) (v : List (Option Nat)) : List (Option Nat) := v.take n ++ List.replicate (n - v.length) none

/-- Attach the children in turn (Node_init.cc:51-55, 59-60, NodeNursery.cc:67-74): `optional` if those with negative indices are passed over. The
second component tells how it ended. -/
def link (nodes : List (Option Node)) (optional : Bool) : List Int → List (Option Nat) → List (Option Nat) × Res Unit
  | i :: r, o :: v =>
    if optional ∧ i < 0 then
      let (v', e) := link nodes optional r v
      (o :: v', e)
    else
      match get nodes i with
      | .ok k =>
        if o.isSome then (o :: v, .err)
        else
          let (v', e) := link nodes optional r v
          (some k :: v', e)
      | .err => (o :: v, .err)
      | .ub => (o :: v, .ub)
  | _, v => (v, .ok ())

/-- The parents (Node_init.cc:140-147). -/
def linkParents (nodes : List (Option Node)) : List Int → List (Option Nat) → List (Option Nat) × Res Unit
  | i :: r, o :: v =>
    match get nodes i with
    | .ok k =>
      let (v', e) := linkParents nodes r v
      (some k :: v', e)
    | .err => (o :: v, .err)
    | .ub => (o :: v, .ub)
  | _, v => (v, .ok ())

/-- Labels of the children that were attached; others are numbered (NodeNursery.cc:54-56, 71-72). Simplified: after a failure the labels of the
children that were not reached are set as well. -/
def setLabels (labels : List (List Int)) (idx : List Int) : List (List Int) :=
  idx.zipIdx.map (fun p => if 0 ≤ p.1 then childLabel labels p.2 else [(p.2 : Int)])

/-- `init` (Node_init.cc:135-169): a node that fails is made inactive. -/
def initNode (nodes : List (Option Node)) (n : Node) : Node × Res Unit :=
  let (par, e) := linkParents nodes n.parentIdx (resize n.parentIdx.length n.parents)
  let n := { n with parents := par }
  if e ≠ .ok () then ({ n with active := false }, e)
  else
    let (kids, e) := link nodes true n.childIdx (resize n.childIdx.length n.kids)
    let n := { n with kids := kids, kidLabels := setLabels n.labels n.childIdx }
    if e ≠ .ok () then ({ n with active := false }, e)
    else
      let (steps, e) := link nodes false n.stepIdx (resize n.stepIdx.length n.steps)
      let n := { n with steps := steps }
      if e ≠ .ok () then ({ n with active := false }, e)
      else if n.settings then (n, .ok ())
      else ({ n with active := false }, .err)

/-- The loop of `initAll` (Forest.cc:164-179) over the nodes with indices in the list. -/
def initFrom : List Nat → Forest → Res Forest
  | [], f => .ok f
  | i :: r, f =>
    match f.nodes[i]? with
    | some (some n) =>
      match initNode f.nodes n with
      | (_, .ub) => .ub
      | (n', .err) => initFrom r ⟨f.nodes.set i (some n'), f.errors + 1⟩
      | (n', .ok ()) => initFrom r ⟨f.nodes.set i (some n'), f.errors⟩
    | _ => initFrom r f

/-- `initAll` (Forest.cc:164-194). -/
def initAll (f : Forest) : Res Forest := initFrom (List.range f.nodes.length) f

/-- Create all nodes of a batch. -/
def createAll : Forest → List Spec → Res Forest
  | f, [] => .ok f
  | f, s :: r => do
    let f ← create f s
    createAll f r

/-- `createNodeBatch` (MeqServer.cc:344-365). -/
def batch (f : Forest) (l : List Spec) : Res Forest := do
  let f ← createAll f l
  if f.errors = 0 then initAll f else .ok f

end Verif.NodeInit
