import Verif.Model.Outcome
import Mathlib.Algebra.Field.Rat
/-!
# Evaluating a function of the results of children (MEQ/src/Function.cc)

A result consists of planes; a plane (a `VellSet`) is a failure, or has a main value and, for some solvable parameters
(named by their ids, "spids"), perturbed values in one or two sets.  The values themselves are of any type: shapes are a
test that a value may pass or not.  Flags, and the cells of the result, are left out.
-/
namespace Verif.Func

/-! ## Merging lists of ids -/

/-- Reading and writing an element of an array. -/
def rd (a : List Int) (i : Nat) : Res Int := match a[i]? with | none => .ub | some v => .ok v

@[inherit_doc rd]
def wr (a : List Int) (i : Nat) (v : Int) : Res (List Int) := if i < a.length then .ok (a.set i v) else .ub

/-- Variables of the merge of one child's ids: the array, the places to read from and to write to, the last id copied. -/
structure MSt where
  arr : List Int
  inx : Nat
  inxout : Nat
  lastspid : Int
  deriving DecidableEq, Repr

/-- Copying ids that do not exceed the child's id (Function.cc:348-351); `n` is `lastinx - inx`. -/
def copyWhile (spid : Int) : Nat → MSt → Res MSt
  | 0, s => .ok s
  | n + 1, s =>
    (rd s.arr s.inx).bind fun v =>
      if v ≤ spid then (wr s.arr s.inxout v).bind fun a => copyWhile spid n ⟨a, s.inx + 1, s.inxout + 1, v⟩
      else .ok s

/-- The loop over the ids of a child (Function.cc:345-356). -/
def mergeLoop (lastinx : Nat) : List Int → MSt → Res MSt
  | [], s => .ok s
  | spid :: l, s =>
    (copyWhile spid (lastinx - s.inx) s).bind fun s =>
      if spid ≠ s.lastspid then (wr s.arr s.inxout spid).bind fun a => mergeLoop lastinx l { s with arr := a, inxout := s.inxout + 1 }
      else mergeLoop lastinx l s

/-- Copying what is left (Function.cc:358-360). -/
def copyRest : Nat → MSt → Res MSt
  | 0, s => .ok s
  | n + 1, s => (rd s.arr s.inx).bind fun v => (wr s.arr s.inxout v).bind fun a => copyRest n ⟨a, s.inx + 1, s.inxout + 1, s.lastspid⟩

/-- Merging the ids of one child (Function.cc:335-362): array, where the merged ids start, how many they are. -/
def mergeChild (ids : List Int) (arr : List Int) (stinx nrspid : Nat) : Res (List Int × Nat × Nat) :=
  if ids.length = 0 then .ok (arr, stinx, nrspid)
  else
    let inx := stinx
    let lastinx := inx + nrspid
    let stinx := stinx - ids.length
    (mergeLoop lastinx ids ⟨arr, inx, stinx, -1⟩).bind fun s =>
      (copyRest (lastinx - s.inx) s).bind fun s => .ok (s.arr, stinx, s.inxout - stinx)

/-- The loop over the children (Function.cc:329-363). -/
def mergeAll : List (List Int) → List Int × Nat × Nat → Res (List Int × Nat × Nat)
  | [], s => .ok s
  | ids :: l, s => (mergeChild ids s.1 s.2.1 s.2.2).bind (mergeAll l)

/-- `findSpids` (Function.cc:308-366), given the ids of each child that has a value. -/
def findSpids (ids : List (List Int)) : Res (List Int) :=
  let n := (ids.map List.length).sum
  if n = 0 then .ok []
  else (mergeAll ids (List.replicate n 0, n, 0)).bind fun s => .ok (s.1.take s.2.2)

/-! ## One plane -/

/-- A plane of a result (VellSet.h:411-445).  `fail` holds the failures of a plane that is one; `pert i k` and `pval i k`
are perturbation and perturbed value of set `k` for the parameter `spids[i]`. -/
structure Plane (V F : Type) where
  fail : Option (List F)
  value : Option V
  spids : List Int
  npert : Nat
  pert : Nat → Nat → ℚ
  pval : Nat → Nat → V

/-- `isDefined` (VellSet.h:150-152): where the id is, and the new position. -/
def isDefined (spids : List Int) (spid : Int) (index : Nat) : Option Nat × Nat :=
  match spids[index]? with
  | none => (none, index)
  | some s => if spid = s then (some index, index + 1) else (none, index)

/-- What is gathered for one id: per set the values of the children, and the perturbation once one is found
(Function.cc:228-238; `found` and `pert` are one here). -/
structure Gather (V : Type) where
  vals : List (List (Option V))
  found : List (Option ℚ)
  deriving Inhabited

/-- Taking over the perturbed values of one child (Function.cc:253-270); the list is of the sets. -/
def takeSets (compat : V → Bool) (c : Plane V F) (ich inx : Nat) : List Nat → Gather V → Res (Gather V)
  | [], g => .ok g
  | k :: l, g =>
    if c.npert ≤ k then .ub
    else if !compat (c.pval inx k) then .err
    else
      let vals := g.vals.set k ((g.vals.getD k []).set ich (some (c.pval inx k)))
      match g.found.getD k none with
      | some p => if p ≠ c.pert inx k then .err else takeSets compat c ich inx l ⟨vals, g.found⟩
      | none => takeSets compat c ich inx l ⟨vals, g.found.set k (some (c.pert inx k))⟩

/-- The loop over the children (Function.cc:245-272); `indices` are the positions in their lists of ids. -/
def gather (compat : V → Bool) (npertsets : Nat) (spid : Int) : List (Option (Plane V F)) → Nat → List Nat → Gather V →
    Res (List Nat × Gather V)
  | [], _, indices, g => .ok (indices, g)
  | none :: l, ich, indices, g => gather compat npertsets spid l (ich + 1) indices g
  | some c :: l, ich, indices, g =>
    let r := isDefined c.spids spid (indices.getD ich 0)
    let indices := indices.set ich r.2
    match r.1 with
    | none => gather compat npertsets spid l (ich + 1) indices g
    | some inx =>
      (takeSets compat c ich inx (List.range (max c.npert npertsets)) g).bind fun g =>
        gather compat npertsets spid l (ich + 1) indices g

/-- Evaluating the sets of one id (Function.cc:275-282): perturbation and value of each.  What `f` gives is of any type: a value here,
all elements of a tensor in other nodes. -/
def evalSets (f : List (Option V) → Res W) (g : Gather V) : List Nat → Res (List (ℚ × W))
  | [] => .ok []
  | k :: l =>
    match g.found.getD k none with
    | none => .err
    | some p => (f (g.vals.getD k [])).bind fun v => (evalSets f g l).bind fun r => .ok ((p, v) :: r)

/-- The loop over the ids (Function.cc:232-283). -/
def spidLoop (compat : V → Bool) (f : List (Option V) → Res W) (npertsets : Nat) (ch : List (Option (Plane V F))) (values : List (Option V)) :
    List Int → List Nat → Res (List (List (ℚ × W)))
  | [], _ => .ok []
  | spid :: l, indices =>
    (gather compat npertsets spid ch 0 indices ⟨List.replicate npertsets values, List.replicate npertsets none⟩).bind fun r =>
      (evalSets f r.2 (List.range npertsets)).bind fun row =>
        (spidLoop compat f npertsets ch values l r.1).bind fun rows => .ok (row :: rows)

/-- Ids of the children that have a value. -/
def idsOf (ch : List (Option (Plane V F))) : List (List Int) := ch.filterMap fun c => c.map (·.spids)

/-- The largest number of sets (Function.cc:316, 334; if no child has an id the loop is not reached). -/
def maxSets (ch : List (Option (Plane V F))) : Nat :=
  if ((idsOf ch).map List.length).sum = 0 then 0 else (ch.filterMap fun c => c.map (·.npert)).foldl max 0

/-- The evaluation inside the `try` block (Function.cc:212-284); flags are left out. -/
def evalPlane [Inhabited V] (compat : V → Bool) (f : List (Option V) → Res V) (ch : List (Option (Plane V F))) : Res (Plane V F) :=
  let values := ch.map fun c => c.bind (·.value)
  (findSpids (idsOf ch)).bind fun spids =>
    (f values).bind fun v =>
      (spidLoop compat f (maxSets ch) ch values spids (List.replicate ch.length 0)).bind fun rows =>
        .ok ⟨none, some v, spids, maxSets ch, fun i k => ((rows.getD i []).getD k (0, v)).1, fun i k => ((rows.getD i []).getD k (0, v)).2⟩

/-! ## All planes -/

/-- Adding failures one by one to a plane (Function.cc:177-178): each call empties the plane first (`addFail`,
VellSet.cc:589-621), so that the last one stays. -/
def addFails (cur : Option (List F)) (fs : List F) : Option (List F) := fs.foldl (fun _ f => some [f]) cur

/-- What is found out about the children of a plane (Function.cc:168-195): the failures added, and the planes with a value;
the shape test throws out of the call. -/
def collect (compat : V → Bool) : List (Plane V F) → Option (List F) → Res (Option (List F) × List (Option (Plane V F)))
  | [], cur => .ok (cur, [])
  | c :: l, cur =>
    match c.fail with
    | some fs => (collect compat l (addFails cur fs)).bind fun r => .ok (r.1, none :: r.2)
    | none =>
      match c.value with
      | none => (collect compat l cur).bind fun r => .ok (r.1, none :: r.2)
      | some v => if !compat v then .err else (collect compat l cur).bind fun r => .ok (r.1, some c :: r.2)

/-- How the plane is counted. -/
inductive Kind where
  | good
  | failed
  | missing
  deriving DecidableEq, Repr

/-- A new plane (VellSet.cc:76-87), with the given failures if any. -/
def failPlane [Inhabited V] (fs : Option (List F)) : Plane V F := ⟨fs, none, [], 0, fun _ _ => 0, fun _ _ => default⟩

/-- One plane (Function.cc:161-296), given that plane of each child; `exc` is the failure made of an exception. -/
def planeResult [Inhabited V] (compat : V → Bool) (f : List (Option V) → Res V) (allowMissing : Bool) (exc : F) (ch : List (Plane V F)) :
    Res (Plane V F × Kind) :=
  (collect compat ch none).bind fun r =>
    let nmissing := (r.2.filter Option.isNone).length
    if nmissing ≠ 0 ∧ (nmissing = ch.length ∨ allowMissing = false) then .ok (failPlane r.1, .missing)
    else match r.1 with
      | some fs => .ok (failPlane (some fs), .failed)
      | none => match evalPlane compat f r.2 with
        | .ok p => .ok (p, .good)
        | .err => .ok (failPlane (some [exc]), .failed)
        | .ub => .ub

/-- The result of a child: its dimensions (none for a scalar) and its planes (Result.h:87-94, 199-200). -/
structure ChildRes (V F : Type) where
  dims : List Nat
  planes : List (Plane V F)

/-- Dimensions of the result, from those of the children after the first (Function.cc:120-136). -/
def dimsLoop : List (ChildRes V F) → List Nat → Res (List Nat)
  | [], d => .ok d
  | c :: l, d =>
    if c.planes.length = 0 then .err
    else if 0 < c.dims.length then
      (if d = [] then dimsLoop l c.dims else if c.dims ≠ d then .err else dimsLoop l d)
    else dimsLoop l d

/-- Dimensions of the result (Function.cc:115-137). -/
def outDims : List (ChildRes V F) → Res (List Nat)
  | [] => .ok []
  | c :: l => if c.planes.length = 0 then .err else dimsLoop l c.dims

/-- The plane of a child that is used (Function.cc:173). -/
def childPlane (i : Nat) (c : ChildRes V F) : Res (Plane V F) :=
  match c.planes[if 0 < c.dims.length then i else 0]? with
  | none => .ub
  | some p => .ok p

/-- Doing something for all elements of a list in turn. -/
def mapRes {α β : Type} (f : α → Res β) : List α → Res (List β)
  | [] => .ok []
  | a :: l => (f a).bind fun b => (mapRes f l).bind fun r => .ok (b :: r)

/-- The return code. -/
inductive Code where
  | fine
  | fail
  | missing
  deriving DecidableEq, Repr

/-- The return code from how the planes were counted (Function.cc:297-303). -/
def codeOf (kinds : List Kind) : Code :=
  if (kinds.filter (· = .failed)).length = kinds.length then .fail
  else if (kinds.filter (· = .missing)).length = kinds.length then .missing
  else .fine

/-- Dimensions of a new result: none if there is one plane (Result.cc:227-235). -/
def normDims (d : List Nat) : List Nat := if d.foldr (· * ·) 1 = 1 then [] else d

/-- `getResult` (Function.cc:104-304). -/
def getResult [Inhabited V] (compat : V → Bool) (f : List (Option V) → Res V) (allowMissing : Bool) (exc : F) (ch : List (ChildRes V F)) :
    Res (ChildRes V F × Code) :=
  (outDims ch).bind fun d =>
    (mapRes (fun i => (mapRes (childPlane i) ch).bind (planeResult compat f allowMissing exc)) (List.range (d.foldr (· * ·) 1))).bind fun out =>
      .ok (⟨normDims d, out.map (·.1)⟩, codeOf (out.map (·.2)))

end Verif.Func
