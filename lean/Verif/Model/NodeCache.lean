import Verif.Model.RequestId
/-!
# Result caching in a tree of nodes (MEQ/src/Node.cc, Node.h, NodeNursery.cc)

A forest is a function from node numbers to node definitions.  `exec` models `Node::execute` in a single thread,
without abort, wait and breakpoints.  Simplifications: results are values of an arbitrary type `R`; the result of a
node is a function of the request id and of its children's results (cells are determined by the id, as
RequestId.h documents); stepchildren, logging, publishing and statistics are left out; a request rider either fails
with some result or has no effect.
-/
namespace Verif.NodeCache

open Verif.RequestId

/-- Return code (NodeFace.h:55-80): the dependency bits and the flags FAIL, MISSING and IGNORE_TYPE.  UPDATED, WAIT and
ABORT are left out. -/
structure Code where
  deps : Nat
  fail : Bool
  missing : Bool
  ign : Bool
  deriving DecidableEq, Repr

/-- No bits. -/
def Code.zero : Code := ⟨0, false, false, false⟩

/-- Bitwise or. -/
def Code.or (a b : Code) : Code := ⟨a.deps ||| b.deps, a.fail || b.fail, a.missing || b.missing, a.ign || b.ign⟩

/-- Fail and missing-data policies (NodeNursery.h): ignore, collect and propagate, abandon and propagate. -/
inductive Pol where
  | ignore
  | collect
  | abandon
  deriving DecidableEq, Repr

/-- What a node is, apart from its caching: its enabled children in poll order, its own dependency mask
(`getDependMask`), its policies, whether it is active, its `getResult` (or `discoverSpids`, or an exception, which is a
result with FAIL), the failure its rider ends in if any, and the number of its parents. -/
structure NodeDef (R : Type) where
  children : List Nat
  own : Nat
  failPol : Pol
  missPol : Pol
  active : Bool
  get : List Int → List (Option R) → R × Code
  rider : List Int → Option R
  npar : Nat

/-- The forest and its constants: the masks of the symbolic dependencies `State`, `Iteration` and `Domain`, the atomic
ids of the request types (Request.h:56-60), and the results built by `execute` itself: the empty result, the
missing-data result, the collected failures, and a result stripped of its perturbed values. -/
structure Forest (R : Type) where
  node : Nat → NodeDef R
  stateMask : Nat
  iterMask : Nat
  domMask : Nat
  tEv : Int
  tE1 : Int
  tE2 : Int
  tPu : Int
  empty : R
  missing : R
  failOf : List R → R
  strip : R → R

/-- `Request::id`, `Request::nextId`. -/
structure Req where
  id : List Int
  next : List Int
  deriving DecidableEq, Repr

/-- `RequestType::type` (Request.h:65-66). -/
def rtype (id : List Int) : Int := id.headD 0

/-- `RequestType::evalMode` (Request.h:78-88). -/
def evalMode {R} (F : Forest R) (id : List Int) : Int :=
  let t := rtype id
  if t = F.tEv ∨ t = 0 then 0 else if t = F.tE1 then 1 else if t = F.tE2 then 2 else -1

/-- A valid cache (Node.h:929-984). -/
structure Entry (R : Type) where
  id : List Int
  code : Code
  res : R

/-- What a node remembers: its cache if valid, `has_state_dep_`, `ignore_parent_releases_`, the parents' hints, the id of the current request,
and the actual cache policy. -/
structure NS (R : Type) where
  cache : Option (Entry R)
  sdep : Bool
  ignRel : Bool
  nhint : Nat
  nhold : Nat
  cur : Option (List Int)
  pol : Int

/-- All nodes' memories. -/
def St (R : Type) := Nat → NS R

/-- Change one node's memory. -/
def St.upd {R} (s : St R) (n : Nat) (f : NS R → NS R) : St R := fun m => if m = n then f (s m) else s m

/-- `clearCache(false)` (Node.cc:482-491, Node.h:941-947). -/
def clear {R} (s : St R) (n : Nat) : St R := s.upd n fun x => { x with cache := none }

/-- `new_request_` (Node.cc:955-957). -/
def isNew {R} (s : St R) (n : Nat) (r : Req) : Bool :=
  decide ((s n).cur = none) || decide (r.id = []) || decide ((s n).cur ≠ some r.id)

/-- The cached code with the state dependency added (Node.cc:518-519). -/
def withState {R} (F : Forest R) (sdep : Bool) (c : Code) : Code :=
  if sdep then { c with deps := c.deps ||| F.stateMask } else c

/-- Does the cache answer the request, and with what (Node.cc:535-580)?  The flag tells case (2), which leaves the
return code at 0 and raises `ignore_parent_releases_`. -/
def lookup {R} (F : Forest R) (e : Entry R) (r : Req) : Option (R × Code × Bool) :=
  if r.id = [] ∨ e.id = [] then none
  else if rtype r.id = F.tPu ∧ e.code.deps &&& F.iterMask = 0 then some (F.empty, Code.zero, true)
  else if diffMask r.id e.id &&& e.code.deps = 0 then some (e.res, e.code, false)
  else if diffMask r.id e.id &&& e.code.deps = 1 ∧ evalMode F r.id = 0 ∧ 0 < evalMode F e.id then
    some (F.strip e.res, e.code, false)
  else none

/-- `getCachedResult` (Node.cc:507-602). -/
def getCached {R} (F : Forest R) (r : Req) (n : Nat) (s : St R) : St R × Option (R × Code) :=
  match (s n).cache with
  | none => (s, none)
  | some e0 =>
    let e : Entry R := { e0 with code := withState F (s n).sdep e0.code }
    let new := isNew s n r
    let s1 := s.upd n fun x => { x with cache := some e }
    match lookup F e r with
    | some (res, c, true) => (s1.upd n (fun x => { x with ignRel := true }), some (res, c))
    | some (res, c, false) =>
      (if new then s1.upd n (fun x => { x with nhint := 0, nhold := 0 }) else s1, some (res, c))
    | none => (clear s1 n, none)

/-- `holdCache` (Node.cc:743-761). -/
def holdCache {R} (F : Forest R) (s : St R) (n : Nat) (hold : Bool) : St R :=
  let s1 := s.upd n fun x => { x with nhint := x.nhint + 1, nhold := if hold then x.nhold + 1 else x.nhold }
  match (s1 n).cache with
  | none => s1
  | some e =>
    if (s1 n).ignRel = false ∧ e.code.deps &&& F.domMask ≠ 0 ∧ (s1 n).pol < 20 ∧ (F.node n).npar ≤ (s1 n).nhint ∧
        ((s1 n).pol ≤ -1 ∨ (s1 n).nhold = 0) then clear s1 n
    else s1

/-- `holdChildCaches` (Node.cc:721-740).  Children that were not polled count with code 0. -/
def holdAll {R} (F : Forest R) (hold : Bool) (diff : Nat) : List (Nat × Nat) → St R → St R
  | [], s => s
  | (c, code) :: l, s => holdAll F hold diff l (holdCache F s c (hold && decide (code &&& diff = 0)))

/-- The implicit dependency on the request type (Node.cc:627-629). -/
def addType (c : Code) : Code := if c.ign then c else { c with deps := c.deps ||| 1 }

/-- The caching decision (Node.cc:630-657): cache at all, cache beyond the last parent. -/
def decideCache (pol : Int) (npar : Nat) (fail : Bool) (clash : Bool) : Bool × Bool :=
  if fail then (true, true)
  else if pol ≤ -10 then (false, false)
  else if pol ≤ -1 then (decide (1 < npar), false)
  else if pol < 20 then (!clash || decide (1 < npar), !clash)
  else (true, true)

/-- `cacheResult` (Node.cc:606-706).  `kids` are the children with the dependency bits they returned. -/
def cacheResult {R} (F : Forest R) (r : Req) (n : Nat) (kids : List (Nat × Nat)) (s : St R) (res : R) (c : Code) :
    St R × R × Code :=
  let s1 := s.upd n fun x => { x with sdep := false, ignRel := false, nhint := 0, nhold := 0 }
  let diff := diffMask r.id r.next
  let code := addType c
  let d := decideCache (s1 n).pol (F.node n).npar code.fail (decide (diff &&& code.deps ≠ 0))
  let s2 := holdAll F (!d.2) diff kids s1
  (if d.1 then s2.upd n (fun x => { x with cache := some ⟨r.id, code, res⟩ }) else clear s2 n, res, code)

/-- Is polling cut short after a child's outcome (NodeNursery.cc:560-572)? -/
def stops (fp mp : Pol) (c : Code) : Bool :=
  if c.fail then decide (fp = .abandon) else c.missing && decide (mp = .abandon)

/-- The single-threaded poll (NodeNursery.cc:545-576): the outcome of each child, `none` for children not reached. -/
def poll {R} (ex : Nat → St R → St R × R × Code) (fp mp : Pol) : List Nat → St R → St R × List (Option (R × Code))
  | [], s => (s, [])
  | c :: cs, s =>
    let o := ex c s
    if stops fp mp o.2.2 then (o.1, some o.2 :: cs.map fun _ => none)
    else
      let q := poll ex fp mp cs o.1
      (q.1, some o.2 :: q.2)

/-- The or of the children's codes (NodeNursery.cc:556). -/
def cumul {R} : List (Option (R × Code)) → Code
  | [] => Code.zero
  | none :: l => cumul l
  | some o :: l => o.2.or (cumul l)

/-- The failing children's results (NodeNursery.cc:560-565). -/
def failing {R} (outs : List (Option (R × Code))) : List R :=
  outs.filterMap fun o => match o with | some (res, c) => if c.fail then some res else none | none => none

/-- Fail and missing bits cleared where the policy is to ignore them (NodeNursery.cc:585-586,607-608). -/
def masked (fp mp : Pol) (c : Code) : Code :=
  { c with fail := c.fail && decide (fp ≠ .ignore), missing := c.missing && decide (mp ≠ .ignore) }

/-- What `execute` makes of the children's outcomes (Node.cc:1007-1106): a failure, missing data, nothing for a
parameter update, else `getResult`. -/
def combine {R} (F : Forest R) (n : Nat) (id : List Int) (outs : List (Option (R × Code))) : R × Code :=
  let d := F.node n
  let c := masked d.failPol d.missPol (cumul outs)
  if c.fail then (F.failOf (failing outs), c)
  else if c.missing then (F.missing, c)
  else if rtype id = F.tPu then (F.empty, { c with deps := c.deps ||| d.own })
  else
    let g := d.get id (outs.map fun o => o.map (·.1))
    (g.1, { c with deps := c.deps ||| d.own }.or g.2)

/-- `has_state_dep_ = false` and `setCurrentRequest` (Node.cc:976,992). -/
def begin {R} (s : St R) (n : Nat) (r : Req) : St R :=
  s.upd n fun x => { x with sdep := false, cur := if isNew s n r then some r.id else x.cur }

/-- The dependency bits each child returned. -/
def kidCodes {R} (cs : List Nat) (outs : List (Option (R × Code))) : List (Nat × Nat) :=
  cs.zip (outs.map fun o => match o with | some x => x.2.deps | none => 0)

/-- What `execute` does after a miss (Node.cc:976-1197); `ex` executes a child. -/
def work {R} (F : Forest R) (ex : Nat → St R → St R × R × Code) (r : Req) (n : Nat) (s : St R) : St R × R × Code :=
  let s1 := begin s n r
  match (if isNew s n r then (F.node n).rider r.id else none) with
  | some e => cacheResult F r n ((F.node n).children.map fun c => (c, 0)) s1 e ⟨0, true, false, false⟩
  | none =>
    if (F.node n).active then
      let p := poll ex (F.node n).failPol (F.node n).missPol (F.node n).children s1
      let o := combine F n r.id p.2
      cacheResult F r n (kidCodes (F.node n).children p.2) p.1 o.1 o.2
    else cacheResult F r n ((F.node n).children.map fun c => (c, 0)) s1 F.empty Code.zero

/-- `Node::execute` (Node.cc:920-1197), with at most `fuel` levels below. -/
def exec {R} (F : Forest R) : Nat → Req → Nat → St R → St R × R × Code
  | 0, _, _, s => (s, F.empty, Code.zero)
  | fuel + 1, r, n, s =>
    match getCached F r n s with
    | (s', some o) => (s', o)
    | (s', none) => work F (exec F fuel r) r n s'

/-- What happens to a forest: a request to a node (children have smaller numbers), `clearCache` on a node, a cache policy set,
`has_state_dep_` raised by a change of state, at the node or below it. -/
inductive Op where
  | exec (n : Nat) (r : Req)
  | clear (n : Nat)
  | setPol (n : Nat) (p : Int)
  | stateDep (n : Nat)
  deriving DecidableEq, Repr

/-- One event. -/
def step {R} (F : Forest R) (s : St R) : Op → St R
  | .exec n r => (exec F (n + 1) r n s).1
  | .clear n => clear s n
  | .setPol n p => s.upd n fun x => { x with pol := p }
  | .stateDep n => s.upd n fun x => { x with sdep := true }

/-- A new forest. -/
def init {R} : St R := fun _ => ⟨none, false, false, 0, 0, none, 1⟩

/-- A history. -/
def run {R} (F : Forest R) (ops : List Op) : St R := ops.foldl (step F) init

end Verif.NodeCache
