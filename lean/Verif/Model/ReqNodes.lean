import Verif.Model.RequestId
import Verif.Model.Nursery
/-!
# Nodes that pass a request on to several children and return one result (MeqNodes/src/ReqMux.cc, ReqSeq.cc, MEQ/src/Node.cc)

A child's reply is a return code and a result; results are values of an arbitrary type `R`.  What the node returns is a
code and a result reference, which may be invalid (`none`).  Children are given by what they reply to each request id, so
one that remembers earlier requests is covered: each is asked once per request.  Simplifications: no aborts, waits,
riders or stepchildren; dependency masks are natural numbers (a mask with the sign bit makes `incrSubId` loop, see
`RequestId`).
-/
namespace Verif.ReqNodes

open Verif.RequestId Verif.Nursery

/-- A child's reply: `execute`'s code and result. -/
structure Reply (R : Type) where
  code : Code
  res : R

/-- What `execute` returns: the code, and the result reference (`none`: left invalid). -/
structure Ans (R : Type) where
  code : Code
  res : Option R

/-- The results `Node::execute` makes itself: the empty one (Node.cc:1133), the missing-data one (Node.cc:1052-1053), the one
collecting failures (NodeNursery.cc:588-603), the one for an exception (Node.cc:1158-1162); and the failures a result holds. -/
structure Made (R : Type) where
  empty : R
  missing : R
  collect : List R → R
  exception : R

/-- The settings of the node: its own dependency mask (`getDependMask`), its policies, the child chosen. -/
structure Cfg where
  own : Nat
  fp : Pol
  mp : Pol
  which : Nat

/-- `retcode |= getDependMask()` (Node.cc:1059). -/
def addDeps (c : Code) (own : Nat) : Code := ⟨c.deps ||| own, c.fail, c.missing, c.abort⟩

/-- `Node::execute` from the codes `pollChildren` returns (Node.cc:1041-1133): `ref` is the result it left, `get` is `getResult`
(or `discoverSpids`): a code and a result, or an exception (`none`). -/
def finish {R} (mk : Made R) (own : Nat) (cells : Bool) (code : Code) (ref : Option R)
    (get : Option (Code × Option R)) : Ans R :=
  if code.fail then ⟨code, ref⟩
  else if code.missing then ⟨code, some mk.missing⟩
  else if cells then
    match get with
    | none => ⟨⟨(addDeps code own).deps, true, code.missing, code.abort⟩, some mk.exception⟩
    | some (c, r) => ⟨(addDeps code own).or c, some (r.getD mk.empty)⟩
  else ⟨addDeps code own, some (ref.getD mk.empty)⟩

/-! ## ReqMux -/

/-- `Node::pollChildren` (Node.cc:899-918) by way of `NodeNursery::syncPoll`, and the results left in `child_results_`. -/
def nodePoll {R} (c : Cfg) (order : List Nat) (enabled : Nat → Bool) (exe : Nat → Reply R) (old : Nat → Code) : Poll R :=
  syncPoll order enabled (fun i => ((exe i).code, [(exe i).res])) c.fp c.mp false old

/-- The result child `i` left in `child_results_`; invalid if it was not asked (`cacheResult` detaches all,
Node.cc:622-623). -/
def childResult {R} (exe : Nat → Reply R) (polled : List Nat) (i : Nat) : Option R :=
  if i ∈ polled then some (exe i).res else none

/-- The code `ReqMux::pollChildren` returns (ReqMux.cc:66-69). -/
def muxCode {R} (c : Cfg) (p : Poll R) : Code :=
  if p.code.fail || p.code.missing then p.code else p.retcodes c.which

/-- `execute` of a `ReqMux` (ReqMux.cc:58-87, Node.cc:1031-1133). -/
def mux {R} (mk : Made R) (c : Cfg) (order : List Nat) (enabled : Nat → Bool) (cells : Bool) (exe : Nat → Reply R)
    (old : Nat → Code) : Ans R :=
  let p := nodePoll c order enabled exe old
  finish mk c.own cells (muxCode c p) (p.result.map mk.collect)
    (some (Code.zero, childResult exe p.polled c.which))

/-! ## ReqSeq -/

/-- What `ReqSeq::pollChildren` keeps: the request id in use, `result_code_`, `result_`, the early return if there was one,
and (for the statements) the children executed so far with the ids they were given. -/
structure Seq (R : Type) where
  id : List Int
  code : Code
  kept : Option R
  stop : Option (Code × R)
  calls : List (Nat × List Int)

/-- The id for the next child (ReqSeq.cc:90-94). -/
def nextId (mask : Nat) (i : Nat) (id : List Int) : List Int :=
  if i ≠ 0 ∧ mask ≠ 0 then (incrSubId id mask).getD id else id

/-- `code &= ~RES_FAIL` for a child that was not chosen (ReqSeq.cc:112-116). -/
def dropFail (c : Cfg) (i : Nat) (k : Code) : Code :=
  if k.fail && decide (i ≠ c.which) then ⟨k.deps, false, k.missing, k.abort⟩ else k

/-- `code &= ~RES_MISSING` for a child that was not chosen (ReqSeq.cc:128-132). -/
def dropMissing (c : Cfg) (i : Nat) (k : Code) : Code :=
  if k.missing && decide (i ≠ c.which) then ⟨k.deps, k.fail, false, k.abort⟩ else k

/-- The loop (ReqSeq.cc:86-149).  Children are not checked for being enabled. -/
def seqLoop {R} (c : Cfg) (mask : Nat) (cells : Bool) (exe : Nat → List Int → Reply R) : List Nat → Seq R → Seq R
  | [], a => a
  | i :: l, a =>
    let id := nextId mask i a.id
    let k := exe i id
    let calls := a.calls ++ [(i, id)]
    if k.code.fail && decide (c.fp ≠ .ignore) then ⟨id, a.code, a.kept, some (a.code.or k.code, k.res), calls⟩
    else
      let k1 := dropFail c i k.code
      if k1.missing && decide (c.mp ≠ .ignore) then ⟨id, a.code, a.kept, some (a.code.or k1, k.res), calls⟩
      else
        seqLoop c mask cells exe l
          ⟨id, a.code.or (dropMissing c i k1), if decide (i = c.which) && cells then some k.res else a.kept, none, calls⟩

/-- `ReqSeq::pollChildren` in sequence mode for a node with `n` children (ReqSeq.cc:75-155); `result_` was moved out by the
previous `getResult`. -/
def seqPoll {R} (c : Cfg) (n : Nat) (mask : Nat) (cells : Bool) (exe : Nat → List Int → Reply R) (id : List Int) : Seq R :=
  seqLoop c mask cells exe (List.range n) ⟨id, Code.zero, none, none, []⟩

/-- `getResult` and `discoverSpids` (ReqSeq.cc:157-175): the result kept, the assertion failing if there is none. -/
def seqGet {R} (s : Seq R) : Option (Code × Option R) :=
  match s.kept with
  | none => none
  | some r => some (s.code, some r)

/-- `execute` of a `ReqSeq` in sequence mode (ReqSeq.cc:71-175, Node.cc:1031-1133): the poll returns 0 unless it stopped early. -/
def seq {R} (mk : Made R) (c : Cfg) (n : Nat) (mask : Nat) (cells : Bool) (exe : Nat → List Int → Reply R) (id : List Int) :
    Ans R :=
  let s := seqPoll c n mask cells exe id
  match s.stop with
  | some (k, r) => finish mk c.own cells k (some r) none
  | none => finish mk c.own cells Code.zero none (seqGet s)

/-- `execute` of a `ReqSeq`: in cells-only mode a request without cells goes to all children as in any node
(ReqSeq.cc:78-79). -/
def reqSeq {R} (mk : Made R) (c : Cfg) (n : Nat) (order : List Nat) (enabled : Nat → Bool) (mask : Nat) (cellsOnly cells : Bool)
    (exe : Nat → List Int → Reply R) (old : Nat → Code) (id : List Int) : Ans R :=
  if cellsOnly && !cells then
    let p := nodePoll c order enabled (fun i => exe i id) old
    finish mk c.own cells p.code (p.result.map mk.collect) none
  else seq mk c n mask cells exe id

/-- The children a `ReqSeq` executes, in order. -/
def reqSeqAsked {R} (c : Cfg) (n : Nat) (order : List Nat) (enabled : Nat → Bool) (mask : Nat) (cellsOnly cells : Bool)
    (exe : Nat → List Int → Reply R) (old : Nat → Code) (id : List Int) : List Nat :=
  if cellsOnly && !cells then (nodePoll c order enabled (fun i => exe i id) old).polled
  else (seqPoll c n mask cells exe id).calls.map (·.1)

/-! ## A `ReqSeq` with its cache -/

/-- A request: its id, the id announced for the next one, and whether it has cells. -/
structure Req where
  id : List Int
  next : List Int
  cells : Bool
  deriving DecidableEq, Repr

/-- A valid cache (Node.h:929-984). -/
structure Entry (R : Type) where
  id : List Int
  code : Code
  res : R

/-- `getCachedResult` for evaluation requests of one type (Node.cc:535-580, cases (1) and (3a)). -/
def hit {R} (e : Entry R) (id : List Int) : Bool :=
  decide (id ≠ []) && decide (e.id ≠ []) && decide (diffMask id e.id &&& e.code.deps = 0)

/-- `cacheResult` under the smart policy, for a node with one parent (Node.cc:627-690): the implicit dependency on the
request type is added; a failure, or a result the next request does not invalidate, is cached.  An entry without a result
is not valid (Node.h:951-954). -/
def remember {R} (r : Req) (a : Ans R) : Option (Entry R) :=
  let code := addDeps a.code 1
  if code.fail || decide (diffMask r.id r.next &&& code.deps = 0) then a.res.map fun x => ⟨r.id, code, x⟩ else none

/-- One request to a `ReqSeq` with its cache: the new cache and the answer (Node.cc:977-983, 1151). -/
def serve {R} (mk : Made R) (c : Cfg) (n : Nat) (mask : Nat) (exe : Bool → Nat → List Int → Reply R) (s : Option (Entry R))
    (r : Req) : Option (Entry R) × Ans R :=
  match s with
  | some e =>
    if hit e r.id then (some e, ⟨e.code, some e.res⟩)
    else
      let a := seq mk c n mask r.cells (exe r.cells) r.id
      (remember r a, ⟨addDeps a.code 1, a.res⟩)
  | none =>
    let a := seq mk c n mask r.cells (exe r.cells) r.id
    (remember r a, ⟨addDeps a.code 1, a.res⟩)

/-- The cache after a list of requests. -/
def history {R} (mk : Made R) (c : Cfg) (n : Nat) (mask : Nat) (exe : Bool → Nat → List Int → Reply R) (rs : List Req) :
    Option (Entry R) :=
  rs.foldl (fun s r => (serve mk c n mask exe s r).1) none

end Verif.ReqNodes
