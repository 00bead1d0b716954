/-!
# One execution of a node (MEQ/src/Node.cc:920-1197, Node.h:801-831)

What `Node::execute` decides, given what the functions it calls do: their codes and results, or that they throw.  Mutexes
and waiting for another execution are in `NodeLock`; breakpoints, timers, statistics and debugging output are left out.
Which requests are cache hits is in `NodeCache`.
-/
namespace Verif.Execute

/-- A return code (NodeFace.h:59-80): its flags, and the dependency bits. -/
structure Code where
  updated : Bool
  ignoreType : Bool
  missing : Bool
  wait : Bool
  abort : Bool
  fail : Bool
  deps : Nat
  deriving DecidableEq, Repr

/-- The code 0. -/
def Code.zero : Code := ⟨false, false, false, false, false, false, 0⟩

/-- `a|b`. -/
def Code.or (a b : Code) : Code :=
  ⟨a.updated || b.updated, a.ignoreType || b.ignoreType, a.missing || b.missing, a.wait || b.wait, a.abort || b.abort, a.fail || b.fail, a.deps ||| b.deps⟩

/-- `a|RES_UPDATED`. -/
def Code.withUpdated (a : Code) : Code := ⟨true, a.ignoreType, a.missing, a.wait, a.abort, a.fail, a.deps⟩

/-- `a&~RES_UPDATED`. -/
def Code.noUpdated (a : Code) : Code := ⟨false, a.ignoreType, a.missing, a.wait, a.abort, a.fail, a.deps⟩

/-- `a|RES_FAIL`. -/
def Code.withFail (a : Code) : Code := ⟨a.updated, a.ignoreType, a.missing, a.wait, a.abort, true, a.deps⟩

/-- `a|mask` for a dependency mask. -/
def Code.withDeps (a : Code) (m : Nat) : Code := ⟨a.updated, a.ignoreType, a.missing, a.wait, a.abort, a.fail, a.deps ||| m⟩

/-- The stages named in messages (Node.cc:976, 1005, 1029, 1077, 1099); `none` before the first. -/
inductive Stage where
  | none
  | cache
  | rider
  | polling
  | getting
  | discovering
  deriving DecidableEq, Repr

/-- Results: empty (`new Result(0)`), missing data (one empty vellset), the failure made of an exception, others. -/
inductive Rd where
  | empty
  | missing
  | failure (s : Stage)
  | other (n : Nat)
  deriving DecidableEq, Repr

/-- What a called function does: it may throw. -/
inductive Ex (α : Type) where
  | ok (a : α)
  | throws
  deriving DecidableEq, Repr

/-- The calls made, in order (for the property). -/
inductive Call where
  | checkCache
  | rider
  | poll
  | get
  | discover
  | store (c : Code) (r : Option Rd)
  deriving DecidableEq, Repr

/-- What an execution meets: the abort flag at the three places where it is tested, the functions called, the request and
the node.  `rider` is `none` if the request has none.  Functions that may attach a result give `none` if they do not.
`store1` and `store2` say whether `cacheResult` throws, in the body and in the handler. -/
structure World where
  inited : Bool
  abort1 : Bool
  abort2 : Bool
  abort3 : Bool
  newRequest : Bool
  cache : Ex (Option (Code × Option Rd))
  rider : Option (Ex (Code × Option Rd))
  active : Bool
  hasCells : Bool
  poll : Ex (Code × Option Rd)
  ownDeps : Nat
  cellsAgree : Bool
  evaluates : Bool
  discovers : Bool
  get : Ex (Code × Option Rd)
  discover : Ex (Code × Option Rd)
  store1 : Bool
  store2 : Bool
  deriving DecidableEq, Repr

/-- The node's status (Node.h:166-186): the bits of `CS_RES_MASK` as a number (0 none, 1 ok, 2 wait, 3 empty, 4 missing,
5 fail) and `CS_RETCACHE`. -/
structure Status where
  res : Nat
  fromCache : Bool
  deriving DecidableEq, Repr

/-- What an execution leaves: code, result, status, the stage of an error that was posted, the calls made. -/
structure Out where
  code : Code
  res : Option Rd
  status : Status
  posted : Option Stage
  calls : List Call
  deriving DecidableEq, Repr

/-- How it ends: `terminate` is an exception out of a function declared to throw none. -/
inductive End where
  | returns (o : Out)
  | terminate
  deriving DecidableEq, Repr

/-- The bit `RequestType::DEPMASK_TYPE` (the lowest). -/
def typeMask : Nat := 1

/-- What `cacheResult` returns (Node.cc:625-626, 706); it stores the code without `RES_UPDATED` (686). -/
def storeCode (c : Code) : Code := if c.ignoreType then c else c.withDeps typeMask

/-- The result after a call that may attach another. -/
def attach (old new : Option Rd) : Option Rd := match new with | none => old | some r => some r

/-- The bits of the status with some set. -/
def Status.or (s : Status) (x : Nat) : Status := ⟨s.res ||| x, s.fromCache⟩

/-- The handlers and the end of the function (Node.cc:1155-1197): a result of one failed vellset, an error posted, the
failure stored. -/
def handler (w : World) (st : Stage) (ret : Code) (calls : List Call) : End :=
  if w.store2 then .terminate                                                       -- 1186-1191
  else .returns ⟨(storeCode ret.withFail).withUpdated, some (.failure st), ⟨5, false⟩, some st,
    calls ++ [.store (storeCode ret.withFail).noUpdated (some (.failure st))]⟩

/-- Storing and returning a result (e.g. Node.cc:1148-1153). -/
def finish (w : World) (st : Stage) (ret : Code) (ref : Option Rd) (s : Status) (x : Nat) (calls : List Call) : End :=
  if w.store1 then handler w st ret calls
  else .returns ⟨(storeCode ret).withUpdated, ref, s.or x, none, calls ++ [.store (storeCode ret).noUpdated ref]⟩

/-- `exitAbort` (Node.h:821-831): its result is a local variable; the status keeps the bits it has. -/
def exitAbort (ref : Option Rd) (s : Status) (calls : List Call) : End :=
  .returns ⟨⟨false, false, false, false, true, false, 0⟩, ref, s.or 3, none, calls⟩

/-- The end of request processing (Node.cc:1135-1153). -/
def finishOff (w : World) (st : Stage) (ret : Code) (ref : Option Rd) (s : Status) (x : Nat) (calls : List Call) : End :=
  if w.abort3 then exitAbort ref s calls
  else finish w st ret (attach (some .empty) ref) s x calls

/-- Evaluation (Node.cc:1060-1135). -/
def evaluate (w : World) (ret : Code) (ref : Option Rd) (s : Status) (calls : List Call) : End :=
  if w.hasCells then
    (if !w.cellsAgree then handler w .polling ret calls
    else if w.evaluates then
      (match w.get with
      | .throws => handler w .getting ret (calls ++ [.get])
      | .ok (code, r) =>
        (if code.wait then .returns ⟨ret.or code, attach ref r, s.or 2, none, calls ++ [.get]⟩
        else finishOff w .getting (ret.or code) (attach ref r) s (if (ret.or code).fail then 5 else 1) (calls ++ [.get])))
    else if w.discovers then
      (match w.discover with
      | .throws => handler w .discovering ret (calls ++ [.discover])
      | .ok (code, r) => finishOff w .discovering ((ret.or code).withDeps w.ownDeps) (attach ref r) s (if (ret.or code).fail then 5 else 1) (calls ++ [.discover]))
    else finishOff w .polling ret ref s (if ret.fail then 5 else 1) calls)
  else finishOff w .polling ret ref s 3 calls

/-- Polling children and what follows (Node.cc:1020-1058). -/
def pollAnd (w : World) (ret : Code) (ref : Option Rd) (s : Status) (calls : List Call) : End :=
  match w.poll with
  | .throws => handler w .polling ret (calls ++ [.poll])
  | .ok (code, r) =>
    if w.abort2 then exitAbort (attach ref r) s (calls ++ [.poll])
    else if (ret.or code).wait then .returns ⟨ret.or code, attach ref r, s.or 2, none, calls ++ [.poll]⟩
    else if (ret.or code).fail then finish w .polling (ret.or code) (attach ref r) s 5 (calls ++ [.poll])
    else if (ret.or code).missing then finish w .polling (ret.or code) (some .missing) s 4 (calls ++ [.poll])
    else evaluate w ((ret.or code).withDeps w.ownDeps) (attach ref r) s (calls ++ [.poll])

/-- After the rider (Node.cc:1009-1026): a deactivated node returns; the code is forgotten if the request has cells.
`st` is the last stage. -/
def afterRider (w : World) (st : Stage) (ret : Code) (ref : Option Rd) (s : Status) (calls : List Call) : End :=
  if !w.active then finish w st ret (attach (some .empty) ref) s 3 calls
  else pollAnd w (if w.hasCells then .zero else ret) ref s calls

/-- The rider of a new request (Node.cc:988-1008). -/
def doRider (w : World) (s : Status) (calls : List Call) : End :=
  if w.newRequest then
    (match w.rider with
    | none => afterRider w .cache .zero none s calls
    | some .throws => handler w .rider .zero (calls ++ [.rider])
    | some (.ok (code, r)) => afterRider w .rider code r s (calls ++ [.rider]))
  else afterRider w .cache .zero none s calls

/-- `Node::execute` (Node.cc:920-1197), called with an empty reference. -/
def execute (w : World) (s : Status) : End :=
  if !w.inited then .terminate                                                      -- 951
  else if w.abort1 then exitAbort none s []                                         -- 960-961
  else match w.cache with
  | .throws => handler w .cache .zero [.checkCache]
  | .ok (some (code, r)) => .returns ⟨code, r, ⟨s.res, true⟩, none, [.checkCache]⟩  -- 977-984
  | .ok none => doRider w ⟨0, false⟩ [.checkCache]                                  -- 989

end Verif.Execute
