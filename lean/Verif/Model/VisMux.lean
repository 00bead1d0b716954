import Verif.Model.Outcome
/-!
# Visibility streams (MeqServer/src/VisDataMux.cc, VisDataMux.h; VisCube/src/VisVocabulary.h)

The node that reads a stream of headers, tiles and footers, gives them to the nodes for the baselines, runs the tree on every
snippet and writes the output stream.  What the nodes, children, Python handlers and the output channel do when called is an
input (`Env`), which may depend on everything that happened before (`trace`).  Left out: the abort flag of the forest, status events,
counters other than the number of tiles, timers and logging, and everything in a header but the number of stations and whether
the fields that must be there are (`good`).
-/
namespace Verif.VisMux

/-- `ifrNumber` (VisVocabulary.h:176-181). -/
def ifrNumber (a b : Int) : Int :=
  if a < b then 2 * (b * (b + 1) / 2 + a) + 1 else 2 * (a * (a + 1) / 2 + b)

/-- A header: number of stations (0: not given), whether all the other fields are there, and the rest. -/
structure Header where
  stations : Nat
  good : Bool
  tag : Nat
  deriving DecidableEq, Repr

/-- A tile: the antennas, the sequence number, for each row whether its time is not 0, whether cells can be made of it (`setCells`,
`recomputeSegments`, `recomputeDomain` throw or not), and the rest. -/
structure Tile where
  a1 : Int
  a2 : Int
  seq : Int
  rows : List Bool
  good : Bool
  tag : Nat
  deriving DecidableEq, Repr

/-- `formDataId` of a tile (VisDataMux.h:104-105). -/
def Tile.did (t : Tile) : Int := ifrNumber t.a1 t.a2

/-- A request identifier: its data set component and its domain component (VisDataMux.cc:266-269, 428-429). -/
structure Rq where
  dataset : Nat
  domain : Nat
  deriving DecidableEq, Repr

/-- An event of the output stream. -/
inductive Out where
  | header (h : Header)
  | tile (t : Tile)
  | footer (f : Nat)
  deriving DecidableEq, Repr

/-- What the node does that others see: calls of Python, of the nodes for the baselines, of the children, and posting to the output. -/
inductive Obs where
  | pyHeader (h : Header)
  | pyTile (t : Tile)
  | pyFooter (f : Nat)
  | header (n : Nat) (h : Header)
  | tile (n : Nat) (t : Tile) (rq : Rq) (range : Nat × Nat)
  | footer (n : Nat) (f : Nat)
  | start (rq : Rq)
  | pre (rq : Rq)
  | poll (c : Nat) (rq : Rq)
  | post (rq : Rq)
  | out (e : Out)
  | outFails (e : Out)
  deriving DecidableEq, Repr

/-- What a sink returns when it is run: a failure, a tile to be written, or neither. -/
inductive SinkRes where
  | fail
  | nothing
  | tile (t : Tile)
  deriving DecidableEq, Repr

/-- What everything called does: whether a call throws or ends with a failure, what a sink returns, whether posting to the output throws,
and in which order the results of the sinks come in. -/
structure Env where
  throws : List Obs → Obs → Bool
  sink : List Obs → Nat → SinkRes
  outThrows : List Obs → Out → Bool
  closeThrows : List Obs → Bool
  order : Rq → List Nat → List Nat

/-- What is set before the stream begins: the children that are there, the output, and `max_tiles_` (`none`: negative). -/
structure Conf where
  hasStart : Bool
  hasPre : Bool
  hasPost : Bool
  hasOut : Bool
  max : Option Nat
  deriving DecidableEq, Repr

/-- The state (VisDataMux.h:114-160).  `handlers` and `kids` are `handlers_` and `child_indices_`; `err` says whether the event at hand
has had errors, `fails` whether an earlier one had; `inData` is `stream_state == DATA`; `fatal`: an exception ended the loop. -/
structure St where
  handlers : List (List Nat)
  kids : List (List Nat)
  have_ : List Bool
  cached : Option Header
  seqnr : Int
  next : Rq
  req : Option Rq
  range : Nat × Nat
  numTiles : Nat
  inData : Bool
  hadData : Bool
  err : Bool
  fails : Bool
  fatal : Bool
  trace : List Obs
  deriving DecidableEq, Repr

/-- A call, and whether it throws (`CatchExceptions`, VisDataMux.cc:222-249). -/
def call (v : Env) (o : Obs) (s : St) : St := { s with trace := s.trace ++ [o], err := s.err || v.throws s.trace o }

/-- Calls one after the other. -/
def calls (v : Env) (l : List Obs) (s : St) : St := l.foldl (fun s o => call v o s) s

/-- `vector::resize`. -/
def resize (l : List (List Nat)) (n : Nat) : List (List Nat) := l.take n ++ List.replicate (n - l.length) []

/-- The number of data ids for a header (VisDataMux.cc:254-272). -/
def maxDid (h : Header) : Nat :=
  let n : Int := if 0 < h.stations then h.stations else 30
  (ifrNumber (n - 1) (n - 1) + 1).toNat

/-- `deliverHeader` (VisDataMux.cc:249-339).  A header without the fields that must be there makes it throw after the tables have been
resized. -/
def deliverHeader (v : Env) (h : Header) (s : St) : St :=
  let m := maxDid h
  let s := { s with next := ⟨s.next.dataset + 1, 0⟩, seqnr := -1, have_ := List.replicate m false
                    handlers := resize s.handlers m, kids := resize s.kids m }
  if h.good then { calls v (s.handlers.flatten.map fun n => .header n h) s with cached := some h }
  else { s with err := true }

/-- The rows `fillCells` uses (VisDataMux.cc:562-571): from the first to the last with a time; `none`: there are none, and the loops read
past both ends of the array. -/
def validRows (rows : List Bool) : Option (Nat × Nat) :=
  if rows.any id then some (rows.findIdx id, rows.length - 1 - rows.reverse.findIdx id) else none

/-- `startSnippet` (VisDataMux.cc:421-466), `none`: undefined behaviour.  The rows are set before the cells are made, the request, the
flags and the child come after. -/
def startSnippet (v : Env) (c : Conf) (t : Tile) (s : St) : Option St :=
  let rq := s.next
  let s := { s with next := ⟨rq.dataset, rq.domain + 1⟩ }
  match validRows t.rows with
  | none => none
  | some r =>
    let s := { s with range := r }
    if t.good then
      let s := { s with req := some rq, have_ := List.replicate s.handlers.length false }
      some (if c.hasStart then call v (.start rq) s else s)
    else some { s with err := true }

/-- The children enabled for a snippet (VisDataMux.cc:501-511). -/
def enabled (s : St) : List Nat := ((s.kids.zip s.have_).filter (·.2)).flatMap (·.1)

/-- Posting to the output; the flag says whether it went well. -/
def postOut (v : Env) (e : Out) (s : St) : St × Bool :=
  if v.outThrows s.trace e then ({ s with trace := s.trace ++ [.outFails e], err := true }, false)
  else ({ s with trace := s.trace ++ [.out e] }, true)

/-- The header, if it has not been written (VisDataMux.cc:541-545). -/
def postHeader (v : Env) (s : St) : St × Bool :=
  match s.cached with
  | none => (s, true)
  | some h => let p := postOut v (.header h) s
              if p.2 then ({ p.1 with cached := none }, true) else p

/-- A sink is run and its result looked at (VisDataMux.cc:519-549). -/
def pollSink (v : Env) (c : Conf) (rq : Rq) (s : St) (i : Nat) : St :=
  let r := v.sink s.trace i
  let s := { s with trace := s.trace ++ [.poll i rq] }
  match r with
  | .fail => { s with err := true }
  | .nothing => s
  | .tile t =>
    if c.hasOut then
      let p := postHeader v s
      if p.2 then (postOut v (.tile t) p.1).1 else p.1
    else s

/-- `endSnippet` (VisDataMux.cc:468-560).  Without a request the reference is not valid and `startAsyncPoll(*current_req_,..)` throws. -/
def endSnippet (v : Env) (c : Conf) (s : St) : St :=
  match s.req with
  | none => { s with err := true }
  | some rq =>
    let s := if c.hasPre then call v (.pre rq) s else s
    let s := (v.order rq (enabled s)).foldl (pollSink v c rq) s
    if c.hasPost then call v (.post rq) s else s

/-- `max_tiles_` is set and exceeded (VisDataMux.cc:345, 372). -/
def over (c : Conf) (n : Nat) : Bool := match c.max with | none => false | some m => decide (m < n)

/-- Giving a tile to the nodes of its baseline (VisDataMux.cc:379-390); without a request `*current_req_` throws for each. -/
def toHandlers (v : Env) (t : Tile) (l : List Nat) (s : St) : St :=
  match s.req with
  | none => if l.isEmpty then s else { s with err := true }
  | some rq => calls v (l.map fun n => .tile n t rq s.range) s

/-- The last part of `deliverTile` (VisDataMux.cc:379-394): reading and writing the tables outside their range is undefined. -/
def handTile (v : Env) (t : Tile) (s : St) : Option St :=
  if t.did < 0 then none
  else
    match s.handlers[t.did.toNat]? with
    | none => none
    | some l => some (toHandlers v t l { s with have_ := s.have_.set t.did.toNat true })

/-- `deliverTile` (VisDataMux.cc:342-395).  When the last tile allowed is followed by another one, the errors of its snippet are lost
(:372-373). -/
def deliverTile (v : Env) (c : Conf) (t : Tile) (s : St) : Option St :=
  if over c s.numTiles then some s
  else if (s.handlers.length : Int) < t.did then some s
  else if t.seq = s.seqnr then handTile v t s
  else
    let e := s.err
    let s := if 0 ≤ s.seqnr then endSnippet v c s else s
    let s := { s with numTiles := s.numTiles + 1 }
    if over c s.numTiles then some { s with err := e }
    else (startSnippet v c t { s with seqnr := t.seq }).bind (handTile v t)

/-- `deliverFooter` (VisDataMux.cc:397-419). -/
def deliverFooter (v : Env) (c : Conf) (f : Nat) (s : St) : St :=
  let s :=
    if over c s.numTiles then s
    else
      let s := if 0 ≤ s.seqnr then endSnippet v c s else s
      calls v (s.handlers.flatten.map fun n => .footer n f) s
  if c.hasOut then (postOut v (.footer f) s).1 else s

/-- An event of the input. -/
inductive In where
  | header (h : Header)
  | tile (t : Tile)
  | footer (f : Nat)
  | other
  deriving DecidableEq, Repr

/-- Errors of an event go to the list of failures (VisDataMux.cc:754-759). -/
def settle (s : St) : St := { s with fails := s.fails || s.err, err := false }

/-- An event of the input stream (VisDataMux.cc:671-759). -/
def event (v : Env) (c : Conf) (s : St) : In → Option St
  | .other => some s
  | .tile t =>
    if s.inData then (deliverTile v c t (call v (.pyTile t) s)).map settle
    else some { s with fatal := true }
  | .footer f =>
    if s.inData then some (settle (deliverFooter v c f (call v (.pyFooter f) { s with inData := false })))
    else some { s with fatal := true }
  | .header h =>
    if s.inData then some { s with hadData := true, fatal := true }
    else
      let s := call v (.pyHeader h) { s with hadData := true, inData := true }
      some (settle { deliverHeader v h s with numTiles := 0 })

/-- The loop (VisDataMux.cc:654-760): an exception ends it. -/
def loop (v : Env) (c : Conf) (s : St) : List In → Option St
  | [] => some s
  | e :: l => if s.fatal then some s else (event v c s e).bind fun s => loop v c s l

/-- What is left of the call: the state, whether the node returns a failure, and whether the output was closed (not aborted). -/
structure Done where
  st : St
  failed : Bool
  closed : Bool
  deriving DecidableEq, Repr

/-- The end of `pollChildren` (VisDataMux.cc:761-826); `ends`: the input was closed (and did not fail). -/
def finish (v : Env) (c : Conf) (ends : Bool) (s : St) : Done :=
  if s.fatal || !ends then ⟨s, true, false⟩
  else if s.fails || s.inData || !s.hadData then ⟨s, true, false⟩
  else if c.hasOut && v.closeThrows s.trace then ⟨s, true, false⟩
  else ⟨s, false, c.hasOut⟩

/-- What `pollChildren` (VisDataMux.cc:617-653) sets before the loop; the rest is left from earlier streams. -/
def begin (s : St) : St :=
  { s with cached := none, inData := false, hadData := false, err := false, fails := false, fatal := false, trace := [] }

/-- `pollChildren` for a request with an input (VisDataMux.cc:606-827). -/
def stream (v : Env) (c : Conf) (s : St) (l : List In) (ends : Bool) : Option Done :=
  (loop v c (begin s) l).map (finish v c ends)

/-- A sink or spigot node: its number, its data id, and whether it is a sink, which is then also its number as a child. -/
structure Node where
  id : Nat
  did : Nat
  sink : Bool
  deriving DecidableEq, Repr

/-- `l[i].insert(x)`, for a set kept as a list. -/
def insertAt (l : List (List Nat)) (i x : Nat) : List (List Nat) :=
  l.modify i fun s => if x ∈ s then s else s ++ [x]

/-- One node in `checkChildren` (VisDataMux.cc:189-225). -/
def attach (s : List (List Nat) × List (List Nat)) (n : Node) : List (List Nat) × List (List Nat) :=
  let grow (l : List (List Nat)) := if l.length ≤ n.did then resize l (n.did + 100) else l
  (insertAt (grow s.1) n.did n.id, if n.sink then insertAt (grow s.2) n.did n.id else s.2)

/-- The node after `checkChildren` (VisDataMux.cc:73-90, 181-226). -/
def St.init (nodes : List Node) : St :=
  let z := List.replicate (ifrNumber 30 30 + 1).toNat []
  let p := nodes.foldl attach (z, z)
  ⟨p.1, p.2, [], none, -1, ⟨0, 0⟩, none, (0, 0), 0, false, false, false, false, false, []⟩

end Verif.VisMux
