import Verif.Model.VisMux
/-! # Visibility streams: what is meant (C108 - C113) -/
namespace Verif.VisMux

/-- What concerns the tree: calls of the nodes for the baselines and of the children. -/
def Obs.tree : Obs → Bool
  | .header .. | .tile .. | .footer .. | .start _ | .pre _ | .poll .. | .post _ => true
  | _ => false

/-- The calls of the tree, in order. -/
def tree (l : List Obs) : List Obs := l.filter Obs.tree

/-- The output stream. -/
def outs (l : List Obs) : List Out := l.filterMap fun o => match o with | .out e => some e | _ => none

/-- The nodes in a table for a data id. -/
def nodesAt (l : List (List Nat)) (d : Int) : List Nat := if d < 0 then [] else l.getD d.toNat []

/-- The sinks whose baseline has a tile among `ts`, by data id. -/
def sinksOf (kids : List (List Nat)) (ts : List Tile) : List Nat :=
  (List.range kids.length).flatMap fun (i : Nat) => if ts.any (fun t => t.did == (i : Int)) then kids.getD i [] else []

/-- The rows of a snippet: those of its first tile. -/
def rowsOf : List Tile → Nat × Nat
  | [] => (0, 0)
  | t :: _ => (validRows t.rows).getD (0, 0)

/-- The call of a child that may not be there. -/
def ifThere (b : Bool) (o : Obs) : List Obs := if b then [o] else []

/-- What happens for the tiles of a snippet. -/
def opening (c : Conf) (handlers : List (List Nat)) (rq : Rq) (ts : List Tile) : List Obs :=
  ifThere c.hasStart (.start rq) ++ ts.flatMap fun t => (nodesAt handlers t.did).map fun n => .tile n t rq (rowsOf ts)

/-- What happens at its end. -/
def ending (v : Env) (c : Conf) (kids : List (List Nat)) (rq : Rq) (ts : List Tile) : List Obs :=
  ifThere c.hasPre (.pre rq) ++ (v.order rq (sinksOf kids ts)).map (fun i => .poll i rq) ++ ifThere c.hasPost (.post rq)

/-- What happens for the snippets of a data set, number `k` on. -/
def snippets (v : Env) (c : Conf) (handlers kids : List (List Nat)) (ds : Nat) : Nat → List (List Tile) → List Obs
  | _, [] => []
  | k, ts :: l => opening c handlers ⟨ds, k⟩ ts ++ ending v c kids ⟨ds, k⟩ ts ++ snippets v c handlers kids ds (k + 1) l

/-- Consecutive tiles with the same sequence number, put together: no part is empty, each has one sequence number, and that of the next part
is another one. -/
def Parts : List (List Tile) → Prop
  | [] => True
  | ts :: l => (∃ t r, ts = t :: r ∧ (∀ u ∈ r, u.seq = t.seq) ∧ ∀ u r' l', l = (u :: r') :: l' → u.seq ≠ t.seq) ∧ Parts l

/-- The number of stations a header announces. -/
def Header.count (h : Header) : Int := if 0 < h.stations then h.stations else 30

/-- Both antennas of a tile are among those announced. -/
def Tile.known (h : Header) (t : Tile) : Bool := decide (t.a1 < h.count) && decide (t.a2 < h.count)

/-- A tile as it should be: antennas and sequence number are not negative, some row has a time, and cells can be made of it. -/
def Tile.fine (t : Tile) : Prop := 0 ≤ t.a1 ∧ 0 ≤ t.a2 ∧ 0 ≤ t.seq ∧ true ∈ t.rows ∧ t.good = true

/-- A data set: header, tiles, footer. -/
structure Dataset where
  header : Header
  tiles : List Tile
  footer : Nat

/-- Its events. -/
def Dataset.events (d : Dataset) : List In := .header d.header :: d.tiles.map .tile ++ [.footer d.footer]

/-- Consecutive tiles with the same sequence number, put together. -/
def group : List Tile → List (List Tile)
  | [] => []
  | t :: l =>
    match group l with
    | (u :: r) :: g => if u.seq = t.seq then (t :: u :: r) :: g else [t] :: (u :: r) :: g
    | g => [t] :: g

/-- Its snippets: tiles of antennas that were not announced do not count. -/
def Dataset.snippets (d : Dataset) : List (List Tile) := group (d.tiles.filter (Tile.known d.header))

/-- The snippets of `l` that are taken if `k` have been before. -/
def taken (c : Conf) (k : Nat) (l : List (List Tile)) : List (List Tile) :=
  match c.max with
  | none => l
  | some m => l.take (m - k)

/-- The footer for the nodes. -/
def footers (hs : List (List Nat)) (f : Nat) : List Obs := hs.flatten.map fun n => .footer n f

/-- The header for the nodes. -/
def headers (hs : List (List Nat)) (h : Header) : List Obs := hs.flatten.map fun n => .header n h

/-- What the tree sees of a data set: the header, the snippets that are taken, and the footer unless there were more snippets. -/
def Dataset.calls (d : Dataset) (v : Env) (c : Conf) (hs ks : List (List Nat)) (ds : Nat) : List Obs :=
  headers hs d.header ++ VisMux.snippets v c hs ks ds 0 (taken c 0 d.snippets) ++
    (if over c d.snippets.length then [] else footers hs d.footer)

/-- A data set as it should be. -/
def Dataset.fine (d : Dataset) : Prop := d.header.good = true ∧ ∀ t ∈ d.tiles, t.fine

/-- Calls of the node `n` for its baseline. -/
def Obs.isFor (n : Nat) : Obs → Bool
  | .header m _ => m == n
  | .tile m _ _ _ => m == n
  | .footer m _ => m == n
  | _ => false

/-- What node `n` for data id `i` should see of the snippets of a data set, number `k` on: the tiles of its baseline, each with the request of
its snippet. -/
def nodeTiles (n i ds : Nat) : Nat → List (List Tile) → List Obs
  | _, [] => []
  | k, ts :: l => (ts.filter fun t => t.did == (i : Int)).map (fun t => .tile n t ⟨ds, k⟩ (rowsOf ts)) ++ nodeTiles n i ds (k + 1) l

/-- What it should see of a data set. -/
def nodeSees (c : Conf) (n i ds : Nat) (d : Dataset) : List Obs :=
  .header n d.header :: nodeTiles n i ds 0 (taken c 0 d.snippets) ++ (if over c d.snippets.length then [] else [.footer n d.footer])

/-- What it should see of several, number `ds` on. -/
def nodeSeesAll (c : Conf) (n i : Nat) : Nat → List Dataset → List Obs
  | _, [] => []
  | ds, d :: l => nodeSees c n i ds d ++ nodeSeesAll c n i (ds + 1) l

/-- The node is in the table at data id `i`, once, and nowhere else. -/
def Attached (hs : List (List Nat)) (n i : Nat) : Prop := n ∈ hs.getD i [] ∧ hs.flatten.count n = 1

/-- Between two data sets (or before the first). -/
def Between (s : St) : Prop := s.inData = false ∧ s.fatal = false

/-- The sequence of output events is made of data sets: header, tiles, footer. -/
inductive OutForm where
  | idle
  | open_
  | broken
  deriving DecidableEq, Repr

/-- One event of the output; `lone`: a footer without a header is allowed. -/
def outStep (lone : Bool) : OutForm → Out → OutForm
  | .idle, .header _ => .open_
  | .idle, .footer _ => if lone then .idle else .broken
  | .open_, .tile _ => .open_
  | .open_, .footer _ => .idle
  | _, _ => .broken

/-- The form of an output stream. -/
def outForm (lone : Bool) (l : List Out) : OutForm := l.foldl (outStep lone) .idle

/-- A call, after the calls `p`, went well. -/
def wentWell (v : Env) (p : List Obs) : Obs → Bool
  | .poll i _ => decide (v.sink p i ≠ .fail)
  | .out _ => true
  | .outFails _ => false
  | o => !v.throws p o

/-- Every call in the trace went well. -/
def AllWell (v : Env) (l : List Obs) : Prop := ∀ p o q, l = p ++ o :: q → wentWell v p o = true

/-- The headers and tiles that should be written for the calls `l` after the calls `p`: the tiles the sinks return, the first after a header
of the input together with that header (`pending`). -/
def wanted (v : Env) (p : List Obs) (pending : Option Header) : List Obs → List Out
  | [] => []
  | .pyHeader h :: l => wanted v (p ++ [.pyHeader h]) (some h) l
  | .poll i rq :: l =>
    match v.sink p i with
    | .tile t => (pending.map Out.header).toList ++ .tile t :: wanted v (p ++ [.poll i rq]) none l
    | _ => wanted v (p ++ [.poll i rq]) pending l
  | o :: l => wanted v (p ++ [o]) pending l

/-- Not a footer. -/
def Out.isData : Out → Bool
  | .footer _ => false
  | _ => true

/-- The children run for a request. -/
def polled (rq : Rq) (l : List Obs) : List Nat := l.filterMap fun o => match o with | .poll i r => if r = rq then some i else none | _ => none

/-- The nodes for a data id, in the order they were attached. -/
def idsAt (nodes : List Node) (d : Nat) : List Nat := (nodes.filter fun n => n.did == d).map (·.id)

/-- Tiles have antennas, and some row with a time. -/
def In.safe : In → Prop
  | .tile t => 0 ≤ t.a1 ∧ 0 ≤ t.a2 ∧ true ∈ t.rows
  | _ => True

/-- Headers have all fields. -/
def In.headerGood : In → Prop
  | .header h => h.good = true
  | _ => True

/-- An event as it should be. -/
def In.fine : In → Prop
  | .header h => h.good = true
  | .tile t => t.fine
  | _ => True

/-- What a node should see of several data sets, some of which do not have its baseline. -/
def nodeSeesKnown (c : Conf) (n i : Nat) : Nat → List Dataset → List Obs
  | _, [] => []
  | ds, d :: l => (if i < maxDid d.header then nodeSees c n i ds d else []) ++ nodeSeesKnown c n i (ds + 1) l

/-- The tiles given to nodes: tile, request, rows. -/
def tilesGiven (l : List Obs) : List (Tile × Rq × (Nat × Nat)) := l.filterMap fun o => match o with | .tile _ t rq r => some (t, rq, r) | _ => none

end Verif.VisMux
