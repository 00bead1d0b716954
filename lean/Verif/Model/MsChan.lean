import Verif.Model.Outcome
import Mathlib.Algebra.Order.Ring.Rat

/-!
# Reading and writing of measurement sets

`/repo/AppAgent/AppUtils/src/MSInputChannel.cc` (`fillHeader`, `openMS`, `refillStream`) and
`MSOutputChannel.cc` (`doPutHeader`, `putColumn`, `doPutTile`).

Simplifications: times are rational; a cell of the data column is the list of its channels, with all
correlations of a channel as one value; the columns for `UVW`, weights, intervals and predicted data, the
tapering and the inversion of phases, and further selections of rows by a string are left out.  `casacore` is
taken by its documentation: `Table::sort` returns a new table (whose result line 237 drops),
`TableIterator` goes through the times in increasing order.
-/
namespace Verif.MsChan

variable {γ : Type}

/-! ### Channels -/

/-- The selected channels (MSInputChannel.cc lines 134-145), `n` channels, first and last as given. -/
def selChannels (n c0 c1 : Int) : Int × Int :=
  let c0 := if c0 < 0 then 0 else c0
  let c1 := if c1 < 0 then n + c1 else c1
  let c0 := if c0 > n then n - 1 else c0
  let c1 := if c1 > n then n - 1 else c1
  if c1 < c0 then (c1, c0) else (c0, c1)

/-- The range of channels that is read and written: first, number, increment
(`LoRange` line 510; `Slicer` MSOutputChannel.cc lines 214-217), and whether their order is reversed. -/
structure Chans where
  first : Nat
  count : Nat
  incr : Nat
  flip : Bool

/-- `cube(ALL,CHANS,ALL)` for one row (lines 645-647), reversed if asked to (lines 658-667). -/
def Chans.read (c : Chans) (xs : List γ) : List γ :=
  let ys := (List.range c.count).filterMap (fun k => xs[c.first + k * c.incr]?)
  if c.flip then ys.reverse else ys

/-- `putSlice` from its `k`-th channel on: each value goes to its channel. -/
def putFrom (c : Chans) (k : Nat) (xs : List γ) : List γ → List γ
  | [] => xs
  | y :: ys => putFrom c (k + 1) (xs.set (c.first + k * c.incr) y) ys

/-- `putColumn` (MSOutputChannel.cc lines 290-305). -/
def Chans.write (c : Chans) (xs ys : List γ) : List γ :=
  putFrom c 0 xs (if c.flip then ys.reverse else ys)

/-! ### Rows and their selection -/

/-- A row of the main table. -/
structure Row (γ : Type) where
  time : Rat
  exposure : Rat
  field : Int
  ddid : Int
  a1 : Int
  a2 : Int
  data : List γ

/-- What is asked for (lines 199-205, 424-431). -/
structure Sel where
  field : Int
  ddid : Int
  autocorr : Bool
  tilesize : Nat
  tilesegs : Nat
  incr : Nat
  nant : Nat

/-- Line 431: one timeslot to a tile by default.  Simplification: no negative numbers. -/
def Sel.size (q : Sel) : Nat := if q.tilesize = 0 ∧ q.tilesegs = 0 then 1 else q.tilesize

/-- Lines 230-234. -/
def Sel.has (q : Sel) (r : Row γ) : Bool :=
  decide (r.field = q.field) && decide (r.ddid = q.ddid) && (q.autocorr || decide (r.a1 ≠ r.a2))

/-- `selms_`, with the numbers of rows in the whole table. -/
def selected (q : Sel) (ms : List (Row γ)) : List (Nat × Row γ) :=
  (ms.zipIdx.map (fun x => (x.2, x.1))).filter (fun x => q.has x.2)

/-! ### The sizes of tiles (lines 306-388) -/

/-- Variables of the loop.  `closed`: sizes of tiles before the current one.  `over`: an element behind the end
of `tile_sizes_` was written. -/
structure Til where
  first : Bool
  skip : Nat
  cur : Rat
  slots : Nat
  closed : List Nat
  size : Nat
  nsub : Nat
  seg : Nat
  delta : Rat
  over : Bool

def Til.init : Til :=
  { first := true, skip := 0, cur := 0, slots := 0, closed := [], size := 0, nsub := 0, seg := 0, delta := -1,
    over := false }

/-- `tile_sizes_[++current_tile] = 0`; the vector has `nrows` elements. -/
def Til.next (nrows : Nat) (s : Til) : Til :=
  { s with closed := s.closed ++ [s.size], size := 0, over := s.over || decide (nrows ≤ s.closed.length + 1) }

/-- Lines 352-371: segments. -/
def Til.segment (nrows segs : Nat) (delta : Rat) (s : Til) : Til :=
  if s.seg = 2 then { s with delta := delta }
  else if 2 < s.seg ∧ 1 / 10 < |delta - s.delta| then
    let s := { s with nsub := s.nsub + 1, seg := 1 }
    if segs ≠ 0 ∧ segs ≤ s.nsub then { s.next nrows with nsub := 0 } else s
  else s

/-- Lines 372-381. -/
def Til.add (nrows size : Nat) (s : Til) : Til :=
  let s := { s with size := s.size + 1 }
  if s.size = size then { s.next nrows with nsub := 0, seg := 0 } else s

/-- The body of the loop. -/
def Til.step (nrows size segs incr : Nat) (s : Til) (tm : Rat) : Til :=
  if s.first = false ∧ tm = s.cur then s
  else if s.skip + 1 < incr then { s with first := false, skip := s.skip + 1 }
  else
    let delta := tm - s.cur
    let s := { s with first := false, skip := 0, cur := tm, slots := s.slots + 1, seg := s.seg + 1 }
    (s.segment nrows segs delta).add nrows size

/-- The whole loop, with lines 382-386: the sizes of tiles. -/
def tiling (nrows size segs incr : Nat) (times : List Rat) : Res (List Nat) :=
  let s := times.foldl (Til.step nrows size segs incr) Til.init
  if s.over then .ub
  else .ok (if s.size ≠ 0 then s.closed ++ [s.size] else s.closed)

/-- `openMS`: fails without rows (lines 265-268). -/
def openMS (q : Sel) (ms : List (Row γ)) : Res (List Nat) :=
  let rs := selected q ms
  if rs.isEmpty then .err
  else tiling rs.length q.size q.tilesegs (if q.incr < 1 then 1 else q.incr) (rs.map (fun x => x.2.time))

/-! ### Tiles -/

/-- Insertion into increasing times. -/
def insertTime (t : Rat) : List Rat → List Rat
  | [] => [t]
  | u :: us => if t < u then t :: u :: us else if t = u then u :: us else u :: insertTime t us

/-- The times at which the iterator stops. -/
def iterTimes (rs : List (Nat × Row γ)) : List Rat := rs.foldl (fun ts x => insertTime x.2.time ts) []

/-- `TableIterator(selms_, "TIME")`: the rows of each time. -/
def iterate (rs : List (Nat × Row γ)) : List (Rat × List (Nat × Row γ)) :=
  (iterTimes rs).map (fun t => (t, rs.filter (fun x => decide (x.2.time = t))))

/-- A row of a tile: number of the timeslot, data, row of the table. -/
structure TRow (γ : Type) where
  slot : Nat
  data : List γ
  seqnr : Nat
deriving DecidableEq

/-- `rows` has `none` where the row is missing; `times` are the same for all tiles of a chunk, 0 where no tile
has a row. -/
structure Tile (γ : Type) where
  a1 : Nat
  a2 : Nat
  no : Nat
  times : List Rat
  rows : List (Option (TRow γ))
deriving DecidableEq

/-- The baselines in the order of `ifrNumber` (`/repo/VisCube/src/VisVocabulary.h` lines 176-181), by which
`tiles_` is indexed. -/
def pairs (nant : Nat) : List (Nat × Nat) :=
  (List.range nant).flatMap (fun a => (List.range (a + 1)).flatMap (fun b => if a = b then [(a, b)] else [(a, b), (b, a)]))

/-- The row of a baseline among those of a timeslot: a later one overwrites an earlier one (lines 674-731).
Rows with invalid antennas belong to no baseline. -/
def lastRow (p : Nat × Nat) (g : List (Nat × Row γ)) : Option (Nat × Row γ) :=
  (g.filter (fun x => decide (x.2.a1 = (p.1 : Int) ∧ x.2.a2 = (p.2 : Int)))).getLast?

/-- The rows of a tile with `n` timeslots, of which `gs` are found; the first has the number `ts`.  Numbers of
timeslots are multiples of the increment (line 707). -/
def tileRows (c : Chans) (incr : Nat) (p : Nat × Nat) : Nat → Nat → List (Rat × List (Nat × Row γ)) →
    List (Option (TRow γ))
  | _, 0, _ => []
  | ts, n + 1, [] => none :: tileRows c incr p ts n []
  | ts, n + 1, g :: gs =>
    (lastRow p g.2).map (fun x => ⟨ts * incr, c.read x.2.data, x.1⟩) :: tileRows c incr p (ts + 1) n gs

/-- `tile_times` (lines 523-524, 540). -/
def tileTimes : Nat → List (Rat × List (Nat × Row γ)) → List Rat
  | 0, _ => []
  | n + 1, [] => 0 :: tileTimes n []
  | n + 1, g :: gs => g.1 :: tileTimes n gs

/-- Lines 525, 733-736: up to `n` timeslots are taken, and of each `incr` ones the first. -/
def takeSlots {σ : Type} (incr : Nat) : Nat → List σ → List σ × List σ
  | 0, gs => ([], gs)
  | _ + 1, [] => ([], [])
  | n + 1, g :: gs => ((g :: (takeSlots incr n (gs.drop (incr - 1))).1), (takeSlots incr n (gs.drop (incr - 1))).2)

/-- The tiles of a chunk that are put on the stream (lines 745-750, 805-808). -/
def chunk (q : Sel) (c : Chans) (no ts n : Nat) (gs : List (Rat × List (Nat × Row γ))) : List (Tile γ) :=
  (pairs q.nant).filterMap (fun p =>
    let rows := tileRows c (if q.incr < 1 then 1 else q.incr) p ts n gs
    if rows.any Option.isSome then some ⟨p.1, p.2, no, tileTimes n gs, rows⟩ else none)

/-- `refillStream` until the footer: the tiles on the stream.  `err`: more timeslots than `openMS` found
(lines 516-517). -/
def stream (q : Sel) (c : Chans) : Nat → Nat → List Nat → List (Rat × List (Nat × Row γ)) → Res (List (Tile γ))
  | _, _, _, [] => .ok []
  | _, _, [], _ :: _ => .err
  | no, ts, n :: ns, g :: gs =>
    let r := takeSlots (if q.incr < 1 then 1 else q.incr) n (g :: gs)
    match stream q c (no + 1) (ts + r.1.length) ns r.2 with
    | .ok tiles => .ok (chunk q c no ts n r.1 ++ tiles)
    | .err => .err
    | .ub => .ub

/-- All of it. -/
def readMS (q : Sel) (c : Chans) (ms : List (Row γ)) : Res (List (Tile γ)) :=
  match openMS q ms with
  | .ok sizes => stream q c 0 0 sizes (iterate (selected q ms))
  | .err => .err
  | .ub => .ub

/-! ### Writing (MSOutputChannel.cc lines 308-425) -/

/-- A row that is not missing goes to the row of the table it came from. -/
def putRow (c : Chans) (ms : List (Row γ)) : Option (TRow γ) → List (Row γ)
  | none => ms
  | some x => ms.modify x.seqnr (fun r => { r with data := c.write r.data x.data })

def putTile (c : Chans) (ms : List (Row γ)) (t : Tile γ) : List (Row γ) := t.rows.foldl (putRow c) ms

def writeMS (c : Chans) (ms : List (Row γ)) (tiles : List (Tile γ)) : List (Row γ) := tiles.foldl (putTile c) ms

/-! ### Flags of one cell -/

/-- Parameters of the input (MSInputChannel.cc lines 432-434); `useBits`: the columns exist and could be read. -/
structure InPar where
  useBits : Bool
  mask : BitVec 32
  legacy : BitVec 32
  tile : BitVec 32

/-- Lines 589-630: the flag of a tile, from `BITFLAG` and `FLAG`. -/
def inFlag (p : InPar) (bits : BitVec 32) (flag : Bool) : BitVec 32 :=
  let b : BitVec 32 :=
    if p.useBits ∧ p.mask ≠ 0 then
      (let m := bits &&& p.mask
       if p.tile ≠ 0 then (if m ≠ 0 then p.tile else 0) else m)
    else 0
  if p.legacy ≠ 0 then b ||| (if flag then p.legacy else 0) else b

/-- Parameters of the output (MSOutputChannel.cc lines 223-245); `useBits`: the columns exist and are used. -/
structure OutPar where
  useBits : Bool
  writeBits : Bool
  writeLegacy : Bool
  legacyMask : BitVec 32
  msMask : BitVec 32
  tileMask : BitVec 32
  tileBit : BitVec 32

/-- The four columns at a cell: `BITFLAG_ROW`, `BITFLAG`, `FLAG_ROW`, `FLAG`. -/
structure Flags where
  rowBits : BitVec 32
  bits : BitVec 32
  rowFlag : Bool
  flag : Bool

/-- Lines 329-415 for one cell of a row, whose flag in the tile is `f`, with the flag `rf` of the row.
Simplification: `BITFLAG` can be read. -/
def outFlags (p : OutPar) (rf f : BitVec 32) (s : Flags) : Flags :=
  if p.useBits then
    let rflag := (s.rowBits &&& p.msMask) ||| (if rf &&& p.tileMask ≠ 0 then p.tileBit else 0)
    let s1 : Flags × BitVec 32 × BitVec 32 :=
      if p.writeBits then
        let rflag := (rflag &&& p.msMask) ||| (if rf &&& p.tileMask ≠ 0 then p.tileBit else 0)
        let bits := (s.bits &&& p.msMask) |||
          (if p.tileMask ≠ 0 then (if f &&& p.tileMask ≠ 0 then p.tileBit else 0) else 0)
        ({ s with rowBits := rflag, bits := bits }, rflag, bits)
      else (s, rflag, s.bits)
    if p.writeLegacy then
      { s1.1 with rowFlag := decide (s1.2.1 &&& p.legacyMask ≠ 0), flag := decide (s1.2.2 &&& p.legacyMask ≠ 0) }
    else s1.1
  else if p.writeLegacy then
    { s with rowFlag := decide (rf &&& p.tileMask ≠ 0), flag := decide (f &&& p.tileMask ≠ 0) }
  else s

end Verif.MsChan
