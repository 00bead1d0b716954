import Verif.Model.Outcome
/-!
# Tiles of visibility data

`VisCube/src/ColumnarTableTile.cc`, `ColumnarTableTile.h`, `TableFormat.cc`, `VTile.cc` and `VTile.h`: tables whose columns lie one
after the other in a block of memory.  Blocks are shared between tiles, and with messages, and copied when written to.  A tile has
pointers to its columns (`pdata`) and, being a `VTile`, arrays that refer to the same memory.

Simplifications: bytes are numbers and a block is a function from offsets; the number of rows and the identifier in a block's header
are kept beside its bytes; identifiers given to `init` have at most 16 parts; a tile copied onto itself is taken as undefined; after
an exception nothing more is said; locks are left out, and so are `ncorr_`, `nfreq_` and the test for a `DATA` column; all
references to blocks are writable; the count of blocks in the header is kept as the presence of a format; pointers to elements are checked against the end of the block.
-/
namespace Verif.VTile

/-- Format of a column (TableFormat.h:159-162): type (0 if not defined), size of an element, shape of a cell. -/
structure Col where
  ty : Nat
  el : Nat
  shape : List Nat
  deriving DecidableEq, Repr

/-- Elements of a cell, and its size in bytes (TableFormat.cc:118-135). -/
def Col.cells (c : Col) : Nat := c.shape.prod
def Col.cell (c : Col) : Nat := c.el * c.cells

/-- Header and identifier at the start of a block (ColumnarTableTile.cc:433): 16 bytes, and 16 parts of 4 bytes. -/
def hdrSize : Nat := 80

/-- `computeOffsets` (ColumnarTableTile.cc:431-450): offsets of the columns and size of the block. -/
def layout (tot n : Nat) : List Col → List (Option Nat) × Nat
  | [] => ([], tot)
  | c :: r =>
    if c.el = 0 then
      let q := layout tot n r
      (none :: q.1, q.2)
    else
      let off := if tot % c.el = 0 then tot else tot + (c.el - tot % c.el)
      let q := layout (off + c.cell * n) n r
      (some off :: q.1, q.2)

/-- A place in a block. -/
structure Ptr where
  blk : Nat
  off : Nat
  deriving DecidableEq, Repr

/-- A block: its size, contents, and the rows and identifier in its header (ColumnarTableTile.cc:142-151). -/
structure Block where
  size : Nat
  mem : Nat → Nat
  rows : Nat
  id : List Int

/-- An array of a `VTile` (VTile.cc:382-402): where it starts, element size, elements per cell and rows.  The storage is row-major
(`BZ_DEFAULT_ARRAY_STORAGE` is commented out, Lorrays-Blitz.h:38) and time is the last index. -/
structure Arr where
  ptr : Ptr
  el : Nat
  cells : Nat
  rows : Nat
  deriving DecidableEq, Repr

/-- A tile (ColumnarTableTile.h:220-238, VTile.h:474-509). -/
structure Tile where
  fmt : Option (List Col)
  nrow : Nat
  id : List Int
  blk : Option Nat
  pd : List (Option Ptr)
  arrs : List (Option Arr)

/-- A tile without anything (ColumnarTableTile.cc:37-41). -/
def blank : Tile := ⟨none, 0, [], none, [], []⟩

/-- Blocks of a tile that was sent. -/
structure Msg where
  blk : Nat
  fmt : Option (List Col)

/-- Blocks, tiles and messages under way. -/
structure St where
  heap : Nat → Block
  next : Nat
  tile : Nat → Tile
  nt : Nat
  msgs : List Msg

def St.init : St := ⟨fun _ => ⟨0, fun _ => 0, 0, []⟩, 0, fun _ => blank, 0, []⟩

def setT (s : St) (i : Nat) (T : Tile) : St := { s with tile := fun j => if j = i then T else s.tile j }

/-- A new block. -/
def alloc (s : St) (B : Block) : St := { s with heap := fun k => if k = s.next then B else s.heap k, next := s.next + 1 }

/-- `isOnlyRef` (CountedRefBase.h:254-270): no other tile and no message refers to the block. -/
def sole (s : St) (i b : Nat) : Bool :=
  (List.range s.nt).all (fun j => decide (j = i) || decide ((s.tile j).blk ≠ some b)) && s.msgs.all (fun m => decide (m.blk ≠ b))

/-- Whether a block still exists. -/
def live (s : St) (b : Nat) : Bool :=
  (List.range s.nt).any (fun j => decide ((s.tile j).blk = some b)) || s.msgs.any (fun m => decide (m.blk = b))

/-- `applyOffsets` (ColumnarTableTile.cc:453-461). -/
def ptrs (b : Nat) (f : List Col) (n : Nat) : List (Option Ptr) := (layout hdrSize n f).1.map (Option.map (Ptr.mk b))

/-- `makeWritable` of the base class (ColumnarTableTile.h:91-99), with `setupDataPointers` (ColumnarTableTile.cc:104-110). -/
def makeWritable (s : St) (i : Nat) : Res (St × Bool) :=
  let T := s.tile i
  match T.blk with
  | none => .ok (s, false)
  | some b =>
    if sole s i b then .ok (s, false)
    else match T.fmt with
      | none => .err
      | some f => .ok (setT (alloc s (s.heap b)) i { T with blk := some s.next, pd := ptrs s.next f T.nrow }, true)

/-- `initArrays` (VTile.cc:382-402).  A pointer beyond the end of `pdata` is looked at without a check in optimised builds
(`column`, ColumnarTableTile.cc:248-253). -/
def mkArrs (n : Nat) : List Col → List (Option Ptr) → Res (List (Option Arr))
  | [], _ => .ok []
  | c :: r, pd =>
    if c.ty = 0 then do
      let q ← mkArrs n r pd.tail
      .ok (none :: q)
    else match pd with
      | [] => .ub
      | none :: _ => .err
      | some p :: pd' => do
        let q ← mkArrs n r pd'
        .ok (some ⟨p, c.el, c.cells, n⟩ :: q)

def initArrays (s : St) (i : Nat) : Res St :=
  let T := s.tile i
  match T.fmt with
  | none => .err
  | some f => do
    let a ← mkArrs T.nrow f T.pd
    .ok (setT s i { T with arrs := a })

/-- `makeWritable` of `VTile` (VTile.h:246-254). -/
def vMakeWritable (s : St) (i : Nat) : Res St := do
  let q ← makeWritable s i
  if q.2 then initArrays q.1 i else .ok q.1

/-- A copy of bytes. -/
structure Job where
  dst : Ptr
  src : Ptr
  len : Nat

/-- `memcpy`. -/
def memcpy (s : St) (j : Job) : Res St :=
  if j.dst.off + j.len ≤ (s.heap j.dst.blk).size ∧ j.src.off + j.len ≤ (s.heap j.src.blk).size then
    .ok { s with heap := fun k =>
      if k = j.dst.blk then
        { s.heap k with mem := fun x =>
            if j.dst.off ≤ x ∧ x < j.dst.off + j.len then (s.heap j.src.blk).mem (j.src.off + (x - j.dst.off)) else (s.heap k).mem x }
      else s.heap k }
  else .ub

def runJobs (s : St) : List Job → Res St
  | [] => .ok s
  | j :: r => do
    let s' ← memcpy s j
    runJobs s' r

/-- The copies for rows `s0`, `s0+1`, ..., of all columns to rows `d0`, ... (ColumnarTableTile.cc:282-284, 323-325); columns
without a pointer are skipped; `none` if a pointer is missing on the other side. -/
def rowJobs (d0 s0 n : Nat) : List Col → List (Option Ptr) → List (Option Ptr) → Option (List Job)
  | [], _, _ => some []
  | c :: f, d :: ds, p :: ps =>
    match d with
    | none => rowJobs d0 s0 n f ds ps
    | some d => match p with
      | none => none
      | some p => (rowJobs d0 s0 n f ds ps).map (⟨⟨d.blk, d.off + c.cell * d0⟩, ⟨p.blk, p.off + c.cell * s0⟩, c.cell * n⟩ :: ·)
  | _ :: _, _, _ => none

/-- A zeroed block with header (ColumnarTableTile.cc:133-134, 275, 289). -/
def zeroBlock (size rows : Nat) (id : List Int) : Block := ⟨size, fun _ => 0, rows, id⟩

/-- `VTile::init` (VTile.cc:293-303, ColumnarTableTile.cc:114-139), for a tile just made. -/
def init (s : St) (i : Nat) (f : List Col) (n : Nat) : Res St :=
  if n = 0 then initArrays (setT s i { blank with fmt := some f }) i
  else
    let s1 := alloc s (zeroBlock (layout hdrSize n f).2 n [])
    initArrays (setT s1 i ⟨some f, n, [], some s.next, ptrs s.next f n, []⟩) i

/-- The copy constructor without flags (VTile.cc:165-172, ColumnarTableTile.cc:84-102): equal references are valid ones
(CountedRef.h:130), so a tile without a block is given to `setupDataPointers`, which throws. -/
def clone (s : St) (i j : Nat) : Res St :=
  let T := s.tile i
  match T.blk with
  | none => .err
  | some _ =>
    let s1 := setT s j { T with arrs := [] }
    match T.fmt with
    | none => .ok s1
    | some _ => initArrays s1 j

/-- `ColumnarTableTile::addRows` (ColumnarTableTile.cc:264-290). -/
def addRowsBase (s : St) (i : Nat) (nr : Int) : Res St :=
  match (s.tile i).fmt with
  | none => .err
  | some f =>
    if nr = 0 then .ok s
    else if nr < 0 then .err
    else do
      let q ← makeWritable s i
      let s1 := q.1
      let T := s1.tile i
      let n := T.nrow + nr.toNat
      let new := ptrs s1.next f n
      let s2 := alloc s1 (zeroBlock (layout hdrSize n f).2 n T.id)
      let s3 ← (if T.nrow = 0 then .ok s2 else match rowJobs 0 0 T.nrow f new T.pd with
        | none => .ub
        | some js => runJobs s2 js)
      .ok (setT s3 i { T with nrow := n, blk := some s1.next, pd := new })

/-- `VTile::addRows` (VTile.cc:350-356). -/
def addRows (s : St) (i : Nat) (nr : Int) : Res St := do
  let s' ← addRowsBase s i nr
  initArrays s' i

/-- `ColumnarTableTile::applyFormat` (ColumnarTableTile.cc:165-195). -/
def applyFormat (s : St) (i : Nat) (f : List Col) : Res St :=
  let T := s.tile i
  match T.fmt with
  | some g => if g = f then .ok s else .err
  | none =>
    if T.nrow = 0 then .ok (setT s i { T with fmt := some f })
    else match T.blk with
      | none => .err
      | some b =>
        if (s.heap b).size = (layout hdrSize T.nrow f).2 then .ok (setT s i { T with fmt := some f, pd := ptrs b f T.nrow })
        else .err

/-- `setTileId` (ColumnarTableTile.cc:418-428); `VTile`'s own (VTile.h:350-353) calls it. -/
def setTileId (s : St) (i : Nat) (id : List Int) : Res St := do
  let q ← makeWritable s i
  if id.length > 16 then .err
  else
    let T := q.1.tile i
    let s1 := setT q.1 i { T with id := id }
    match T.blk with
    | none => .ok s1
    | some b => .ok { s1 with heap := fun k => if k = b then { s1.heap k with rows := T.nrow, id := id } else s1.heap k }

/-- Size of a column, or of `nr` rows of it (ColumnarTableTile.h:285-288): a negative number means all. -/
def colRows (T : Tile) (nr : Int) : Nat := if nr < 0 then T.nrow else nr.toNat

/-- `ColumnarTableTile::copy` (ColumnarTableTile.cc:293-326) from tile `j` to tile `i`. -/
def copyBase (s : St) (i j : Nat) (st ost num : Int) : Res St :=
  let O := s.tile j
  let n := if num < 0 then (O.nrow : Int) - ost else num
  if i = j then .ub
  else if st < 0 ∨ ost < 0 then .err
  else if ost + n > O.nrow then .err
  else match O.fmt with
    | none => .err
    | some f => do
      let s1 ← applyFormat s i f
      if n = 0 then .ok s1
      else do
        let q ← makeWritable s1 i
        let s2 := q.1
        let s3 ← (if (s2.tile i).nrow = 0 then addRowsBase s2 i n
          else if st + n > (s2.tile i).nrow then .err else .ok s2)
        let s4 ← (if (s3.tile i).id = [] then setTileId s3 i O.id else .ok s3)
        match rowJobs st.toNat ost.toNat (colRows (s4.tile i) n) f (s4.tile i).pd O.pd with
        | none => .ub
        | some js => runJobs s4 js

/-- `VTile::copy` (VTile.cc:330-347). -/
def copy (s : St) (i j : Nat) (st ost num : Int) : Res St := do
  let s' ← copyBase s i j st ost num
  if (s.tile i).fmt.isSome then .ok s' else initArrays s' i

/-- The columns that `changeFormat` copies (ColumnarTableTile.cc:217-226): those in both formats, with equal shapes; the size is that of
the old column. -/
def formatJobs (n : Nat) : List Col → List Col → List (Option Ptr) → List (Option Ptr) → Res (List Job)
  | a :: f, b :: g, d :: ds, p :: ps =>
    if a.ty = 0 ∨ b.ty = 0 then formatJobs n f g ds ps
    else match p with
      | none => .err
      | some p =>
        if a.shape = b.shape then
          match d with
          | none => .ub
          | some d => do
            let js ← formatJobs n f g ds ps
            .ok (⟨d, p, a.cell * n⟩ :: js)
        else formatJobs n f g ds ps
  | _ :: _, _ :: _, _, _ => .ub
  | _, _, _, _ => .ok []

/-- `changeFormat` (ColumnarTableTile.cc:198-235, VTile.cc:322-327). -/
def changeFormat (s : St) (i : Nat) (g : List Col) : Res St :=
  let T := s.tile i
  match T.fmt with
  | none => .err
  | some f => do
    let s1 ← (if T.nrow = 0 then .ok (setT s i { T with fmt := some g })
      else do
        let new := ptrs s.next g T.nrow
        let js ← formatJobs T.nrow f g new T.pd
        let s1 := alloc s (zeroBlock (layout hdrSize T.nrow g).2 T.nrow T.id)
        let s2 ← runJobs s1 js
        .ok (setT s2 i { T with fmt := some g, pd := new, blk := some s.next }))
    initArrays s1 i

/-- Where an element is, for an array of some number of rows. -/
def elemOff (off el rows e t : Nat) : Nat := off + (e * rows + t) * el

/-- Writing the bytes of an element. -/
def poke (s : St) (p : Ptr) (el : Nat) (v : Nat → Nat) : Res St :=
  if live s p.blk ∧ p.off + el ≤ (s.heap p.blk).size then
    .ok { s with heap := fun k =>
      if k = p.blk then { s.heap k with mem := fun x => if p.off ≤ x ∧ x < p.off + el then v (x - p.off) else (s.heap k).mem x }
      else s.heap k }
  else .ub

/-- Assignment to an element through a writable array (VTile.h:466-509). -/
def set (s : St) (i c e t : Nat) (v : Nat → Nat) : Res St := do
  let s1 ← vMakeWritable s i
  match (s1.tile i).arrs[c]? with
  | some (some a) =>
    if e < a.cells ∧ t < a.rows then poke s1 ⟨a.ptr.blk, elemOff a.ptr.off a.el a.rows e t⟩ a.el v else .ub
  | _ => .ub

/-- Assignment to an element through the pointer that `wcolumn` returns (ColumnarTableTile.h:271-275), as in `Sink.cc:172` and
`fillTileColumn` (Sink.cc:291-315). -/
def setColumn (s : St) (i c e t : Nat) (v : Nat → Nat) : Res St := do
  let q ← makeWritable s i
  let T := q.1.tile i
  match T.fmt.bind (·[c]?), T.pd[c]? with
  | some k, some (some p) =>
    if e < k.cells ∧ t < T.nrow then poke q.1 ⟨p.blk, elemOff p.off k.el T.nrow e t⟩ k.el v else .ub
  | _, some none => .err
  | _, _ => .ub

/-- A byte of an element, through an array (VTile.h:474-509). -/
def get (s : St) (i c e t k : Nat) : Res Nat :=
  match (s.tile i).arrs[c]? with
  | some (some a) =>
    if e < a.cells ∧ t < a.rows ∧ k < a.el then
      let x := elemOff a.ptr.off a.el a.rows e t + k
      if live s a.ptr.blk ∧ x < (s.heap a.ptr.blk).size then .ok ((s.heap a.ptr.blk).mem x) else .ub
    else .ub
  | _ => .ub

/-- `toBlock` (ColumnarTableTile.cc:381-409): a tile without rows is sent as a block of header and identifier. -/
def send (s : St) (i : Nat) : Res St :=
  let T := s.tile i
  if T.nrow = 0 then .ok { alloc s (zeroBlock hdrSize 0 T.id) with msgs := s.msgs ++ [⟨s.next, T.fmt⟩] }
  else match T.blk with
    | none => .err
    | some b => .ok { s with msgs := s.msgs ++ [⟨b, T.fmt⟩] }

/-- `fromBlock` (ColumnarTableTile.cc:329-378, VTile.cc:359-372) of the first message. -/
def recv (s : St) (i : Nat) : Res St :=
  match s.msgs with
  | [] => .err
  | m :: rest =>
    let T := s.tile i
    let B := s.heap m.blk
    if B.size < hdrSize then .err
    else do
      let fmt := m.fmt.or T.fmt
      let T1 : Tile := { T with fmt := fmt, nrow := B.rows, id := B.id, blk := some m.blk, pd := [] }
      let T2 ← (if B.rows = 0 then .ok { T1 with blk := none }
        else match fmt with
          | none => .ok T1
          | some f => if (layout hdrSize B.rows f).2 = B.size then .ok { T1 with pd := ptrs m.blk f B.rows } else .err)
      let s1 := setT { s with msgs := rest } i T2
      if fmt.isSome then initArrays s1 i else .ok s1

/-- Operations on tiles.  New tiles are numbered in order. -/
inductive Op where
  | new (f : List Col) (n : Nat)
  | empty
  | clone (i : Nat)
  | drop (i : Nat)
  | addRows (i : Nat) (nr : Int)
  | copy (i j : Nat) (st ost num : Int)
  | changeFormat (i : Nat) (g : List Col)
  | setTileId (i : Nat) (id : List Int)
  | set (i c e t : Nat) (v : Nat → Nat)
  | setColumn (i c e t : Nat) (v : Nat → Nat)
  | send (i : Nat)
  | recv (i : Nat)

/-- One operation; those on tiles that do not exist are refused. -/
def step (s : St) : Op → Res St
  | .new f n => init { s with nt := s.nt + 1 } s.nt f n
  | .empty => .ok (setT { s with nt := s.nt + 1 } s.nt blank)
  | .clone i => if i < s.nt then clone { s with nt := s.nt + 1 } i s.nt else .err
  | .drop i => if i < s.nt then .ok (setT s i blank) else .err
  | .addRows i nr => if i < s.nt then addRows s i nr else .err
  | .copy i j st ost num => if i < s.nt ∧ j < s.nt then copy s i j st ost num else .err
  | .changeFormat i g => if i < s.nt then changeFormat s i g else .err
  | .setTileId i id => if i < s.nt then setTileId s i id else .err
  | .set i c e t v => if i < s.nt then set s i c e t v else .err
  | .setColumn i c e t v => if i < s.nt then setColumn s i c e t v else .err
  | .send i => if i < s.nt then send s i else .err
  | .recv i => if i < s.nt then recv s i else .err

end Verif.VTile
