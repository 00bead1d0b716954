import Verif.Model.Hiid
/-!
# Arrays (DMI/src/NumArray.cc, DMI/src/NumArray.h)

Element access by identifier, blocks, and sharing of data.
-/
namespace Verif.NumArray
open Verif.Hiid

/-! ## Access by identifier -/

/-- What is selected on one axis: `st`, `end`, `incr`, `keepAxes` (NumArray.cc:723-736); `en` is one past the end. -/
structure Ax where
  st : Nat
  en : Nat
  inc : Nat
  keep : Bool
  deriving DecidableEq, Repr

/-- Local variables of `parseHIID`: the axes, `nraxes`, `nr`, `hadRange` (NumArray.cc:729-748). -/
structure PSt where
  ax : List Ax
  cur : Nat
  nr : Nat
  had : Bool
  deriving DecidableEq, Repr

/-- A value for the current axis (NumArray.cc:770-808). -/
def parseValue (shape : List Nat) (s : PSt) (a : Int) : Res PSt :=
  if a < 0 then
    if a = aidWild ∨ a = aidEmpty then .ok ⟨s.ax.modify s.cur fun x => { x with keep := true }, s.cur, s.nr, false⟩ else .err
  else if s.nr = 0 then
    if a.toNat < shape.getD s.cur 0 then .ok ⟨s.ax.modify s.cur fun x => { x with st := a.toNat, en := a.toNat + 1 }, s.cur, s.nr, false⟩
    else .err
  else if s.nr = 1 then
    if (s.ax.getD s.cur ⟨0, 0, 0, false⟩).st < a.toNat + 1 then
      .ok ⟨s.ax.modify s.cur fun x => { x with keep := true, en := a.toNat + 1 }, s.cur, s.nr, false⟩
    else .err
  else if s.nr = 2 then
    if 0 < a.toNat then .ok ⟨s.ax.modify s.cur fun x => { x with inc := a.toNat }, s.cur, s.nr, false⟩ else .err
  else .err

/-- One round of the loop (NumArray.cc:749-810). -/
def parseStep (shape : List Nat) (s : PSt) (a : Int) : Res PSt :=
  if a = aidRange then
    if s.had then .err
    else .ok ⟨s.ax.modify s.cur fun x => { x with keep := true }, s.cur, s.nr + 1, true⟩
  else if s.had then parseValue shape s a
  else if s.cur + 1 < shape.length then parseValue shape ⟨s.ax, s.cur + 1, 0, false⟩ a
  else .err

/-- The loop. -/
def parseLoop (shape : List Nat) : PSt → List Int → Res PSt
  | s, [] => .ok s
  | s, a :: l => (parseStep shape s a).bind fun s => parseLoop shape s l

/-- `parseHIID` (NumArray.cc:723-820).  An array without axes makes it write past the end of `keepAxes`. -/
def parse (shape : List Nat) (id : List Int) : Res (List Ax) :=
  if shape = [] ∧ id ≠ [] then .ub
  else (parseLoop shape ⟨shape.map fun n => ⟨0, n, 1, false⟩, 0, 0, decide (0 < id.length)⟩ id).bind fun s =>
    if s.had then .err else .ok s.ax

/-- Product of extents (`LoShape::product`, Lorrays-Blitz.h:282-288). -/
def prod (shape : List Nat) : Nat := shape.foldr (· * ·) 1

/-- Offset, shape and strides of a part of an array (NumArray.cc:692-706). -/
def slice : List Nat → List Ax → Nat × List Nat × List Nat
  | _ :: shape, x :: axs =>
    let r := slice shape axs
    let stride := prod shape
    if x.keep then (r.1 + x.st * stride, (x.en - x.st) / x.inc :: r.2.1, x.inc * stride :: r.2.2)
    else (r.1 + x.st * stride, r.2.1, r.2.2)
  | _, _ => (0, [], [])

/-- Offset of an element (NumArray.cc:656-661). -/
def offset : List Nat → List Nat → Nat
  | _ :: shape, i :: l => offset shape l + i * prod shape
  | _, _ => 0

/-- What `get` returns: one element; all elements as a vector; the array; part of the array, with offset, shape and strides. -/
inductive View where
  | elem (off : Nat)
  | scalars (n : Nat)
  | whole
  | sub (off : Nat) (shape strides : List Nat)
  deriving DecidableEq, Repr

/-- `get` (NumArray.cc:608-720).  `hint`: an element is asked for.  A part without axes is made with a table entry that does not
exist (NumArrayFuncs.h:130). -/
def get (shape : List Nat) (id : List Int) (hint : Bool) : Res View :=
  if id.length = shape.length ∧ id ≠ [] ∧ id.all (fun a => decide (0 ≤ a)) = true then
    if (List.range shape.length).all (fun i => decide ((id.getD i 0).toNat < shape.getD i 0)) then
      .ok (.elem (offset shape (id.map Int.toNat)))
    else .err
  else if id = [] then
    if shape = [] then .ub else if hint then .ok (.scalars (prod shape)) else .ok .whole
  else (parse shape id).bind fun axs =>
    let r := slice shape axs
    if hint ∧ prod r.2.1 = 1 then .ok (.elem r.1)
    else if r.2.1 = [] then .ub
    else .ok (.sub r.1 r.2.1 r.2.2)

/-- The elements of an array with given strides, in order, by their distance from the first. -/
def walk : List Nat → List Nat → List Nat
  | n :: shape, s :: strides => (List.range n).flatMap fun k => (walk shape strides).map (k * s + ·)
  | _, _ => [0]

/-! ## Blocks -/

/-- An array as stored: element type, extents, and the data; strings are kept one by one. -/
inductive Arr where
  | empty
  | num (sca : Int) (shape : List Int) (data : Bytes)
  | str (shape : List Int) (strs : List Bytes)
  deriving DecidableEq, Repr

/-- Header (NumArray.h:528-533, BObj.h:93-97): type, number of blocks, element type, rank. -/
def header (tid sca rank : Int) : Bytes := encInt32 tid ++ encInt32 1 ++ encInt32 sca ++ encInt32 rank

/-- Padding of the header to 8 bytes (NumArray.cc:323-325, 476-478). -/
def dataOffset (rank : Nat) : Nat := (16 + 4 * rank + 7) / 8 * 8

/-- Extents in the header. -/
def encShape (shape : List Int) : Bytes := (shape.map encInt32).flatten

/-- `toBlock` (NumArray.cc:525-579, with the layout made by init, 320-346).  `tpstring` is the type of strings. -/
def toBlock (tid tpstring : Int) : Arr → Bytes
  | .empty => header tid 0 0
  | .num sca shape data =>
    header tid sca shape.length ++ encShape shape ++ List.replicate (dataOffset shape.length - (16 + 4 * shape.length)) 0 ++ data
  | .str shape strs => header tid tpstring shape.length ++ encShape shape ++ (strs.map fun s => encInt32 s.length).flatten ++ strs.flatten

/-- A 4-byte word of a block. -/
def word (b : Bytes) (i : Nat) : Int := decInt32 ((b.drop (4 * i)).take 4)

/-- The same as `unsigned int`. -/
def uword (b : Bytes) (i : Nat) : Nat := leDec ((b.drop (4 * i)).take 4)

/-- Number of elements, as `size_t` (NumArray.cc:471-473). -/
def sizeOf64 (shape : List Int) : Nat := (shape.foldl (fun n x => n * x % 2 ^ 64) 1).toNat

/-- The strings (NumArray.cc:498-506): `avail` is the number of bytes left for them. -/
def readStrs : List Nat → Bytes → Res (List Bytes)
  | [], rest => if rest = [] then .ok [] else .err
  | n :: l, rest => if rest.length < n then .err else (readStrs l (rest.drop n)).bind fun r => .ok (rest.take n :: r)

/-- `fromBlock` (NumArray.cc:438-522).  `es` gives the size of elements of a numeric type.  Reading past the block is `ub`; so is a
number of strings which does not fit an `int` (line 498). -/
def fromBlock (tid tpstring : Int) (es : Int → Option Nat) (b : Bytes) : Res Arr :=
  if b.length < 16 then .err
  else if word b 0 ≠ tid then .err
  else if word b 1 ≠ 1 then .err
  else if word b 2 = 0 then if word b 3 ≠ 0 ∨ b.length ≠ 16 then .err else .ok .empty
  else if es (word b 2) = none ∧ word b 2 ≠ tpstring then .err
  else if uword b 3 < 1 ∨ 10 < uword b 3 then .err
  else if b.length < 4 * (2 + uword b 3) then .err
  else if b.length < 16 + 4 * uword b 3 then .ub
  else
    let shape := (List.range (uword b 3)).map fun i => word b (4 + i)
    if word b 2 = tpstring then
      if 2 ^ 31 ≤ sizeOf64 shape then .ub
      else if b.length < 16 + 4 * uword b 3 + 4 * sizeOf64 shape then .err
      else (readStrs ((List.range (sizeOf64 shape)).map fun i => uword b (4 + uword b 3 + i))
        (b.drop (16 + 4 * uword b 3 + 4 * sizeOf64 shape))).bind fun strs => .ok (.str shape strs)
    else if (dataOffset (uword b 3) + sizeOf64 shape * (es (word b 2)).getD 0) % 2 ^ 64 ≠ b.length then .err
    else .ok (.num (word b 2) shape (b.drop (dataOffset (uword b 3))))

/-! ## Sharing of data -/

/-- A data block: the extents in its header, and the elements. -/
structure Blk where
  hshape : List Nat
  data : List Int
  deriving DecidableEq, Repr

/-- An array object (NumArray.h:499-526): its block, extents, strides, position of the first element, `itsWritableRef`. -/
structure Obj where
  blk : Nat
  shape : List Nat
  strides : List Nat
  off : Nat
  wref : Bool
  deriving DecidableEq, Repr

/-- All blocks and array objects of a program. -/
structure Heap where
  blks : List Blk
  objs : List (Option Obj)
  deriving DecidableEq, Repr

/-- Strides of an array that fills its block (blitz default storage; makeArray, NumArray.cc:261-265). -/
def cstrides : List Nat → List Nat
  | [] => []
  | _ :: shape => prod shape :: cstrides shape

/-- An array over a whole block. -/
def Obj.over (blk : Nat) (shape : List Nat) : Obj := ⟨blk, shape, cstrides shape, 0, false⟩

/-- Contents of an array. -/
def Heap.read (h : Heap) (i : Nat) : Option (List Nat × List Int) :=
  match h.objs.getD i none with
  | none => none
  | some o => some (o.shape, (walk o.shape o.strides).map fun k => ((h.blks.getD o.blk ⟨[], []⟩).data).getD (o.off + k) 0)

/-- Constructor and `init` (NumArray.cc:133-164, 314-347), with given contents. -/
def Heap.init (h : Heap) (i : Nat) (shape : List Nat) (data : List Int) : Heap :=
  ⟨h.blks ++ [⟨shape, data⟩], h.objs.set i (some (.over h.blks.length shape))⟩

/-- Copy (cloneOther, NumArray.cc:222-259, for the same object type): the block is shared, the data start at the beginning.  Assignment
to itself does nothing (213). -/
def Heap.copy (h : Heap) (i j : Nat) : Heap :=
  if i = j then h
  else match h.objs.getD i none with
  | none => ⟨h.blks, h.objs.set j none⟩
  | some o => ⟨h.blks, h.objs.set j (some ⟨o.blk, o.shape, cstrides o.shape, 0, false⟩)⟩

/-- An array sent as blocks and received in the same process (toBlock 574-577, fromBlock 511-518): the block is shared, and the
extents are those of its header. -/
def Heap.send (h : Heap) (i j : Nat) : Heap :=
  match h.objs.getD i none with
  | none => ⟨h.blks, h.objs.set j none⟩
  | some o => ⟨h.blks, h.objs.set j (some (.over o.blk (h.blks.getD o.blk ⟨[], []⟩).hshape))⟩

/-- `reference` (NumArray.cc:351-374): `j` becomes a part of `i`. -/
def Heap.refer (h : Heap) (i j off : Nat) (shape strides : List Nat) (writable : Bool) : Heap :=
  match h.objs.getD i none with
  | none => h
  | some o => ⟨h.blks, h.objs.set j (some ⟨o.blk, shape, strides, o.off + off, writable⟩)⟩

/-- Number of objects that hold a block. -/
def Heap.holders (h : Heap) (b : Nat) : Nat := (h.objs.filter fun o => o.any fun o => o.blk == b).length

/-- `makeWritable` (NumArray.h:440-450): a block held by others is copied, and the array is laid over the copy. -/
def Heap.writable (h : Heap) (i : Nat) : Heap :=
  match h.objs.getD i none with
  | none => h
  | some o =>
    if o.wref then h
    else if 1 < h.holders o.blk then
      ⟨h.blks ++ [h.blks.getD o.blk ⟨[], []⟩], h.objs.set i (some ⟨h.blks.length, o.shape, cstrides o.shape, 0, false⟩)⟩
    else h

/-- Writing the k-th element (`getArray` etc., NumArray.h:380-409, then an assignment). -/
def Heap.write (h : Heap) (i k : Nat) (v : Int) : Heap :=
  let h := h.writable i
  match h.objs.getD i none with
  | none => h
  | some o =>
    match (walk o.shape o.strides)[k]? with
    | none => h
    | some p => ⟨h.blks.modify o.blk fun b => { b with data := b.data.set (o.off + p) v }, h.objs⟩

/-- Destructor and `clear` (NumArray.cc:377-410). -/
def Heap.clear (h : Heap) (i : Nat) : Heap := ⟨h.blks, h.objs.set i none⟩

end Verif.NumArray
