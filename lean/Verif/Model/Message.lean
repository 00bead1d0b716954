import Verif.Model.Serial
/-!
# Messages as block sets (OCTOPUSSY/src/Message.h, Message.cc)

The payload is an object of any class, given by its conversion to and from blocks.  Simplifications: `int`s
are 4 bytes, `short`s 2 bytes, little endian; the compiler's padding byte in the header is written as 0;
latency statistics are not compiled in (they are off unless `ENABLE_LATENCY_STATS` is defined).
-/
namespace Verif.Message
open Serial (rd)

/-- What the payload's class does: `objectType`, `toBlock`, and the type manager's `construct(type,set)`. -/
structure Payload (P : Type) where
  tid : P → Int
  toB : P → List Bytes
  fromB : Int → List Bytes → Res (P × List Bytes)

/-- A message (Message.h:253-306). -/
structure Msg (P : Type) where
  id : List Int
  priority : Int
  src : List Int
  dst : List Int
  state : Int
  hops : Int
  flags : Int
  block : Option Bytes
  payload : Option P
  deriving DecidableEq, Repr

variable {P : Type}

/-- A 16-bit `short` in memory. -/
def encInt16 (x : Int) : Bytes := leEnc 2 (x % (2 ^ 16 : Int)).toNat
/-- Reading a 16-bit `short`. -/
def decInt16 (bs : Bytes) : Int := if leDec bs < 2 ^ 15 then (leDec bs : Int) else (leDec bs : Int) - 2 ^ 16

/-- `sizeof(HeaderBlock)` (Message.h:309-316). -/
def hdrSize : Nat := 44

/-- The header block (Message.cc:225-247, 260; Message.h:309-316). -/
def header (tid : Int) (bc : Nat) (m : Msg P) (ptype : Int) : Bytes :=
  [tid, (bc : Int), m.priority, m.state, m.flags, 4 * (m.id.length : Int), 4 * (m.src.length : Int),
    4 * (m.dst.length : Int), 0].flatMap encInt32
  ++ (encInt16 m.hops ++ ([if m.block.isSome then 1 else 0, 0] ++ (encInt32 ptype
  ++ (m.id.flatMap encInt32 ++ (m.src.flatMap encInt32 ++ m.dst.flatMap encInt32)))))

/-- `Message::toBlock` (Message.cc:217-262), for a class registered under `tid`. -/
def toBlocks (C : Payload P) (tid : Int) (m : Msg P) : List Bytes :=
  let pb := match m.payload with | none => [] | some p => C.toB p
  let bb := m.block.toList
  header tid (1 + bb.length + pb.length) m (match m.payload with | none => 0 | some p => C.tid p) :: (bb ++ pb)

/-- `HIID::unpack(buf,size)` from the middle of a block (HIID.cc:240-252).  A negative size is converted to a
huge one, for which `resize` throws; reading past the block is undefined. -/
def unpackAt (b : Bytes) (off : Int) (size : Int) : Res (List Int) :=
  if size % 4 ≠ 0 then .err
  else if size < 0 then .err
  else if off < 0 ∨ (b.length : Int) < off + size then (if size = 0 then .ok [] else .ub)
  else match Hiid.unpack ((b.drop off.toNat).take size.toNat) with | none => .err | some p => .ok p

/-- Taking the data block off the set (Message.cc:196-202). -/
def takeBlock (has : Bool) (set : List Bytes) : Res (Option Bytes × List Bytes) :=
  if has then (match set with | [] => .err | b :: r => .ok (some b, r)) else .ok (none, set)

/-- Constructing the payload (Message.cc:204-212). -/
def takePayload (C : Payload P) (ptype : Int) (set : List Bytes) : Res (Option P × List Bytes) :=
  if ptype ≠ 0 then
    (match C.fromB ptype set with
      | .ok (p, r) => .ok (some p, r)
      | .err => .err
      | .ub => .ub)
  else .ok (none, set)

/-- `Message::fromBlock` (Message.cc:170-214). -/
def fromBlocks (C : Payload P) (tid : Int) : List Bytes → Res (Msg P × List Bytes)
  | [] => .err
  | h :: set =>
    if h.length < 8 then .ub
    else if rd h 0 ≠ tid then .err
    else
      let expect := rd h 4
      if h.length < hdrSize then .err
      else
        let idsize := rd h 20
        let fromsize := rd h 24
        let tosize := rd h 28
        let latsize := rd h 32
        if (h.length : Int) ≠ (44 + idsize + fromsize + tosize + latsize) % 2 ^ 64 then .err
        else do
          let id ← unpackAt h 44 idsize
          let src ← unpackAt h (44 + idsize) fromsize
          let dst ← unpackAt h (44 + idsize + fromsize) tosize
          let (blk, set1) ← takeBlock (h.getD 38 0 ≠ 0) set
          let bc1 : Int := if h.getD 38 0 ≠ 0 then 2 else 1
          let (pl, set2) ← takePayload C (rd h 40) set1
          let bc2 : Int := bc1 + ((set1.length : Int) - set2.length)
          if expect ≠ bc2 then .err
          else pure (⟨id, rd h 8, src, dst, rd h 12, decInt16 ((h.drop 36).take 2), rd h 16, blk, pl⟩, set2)

end Verif.Message
