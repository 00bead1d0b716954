import Verif.Model.Bytes
import Verif.Model.Outcome

/-!
# Messages between the processes of a parallel server: their bytes

`/repo/MeqMPI/src/MeqMPI.cc` (lines 129-140 and 306-414).  A message is the number of blocks of the
object it carries (an `int`), a header whose size both sides know, the sizes of the blocks (one
`size_t` each) and the blocks themselves.
-/
namespace Verif.MpiWire

/-- `DEFAULT_BUFFER_INCREMENT` (`/repo/MeqMPI/src/MeqMPI.h` line 25). -/
def increment : Nat := 1073741824

/-- `MeqMPI::ensureBuffer` (`/repo/MeqMPI/src/MeqMPI.cc` lines 131-140): the size of the buffer after
the call. -/
def ensureBuffer (bufsize msgsize : Nat) : Nat :=
  if bufsize < msgsize then (msgsize / increment + 1) * increment else bufsize

/-- Total size of the blocks (lines 323-324). -/
def sumSizes : List Bytes → Nat
  | [] => 0
  | b :: bs => b.length + sumSizes bs

/-- `MeqMPI::marinateMessage` (lines 310-328): the size announced for a message.  `none`: no object. -/
def marinate (hdrsize : Nat) : Option (List Bytes) → Nat
  | none => 4 + hdrsize
  | some blocks => 4 + hdrsize + 8 * blocks.length + sumSizes blocks

/-- The array of sizes written by `encodeMessage` (lines 366 and 371). -/
def sizeArray : List Bytes → Bytes
  | [] => []
  | b :: bs => encSize b.length ++ sizeArray bs

/-- The blocks copied one after another (lines 369-376). -/
def body : List Bytes → Bytes
  | [] => []
  | b :: bs => b ++ body bs

/-- `MeqMPI::encodeMessage` (lines 353-378).  Simplification: `2^31` blocks or more, whose number does
not fit the `int` (the pointer to the blocks would then run backwards), are `ub`. -/
def encode (hdr : Bytes) (blocks : List Bytes) : Res Bytes :=
  if blocks.length < 2 ^ 31 then
    .ok (encInt32 blocks.length ++ hdr ++ sizeArray blocks ++ body blocks)
  else .ub

/-- The block set of a message (lines 318-327): empty when there is no object. -/
def blockset : Option (List Bytes) → List Bytes
  | none => []
  | some bs => bs

/-- `MeqMPI::sendMessage` (lines 331-350) up to the call of MPI: the bytes handed over and the size of
the buffer afterwards.  Writing more than the buffer holds is `ub`. -/
def send (bufsize : Nat) (hdr : Bytes) (obj : Option (List Bytes)) : Res (Bytes × Nat) :=
  let size := marinate hdr.length obj
  let cap := ensureBuffer bufsize size
  match encode hdr (blockset obj) with
  | .ok bs =>
    if cap < bs.length then .ub
    else if bs.length ≠ size then .err
    else .ok (bs, cap)
  | .err => .err
  | .ub => .ub

/-- `int(x)` for a `size_t` `x`: the low 32 bits as a two's complement number. -/
def castInt (x : Nat) : Int :=
  if x % 2 ^ 32 < 2 ^ 31 then ((x % 2 ^ 32 : Nat) : Int) else ((x % 2 ^ 32 : Nat) : Int) - 2 ^ 32

/-- The loop over the blocks in `MeqMPI::decodeMessage` (lines 402-409).  `rest` is the message after
its header, `pos` the offset of `ptr` in it, `i` the number of the block.  Reading a size or a block
outside the message is `ub`. -/
def readBlocks (rest : Bytes) : (n i pos : Nat) → Res (List Bytes)
  | 0, _, _ => .ok []
  | n + 1, i, pos =>
    if rest.length < 8 * i + 8 then .ub
    else
      let sz := leDec ((rest.drop (8 * i)).take 8)
      if (rest.length : Int) - pos < castInt sz then .err
      else if rest.length < pos + sz then .ub
      else
        match readBlocks rest n (i + 1) (pos + sz) with
        | .ok bs => .ok ((rest.drop pos).take sz :: bs)
        | .err => .err
        | .ub => .ub

/-- `MeqMPI::decodeMessage` (lines 380-414) up to the construction of the object: the header and the
blocks.  A negative number of blocks leaves the block set empty, for which `construct(0,..)` fails
(`/repo/DMI/src/DynamicTypeManager.cc` lines 33-36 and 67-68). -/
def decode (hdrsize : Nat) (msg : Bytes) : Res (Bytes × Option (List Bytes)) :=
  if hdrsize + 4 > msg.length then .err
  else
    let nblocks := decInt32 (msg.take 4)
    let hdr := (msg.drop 4).take hdrsize
    if nblocks = 0 then .ok (hdr, none)
    else
      let rest := msg.drop (4 + hdrsize)
      if (rest.length : Int) < castInt (nblocks * 8 % 2 ^ 64).toNat then .err
      else if nblocks < 0 then .err
      else
        match readBlocks rest nblocks.toNat 0 (8 * nblocks.toNat) with
        | .ok bs => .ok (hdr, some bs)
        | .err => .err
        | .ub => .ub

end Verif.MpiWire
