import Verif.Model.Outcome
import Verif.Model.Bytes
import Verif.Model.Hiid
/-!
# Object files (DMI/src/BOIO.h, BOIO.cc)

A file is a byte string.  Simplifications: 4-byte `int`s and 8-byte `size_t`s, little endian, no padding in
the 8-byte header; input/output errors other than end of file do not occur; a short read leaves what it read
in the buffer (as glibc does) for the type id, and the block count as it was.
-/
namespace Verif.Boio

/-- How objects are converted: `objectType`, `toBlock`, and the type manager's `construct` (which may
throw). -/
structure Codec (O : Type) where
  tid : O → Int
  toB : O → List Bytes
  fromB : Int → List Bytes → Option O

variable {O : Type}

/-- Loop writing the blocks (BOIO.cc:201-206): `fwrite` of zero bytes returns 0, which counts as an error. -/
def writeBlocks : List Bytes → Bytes × Bool
  | [] => ([], true)
  | b :: bs => if b = [] then ([], false) else (b ++ (writeBlocks bs).1, (writeBlocks bs).2)

/-- `BOIO::write` (BOIO.cc:181-209): the file afterwards, and whether the call returned. -/
def write (C : Codec O) (f : Bytes) (o : O) : Bytes × Bool :=
  let bl := C.toB o
  let h := encInt32 (C.tid o) ++ encInt32 bl.length
  if bl = [] then (f ++ h, false)
  else (f ++ (h ++ (bl.flatMap fun b => encSize b.length) ++ (writeBlocks bl).1), (writeBlocks bl).2)

/-- The value `write` returns (BOIO.cc:192,205). -/
def written (C : Codec O) (o : O) : Nat := 8 + ((C.toB o).map List.length).sum

/-- A file open for reading (BOIO.h:121-137): contents, what is still to be read, end-of-file indicator,
`have_header`, `header`. -/
structure Rd where
  file : Bytes
  rest : Bytes
  eof : Bool
  have_ : Bool
  tid : Int
  nbl : Int
  deriving DecidableEq, Repr

/-- `open` for reading (BOIO.cc:58-79). -/
def openR (f : Bytes) : Rd := ⟨f, f, false, false, 0, 0⟩

/-- `nextType` (BOIO.cc:156-176). -/
def nextType (s : Rd) : Int × Rd :=
  if s.have_ then (s.tid, s)
  else if s.eof then (0, ⟨s.file, s.rest, true, true, 0, s.nbl⟩)
  else if s.rest.length < 8 then
    (0, ⟨s.file, [], true, true, decInt32 ((s.rest ++ [0, 0, 0, 0]).take 4), s.nbl⟩)
  else
    (decInt32 (s.rest.take 4),
      ⟨s.file, s.rest.drop 8, false, true, decInt32 (s.rest.take 4), decInt32 ((s.rest.drop 4).take 4)⟩)

/-- Loop reading the blocks (BOIO.cc:138-147); `fread` of zero bytes returns 0, which counts as an error. -/
def readBlocks : List Nat → Bytes → Option (List Bytes × Bytes)
  | [], r => some ([], r)
  | n :: ns, r =>
    if n = 0 ∨ r.length < n then none
    else
      match readBlocks ns (r.drop n) with
      | none => none
      | some (bs, r') => some (r.take n :: bs, r')

/-- Result of reading one object. -/
inductive Out (O : Type) where
  | obj (o : O)
  | eof
  | err
  | ub
  deriving DecidableEq, Repr

/-- The array of sizes (BOIO.cc:130-131). -/
def sizes : Nat → Bytes → List Nat
  | 0, _ => []
  | n + 1, r => leDec (r.take 8) :: sizes n (r.drop 8)

/-- `readAny` (BOIO.cc:122-152).  A negative block count gives an array of negative length. -/
def readAny (C : Codec O) (s : Rd) : Out O × Rd :=
  let (t, s1) := nextType s
  if t = 0 then (.eof, s1)
  else
    let s2 : Rd := ⟨s1.file, s1.rest, s1.eof, false, s1.tid, s1.nbl⟩
    if s2.nbl < 0 then (.ub, s2)
    else
      let n := s2.nbl.toNat
      if n = 0 ∨ s2.rest.length < 8 * n then (.err, ⟨s2.file, [], true, false, s2.tid, s2.nbl⟩)
      else
        match readBlocks (sizes n s2.rest) (s2.rest.drop (8 * n)) with
        | none => (.err, ⟨s2.file, [], true, false, s2.tid, s2.nbl⟩)
        | some (bl, r) =>
          match C.fromB t bl with
          | none => (.err, ⟨s2.file, r, s2.eof, false, s2.tid, s2.nbl⟩)
          | some o => (.obj o, ⟨s2.file, r, s2.eof, false, s2.tid, s2.nbl⟩)

/-- `rewind` (BOIO.cc:107-111) moves the file position only. -/
def rewind (s : Rd) : Rd := ⟨s.file, s.file, false, s.have_, s.tid, s.nbl⟩

/-- A reader's loop: objects up to the first end of file or error. -/
def readAll (C : Codec O) : Nat → Rd → List O × Out O
  | 0, _ => ([], .err)
  | fuel + 1, s =>
    match readAny C s with
    | (.obj o, s') => (o :: (readAll C fuel s').1, (readAll C fuel s').2)
    | (x, _) => ([], x)

/-- Writing objects one after the other; stops at the first failure. -/
def writeAll (C : Codec O) (f : Bytes) : List O → Bytes × Bool
  | [] => (f, true)
  | o :: os => match write C f o with | (f', true) => writeAll C f' os | (f', false) => (f', false)

end Verif.Boio
