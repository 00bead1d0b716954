import Verif.Model.Outcome
import Verif.Model.Bytes
import Verif.Model.Assoc
/-!
# Packers for sequences, maps and arrays (DMI/src/Packer.h)

An element packer is given by the bytes it writes for an element, how it reads them back, the size it
announces, and `binary()`: the fixed size of an element, or 0 for elements of variable size.  Element
packers fail iff fewer bytes are left than they write (Packer.h:308,343,376; HIID.cc:229).
Simplification: `size_t` is 8 bytes, little endian.
-/
namespace Verif.Packer

/-- An element packer (Packer.h:45-76). -/
structure EP (A : Type) where
  bin : Nat
  bytes : A → Bytes
  read : Bytes → Option A
  size : A → Nat

variable {A K V : Type}

/-- The `size_t` at an offset. -/
def rdSize (b : Bytes) (off : Nat) : Nat := leDec ((b.drop off).take 8)

/-- Loop of `SeqPacker::pack` (Packer.h:409-422): size table, data, bytes left. -/
def seqLoop (E : EP A) : List A → Nat → Option (List Nat × Bytes × Nat)
  | [], nleft => some ([], [], nleft)
  | x :: xs, nleft =>
    if nleft < (E.bytes x).length then none
    else
      match seqLoop E xs (nleft - (E.bytes x).length) with
      | none => none
      | some (hs, d, nl) => some (if E.bin ≠ 0 then hs else (E.bytes x).length :: hs, E.bytes x ++ d, nl)

/-- `SeqPacker::pack` (Packer.h:398-424): the bytes written and the bytes left.  The element count is
stored before the size of the block is checked. -/
def seqPack (E : EP A) (xs : List A) (nleft : Nat) : Res (Bytes × Nat) :=
  if nleft < 8 then .ub
  else
    let sz := (1 + if E.bin ≠ 0 then 0 else xs.length) * 8
    if sz > nleft then .err
    else
      match seqLoop E xs (nleft - sz) with
      | none => .err
      | some (hs, d, nl) => .ok (encSize xs.length ++ hs.flatMap encSize ++ d, nl)

/-- Loop of `SeqPacker::unpack` (Packer.h:438-456): `n` elements to go, the next size in the table at
`hoff`, the next data at `off`, `sz0` bytes accounted for (modulo the word size). -/
def seqUnLoop (E : EP A) (b : Bytes) : Nat → Nat → Nat → Nat → Res (List A × Nat)
  | 0, _, _, sz0 => .ok ([], sz0)
  | n + 1, hoff, off, sz0 =>
    let s1 := if E.bin ≠ 0 then E.bin else rdSize b hoff
    let sz1 := (sz0 + s1) % 2 ^ 64
    if b.length < sz1 then .err
    else if b.length < off + s1 then .ub
    else
      match E.read ((b.drop off).take s1) with
      | none => .err
      | some x => do
        let (xs, sz2) ← seqUnLoop E b n (if E.bin ≠ 0 then hoff else hoff + 8) (off + s1) sz1
        pure (x :: xs, sz2)

/-- `SeqPacker::unpack` (Packer.h:427-458).  `reserve` throws beyond `max_size()`, at most `2^60` for
elements of 8 bytes or more. -/
def seqUnpack (E : EP A) (b : Bytes) : Res (List A) :=
  if b.length < 8 then .err
  else
    let n := rdSize b 0
    let sz0 := (1 + if E.bin ≠ 0 then 0 else n) * 8 % 2 ^ 64
    if b.length < sz0 then .err
    else if n ≥ 2 ^ 60 then .err
    else do
      let (xs, sz) ← seqUnLoop E b n 8 sz0 sz0
      if b.length ≠ sz then .err else pure xs

/-- `SeqPacker::packSize` (Packer.h:461-472). -/
def seqPackSize (E : EP A) (xs : List A) : Nat :=
  if E.bin ≠ 0 then 8 + E.bin * xs.length
  else (xs.map E.size).sum + (1 + xs.length) * 8

/-- Loop of `MapPacker::pack` (Packer.h:497-519). -/
def mapLoop (E : EP K) (F : EP V) : List (K × V) → Nat → Option (List Nat × Bytes × Nat)
  | [], nleft => some ([], [], nleft)
  | (k, v) :: m, nleft =>
    if nleft < (E.bytes k).length then none
    else
      let nl1 := nleft - (E.bytes k).length
      if nl1 < (F.bytes v).length then none
      else
        match mapLoop E F m (nl1 - (F.bytes v).length) with
        | none => none
        | some (hs, d, nl) =>
          some ((if E.bin ≠ 0 then [] else [(E.bytes k).length]) ++ (if F.bin ≠ 0 then [] else [(F.bytes v).length]) ++ hs,
            E.bytes k ++ F.bytes v ++ d, nl)

/-- `MapPacker::pack` (Packer.h:485-521). -/
def mapPack (E : EP K) (F : EP V) (m : List (K × V)) (nleft : Nat) : Res (Bytes × Nat) :=
  if nleft < 8 then .ub
  else
    let sz := (1 + (if E.bin ≠ 0 then 0 else m.length) + (if F.bin ≠ 0 then 0 else m.length)) * 8
    if sz > nleft then .err
    else
      match mapLoop E F m (nleft - sz) with
      | none => .err
      | some (hs, d, nl) => .ok (encSize m.length ++ hs.flatMap encSize ++ d, nl)

/-- Loop of `MapPacker::unpack` (Packer.h:534-566).  For values of variable size the *key* size is added to
the bytes accounted for (line 561). -/
def mapUnLoop [DecidableEq K] (E : EP K) (F : EP V) (b : Bytes) : Nat → Nat → Nat → Nat → List (K × V) →
    Res (List (K × V) × Nat)
  | 0, _, _, sz0, m => .ok (m, sz0)
  | n + 1, hoff, off, sz0, m =>
    let s1 := if E.bin ≠ 0 then E.bin else rdSize b hoff
    let hoff1 := if E.bin ≠ 0 then hoff else hoff + 8
    let sz1 := (sz0 + s1) % 2 ^ 64
    if b.length < sz1 then .err
    else if b.length < off + s1 then .ub
    else
      match E.read ((b.drop off).take s1) with
      | none => .err
      | some k =>
        let s2 := if F.bin ≠ 0 then F.bin else rdSize b hoff1
        let hoff2 := if F.bin ≠ 0 then hoff1 else hoff1 + 8
        let sz2 := (sz1 + if F.bin ≠ 0 then s2 else s1) % 2 ^ 64
        if b.length < sz2 then .err
        else if b.length < off + s1 + s2 then .ub
        else
          match F.read ((b.drop (off + s1)).take s2) with
          | none => .err
          | some v => mapUnLoop E F b n hoff2 (off + s1 + s2) sz2 (Assoc.set m k v)

/-- `MapPacker::unpack` (Packer.h:524-568) into a map (which is not cleared). -/
def mapUnpack [DecidableEq K] (E : EP K) (F : EP V) (m0 : List (K × V)) (b : Bytes) : Res (List (K × V)) :=
  if b.length < 8 then .err
  else
    let n := rdSize b 0
    let sz0 := (1 + (if E.bin ≠ 0 then 0 else n) + (if F.bin ≠ 0 then 0 else n)) * 8 % 2 ^ 64
    if b.length < sz0 then .err
    else do
      let (m, sz) ← mapUnLoop E F b n 8 sz0 sz0 m0
      if b.length ≠ sz then .err else pure m

/-- `MapPacker::packSize` (Packer.h:571-581); `a ? a : b + c ? c : d` groups as `a ? a : ((b + c) ? c : d)`. -/
def mapPackSize (E : EP K) (F : EP V) (m : List (K × V)) : Nat :=
  (m.map fun p => if E.bin ≠ 0 then E.bin else if E.size p.1 + F.bin ≠ 0 then F.bin else F.size p.2).sum
    + (1 + (if E.bin ≠ 0 then 0 else m.length) + (if F.bin ≠ 0 then 0 else m.length)) * 8

/-- `ArrayPacker::pack` (Packer.h:594-626); here the size is checked first. -/
def arrPack (E : EP A) (xs : List A) (nleft : Nat) : Res (Bytes × Nat) :=
  let sz := (1 + if E.bin ≠ 0 then 0 else xs.length) * 8
  if sz > nleft then .err
  else
    match seqLoop E xs (nleft - sz) with
    | none => .err
    | some (hs, d, nl) => .ok (encSize xs.length ++ hs.flatMap encSize ++ d, nl)

/-- Elements of fixed size lying one after the other in memory. -/
def elements (E : EP A) : Nat → Bytes → Option (List A)
  | 0, _ => some []
  | n + 1, b =>
    match E.read (b.take E.bin), elements E n (b.drop E.bin) with
    | some x, some xs => some (x :: xs)
    | _, _ => none

/-- `ArrayPacker::unpack` (Packer.h:629-659) into an array of `n` elements.  For fixed-size elements the
copy starts at the beginning of the block, not of the data (line 645). -/
def arrUnpack (E : EP A) (n : Nat) (b : Bytes) : Res (List A) :=
  if b.length < 8 then .err
  else if rdSize b 0 ≠ n then .err
  else
    let sz0 := (1 + if E.bin ≠ 0 then 0 else n) * 8 % 2 ^ 64
    if b.length < sz0 then .err
    else if E.bin ≠ 0 then
      let sz1 := (sz0 + E.bin * n) % 2 ^ 64
      if b.length < sz1 then .err
      else
        match elements E n b with
        | none => .err
        | some xs => if b.length ≠ sz1 then .err else .ok xs
    else do
      let (xs, sz) ← seqUnLoop E b n 8 sz0 sz0
      if b.length ≠ sz then .err else pure xs

end Verif.Packer
