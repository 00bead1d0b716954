/-!
# Byte-level encodings shared by the packers

Little-endian encodings of `size_t` (8 bytes) and `int` (4 bytes), the layout used by every
`memcpy`/pointer-store based packer in `/repo/DMI/src/Packer.h`, `/repo/DMI/src/HIID.cc`,
`/repo/DMI/src/BOIO.cc` and `/repo/OCTOPUSSY/src/*.cc` on the supported (x86-64) platform.
Simplification: word sizes and endianness are those of x86-64 Linux.
-/
namespace Verif

/-- A block of raw memory. -/
abbrev Bytes := List UInt8

/-- `n` bytes of `x`, least significant first (how an unsigned integer of `n` bytes lies in memory). -/
def leEnc : Nat → Nat → Bytes
  | 0, _ => []
  | n + 1, x => UInt8.ofNat (x % 256) :: leEnc n (x / 256)

/-- The unsigned integer held by a little-endian byte string. -/
def leDec : Bytes → Nat
  | [] => 0
  | b :: bs => b.toNat + 256 * leDec bs

/-- A `size_t` in memory (8 bytes). -/
def encSize (x : Nat) : Bytes := leEnc 8 x

/-- Two's complement image of a 32-bit `int`. -/
def encInt32 (x : Int) : Bytes := leEnc 4 (x % (2 ^ 32 : Int)).toNat

/-- Reading back a 32-bit two's complement `int`. -/
def decInt32 (bs : Bytes) : Int :=
  let u := leDec bs
  if u < 2 ^ 31 then (u : Int) else (u : Int) - 2 ^ 32

/-- The values a C++ `int` can hold. -/
def IsInt32 (x : Int) : Prop := -(2 ^ 31 : Int) ≤ x ∧ x < 2 ^ 31

/-- `memmove`/`memcpy` inside one buffer: copy `len` bytes from offset `src` to offset `dst`.
Defined only when both ranges lie inside the buffer (otherwise the C++ call is undefined). -/
def memmove (buf : Bytes) (dst src len : Nat) : Option Bytes :=
  if dst + len ≤ buf.length ∧ src + len ≤ buf.length then
    some (buf.take dst ++ (buf.drop src).take len ++ buf.drop (dst + len))
  else none

end Verif
