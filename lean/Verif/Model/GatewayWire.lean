import Verif.Model.Bytes
import Mathlib.Logic.Function.Basic
import Verif.Model.Outcome
/-!
# The connection between two processes (OCTOPUSSY/src/MTGatewayWP2.cc)

The packets a gateway writes, and its reader threads.  Simplifications: the checksum is off (Gateways.h:41); time stamps, statistics
and the counter of junk bytes are left out; the socket delivers the bytes that were written, in order, in pieces of any size; a read
error or a shutdown while reading ends everything and is not modelled.  `readBlocking` waits while there is nothing to read.
-/
namespace Verif.Gateway

/-- "oMs" (MTGatewayWP2.cc:34). -/
def sig : Bytes := [111, 77, 115]

/-- `MaxBlockSize` (MTGatewayWP.h:166). -/
def maxBlock : Int := 512 * 1024 * 1024

/-- The bytes between the fields of the packet structures (MTGatewayWP.h:85-95); nobody sets them. -/
structure Pads where
  h : Bytes
  t1 : Bytes
  t2 : Bytes

/-- `PacketHeader` for a data block (MTGatewayWP.h:85-88, MTGatewayWP2.cc:390-391). -/
def header (p : Pads) (size : Nat) : Bytes := sig ++ [1] ++ p.h ++ encSize size

/-- `DataTrailer` (MTGatewayWP.h:92-95, MTGatewayWP2.cc:421-433). -/
def trailer (p : Pads) (seq : Nat) (msgsize : Nat) : Bytes := encInt32 seq ++ p.t1 ++ encSize 0 ++ encInt32 msgsize ++ p.t2

/-- The loop of `transmitMessage` (MTGatewayWP2.cc:384-465), for a message of `n` blocks; the first packet has number `seq`. -/
def transmit (pads : Nat → Pads) (n : Nat) : Nat → List Bytes → Bytes
  | _, [] => []
  | seq, b :: r => header (pads seq) b.length ++ b ++ trailer (pads seq) seq (if r = [] then n else 0) ++ transmit pads n (seq + 1) r

/-- `readstate`, with the size of the block that is being read (MTGatewayWP2.cc:57-102). -/
inductive St where
  | header
  | block (n : Nat)
  | trailer
  deriving DecidableEq, Repr

/-- Where a reader thread is: waiting for `reader_mutex`; reading, with `reader_mutex`; waiting for `gwmutex` with a message and with
`reader_mutex`; in `processIncoming`, with `gwmutex` (MTGatewayWP2.cc:117-351). -/
inductive Ph where
  | wait
  | reading
  | ready (m : List Bytes)
  | busy (m : List Bytes)
  deriving DecidableEq, Repr

/-- The reading side of a gateway: the holders of `reader_mutex` and `gwmutex`; the threads; the blocks each has collected
(`bset`, the local variable); the shared read state and the `nread` bytes in the buffer; what is still to come through the socket; the
messages that were processed, in order; whether reading has ended with an exception.  A block is put into `bset` when it is complete
rather than when its buffer is made. -/
structure Rd where
  reader : Option Nat
  gw : Option Nat
  ph : Nat → Ph
  bset : Nat → List Bytes
  st : St
  buf : Bytes
  rest : Bytes
  out : List (List Bytes)
  down : Bool

/-- Size of the buffer: `sizeof(PacketHeader)`, the block, `sizeof(DataTrailer)`. -/
def St.need : St → Nat
  | .header => 16
  | .block n => n
  | .trailer => 24

/-- An `int` from the low half of a `long`. -/
def toInt (x : Nat) : Int := if x % 2 ^ 32 < 2 ^ 31 then (x % 2 ^ 32 : Nat) else ((x % 2 ^ 32 : Nat) : Int) - 2 ^ 32

/-- `readyForData` (MTGatewayWP2.cc:80-102).  A negative size is taken for a huge one, for which no block can be made. -/
def readyForData (s : Rd) (content : Nat) : Rd :=
  if maxBlock < toInt content then { s with st := .header, buf := [] }
  else if toInt content < 0 then { s with down := true }
  else { s with st := .block (toInt content).toNat, buf := [] }

/-- A complete header (MTGatewayWP2.cc:182-240): it is dropped up to the first byte of a signature, or starts a block.  Packets of
other types leave everything as it is. -/
def onHeader (s : Rd) : Rd :=
  if s.buf.take 3 ≠ sig ∨ 4 < s.buf.getD 3 0 then
    match s.buf.findIdx? (fun c => c == 111) with
    | none => { s with buf := [] }
    | some p => { s with buf := s.buf.drop p }
  else if s.buf.getD 3 0 = 1 then readyForData s (leDec ((s.buf.drop 8).take 8))
  else s

/-- A complete trailer (MTGatewayWP2.cc:246-329).  `unpack` is `Message::fromBlock`: whether it succeeds, and what it leaves in the
set. -/
def onTrailer (unpack : List Bytes → Bool × List Bytes) (s : Rd) (i : Nat) : Rd :=
  let msgsize := decInt32 ((s.buf.drop 16).take 4)
  if msgsize = 0 then { s with st := .header, buf := [] }
  else if (((s.bset i).length : Nat) : Int) ≠ msgsize then
    { s with reader := none, ph := Function.update s.ph i .wait, bset := Function.update s.bset i [], st := .header, buf := [] }
  else
    let r := unpack (s.bset i)
    if r.1 then { s with ph := Function.update s.ph i (.ready (s.bset i)), bset := Function.update s.bset i r.2 }
    else { s with reader := none, ph := Function.update s.ph i .wait, bset := Function.update s.bset i r.2, st := .header, buf := [] }

/-- A complete buffer (MTGatewayWP2.cc:181-340). -/
def dispose (unpack : List Bytes → Bool × List Bytes) (s : Rd) (i : Nat) : Rd :=
  match s.st with
  | .header => onHeader s
  | .block _ => { s with bset := Function.update s.bset i (s.bset i ++ [s.buf]), st := .trailer, buf := [] }
  | .trailer => onTrailer unpack s i

/-- The next action of thread `i` of `readerThread` (MTGatewayWP2.cc:105-351); a read gives at most `k` bytes. -/
def step (unpack : List Bytes → Bool × List Bytes) (s : Rd) (i k : Nat) : Rd :=
  if s.down then s
  else match s.ph i with
  | .wait => if s.reader = none then { s with reader := some i, ph := Function.update s.ph i .reading, st := .header, buf := [] } else s
  | .reading =>
    if s.buf.length < s.st.need then
      if s.gw = none then
        let n := min k (s.st.need - s.buf.length)
        { s with buf := s.buf ++ s.rest.take n, rest := s.rest.drop n }
      else s
    else dispose unpack s i
  | .ready m => if s.gw = none then { s with gw := some i, reader := none, ph := Function.update s.ph i (.busy m) } else s
  | .busy m => { s with out := s.out ++ [m], gw := none, ph := Function.update s.ph i .wait }

/-- At the start, with all threads waiting. -/
def Rd.start (stream : Bytes) : Rd := ⟨none, none, fun _ => .wait, fun _ => [], .header, [], stream, [], false⟩

/-- A run: which thread acts, and how much a read gives. -/
def run (unpack : List Bytes → Bool × List Bytes) (s : Rd) (sched : List (Nat × Nat)) : Rd :=
  sched.foldl (fun s x => step unpack s x.1 x.2) s

end Verif.Gateway
