import Verif.Model.Assoc
/-!
# Request ids and symbolic dependencies (MEQ/src/RequestId.cc, SymdepMap.h, SymdepMap.cc, Forest.cc)

A request id is a list of integers, component `i` belonging to bit `i` of a dependency mask.  Masks are C++
`int`s; only the `RQIDM_NBITS` = 16 low bits are looked at.  Simplification: component values are unbounded
integers.
-/
namespace Verif.RequestId

/-- Bit `i` of a (two's complement) mask: `mask & (1<<i)`. -/
def bit (mask : Int) (i : Nat) : Bool := mask / 2 ^ i % 2 = 1

/-- `RQIDM_NBITS` (RequestId.h:51). -/
def nbits : Nat := 16

/-- Loop of `maskSubId` (RequestId.cc:54-62), from component `i`. -/
def maskLoop (mask : Int) (i : Nat) : List Int → List Int
  | [] => []
  | a :: l => if i < nbits then (if bit mask i then a else 0) :: maskLoop mask (i + 1) l else a :: l

/-- `RqId::maskSubId` (RequestId.cc:46-63). -/
def maskSubId (id : List Int) (mask : Int) : List Int :=
  if mask = 0 then [0] else maskLoop mask 0 id

/-- `for( m1=mask; m1!=0; m1>>=1 ) msb++` (RequestId.cc:71-73) for a non-negative mask, with enough fuel. -/
def shiftLoop : Nat → Nat → Nat
  | 0, _ => 0
  | fuel + 1, m => if m = 0 then 0 else shiftLoop fuel (m / 2) + 1

/-- The position above the highest bit of a mask; for a negative mask the loop never ends. -/
def msb (mask : Int) : Option Nat := if mask < 0 then none else some (shiftLoop mask.toNat mask.toNat)

/-- `id.resize(n)` if shorter (RequestId.cc:75-76). -/
def resizeUp (id : List Int) (n : Nat) : List Int := id ++ List.replicate (n - id.length) 0

/-- Loop of `incrSubId` and `setSubId` (RequestId.cc:80-86, 102-108): `f` is the change. -/
def updLoop (f : Int → Int) (mask : Int) (i : Nat) : List Int → List Int
  | [] => []
  | a :: l => if i < nbits then (if bit mask i then f a else a) :: updLoop f mask (i + 1) l else a :: l

/-- `RqId::incrSubId` (RequestId.cc:65-87); `none`: does not return. -/
def incrSubId (id : List Int) (mask : Int) : Option (List Int) :=
  if mask = 0 then some id
  else (msb mask).map fun n => updLoop (· + 1) mask 0 (resizeUp id n)

/-- `RqId::setSubId` (RequestId.cc:89-109); `none`: does not return. -/
def setSubId (id : List Int) (mask : Int) (v : Int) : Option (List Int) :=
  if mask = 0 then some id
  else (msb mask).map fun n => updLoop (fun _ => v) mask 0 (resizeUp id n)

/-- Loop of `maskedCompare` (RequestId.cc:124-133), with `n` bits to go, at bit `i`. -/
def cmpLoop (mask : Int) : Nat → Nat → List Int → List Int → Bool
  | 0, _, _, _ => true
  | _ + 1, _, [], [] => true
  | n + 1, i, a, b =>
    if bit mask i && a.headD 0 != b.headD 0 then false else cmpLoop mask n (i + 1) a.tail b.tail

/-- `RqId::maskedCompare` (RequestId.cc:112-135). -/
def maskedCompare (a b : List Int) (mask : Int) : Bool :=
  if mask = 0 then true
  else if a = [] ∨ b = [] then false
  else cmpLoop mask nbits 0 a b

/-- Loop of `diffMask` (RequestId.cc:143-152). -/
def diffLoop : Nat → Nat → List Int → List Int → Nat → Nat
  | 0, _, _, _, m => m
  | _ + 1, _, [], [], m => m
  | n + 1, i, a, b, m =>
    diffLoop n (i + 1) a.tail b.tail (if a.headD 0 ≠ b.headD 0 then m ||| 2 ^ i else m)

/-- `RqId::diffMask` (RequestId.cc:137-154). -/
def diffMask (a b : List Int) : Nat := diffLoop nbits 0 a b 0

/-! ## Symbolic dependencies -/

/-- `SymdepMap` (SymdepMap.h:97-103), with identifiers as keys and non-negative masks. -/
structure Symdeps where
  map : List (List Int × Nat)
  active : List (List Int)
  mask : Nat
  deriving DecidableEq, Repr

/-- `getMask` (SymdepMap.cc:62-72). -/
def getMask (map : List (List Int × Nat)) (deps : List (List Int)) : Nat :=
  deps.foldl (fun m d => match Assoc.find map d with | some x => m ||| x | none => m) 0

/-- Calls on a dependency map.  `loadBad m`: loading a record in which the entries `m` are followed by one that is not
an integer, so that `as<int>` throws (SymdepMap.cc:51). -/
inductive SOp where
  | set (d : List Int) (m : Nat)
  | load (map : List (List Int × Nat))
  | loadBad (map : List (List Int × Nat))
  | setActive (deps : List (List Int))
  | clearActive
  deriving DecidableEq, Repr

/-- The map a record or another map is loaded into (SymdepMap.cc:47-59): later entries replace earlier ones. -/
def loadMap (m : List (List Int × Nat)) : List (List Int × Nat) := m.foldl (fun acc p => Assoc.set acc p.1 p.2) []

/-- `set`, `load`, `setActive` (SymdepMap.cc:41-59,76-81; SymdepMap.h:90-91). -/
def sstep (s : Symdeps) : SOp → Symdeps
  | .set d m => ⟨Assoc.set s.map d m, s.active, getMask (Assoc.set s.map d m) s.active⟩
  | .load m => ⟨loadMap m, s.active, getMask (loadMap m) s.active⟩
  | .loadBad m => ⟨loadMap m, s.active, s.mask⟩
  | .setActive deps => ⟨s.map, deps, getMask s.map deps⟩
  | .clearActive => ⟨s.map, [], 0⟩

/-- A new map (SymdepMap.h:42-44). -/
def sinit : Symdeps := ⟨[], [], 0⟩

/-- `symdep_counts` and a request id under `Forest::incrRequestId` (Forest.cc:266-276). -/
structure Counts where
  counts : List (List Int × Nat)
  id : List Int
  deriving DecidableEq, Repr

/-- `Forest::incrRequestId` (Forest.cc:266-276). -/
def incrRequestId (map : List (List Int × Nat)) (s : Counts) (d : List Int) : Counts :=
  let m := getMask map [d]
  if m = 0 then s
  else
    let n := (Assoc.find s.counts d).getD 0 + 1
    ⟨Assoc.set s.counts d n, (setSubId s.id m n).getD s.id⟩

end Verif.RequestId
