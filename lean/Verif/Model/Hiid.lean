import Verif.Model.Bytes
import Verif.Model.Outcome
/-!
# Hierarchical identifiers

Model of `/repo/DMI/src/AtomicID.h`, `/repo/DMI/src/HIID.h`, `/repo/DMI/src/HIID.cc`.
An `AtomicID` is the `int` it wraps (AtomicID.h:49-159), modelled by `Int`; a `HIID` is a vector of
them (`class HIID : public std::vector<AtomicID>`, HIID.h:40-45), modelled by `List Int`.
-/
namespace Verif.Hiid


/-- `AidAny(-1)`, printed "?" (AtomicID.h:169). -/
def aidAny : Int := -1
/-- `AidWildcard(-2)`, printed "*" (AtomicID.h:170). -/
def aidWild : Int := -2
/-- `AidSlash(-3)` (AtomicID.h:171). -/
def aidSlash : Int := -3
/-- `AidRange(-4)` (AtomicID.h:172). -/
def aidRange : Int := -4
/-- `AidEmpty(-5)` (AtomicID.h:173). -/
def aidEmpty : Int := -5
/-- `AidHash(-6)` (AtomicID.h:174). -/
def aidHash : Int := -6

/-- `AtomicID::isAny` (AtomicID.h:268-271). -/
def isAny (a : Int) : Bool := a == aidAny
/-- `AtomicID::isWildcard` (AtomicID.h:274-277). -/
def isWild (a : Int) : Bool := a == aidWild

/-- `AtomicID::index` (AtomicID.h:280-283). -/
def index (a : Int) : Int := if a ≥ 0 then a else -1

/-- `AtomicID::matches` (AtomicID.h:286-291). -/
def aidMatches (a b : Int) : Bool := isAny a || isWild a || isAny b || isWild b || a == b

/-- The end-of-loop test `iter == end() || (*iter).isWildcard()` (HIID.cc:73-74). -/
def endOk : List Int → Bool
  | [] => true
  | a :: _ => isWild a

/-- Loop of `HIID::matches` (HIID.cc:61-74). -/
def matchLoop : List Int → List Int → Bool
  | a :: p, b :: q =>
    if isWild a || isWild b then true
    else if !aidMatches a b then false
    else matchLoop p q
  | p, q => endOk p && endOk q

/-- `HIID::matches` (HIID.cc:56-75).  `same` says whether the two objects are the same object
(`this == &other`). -/
def matches_ (same : Bool) (p q : List Int) : Bool := if same then true else matchLoop p q

/-- Loop of `HIID::subsetOf` (HIID.cc:83-96). -/
def subsetLoop : List Int → List Int → Bool
  | a :: p, b :: q =>
    if isWild b then true
    else if isWild a || (isAny a && !isAny b) || !aidMatches a b then false
    else subsetLoop p q
  | p, q => p.isEmpty && endOk q

/-- `HIID::subsetOf` (HIID.cc:78-97). -/
def subsetOf (same : Bool) (p q : List Int) : Bool := if same then true else subsetLoop p q

/-- `operator |` on two ids (HIID.h:264, via `HIID::add` HIID.h:369-378): concatenation. -/
def cat (p q : List Int) : List Int := p ++ q

/-- `HIID::prefixedBy` (HIID.h:387-390). The right operand is a fresh object. -/
def prefixedBy (p o : List Int) : Bool := matches_ false p (cat o [aidWild])

/-- `HIID::pop_front` (HIID.h:393-406). -/
def popFront (n : Nat) (p : List Int) : List Int :=
  if n = 0 then p
  else if (p.length : Int) - n ≤ 0 then [] else p.drop n

/-- `HIID::popLeadIndex` (HIID.cc:101-110): returned index and remaining id. -/
def popLeadIndex (p : List Int) : Int × List Int :=
  match p with
  | [] => (0, p)
  | a :: _ => if index a < 0 then (0, p) else (index a, popFront 1 p)

/-- `HIID::popTrailIndex` (HIID.cc:113-122). -/
def popTrailIndex (p : List Int) : Int × List Int :=
  match p.getLast? with
  | none => (0, p)
  | some a => if index a < 0 then (0, p) else (index a, p.take (p.length - 1))

/-- `HIID::popLeadSlashes` (HIID.h:420-432): number of slashes removed and remaining id. -/
def popLeadSlashes (p : List Int) : Nat × List Int :=
  let n := (p.takeWhile (· == aidSlash)).length
  (n, popFront n p)

/-- `HIID::findFirstSlash` (HIID.h:435-442), started at position `pos`. -/
def findFirstSlash (pos : Nat) : List Int → Int
  | [] => -1
  | a :: p => if a == aidSlash then pos else findFirstSlash (pos + 1) p

/-- `HIID::splitAtSlash` (HIID.cc:125-155): returned sub-id and remaining id. -/
def splitAtSlash (p : List Int) : List Int × List Int :=
  let pos := findFirstSlash 0 p
  if pos < 0 then (p, [])
  else (p.take pos.toNat, popFront (pos.toNat + 1) p)

/-- `HIID::packSize` (HIID.h:446-449). -/
def packSize (p : List Int) : Nat := p.length * 4

/-- `HIID::pack` (HIID.cc:226-237): bytes written; `none` is the "block too small" exception. -/
def pack (nleft : Nat) (p : List Int) : Option (Bytes × Nat) :=
  let sz := p.length * 4
  if nleft < sz then none
  else some (p.flatMap encInt32, nleft - sz)

/-- Reinterpreting a byte block as consecutive `int`s (the `memcpy` of HIID.cc:247). -/
def words : Nat → Bytes → List Int
  | 0, _ => []
  | n + 1, bs => decInt32 (bs.take 4) :: words n (bs.drop 4)

/-- `HIID::unpack` (HIID.cc:240-252); `none` is the "bad block size" exception. -/
def unpack (bs : Bytes) : Option (List Int) :=
  if bs.length % 4 ≠ 0 then none else some (words (bs.length / 4) bs)

/-- `HIID::operator ==` (HIID.cc:256-268): size check, then `memcmp` of the storage. -/
def eq (same : Bool) (p q : List Int) : Bool :=
  if same then true
  else if p.length ≠ q.length then false
  else p.flatMap encInt32 == q.flatMap encInt32

/-- Loop of `HIID::operator <` (HIID.cc:276-288). -/
def ltLoop : List Int → List Int → Bool
  | a :: p, b :: q => if a < b then true else if a > b then false else ltLoop p q
  | _, q => !q.isEmpty

/-- `HIID::operator <` (HIID.cc:271-289). -/
def lt (same : Bool) (p q : List Int) : Bool := if same then false else ltLoop p q

/-- `HIID::subId` (HIID.cc:45-53).  The two iterators are computed by
`first >= 0 ? begin()+first : end()-first` and `last >= 0 ? begin()+(last+1) : end()-(last+1)`;
forming or using an iterator outside `[begin,end]` is undefined. -/
def subId (p : List Int) (first last : Int) : Res (List Int) :=
  let n : Int := p.length
  let i1 := if first ≥ 0 then first else n - first
  let i2 := if last ≥ 0 then last + 1 else n - (last + 1)
  if i1 < 0 ∨ i1 > n ∨ i2 < 0 ∨ i2 > n then .ub
  else if i1 ≥ i2 then .ok []
  else .ok ((p.drop i1.toNat).take (i2 - i1).toNat)

/-- `HIID::push_front` (HIID.h:408-418).  The vector is grown by `n` zero words, then
`memmove(&(*this)[n],&front(),sz0)` moves `sz0` *bytes*, then the first `n` words are assigned. -/
def pushFront (a : Int) (n : Nat) (p : List Int) : Res (List Int) :=
  if n = 0 then .ok p
  else
    let grown := (p ++ List.replicate n 0).flatMap encInt32
    match memmove grown (4 * n) 0 p.length with
    | none => .ub
    | some bs => .ok (List.replicate n a ++ (words (p.length + n) bs).drop n)

end Verif.Hiid
