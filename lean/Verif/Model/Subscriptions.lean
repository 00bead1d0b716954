import Verif.Model.Hiid
import Verif.Spec.Subscriptions
/-!
# Message subscriptions

Model of `/repo/OCTOPUSSY/src/Subscriptions.cc` and `Subscriptions.h`.
A `MsgAddress` is a `HIID` (`/repo/OCTOPUSSY/src/MsgAddress.h`), modelled by `List Int`.
-/
namespace Verif.Subs
open SubsSpec (History)
open Hiid

/-- `SubElement { HIID mask; MsgAddress scope; }` (Subscriptions.h:74). -/
structure Elem where
  mask : List Int
  scope : List Int
deriving DecidableEq, Repr

/-- `class Subscriptions` (Subscriptions.h:37-90): list of elements and cached pack size.
Simplification: `pksize` is a `size_t`; its updates are exact modulo 2^64, modelled by `Int`. -/
structure State where
  subs : List Elem
  pksize : Int
deriving DecidableEq, Repr

/-- Constructor (Subscriptions.cc:33-36). -/
def init : State := ⟨[], 8⟩

/-- Pack size of one element without its two size words. -/
def elemSize (e : Elem) : Nat := packSize e.mask + packSize e.scope

/-- The loop of `Subscriptions::add` (Subscriptions.cc:44-59): `none` if it fell through,
otherwise the new list, the change of `pksize` and the returned flag.  The ids passed in are
never the same objects as the stored copies, so the `this == &other` shortcut is not taken. -/
def addLoop (id scope : List Int) : List Elem → Option (List Elem × Int × Bool)
  | [] => none
  | e :: rest =>
    if subsetOf false id e.mask && subsetOf false scope e.scope then some (e :: rest, 0, false)
    else if subsetOf false e.mask id && subsetOf false e.scope scope then
      some (⟨id, scope⟩ :: rest,
        (packSize id : Int) - packSize e.mask + packSize scope - packSize e.scope, true)
    else
      match addLoop id scope rest with
      | none => none
      | some (l, d, b) => some (e :: l, d, b)

/-- `Subscriptions::add` (Subscriptions.cc:41-65). -/
def add (s : State) (id scope : List Int) : State × Bool :=
  match addLoop id scope s.subs with
  | some (l, d, b) => (⟨l, s.pksize + d⟩, b)
  | none => (⟨s.subs ++ [⟨id, scope⟩], s.pksize + (packSize id + packSize scope + 2 * 8 : Nat)⟩, true)

/-- The loop of `Subscriptions::remove` (Subscriptions.cc:70-81). -/
def removeLoop (id : List Int) : List Elem → Int → Bool → List Elem × Int × Bool
  | [], pk, ret => ([], pk, ret)
  | e :: rest, pk, ret =>
    if subsetOf false e.mask id then
      removeLoop id rest (pk - (packSize e.mask + packSize e.scope + 2 * 8 : Nat)) true
    else
      let r := removeLoop id rest pk ret
      (e :: r.1, r.2)

/-- `Subscriptions::remove` (Subscriptions.cc:67-83). -/
def remove (s : State) (id : List Int) : State × Bool :=
  let r := removeLoop id s.subs s.pksize false
  (⟨r.1, r.2.1⟩, r.2.2)

/-- `Subscriptions::clear` (Subscriptions.cc:85-89). -/
def clear (_ : State) : State := ⟨[], 8⟩

/-- The loop of `Subscriptions::merge` (Subscriptions.cc:94-95). -/
def mergeLoop (s : State) (ret : Bool) : List Elem → State × Bool
  | [] => (s, ret)
  | e :: rest =>
    let r := add s e.mask e.scope
    mergeLoop r.1 (ret || r.2) rest

/-- `Subscriptions::merge` (Subscriptions.cc:91-97). -/
def merge (s o : State) : State × Bool := mergeLoop s false o.subs

/-- `Subscriptions::matches` (Subscriptions.cc:99-105) for a message with the given id and sender. -/
def matches_ (s : State) (msgId msgFrom : List Int) : Bool :=
  s.subs.any fun e => Hiid.matches_ false msgId e.mask && Hiid.matches_ false msgFrom e.scope

/-- The packing loop (Subscriptions.cc:119-126): header words, data bytes, space left. -/
def packLoop : List Elem → Nat → Res (Bytes × Bytes × Nat)
  | [], nleft => .ok ([], [], nleft)
  | e :: rest, nleft =>
    match Hiid.pack nleft e.mask with
    | none => .err
    | some (b1, nleft1) =>
      match Hiid.pack nleft1 e.scope with
      | none => .err
      | some (b2, nleft2) =>
        match packLoop rest nleft2 with
        | .ok (h, d, nl) => .ok (encSize b1.length ++ encSize b2.length ++ h, b1 ++ b2 ++ d, nl)
        | .err => .err
        | .ub => .ub

/-- `Subscriptions::pack` (Subscriptions.cc:107-128): bytes written and space left. -/
def pack (s : State) (nleft : Nat) : Res (Bytes × Nat) :=
  let hdrsize := 8 * (1 + 2 * s.subs.length)
  if ¬ (hdrsize : Int) ≤ s.pksize then .err
  else if nleft < hdrsize then .err
  else
    match packLoop s.subs (nleft - hdrsize) with
    | .ok (h, d, nl) =>
      if ((hdrsize + d.length : Nat) : Int) = s.pksize then .ok (encSize s.subs.length ++ h ++ d, nl)
      else .err
    | .err => .err
    | .ub => .ub

/-- The unpacking loop (Subscriptions.cc:140-149).  `hdr` and `data` are the bytes from the current
header and data pointers to the end of the block.  `chksize` is a `size_t`, hence modulo 2^64. -/
def unpackLoop (sz : Nat) : Nat → Bytes → Bytes → Nat → Res (List Elem × Nat)
  | 0, _, _, chk => .ok ([], chk)
  | n + 1, hdr, data, chk =>
    let sz1 := leDec (hdr.take 8)
    let sz2 := leDec ((hdr.drop 8).take 8)
    let chk' := (chk + sz1 + sz2) % 2 ^ 64
    if sz < chk' then .err
    else if sz1 % 4 ≠ 0 then .err
    else if data.length < sz1 then .ub        -- reads past the end of the block
    else
      let data1 := data.drop sz1
      if sz2 % 4 ≠ 0 then .err
      else if data1.length < sz2 then .ub
      else
        match Hiid.unpack (data.take sz1), Hiid.unpack (data1.take sz2) with
        | some m, some sc =>
          match unpackLoop sz n (hdr.drop 16) (data1.drop sz2) chk' with
          | .ok (l, c) => .ok (⟨m, sc⟩ :: l, c)
          | .err => .err
          | .ub => .ub
        | _, _ => .err

/-- `Subscriptions::unpack` (Subscriptions.cc:130-151).  The element count is cast to `int` and the
header size is computed in `int`; counts of 2^30 and more overflow, which is undefined. -/
def unpack (bs : Bytes) : Res State :=
  let sz := bs.length
  if sz < 8 then .err
  else
    let n := leDec (bs.take 8)
    if n ≥ 2 ^ 30 then .ub
    else
      let chk := 8 * (1 + 2 * n)
      if sz < chk then .err
      else
        match unpackLoop sz n (bs.drop 8) (bs.drop chk) chk with
        | .ok (l, c) => if sz ≠ c then .err else .ok ⟨l, sz⟩
        | .err => .err
        | .ub => .ub

/-- Running a history on the model. -/
def run : History → State
  | .new => init
  | .subscribe h id scope => (add (run h) id scope).1
  | .unsubscribe h id => (remove (run h) id).1
  | .clear h => clear (run h)
  | .merge h o => (merge (run h) (run o)).1

end Verif.Subs
