import Verif.Model.Outcome
import Verif.Model.Bytes
import Verif.Model.Hiid
import Verif.Model.Assoc
/-!
# Conversion of containers to and from block sets

Records and lists (and classes derived from them, which share these functions) nested to any depth over
any other class of object.  A block is a byte string; a block set is a list of blocks, taken from the
front.  Simplifications: `int`s are 4 bytes, little endian; a record's fields are unpacked at once instead
of on first access, so an unreadable field fails here and not then; the protection flags, which are not
written (Record.cc:265), are left out; the hook `validateContent` does nothing (it belongs to derived
classes); an exception while a list item is constructed makes the whole conversion fail, where the code
replaces the item by an error text and then fails unless the block count happens to agree
(List.cc:180-196).
-/
namespace Verif.Serial

/-- What a class other than the containers does: `toBlock`, `fromBlock`, `objectType` (BObj.h:56-70). -/
structure Leaf (L : Type) where
  tid : L → Int
  toB : L → List Bytes
  fromB : List Bytes → Res (L × List Bytes)

/-- Kinds of classes registered with the type manager (DynamicTypeManager.cc:61-72). -/
inductive Kind where
  | leaf | record | list
  deriving DecidableEq, Repr

mutual
/-- An object: of some other class, a record, or a list; containers carry their type id. -/
inductive Obj (L : Type) where
  | leaf (x : L)
  | record (tid : Int) (fs : Fields L)
  | list (tid : Int) (is : Items L)
/-- The fields of a record in iteration order; a field may be empty. -/
inductive Fields (L : Type) where
  | nil
  | empty (id : List Int) (r : Fields L)
  | full (id : List Int) (o : Obj L) (r : Fields L)
/-- The items of a list; an item may be an empty reference. -/
inductive Items (L : Type) where
  | nil
  | empty (r : Items L)
  | full (o : Obj L) (r : Items L)
end

variable {L : Type}

/-- `Record::Header` and `BlockFieldInfo` and ids as filled in by `Record::toBlock`
(Record.cc:280-297,307, Record.h:455-468, BObj.h:93-104). -/
def recordHeader (tid : Int) (l : List (List Int × List Bytes)) : Bytes :=
  encInt32 tid ++ encInt32 (1 + (l.map fun p => (p.2.length : Int)).sum) ++ encInt32 l.length
    ++ l.flatMap (fun p => encInt32 (4 * p.1.length) ++ encInt32 p.2.length)
    ++ l.flatMap (fun p => p.1.flatMap encInt32)

/-- `List::Header` as filled in by `List::toBlock` (List.cc:217-244, List.h:157-162). -/
def listHeader (tid : Int) (l : List (List Bytes)) : Bytes :=
  encInt32 tid ++ encInt32 (1 + (l.map fun b => (b.length : Int)).sum) ++ encInt32 l.length
    ++ l.flatMap (fun b => encInt32 b.length)

mutual
/-- `toBlock` (Record.cc:274-310, List.cc:211-248): the blocks pushed onto the set. -/
def toBlocks (C : Leaf L) : Obj L → List Bytes
  | .leaf x => C.toB x
  | .record tid fs => recordHeader tid (fieldsTo C fs) :: (fieldsTo C fs).flatMap (·.2)
  | .list tid is => listHeader tid (itemsTo C is) :: (itemsTo C is).flatten
/-- Identifier and blocks of each field; an empty field has none (Record.cc:295-306). -/
def fieldsTo (C : Leaf L) : Fields L → List (List Int × List Bytes)
  | .nil => []
  | .empty id r => (id, []) :: fieldsTo C r
  | .full id o r => (id, toBlocks C o) :: fieldsTo C r
/-- Blocks of each item (List.cc:230-243). -/
def itemsTo (C : Leaf L) : Items L → List (List Bytes)
  | .nil => []
  | .empty r => [] :: itemsTo C r
  | .full o r => toBlocks C o :: itemsTo C r
end

/-- The `int` at a byte offset of a block. -/
def rd (b : Bytes) (off : Nat) : Int := decInt32 ((b.drop off).take 4)

/-- Loop of `Record::fromBlock` (Record.cc:247-266): `n` fields to go, the next being number `i` with its
id at `off`.  `HIID::unpack` throws on a size that is no multiple of 4; a negative size is outside what
the header can hold and counts as undefined. -/
def recordLoop (hdr : Bytes) : Nat → Nat → Nat → List Bytes → Int → List (List Int × List Bytes) →
    Res (Int × List (List Int × List Bytes) × List Bytes)
  | 0, _, _, set, nref, fs => .ok (nref, fs, set)
  | n + 1, i, off, set, nref, fs =>
    let idsize := rd hdr (12 + 8 * i)
    if idsize < 0 then .ub
    else if hdr.length < off + idsize.toNat then .err
    else
      match Hiid.unpack ((hdr.drop off).take idsize.toNat) with
      | none => .err
      | some id =>
        let bc := rd hdr (12 + 8 * i + 4)
        if bc ≠ 0 then
          if (set.length : Int) < bc then .err
          else if bc < 0 then recordLoop hdr n (i + 1) (off + idsize.toNat) set (nref + bc) (Assoc.set fs id set)
          else recordLoop hdr n (i + 1) (off + idsize.toNat) (set.drop bc.toNat) (nref + bc)
            (Assoc.set fs id (set.take bc.toNat))
        else recordLoop hdr n (i + 1) (off + idsize.toNat) set nref (Assoc.set fs id [])

/-- `Field::makeObject` of every field (Record.cc:117-128), with `cons` the type manager's `construct`. -/
def unpackFields (cons : List Bytes → Res (Obj L × List Bytes)) : List (List Int × List Bytes) → Res (Fields L)
  | [] => .ok .nil
  | (id, []) :: r => do
    let fs ← unpackFields cons r
    pure (.empty id fs)
  | (id, b :: bs) :: r => do
    let (o, _) ← cons (b :: bs)
    let fs ← unpackFields cons r
    pure (.full id o fs)

/-- `Record::fromBlock` (Record.cc:226-271) with header block `hdr` popped off. -/
def recordFrom (cons : List Bytes → Res (Obj L × List Bytes)) (tid : Int) (hdr : Bytes) (set : List Bytes) :
    Res (Obj L × List Bytes) :=
  if hdr.length < 12 then .err
  else
    let nf := rd hdr 8
    if (hdr.length : Int) < (12 + 8 * nf) % 2 ^ 64 then .err
    else
      match recordLoop hdr nf.toNat 0 (12 + 8 * nf.toNat) set 1 [] with
      | .err => .err
      | .ub => .ub
      | .ok (nref, fs, rest) =>
        if nref ≠ rd hdr 4 then .err
        else do
          let fs ← unpackFields cons fs
          pure (.record tid fs, rest)

/-- Loop of `List::fromBlock` (List.cc:171-204): `n` items to go, the next being number `i`. -/
def listLoop (cons : List Bytes → Res (Obj L × List Bytes)) (hdr : Bytes) : Nat → Nat → List Bytes → Int →
    Res (Items L × Int × List Bytes)
  | 0, _, set, nref => .ok (.nil, nref, set)
  | n + 1, i, set, nref =>
    let bc := rd hdr (12 + 4 * i)
    if bc ≠ 0 then
      if set = [] then .err
      else do
        let (o, set') ← cons set
        if (set.length : Int) - set'.length ≠ bc then .err
        else do
          let (r, nref', rest) ← listLoop cons hdr n (i + 1) set' (nref + ((set.length : Int) - set'.length))
          pure (.full o r, nref', rest)
    else do
      let (r, nref', rest) ← listLoop cons hdr n (i + 1) set nref
      pure (.empty r, nref', rest)

/-- `List::fromBlock` (List.cc:153-209) with header block `hdr` popped off. -/
def listFrom (cons : List Bytes → Res (Obj L × List Bytes)) (tid : Int) (hdr : Bytes) (set : List Bytes) :
    Res (Obj L × List Bytes) :=
  if hdr.length < 12 then .err
  else
    let n := rd hdr 8
    if (hdr.length : Int) ≠ (12 + 4 * n) % 2 ^ 64 then .err
    else
      match listLoop cons hdr n.toNat 0 set 1 with
      | .err => .err
      | .ub => .ub
      | .ok (is, nref, rest) => if nref ≠ rd hdr 4 then .err else .ok (.list tid is, rest)

/-- `DynamicTypeManager::construct(0,bset)` (DynamicTypeManager.cc:33-47): the class is looked up by the
type id in the first block.  `fuel` bounds the nesting. -/
def construct (C : Leaf L) (kind : Int → Option Kind) : Nat → List Bytes → Res (Obj L × List Bytes)
  | 0, _ => .err
  | fuel + 1, set =>
    match set with
    | [] => .err
    | b :: rest =>
      if b.length < 4 then .ub
      else
        let tid := rd b 0
        match kind tid with
        | none => .err
        | some .leaf =>
          match C.fromB (b :: rest) with
          | .ok (x, rest') => .ok (.leaf x, rest')
          | .err => .err
          | .ub => .ub
        | some .record => recordFrom (construct C kind fuel) tid b rest
        | some .list => listFrom (construct C kind fuel) tid b rest

/-- Reading an object from a block set: every level of nesting takes up at least one block. -/
def fromBlocks (C : Leaf L) (kind : Int → Option Kind) (set : List Bytes) : Res (Obj L × List Bytes) :=
  construct C kind (set.length + 1) set

end Verif.Serial
