/-!
# Conversion of data between Python and the kernel

`OCTOPython/src/DataConv.cc` with the type map of `OCTOPython/src/dmi.py`, built for Python 3
(`MeqServer/src/py3compat.h`), and the part of `DMI/src/Vec.cc` it uses.  Whether a Python exception is
pending (`PyErr_Occurred`) is part of the state, since several functions ask for it.  CPython (3.5 and later)
makes a call fail that returns while an exception is pending.

Simplifications: floating point numbers are names (`Nat`) of values, so that widening `float` to `double` changes nothing;
text is a list of UTF-8 codes and can always be encoded; fields of a Python record are converted at once
instead of on first access; classes derived from records and arrays are numbers, with 0 for the base class, and
`validateContent` of such classes is left out; the fields of a record are kept in the order of addition;
conversion of a record key to an identifier and back is given by two functions.
-/
namespace Verif.PyConv

/-- Numeric types of DMI (TID-DMI.h:177-465). -/
inductive Ty where
  | bool | char | uchar | short | ushort | int | uint | long | ulong | longlong | ulonglong
  | float | double | ldouble | fcomplex | dcomplex
  deriving DecidableEq, Repr

/-- Element types of NumPy arrays; those DMI has no counterpart for (such as 64-bit integers) are numbered. -/
inductive Np where
  | bool | ubyte | int16 | int32 | float32 | float64 | complex64 | complex128
  | unsupported (code : Nat)
  deriving DecidableEq, Repr

/-- A number: integer, real or complex. -/
inductive Num where
  | i (z : Int)
  | f (x : Nat)
  | c (re im : Nat)
  deriving DecidableEq, Repr

/-- Kinds of Python sequences. -/
inductive SeqKind where
  | tuple | list | dmilist
  deriving DecidableEq, Repr

/-- Attributes of a Python `message` other than its payload (dmi.py:454-475); all but the id may be missing. -/
structure PyHead where
  msgid : List Int
  priority : Option Int
  frm : Option (List Int)
  dest : Option (List Int)
  state : Option Int
  hops : Option Int
  deriving DecidableEq, Repr

mutual
/-- Python objects.  `other` is an object of any class that is not known to the conversion, such as a `conv_error`. -/
inductive Py where
  | none
  | bool (b : Bool)
  | int (z : Int)
  | flt (x : Nat)
  | cplx (re im : Nat)
  | str (s : List Nat)
  | hiid (l : List Int)
  | seq (k : SeqKind) (is : Items)
  | array (cls : Nat) (ty : Np) (swapped : Bool) (shape : List Nat) (data : List Num)
  | record (cls : Nat) (fs : Fields)
  | message (h : PyHead) (payload : Py)
  | other
/-- Items of a sequence. -/
inductive Items where
  | nil
  | cons (v : Py) (r : Items)
/-- Keys and values of a record. -/
inductive Fields where
  | nil
  | cons (key : String) (v : Py) (r : Fields)
end

/-- Types of DMI objects as the conversion tells them apart. -/
inductive Tid where
  | num (t : Ty)
  | str | hiid | objref
  | arr (cls : Nat)
  | recd (cls : Nat)
  | vec | list | msg
  deriving DecidableEq, Repr

/-- Header of a DMI message (Message.h:270-290). -/
structure MsgHead where
  id : List Int
  priority : Int
  frm : List Int
  dest : List Int
  state : Int
  hops : Int
  deriving DecidableEq, Repr

mutual
/-- DMI objects: arrays, the kinds of `DMI::Vec` (uninitialised, or of numbers, strings, identifiers or objects;
scalar or not), records, lists and messages. -/
inductive D where
  | num (cls : Nat) (ty : Ty) (shape : List Nat) (data : List Num)
  | vecNull
  | vecNum (ty : Ty) (scalar : Bool) (data : List Num)
  | vecStr (scalar : Bool) (l : List (List Nat))
  | vecHiid (scalar : Bool) (l : List (List Int))
  | vecObj (tid : Tid) (scalar : Bool) (is : DItems)
  | record (cls : Nat) (fs : DFields)
  | list (is : DItems)
  | message (h : MsgHead) (payload : DRef)
/-- A reference to an object, perhaps an invalid one. -/
inductive DRef where
  | null
  | obj (o : D)
/-- Items of a list or of a vector of objects. -/
inductive DItems where
  | nil
  | cons (r : DRef) (t : DItems)
/-- Fields of a record. -/
inductive DFields where
  | nil
  | cons (id : List Int) (r : DRef) (t : DFields)
end

/-- What the conversion relies on: which derived classes are registered at both ends, how keys are turned into
identifiers (`HIID(str,true,"._")`, DataConv.cc:230) and back (`strlowercase(toString('_',false))`, DataConv.cc:700), and what
exchanging the bytes of a floating point number does. -/
structure Env where
  recCls : Nat → Bool
  arrCls : Nat → Bool
  parse : String → Option (List Int)
  print : List Int → String
  fswap : Nat → Nat

/-- Conversion of a C integer to `int`, `short`, `long long`: modulo a power of two. -/
def wrap (bits : Nat) (z : Int) : Int :=
  let m := z % (2 ^ bits : Int)
  if m < (2 ^ (bits - 1) : Int) then m else m - (2 ^ bits : Int)

/-- `PyLong_AsLong` followed by a conversion to `int` (DataConv.cc:409-413, py3compat.h:41,51): beyond 64 bits the value is -1
and an exception is pending. -/
def asInt (pend : Bool) (z : Int) : Int × Bool :=
  if -(2 ^ 63 : Int) ≤ z ∧ z < (2 ^ 63 : Int) then (wrap 32 z, pend) else (-1, true)

/-- Text as a C string: up to the first NUL (DataConv.cc:447-450, OctoPython.h:110-111). -/
def cstr (s : List Nat) : List Nat := s.takeWhile (· ≠ 0)

/-- `convertSeqToHIID` (DataConv.cc:50-68): the exception it looks for may have been pending before. -/
def hiidConv (pend : Bool) (l : List Int) : Option (List Int) :=
  if pend then none
  else if l.all (fun z => decide (-(2 ^ 63 : Int) ≤ z ∧ z < (2 ^ 63 : Int))) then some (l.map (wrap 32)) else none

/-- `pyToDMI_Type` (DataConv.cc:354-385); in Python 3 every `int`, and so every `bool`, passes `PyInt_Check`. -/
def pyType : Py → Option Tid
  | .none => some .objref
  | .bool _ => some (.num .int)
  | .int _ => some (.num .int)
  | .flt _ => some (.num .double)
  | .cplx _ _ => some (.num .dcomplex)
  | .str _ => some .str
  | .hiid _ => some .hiid
  | .record _ _ => some (.recd 0)
  | .seq .dmilist _ => some .list
  | .seq _ _ => some .vec
  | .array _ _ _ _ _ => some (.arr 0)
  | .message _ _ => some .msg
  | .other => none

/-- `getDMIType` (DataConv.cc:155-171) with `dmi_typename(x,strict=True)` (dmi.py:517-536, 543-555): the type found, and whether
an exception is pending afterwards.  Neither `list` nor `None` is in the type map. -/
def dmiType (E : Env) (pend : Bool) (v : Py) : Option Tid × Bool :=
  if pend then (none, true)
  else match v with
    | .bool _ => (some (.num .bool), false)
    | .int _ => (some (.num .int), false)
    | .flt _ => (some (.num .double), false)
    | .cplx _ _ => (some (.num .dcomplex), false)
    | .str _ => (some .str, false)
    | .hiid _ => (some .hiid, false)
    | .record c _ => if E.recCls c then (some (.recd c), false) else (none, true)
    | .array c _ _ _ _ => if E.arrCls c then (some (.arr c), false) else (none, true)
    | .seq .dmilist _ => (some .list, false)
    | .seq .tuple _ => (some .vec, false)
    | .seq .list _ => (none, true)
    | .message _ _ => (some .msg, false)
    | .none => (none, true)
    | .other => (none, true)

/-- Exchange of the bytes of a 16-bit or 32-bit integer. -/
def swap16 (z : Int) : Int :=
  let u := z % 65536
  wrap 16 (u % 256 * 256 + u / 256)
def swap32 (z : Int) : Int :=
  let u := z % (2 ^ 32 : Int)
  wrap 32 (u % 256 * 2 ^ 24 + u / 256 % 256 * 2 ^ 16 + u / 2 ^ 16 % 256 * 256 + u / 2 ^ 24)

/-- A number whose bytes are taken in the opposite order. -/
def swapNum (E : Env) (ty : Np) : Num → Num
  | .i z => match ty with
    | .int16 => .i (swap16 z)
    | .int32 => .i (swap32 z)
    | _ => .i z
  | .f x => .f (E.fswap x)
  | .c a b => .c (E.fswap a) (E.fswap b)

/-- `numarrayToTypeId` (DataConv.cc:279-295). -/
def npToTy : Np → Option Ty
  | .bool => some .bool
  | .ubyte => some .uchar
  | .int16 => some .short
  | .int32 => some .int
  | .float32 => some .float
  | .float64 => some .double
  | .complex64 => some .fcomplex
  | .complex128 => some .dcomplex
  | .unsupported _ => none

/-- `typeIdToNumarray` (DataConv.cc:297-312). -/
def tyToNp : Ty → Option Np
  | .bool => some .bool
  | .uchar => some .ubyte
  | .short => some .int16
  | .int => some .int32
  | .float => some .float32
  | .double => some .float64
  | .fcomplex => some .complex64
  | .dcomplex => some .complex128
  | _ => none

/-- `pyToArray` with `createSubclass` (DataConv.cc:317-349, 178-196): `PyArray_FromAny` with `NPY_CARRAY_RO` straightens
strides but does not ask for native byte order, and the bytes are copied as they are. -/
def toArray (E : Env) (pend : Bool) (cls : Nat) (ty : Np) (swapped : Bool) (shape : List Nat) (data : List Num) :
    Option D :=
  if pend || !E.arrCls cls then none
  else if shape.length > 10 then none
  else match npToTy ty with
    | none => none
    | some t => some (.num cls t (if shape = [] then [1] else shape)
        (if swapped then data.map (swapNum E ty) else data))

/-- `objectType()` of an object. -/
def dtid : D → Tid
  | .num c _ _ _ => .arr c
  | .vecNull => .vec
  | .vecNum _ _ _ => .vec
  | .vecStr _ _ => .vec
  | .vecHiid _ _ => .vec
  | .vecObj _ _ _ => .vec
  | .record c _ => .recd c
  | .list _ => .list
  | .message _ _ => .msg

/-- The scan of a sequence (DataConv.cc:505-545): whether a list is needed, the type of the items, and whether an exception is
pending afterwards; an unsupported item throws. -/
def scan (E : Env) (pend : Bool) (cur : Option Tid) : Items → Option (Bool × Option Tid × Bool)
  | .nil => some (false, cur, pend)
  | .cons v r =>
    match pyType v with
    | none => none
    | some base =>
      let q := dmiType E pend v
      let t := q.1.getD base
      let cur' := cur.getD t
      if t = .objref ∨ t ≠ cur' then some (true, some cur', q.2)
      else scan E q.2 (some cur') r

/-- Insertion of numbers into a vector (DataConv.cc:407-443); a `bool` is written as the integer it is. -/
def numItems (pend : Bool) : Items → Option (List Num × Bool)
  | .nil => some ([], pend)
  | .cons v r =>
    match v with
    | .bool b => (numItems pend r).map fun p => (.i (if b then 1 else 0) :: p.1, p.2)
    | .int z => (numItems (asInt pend z).2 r).map fun p => (.i (asInt pend z).1 :: p.1, p.2)
    | .flt x => (numItems pend r).map fun p => (.f x :: p.1, p.2)
    | .cplx a b => (numItems pend r).map fun p => (.c a b :: p.1, p.2)
    | _ => none

/-- Insertion of strings into a vector (DataConv.cc:444-451). -/
def strItems : Items → Option (List (List Nat))
  | .nil => some []
  | .cons (.str s) r => (strItems r).map (cstr s :: ·)
  | .cons _ _ => none

/-- Insertion of identifiers into a vector (DataConv.cc:452-459). -/
def hiidItems (pend : Bool) : Items → Option (List (List Int))
  | .nil => some []
  | .cons (.hiid l) r =>
    match hiidConv pend l with
    | none => none
    | some l' => (hiidItems pend r).map (l' :: ·)
  | .cons _ _ => none

/-- `Record::add` with `REPLACE` (Record.cc:159-179). -/
def addField (id : List Int) (r : DRef) : DFields → DFields
  | .nil => .cons id r .nil
  | .cons id' r' t => if id' = id then .cons id r t else .cons id' r' (addField id r t)

mutual
/-- `pyToDMI` for an object that is not part of a vector (DataConv.cc:397-620): the reference made, and whether an exception is
pending afterwards; `none` is a C++ exception.  A message (DataConv.cc:96-146) without payload has an invalid reference.  -/
def toD (E : Env) (pend : Bool) : Py → Option (DRef × Bool)
  | .none => some (.null, pend)
  | .bool b => some (.obj (.num 0 .int [1] [.i (if b then 1 else 0)]), pend)
  | .int z => some (.obj (.num 0 .int [1] [.i (asInt pend z).1]), (asInt pend z).2)
  | .flt x => some (.obj (.num 0 .double [1] [.f x]), pend)
  | .cplx a b => some (.obj (.num 0 .dcomplex [1] [.c a b]), pend)
  | .str s => some (.obj (.vecStr true [cstr s]), pend)
  | .hiid l => (hiidConv pend l).map fun l' => (.obj (.vecHiid true [l']), pend)
  | .array c ty sw sh da => (toArray E pend c ty sw sh da).map fun d => (.obj d, pend)
  | .record c fs =>
    if pend || !E.recCls c then none
    else some (.obj (.record c (toFields E .nil fs)), false)
  | .message h p =>
    match hiidConv pend h.msgid with
    | none => none
    | some id =>
      let pr := match h.priority with
        | none => ((0 : Int), true)
        | some z => asInt pend z
      match toD E pr.2 p with
      | none => none
      | some (payload, pend1) =>
        match (match h.frm with
            | none => some ([], true)
            | some l => (hiidConv pend1 l).map (·, pend1)) with
        | none => none
        | some (frm, pend2) =>
          match (match h.dest with
              | none => some []
              | some l => hiidConv pend2 l) with
          | none => none
          | some dest =>
            some (.obj (.message ⟨id, 256 + pr.1, frm, dest,
              match h.state with | none => 0 | some z => (asInt false z).1,
              match h.hops with | none => 0 | some z => wrap 16 (asInt false z).1⟩ payload), false)
  | .seq .dmilist is => (listItems E pend is).map fun p => (.obj (.list p.1), p.2)
  | .seq _ is =>
    match scan E pend none is with
    | none => none
    | some (true, _, pend1) => (listItems E pend1 is).map fun p => (.obj (.list p.1), p.2)
    | some (false, none, pend1) => some (.obj .vecNull, pend1)
    | some (false, some (.num t), pend1) => (numItems pend1 is).map fun p => (.obj (.vecNum t false p.1), p.2)
    | some (false, some .str, pend1) => (strItems is).map fun l => (.obj (.vecStr false l), pend1)
    | some (false, some .hiid, pend1) => (hiidItems pend1 is).map fun l => (.obj (.vecHiid false l), pend1)
    | some (false, some t, pend1) => (objItems E t pend1 is).map fun p => (.obj (.vecObj t false p.1), p.2)
  | .other => none
/-- Items of a `DMI::List` (DataConv.cc:551-562). -/
def listItems (E : Env) (pend : Bool) : Items → Option (DItems × Bool)
  | .nil => some (.nil, pend)
  | .cons v r =>
    match toD E pend v with
    | none => none
    | some (d, pend1) => (listItems E pend1 r).map fun p => (.cons d p.1, p.2)
/-- Objects put into a `DMI::Vec` of a type (DataConv.cc:565-582, Vec.cc:290-301, 802-824): `put` throws unless the object is
exactly of that type. -/
def objItems (E : Env) (t : Tid) (pend : Bool) : Items → Option (DItems × Bool)
  | .nil => some (.nil, pend)
  | .cons v r =>
    match toD E pend v with
    | none => none
    | some (.null, _) => none
    | some (.obj d, pend1) =>
      if dtid d = t then (objItems E t pend1 r).map fun p => (.cons (.obj d) p.1, p.2) else none
/-- The loop over the keys in `pyToRecord` (DataConv.cc:216-268): pending exceptions are cleared before each key; keys that are no
identifiers and values that cannot be converted are skipped. -/
def toFields (E : Env) (acc : DFields) : Fields → DFields
  | .nil => acc
  | .cons k v r =>
    match E.parse k with
    | none => toFields E acc r
    | some id =>
      match toD E false v with
      | none => toFields E acc r
      | some (d, _) => if id = [] then toFields E acc r else toFields E (addField id d acc) r
end

/-- A number as a Python scalar, by element type (DataConv.cc:670-684, 729-742). -/
def numToPy (ty : Ty) (n : Num) : Option Py :=
  match ty, n with
  | .bool, .i z => some (.bool (z ≠ 0))
  | .char, .i z | .uchar, .i z | .short, .i z | .ushort, .i z | .int, .i z | .uint, .i z | .long, .i z => some (.int z)
  | .ulong, .i z | .longlong, .i z | .ulonglong, .i z => some (.int (wrap 64 z))
  | .float, .f x | .double, .f x | .ldouble, .f x => some (.flt x)
  | .fcomplex, .c a b | .dcomplex, .c a b => some (.cplx a b)
  | _, _ => none

def numsToItems (ty : Ty) : List Num → Option Items
  | [] => some .nil
  | n :: l => match numToPy ty n with
    | none => none
    | some v => (numsToItems ty l).map (.cons v ·)

def strsToItems : List (List Nat) → Items
  | [] => .nil
  | s :: l => .cons (.str (cstr s)) (strsToItems l)

def hiidsToItems : List (List Int) → Items
  | [] => .nil
  | s :: l => .cons (.hiid s) (hiidsToItems l)

/-- `PyDict_SetItemString` (DataConv.cc:711). -/
def setItem (k : String) (v : Py) : Fields → Fields
  | .nil => .cons k v .nil
  | .cons k' v' r => if k' = k then .cons k v r else .cons k' v' (setItem k v r)

mutual
/-- `pyFromDMI` under the policy `EP_THROW` (DataConv.cc:829-880 and the functions it calls); `none` is a C++ exception.
`thr` says whether the flags handed to parts of vectors ask for exceptions or for `conv_error` objects. -/
def fromD (E : Env) (thr : Bool) : D → Option Py
  | .num c ty sh da =>
    if sh.length = 1 ∧ sh.prod = 1 ∧ c = 0 then
      match da with
      | n :: _ => numToPy ty n
      | [] => none
    else match tyToNp ty with
      | none => none
      | some np => some (.array c np false sh da)
  | .vecNull => some (.seq .tuple .nil)
  | .vecNum ty sc da =>
    if sc then match da with
      | n :: _ => numToPy ty n
      | [] => none
    else (numsToItems ty da).map (.seq .tuple ·)
  | .vecStr sc l =>
    if sc then match l with
      | s :: _ => some (.str (cstr s))
      | [] => none
    else some (.seq .tuple (strsToItems l))
  | .vecHiid sc l =>
    if sc then match l with
      | s :: _ => some (.hiid s)
      | [] => none
    else some (.seq .tuple (hiidsToItems l))
  | .vecObj _ sc is =>
    if sc then match is with
      | .cons r _ => fromRef E thr r
      | .nil => none
    else (fromItems E thr is).map (.seq .tuple ·)
  | .record c fs => some (.record c (fromFields E .nil fs))
  | .list is => (fromItems E false is).map (.seq .dmilist ·)
  | .message h p =>
    match fromRef E false p with
    | none => none
    | some v => some (.message ⟨h.id, some (h.priority - 256), some h.frm, some h.dest, some h.state, some h.hops⟩ v)
/-- `pyFromObjRef` (DataConv.cc:612-618): an invalid reference is `None`; a failure is an exception or a `conv_error`. -/
def fromRef (E : Env) (thr : Bool) : DRef → Option Py
  | .null => some .none
  | .obj d => match fromD E thr d with
    | none => if thr then none else some .other
    | some v => some v
/-- Items of a vector of objects or of a list (DataConv.cc:640-660, 684-697). -/
def fromItems (E : Env) (thr : Bool) : DItems → Option Items
  | .nil => some .nil
  | .cons r t => match fromRef E thr r with
    | none => none
    | some v => (fromItems E thr t).map (.cons v ·)
/-- Fields of a record (DataConv.cc:704-719, LazyObjRef.cc:87-101); a field whose conversion fails is there but cannot be read. -/
def fromFields (E : Env) (acc : Fields) : DFields → Fields
  | .nil => acc
  | .cons id r t =>
    fromFields E (setItem (E.print id) (match fromRef E false r with | none => .other | some v => v) acc) t
end

end Verif.PyConv
