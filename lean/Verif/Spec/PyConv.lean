import Verif.Model.PyConv
/-!
# Specification of the conversion between Python and the kernel

`Same` is equality of Python objects up to the kind of sequence (tuple, list or `dmilist`), the byte order an array
is kept in, and attributes of a message that were not set.  `Plain` describes objects for which the conversion is
shown to work.
-/
namespace Verif.PyConv

/-- Attributes of messages: those that were set have kept their values. -/
def SameHead (a b : PyHead) : Prop :=
  b.msgid = a.msgid ∧ (∀ x, a.priority = some x → b.priority = some x) ∧ (∀ x, a.frm = some x → b.frm = some x) ∧
  (∀ x, a.dest = some x → b.dest = some x) ∧ (∀ x, a.state = some x → b.state = some x) ∧
  (∀ x, a.hops = some x → b.hops = some x)

mutual
/-- The same object, up to the kind of a sequence and byte order. -/
inductive Same : Py → Py → Prop where
  | none : Same .none .none
  | bool (b : Bool) : Same (.bool b) (.bool b)
  | int (z : Int) : Same (.int z) (.int z)
  | flt (x : Nat) : Same (.flt x) (.flt x)
  | cplx (a b : Nat) : Same (.cplx a b) (.cplx a b)
  | str (s : List Nat) : Same (.str s) (.str s)
  | hiid (l : List Int) : Same (.hiid l) (.hiid l)
  | seq (k k' : SeqKind) (is is' : Items) : SameItems is is' → Same (.seq k is) (.seq k' is')
  | array (c : Nat) (ty : Np) (sw sw' : Bool) (sh : List Nat) (da : List Num) :
      Same (.array c ty sw sh da) (.array c ty sw' sh da)
  | record (c : Nat) (fs fs' : Fields) : SameFields fs fs' → Same (.record c fs) (.record c fs')
  | message (h h' : PyHead) (p p' : Py) : SameHead h h' → Same p p' → Same (.message h p) (.message h' p')
inductive SameItems : Items → Items → Prop where
  | nil : SameItems .nil .nil
  | cons (v v' : Py) (r r' : Items) : Same v v' → SameItems r r' → SameItems (.cons v r) (.cons v' r')
inductive SameFields : Fields → Fields → Prop where
  | nil : SameFields .nil .nil
  | cons (k : String) (v v' : Py) (r r' : Fields) : Same v v' → SameFields r r' → SameFields (.cons k v r) (.cons k v' r')
end

/-- A 32-bit integer. -/
def Int32 (z : Int) : Prop := -(2 ^ 31 : Int) ≤ z ∧ z < (2 ^ 31 : Int)
/-- A 16-bit integer. -/
def Int16 (z : Int) : Prop := -(2 ^ 15 : Int) ≤ z ∧ z < (2 ^ 15 : Int)
instance (z : Int) : Decidable (Int32 z) := inferInstanceAs (Decidable (_ ∧ _))
instance (z : Int) : Decidable (Int16 z) := inferInstanceAs (Decidable (_ ∧ _))

/-- The class of an object, as far as sequences of one class are concerned.  `None`, lists and foreign objects have none. -/
inductive Cls where
  | bool | int | flt | cplx | str | hiid
  | array (c : Nat) | record (c : Nat)
  | tuple | dmilist | message
  deriving DecidableEq, Repr

def Py.cls : Py → Option Cls
  | .bool _ => some .bool
  | .int _ => some .int
  | .flt _ => some .flt
  | .cplx _ _ => some .cplx
  | .str _ => some .str
  | .hiid _ => some .hiid
  | .array c _ _ _ _ => some (.array c)
  | .record c _ => some (.record c)
  | .seq .tuple _ => some .tuple
  | .seq .dmilist _ => some .dmilist
  | .message _ _ => some .message
  | _ => Option.none

/-- The items of a sequence as a list. -/
def Items.toList : Items → List Py
  | .nil => []
  | .cons v r => v :: r.toList

/-- All items are of one class. -/
def OneClass (is : Items) : Prop := ∃ c, ∀ v ∈ is.toList, v.cls = some c

/-- Keys of a record. -/
def Fields.keys : Fields → List String
  | .nil => []
  | .cons k _ r => k :: r.keys

/-- A key that is the text of an identifier. -/
def KeyOk (E : Env) (k : String) : Prop := ∃ id, id ≠ [] ∧ E.parse k = some id ∧ E.print id = k

mutual
/-- Objects that survive: integers are of 32 bits, text has no NUL, arrays have a supported type, native byte order, and are not
of shape [1]; within tuples and lists there are no lists and no `None`, a truth value is only among truth values, and tuples of
tuples have inner tuples of one class each. -/
inductive Plain (E : Env) : Py → Prop where
  | none : Plain E .none
  | int (z : Int) : Int32 z → Plain E (.int z)
  | flt (x : Nat) : Plain E (.flt x)
  | cplx (a b : Nat) : Plain E (.cplx a b)
  | str (s : List Nat) : 0 ∉ s → Plain E (.str s)
  | hiid (l : List Int) : (∀ z ∈ l, Int32 z) → Plain E (.hiid l)
  | array (c : Nat) (ty : Np) (sh : List Nat) (da : List Num) : E.arrCls c = true → (∀ n, ty ≠ .unsupported n) →
      1 ≤ sh.length → sh.length ≤ 10 → (sh = [1] → c ≠ 0) → Plain E (.array c ty false sh da)
  | record (c : Nat) (fs : Fields) : E.recCls c = true → (∀ k ∈ fs.keys, KeyOk E k) → fs.keys.Nodup → PlainFields E fs →
      Plain E (.record c fs)
  | dmilist (is : Items) : PlainItems E is → Plain E (.seq .dmilist is)
  | bools (k : SeqKind) (is : Items) : k ≠ .dmilist → (∀ v ∈ is.toList, ∃ b, v = .bool b) → Plain E (.seq k is)
  | uniform (k : SeqKind) (is : Items) : k ≠ .dmilist → PlainItems E is → OneClass is →
      (∀ v ∈ is.toList, ∀ js, v = .seq .tuple js → OneClass js) → Plain E (.seq k is)
  | mixed (k : SeqKind) (is : Items) : k ≠ .dmilist → PlainItems E is → (∀ v ∈ is.toList, v.cls ≠ .none) → ¬ OneClass is →
      Plain E (.seq k is)
  | message (h : PyHead) (p : Py) : (∀ z ∈ h.msgid, Int32 z) → (∃ z, h.priority = some z ∧ Int32 z ∧ Int32 (z + 256)) →
      (∀ l, h.frm = some l → ∀ z ∈ l, Int32 z) → (∀ l, h.dest = some l → ∀ z ∈ l, Int32 z) →
      (h.frm = Option.none → h.dest = Option.none) → (∀ z, h.state = some z → Int32 z) → (∀ z, h.hops = some z → Int16 z) →
      Plain E p → Plain E (.message h p)
inductive PlainItems (E : Env) : Items → Prop where
  | nil : PlainItems E .nil
  | cons (v : Py) (r : Items) : Plain E v → PlainItems E r → PlainItems E (.cons v r)
inductive PlainFields (E : Env) : Fields → Prop where
  | nil : PlainFields E .nil
  | cons (k : String) (v : Py) (r : Fields) : Plain E v → PlainFields E r → PlainFields E (.cons k v r)
end

mutual
/-- Objects made of the types the conversion knows, with registered classes, keys that are identifiers, and arrays of types that
both sides have or NumPy alone: what a user may expect to be converted. -/
inductive Supported (E : Env) : Py → Prop where
  | none : Supported E .none
  | bool (b : Bool) : Supported E (.bool b)
  | int (z : Int) : Supported E (.int z)
  | flt (x : Nat) : Supported E (.flt x)
  | cplx (a b : Nat) : Supported E (.cplx a b)
  | str (s : List Nat) : Supported E (.str s)
  | hiid (l : List Int) : (∀ z ∈ l, Int32 z) → Supported E (.hiid l)
  | array (c : Nat) (ty : Np) (sw : Bool) (sh : List Nat) (da : List Num) : E.arrCls c = true →
      Supported E (.array c ty sw sh da)
  | record (c : Nat) (fs : Fields) : E.recCls c = true → (∀ k ∈ fs.keys, KeyOk E k) → fs.keys.Nodup → SupportedFields E fs →
      Supported E (.record c fs)
  | seq (k : SeqKind) (is : Items) : SupportedItems E is → Supported E (.seq k is)
  | message (h : PyHead) (p : Py) : Supported E p → Supported E (.message h p)
inductive SupportedItems (E : Env) : Items → Prop where
  | nil : SupportedItems E .nil
  | cons (v : Py) (r : Items) : Supported E v → SupportedItems E r → SupportedItems E (.cons v r)
inductive SupportedFields (E : Env) : Fields → Prop where
  | nil : SupportedFields E .nil
  | cons (k : String) (v : Py) (r : Fields) : Supported E v → SupportedFields E r → SupportedFields E (.cons k v r)
end

/-- The value of a field of a DMI record. -/
def DFields.get (id : List Int) : DFields → Option DRef
  | .nil => Option.none
  | .cons id' r t => if id' = id then some r else t.get id

/-- Identifiers of the fields. -/
def DFields.ids : DFields → List (List Int)
  | .nil => []
  | .cons id _ t => id :: t.ids

/-- Keys and values of a Python record as a list. -/
def Fields.toList : Fields → List (String × Py)
  | .nil => []
  | .cons k v r => (k, v) :: r.toList

/-- Identifiers and values of a DMI record as a list. -/
def DFields.toList : DFields → List (List Int × DRef)
  | .nil => []
  | .cons id r t => (id, r) :: t.toList

/-- Numbers that fit an element type of vectors that Python sequences are turned into. -/
def NumFits : Ty → Num → Prop
  | .bool, .i z => z = 0 ∨ z = 1
  | .int, .i z => Int32 z
  | .double, .f _ => True
  | .dcomplex, .c _ _ => True
  | _, _ => False

/-- An object of a type that Python will not see as a scalar. -/
inductive Nonscalar : Tid → D → Prop where
  | arr (c : Nat) (ty : Ty) (sh : List Nat) (da : List Num) : (sh = [1] → c ≠ 0) → Nonscalar (.arr c) (.num c ty sh da)
  | vecNull : Nonscalar .vec .vecNull
  | vecNum (ty : Ty) (da : List Num) : Nonscalar .vec (.vecNum ty false da)
  | vecStr (l : List (List Nat)) : Nonscalar .vec (.vecStr false l)
  | vecHiid (l : List (List Int)) : Nonscalar .vec (.vecHiid false l)
  | vecObj (t : Tid) (is : DItems) : Nonscalar .vec (.vecObj t false is)
  | record (c : Nat) (fs : DFields) : Nonscalar (.recd c) (.record c fs)
  | list (is : DItems) : Nonscalar .list (.list is)
  | message (h : MsgHead) (p : DRef) : Nonscalar .msg (.message h p)

mutual
/-- DMI objects that are the same after a visit to Python. -/
inductive Stable (E : Env) : D → Prop where
  | scalar (ty : Ty) (n : Num) : NumFits ty n → ty ≠ .bool → Stable E (.num 0 ty [1] [n])
  | array (c : Nat) (ty : Ty) (sh : List Nat) (da : List Num) : E.arrCls c = true →
      ty ∈ [Ty.bool, .uchar, .short, .int, .float, .double, .fcomplex, .dcomplex] →
      1 ≤ sh.length → sh.length ≤ 10 → (sh = [1] → c ≠ 0) → Stable E (.num c ty sh da)
  | vecNull : Stable E .vecNull
  | vecNum (ty : Ty) (da : List Num) : da ≠ [] → (∀ n ∈ da, NumFits ty n) → Stable E (.vecNum ty false da)
  | str (s : List Nat) : 0 ∉ s → Stable E (.vecStr true [s])
  | strs (l : List (List Nat)) : l ≠ [] → (∀ s ∈ l, 0 ∉ s) → Stable E (.vecStr false l)
  | hiid (l : List Int) : (∀ z ∈ l, Int32 z) → Stable E (.vecHiid true [l])
  | hiids (l : List (List Int)) : l ≠ [] → (∀ s ∈ l, ∀ z ∈ s, Int32 z) → Stable E (.vecHiid false l)
  | vecObj (t : Tid) (r : DRef) (is : DItems) : StableVec E t (.cons r is) → Stable E (.vecObj t false (.cons r is))
  | record (c : Nat) (fs : DFields) : E.recCls c = true → (∀ id ∈ fs.ids, id ≠ [] ∧ E.parse (E.print id) = some id) →
      fs.ids.Nodup → StableFields E fs → Stable E (.record c fs)
  | list (is : DItems) : StableItems E is → Stable E (.list is)
  | message (h : MsgHead) (p : DRef) : (∀ z ∈ h.id, Int32 z) → Int32 h.priority → Int32 (h.priority - 256) →
      (∀ z ∈ h.frm, Int32 z) → (∀ z ∈ h.dest, Int32 z) → Int32 h.state → Int16 h.hops → StableRef E p →
      Stable E (.message h p)
inductive StableRef (E : Env) : DRef → Prop where
  | null : StableRef E .null
  | obj (o : D) : Stable E o → StableRef E (.obj o)
/-- Items of a list: anything, invalid references included. -/
inductive StableItems (E : Env) : DItems → Prop where
  | nil : StableItems E .nil
  | cons (r : DRef) (t : DItems) : StableRef E r → StableItems E t → StableItems E (.cons r t)
/-- Items of a vector: objects of its type that are no scalars for Python. -/
inductive StableVec (E : Env) : Tid → DItems → Prop where
  | nil (t : Tid) : StableVec E t .nil
  | cons (t : Tid) (o : D) (r : DItems) : Stable E o → Nonscalar t o → StableVec E t r → StableVec E t (.cons (.obj o) r)
inductive StableFields (E : Env) : DFields → Prop where
  | nil : StableFields E .nil
  | cons (id : List Int) (r : DRef) (t : DFields) : StableRef E r → StableFields E t → StableFields E (.cons id r t)
end

end Verif.PyConv
