import Verif.Model.Outcome
/-!
# Vectors

`DMI/src/Vec.cc`, `Vec.h`: the container of values of one type, its header block, its blocks, its elements that stay in blocks until they are looked
at, and the sharing of header blocks between copies and messages.

Simplifications: elements of all types are of one type `α`; what is in the bytes of a value and of an object's blocks is left out (packing is modelled
in `Packer`, `Bytes`); objects are values (their sharing is modelled in `CRef`); values are assigned with the type of the vector; an element that was
marked as modified has an object; the vector's own type is not replaced by that of a class derived from it; locks are left out.
-/
namespace Verif.DVec

/-- `TypeInfo::category`: values in the header block, values beside it, objects. -/
inductive Kind where
  | bin | spec | dyn
deriving DecidableEq, Repr

/-- What there is apart from vectors: types, new values of a type, types and numbers of blocks of objects, and what is in memory that was not
written. -/
structure Env (α : Type) where
  kind : Nat → Option Kind
  zero : Nat → α
  typeOf : α → Nat
  blocks : α → Nat
  junk : Nat → α

/-- What follows the header (Vec.h:206-212): values, or the numbers of blocks of objects. -/
inductive Body (α : Type) where
  | vals (l : List α)
  | counts (l : List Nat)
deriving DecidableEq, Repr

/-- A header block: type, size, negative for scalars, and number of blocks. -/
structure Head (α : Type) where
  ty : Nat
  size : Int
  blocks : Nat
  body : Body α
deriving DecidableEq, Repr

/-- A block of an object. -/
structure Part (α : Type) where
  obj : α
  i : Nat
deriving DecidableEq, Repr

/-- `Element` (Vec.h:45-58); `UNBLOCKED` and `MODIFIED` are one. -/
inductive Elem (α : Type) where
  | uninit
  | inblock (l : List (Part α))
  | live (a : α)
deriving DecidableEq, Repr

/-- Where the contents are; header blocks are given by where they are on the heap. -/
inductive Data (α : Type) where
  | bin (h : Nat)
  | spec (l : List α) (h : Option Nat)
  | dyn (l : List (Elem α))
deriving DecidableEq, Repr

/-- A vector; type 0 if it is not initialised. -/
structure Vec (α : Type) where
  ty : Nat
  size : Nat
  scalar : Bool
  data : Data α
deriving DecidableEq, Repr

/-- A set of blocks. -/
structure Msg (α : Type) where
  head : Nat
  parts : List (Part α)
deriving DecidableEq, Repr

/-- What one sees. -/
inductive Obs (α : Type) where
  | failed
  | val (a : α)
  | flag (b : Bool)
  | num (n : Nat)
deriving DecidableEq, Repr

/-- Header blocks, vectors, messages, and what was seen. -/
structure World (α : Type) where
  heap : List (Head α)
  vecs : List (Vec α)
  msgs : List (Msg α)
  log : List (Obs α)
deriving DecidableEq, Repr

def start {α : Type} : World α := ⟨[], [], [], []⟩

/-- An exception. -/
def fail {α : Type} (w : World α) : World α := { w with log := w.log ++ [.failed] }

def see {α : Type} (w : World α) (o : Obs α) : World α := { w with log := w.log ++ [o] }

/-- The header block of a vector. -/
def headOf {α : Type} (v : Vec α) : Option Nat :=
  match v.data with
  | .bin h => some h
  | .spec _ h => h
  | .dyn _ => none

/-- Others have references to this header block as well: its count is more than one. -/
def shared {α : Type} (w : World α) (i h : Nat) : Bool :=
  (List.range w.vecs.length).any (fun j => decide (j ≠ i) && decide ((w.vecs[j]?).bind headOf = some h)) ||
    w.msgs.any (fun m => decide (m.head = h))

/-- `makeWritable` (Vec.cc:164-177): a shared header block is copied, or dropped if it does not have the data. -/
def makeWritable {α : Type} (w : World α) (i : Nat) (v : Vec α) : World α × Vec α :=
  match v.data with
  | .bin h =>
    if shared w i h then
      match w.heap[h]? with
      | some b => ({ w with heap := w.heap ++ [b] }, { v with data := .bin w.heap.length })
      | none => (w, v)
    else (w, v)
  | .spec l _ => (w, { v with data := .spec l none })
  | .dyn _ => (w, v)

/-- The size that is written into headers (Vec.cc:131, 446). -/
def sizeField (scalar : Bool) (n : Nat) : Int := if scalar then -(n : Int) else n

/-- `init` (Vec.cc:81-160) of a vector that is not initialised; `num` is `none` for a scalar; `none` is an exception. -/
def initVec {α : Type} (e : Env α) (w : World α) (t : Nat) (num : Option Nat) (data : Option (List α)) : Res (Option (World α × Vec α)) :=
  let scalar := num.isNone
  let n := max (num.getD 1) 1
  match e.kind t with
  | none => .ok none
  | some .bin =>
    match data with
    | none => .ok (some ({ w with heap := w.heap ++ [⟨t, sizeField scalar n, 1, .vals (List.replicate n (e.zero t))⟩] },
        ⟨t, n, scalar, .bin w.heap.length⟩))
    | some d =>
      if d.length < n then .ub
      else .ok (some ({ w with heap := w.heap ++ [⟨t, sizeField scalar n, 1, .vals (d.take n)⟩] }, ⟨t, n, scalar, .bin w.heap.length⟩))
  | some .spec =>
    match data with
    | none => .ok (some (w, ⟨t, n, scalar, .spec (List.replicate n (e.zero t)) none⟩))
    | some d => if d.length < n then .ub else .ok (some (w, ⟨t, n, scalar, .spec (d.take n) none⟩))
  | some .dyn =>
    match data with
    | none => .ok (some (w, ⟨t, n, scalar, .dyn (List.replicate n .uninit)⟩))
    | some _ => .ok none

/-- `resize` (Vec.cc:180-228), once the new size is positive and the vector was made writable. -/
def resizeVec {α : Type} (e : Env α) (w : World α) (v : Vec α) (n : Nat) : World α × Vec α :=
  let v := { v with scalar := if 1 < n then false else v.scalar }
  match v.data with
  | .bin h =>
    match w.heap[h]? with
    | some ⟨t, _, b, .vals l⟩ =>
      ({ w with heap := w.heap.set h ⟨t, n, b, .vals (l.take n ++ (List.range (n - l.length)).map e.junk)⟩ }, { v with size := n })
    | _ => (w, { v with size := n })
  | .spec l h => (w, { v with size := n, data := .spec (l.take n ++ List.replicate (n - l.length) (e.zero v.ty)) h })
  | .dyn l => (w, { v with size := n, data := .dyn (l.take n ++ List.replicate (n - l.length) .uninit) })

/-- Write a value at an index that exists and was made writable. -/
def store {α : Type} (w : World α) (v : Vec α) (n : Nat) (a : α) : World α × Vec α :=
  match v.data with
  | .bin h =>
    match w.heap[h]? with
    | some ⟨t, s, b, .vals l⟩ => ({ w with heap := w.heap.set h ⟨t, s, b, .vals (l.set n a)⟩ }, v)
    | _ => (w, v)
  | .spec l h => (w, { v with data := .spec (l.set n a) h })
  | .dyn l => (w, { v with data := .dyn (l.set n (.live a)) })

def setVec {α : Type} (p : World α × Vec α) (i : Nat) : World α := { p.1 with vecs := p.1.vecs.set i p.2 }

/-- Assign a value of a type that is no object's through a hook: `get` for writing (Vec.cc:618-690), or `insert` (Vec.cc:704-755) at the end or into
a vector that is not initialised. -/
def assign {α : Type} (e : Env α) (w : World α) (i : Nat) (v : Vec α) (n t : Nat) (a : α) : Res (World α) :=
  if e.kind t = none ∨ e.kind t = some .dyn then .ok (fail w)
  else if v.ty = 0 then
    if n ≠ 0 then .ok (fail w)
    else do
      match ← initVec e w t none none with
      | none => .ok (fail w)
      | some (w, v) => .ok (setVec (store w v 0 a) i)
  else
    let (w, v) := makeWritable w i v
    let w := setVec (w, v) i
    if v.size < n ∨ v.ty ≠ t then .ok (fail w)
    else if v.size = n then
      let (w, v) := resizeVec e w v (n + 1)
      .ok (setVec (store w v n a) i)
    else .ok (setVec (store w v n a) i)

/-- `put` (Vec.cc:293-304) with `prepareForPut` (Vec.cc:779-803). -/
def put {α : Type} (e : Env α) (w : World α) (i : Nat) (v : Vec α) (n : Nat) (a : α) : Res (World α) :=
  if e.kind (e.typeOf a) ≠ some .dyn then .ok (fail w)
  else if v.ty = 0 then
    if n ≠ 0 then .ok (fail w)
    else do
      match ← initVec e w (e.typeOf a) (some 1) none with
      | none => .ok (fail w)
      | some (w, v) => .ok (setVec (store w v 0 a) i)
  else
    let (w, v) := makeWritable w i v
    let w := setVec (w, v) i
    if v.ty ≠ e.typeOf a ∨ v.size < n then .ok (fail w)
    else if v.size = n then
      let (w, v) := resizeVec e w v (n + 1)
      .ok (setVec (store w v n a) i)
    else .ok (setVec (store w v n a) i)

/-- `resize` (Vec.cc:180-228). -/
def resize {α : Type} (e : Env α) (w : World α) (i : Nat) (v : Vec α) (n : Nat) : World α :=
  if n = 0 ∨ v.ty = 0 then fail w
  else
    let (w, v) := makeWritable w i v
    setVec (resizeVec e w v n) i

/-- `remove` (Vec.cc:758-776): only the last element, and not the only one. -/
def remove {α : Type} (e : Env α) (w : World α) (i : Nat) (v : Vec α) (n : Nat) : World α :=
  let (w, v) := makeWritable w i v
  let w := setVec (w, v) i
  if v.ty = 0 ∨ v.size ≠ n + 1 ∨ n = 0 then fail w
  else setVec (resizeVec e w v n) i

/-- All blocks of an object. -/
def parts {α : Type} (e : Env α) (a : α) : List (Part α) := (List.range (e.blocks a)).map (fun i => ⟨a, i⟩)

/-- Blocks of an element (Vec.cc:455-491). -/
def elemParts {α : Type} (e : Env α) : Elem α → List (Part α)
  | .uninit => []
  | .inblock l => l
  | .live a => parts e a

/-- `toBlock` (Vec.cc:413-513): the message, and the vector, which keeps the header block. -/
def toBlock {α : Type} (e : Env α) (w : World α) (i : Nat) (v : Vec α) : World α :=
  if v.ty = 0 then
    { w with heap := w.heap ++ [⟨0, 0, 1, .vals []⟩], msgs := w.msgs ++ [⟨w.heap.length, []⟩] }
  else
    match v.data with
    | .bin h => { w with msgs := w.msgs ++ [⟨h, []⟩] }
    | .spec _ (some h) => { w with msgs := w.msgs ++ [⟨h, []⟩] }
    | .spec l none =>
      { w with
        heap := w.heap ++ [⟨v.ty, sizeField v.scalar v.size, 1, .vals l⟩]
        vecs := w.vecs.set i { v with data := .spec l (some w.heap.length) }
        msgs := w.msgs ++ [⟨w.heap.length, []⟩] }
    | .dyn l =>
      { w with
        heap := w.heap ++ [⟨v.ty, sizeField v.scalar v.size, 1 + (l.map (fun x => (elemParts e x).length)).sum, .counts (l.map (fun x => (elemParts e x).length))⟩]
        msgs := w.msgs ++ [⟨w.heap.length, (l.map (elemParts e)).flatten⟩] }

/-- Take the objects' blocks (Vec.cc:365-385); `none` if there are too few. -/
def takeElems {α : Type} : List Nat → List (Part α) → Option (List (Elem α))
  | [], _ => some []
  | c :: r, l =>
    if l.length < c then none
    else (takeElems r (l.drop c)).map (fun es => (if c = 0 then Elem.uninit else Elem.inblock (l.take c)) :: es)

/-- `fromBlock` (Vec.cc:307-398) into a new vector; `none` is an exception. -/
def fromBlock {α : Type} (e : Env α) (w : World α) (m : Msg α) : Option (Vec α) :=
  match w.heap[m.head]? with
  | none => none
  | some b =>
    let scalar := decide (b.size = -1)
    let n : Int := if scalar then 1 else b.size
    if b.ty = 0 then some ⟨0, 0, false, .dyn []⟩
    else
      match e.kind b.ty, b.body with
      | some .bin, .vals l => if (l.length : Int) = n ∧ b.blocks = 1 then some ⟨b.ty, n.toNat, scalar, .bin m.head⟩ else none
      | some .spec, .vals l => if (l.length : Int) = n ∧ b.blocks = 1 then some ⟨b.ty, n.toNat, scalar, .spec l (some m.head)⟩ else none
      | some .dyn, .counts c =>
        if (c.length : Int) = n ∧ b.blocks = 1 + c.sum then
          (takeElems c m.parts).map (fun es => ⟨b.ty, n.toNat, scalar, .dyn es⟩)
        else none
      | _, _ => none

/-- `resolveObject` (Vec.cc:516-561): an element that is not there is made, one in blocks is taken from them. -/
def resolve {α : Type} [DecidableEq α] (e : Env α) (t : Nat) : Elem α → Option α
  | .uninit => some (e.zero t)
  | .live a => some a
  | .inblock l =>
    match l with
    | [] => none
    | p :: _ => if l = parts e p.obj then some p.obj else none

/-- Read an element: `get` (Vec.cc:618-690). -/
def read {α : Type} [DecidableEq α] (e : Env α) (w : World α) (i : Nat) (v : Vec α) (n : Nat) : World α :=
  if v.ty = 0 ∨ v.size ≤ n then fail w
  else
    match v.data with
    | .bin h =>
      match w.heap[h]? with
      | some ⟨_, _, _, .vals l⟩ => (l[n]?).elim (fail w) (fun a => see w (.val a))
      | _ => fail w
    | .spec l _ => (l[n]?).elim (fail w) (fun a => see w (.val a))
    | .dyn l =>
      match (l[n]?).bind (resolve e v.ty) with
      | none => fail w
      | some a => see (setVec (w, { v with data := .dyn (l.set n (.live a)) }) i) (.val a)

/-- `isValid` (Vec.cc:268-278). -/
def isValid {α : Type} (w : World α) (v : Vec α) (n : Nat) : World α :=
  if v.ty = 0 then see w (.flag false)
  else if v.size ≤ n then fail w
  else
    match v.data with
    | .dyn l => see w (.flag (match l[n]? with
        | some .uninit => false
        | _ => true))
    | _ => see w (.flag true)

/-- What is done; vectors and messages are numbered as they are made. -/
inductive Op (α : Type) where
  | empty
  | create (t : Nat) (num : Option Nat) (data : Option (List α))
  | copy (i : Nat)
  | assign (i n t : Nat) (a : α)
  | put (i n : Nat) (a : α)
  | resize (i n : Nat)
  | remove (i n : Nat)
  | send (i : Nat)
  | receive (m : Nat)
  | read (i n : Nat)
  | valid (i n : Nat)
  | size (i : Nat)
  | scalar (i : Nat)
deriving DecidableEq, Repr

/-- One operation; those on vectors that do not exist have no effect. Whether a vector is scalar was not set by the default constructor
(Vec.cc:35-40). A copy (Vec.cc:570-622) shares the header block. -/
def step {α : Type} [DecidableEq α] (e : Env α) (w : World α) : Op α → Res (World α)
  | .empty => .ok { w with vecs := w.vecs ++ [⟨0, 0, false, .dyn []⟩] }
  | .create t num data => do
    match ← initVec e w t num data with
    | none => .ok (fail w)
    | some (w, v) => .ok { w with vecs := w.vecs ++ [v] }
  | .receive m =>
    match w.msgs[m]? with
    | none => .ok w
    | some m =>
      match fromBlock e w m with
      | none => .ok (fail w)
      | some v => .ok { w with vecs := w.vecs ++ [v] }
  | .copy i => (w.vecs[i]?).elim (.ok w) (fun v => .ok { w with vecs := w.vecs ++ [v] })
  | .assign i n t a => (w.vecs[i]?).elim (.ok w) (fun v => assign e w i v n t a)
  | .put i n a => (w.vecs[i]?).elim (.ok w) (fun v => put e w i v n a)
  | .resize i n => (w.vecs[i]?).elim (.ok w) (fun v => .ok (resize e w i v n))
  | .remove i n => (w.vecs[i]?).elim (.ok w) (fun v => .ok (remove e w i v n))
  | .send i => (w.vecs[i]?).elim (.ok w) (fun v => .ok (toBlock e w i v))
  | .read i n => (w.vecs[i]?).elim (.ok w) (fun v => .ok (read e w i v n))
  | .valid i n => (w.vecs[i]?).elim (.ok w) (fun v => .ok (isValid w v n))
  | .size i => (w.vecs[i]?).elim (.ok w) (fun v => .ok (see w (.num v.size)))
  | .scalar i => (w.vecs[i]?).elim (.ok w) (fun v => if v.ty = 0 then .ub else .ok (see w (.flag v.scalar)))

def run {α : Type} [DecidableEq α] (e : Env α) (w : World α) : List (Op α) → Res (World α)
  | [] => .ok w
  | o :: r => do
    let w ← step e w o
    run e w r

end Verif.DVec
