import Verif.Model.Hiid
import Mathlib.Data.Nat.Digits.Defs
/-!
# Symbolic names: the atomic-id registry and the textual form of identifiers

DMI/src/Registry.h, DMI/src/AtomicID.cc and HIID.cc (`toString`, `addString`, `makeLiteral`).
Strings are byte lists (ASCII).  Simplifications: the registry's mutex is not modelled (one
registration at a time); `atoi` is exact (the code's is undefined above 2^31-1); the alternative
separator sets and `allow_literals` arguments of `addString` have their default values.
-/
namespace Verif.Names

/-- `tolower` on one ASCII byte (AtomicID.cc:28-34). -/
def lowerB (b : UInt8) : UInt8 := if 65 ≤ b ∧ b ≤ 90 then b + 32 else b
/-- `strlowercase` (AtomicID.cc:28-34). -/
def lower (s : Bytes) : Bytes := s.map lowerB
/-- `isdigit`. -/
def isDigit (b : UInt8) : Bool := 48 ≤ b && b ≤ 57

/-- The two maps of a `BiRegistry` (Registry.h:186-224): id to name, lower-case name to id. -/
structure Reg where
  fwd : List (Int × Bytes)
  rev : List (Bytes × Int)
  deriving DecidableEq, Repr

/-- `std::map::find`. -/
def look {α β : Type} [DecidableEq α] (m : List (α × β)) (k : α) : Option β :=
  (m.find? (fun p => p.1 = k)).map (·.2)

/-- `UniRegistry::add` (Registry.h:278-300); `none` is the exception. -/
def addFwd (m : List (Int × Bytes)) (k : Int) (v : Bytes) (overwrite : Bool) : Option (List (Int × Bytes)) :=
  match look m k with
  | none => some ((k, v) :: m)
  | some w =>
    if w = v then some m
    else if overwrite then some (m.map fun p => if p.1 = k then (k, v) else p)
    else none

/-- `std::map::insert`: does nothing if the key is present. -/
def insertRev (m : List (Bytes × Int)) (n : Bytes) (k : Int) : List (Bytes × Int) :=
  match look m n with
  | none => (n, k) :: m
  | some _ => m

/-- `BiRegistry::add` with an explicit reverse value (Registry.h:352-360). -/
def add (r : Reg) (k : Int) (v : Bytes) (overwrite : Bool) : Option Reg :=
  match addFwd r.fwd k v overwrite with
  | none => none
  | some f => some ⟨f, insertRev r.rev (lower v) k⟩

/-- A registration: at start-up through a `Registrar` (AtomicID.cc:111-114) or by
`AtomicID::registerId` (AtomicID.cc:127-133), which overwrites. -/
inductive Op where
  | registrar (k : Int) (v : Bytes)
  | registerId (k : Int) (v : Bytes)

/-- One registration. -/
def step (r : Reg) : Op → Option Reg
  | .registrar k v => add r k v false
  | .registerId k v => add r k v true

/-- A history of registrations; a refused one changes nothing. -/
def run : List Op → Reg → Reg
  | [], r => r
  | o :: os, r => run os ((step r o).getD r)

/-- No registrations. -/
def init : Reg := ⟨[], []⟩

/-- `sprintf("%d")` of a non-negative number. -/
def dec (n : Nat) : Bytes :=
  if n = 0 then [48] else (Nat.digits 10 n).reverse.map fun d => UInt8.ofNat (48 + d)
/-- `atoi` of a string of digits. -/
def atoi (s : Bytes) : Nat := s.foldl (fun a b => 10 * a + (b.toNat - 48)) 0

/-- `AtomicID::toString` (AtomicID.cc:54-71). -/
def aidToString (r : Reg) (a : Int) : Bytes :=
  if a ≥ 0 then dec a.toNat
  else
    match (look r.fwd a).getD [] with
    | [] => [91, 63, 45] ++ dec (-a).toNat ++ [93]
    | n => n

/-- `AtomicID::findName` (AtomicID.cc:81-98); `none` is "not found". -/
def findName (r : Reg) (s : Bytes) : Option Int :=
  if s.all isDigit then some (atoi s : Nat)
  else
    let a := (look r.rev (lower s)).getD 0
    if a = 0 then none else some a

/-- `LITERAL_MARKER` (HIID.cc:32). -/
def marker : Int := 0x7FFF0000
/-- `(id & LITERAL_MASK) == LITERAL_MARKER` (HIID.cc:193) for a 32-bit id. -/
def isLit (a : Int) : Bool := marker ≤ a
/-- `(len+LITERAL_RATIO-1)/LITERAL_RATIO` (HIID.cc:198, 296). -/
def litSize (len : Nat) : Nat := (len + 3) / 4
/-- `HIID::makeLiteral` (HIID.cc:291-306): the atoms it appends. -/
def makeLiteral (s : Bytes) : List Int :=
  (marker + s.length) :: Hiid.words (litSize s.length) (s ++ List.replicate (4 * litSize s.length - s.length) 255)
/-- The bytes of a run of atoms, as seen through `reinterpret_cast<const char*>` (HIID.cc:202). -/
def atomBytes (l : List Int) : Bytes := l.flatMap encInt32

/-- Loop of `HIID::toString` (HIID.cc:189-214) with `separator` `_` and `mark_lit`; `none` is a read
past the end of the identifier. -/
def toStringLoop (r : Reg) (sep : Bool) : List Int → Option Bytes
  | [] => some []
  | a :: rest =>
    if isLit a then
      let len := (a - marker).toNat
      if rest.length < litSize len then none
      else
        match toStringLoop r false (rest.drop (litSize len)) with
        | none => none
        | some t => some ((if sep then [] else [95]) ++ 36 :: (atomBytes rest).take len ++ t)
    else
      let newsep := a = Hiid.aidSlash ∨ a = Hiid.aidRange
      match toStringLoop r newsep rest with
      | none => none
      | some t => some ((if ¬ sep ∧ ¬ newsep then [95] else []) ++ aidToString r a ++ t)
  termination_by l => l.length
  decreasing_by all_goals (simp; try omega)

/-- `HIID::toString` (HIID.cc:158-216). -/
def toString (r : Reg) (id : List Int) : Option Bytes :=
  if id = [] then some [40, 110, 117, 108, 108, 41] else toStringLoop r true id

/-- The characters in `sepset + "/:"` with the default `sepset` `"._"` (HIID.cc:322). -/
def isSep (b : UInt8) : Bool := b = 46 || b = 95 || b = 47 || b = 58

/-- One field of the text (HIID.cc:337-348, 359-369); `none` is the exception. -/
def field (r : Reg) (name : Bytes) : Option (List Int) :=
  match name with
  | [] => some [Hiid.aidEmpty]
  | 36 :: lit => some (makeLiteral (lower lit))
  | _ => (findName r name).map ([·])

/-- The atom a separator contributes itself (HIID.cc:351-354). -/
def sepAtoms (b : UInt8) : List Int :=
  if b = 47 then [Hiid.aidSlash] else if b = 58 then [Hiid.aidRange] else []

/-- Loop of `HIID::addString` (HIID.cc:323-376) from position `p0` on. -/
def addLoop (r : Reg) (s : Bytes) : Option (List Int) :=
  match s with
  | [] => some [Hiid.aidEmpty]
  | s@(_ :: _) =>
    match h : s.dropWhile (fun b => !isSep b) with
    | [] => field r (s.takeWhile fun b => !isSep b)
    | b :: rest =>
      match field r (s.takeWhile fun b => !isSep b), addLoop r rest with
      | some f, some t => some (f ++ sepAtoms b ++ t)
      | _, _ => none
  termination_by s.length
  decreasing_by
    have := (List.dropWhile_sublist (p := fun b => !isSep b) (l := s)).length_le
    simp_all
    omega

/-- `HIID::addString` (HIID.cc:309-377) on an empty identifier. -/
def addString (r : Reg) (s : Bytes) : Option (List Int) := if s = [] then some [] else addLoop r s

end Verif.Names
