import Verif.Model.Outcome
import Verif.Model.Bytes
import Verif.Model.Assoc
import Mathlib.Algebra.Order.Ring.Rat
import Mathlib.Algebra.Order.Group.Abs
/-!
# Parameter tables (MEQ/src/FastParmTable.cc)

A list of domains and a database of funklets under keys made from a domain number and a parameter name.  The database library is
a map from keys to data; errors of the file system are left out.
-/
namespace Verif.ParmTable

/-- `Axis::MaxAxis` (Axis.h:46). -/
def maxAxis : Nat := 8

/-- A domain, or its entry in the list (FastParmTable.h:44-63, Domain.h:139-140): the range of each defined axis. -/
structure Dom where
  ax : List (Option (ℚ × ℚ))
  deriving DecidableEq, Repr

/-- Range of an axis. -/
def Dom.axis (d : Dom) (i : Nat) : Option (ℚ × ℚ) := d.ax.getD i none

/-- Constructor of an entry (FastParmTable.cc:492-505). -/
def Dom.entry (d : Dom) : Dom := ⟨(List.range maxAxis).map d.axis⟩

/-- `match` (FastParmTable.cc:508-520) with its tolerance. -/
def Dom.matches (e d : Dom) : Bool :=
  (List.range maxAxis).all fun i =>
    match e.axis i, d.axis i with
    | none, none => true
    | some r, some s => !(decide (|r.1 - s.1| > 1 / 10 ^ 16) || decide (|r.2 - s.2| > 1 / 10 ^ 16))
    | _, _ => false

/-- `overlaps` (FastParmTable.cc:523-535). -/
def Dom.overlaps (e d : Dom) : Bool :=
  (List.range maxAxis).all fun i =>
    match e.axis i, d.axis i with
    | some r, some s => !(decide (r.1 ≥ s.2) || decide (r.2 ≤ s.1))
    | _, _ => true

/-- A funklet: domain, number in the database, whether it is a polynomial, number of coefficients, the first of them,
perturbation, weight; `rest` stands for all else. -/
structure Funk where
  dom : Dom
  dbid : Int
  polc : Bool
  ncoeff : Nat
  c00 : ℚ
  pert : ℚ
  weight : ℚ
  rest : Nat
  deriving DecidableEq, Repr

/-- What is stored: the first coefficient, or the whole funklet (FastParmTable.cc:384-418).  See `encode` for the latter as
bytes. -/
inductive Data where
  | const (c : ℚ)
  | full (f : Funk)
  deriving DecidableEq, Repr

/-- The table (FastParmTable.h:122-143). -/
structure Table where
  doms : List Dom
  db : List (Bytes × Data)
  deriving DecidableEq, Repr

/-- `makeKey` (FastParmTable.cc:187-193). -/
def makeKey (name : Bytes) (i : Nat) : Bytes := encInt32 i ++ name ++ [0]

/-- `decomposeKey` (FastParmTable.cc:453-459): the name ends at the first 0. -/
def decomposeKey (k : Bytes) : Bytes × Int := ((k.drop 4).takeWhile (· ≠ 0), decInt32 (k.take 4))

/-- `defaultPolcPerturbation`, `defaultPolcWeight` (Polc.h:42-43, Funklet.h:46-47). -/
def defaultPert : ℚ := 1 / 10 ^ 6

@[inherit_doc defaultPert]
def defaultWeight : ℚ := 1

/-- The funklet made from stored data (FastParmTable.cc:208-259); the list of domains is read if only a constant was stored. -/
def load (t : Table) (i : Nat) : Data → Res Funk
  | .full f => .ok f
  | .const c =>
    match t.doms[i]? with
    | none => .ub
    | some d => .ok ⟨d, i, true, 1, c, defaultPert, defaultWeight, 0⟩

/-- `getFunklet` (FastParmTable.cc:195-277). -/
def get (t : Table) (name : Bytes) (i : Nat) : Res (Option Funk) :=
  match Assoc.find t.db (makeKey name i) with
  | none => .ok none
  | some x => (load t i x).bind fun f => .ok (some f)

/-- Loading a list of funklets (FastParmTable.cc:311-325). -/
def loadAll (t : Table) (name : Bytes) : List Nat → Res (List Funk)
  | [] => .ok []
  | i :: l => (get t name i).bind fun r =>
    match r with
    | none => .ub
    | some f => (loadAll t name l).bind fun fs => .ok (f :: fs)

/-- `getFunklets` (FastParmTable.cc:279-328). -/
def getAll (t : Table) (name : Bytes) (d : Dom) : Res (List Funk) :=
  loadAll t name ((List.range t.doms.length).filter fun i =>
    match t.doms[i]? with
    | none => false
    | some e => e.overlaps d && (Assoc.find t.db (makeKey name i)).isSome)

/-- The last of the first `n` entries that matches (FastParmTable.cc:352-357). -/
def lastMatch (doms : List Dom) (d : Dom) : Nat → Option Nat
  | 0 => none
  | n + 1 =>
    match doms[n]? with
    | none => lastMatch doms d n
    | some e => if e.matches d then some n else lastMatch doms d n

/-- The search for a domain (FastParmTable.cc:341-358). -/
def findDom (doms : List Dom) (f : Funk) : Option Nat :=
  match (if 0 ≤ f.dbid then doms[f.dbid.toNat]? else none) with
  | some e => if e.matches f.dom then some f.dbid.toNat else lastMatch doms f.dom doms.length
  | none => lastMatch doms f.dom doms.length

/-- What is stored for a funklet (FastParmTable.cc:382-418). -/
def dataOf (f : Funk) : Data := if f.polc ∧ f.ncoeff ≤ 1 then .const f.c00 else .full f

/-- `putCoeff` (FastParmTable.cc:330-420): the table and the domain number. -/
def put (t : Table) (name : Bytes) (f : Funk) : Table × Nat :=
  match findDom t.doms f with
  | some i => (⟨t.doms, Assoc.set t.db (makeKey name i) (dataOf f)⟩, i)
  | none => (⟨t.doms ++ [f.dom.entry], Assoc.set t.db (makeKey name t.doms.length) (dataOf f)⟩, t.doms.length)

/-- `deleteFunklet` (FastParmTable.cc:422-432). -/
def delete (t : Table) (name : Bytes) (i : Nat) : Res Table :=
  match Assoc.find t.db (makeKey name i) with
  | none => .err
  | some _ => .ok ⟨t.doms, Assoc.erase t.db (makeKey name i)⟩

/-- `deleteAllFunklets` (FastParmTable.cc:434-451). -/
def deleteAll (t : Table) (name : Bytes) : Table :=
  ⟨t.doms, (List.range t.doms.length).foldl (fun db i => Assoc.erase db (makeKey name i)) t.db⟩

/-! ## Records -/

/-- A funklet's blocks as one record (FastParmTable.cc:392-412): their number and sizes, then their contents. -/
def encode (bs : List Bytes) : Bytes := encSize bs.length ++ (bs.map fun b => encSize b.length).flatten ++ bs.flatten

/-- Cutting data into blocks of given sizes (FastParmTable.cc:244-252). -/
def cut : List Nat → Bytes → List Bytes
  | [], _ => []
  | n :: l, b => b.take n :: cut l (b.drop n)

/-- What a record holds. -/
inductive Record where
  | double (b : Bytes)
  | blocks (bs : List Bytes)
  deriving DecidableEq, Repr

/-- Reading a record (FastParmTable.cc:211-258); numbers of blocks that do not fit an `int` are left out (as `ub`). -/
def decode (b : Bytes) : Res Record :=
  if b.length = 8 then .ok (.double b)
  else if b.length < 8 then .ub
  else
    let n := leDec (b.take 8)
    if 2 ^ 28 ≤ n then .ub
    else if b.length < 8 * (n + 1) then .err
    else
      let sizes := (List.range n).map fun i => leDec ((b.drop (8 * (i + 1))).take 8)
      if b.length ≠ 8 * (n + 1) + sizes.sum then .err
      else .ok (.blocks (cut sizes (b.drop (8 * (n + 1)))))

/-! ## The file of domains -/

/-- Size of an entry: 8 flags and 16 doubles (FastParmTable.h:60-62). -/
def entrySize : Nat := 136

/-- The file, byte by byte: a byte is known by the entry it belongs to and its place in it. -/
structure Disk where
  doms : List (Option Dom)
  file : List (Dom × Nat)

/-- The bytes of an entry. -/
def entryBytes (d : Dom) : List (Dom × Nat) := (List.range entrySize).map fun i => (d, i)

/-- An entry read back: `none` if the bytes are not those of one entry. -/
def readEntry (b : List (Dom × Nat)) : Option Dom :=
  match b with
  | [] => none
  | (d, _) :: _ => if b = entryBytes d then some d else none

/-- Opening (FastParmTable.cc:70-87): the part of the file that is not a whole entry is not read. -/
def Disk.open (file : List (Dom × Nat)) : Disk :=
  ⟨(List.range (file.length / entrySize)).map fun i => readEntry ((file.drop (i * entrySize)).take entrySize), file⟩

/-- Storing a new domain (FastParmTable.cc:361-374): the file is open for appending (line 70, 135), so this is at its end. -/
def Disk.add (s : Disk) (d : Dom) : Disk := ⟨s.doms ++ [some d.entry], s.file ++ entryBytes d.entry⟩

/-- The file after a crash: what had been written so far. -/
def Disk.crash (s : Disk) (n : Nat) : Disk := .open (s.file.take n)

end Verif.ParmTable
