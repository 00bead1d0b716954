import Verif.Model.Outcome
/-!
# Spigots and sinks (MeqServer/src/Spigot.cc, Sink.cc)

A spigot takes visibilities and flags out of a tile, a sink puts results into a tile.  Flags are 32-bit words.  `α` is the type of values;
conversions between float and double are left out.  Only columns with correlations (three dimensions) are modelled, and the UVW column
of spigots.  Arrays are functions of their indices together with their extents.
-/
namespace Verif.VisNodes

/-- `VellsFlagType`, the type of flags and masks. -/
abbrev Flag := BitVec 32

/-- `FlagMissing`, -1 (VisVocabulary.h:169). -/
def missing : Flag := BitVec.allOnes 32

/-- What a column holds (Sink.cc:173): doubles, single precision complex numbers, or something else. -/
inductive ColType where
  | dbl | cplx | other
  deriving DecidableEq, Repr

/-- A tile (VTile.h:110-140): extents, columns by number, correlation, frequency, row; flags; row flags.  The columns' types do not change. -/
structure Tile (α : Type) where
  ncorr : Nat
  nfreq : Nat
  nrow : Nat
  type : Nat → ColType
  col : Nat → Nat → Nat → Nat → α
  flags : Nat → Nat → Nat → Flag
  rowflag : Nat → Flag

/-- An array over time and frequency with its shape: [times, frequencies], [times], or [] (scalar); extents of 1 mean that it is constant. -/
structure Arr (α : Type) where
  shape : List Nat
  val : Nat → Nat → α

/-- `Vells::extent` (Vells.h:340-341). -/
def extent (shape : List Nat) (i : Nat) : Nat := shape.getD i 1

/-- `isScalar` (Vells.h:350). -/
def Arr.isScalar (a : Arr α) : Bool := decide (a.shape.prod = 1)

/-- A vellset: its value, if there is one, whether it is real, its flags, if it has any. -/
structure VS (α : Type) where
  value : Option (Arr α)
  real : Bool
  flags : Option (Arr Flag)

/-- Rows of a tile, first and last. -/
structure Range where
  first : Nat
  last : Nat
  deriving DecidableEq, Repr

/-- Their number (Spigot.cc:182). -/
def Range.count (r : Range) : Nat := r.last + 1 - r.first

/-- A row is among them. -/
def Range.has (r : Range) (j : Nat) : Bool := decide (r.first ≤ j) && decide (j ≤ r.last)

/-! ## Spigots -/

/-- The settings of a spigot (Spigot.h:130-134): the correlation for every plane of the result (negative: none), masks, the flag bit. -/
structure SpigotConf where
  col : Nat
  corrs : List Int
  flagMask : Flag
  rowMask : Flag
  flagBit : Flag

/-- `blitz::any`. -/
def anyFlag (a : Arr Flag) : Bool :=
  (List.range (extent a.shape 0)).any fun j => (List.range (extent a.shape 1)).any fun k => decide (a.val j k ≠ 0)

/-- `flag_bit_` put in where there are flags (Spigot.cc:232-233, 402-403). -/
def override (bit : Flag) (a : Arr Flag) : Arr Flag :=
  if bit = 0 then a else { a with val := fun j k => if a.val j k = 0 then 0 else bit }

/-- The bits a row flag adds (Spigot.cc:388-389, 396-397): comparing with `FlagMissing` gives 1. -/
def rowBits (c : SpigotConf) (rf : Flag) : Flag := (rf &&& c.rowMask) ||| (if rf = missing then 1 else 0)

/-- The flags of a plane (Spigot.cc:378-398).  Without a flag mask the array has one frequency, and the row flags are assigned to its first
row, which has one element: the other times stay 0. -/
def planeFlags (c : SpigotConf) (t : Tile α) (r : Range) (corr : Nat) : Arr Flag :=
  if c.flagMask = 0 then ⟨[r.count, 1], fun j _ => if j = 0 then rowBits c (t.rowflag r.first) else 0⟩
  else ⟨[r.count, t.nfreq], fun j k => (t.flags corr k (r.first + j) &&& c.flagMask) ||| rowBits c (t.rowflag (r.first + j))⟩

/-- One plane of the result (Spigot.cc:245-255, 327-338, 373-408). -/
def plane (c : SpigotConf) (t : Tile α) (r : Range) (i : Int) : VS α :=
  if i < 0 then ⟨none, false, none⟩
  else
    let f := planeFlags c t r i.toNat
    ⟨some ⟨[r.count, t.nfreq], fun j k => t.col c.col i.toNat k (r.first + j)⟩, decide (t.type c.col = .dbl),
      if anyFlag f then some (override c.flagBit f) else none⟩

/-- `deliverTile` without the queue (Spigot.cc:176-411): `none`: rows outside the tile are read; an error: a correlation the tile has not. -/
def spigot (c : SpigotConf) (t : Tile α) (r : Range) : Option (Except Unit (List (VS α))) :=
  if t.nrow ≤ r.last ∨ r.last < r.first then none
  else if c.corrs.any (fun i => decide ((t.ncorr : Int) ≤ i)) then some (.error ())
  else some (.ok (c.corrs.map (plane c t r)))

/-- `getRowFlags` (Spigot.cc:150-158). -/
def uvwBits (c : SpigotConf) (rf : Flag) : Flag := if rf = missing then missing else rf &&& c.rowMask

/-- The UVW column, `n` planes: 3, or 6 with derivatives, over `uvw` (Spigot.cc:199-237). -/
def spigotUVW (c : SpigotConf) (n : Nat) (uvw : Nat → Nat → α) (nrow : Nat) (rowflag : Nat → Flag) (r : Range) : Option (List (VS α)) :=
  if nrow ≤ r.last ∨ r.last < r.first then none
  else
    let f : Arr Flag := ⟨[r.count, 1], fun j _ => uvwBits c (rowflag (r.first + j))⟩
    let g := if anyFlag f then some (override c.flagBit f) else none
    some ((List.range n).map fun i => ⟨some ⟨[r.count], fun j _ => uvw i (r.first + j)⟩, true, g⟩)

/-! ## The queue of a spigot -/

/-- The state: results with the request they are for, and the request that was executed last (`currentRequestId`). -/
structure Queue (R ρ : Type) where
  items : List (R × ρ)
  cur : Option R

/-- `deliverTile` (Spigot.cc:168-175, 413-417); `false`: it throws. -/
def deliver [DecidableEq R] (q : Queue R ρ) (rq : R) (res : ρ) : Queue R ρ × Bool :=
  if q.cur = some rq then (q, false) else ({ q with items := q.items ++ [(rq, res)] }, true)

/-- `getResult` (Spigot.cc:454-474), called when the node is executed; requests match if they have the same `key` (the parts of the
identifier in the node's depend mask: data set and domain, Spigot.cc:61-62). -/
def get [DecidableEq K] (key : R → K) (q : Queue R ρ) (rq : R) : Queue R ρ × Option ρ :=
  let l := q.items.dropWhile fun p => !decide (key rq = key p.1)
  (⟨l, some rq⟩, l.head?.map (·.2))

/-! ## Sinks -/

/-- The settings of a sink (Sink.cc:60-83): output column (`none`: -1), correlations, mask, flag bit. -/
structure SinkConf where
  col : Option Nat
  corrs : List Int
  flagMask : Flag
  flagBit : Flag

/-- `mapOutputCorr` (Sink.cc:50-57). -/
def mapCorr (c : SinkConf) (i : Nat) : Int := if c.corrs.isEmpty then (i : Int) else c.corrs.getD i (-1)

/-- What writing does: goes on, throws, or writes outside the tile. -/
inductive W (τ : Type) where
  | ok (t : τ)
  | throws
  | ub

/-- `isNull` (VellSet.h:175-176, Vells.h:313-315). -/
def VS.isNull [Zero α] [DecidableEq α] (v : VS α) : Bool :=
  match v.value with
  | none => true
  | some a => a.isScalar && decide (a.val 0 0 = 0)

/-- Writing values to rows of a correlation (Sink.cc:290-335). -/
def setCol (t : Tile α) (col corr : Nat) (r : Range) (f : Nat → Nat → α) : Tile α :=
  { t with col := fun q c k j => if q = col ∧ c = corr ∧ r.has j = true then f (j - r.first) k else t.col q c k j }

/-- Writing flags. -/
def setFlags (t : Tile α) (corr : Nat) (r : Range) (f : Nat → Nat → Flag) : Tile α :=
  { t with flags := fun c k j => if c = corr ∧ r.has j = true then f (j - r.first) k else t.flags c k j }

/-- Real values go to columns of doubles or complex numbers, complex ones to the latter (Sink.cc:196-211, 218-236). -/
def fits (real : Bool) : ColType → Bool
  | .dbl => real
  | .cplx => true
  | .other => false

/-- The value of an array that may be constant along an axis. -/
def Arr.get (a : Arr α) (j k : Nat) : α := a.val (if extent a.shape 0 = 1 then 0 else j) (if extent a.shape 1 = 1 then 0 else k)

/-- `isCompatible` with the full shape of the tile (Vells.h:368-377). -/
def compatible (shape : List Nat) (t : Tile α) : Bool :=
  (decide (extent shape 0 = 1) || decide (extent shape 0 = t.nrow)) && (decide (extent shape 1 = 1) || decide (extent shape 1 = t.nfreq))

/-- The flags (Sink.cc:239-276). -/
def writeFlags (c : SinkConf) (t : Tile α) (corr : Nat) (r : Range) (flags : Option (Arr Flag)) : Tile α :=
  if c.flagMask = 0 then t
  else
    match flags with
    | none => setFlags t corr r fun _ _ => 0
    | some f =>
      if compatible f.shape t then
        setFlags t corr r fun j k =>
          let x := f.get j k &&& c.flagMask
          if c.flagBit = 0 then x else if x = 0 then 0 else c.flagBit
      else t

/-- One plane (Sink.cc:182-277). -/
def writePlane [Zero α] [DecidableEq α] (c : SinkConf) (t : Tile α) (col corr : Nat) (r : Range) (v : Option (VS α)) : W (Tile α) :=
  if t.nrow ≤ r.last ∨ r.last < r.first then .ub
  else
    match v.bind (fun v => if v.isNull then none else v.value.map fun a => (v, a)) with
    | none => if t.type col = .other then .ub else .ok (setCol t col corr r fun _ _ => 0)
    | some (v, a) =>
      if a.isScalar then
        if fits v.real (t.type col) then .ok (writeFlags c (setCol t col corr r fun _ _ => a.val 0 0) corr r v.flags) else .throws
      else if a.shape.length ≠ 2 then .throws
      else if !fits v.real (t.type col) then .throws
      else if a.shape ≠ [r.count, t.nfreq] then .throws
      else .ok (writeFlags c (setCol t col corr r a.val) corr r v.flags)

/-- The planes as they are written (Sink.cc:130-145): one alone is the diagonal of a 2 by 2 matrix. -/
def planes (l : List (VS α)) : List (Option (VS α)) :=
  match l with
  | [v] => [some v, none, none, some v]
  | l => l.map some

/-- The loop (Sink.cc:146-279), from plane `i` on; the flag says whether the tile has been written to. -/
def writeAll [Zero α] [DecidableEq α] (c : SinkConf) (col : Nat) (r : Range) : Nat → Tile α → Bool → List (Option (VS α)) → W (Tile α × Bool)
  | _, t, b, [] => .ok (t, b)
  | i, t, b, v :: l =>
    if mapCorr c i < 0 ∨ (t.ncorr : Int) ≤ mapCorr c i then writeAll c col r (i + 1) t b l
    else
      match writePlane c t col (mapCorr c i).toNat r v with
      | .ok t => writeAll c col r (i + 1) t true l
      | .throws => .throws
      | .ub => .ub

/-- `getResult` for the tile and rows that were delivered (Sink.cc:103-288), if the child did not fail: the tile that is attached to the
result, if any. -/
def sink [Zero α] [DecidableEq α] (c : SinkConf) (t : Tile α) (r : Range) (l : List (VS α)) : W (Option (Tile α)) :=
  match c.col with
  | none => .ok none
  | some col =>
    match writeAll c col r 0 t false (planes l) with
    | .ok (t, b) => .ok (if b then some t else none)
    | .throws => .throws
    | .ub => .ub

end Verif.VisNodes
