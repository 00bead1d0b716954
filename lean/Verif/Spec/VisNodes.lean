import Verif.Model.VisNodes
/-! # Spigots and sinks: what is meant (C114 - C117) -/
namespace Verif.VisNodes

/-- The flag of a sample of a plane; no flags mean 0. -/
def VS.flag (v : VS α) (j k : Nat) : Flag := match v.flags with | none => 0 | some f => f.get j k

/-- The rows are rows of the tile. -/
def Range.within (r : Range) (nrow : Nat) : Prop := r.first ≤ r.last ∧ r.last < nrow

/-- A word with the flag bit put in, if there is one. -/
def withBit (bit x : Flag) : Flag := if bit = 0 then x else if x = 0 then 0 else bit

/-- Bit `b` of the flags a spigot should give for a sample, before the flag bit: it is set in the flags and in the mask, or in the row flag and
the row mask, or it is bit 0 of a missing row. -/
def wantedBit (c : SpigotConf) (flag rf : Flag) (b : Nat) : Bool :=
  (flag.getLsbD b && c.flagMask.getLsbD b) || (rf.getLsbD b && c.rowMask.getLsbD b) || (decide (rf = missing) && decide (b = 0))

/-- The plane has the values `f` and flags `x`, before the flag bit is put in, over `n` times and `m` frequencies. -/
def Shows (v : VS α) (n m : Nat) (f : Nat → Nat → α) (bit : Flag) (x : Nat → Nat → Flag → Prop) : Prop :=
  ∃ a, v.value = some a ∧ a.shape = [n, m] ∧ (∀ j k, j < n → k < m → a.get j k = f j k) ∧
    ∀ j k, j < n → k < m → ∃ w, x j k w ∧ v.flag j k = withBit bit w

/-- Something that is done to a spigot. -/
inductive QOp (R ρ : Type) where
  | deliver (rq : R) (res : ρ)
  | get (rq : R)

/-- The state of the queue after an operation and what a request gets. -/
def qstep [DecidableEq R] [DecidableEq K] (key : R → K) (q : Queue R ρ) : QOp R ρ → Queue R ρ × Option (Option ρ)
  | .deliver rq res => ((deliver q rq res).1, none)
  | .get rq => ((get key q rq).1, some (get key q rq).2)

/-- After several; what the requests got, in order. -/
def qrun [DecidableEq R] [DecidableEq K] (key : R → K) (q : Queue R ρ) : List (QOp R ρ) → Queue R ρ × List (Option ρ)
  | [] => (q, [])
  | o :: l =>
    let p := qstep key q o
    let p' := qrun key p.1 l
    (p'.1, p.2.toList ++ p'.2)

/-- A snippet as a spigot sees it: its tiles, given with one request, then a number of requests for it. -/
structure Snip (R ρ : Type) where
  rq : R
  tiles : List ρ
  asks : List R

/-- What is done. -/
def Snip.ops (s : Snip R ρ) : List (QOp R ρ) := s.tiles.map (.deliver s.rq) ++ s.asks.map .get

/-- A row is one of those of the request. -/
def Range.In (r : Range) (j : Nat) : Prop := r.first ≤ j ∧ j ≤ r.last

/-- Plane `i` goes to a correlation: the one that is set for it, or the one with its number if none are set. -/
def Maps (c : SinkConf) (i corr : Nat) : Prop := (c.corrs = [] ∧ i = corr) ∨ c.corrs[i]? = some (corr : Int)

/-- The plane that ends up in a correlation: the only one that is mapped to it. -/
def OnlyPlane (c : SinkConf) (n i corr : Nat) : Prop := i < n ∧ Maps c i corr ∧ ∀ i', i' < n → Maps c i' corr → i' = i

/-- The plane has no value or the constant 0. -/
def VS.IsZero [Zero α] (v : VS α) : Prop := ∀ a, v.value = some a → a.shape.prod = 1 ∧ a.val 0 0 = 0

/-- Flags that are constant along an axis or have the extent of the whole tile. -/
def Spans (shape : List Nat) (t : Tile α) : Prop :=
  (shape.getD 0 1 = 1 ∨ shape.getD 0 1 = t.nrow) ∧ (shape.getD 1 1 = 1 ∨ shape.getD 1 1 = t.nfreq)

/-- The value a plane has for a sample; none or null means 0. -/
def sample [Zero α] (v : Option (VS α)) (j k : Nat) : α := match v.bind (·.value) with | none => 0 | some a => a.get j k

/-- Two tiles agree in all but a column and the flags. -/
def SameShape (t t' : Tile α) : Prop := t'.ncorr = t.ncorr ∧ t'.nfreq = t.nfreq ∧ t'.nrow = t.nrow ∧ t'.type = t.type ∧ t'.rowflag = t.rowflag

/-- A plane that fits the tile: its type fits the column; its value is null, constant, or has the rows and frequencies of the tile. -/
def Fits [Zero α] (t : Tile α) (col : Nat) (r : Range) (v : Option (VS α)) : Prop :=
  ∀ w, v = some w → ¬ w.IsZero → (t.type col = .cplx ∨ (t.type col = .dbl ∧ w.real = true)) ∧
    ∀ a, w.value = some a → a.shape.prod = 1 ∨ a.shape = [r.last + 1 - r.first, t.nfreq]

instance (r : Range) (j : Nat) : Decidable (r.In j) := inferInstanceAs (Decidable (_ ∧ _))
instance (c : SinkConf) (i corr : Nat) : Decidable (Maps c i corr) := inferInstanceAs (Decidable (_ ∨ _))
instance (shape : List Nat) (t : Tile α) : Decidable (Spans shape t) := inferInstanceAs (Decidable (_ ∧ _))

end Verif.VisNodes
