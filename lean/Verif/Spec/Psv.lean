import Verif.Model.Psv
import Verif.Spec.Function
import Mathlib.Algebra.BigOperators.Group.Finset.Basic
import Mathlib.LinearAlgebra.Matrix.Notation
/-!
# Specification of the visibilities of many sources
-/
namespace Verif.Psv

/-- The value of an element of a child, and its value when a parameter is perturbed: its own perturbed value if it depends on the parameter. -/
def mainOf {R : Type} [Zero R] (cs : List (Child R)) (c e : Nat) : R :=
  match (cs[c]?).bind (fun ch => ch.planes[e]?) with
  | none => 0
  | some v => v.main

@[inherit_doc mainOf]
def under {R : Type} [Zero R] (spid : Int) (cs : List (Child R)) (c e : Nat) : R :=
  match (cs[c]?).bind (fun ch => ch.planes[e]?) with
  | none => 0
  | some v =>
    match v.perts.find? (fun p => decide (p.1 = spid)) with
    | none => v.main
    | some p => p.2.2

/-- The element depends on the parameter. -/
def Depends {R : Type} (spid : Int) (cs : List (Child R)) (c e : Nat) : Prop :=
  ∃ ch v p, cs[c]? = some ch ∧ ch.planes[e]? = some v ∧ p ∈ v.perts ∧ p.1 = spid

/-- Dimensions of a child with a number or a matrix for each source. -/
def PerSource (n : Nat) (d : List Nat) : Prop := d = [n, 2, 2] ∨ d = [n] ∨ d = [n, 1] ∨ d = [n, 1, 1] ∨ (d = [] ∧ n = 1)

/-- Children as the node is documented to take them: positions, brightness, uvw coordinates, perhaps with their changes, shapes of sources, perhaps
missing, and pairs of Jones terms. -/
structure Fits {R : Type} (cs : List (Child R)) (n pairs : Nat) : Prop where
  number : cs.length = 4 + 2 * pairs
  small : cs.length < 2 ^ 64
  planes : ∀ ch ∈ cs, ch.planes.length = ch.dims.prod
  ids : ∀ ch ∈ cs, ∀ v ∈ ch.planes, Func.IdsWf (v.perts.map (fun p => p.1))
  lmn : ∀ ch, cs[0]? = some ch → ch.dims = [n, 3]
  uvw : ∀ ch, cs[2]? = some ch → ch.dims = [3] ∨ ch.dims = [2, 3]
  shape : ∀ ch, cs[3]? = some ch → ch.dims.prod = 1 ∨ ch.dims = [n, 3]
  rest : ∀ (c : Nat) ch, cs[c]? = some ch → c = 1 ∨ 4 ≤ c → PerSource n ch.dims

/-- A parameter is perturbed by the same amount wherever it is. -/
def Agree {R : Type} (cs : List (Child R)) : Prop :=
  ∀ ch ∈ cs, ∀ v ∈ ch.planes, ∀ p ∈ v.perts, ∀ ch' ∈ cs, ∀ v' ∈ ch'.planes, ∀ p' ∈ v'.perts, p.1 = p'.1 → p.2.1 = p'.2.1

section
variable {R : Type} [CommRing R] (o : Ops R) (cs : List (Child R)) (n : Nat)

/-- The matrix a child has for a source, with the values given. -/
def jm (v : Nat → Nat → R) (s c : Nat) : Matrix (Fin 2) (Fin 2) R :=
  if (cs[c]?).map (fun ch => ch.dims) = some [n, 2, 2] then !![v c (4 * s), v c (4 * s + 1); v c (4 * s + 2), v c (4 * s + 3)]
  else v c s • (1 : Matrix (Fin 2) (Fin 2) R)

/-- Brightness between Jones terms, the first pair being the innermost. -/
def core (v : Nat → Nat → R) (s : Nat) : Nat → Matrix (Fin 2) (Fin 2) R
  | 0 => jm cs n v s 1
  | j + 1 => jm cs n v s (4 + 2 * j) * core v s j * jm cs n v s (5 + 2 * j)

/-- The phase of a source, and its change. -/
def phase (v : Nat → Nat → R) (s : Nat) : R :=
  (v 2 0 * v 0 (3 * s) + v 2 1 * v 0 (3 * s + 1) + v 2 2 * (v 0 (3 * s + 2) - o.nminus)) * o.k

@[inherit_doc phase]
def dphase (v : Nat → Nat → R) (s : Nat) : R :=
  (v 2 3 * v 0 (3 * s) + v 2 4 * v 0 (3 * s + 1) + v 2 5 * (v 0 (3 * s + 2) - o.nminus)) * o.k

/-- Smearing, if changes of uvw are known. -/
def smearing (v : Nat → Nat → R) (s : Nat) : R :=
  if (cs[2]?).map (fun ch => ch.dims) = some [2, 3] then o.smear (phase o v s) (dphase o v s) else 1

/-- The shape of a source, if it is known. -/
def shaping (v : Nat → Nat → R) (s : Nat) : R :=
  if (cs[3]?).map (fun ch => ch.dims) = some [n, 3] then o.shape (v 2 0) (v 2 1) (v 3 (3 * s)) (v 3 (3 * s + 1)) (v 3 (3 * s + 2)) else 1

/-- The visibility of a source; smearing is that of the main values, as documented. -/
def vis (pairs : Nat) (v0 v : Nat → Nat → R) (s : Nat) : Matrix (Fin 2) (Fin 2) R :=
  (o.expo (phase o v s) * smearing o cs v0 s * shaping o cs n v s) • core cs n v s pairs

/-- The sum over all sources. -/
def total (pairs : Nat) (v0 v : Nat → Nat → R) : Matrix (Fin 2) (Fin 2) R := ∑ s ∈ Finset.range n, vis o cs n pairs v0 v s

end

/-- A matrix as four values. -/
def Is {R : Type} (x : R × R × R × R) (m : Matrix (Fin 2) (Fin 2) R) : Prop := m 0 0 = x.1 ∧ m 0 1 = x.2.1 ∧ m 1 0 = x.2.2.1 ∧ m 1 1 = x.2.2.2

/-- A matrix of source `s` that child `c` has depends on the parameter. -/
def DependsM {R : Type} (spid : Int) (cs : List (Child R)) (n c s : Nat) : Prop :=
  if (cs[c]?).map (fun ch => ch.dims) = some [n, 2, 2] then ∃ i, i < 4 ∧ Depends spid cs c (4 * s + i) else Depends spid cs c s

/-- The brightness of the source, or one of its first `j` pairs of Jones terms, depends on the parameter. -/
def DependsUpTo {R : Type} (spid : Int) (cs : List (Child R)) (n s j : Nat) : Prop :=
  DependsM spid cs n 1 s ∨ ∃ i, i < j ∧ (DependsM spid cs n (4 + 2 * i) s ∨ DependsM spid cs n (5 + 2 * i) s)

/-- The position or the shape of the source depends on the parameter. -/
def DependsK {R : Type} (spid : Int) (cs : List (Child R)) (s : Nat) : Prop :=
  ∃ i, i < 3 ∧ (Depends spid cs 0 (3 * s + i) ∨ Depends spid cs 3 (3 * s + i))

end Verif.Psv
