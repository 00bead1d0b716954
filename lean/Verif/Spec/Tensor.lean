import Verif.Model.Tensor
import Verif.Spec.Function
import Mathlib.Data.Matrix.Mul
/-! # Specification of tensor results (C98 - C102) -/
namespace Verif.Tensor
open Verif.Func (Plane Code)

/-- An index into a tensor: one number per axis, below the extent. -/
def ValidIdx (dims idx : List Nat) : Prop := List.Forall₂ (fun i d => i < d) idx dims

/-- Where the element with the given index is: the last index runs fastest. -/
def rowMajor : List Nat → List Nat → Nat
  | _ :: ds, i :: is => i * prod ds + rowMajor ds is
  | _, _ => 0

/-- As many planes as the dimensions say, and no dimensions if there is one plane. -/
def Sized (r : TRes P) : Prop := r.planes.length = prod r.dims ∧ (r.planes.length = 1 → r.dims = [])

/-- Plane with a given index. -/
def elem (r : TRes P) (idx : List Nat) : Option P := r.planes[rowMajor r.dims idx]?

/-- Dimensions of a result of a given shape: none for a single plane. -/
def outShape (d : List Nat) : List Nat := if prod d = 1 then [] else d

/-- Shape of a selection: the extent along a sliced axis (negative number), 1 along another one; axes behind the last sliced
one are dropped. -/
def selShape : List Int → List Nat → List Nat
  | s :: sel, d :: dims => if s < 0 then d :: selShape sel dims else if selShape sel dims = [] then [] else 1 :: selShape sel dims
  | _, _ => []

/-- Index in the tensor of the element `t` of the selection. -/
def place : List Int → List Nat → List Nat
  | s :: sel, t :: ts => (if s < 0 then t else s.toNat) :: place sel ts
  | s :: sel, [] => s.toNat :: place sel []
  | [], _ => []

/-- A selection of a tensor: a number for each of its two or more axes, below the extent. -/
def SelOk (sel : List Int) (dims : List Nat) : Prop := 2 ≤ sel.length ∧ List.Forall₂ (fun (s : Int) (d : Nat) => s < d) sel dims

/-- No more than the last sliced axis has an extent other than 1. -/
def OneSlice (sel : List Int) (dims : List Nat) : Prop := prod (selShape sel dims).dropLast = 1

/-- The selector returned what was selected. -/
def SelectsIt (o : Ops P) (sel : List Int) (c : TRes P) : Prop :=
  ∃ r code, select o false sel c = .ok (r, code) ∧ r.dims = outShape (selShape sel c.dims) ∧ r.planes.length = prod (selShape sel c.dims) ∧
    ∀ t, ValidIdx (selShape sel c.dims) t → r.planes[rowMajor (selShape sel c.dims) t]? = elem c (place sel t)

/-- The paster replaced what was selected, and nothing else. -/
def PastesIt (sel : List Int) (r c r' : TRes P) : Prop :=
  r'.dims = r.dims ∧ r'.planes.length = r.planes.length ∧
    (∀ t, ValidIdx (selShape sel r.dims) t → elem r' (place sel t) = c.planes[rowMajor (selShape sel r.dims) t]?) ∧
    ∀ k, (∀ t, ValidIdx (selShape sel r.dims) t → rowMajor r.dims (place sel t) ≠ k) → r'.planes[k]? = r.planes[k]?

/-- What a child contributes to a composed tensor of `n` planes per child: its planes, or its only plane `n` times, or `n`
empty planes. -/
def spread (o : Ops P) (n : Nat) (c : TRes P) : List P :=
  if c.planes.length = n then c.planes else List.replicate n (c.planes.headD o.new)

/-- The return code that goes with planes: failure if all fail, missing data if none fails and all are empty. -/
def codeFor (o : Ops P) (ps : List P) : Code :=
  if ps ≠ [] ∧ (∀ p ∈ ps, o.isFail p = true) then .fail
  else if ps ≠ [] ∧ (∀ p ∈ ps, o.isFail p = false ∧ o.isEmpty p = true) then .missing
  else .fine

/-! ## Products -/

/-- Value of a plane, in the main result (`none`) or with a solvable parameter perturbed (`some (spid, k)`); no value counts as
zero. -/
def valAt [CommRing V] (σ : Option (Int × Nat)) (p : Plane V F) : V :=
  (match σ with
    | none => p.value
    | some (spid, k) => if spid ∈ p.spids then some (p.pval (p.spids.idxOf spid) k) else p.value).getD 0

/-- A result as a matrix. -/
def matAt [CommRing V] [Inhabited V] (m n : Nat) (σ : Option (Int × Nat)) (r : TRes (Plane V F)) : Matrix (Fin m) (Fin n) V :=
  fun i j => valAt σ (r.planes.getD (i * n + j) (Func.failPlane none))

/-- A result that is an m by n matrix; a vector is one of one column. -/
def IsMat (m n : Nat) (r : TRes P) : Prop := (r.dims = [m, n] ∨ (n = 1 ∧ r.dims = [m])) ∧ r.planes.length = m * n

/-- A plane that is not a failure; without value it depends on no solvable parameter; it has `n` sets of perturbed values if it
depends on any, and parameter `s` is perturbed by `π s k` in set `k`. -/
def GoodPlane (n : Nat) (π : Int → Nat → ℚ) (p : Plane V F) : Prop :=
  p.fail = none ∧ (p.value = none → p.spids = []) ∧ Func.IdsWf p.spids ∧ (p.spids ≠ [] → p.npert = n) ∧ p.npert ≤ n ∧
    ∀ (i : Nat) (s : Int), p.spids[i]? = some s → ∀ k < n, p.pert i k = π s k

/-- A perturbation that exists. -/
def ValidPert (n : Nat) (σ : Option (Int × Nat)) : Prop := ∀ s k, σ = some (s, k) → k < n

/-- A scalar, or a d by d matrix, without failures. -/
def Arg (d n : Nat) (π : Int → Nat → ℚ) (r : TRes (Plane V F)) : Prop :=
  (r.dims = [] ∧ r.planes.length = 1 ∨ r.dims = [d, d] ∧ r.planes.length = d * d) ∧ ∀ p ∈ r.planes, GoodPlane n π p

/-- A scalar or d by d matrix as a matrix: a scalar is a multiple of the unit matrix. -/
def asMat [CommRing V] [Inhabited V] (d : Nat) (σ : Option (Int × Nat)) (r : TRes (Plane V F)) : Matrix (Fin d) (Fin d) V :=
  if r.dims = [] then valAt σ (r.planes.getD 0 (Func.failPlane none)) • (1 : Matrix (Fin d) (Fin d) V) else matAt d d σ r

end Verif.Tensor
