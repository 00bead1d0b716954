import Verif.Model.Function
import Mathlib.Algebra.Ring.Defs
/-!
# Visibilities of many sources, with perturbed values

`MEQ/src/TensorFunctionPert.h`, `TensorFunctionPert.cc`, `MeqNodes/src/PSVTensor.cc`: nodes that are given all perturbed values of their children at once, and
the node that sums up the visibilities of sources.

Simplifications: values are of one ring, with the exponent, the smearing term and the shape term of a source as functions of their arguments; there is one
set of perturbations; flags, cells and shapes of values are left out; a pointer to a value is the value, `none` for a null pointer.
-/
namespace Verif.Psv

/-- A plane of a child's result: its value, and perturbed ones with the ids of the parameters and the perturbations. -/
structure VS (R : Type) where
  main : R
  perts : List (Int × ℚ × R)

/-- A child's result. -/
structure Child (R : Type) where
  dims : List Nat
  planes : List (VS R)

/-- `nvs_child_`, `num_spids_`, `maxplanes_`, `vp_` (TensorFunctionPert.h:45-53). -/
structure Tab (R : Type) where
  nvs : List Nat
  nsp : Nat
  planes : Nat
  vp : List (Option R)

/-- `IPTR` (TensorFunctionPert.h:62-63). -/
def iptr (nsp planes c p e : Nat) : Nat := (c * (nsp + 1) + p) * planes + e

/-- Assign an element of `vp_`. -/
def put {R : Type} (vp : List (Option R)) (i : Nat) (v : R) : Res (List (Option R)) :=
  if i < vp.length then .ok (vp.set i (some v)) else .ub

/-- The search for an id (TensorFunctionPert.cc:125-126), which reads the element before it looks at the index; the first number is a bound for the
steps. -/
def skip (all : List Int) (spid : Int) : Nat → Nat → Res Nat
  | 0, _ => .err
  | f + 1, i =>
    match all[i]? with
    | none => .ub
    | some a => if a < spid ∧ i < all.length then skip all spid f (i + 1) else .ok i

/-- The loop over the perturbed values of a plane (TensorFunctionPert.cc:118-147); the perturbations found are `none` where `found_at_child` is negative. -/
def perts {R : Type} (all : List Int) (pos : Nat → Nat) : List (Int × ℚ × R) → Nat → List (Option R) × List (Option ℚ) →
    Res (List (Option R) × List (Option ℚ))
  | [], _, s => .ok s
  | (spid, h, v) :: r, i, (vp, hs) => do
    let i ← skip all spid (all.length + 1) i
    if i < all.length ∧ all[i]? = some spid then do
      let vp ← put vp (pos i) v
      match hs[i]? with
      | none => .ub
      | some none => perts all pos r i (vp, hs.set i (some h))
      | some (some h') => if h' ≠ h then .err else perts all pos r i (vp, hs)
    else perts all pos r i (vp, hs)

/-- The loop over the planes of a child (TensorFunctionPert.cc:106-148). -/
def planesLoop {R : Type} (all : List Int) (mx c : Nat) : List (VS R) → Nat → List (Option R) × List (Option ℚ) →
    Res (List (Option R) × List (Option ℚ))
  | [], _, s => .ok s
  | v :: r, e, (vp, hs) => do
    let vp ← put vp (iptr all.length mx c 0 e) v.main
    let s ← perts all (fun i => iptr all.length mx c (i + 1) e) v.perts 0 (vp, hs)
    planesLoop all mx c r (e + 1) s

/-- The loop over the children (TensorFunctionPert.cc:99-149). -/
def childLoop {R : Type} (all : List Int) (mx : Nat) : List (Child R) → Nat → List (Option R) × List (Option ℚ) → Res (List (Option R) × List (Option ℚ))
  | [], _, s => .ok s
  | ch :: r, c, s => do
    let s ← planesLoop all mx c ch.planes 0 s
    childLoop all mx r (c + 1) s

/-- The first part of `computeTensorResult` (TensorFunctionPert.cc:45-149): the table, the ids and the perturbations. -/
def collect {R : Type} (cs : List (Child R)) : Res (Tab R × List Int × List ℚ) := do
  let mx := (cs.map (fun c => c.planes.length)).foldl max 0
  let all ← Func.findSpids (cs.flatMap (fun c => c.planes.map (fun v => v.perts.map (fun p => p.1))))
  let (vp, hs) ← childLoop all mx cs 0 (List.replicate (cs.length * mx * (1 + all.length)) none, List.replicate all.length none)
  .ok (⟨cs.map (fun c => c.planes.length), all.length, mx, vp⟩, all, hs.map (fun h => h.getD 0))

/-- `getChildValue` (TensorFunctionPert.h:66-80): the value, and `newval`; a null pointer is not to be used. -/
def look {R : Type} (t : Tab R) (new : Bool) (c p e : Nat) : Res (R × Bool) :=
  match t.vp[iptr t.nsp t.planes c p e]? with
  | none => .ub
  | some (some v) => .ok (v, true)
  | some none =>
    if p ≠ 0 then
      match t.vp[iptr t.nsp t.planes c 0 e]? with
      | some (some v) => .ok (v, new)
      | _ => .ub
    else .ub

/-- `IntermediateMatrix` (PSVTensor.cc:202-222). -/
structure M (R : Type) where
  a : R
  b : R
  c : R
  d : R
  scalar : Bool
deriving DecidableEq

/-- The functions and constants of the node (PSVTensor.cc:44, 422-488, 498-560, PSVTensor.h:94). -/
structure Ops (R : Type) where
  expo : R → R
  smear : R → R → R
  shape : R → R → R → R → R → R
  nminus : R
  k : R

/-- What `getResultDims` finds out (PSVTensor.h:77, 104), and the number of pairs of Jones terms (PSVTensor.cc:296). -/
structure Cfg where
  nsrc : Nat
  haveShape : Bool
  njones : Nat

/-- `checkTensorDims` (PSVTensor.cc:78-98). -/
def perSource (d : List Nat) (nsrc : Nat) : Bool :=
  match d with
  | [] => decide (1 = nsrc)
  | [n] => decide (n = nsrc)
  | [n, m] => decide (m = 1 ∧ n = nsrc)
  | [n, m, k] => decide (((m = 1 ∧ k = 1) ∨ (m = 2 ∧ k = 2)) ∧ n = nsrc)
  | _ => false

/-- `input_dims.size()-first_jones_` (PSVTensor.cc:129), which is unsigned. -/
def minus4 (n : Nat) : Nat := (n + 18446744073709551612) % 18446744073709551616

/-- `getResultDims` (PSVTensor.cc:101-137). -/
def resultDims (ds : List (List Nat)) : Res Cfg :=
  match ds with
  | lmn :: b :: uvw :: rest =>
    match lmn with
    | [n, 3] =>
      if uvw ≠ [3] ∧ uvw ≠ [2, 3] then .err
      else if ¬ perSource b n then .err
      else do
        let hs ← match rest with
          | [] => .ok false
          | shp :: _ =>
            if shp.length < 1 ∨ shp.foldr (· * ·) 1 = 1 then .ok false
            else if shp ≠ [n, 3] then .err
            else .ok true
        if minus4 ds.length % 2 ≠ 0 then .err
        else if ¬ (rest.drop 1).all (fun d => perSource d n) then .err
        else .ok ⟨n, hs, (ds.length - 4) / 2⟩
    | _ => .err
  | _ => .ub

section
variable {R : Type} [CommRing R]

/-- `fillFromChild` (PSVTensor.cc:234-248): the matrix, and whether a value is new. -/
def fromChild (t : Tab R) (nsrc c p s : Nat) : Res (M R × Bool) :=
  if t.nvs[c]? = some nsrc then do
    let x ← look t false c p s
    .ok (⟨x.1, 0, 0, x.1, true⟩, x.2)
  else do
    let x0 ← look t false c p (s * 4)
    let x1 ← look t x0.2 c p (s * 4 + 1)
    let x2 ← look t x1.2 c p (s * 4 + 2)
    let x3 ← look t x2.2 c p (s * 4 + 3)
    .ok (⟨x0.1, x1.1, x2.1, x3.1, false⟩, x3.2)

/-- `fillProduct` (PSVTensor.cc:251-273). -/
def mul (x y : M R) : M R :=
  if x.scalar ∧ y.scalar then ⟨x.a * y.a, 0, 0, x.a * y.a, true⟩
  else if x.scalar then ⟨x.a * y.a, x.a * y.b, x.a * y.c, x.a * y.d, false⟩
  else if y.scalar then ⟨y.a * x.a, y.a * x.b, y.a * x.c, y.a * x.d, false⟩
  else ⟨x.a * y.a + x.b * y.c, x.a * y.b + x.b * y.d, x.c * y.a + x.d * y.c, x.c * y.b + x.d * y.d, false⟩

/-- Jones terms, and whether each pair has a new value (PSVTensor.cc:385-387). -/
def jones (t : Tab R) (nsrc p s : Nat) : Nat → Nat → Res (List (M R × M R × Bool))
  | 0, _ => .ok []
  | n + 1, i => do
    let a ← fromChild t nsrc (4 + i * 2) p s
    let b ← fromChild t nsrc (4 + i * 2 + 1) p s
    let r ← jones t nsrc p s n (i + 1)
    .ok ((a.1, b.1, a.2 || b.2) :: r)

/-- The products from the first pair that is to be computed again (PSVTensor.cc:391-395). -/
def products (js : List (M R × M R × Bool)) : Nat → Nat → List (M R) → Res (List (M R))
  | 0, _, X => .ok X
  | n + 1, j, X =>
    match js[j]?, X[j]? with
    | some q, some x => products js n (j + 1) (X.set (j + 1) (mul (mul q.1 x) q.2.1))
    | _, _ => .ub

/-- `computeShapeTerm` (PSVTensor.cc:498-560). -/
def shapeTerm (o : Ops R) (t : Tab R) (cfg : Cfg) (recompute : Bool) (u v : R) (s p : Nat) : Res (R × Bool) :=
  if !cfg.haveShape then .ok (0, false)
  else do
    let el ← look t recompute 3 p (s * 3)
    let em ← look t el.2 3 p (s * 3 + 1)
    let ra ← look t em.2 3 p (s * 3 + 2)
    .ok (o.shape u v el.1 em.1 ra.1, ra.2)

/-- The variables of `evaluateTensors` (PSVTensor.cc:287-310); the sums are four values for each perturbation. -/
structure St (R : Type) where
  X : List (M R)
  k0sm : R
  k0smsh : R
  shape0 : R
  smear0 : R
  vis0 : R × R × R × R
  out : List (R × R × R × R)

/-- Sums. -/
def add4 (x y : R × R × R × R) : R × R × R × R := (x.1 + y.1, x.2.1 + y.2.1, x.2.2.1 + y.2.2.1, x.2.2.2 + y.2.2.2)

/-- A source and a perturbation (PSVTensor.cc:325-414). -/
def step (o : Ops R) (t : Tab R) (cfg : Cfg) (s p : Nat) (st : St R) : Res (St R) := do
  let u0 ← look t (decide (p = 0)) 2 p 0
  let u1 ← look t u0.2 2 p 1
  let u2 ← look t u1.2 2 p 2
  let l0 ← look t (decide (p = 0)) 0 p (s * 3)
  let l1 ← look t l0.2 0 p (s * 3 + 1)
  let l2 ← look t l1.2 0 p (s * 3 + 2)
  let sh ← shapeTerm o t cfg u2.2 u0.1 u1.1 s p
  let n := l2.1 - o.nminus
  let phase := (u0.1 * l0.1 + u1.1 * l1.1 + u2.1 * n) * o.k
  let K := o.expo phase
  let st ← if p = 0 then do
      let sm ← if t.nvs[2]? = some 6 then do
          let d0 ← look t true 2 0 3
          let d1 ← look t true 2 0 4
          let d2 ← look t true 2 0 5
          .ok (o.smear phase ((d0.1 * l0.1 + d1.1 * l1.1 + d2.1 * n) * o.k))
        else .ok st.smear0
      let sh0 := if sh.2 then sh.1 else st.shape0
      .ok { st with smear0 := sm, k0sm := K * sm, shape0 := sh0, k0smsh := K * sm * sh0 }
    else .ok st
  let pK := if p = 0 then st.k0smsh
    else if l2.2 then K * (st.smear0 * (if sh.2 then sh.1 else st.shape0))
    else if sh.2 then st.k0sm * sh.1
    else st.k0smsh
  let js ← jones t cfg.nsrc p s cfg.njones 0
  let b ← fromChild t cfg.nsrc 1 p s
  let r := if b.2 then 0 else (js.findIdx? (fun q => q.2.2)).getD (cfg.njones + 1)
  let X ← products js (cfg.njones - r) r (st.X.set 0 b.1)
  match X[cfg.njones]? with
  | none => .ub
  | some x =>
    let v := (pK * x.a, pK * x.b, pK * x.c, pK * x.d)
    if p = 0 then .ok { st with X := X, vis0 := v, out := st.out.modify p (add4 · v) }
    else if l2.2 ∨ sh.2 ∨ r < cfg.njones then .ok { st with X := X, out := st.out.modify p (add4 · v) }
    else .ok { st with X := X, out := st.out.modify p (add4 · st.vis0) }

/-- The perturbations of a source (PSVTensor.cc:323). -/
def pertLoop (o : Ops R) (t : Tab R) (cfg : Cfg) (s : Nat) : Nat → Nat → St R → Res (St R)
  | 0, _, st => .ok st
  | n + 1, p, st => do
    let st ← step o t cfg s p st
    pertLoop o t cfg s n (p + 1) st

/-- The sources (PSVTensor.cc:316). -/
def srcLoop (o : Ops R) (t : Tab R) (cfg : Cfg) : Nat → Nat → St R → Res (St R)
  | 0, _, st => .ok st
  | n + 1, s, st => do
    let st ← pertLoop o t cfg s (t.nsp + 1) 0 st
    srcLoop o t cfg n (s + 1) st

/-- A result: ids, perturbations, and the four values of the matrix, first the main ones, then those for each id. -/
structure Out (R : Type) where
  spids : List Int
  perts : List ℚ
  vals : List (R × R × R × R)
deriving DecidableEq

/-- `computeTensorResult` (TensorFunctionPert.cc:45-166). -/
def psv (o : Ops R) (cs : List (Child R)) : Res (Out R) := do
  let (t, all, hs) ← collect cs
  let cfg ← resultDims (cs.map (fun c => c.dims))
  let st ← srcLoop o t cfg cfg.nsrc 0
    ⟨List.replicate (cfg.njones + 1) ⟨0, 0, 0, 0, false⟩, 0, 0, 1, 1, (0, 0, 0, 0), List.replicate (t.nsp + 1) (0, 0, 0, 0)⟩
  .ok ⟨all, hs, st.out⟩

end

end Verif.Psv
