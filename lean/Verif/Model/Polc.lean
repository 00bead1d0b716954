import Verif.Model.Outcome
import Mathlib.Algebra.Field.Rat
import Mathlib.Data.Nat.Choose.Basic
/-!
# Funklets and polynomials (MEQ/src/Funklet.cc, MEQ/src/Polc.cc)

Doubles are rational numbers: rounding is left out, and the binomial coefficient that the code computes as an exponential of
logarithms (Funklet.h:56-72) is exact.
-/
namespace Verif.Polc

/-- A polynomial (Funklet.h:415-435): coefficients, row by row, and their shape; offsets and scales of the axes; the mask of
solvable coefficients if one was given; the variables that `makeSolvable` sets. -/
structure Poly where
  coeff : List ℚ
  shape : List Nat
  offsets : List ℚ
  scales : List ℚ
  mask : Option (List Bool)
  pert : ℚ
  spids : List Int
  spidInx : List Int
  parmPerts : List ℚ
  spidPerts : List ℚ
  deriving DecidableEq, Repr

/-! ## Solvable coefficients -/

/-- The loop that assigns ids (Funklet.cc:305-318): ids, their perturbations, and for each coefficient the place of its id. -/
def assign : List Bool → List ℚ → Int → Int → List Int × List ℚ × List Int
  | [], _, _, _ => ([], [], [])
  | true :: m, perts, spid0, isp =>
    let r := assign m perts.tail (spid0 + 1) (isp + 1)
    (spid0 :: r.1, perts.headD 0 :: r.2.1, isp :: r.2.2)
  | false :: m, perts, spid0, isp =>
    let r := assign m perts.tail spid0 isp
    (r.1, r.2.1, -1 :: r.2.2)

/-- `makeSolvable` with a mask (Funklet.cc:291-321): the funklet and the number of ids. -/
def makeSolvableMask (p : Poly) (spid0 : Int) (mask : List Bool) : Res (Poly × Nat) :=
  let np := p.coeff.length
  if mask.length ≠ np then .err
  else
    let perts := List.replicate np p.pert
    let r := assign mask perts spid0 0
    .ok ({ p with spids := r.1, spidInx := r.2.2, parmPerts := perts, spidPerts := r.2.1 }, (mask.filter id).length)

/-- `makeSolvable` of the base class (Funklet.cc:267-289). -/
def makeSolvableAll (p : Poly) (spid0 : Int) : Res (Poly × Nat) :=
  match p.mask with
  | some m => makeSolvableMask p spid0 m
  | none =>
    let n := p.coeff.length
    .ok ({ p with spids := (List.range n).map fun i : Nat => spid0 + i, spidInx := (List.range n).map fun i : Nat => (i : Int),
                  parmPerts := List.replicate n p.pert, spidPerts := List.replicate n p.pert }, n)

/-- The default mask: coefficients of too high a total degree are excluded and set to 0 (Polc.cc:508-519), for coefficient `k`. -/
def inTriangle (nx ny k : Nat) : Bool := decide (k / ny + k % ny ≤ max nx ny - 1)

/-- `makeSolvable` (Polc.cc:488-524). -/
def makeSolvable (p : Poly) (spid0 : Int) : Res (Poly × Nat) :=
  if p.coeff.length < 4 then makeSolvableAll p spid0
  else match p.shape with
    | nx :: ny :: _ =>
      let deflt : Res (Poly × Nat) :=
        let mask := (List.range (nx * ny)).map (inTriangle nx ny)
        makeSolvableMask { p with coeff := (List.range p.coeff.length).map fun k => if k < nx * ny ∧ inTriangle nx ny k = false then 0 else p.coeff.getD k 0,
                                  mask := some mask } spid0 mask
      match p.mask with
      | some m => if m.length = p.coeff.length then makeSolvableMask p spid0 m else deflt
      | none => deflt
    | _ => makeSolvableAll p spid0

/-- What is done with a coefficient after the increment: the bounds, then the sign (Polc.cc:393-394, 411-414, 429-434). -/
structure Limits where
  lo : Option ℚ
  hi : Option ℚ
  positive : Bool

@[inherit_doc Limits]
def Limits.apply (l : Limits) (x : ℚ) : ℚ :=
  let x := match l.hi with | some h => min x h | none => x
  let x := match l.lo with | some h => max x h | none => x
  if l.positive then |x| else x

/-- The loop of `do_update` (Polc.cc:387-397): coefficient `i` and those after it. -/
def updateLoop (values : List ℚ) (lim : Nat → Limits) : Nat → List Int → List ℚ → Res (List ℚ)
  | _, [], c => .ok c
  | _, _ :: _, [] => .ub
  | i, s :: l, a :: c =>
    if 0 ≤ s then
      match values[s.toNat]? with
      | none => .ub
      | some v => (updateLoop values lim (i + 1) l c).bind fun r => .ok ((lim i).apply (a + v) :: r)
    else (updateLoop values lim (i + 1) l c).bind fun r => .ok (a :: r)

/-- `do_update` without bounds (Polc.cc:383-398). -/
def update (p : Poly) (values : List ℚ) (forcePositive : Bool) : Res Poly :=
  (updateLoop values (fun _ => ⟨none, none, forcePositive && decide (p.coeff.length ≤ 1)⟩) 0 p.spidInx p.coeff).bind fun c => .ok { p with coeff := c }

/-- `do_update` with bounds for each coefficient (Polc.cc:419-437). -/
def updateBounds (p : Poly) (values lo hi : List ℚ) (forcePositive : Bool) : Res Poly :=
  (updateLoop values (fun i => ⟨lo[i]?, hi[i]?, forcePositive && decide (p.coeff.length ≤ 1)⟩) 0 p.spidInx p.coeff).bind fun c => .ok { p with coeff := c }

/-- `do_update` with a pair of bounds for constants (Polc.cc:400-417). -/
def updateConst (p : Poly) (values : List ℚ) (lo hi : ℚ) (forcePositive : Bool) : Res Poly :=
  if ¬ p.coeff.length ≤ 1 then update p values false
  else (updateLoop values (fun _ => ⟨some lo, some hi, forcePositive⟩) 0 p.spidInx p.coeff).bind fun c => .ok { p with coeff := c }

/-- `getCoeffIndex` (Funklet.cc:332-359): row and column of the coefficient with the given id. -/
def coeffIndex (p : Poly) (k : Nat) : Nat × Nat :=
  let ny := match p.shape with | _ :: ny :: _ => ny | _ => 1
  let idx := match ((List.range p.coeff.length).drop k).find? (fun i => p.spidInx.getD i (-1) = (k : Int)) with | some i => i | none => 0
  (idx / ny, idx % ny)

/-! ## Evaluation -/

/-- Horner's scheme (Polc.cc:277-282, 340-345), from the last coefficient. -/
def horner (x : ℚ) (c : List ℚ) : ℚ :=
  match c.reverse with
  | [] => 0
  | a :: l => l.foldl (fun total b => total * x + b) a

/-- Loop over the rows (Polc.cc:336-349): running sum and power. -/
def rowsLoop (x y : ℚ) (ny : Nat) (c : List ℚ) (nx : Nat) : ℚ :=
  ((List.range nx).foldl (fun (s : ℚ × ℚ) ix => (s.1 + horner y ((c.drop (ix * ny)).take ny) * s.2, s.2 * x)) (0, 1)).1

/-- Powers by repeated multiplication (Polc.cc:285-298, 352-372). -/
def powLoop (x : ℚ) : Nat → ℚ → List ℚ
  | 0, _ => []
  | n + 1, w => w :: powLoop x n (w * x)

/-- A normalised coordinate (Polc.cc:219-224). -/
def normal (offset scale x : ℚ) : ℚ := (x - offset) * (if scale ≠ 0 then 1 / scale else 1)

/-- A value and, for each coefficient, the values with positive and, if asked for, negative perturbation. -/
structure Point where
  value : ℚ
  perts : List (List ℚ)
  deriving DecidableEq, Repr

/-- Perturbed values around a value: `d`, `-d`, ... (Polc.cc:288-296, 363-368). -/
def spread (total d : ℚ) : Nat → List ℚ
  | 0 => []
  | n + 1 => (total + d) :: spread total (-d) n

/-- Evaluation at one point, 1-dimensional (Polc.cc:274-301). -/
def eval1 (c perts : List ℚ) (np : Nat) (x : ℚ) : Point :=
  let total := horner x c
  ⟨total, (List.range c.length).map fun j => spread total (perts.getD j 0 * (powLoop x c.length 1).getD j 0) np⟩

/-- Evaluation at one point, 2-dimensional (Polc.cc:329-377).  The table of powers has 10 places. -/
def eval2 (nx ny : Nat) (c perts : List ℚ) (np : Nat) (x y : ℚ) : Res Point :=
  let total := rowsLoop x y ny c nx
  if np = 0 then .ok ⟨total, (List.range c.length).map fun _ => []⟩
  else if 10 < ny then .ub
  else .ok ⟨total, (List.range (nx * ny)).map fun k =>
    spread total (perts.getD k 0 * (powLoop y ny 1).getD (k % ny) 0 * (powLoop x nx 1).getD (k / ny) 0) np⟩

/-- `do_evaluate` at one point given by its coordinates (Polc.cc:160-380); `np` is the number of perturbed values.  The cells
that lie outside the domain of the polynomial, and the storage for results, are left out. -/
def evalAt (p : Poly) (np : Nat) (x y : ℚ) : Res Point :=
  let u := normal (p.offsets.getD 0 0) (p.scales.getD 0 0) x
  let v := normal (p.offsets.getD 1 0) (p.scales.getD 1 0) y
  if p.coeff.length = 1 then
    .ok ⟨p.coeff.getD 0 0, [spread (p.coeff.getD 0 0) (p.parmPerts.getD 0 0) np]⟩
  else match p.shape with
    | [_] => .ok (eval1 p.coeff p.parmPerts np u)
    | [nx, ny] =>
      if nx = 1 ∨ ny = 1 then .ok (eval1 p.coeff p.parmPerts np (if 1 < nx then u else v))
      else eval2 nx ny p.coeff p.parmPerts np u v
    | _ => .err

/-! ## Change of offset and scale -/

/-- The loop over the axes (Polc.cc:546-559): the polynomial with new offsets and scales so far, the differences, and whether
there is a change; `none` for the early return. -/
structure AxSt where
  offsets : List ℚ
  scales : List ℚ
  diffOffset : List ℚ
  diffScale : List ℚ
  change : Bool
  stopped : Bool

@[inherit_doc AxSt]
def axLoop : List (ℚ × ℚ) → Nat → AxSt → Res AxSt
  | [], _, s => .ok s
  | (no, ns) :: l, i, s =>
    if 2 ≤ i then .ub
    else match s.offsets[i]?, s.scales[i]? with
    | some o, some sc =>
      let osc := if sc = 0 then 1 else sc
      if ns = 0 then .ok { s with stopped := true }
      else
        let dO := (no - o) / ns
        let dS := ns / osc
        axLoop l (i + 1) ⟨s.offsets.set i no, s.scales.set i ns, s.diffOffset ++ [dO], s.diffScale ++ [dS], s.change || decide (dO ≠ 0 ∨ dS ≠ 1), false⟩
    | _, _ => .ub

/-- Number of rows and columns (Polc.cc:530-537). -/
def dims (shape : List Nat) : Nat × Nat :=
  match shape with
  | [] => (1, 1)
  | [a] => (max 1 a, 1)
  | a :: b :: _ => (max 1 a, max 1 b)

/-- The four loops (Polc.cc:572-584); differences that were not set are only raised to the power 0, and are 0 here. -/
def newCoeff (nx ny : Nat) (c dO dS : List ℚ) : List ℚ :=
  (List.range nx).foldl (fun C xi =>
    (List.range ny).foldl (fun C yi =>
      (List.range (xi + 1)).foldl (fun C rx =>
        (List.range (yi + 1)).foldl (fun C ry =>
          C.modify (rx * ny + ry) (· + (xi.choose rx : ℚ) * (yi.choose ry : ℚ) * dO.getD 0 0 ^ (xi - rx) * dO.getD 1 0 ^ (yi - ry) *
            c.getD (xi * ny + yi) 0 * (dS.getD 0 0 ^ xi * dS.getD 1 0 ^ yi))) C) C) C) (List.replicate (nx * ny) 0)

/-- `transformCoeff` (Polc.cc:527-597). -/
def transformCoeff (p : Poly) (newoffsets newscales : List ℚ) : Res Poly :=
  if newoffsets.length ≠ newscales.length then .ub
  else (axLoop (newoffsets.zip newscales) 0 ⟨p.offsets, p.scales, [], [], false, false⟩).bind fun s =>
    let q := { p with offsets := s.offsets, scales := s.scales }
    let nx := (dims p.shape).1
    let ny := (dims p.shape).2
    if s.stopped then .ok q
    else if nx ≤ 1 ∧ ny ≤ 1 then .ok q
    else if s.change = false then .ok q
    else if (List.range (nx * ny)).all (fun k => k = 0 || p.coeff.getD k 0 = 0) then .ok q
    else if s.diffOffset.length < 2 ∧ 1 < ny then .ub
    else .ok { q with coeff := newCoeff nx ny p.coeff s.diffOffset s.diffScale }

/-- `changeSolveDomain` (Polc.cc:440-484) for a polynomial with a domain; `sol` and `val` are the ranges on the two axes. -/
def changeSolveDomain (p : Poly) (sol val : Nat → ℚ × ℚ) : Res Poly :=
  transformCoeff p
    ((List.range 2).map fun i => ((sol i).1 * (val i).2 - (sol i).2 * (val i).1) / ((sol i).1 - (sol i).2))
    ((List.range 2).map fun i => ((val i).2 - (val i).1) / ((sol i).2 - (sol i).1))

/-! ## Change of the number of coefficients -/

/-- Coordinates in an array of the given shape of the element at position `n`, the last varying fastest (the counting in
Polc.cc:663-672). -/
def coords : List Nat → Nat → List Nat
  | [], _ => []
  | s :: l, n => (n / l.foldr (· * ·) 1) % s :: coords l n

/-- Position in the new array (Polc.cc:653-662): `none` if there is none. -/
def position : List Nat → List Nat → Nat → Bool → Nat × Bool
  | s :: shape, i :: l, e, out => position shape l (e * s + i) (out || (decide (0 < i) && decide (s ≤ i)))
  | _, _, e, out => (e, out)

/-- `setCoeffShape` (Polc.cc:632-680).  An element that does not fit is given a position past the end; it stays there. -/
def setCoeffShape (p : Poly) (shape : List Nat) : Poly :=
  if p.shape = shape then p
  else
    let n := shape.foldr (· * ·) 1
    { p with
      shape := shape
      coeff := (List.range p.coeff.length).foldl (fun c k =>
        let e := position shape (coords p.shape k) 0 false
        if !e.2 && decide (e.1 < n) then c.set e.1 (p.coeff.getD k 0) else c) (List.replicate n 0)
      offsets := p.offsets ++ List.replicate (shape.length - p.offsets.length) 0
      scales := p.scales ++ List.replicate (shape.length - p.scales.length) 1 }

end Verif.Polc
