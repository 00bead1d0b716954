import Verif.Model.Outcome
import Mathlib.Data.Rat.Floor

/-!
# Images of patches of sources

`/repo/MeqNodes/src/PatchComposer.cc`.
-/
namespace Verif.Patch

/-- A source: its direction cosines `lc` and `mc` relative to the phase centre (PatchComposer.cc lines 239-244) and one of
its Stokes parameters for each channel (lines 191-237).  Simplification: rational numbers; how the two are computed from
the six values of the child is left out; the four Stokes parameters are treated in the same way, so there is one. -/
structure Src where
  l : ℚ
  m : ℚ
  flux : Nat → ℚ

/-- A conversion to `int` (PatchComposer.cc lines 139, 265, 267). -/
def trunc (x : ℚ) : Int := if 0 ≤ x then ⌊x⌋ else -⌊-x⌋

/-- `lmax`, `mmax` (PatchComposer.cc lines 99, 111-124, 132-133). -/
def extent (scale : ℚ) (xs : List ℚ) : ℚ := xs.foldl (fun a x => max a |x|) 0 * scale

/-- `dl`, `dm` (PatchComposer.cc lines 135-136); the argument is not 0. -/
def spacing (baseline uvppw lmax : ℚ) : ℚ := 1 / (2 * baseline + 1 / uvppw / lmax)

/-- `nl`, `nm` (PatchComposer.cc lines 139-140). -/
def npix (lmax d : ℚ) : Int := 2 * trunc (lmax / d) + 3

/-- `ni`, `nj` (PatchComposer.cc lines 264-273). -/
def pixel (n : Int) (d x : ℚ) : Int :=
  if x > 0 then (n - 1) / 2 + 1 + trunc (x / d + 1 / 2) - 1 else (n - 1) / 2 + 1 + trunc (x / d - 1 / 2) - 1

/-- The image for each channel, and its grid: numbers of pixels, half the extents of the domain (PatchComposer.cc lines
139-153). -/
structure Geo where
  nl : Int
  nm : Int
  dl : ℚ
  dm : ℚ

@[inherit_doc Geo]
structure Image where
  geo : Geo
  lmax : ℚ
  mmax : ℚ
  plane : Nat → Int → Int → ℚ

/-- `arrI(j,ni,nj) = sI` (PatchComposer.cc line 279). -/
def store (a : Nat → Int → Int → ℚ) (j : Nat) (ni nj : Int) (v : ℚ) : Nat → Int → Int → ℚ :=
  fun j' i k => if j' = j ∧ i = ni ∧ k = nj then v else a j' i k

/-- The loop over channels (PatchComposer.cc lines 253-285); there are no checks of the indices. -/
def channels (g : Geo) (c0 : ℚ) (s : Src) : List (ℚ × Nat) → (Nat → Int → Int → ℚ) → Res (Nat → Int → Int → ℚ)
  | [], a => .ok a
  | (f, j) :: fs, a =>
    let ni := pixel g.nl g.dl (f * s.l / c0)
    let nj := pixel g.nm g.dm (f * s.m / c0)
    if 0 ≤ ni ∧ ni < g.nl ∧ 0 ≤ nj ∧ nj < g.nm then channels g c0 s fs (store a j ni nj (s.flux j)) else .ub

/-- The loop over sources (PatchComposer.cc lines 188-287). -/
def sources (g : Geo) (c0 : ℚ) (freqs : List ℚ) : List Src → (Nat → Int → Int → ℚ) → Res (Nat → Int → Int → ℚ)
  | [], a => .ok a
  | s :: ss, a =>
    match channels g c0 s freqs.zipIdx a with
    | .ok a' => sources g c0 freqs ss a'
    | .err => .err
    | .ub => .ub

/-- `getResult` with sources (PatchComposer.cc lines 90-291).  If all sources have `l = 0` (or `m = 0`) the division in
line 135 gives a spacing of 0, and line 139 converts 0/0 to an integer. -/
def compose (baseline uvppw c0 fmax : ℚ) (freqs : List ℚ) (srcs : List Src) : Res Image :=
  let lmax := extent (fmax / c0) (srcs.map Src.l)
  let mmax := extent (fmax / c0) (srcs.map Src.m)
  if lmax = 0 ∨ mmax = 0 then .ub
  else
    let dl := spacing baseline uvppw lmax
    let dm := spacing baseline uvppw mmax
    let g : Geo := ⟨npix lmax dl, npix mmax dm, dl, dm⟩
    match sources g c0 freqs srcs (fun _ _ _ => 0) with
    | .ok a => .ok ⟨g, g.nl * dl / 2, g.nm * dm / 2, a⟩
    | .err => .err
    | .ub => .ub

end Verif.Patch
