import Verif.Model.Vells
/-!
# Slicing arrays (MEQ/src/VellsSlicer.cc, VellsSlicerWithFlags.cc)

A slicer presents, one after the other, the slices of an array along some of its axes.  Data pointers are offsets into the
array's storage, in elements.  Axis numbers are not negative (a negative one would be an access before the arrays).
-/
namespace Verif.Slicer
open Verif.Vells

/-- `Axis::MaxAxis` (Axis.h:46). -/
def maxAxis : Nat := 8

/-- Strides of the source, from the last axis to the first (VellsSlicer.cc:42-48). -/
def vstrides : List Nat → Int → List Int
  | [], _ => []
  | n :: l, v => v :: vstrides l (v * n)

/-- Stride of one axis. -/
def vstride (shape : List Nat) (i : Nat) : Int := (vstrides shape.reverse 1).reverse.getD i 1

/-- What `init` sets up while going through the axes: shape left over, sliced axes, shape and strides of a slice. -/
structure Setup where
  ns : List Nat
  sliced : List Bool
  shape : List Nat
  strides : List Int
  deriving DecidableEq, Repr

/-- The loop of `init` (VellsSlicer.cc:57-75). -/
def initLoop (vshape : List Nat) : List Nat → Setup → Res Setup
  | [], s => .ok s
  | a :: axes, s =>
    if maxAxis ≤ a then .err
    else if a < vshape.length then
      let s' : Setup := { s with sliced := s.sliced.set a true, shape := s.shape ++ [ext vshape a], strides := s.strides ++ [vstride vshape a] }
      if a + 1 = s.ns.length then initLoop vshape axes { s' with ns := s.ns.take a }
      else if a < s.ns.length then initLoop vshape axes { s' with ns := s.ns.set a 1 }
      else .ub
    else initLoop vshape axes { s with shape := s.shape ++ [1], strides := s.strides ++ [1] }

/-- `init` (VellsSlicer.cc:33-82). -/
def init (vshape axes : List Nat) : Res Setup :=
  if vshape.length < axes.length then .err
  else initLoop vshape axes ⟨vshape, List.replicate vshape.length false, [], []⟩

/-- Change of the data pointer when `ndim` axes of the counter have advanced (VellsSlicer.cc:100-116): strides and marks
from the counter's last axis on. -/
def step : List Int → List Bool → Bool → Nat → Int
  | v :: vs, s :: ss, prev, k + 1 =>
    (if !s then (if prev then v else 0) else (if !prev then -v else 0)) + step vs ss s k
  | _, _, _, _ => 0

/-- Using a slicer: the pointers at each slice, until `incr` returns false.  `none` if that takes more than `fuel` slices. -/
def run (sh : List Nat) (steps : List (Nat → Int)) : Nat → List Nat → List Int → Option (List (List Int))
  | 0, _, _ => none
  | fuel + 1, cs, ps =>
    let r := incr sh cs
    if r.2 = 0 then some [ps]
    else (run sh steps fuel r.1 (List.zipWith (fun p st => p + st r.2) ps steps)).map (ps :: ·)

/-- All slices of an array (`incr`, VellsSlicer.cc:92-119): offset of each, and shape and strides they share. -/
def slices (vshape axes : List Nat) : Res (List Int × List Nat × List Int) :=
  (init vshape axes).bind fun s =>
    let vs := ((vstrides vshape.reverse 1).reverse.take s.ns.length).reverse
    let ss := (s.sliced.take s.ns.length).reverse
    match run s.ns.reverse [step vs ss true] (size s.ns) (s.ns.map fun _ => 0) [0] with
    | none => .ub
    | some l => .ok (l.map (·.getD 0 0), s.shape, s.strides)

/-! ## With flags -/

/-- Setup of the slicer with flags. -/
structure FSetup where
  ns : List Nat
  iter : List Bool
  fiter : List Bool
  shape : List Nat
  fshape : List Nat
  strides : List Int
  fstrides : List Int
  deriving DecidableEq, Repr

/-- Stride of one axis of an array of rank `r` (VellsSlicerWithFlags.cc:54-64), axes past its end having extent 1. -/
def fstride (r : Nat) (s : List Nat) (i : Nat) : Int := (vstrides (axes r s) 1).reverse.getD i 1

/-- The loop over axes in `init` (VellsSlicerWithFlags.cc:71-97). -/
def finitLoop (r : Nat) (vshape fshape : List Nat) : List Nat → FSetup → Res FSetup
  | [], s => .ok s
  | a :: axs, s =>
    if maxAxis ≤ a then .err
    else
      let v := decide (1 < ext vshape a)
      let f := decide (1 < ext fshape a)
      finitLoop r vshape fshape axs
        { s with
          iter := if v then s.iter.set a false else s.iter,
          fiter := if f then s.fiter.set a false else s.fiter,
          ns := if v || f then s.ns.set a 1 else s.ns,
          shape := s.shape ++ [if v then ext vshape a else 1],
          strides := s.strides ++ [if v then fstride r vshape a else 1],
          fshape := s.fshape ++ [if f then ext fshape a else 1],
          fstrides := s.fstrides ++ [if f then fstride r fshape a else 1] }

/-- `init` (VellsSlicerWithFlags.cc:33-113); without flags `fshape` is empty. -/
def finit (vshape fshape axs : List Nat) : Res FSetup :=
  let r := max vshape.length fshape.length
  if r < axs.length then .err
  else finitLoop r vshape fshape axs
    ⟨(List.range r).map fun i => max (ext vshape i) (ext fshape i), (List.range r).map fun i => decide (1 < ext vshape i),
      (List.range r).map fun i => decide (1 < ext fshape i), [], [], [], []⟩

/-- Change of a pointer (VellsSlicerWithFlags.cc:143-164), from the last axis. -/
def fstep : List Int → List Bool → Nat → Int
  | v :: vs, b :: bs, k + 1 => (if b then v - (if 0 < k then vs.headD 0 else 0) else 0) + fstep vs bs k
  | _, _, _ => 0

/-- All slices of an array with flags: offsets into data and flags.  `initRefVells` (115-127) throws if a slice seems to
run past the end. -/
def fslices (vshape : List Nat) (fl : Option (List Nat)) (axs : List Nat) :
    Res (List (List Int) × FSetup) :=
  let fshape := fl.getD []
  let r := max vshape.length fshape.length
  (finit vshape fshape axs).bind fun s =>
    match run s.ns.reverse [fstep (vstrides (axes r vshape) 1) s.iter.reverse, fstep (vstrides (axes r fshape) 1) s.fiter.reverse]
        (size s.ns) (s.ns.map fun _ => 0) [0, 0] with
    | none => .ub
    | some l =>
      if l.any fun ps => decide ((size vshape : Int) < ps.getD 0 0 + size s.shape) ||
          (fl.isSome && decide ((size fshape : Int) < ps.getD 1 0 + size s.fshape)) then .err
      else .ok (l, s)

end Verif.Slicer
