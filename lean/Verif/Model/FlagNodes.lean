import Verif.Model.Vells
import Mathlib.Algebra.Order.Ring.Rat
/-!
# Nodes that work on flags (MEQ/src/Vells.cc, Function.cc, TensorFunction.cc; MeqNodes/src/MergeFlags.cc, ZeroFlagger.cc,
ReductionFunction.cc, ReplaceFlaggedValues.cc, Stripper.cc)

A flag is a word of 32 bits; the flags of a value are an array of such words.  Sharing of arrays between references (copy on
write) is left out: every array is a value.  Cells, fails and the mutexes of a result are left out.
-/
namespace Verif.FlagNodes
open Verif.Vells

/-- `VellsFlagType` (Vells.h:122). -/
abbrev Flag := BitVec 32

/-- `VellsFullFlagMask` (Vells.h:123). -/
def fullMask : Flag := 0xFFFFFFFF#32

/-- `flags & fm` with a scalar: the shape stays (Vells.h, the operators with a scalar operand). -/
def maskArr (a : Arr Flag) (fm : Flag) : Arr Flag := ⟨a.shape, a.data.map (· &&& fm)⟩

/-- `a |= b`. -/
def orInto (a b : Arr Flag) : Res (Arr Flag) := inPlace (· ||| ·) a b

/-- `Vells::mergeFlags` (Vells.cc:57-74); `none` is a reference that is not valid. -/
def mergeFlags (f0 : Option (Arr Flag)) (f1 : Arr Flag) (fm : Flag) : Res (Option (Arr Flag)) :=
  if fm = 0 then .ok f0
  else match f0 with
    | some a => (if fm = fullMask then orInto a f1 else orInto a (maskArr f1 fm)).bind fun r => .ok (some r)
    | none => if fm ≠ fullMask then .ok (some (maskArr f1 fm)) else .ok (some f1)

/-- A flag array if there is one, merged into an accumulator: the body of the loops over children (Function.cc:99-100). -/
def mergeOpt (f0 : Option (Arr Flag)) (f1 : Option (Arr Flag)) (fm : Flag) : Res (Option (Arr Flag)) :=
  match f1 with
  | none => .ok f0
  | some f => mergeFlags f0 f fm

/-- A loop merging the flags of a list of sources, each with its mask. -/
def mergeList : Option (Arr Flag) → List (Option (Arr Flag) × Flag) → Res (Option (Arr Flag))
  | acc, [] => .ok acc
  | acc, (f, m) :: l => (mergeOpt acc f m).bind fun a => mergeList a l

/-- `Function::evaluateFlags` (Function.cc:96-101).  A child is its flags, if it has a vellset with flags, and the mask set for
it. -/
def functionFlags (ch : List (Option (Arr Flag) × Flag)) : Res (Option (Arr Flag)) := mergeList none ch

/-- The loop over children of `evaluateTensorFlags` (TensorFunction.cc:73-88).  A child is the flags of the elements of its
tensor and its mask. -/
def tensorLoop : Option (Arr Flag) → List (List (Option (Arr Flag)) × Flag) → Res (Option (Arr Flag))
  | acc, [] => .ok acc
  | acc, (fs, m) :: l =>
    (if m ≠ 0 then mergeList none (fs.map fun f => (f, m)) else .ok none).bind fun cf =>
      match cf with
      | none => tensorLoop acc l
      | some c =>
        match acc with
        | some a => (orInto a c).bind fun r => tensorLoop (some r) l
        | none => tensorLoop (some c) l

/-- `TensorFunction::evaluateTensorFlags` (TensorFunction.cc:60-95): the flags set on every element of the output, which has none
to begin with (as `computeTensorResult` calls it). -/
def tensorFlags (ch : List (List (Option (Arr Flag)) × Flag)) : Res (Option (Arr Flag)) := tensorLoop none ch

/-! ## MergeFlags -/

/-- A result: tensor dimensions and, for each element, what it carries (`V`) and its flags. -/
structure Result (V : Type) where
  dims : List Nat
  vs : List (V × Option (Arr Flag))
  deriving DecidableEq

/-- `mergeChildFlags` (MergeFlags.cc:46-55) for an element with flags `f0` and a source with flags `f1`, if any. -/
def mergeChild {V} (v : V × Option (Arr Flag)) (f1 : Option (Arr Flag)) (fm : Flag) : Res (V × Option (Arr Flag)) :=
  (mergeOpt v.2 f1 fm).bind fun r => .ok (v.1, r)

/-- All sources merged into one element, one after the other (MergeFlags.cc:114-119,143-150). -/
def mergeAllInto {V} (v : V × Option (Arr Flag)) (src : List (Option (Arr Flag))) (fm : Flag) : Res (V × Option (Arr Flag)) :=
  (mergeList v.2 (src.map fun f => (f, fm))).bind fun r => .ok (v.1, r)

/-- A loop over the elements of the result. -/
def eachElement {V} (g : V × Option (Arr Flag) → Res (V × Option (Arr Flag))) :
    List (V × Option (Arr Flag)) → Res (List (V × Option (Arr Flag)))
  | [] => .ok []
  | v :: l => (g v).bind fun w => (eachElement g l).bind fun r => .ok (w :: r)

/-- The loop over elements in step with the elements of the source (MergeFlags.cc:123-128): running out of sources reads past the
end of the child's result. -/
def eachPair {V} (fm : Flag) : List (V × Option (Arr Flag)) → List (Option (Arr Flag)) → Res (List (V × Option (Arr Flag)))
  | [], _ => .ok []
  | _ :: _, [] => .ub
  | v :: l, f :: fs => (mergeChild v f fm).bind fun w => (eachPair fm l fs).bind fun r => .ok (w :: r)

/-- One further child of `MergeFlags::getResult` (MergeFlags.cc:102-155). -/
def mergeOneChild {V} (mergeAll : Bool) (r : Result V) (fm : Flag) (c : Result V) : Res (Result V) :=
  if fm = 0 then .ok r
  else if c.vs.length = 0 then .ok r
  else if mergeAll then (eachElement (fun v => mergeAllInto v (c.vs.map (·.2)) fm) r.vs).bind fun l => .ok ⟨r.dims, l⟩
  else if r.dims = c.dims then (eachPair fm r.vs (c.vs.map (·.2))).bind fun l => .ok ⟨r.dims, l⟩
  else if c.dims = [] then
    (match c.vs with
     | [] => .ub
     | s :: _ => (eachElement (fun v => mergeChild v s.2 fm) r.vs).bind fun l => .ok ⟨r.dims, l⟩)
  else if r.dims = [] then
    (match r.vs with
     | [] => .ub
     | v :: l => (mergeAllInto v (c.vs.map (·.2)) fm).bind fun w => .ok ⟨r.dims, w :: l⟩)
  else .err

/-- The loop over the further children (MergeFlags.cc:100-156). -/
def mergeChildren {V} (mergeAll : Bool) : Result V → List (Flag × Result V) → Res (Result V)
  | r, [] => .ok r
  | r, (fm, c) :: l => (mergeOneChild mergeAll r fm c).bind fun r' => mergeChildren mergeAll r' l

/-- `MergeFlags::getResult` (MergeFlags.cc:57-160) for a first child with its mask and the further children with theirs. -/
def mergeNode {V} (mergeAll : Bool) (fm0 : Flag) (c0 : Result V) (others : List (Flag × Result V)) : Res (Result V) :=
  match others with
  | [] =>
    if c0.vs.length ≤ 1 then .ok c0
    else (mergeList none (c0.vs.map fun v => (v.2, fm0))).bind fun fl =>
      match fl with
      | none => .ok c0
      | some f => .ok ⟨c0.dims, c0.vs.map fun v => (v.1, some f)⟩
  | _ => if c0.vs.length < 1 then .ok c0 else mergeChildren mergeAll c0 others

/-! ## ZeroFlagger -/

/-- The operations (ZeroFlagger.cc:102-130). -/
inductive Oper where
  | eq | ne | lt | gt | le | ge | other
  deriving DecidableEq, Repr

/-- The comparison with 0; `none` for the exception.  Values are rationals: NaN is left out. -/
def Oper.test : Oper → Option (ℚ → Bool)
  | .eq => some fun v => decide (v = 0)
  | .ne => some fun v => decide (v ≠ 0)
  | .lt => some fun v => decide (v < 0)
  | .gt => some fun v => decide (0 < v)
  | .le => some fun v => decide (v ≤ 0)
  | .ge => some fun v => decide (0 ≤ v)
  | .other => none

/-- The main value of an element. -/
inductive Val where
  | missing
  | real (a : Arr ℚ)
  | complex
  deriving DecidableEq

/-- The new flags of one element and the total (ZeroFlagger.cc:95-130). -/
def zeroFlags (t : ℚ → Bool) (bit : Flag) (a : Arr ℚ) : Arr Flag × Flag :=
  let d := a.data.map fun v => if t v then bit else 0#32
  (⟨a.shape, d⟩, d.foldl (· ||| ·) 0#32)

/-- The body of the loop over elements (ZeroFlagger.cc:85-134). -/
def zeroOne (op : Oper) (bit : Flag) (force : Bool) (v : Val) (fl : Option (Arr Flag)) : Res (Option (Arr Flag)) :=
  match v with
  | .missing => .ok fl
  | .complex => .err
  | .real a =>
    match op.test with
    | none => .err
    | some t =>
      if (zeroFlags t bit a).2 ≠ 0 then .ok (some (zeroFlags t bit a).1)
      else if force then .ok (some ⟨[1], [0#32]⟩)
      else .ok fl

/-- `ZeroFlagger::getResult` (ZeroFlagger.cc:71-138). -/
def zeroNode (op : Oper) (bit : Flag) (force : Bool) : List (Val × Option (Arr Flag)) → Res (List (Val × Option (Arr Flag)))
  | [] => .ok []
  | (v, fl) :: l => (zeroOne op bit force v fl).bind fun f => (zeroNode op bit force l).bind fun r => .ok ((v, f) :: r)

/-! ## Reductions -/

/-- The test in `isAllFlagged` (ReductionFunction.cc:83): `!` binds tighter than `&`, so that this is the truth value of the word
being 0, as an int, masked. -/
def looksClear (f mask : Flag) : Bool := decide ((if f = 0#32 then 1#32 else 0#32) &&& mask ≠ 0#32)

/-- `isAllFlagged` (ReductionFunction.cc:78-87). -/
def isAllFlagged : List Flag → Flag → Flag
  | [], mask => mask
  | f :: l, mask => if looksClear f mask then 0 else isAllFlagged l mask

/-- `evaluateFlags` of a reduction of one child to a scalar (ReductionFunction.cc:199-211).  `mergeFlags` is never reached: the
output has no flags to begin with (Function.cc:221-222). -/
def scalarFlags (child : Option (Arr Flag)) (mask : Flag) : Option (Arr Flag) :=
  match child with
  | none => none
  | some f => if mask ≠ 0 then (if isAllFlagged f.data mask ≠ 0 then some ⟨[1], [isAllFlagged f.data mask]⟩ else none) else none

/-- `evaluateFlags` of a reduction along axes (ReductionFunction.cc:219-242).  What the slicer gives (C40) is taken as it is: the
shape left over and, for each of its points in order, the words of the slice. -/
def axesFlags (shape : List Nat) (slices : List (List Flag)) (mask : Flag) : Res (Option (Arr Flag)) :=
  if mask = 0 then .ok none
  else
    let d := slices.map fun s => isAllFlagged s mask
    if d.foldl (· ||| ·) 0#32 ≠ 0 then mergeFlags none ⟨shape, d⟩ mask else .ok none

/-- `whereEq` (Vells.h:466-491): the new array, and 1, 0 or -1. -/
def whereEq (a : Arr Flag) (value eq ne : Flag) : Arr Flag × Int :=
  (⟨a.shape, a.data.map fun f => if f = value then eq else ne⟩,
   if a.data.any (fun f => decide (f = value)) && !a.data.any (fun f => decide (f ≠ value)) then 1
   else if a.data.any (fun f => decide (f ≠ value)) && !a.data.any (fun f => decide (f = value)) then -1
   else 0)

/-- The loop over children (ReductionFunction.cc:171-182): the total mask and the array with a bit per child.  A shift by 31 or
more overflows an int: undefined. -/
def childBits : Nat → Flag → Arr Flag → List (Option (Arr Flag) × Flag) → Res (Flag × Arr Flag)
  | _, tot, flagged, [] => .ok (tot, flagged)
  | i, tot, flagged, (f, m) :: l =>
    match f with
    | none => childBits (i + 1) tot flagged l
    | some a =>
      if m = 0 then childBits (i + 1) tot flagged l
      else if 31 ≤ i then .ub
      else
        let w := whereEq (maskArr a m) 0 0 (1#32 <<< i)
        if w.2 ≠ 1 then (orInto flagged w.1).bind fun r => childBits (i + 1) (tot ||| m) r l
        else childBits (i + 1) (tot ||| m) flagged l

/-- `evaluateFlags` of a reduction over several children (ReductionFunction.cc:166-195). -/
def acrossFlags (ch : List (Option (Arr Flag) × Flag)) : Res (Option (Arr Flag)) :=
  (childBits 0 0 ⟨[1], [0#32]⟩ ch).bind fun (tot, flagged) =>
    if tot ≠ 0 then
      if 31 ≤ ch.length then .ub
      else
        let w := whereEq flagged ((1#32 <<< ch.length) - 1#32) tot 0
        if 0 ≤ w.2 then .ok (some w.1) else .ok none
    else .ok none

/-! ## ReplaceFlaggedValues -/

/-- `ReplaceFlaggedValues::evaluateFlags` and `evaluate` (ReplaceFlaggedValues.cc:50-77) for the first child's value and flags and
the flags and masks of the others: the value and the flags of the output. -/
def replaceNode {α} (new : α) (value : Arr α) (fl0 : Option (Arr Flag)) (others : List (Option (Arr Flag) × Flag)) :
    Res (Arr α × Option (Arr Flag)) :=
  (mergeList none others).bind fun fl =>
    match fl with
    | none => .ok (value, fl0)
    | some f => (replaceFlagged (fun w => decide (w &&& fullMask ≠ 0)) new value f).bind fun v => .ok (v, fl0)

/-! ## Stripper -/

/-- An element of a result with its derivatives: main value, if any, perturbed values by parameter, flags. -/
structure Elem (V : Type) where
  value : Option V
  perturbed : List (Nat × V)
  flags : Option (Arr Flag)

/-- `Stripper::getResult` (Stripper.cc:47-56) on one element: a new element, to which only the main value is put, replaces one
with derivatives. -/
def strip {V} (e : Elem V) : Elem V :=
  match e.value with
  | some v => if 0 < e.perturbed.length then ⟨some v, [], none⟩ else e
  | none => e

end Verif.FlagNodes
