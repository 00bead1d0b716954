import Verif.Model.NumArray
/-! # Specification of arrays (C87-C89) -/
namespace Verif.NumArray
open Verif.Hiid

/-! ## Selections -/

/-- What can be asked for on an axis: one index, everything, `st:en`, or `st:en:inc`, where parts may be left open. -/
inductive Sel where
  | one (i : Nat)
  | all
  | range (st en : Option Nat)
  | step (st en inc : Option Nat)
  deriving DecidableEq, Repr

/-- A part of a selection in an identifier; an open one is a wildcard. -/
def part (x : Option Nat) : Int := match x with | some i => i | none => aidWild

/-- The selection in an identifier. -/
def Sel.ids : Sel → List Int
  | .one i => [(i : Int)]
  | .all => [aidWild]
  | .range st en => [part st, aidRange, part en]
  | .step st en inc => [part st, aidRange, part en, aidRange, part inc]

/-- The identifier of selections on the first axes. -/
def idOf (sels : List Sel) : List Int := (sels.map Sel.ids).flatten

/-- Every `inc`-th position from `st` to `en` of an axis with `n` positions, if that is possible. -/
def steps (n st en inc : Nat) : Option (List Nat) :=
  if st ≤ en ∧ en < n ∧ 0 < inc then some ((List.range n).filter fun p => decide (st ≤ p ∧ p ≤ en ∧ (p - st) % inc = 0)) else none

/-- The positions that a selection asks for on an axis with `n` positions. -/
def Sel.picks (n : Nat) : Sel → Option (List Nat)
  | .one i => if i < n then some [i] else none
  | .all => some (List.range n)
  | .range st en => steps n (st.getD 0) (en.getD (n - 1)) 1
  | .step st en inc => steps n (st.getD 0) (en.getD (n - 1)) (inc.getD 1)

/-- The positions on all axes; axes that are not mentioned are taken whole.  `none` if there are too many selections, or an
impossible one. -/
def picks : List Nat → List Sel → Option (List (List Nat))
  | shape, [] => some (shape.map List.range)
  | [], _ :: _ => none
  | n :: shape, s :: sels => (s.picks n).bind fun p => (picks shape sels).map (p :: ·)

/-- The elements with the given positions, by their place in an array stored with the last axis running fastest. -/
def places : List Nat → List (List Nat) → List Nat
  | _ :: shape, p :: ps => p.flatMap fun i => (places shape ps).map (i * shape.foldr (· * ·) 1 + ·)
  | _, _ => [0]

/-- Whether an axis stays in the result. -/
def Sel.kept : Sel → Bool
  | .one _ => false
  | _ => true

/-- The extents of the result. -/
def extents : List Sel → List (List Nat) → List Nat
  | s :: sels, p :: ps => if s.kept then p.length :: extents sels ps else extents sels ps
  | [], ps => ps.map List.length
  | _, [] => []

/-- The elements of what `get` returns, and its extents. -/
def View.elements (shape : List Nat) : View → List Nat × List Nat
  | .elem off => ([], [off])
  | .scalars n => ([n], List.range n)
  | .whole => (shape, List.range (shape.foldr (· * ·) 1))
  | .sub off sh strides => (sh, (walk sh strides).map (off + ·))

/-- Selections that the code reads as they are meant: the end is given with the start and lies on the axis, and the step divides
the number of positions. -/
def Sel.Plain (n : Nat) : Sel → Prop
  | .one _ => True
  | .all => True
  | .range st en => (st ≠ none → en ≠ none) ∧ ∀ e, en = some e → e < n
  | .step st en inc => (st ≠ none → en ≠ none) ∧ (∀ e, en = some e → e < n) ∧ inc.getD 1 ∣ en.getD (n - 1) + 1 - st.getD 0

/-- Selections that can never be satisfied, whatever the other end is: the start is not on the axis, the end is before the start,
the step is 0. -/
def Sel.Impossible (n : Nat) : Sel → Prop
  | .one i => n ≤ i
  | .all => False
  | .range st en => (∃ s, st = some s ∧ n ≤ s) ∨ ∃ e, en = some e ∧ e < st.getD 0
  | .step st en inc => (∃ s, st = some s ∧ n ≤ s) ∨ (∃ e, en = some e ∧ e < st.getD 0) ∨ inc = some 0

/-! ## Blocks -/

/-- Number of elements. -/
def count (shape : List Int) : Nat := (shape.foldr (· * ·) 1).toNat

/-- Extents that an array can have. -/
def ShapeWf (shape : List Int) : Prop := 1 ≤ shape.length ∧ shape.length ≤ 10 ∧ ∀ x ∈ shape, 0 ≤ x ∧ x < 2 ^ 31

/-- Arrays as they are made: the contents fit the extents, and everything fits in memory. -/
def Arr.Wf (tpstring : Int) (es : Int → Option Nat) : Arr → Prop
  | .empty => True
  | .num sca shape data => IsInt32 sca ∧ sca ≠ 0 ∧ sca ≠ tpstring ∧ ShapeWf shape ∧
      ∃ k, es sca = some k ∧ data.length = count shape * k ∧ count shape < 2 ^ 64 ∧ 56 + count shape * k < 2 ^ 64
  | .str shape strs => ShapeWf shape ∧ strs.length = count shape ∧ count shape < 2 ^ 31 ∧ ∀ s ∈ strs, s.length < 2 ^ 32

/-! ## Values -/

/-- What can be done with arrays in a program. -/
inductive Op where
  | init (i : Nat) (shape : List Nat) (data : List Int)
  | copy (i j : Nat)
  | send (i j : Nat)
  | write (i k : Nat) (v : Int)
  | clear (i : Nat)

/-- Effect in the program. -/
def Op.step (h : Heap) : Op → Heap
  | .init i shape data => h.init i shape data
  | .copy i j => h.copy i j
  | .send i j => h.send i j
  | .write i k v => h.write i k v
  | .clear i => h.clear i

/-- Well-formed calls: the data fit the extents. -/
def Op.Wf : Op → Prop
  | .init _ shape data => data.length = shape.foldr (· * ·) 1
  | _ => True

/-- Arrays as values: each variable has its own extents and data. -/
def Vals := Nat → Option (List Nat × List Int)

/-- Effect on values. -/
def Op.eval (m : Vals) : Op → Vals
  | .init i shape data => fun x => if x = i then some (shape, data) else m x
  | .copy i j => fun x => if x = j then m i else m x
  | .send i j => fun x => if x = j then m i else m x
  | .write i k v => fun x => if x = i then (m i).map fun a => (a.1, a.2.set k v) else m x
  | .clear i => fun x => if x = i then none else m x

/-- A program with `n` variables. -/
def start (n : Nat) : Heap := ⟨[], List.replicate n none⟩

/-- The variables of a call. -/
def Op.In (n : Nat) : Op → Prop
  | .init i _ _ => i < n
  | .copy i j => i < n ∧ j < n
  | .send i j => i < n ∧ j < n
  | .write i _ _ => i < n
  | .clear i => i < n

end Verif.NumArray
