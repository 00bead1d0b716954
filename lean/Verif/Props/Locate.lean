import Verif.Proof.Locate
import Mathlib.Tactic.NormNum

/-!
# Properties C239-C241: splitting of strings, grids, and locations of extremes
-/
namespace Verif.Locate

open Verif.Vells Verif.CellGrid

/-! ### C239: splitting -/

/-- The pieces with the separator between them are the string, and the separator is in none of them. -/
theorem C239_pieces {α} [DecidableEq α] (s : List α) (c : α) :
    split s c ≠ [] ∧ join c (split s c) = s ∧ ∀ p ∈ split s c, c ∉ p := by
  obtain ⟨ps, h1, h2, h3, h4⟩ := splitLoop_eq s c _ 0 [] rfl (Nat.zero_le _)
  unfold split
  rw [h1, List.nil_append]
  exact ⟨h2, h3, h4⟩

/-- Any pieces without the separator that were joined by it are found again, empty ones too. -/
theorem C239_joined {α} [DecidableEq α] (c : α) (ps : List (List α)) (h : ps ≠ []) (hc : ∀ p ∈ ps, c ∉ p) :
    split (join c ps) c = ps := by
  obtain ⟨h1, h2, h3⟩ := C239_pieces (join c ps) c
  exact join_inj c _ _ h1 h h3 hc h2

/-- There is one more piece than separators. -/
theorem C239_count {α} [DecidableEq α] (s : List α) (c : α) : (split s c).length = s.count c + 1 := by
  obtain ⟨h1, h2, h3⟩ := C239_pieces s c
  generalize split s c = ps at *
  subst h2
  induction ps with
  | nil => exact absurd rfl h1
  | cons p ps ih =>
    cases ps with
    | nil => simp [join, List.count_eq_zero.2 (h3 p (by simp))]
    | cons q qs =>
      rw [join_cons c p (by simp), List.count_append, List.count_cons_self, List.count_eq_zero.2 (h3 p (by simp)),
        List.length_cons, ih (by simp) (fun x hx => h3 x (by simp [List.mem_cons.1 hx]))]
      omega

example : split "a..b.".toList '.' = ["a".toList, [], "b".toList, []] :=
  C239_joined '.' ["a".toList, [], "b".toList, []] (by simp) (by decide)

/-! ### C240: grids -/

/-- At each cell the value is the centre of the cell along the axis; if the axis has no cells it is zero. -/
theorem C240_centers (c : Cells) (ax : Nat) :
    (∀ g, c.axis ax = some g → g.x ≠ [] → ∀ idx, Inside c.shape idx →
      ∃ x, g.x[idx ax]? = some x ∧ (gridValue c ax).at idx = some x) ∧
    (c.axis ax = none → ∀ idx, (gridValue c ax).at idx = some 0) := by
  constructor
  · intro g hg hne idx hin
    have hr : ax < c.rank := by
      unfold Cells.rank
      by_contra hc
      unfold Cells.axis at hg
      rw [List.getD_eq_getElem?_getD, List.getElem?_eq_none (by omega)] at hg
      cases hg
    have hn : c.ncells ax = g.x.length := by unfold Cells.ncells; rw [hg]
    have hx : c.center ax = g.x := by unfold Cells.center; rw [hg]
    have hext := ext_shape c ax g hg
    have hi : idx ax < g.x.length := by rw [← hext]; exact hin ax
    refine ⟨g.x[idx ax], List.getElem?_eq_getElem hi, ?_⟩
    unfold gridValue
    rw [hg, Option.isSome_some, if_pos rfl, hn, hx, List.take_length]
    unfold Arr.at position
    dsimp only
    rw [List.length_set, List.length_replicate,
      line_fold ax _ _ (fun i hne => by
        rw [ext_line _ _ _ _ hr, if_neg hne]
        exact ⟨rfl, if_pos rfl⟩), if_pos hr, ext_line _ _ _ _ hr, if_pos rfl]
    have e : (if g.x.length = 1 then 0 else idx ax) = idx ax := by split <;> omega
    rw [e, List.getElem?_eq_getElem hi]
  · intro hg idx
    unfold gridValue
    rw [hg]
    simp [Arr.at, position, ext]

/-- The value is a proper array that fits the cells. -/
theorem C240_shape (c : Cells) (ax : Nat) (g : CellGrid.Grid) (hg : c.axis ax = some g) (hne : g.x ≠ []) :
    (gridValue c ax).Wf ∧ ∀ i, ext (gridValue c ax).shape i = 1 ∨ ext (gridValue c ax).shape i = ext c.shape i := by
  have hr : ax < c.rank := by
    unfold Cells.rank
    by_contra hc
    unfold Cells.axis at hg
    rw [List.getD_eq_getElem?_getD, List.getElem?_eq_none (by omega)] at hg
    cases hg
  have hn : c.ncells ax = g.x.length := by unfold Cells.ncells; rw [hg]
  have hx : c.center ax = g.x := by unfold Cells.center; rw [hg]
  have hl : 0 < g.x.length := List.length_pos_of_ne_nil hne
  unfold gridValue
  rw [hg, Option.isSome_some, if_pos rfl, hn, hx, List.take_length]
  refine ⟨⟨?_, ?_⟩, ?_⟩
  · intro n h
    rcases List.mem_or_eq_of_mem_set h with h | h
    · rw [List.eq_of_mem_replicate h]; exact Nat.one_pos
    · rw [h]; exact hl
  · dsimp only
    have : ∀ r ax n, ax < r → size ((List.replicate r 1).set ax n) = n := by
      intro r
      induction r with
      | zero => intro ax n h; omega
      | succ r ih =>
        intro ax n h
        rw [List.replicate_succ]
        cases ax with
        | zero =>
          rw [List.set_cons_zero, size_cons]
          have : ∀ r, size (List.replicate r 1) = 1 := by
            intro r
            induction r with
            | zero => rfl
            | succ r ih => rw [List.replicate_succ, size_cons, ih]
          rw [this, Nat.mul_one]
        | succ ax => rw [List.set_cons_succ, size_cons, ih ax n (by omega), Nat.one_mul]
    rw [this _ _ _ hr]
  · intro i
    dsimp only
    rw [ext_line _ _ _ _ hr]
    by_cases h : i = ax
    · right
      subst h
      rw [if_pos rfl]
      rw [ext_shape c i g hg]
    · left
      rw [if_neg h]

/-- Two axes with three and two cells. -/
def grid32 : Cells := ⟨none, [some ⟨[10, 20, 30], [1, 1, 1], []⟩, some ⟨[5, 7], [1, 1], []⟩]⟩

example : (gridValue grid32 0).data = [10, 20, 30] ∧ (gridValue grid32 0).shape = [3, 1] ∧
    (gridValue grid32 1).data = [5, 7] ∧ (gridValue grid32 1).shape = [1, 2] := by decide +kernel

/-! ### C241: locations -/

/-- The full statement: for all values that fit the cells, and all axes. -/
def C241_full : Prop := ∀ (c : Cells) (a : Arr ℚ), a.Wf → Broadcasts a.shape c.shape →
  Located (fun x y => y < x) c a (maxLocation c a) c.rank ∧ Located (fun x y => x < y) c a (minLocation c a) c.rank

/-- It holds along all axes of the value, if there are one to four of them.  Missing: further axes of the cells, and
values with more axes. -/
theorem C241_located_partial (c : Cells) (a : Arr ℚ) (ha : a.Wf) (hb : Broadcasts a.shape c.shape)
    (h0 : 0 < a.shape.length) (h4 : a.shape.length ≤ 4) :
    Located (fun x y => y < x) c a (maxLocation c a) a.shape.length ∧
    Located (fun x y => x < y) c a (minLocation c a) a.shape.length := by
  have h1 := locate_spec (fun x y => decide (y < x)) (fun x => by simp)
    (fun x y z h h' => by simp only [decide_eq_true_eq] at *; exact lt_trans h' h)
    (fun x y z h h' => by simp only [decide_eq_false_iff_not, not_lt] at *; exact le_trans h h') c a ha hb h0 h4
  have h2 := locate_spec (fun x y => decide (x < y)) (fun x => by simp)
    (fun x y z h h' => by simp only [decide_eq_true_eq] at *; exact lt_trans h h')
    (fun x y z h h' => by simp only [decide_eq_false_iff_not, not_lt] at *; exact le_trans h' h) c a ha hb h0 h4
  simp only [decide_eq_true_eq] at h1 h2
  exact ⟨h1, h2⟩

example : (match maxLocation grid32 ⟨[3, 2], [1, 2, 3, 9, 5, 6]⟩ with | .ok l => l | _ => []) = [some 20, some 7] ∧
    (match minLocation grid32 ⟨[3, 2], [1, 2, 3, 9, 5, 6]⟩ with | .ok l => l | _ => []) = [some 10, some 5] := by decide +kernel

/-- A value that does not vary along the last axis, and so may have fewer axes, has no location along that axis. -/
theorem C241_refuted : ¬ C241_full := by
  intro h
  obtain ⟨⟨out, idx, h1, _, hin, _, h2⟩, _⟩ := h grid32 ⟨[3], [1, 4, 2]⟩
    ⟨by intro n hn; simp at hn; omega, rfl⟩
    ⟨by decide, fun i => by
      match i with
      | 0 => right; rfl
      | i + 1 => left; rfl⟩
  obtain ⟨x, _, hx⟩ := h2 1 (by decide) ⟨[5, 7], [1, 1], []⟩ rfl (by simp)
  have e : maxLocation grid32 ⟨[3], [1, 4, 2]⟩ = .ok [some 20, none] := by
    have : (match maxLocation grid32 ⟨[3], [1, 4, 2]⟩ with | .ok l => some l | _ => none) = some [some 20, none] := by decide +kernel
    revert this
    cases maxLocation grid32 ⟨[3], [1, 4, 2]⟩ with
    | ok l => intro h; rw [Option.some.inj h]
    | err => intro h; cases h
    | ub => intro h; cases h
  rw [e] at h1
  cases h1
  cases hx

/-- And there is no location at all for a value with more than four axes. -/
theorem C241_five (c : Cells) (a : Arr ℚ) (h : 4 < a.shape.length) (out : List (Option ℚ))
    (ho : maxLocation c a = .ok out ∨ minLocation c a = .ok out) : ∀ o ∈ out, o = none := by
  have : out = List.replicate c.rank none := by
    unfold maxLocation minLocation locate at ho
    rw [if_pos (.inr h), if_pos (.inr h)] at ho
    rcases ho with ho | ho <;> (cases ho; rfl)
  intro o hm
  rw [this] at hm
  exact List.eq_of_mem_replicate hm

end Verif.Locate
