import Verif.Proof.CellsCompare
/-! # Comparing and combining cells (C44, C74) -/
namespace Verif.CellGrid

/-! ## C44 -/

/-- Two cells compare equal exactly if they are the same. -/
def C44_full : Prop := ∀ a b : Cells, Cells.eq a b = .ok true ↔ Same a b

/-- `compare` gives 0 exactly if they are the same. -/
def C44_compare_full : Prop := ∀ a b : Cells, compare a b = 0 ↔ Same a b

/-- For proper cells it is so: `==` never fails and says whether they are the same. -/
theorem C44_eq_partial (a b : Cells) (ha : a.Wf) (hb : b.Wf) :
    (Same a b → Cells.eq a b = .ok true) ∧ (¬ Same a b → Cells.eq a b = .ok false) := by
  obtain ⟨da, hda, wda, ra, defa, ga⟩ := ha
  obtain ⟨db, hdb, wdb, rb, defb, gb⟩ := hb
  have hcmp : compare a b = 0 ↔ da.axis = db.axis ∧ a.shape = b.shape := by
    unfold compare
    rw [hda, hdb]
    simp only
    rw [← dom_eq da db wda wdb]
    cases hq : da.eq db <;> by_cases hs : a.shape = b.shape <;> simp [hs]
  have hlen : ∀ c : Cells, c.shape.length = c.rank := fun c => by simp [Cells.shape, Cells.rank]
  by_cases hc : compare a b = 0
  · obtain ⟨hd, hs⟩ := hcmp.1 hc
    have hr : a.rank = b.rank := by rw [← hlen, ← hlen, hs]
    have hdef : ∀ i, (a.axis i).isSome = (b.axis i).isSome := by
      intro i; rw [defa, defb]; simp [Dom.isDefined, hd]
    have hlens : ∀ i, (a.center i).length = (b.center i).length ∧ (a.cellSize i).length = (b.cellSize i).length := by
      intro i
      cases hx : a.axis i with
      | none =>
        have : b.axis i = none := by
          have := hdef i; rw [hx] at this; simpa using this.symm
        simp [center_none hx, center_none this]
      | some g =>
        have hy := hdef i
        rw [hx] at hy
        obtain ⟨g', hg'⟩ := Option.isSome_iff_exists.1 hy.symm
        have hi : i < a.rank := by
          by_contra hi
          rw [axis_rank a i (by omega)] at hx
          cases hx
        have e := shape_get a i hi
        rw [hs, shape_get b i (by omega), hx, hg'] at e
        simp only [Option.some.injEq] at e
        have w1 := (ga i g hx).1
        have w2 := (gb i g' hg').1
        simp [center_some hx, center_some hg']
        omega
    have hq : Cells.eq a b = .ok (decide (∀ i ∈ List.range maxAxis, a.center i = b.center i ∧ a.cellSize i = b.cellSize i)) := by
      unfold Cells.eq
      rw [if_neg (by simpa using hc), eqLoop_ok a b _ fun i _ => hlens i]
    have hsame : Same a b ↔ ∀ i ∈ List.range maxAxis, a.center i = b.center i ∧ a.cellSize i = b.cellSize i := by
      constructor
      · intro h i _
        have := h.2.2 i
        cases hx : a.axis i with
        | none =>
          rw [hx] at this
          have hy : b.axis i = none := by simpa using this.symm
          simp [center_none hx, center_none hy]
        | some g =>
          rw [hx] at this
          obtain ⟨g', hg', he⟩ := Option.map_eq_some_iff.1 this.symm
          simp only [Prod.mk.injEq] at he
          simp [center_some hx, center_some hg', he.1, he.2]
      · intro h
        refine ⟨by rw [hda, hdb]; simp [hd], hr, fun i => ?_⟩
        cases hx : a.axis i with
        | none =>
          have hy : b.axis i = none := by
            have := hdef i; rw [hx] at this; simpa using this.symm
          rw [hy]
        | some g =>
          have hy := hdef i
          rw [hx] at hy
          obtain ⟨g', hg'⟩ := Option.isSome_iff_exists.1 hy.symm
          have hi : i < maxAxis := by
            by_contra hi
            rw [axis_rank a i (by omega)] at hx
            cases hx
          have := h i (List.mem_range.2 hi)
          rw [(center_some hx).1, (center_some hg').1, (center_some hx).2.1, (center_some hg').2.1] at this
          simp [hg', this.1, this.2]
    rw [hq, hsame]
    constructor
    · intro h; rw [decide_eq_true h]
    · intro h; rw [decide_eq_false h]
  · have hns : ¬ Same a b := by
      intro h
      apply hc
      rw [hcmp]
      obtain ⟨h1, h2, h3⟩ := h
      rw [hda, hdb] at h1
      refine ⟨by simpa using h1, List.ext_getElem? fun i => ?_⟩
      by_cases hi : i < a.rank
      · rw [shape_get a i hi, shape_get b i (by omega)]
        have := h3 i
        cases hx : a.axis i with
        | none =>
          rw [hx] at this
          have hy : b.axis i = none := by simpa using this.symm
          rw [hy]
        | some g =>
          rw [hx] at this
          obtain ⟨g', hg', he⟩ := Option.map_eq_some_iff.1 this.symm
          simp only [Prod.mk.injEq] at he
          rw [hg']
          simp [he.1]
      · rw [List.getElem?_eq_none (by rw [hlen]; omega), List.getElem?_eq_none (by rw [hlen]; omega)]
    refine ⟨fun h => absurd h hns, fun _ => ?_⟩
    unfold Cells.eq
    rw [if_pos (by simpa using hc)]

/-- Cells compare equal to themselves, and the order does not matter. -/
theorem C44_refl_symm (a b : Cells) (ha : a.Wf) (hb : b.Wf) : Cells.eq a a = .ok true ∧ Cells.eq a b = Cells.eq b a := by
  have hs : Same a b → Same b a := fun h => ⟨h.1.symm, h.2.1.symm, fun i => (h.2.2 i).symm⟩
  have hs' : Same b a → Same a b := fun h => ⟨h.1.symm, h.2.1.symm, fun i => (h.2.2 i).symm⟩
  refine ⟨(C44_eq_partial a a ha ha).1 ⟨rfl, rfl, fun _ => rfl⟩, ?_⟩
  by_cases h : Same a b
  · rw [(C44_eq_partial a b ha hb).1 h, (C44_eq_partial b a hb ha).1 (hs h)]
  · rw [(C44_eq_partial a b ha hb).2 h, (C44_eq_partial b a hb ha).2 fun h' => h (hs' h')]

/-- Two empty cells are the same, yet not equal; an empty one and a proper one compare as equal and `==` then compares
vectors of different lengths. -/
theorem C44_refuted : ¬ C44_full ∧ (∀ g : Grid, g.Wf → ∀ a b : ℚ, a < b →
    compare ⟨none, []⟩ (oneCells a b g) = 0 ∧ Cells.eq ⟨none, []⟩ (oneCells a b g) = .ub) := by
  constructor
  · intro h
    have h1 := (h ⟨none, []⟩ ⟨none, []⟩).2 ⟨rfl, rfl, fun _ => rfl⟩
    have h2 : Cells.eq ⟨none, []⟩ ⟨none, []⟩ = .ok false := by decide +kernel
    rw [h2] at h1
    cases h1
  · intro g hg a b _
    refine ⟨rfl, ?_⟩
    have hl : ¬ ([] : List ℚ).length = g.x.length := by
      have := List.length_pos_iff.2 hg.2
      simp
      omega
    show (if (0 : Int) ≠ 0 then _ else _) = _
    rw [if_neg (by simp), show List.range maxAxis = 0 :: [1, 2, 3, 4, 5, 6, 7] from rfl, eqLoop, anyDiffers]
    rw [if_pos (show (Cells.center ⟨none, []⟩ 0).length ≠ ((oneCells a b g).center 0).length from hl)]
    rfl

/-- `compare` does not look at the grids. -/
theorem C44_compare_refuted : ¬ C44_compare_full := by
  intro h
  have h1 : compare (oneCells 0 2 ⟨[1 / 2, 3 / 2], [1, 1], []⟩) (oneCells 0 2 ⟨[1 / 4, 1], [1 / 2, 1 / 2], []⟩) = 0 := by
    decide +kernel
  have h2 := ((h _ _).1 h1).2.2 0
  revert h2
  decide +kernel

example : Cells.eq (oneCells 0 2 ⟨[1 / 2, 3 / 2], [1, 1], [(0, 1)]⟩) (oneCells 0 2 ⟨[1 / 2, 3 / 2], [1, 1], []⟩) = .ok true ∧
    Cells.eq (oneCells 0 2 ⟨[1 / 2, 3 / 2], [1, 1], [(0, 1)]⟩) (oneCells 0 2 ⟨[1 / 4, 1], [1 / 2, 1 / 2], []⟩) = .ok false := by
  decide +kernel

/-! ## C74 -/

/-- The combination of two proper cells is empty exactly if they conflict; otherwise it has cells along the axes of both,
those of one of the two. -/
theorem C74_superset (a b : Cells) (da db : Dom) (ha : a.Wf) (hb : b.Wf) (hda : a.dom = some da) (hdb : b.dom = some db) :
    (Conflict a b da db → superset a b = .ok none) ∧
    (¬ Conflict a b da db → ∃ c, superset a b = .ok (some c) ∧
      ((∀ i, xh c i = (xh a i).or (xh b i)) ∨ ∀ i, xh c i = (xh b i).or (xh a i)) ∧
      (Tight a → Tight b → ∃ dc, c.dom = some dc ∧ ∀ i, dc.axis i = (da.axis i).or (db.axis i))) := by
  obtain ⟨s1, s2⟩ := supersetLoop_spec a b da db (List.range (min a.rank b.rank)) true true
  rw [conflict_iff a b da db ha hb hda hdb] at s1
  unfold superset
  rw [hda, hdb]
  simp only
  refine ⟨fun h => by rw [s1.2 h], fun hn => ?_⟩
  cases hr : supersetLoop a b da db (List.range (min a.rank b.rank)) true true with
  | none => exact absurd (s1.1 hr) hn
  | some r =>
    obtain ⟨t1, t2⟩ := s2 r hr
    obtain ⟨asup, bsup⟩ := r
    simp only [true_and] at t1 t2 ⊢
    have ha' := ha
    have hb' := hb
    obtain ⟨da', e1, wa, ra, defa, ga⟩ := ha
    obtain ⟨db', e2, wb, rb, defb, gb⟩ := hb
    rw [hda] at e1
    rw [hdb] at e2
    injection e1 with e1
    injection e2 with e2
    subst e1
    subst e2
    have lt_rank : ∀ (c : Cells) i g, c.axis i = some g → i < c.rank := by
      intro c i g hg
      by_contra hi
      rw [axis_rank c i (by omega)] at hg
      cases hg
    have hsame : ∀ i, (a.axis i).isSome → (b.axis i).isSome → da.axis i = db.axis i := by
      intro i h1 h2
      obtain ⟨g, hg⟩ := Option.isSome_iff_exists.1 h1
      obtain ⟨g', hg'⟩ := Option.isSome_iff_exists.1 h2
      by_contra hne
      exact hn ⟨i, g, g', hg, hg', Or.inr hne⟩
    by_cases h1 : asup = true ∧ b.rank ≤ a.rank
    · rw [if_pos h1]
      have hsub : ∀ i, a.axis i = none → b.axis i = none := by
        intro i hi
        cases hy : b.axis i with
        | none => rfl
        | some g =>
          have hm : i ∈ List.range (min a.rank b.rank) := List.mem_range.2 (by have := lt_rank b i g hy; omega)
          have := t1.1 h1.1 i hm ((ncells_ne hb' i).2 ⟨g, hy⟩)
          rw [(center_none hi).2.2] at this
          exact absurd rfl this
      refine ⟨a, rfl, Or.inl fun i => ?_, fun _ _ => ⟨da, hda, fun i => ?_⟩⟩
      · cases hx : a.axis i with
        | none => simp [xh, hx, hsub i hx]
        | some g => simp [xh, hx]
      · have d1 := defa i
        have d2 := defb i
        cases hx : a.axis i with
        | none =>
          rw [hx] at d1
          rw [hsub i hx] at d2
          have e1 : da.axis i = none := by simpa [Dom.isDefined] using d1.symm
          have e2 : db.axis i = none := by simpa [Dom.isDefined] using d2.symm
          simp [e1, e2]
        | some g =>
          rw [hx] at d1
          obtain ⟨r, hr⟩ := Option.isSome_iff_exists.1 (show (da.axis i).isSome = true by simpa [Dom.isDefined] using d1.symm)
          simp [hr]
    · rw [if_neg h1]
      by_cases h2 : bsup = true ∧ a.rank ≤ b.rank
      · rw [if_pos h2]
        have hsub : ∀ i, b.axis i = none → a.axis i = none := by
          intro i hi
          cases hy : a.axis i with
          | none => rfl
          | some g =>
            have hm : i ∈ List.range (min a.rank b.rank) := List.mem_range.2 (by have := lt_rank a i g hy; omega)
            have := t2.1 h2.1 i hm ((ncells_ne ha' i).2 ⟨g, hy⟩)
            rw [(center_none hi).2.2] at this
            exact absurd rfl this
        refine ⟨b, rfl, Or.inr fun i => ?_, fun _ _ => ⟨db, hdb, fun i => ?_⟩⟩
        · cases hx : b.axis i with
          | none => simp [xh, hx, hsub i hx]
          | some g => simp [xh, hx]
        · have d1 := defa i
          have d2 := defb i
          cases hx : a.axis i with
          | none =>
            rw [hx] at d1
            have e1 : da.axis i = none := by simpa [Dom.isDefined] using d1.symm
            simp [e1]
          | some g =>
            rw [hx] at d1
            obtain ⟨r, hr⟩ := Option.isSome_iff_exists.1 (show (da.axis i).isSome = true by simpa [Dom.isDefined] using d1.symm)
            have hy : (b.axis i).isSome := by
              cases hy : b.axis i with
              | none => rw [hsub i hy] at hx; cases hx
              | some _ => rfl
            rw [← hsame i (by simp [hx]) hy, hr]
            rfl
      · rw [if_neg h2]
        obtain ⟨c, m1, m2⟩ := merge_loop a b ga gb (max a.rank b.rank) (by omega)
        rw [m1]
        obtain ⟨dc, r1, r0, r2⟩ := recompute_ok c
        simp only [Res.bind]
        rw [r1]
        have hxh : ∀ i, xh c i = (xh a i).or (xh b i) := by
          intro i
          rw [m2]
          by_cases hi : i < max a.rank b.rank
          · rw [if_pos hi]
          · rw [if_neg hi]
            simp [xh, axis_rank a i (by omega), axis_rank b i (by omega)]
        refine ⟨_, rfl, Or.inl hxh, fun ta tb => ⟨dc, rfl, fun i => ?_⟩⟩
        by_cases hi : i < maxAxis
        · have hk := r2 i hi
          have hc := hxh i
          have d1 := defa i
          have d2 := defb i
          cases hx : a.axis i with
          | some g =>
            simp only [xh, hx, Option.map_some, Option.some_or] at hc
            obtain ⟨g', hg', he⟩ := Option.map_eq_some_iff.1 hc
            simp only [Prod.mk.injEq] at he
            rw [hg'] at hk
            simp only [he.1, he.2] at hk
            have hta := ta da hda i g hx
            rw [hta, hk (wa.1 i _ hta)]
            rfl
          | none =>
            rw [hx] at d1
            have e1 : da.axis i = none := by simpa [Dom.isDefined] using d1.symm
            rw [e1, Option.none_or]
            cases hy : b.axis i with
            | some g =>
              simp only [xh, hx, hy, Option.map_some, Option.map_none, Option.none_or] at hc
              obtain ⟨g', hg', he⟩ := Option.map_eq_some_iff.1 hc
              simp only [Prod.mk.injEq] at he
              rw [hg'] at hk
              simp only [he.1, he.2] at hk
              have htb := tb db hdb i g hy
              rw [htb, hk (wb.1 i _ htb)]
            | none =>
              rw [hy] at d2
              have e2 : db.axis i = none := by simpa [Dom.isDefined] using d2.symm
              simp only [xh, hx, hy, Option.map_none, Option.none_or] at hc
              have hc' : c.axis i = none := by simpa using hc
              rw [hc'] at hk
              rw [hk, e2]
        · rw [r0 i (by omega), wa.2 i (by omega), wb.2 i (by omega)]
          rfl

example : ∃ c, superset (oneCells 0 2 ⟨[1 / 2, 3 / 2], [1, 1], []⟩) ⟨some (oneAxis 1 0 2), [none, some ⟨[1], [2], []⟩]⟩ = .ok (some c) ∧
    xh c 0 = some ([1 / 2, 3 / 2], [1, 1]) ∧ xh c 1 = some ([1], [2]) := by
  refine ⟨_, rfl, ?_, ?_⟩ <;> decide +kernel

end Verif.CellGrid
