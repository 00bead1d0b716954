import Verif.Proof.Cells
/-! # Lemmas: comparing and combining cells (C44, C74) -/
namespace Verif.CellGrid

theorem range_inj (d e : Dom) (hd : d.Wf) (he : e.Wf) (i : Nat) (h : d.range i = e.range i) : d.axis i = e.axis i := by
  unfold Dom.range at h
  cases hx : d.axis i with
  | none =>
    cases hy : e.axis i with
    | none => rfl
    | some s =>
      rw [hx, hy] at h
      simp only [Option.getD_none, Option.getD_some] at h
      have := he.1 i s hy
      rw [← h] at this
      exact absurd this (lt_irrefl _)
  | some r =>
    cases hy : e.axis i with
    | none =>
      rw [hx, hy] at h
      simp only [Option.getD_none, Option.getD_some] at h
      have := hd.1 i r hx
      rw [h] at this
      exact absurd this (lt_irrefl _)
    | some s => rw [hx, hy] at h; simpa using h

theorem dom_eq (d e : Dom) (hd : d.Wf) (he : e.Wf) : d.eq e = true ↔ d.axis = e.axis := by
  unfold Dom.eq
  rw [List.all_eq_true]
  constructor
  · intro h
    funext i
    by_cases hi : i < maxAxis
    · exact range_inj d e hd he i (by simpa using h i (List.mem_range.2 hi))
    · rw [hd.2 i (by omega), he.2 i (by omega)]
  · intro h i _
    simp [Dom.range, h]

theorem axis_rank (c : Cells) (i : Nat) (h : c.rank ≤ i) : c.axis i = none := by
  unfold Cells.axis
  rw [List.getD_eq_getElem?_getD, List.getElem?_eq_none h]
  rfl

theorem shape_get (c : Cells) (i : Nat) (h : i < c.rank) : c.shape[i]? = some (match c.axis i with | none => 1 | some g => g.x.length) := by
  unfold Cells.shape Cells.axis
  rw [List.getElem?_map, List.getElem?_eq_getElem h, List.getD_eq_getElem?_getD, List.getElem?_eq_getElem h]
  rfl

theorem eqLoop_ok (a b : Cells) (l : List Nat) (hl : ∀ i ∈ l, (a.center i).length = (b.center i).length ∧ (a.cellSize i).length = (b.cellSize i).length) :
    eqLoop a b l = .ok (decide (∀ i ∈ l, a.center i = b.center i ∧ a.cellSize i = b.cellSize i)) := by
  induction l with
  | nil => rfl
  | cons i l ih =>
    obtain ⟨h1, h2⟩ := hl i (by simp)
    rw [eqLoop, anyDiffers, if_neg (by simpa using h1), Res.bind]
    by_cases e1 : a.center i = b.center i
    · rw [if_neg (by simpa using e1), anyDiffers, if_neg (by simpa using h2), Res.bind]
      by_cases e2 : a.cellSize i = b.cellSize i
      · rw [if_neg (by simpa using e2), ih fun j hj => hl j (by simp [hj])]
        simp [e1, e2]
      · rw [if_pos (by simpa using e2)]
        simp [e2]
    · rw [if_pos (by simpa using e1)]
      simp [e1]

theorem center_some {c : Cells} {i : Nat} {g : Grid} (h : c.axis i = some g) : c.center i = g.x ∧ c.cellSize i = g.h ∧ c.ncells i = g.x.length := by
  simp [Cells.center, Cells.cellSize, Cells.ncells, h]

theorem center_none {c : Cells} {i : Nat} (h : c.axis i = none) : c.center i = [] ∧ c.cellSize i = [] ∧ c.ncells i = 0 := by
  simp [Cells.center, Cells.cellSize, Cells.ncells, h]

/-- A single axis with cells. -/
def oneCells (a b : ℚ) (g : Grid) : Cells := ⟨some (oneAxis 0 a b), [some g]⟩

theorem oneCells_wf (a b : ℚ) (h : a < b) (g : Grid) (hg : g.Wf) : (oneCells a b g).Wf := by
  refine ⟨oneAxis 0 a b, rfl, oneAxis_wf 0 a b (by decide) h, by simp [oneCells, Cells.rank, maxAxis], fun i => ?_, fun i g' hg' => ?_⟩
  · cases i with
    | zero => rfl
    | succ i => simp [oneCells, Cells.axis, Dom.isDefined, oneAxis]
  · cases i with
    | zero =>
      simp only [oneCells, Cells.axis, List.getD_cons_zero, Option.some.injEq] at hg'
      rw [← hg']; exact hg
    | succ i => simp [oneCells, Cells.axis] at hg'

theorem ex_cons {P : Nat → Prop} {i : Nat} {l : List Nat} (h : ¬ P i) : (∃ j ∈ i :: l, P j) ↔ ∃ j ∈ l, P j := by
  simp [h]

theorem all_cons {P : Nat → Prop} {i : Nat} {l : List Nat} (h : P i) : (∀ j ∈ i :: l, P j) ↔ ∀ j ∈ l, P j := by
  simp [h]

theorem supersetLoop_spec (a b : Cells) (da db : Dom) (l : List Nat) : ∀ p q,
    (supersetLoop a b da db l p q = none ↔ ∃ i ∈ l, a.ncells i ≠ 0 ∧ b.ncells i ≠ 0 ∧ (a.ncells i ≠ b.ncells i ∨ da.range i ≠ db.range i)) ∧
    ∀ r, supersetLoop a b da db l p q = some r →
      (r.1 = true ↔ p = true ∧ ∀ i ∈ l, b.ncells i ≠ 0 → a.ncells i ≠ 0) ∧
      (r.2 = true ↔ q = true ∧ ∀ i ∈ l, a.ncells i ≠ 0 → b.ncells i ≠ 0) := by
  induction l with
  | nil =>
    intro p q
    simp only [supersetLoop, List.not_mem_nil, false_and, exists_false, reduceCtorEq, Option.some.injEq,
      true_and, false_implies, implies_true, and_true]
    intro r hr
    subst hr
    exact ⟨Iff.rfl, Iff.rfl⟩
  | cons i l ih =>
    intro p q
    rw [supersetLoop]
    by_cases ha : a.ncells i ≠ 0
    · rw [if_pos ha]
      by_cases hb : b.ncells i ≠ 0
      · rw [if_pos hb]
        by_cases hc : a.ncells i ≠ b.ncells i ∨ (da.range i).1 ≠ (db.range i).1 ∨ (da.range i).2 ≠ (db.range i).2
        · rw [if_pos hc]
          refine ⟨⟨fun _ => ⟨i, by simp, ha, hb, ?_⟩, fun _ => rfl⟩, fun r hr => by cases hr⟩
          rcases hc with hc | hc | hc
          · exact Or.inl hc
          · exact Or.inr fun h => hc (by rw [h])
          · exact Or.inr fun h => hc (by rw [h])
        · rw [if_neg hc]
          have hc' : ¬ (a.ncells i ≠ b.ncells i ∨ da.range i ≠ db.range i) := by
            rintro (h | h)
            · exact hc (Or.inl h)
            · by_cases h1 : (da.range i).1 = (db.range i).1
              · exact hc (Or.inr (Or.inr fun h2 => h (Prod.ext h1 h2)))
              · exact hc (Or.inr (Or.inl h1))
          obtain ⟨i1, i2⟩ := ih p q
          refine ⟨by rw [i1, ex_cons fun h => hc' h.2.2], fun r hr => ?_⟩
          rw [(i2 r hr).1, (i2 r hr).2, all_cons fun _ => ha, all_cons fun _ => hb]
          exact ⟨Iff.rfl, Iff.rfl⟩
      · rw [if_neg hb]
        obtain ⟨i1, i2⟩ := ih p false
        refine ⟨by rw [i1, ex_cons fun h => hb h.2.1], fun r hr => ?_⟩
        rw [(i2 r hr).1, (i2 r hr).2, all_cons fun _ => ha]
        refine ⟨Iff.rfl, (fun h => by cases h.1), fun h => absurd (h.2 i (by simp) ha) hb⟩
    · rw [if_neg ha]
      by_cases hb : b.ncells i ≠ 0
      · rw [if_pos hb]
        obtain ⟨i1, i2⟩ := ih false q
        refine ⟨by rw [i1, ex_cons fun h => ha h.1], fun r hr => ?_⟩
        rw [(i2 r hr).1, (i2 r hr).2, all_cons (P := fun i => a.ncells i ≠ 0 → b.ncells i ≠ 0) fun _ => hb]
        refine ⟨⟨(fun h => by cases h.1), fun h => absurd (h.2 i (by simp) hb) ha⟩, Iff.rfl⟩
      · rw [if_neg hb]
        obtain ⟨i1, i2⟩ := ih p q
        refine ⟨by rw [i1, ex_cons fun h => ha h.1], fun r hr => ?_⟩
        rw [(i2 r hr).1, (i2 r hr).2, all_cons (P := fun i => b.ncells i ≠ 0 → a.ncells i ≠ 0) fun h => absurd h hb,
          all_cons (P := fun i => a.ncells i ≠ 0 → b.ncells i ≠ 0) fun h => absurd h ha]
        exact ⟨Iff.rfl, Iff.rfl⟩

theorem ncells_ne {c : Cells} (hc : c.Wf) (i : Nat) : c.ncells i ≠ 0 ↔ ∃ g, c.axis i = some g := by
  obtain ⟨d, _, _, _, _, hg⟩ := hc
  unfold Cells.ncells
  cases hx : c.axis i with
  | none => simp
  | some g =>
    have := List.length_pos_iff.2 (hg i g hx).2
    simp
    exact (hg i g hx).2

theorem setAxis_getD (l : List (Option Grid)) (i j : Nat) (g : Option Grid) : (setAxis l i g).getD j none = if j = i then g else l.getD j none := by
  unfold setAxis
  rw [List.getD_eq_getElem?_getD, List.getElem?_set]
  by_cases h : i = j
  · rw [if_pos h, if_pos h.symm, if_pos (by simp; omega)]
    rfl
  · rw [if_neg h, if_neg (Ne.symm h), List.getElem?_append]
    by_cases hj : j < l.length
    · rw [if_pos hj, List.getD_eq_getElem?_getD]
    · rw [if_neg hj, List.getD_eq_getElem?_getD, List.getElem?_eq_none (by omega : l.length ≤ j), List.getElem?_replicate]
      split <;> rfl

/-- The merging loop. -/
theorem merge_loop (a b : Cells) (ha : ∀ i g, a.axis i = some g → g.Wf) (hb : ∀ i g, b.axis i = some g → g.Wf) :
    ∀ n ≤ maxAxis, ∃ c, loop (fun i c =>
      if (a.axis i).isSome then setCells c i (a.center i) (a.cellSize i)
      else if (b.axis i).isSome then setCells c i (b.center i) (b.cellSize i)
      else .ok c) (List.range n) ⟨none, []⟩ = .ok c ∧ ∀ i, xh c i = if i < n then (xh a i).or (xh b i) else none := by
  intro n
  induction n with
  | zero => intro _; exact ⟨⟨none, []⟩, rfl, fun i => by simp [xh, Cells.axis]⟩
  | succ n ih =>
    intro hn
    obtain ⟨c, h1, h2⟩ := ih (by omega)
    have key : ∀ (s : Cells) (g : Grid), s.axis n = some g → g.Wf → setCells c n (s.center n) (s.cellSize n) =
        .ok { c with axes := setAxis c.axes n (some ⟨g.x, g.h, segments g.x g.h⟩) } := by
      intro s g hg hw
      unfold setCells
      rw [(center_some hg).1, (center_some hg).2.1, if_neg (by simpa using hw.1), if_neg (by omega), mkGrid,
        if_neg (by have := List.length_pos_iff.2 hw.2; omega)]
    have upd : ∀ (g : Grid) (i : Nat), xh { c with axes := setAxis c.axes n (some ⟨g.x, g.h, segments g.x g.h⟩) } i =
        if i = n then some (g.x, g.h) else xh c i := by
      intro g i
      unfold xh Cells.axis
      rw [setAxis_getD]
      split <;> rfl
    rw [List.range_succ, loop_append, h1]
    simp only [Res.bind, loop]
    cases hx : a.axis n with
    | some g =>
      rw [if_pos (by rfl), key a g hx (ha n g hx)]
      refine ⟨_, rfl, fun i => ?_⟩
      rw [upd]
      by_cases hi : i = n
      · subst hi
        rw [if_pos rfl, if_pos (by omega)]
        simp [xh, hx]
      · rw [if_neg hi, h2]
        by_cases hi' : i < n
        · rw [if_pos hi', if_pos (by omega)]
        · rw [if_neg hi', if_neg (by omega)]
    | none =>
      rw [if_neg (by simp)]
      cases hy : b.axis n with
      | some g =>
        rw [if_pos (by rfl), key b g hy (hb n g hy)]
        refine ⟨_, rfl, fun i => ?_⟩
        rw [upd]
        by_cases hi : i = n
        · subst hi
          rw [if_pos rfl, if_pos (by omega)]
          simp [xh, hx, hy]
        · rw [if_neg hi, h2]
          by_cases hi' : i < n
          · rw [if_pos hi', if_pos (by omega)]
          · rw [if_neg hi', if_neg (by omega)]
      | none =>
        rw [if_neg (by simp)]
        refine ⟨c, rfl, fun i => ?_⟩
        rw [h2]
        by_cases hi : i = n
        · subst hi
          rw [if_neg (by omega), if_pos (by omega)]
          simp [xh, hx, hy]
        · by_cases hi' : i < n
          · rw [if_pos hi', if_pos (by omega)]
          · rw [if_neg hi', if_neg (by omega)]

/-- The step of `recomputeDomain` is always accepted. -/
theorem recompute_ok (c : Cells) : ∃ d, recomputeDomain c = .ok { c with dom := some d } ∧
    (∀ i, maxAxis ≤ i → d.axis i = none) ∧ ∀ i, i < maxAxis → match c.axis i with
      | none => d.axis i = none
      | some g => g.x.headD 0 - g.h.headD 0 / 2 < g.x.getLastD 0 + g.h.getLastD 0 / 2 →
          d.axis i = some (g.x.headD 0 - g.h.headD 0 / 2, g.x.getLastD 0 + g.h.getLastD 0 / 2) := by
  have : ∀ n ≤ maxAxis, ∃ d, loop (fun i d => match c.axis i with
      | none => .ok d
      | some g => defineAxis d i (g.x.headD 0 - g.h.headD 0 / 2) (g.x.getLastD 0 + g.h.getLastD 0 / 2))
        (List.range n) .empty = .ok d ∧ (∀ i, n ≤ i → d.axis i = none) ∧ ∀ i, i < n → match c.axis i with
      | none => d.axis i = none
      | some g => g.x.headD 0 - g.h.headD 0 / 2 < g.x.getLastD 0 + g.h.getLastD 0 / 2 →
          d.axis i = some (g.x.headD 0 - g.h.headD 0 / 2, g.x.getLastD 0 + g.h.getLastD 0 / 2) := by
    intro n
    induction n with
    | zero => intro _; exact ⟨.empty, rfl, fun _ _ => rfl, fun i hi => by cases hi⟩
    | succ n ih =>
      intro hn
      obtain ⟨d, h1, h2, h3⟩ := ih (by omega)
      rw [List.range_succ, loop_append, h1]
      simp only [Res.bind, loop]
      cases hx : c.axis n with
      | none =>
        refine ⟨d, rfl, fun i hi => h2 i (by omega), fun i hi => ?_⟩
        by_cases he : i = n
        · subst he; rw [hx]; exact h2 i (Nat.le_refl _)
        · exact h3 i (by omega)
      | some g =>
        simp only
        unfold defineAxis
        rw [if_neg (by omega)]
        refine ⟨_, rfl, fun i hi => ?_, fun i hi => ?_⟩
        · simp only; rw [if_neg (by omega)]; exact h2 i (by omega)
        · by_cases he : i = n
          · subst he
            rw [hx]
            intro hlt
            simp only [if_true]
            rw [if_neg (ne_of_lt hlt), if_neg (not_lt.2 (le_of_lt hlt))]
          · have := h3 i (by omega)
            cases hy : c.axis i with
            | none => rw [hy] at this; simp only at this ⊢; rw [if_neg he]; exact this
            | some g' => rw [hy] at this; simp only at this ⊢; rw [if_neg he]; exact this
  obtain ⟨d, h1, h2, h3⟩ := this maxAxis (Nat.le_refl _)
  refine ⟨d, ?_, h2, h3⟩
  exact (congrArg (fun r => Res.bind r fun d => Res.ok ({ c with dom := some d } : Cells)) h1).trans rfl

theorem conflict_iff (a b : Cells) (da db : Dom) (ha : a.Wf) (hb : b.Wf) (hda : a.dom = some da) (hdb : b.dom = some db) :
    (∃ i ∈ List.range (min a.rank b.rank), a.ncells i ≠ 0 ∧ b.ncells i ≠ 0 ∧ (a.ncells i ≠ b.ncells i ∨ da.range i ≠ db.range i)) ↔
    Conflict a b da db := by
  have wa : da.Wf := by obtain ⟨d, h, w, _⟩ := ha; rw [hda] at h; injection h with h; rw [h]; exact w
  have wb : db.Wf := by obtain ⟨d, h, w, _⟩ := hb; rw [hdb] at h; injection h with h; rw [h]; exact w
  constructor
  · rintro ⟨i, _, h1, h2, h3⟩
    obtain ⟨g, hg⟩ := (ncells_ne ha i).1 h1
    obtain ⟨g', hg'⟩ := (ncells_ne hb i).1 h2
    refine ⟨i, g, g', hg, hg', ?_⟩
    rw [(center_some hg).2.2, (center_some hg').2.2] at h3
    exact h3.imp id fun h he => h (by simp [Dom.range, he])
  · rintro ⟨i, g, g', hg, hg', h⟩
    refine ⟨i, List.mem_range.2 ?_, (ncells_ne ha i).2 ⟨g, hg⟩, (ncells_ne hb i).2 ⟨g', hg'⟩, ?_⟩
    · have h1 : i < a.rank := by by_contra hi; rw [axis_rank a i (by omega)] at hg; cases hg
      have h2 : i < b.rank := by by_contra hi; rw [axis_rank b i (by omega)] at hg'; cases hg'
      omega
    · rw [(center_some hg).2.2, (center_some hg').2.2]
      exact h.imp id fun h he => h (range_inj da db wa wb i he)

theorem two_wf : (⟨some (oneAxis 1 0 2), [none, some ⟨[1], [2], []⟩]⟩ : Cells).Wf := by
  refine ⟨oneAxis 1 0 2, rfl, oneAxis_wf 1 0 2 (by decide) (by norm_num), by simp [Cells.rank, maxAxis], fun i => ?_, fun i g' hg' => ?_⟩
  · match i with
    | 0 => rfl
    | 1 => rfl
    | i + 2 => simp [Cells.axis, Dom.isDefined, oneAxis]
  · match i with
    | 0 => simp [Cells.axis] at hg'
    | 1 =>
      simp only [Cells.axis, List.getD_cons_succ, List.getD_cons_zero, Option.some.injEq] at hg'
      rw [← hg']
      exact ⟨rfl, by simp⟩
    | i + 2 => simp [Cells.axis] at hg'

end Verif.CellGrid
