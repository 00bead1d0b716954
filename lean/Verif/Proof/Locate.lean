import Verif.Spec.Locate
import Verif.Proof.VellsReduce

/-!
# Lemmas on splitting, grids and locations
-/
namespace Verif.Locate

open Verif.Vells Verif.CellGrid

theorem join_cons {α} (c : α) (p : List α) {ps : List (List α)} (h : ps ≠ []) :
    join c (p :: ps) = p ++ c :: join c ps := by
  cases ps with
  | nil => exact absurd rfl h
  | cons q qs => rfl

theorem splitLoop_eq {α} [DecidableEq α] (s : List α) (c : α) : ∀ (n i : Nat) (v : List (List α)), s.length - i = n → i ≤ s.length →
    ∃ ps, splitLoop s c i v = v ++ ps ∧ ps ≠ [] ∧ join c ps = s.drop i ∧ ∀ p ∈ ps, c ∉ p := by
  intro n
  induction n using Nat.strongRecOn with
  | ind n ih =>
    intro i v hn hi
    unfold splitLoop
    split
    · rename_i h
      refine ⟨[s.drop i], rfl, by simp, rfl, ?_⟩
      intro p hp
      rw [List.mem_singleton] at hp
      subst hp
      unfold find at h
      rw [Option.map_eq_none_iff, List.findIdx?_eq_none_iff] at h
      intro hc
      have := h c hc
      simp at this
    · rename_i j h
      have hb := find_bound h
      obtain ⟨ps, h1, h2, h3, h4⟩ := ih (s.length - (j + 1)) (by omega) (j + 1) (v ++ [(s.drop i).take (j - i)]) rfl (by omega)
      unfold find at h
      rw [Option.map_eq_some_iff] at h
      obtain ⟨k, hk, rfl⟩ := h
      obtain ⟨hl, hc, hlt⟩ := List.findIdx?_eq_some_iff_getElem.1 hk
      rw [Nat.add_sub_cancel] at *
      refine ⟨(s.drop i).take k :: ps, by rw [h1]; simp, by simp, ?_, ?_⟩
      · rw [join_cons c _ h2, h3]
        have e : c :: s.drop (k + i + 1) = (s.drop i).drop k := by
          rw [List.drop_eq_getElem_cons hl, List.drop_drop, of_decide_eq_true hc, show i + (k + 1) = k + i + 1 by omega]
        rw [e, List.take_append_drop]
      · intro p hp
        rcases List.mem_cons.1 hp with rfl | hp
        · intro hm
          obtain ⟨m, hm1, hm2⟩ := List.getElem_of_mem hm
          rw [List.length_take] at hm1
          have := hlt m (by omega)
          rw [List.getElem_take] at hm2
          exact this (decide_eq_true hm2)
        · exact h4 p hp

theorem append_inj' {α} (c : α) : ∀ (p q x y : List α), c ∉ p → c ∉ q → p ++ c :: x = q ++ c :: y → p = q ∧ x = y
  | [], [], _, _, _, _, h => ⟨rfl, by simpa using h⟩
  | [], b :: q, _, _, _, hq, h => by
    simp only [List.nil_append, List.cons_append, List.cons.injEq] at h
    exact absurd (by simp [h.1]) hq
  | a :: p, [], _, _, hp, _, h => by
    simp only [List.nil_append, List.cons_append, List.cons.injEq] at h
    exact absurd (by simp [h.1]) hp
  | a :: p, b :: q, x, y, hp, hq, h => by
    simp only [List.cons_append, List.cons.injEq] at h
    obtain ⟨e1, e2⟩ := append_inj' c p q x y (fun hh => hp (by simp [hh])) (fun hh => hq (by simp [hh])) h.2
    exact ⟨by rw [h.1, e1], e2⟩

theorem join_inj {α} (c : α) : ∀ (ps qs : List (List α)), ps ≠ [] → qs ≠ [] → (∀ p ∈ ps, c ∉ p) → (∀ q ∈ qs, c ∉ q) →
    join c ps = join c qs → ps = qs
  | [], _, h, _, _, _, _ => absurd rfl h
  | _, [], _, h, _, _, _ => absurd rfl h
  | [p], [q], _, _, _, _, h => by simpa [join] using h
  | [p], q :: q' :: qs, _, _, hp, _, h => by
    exfalso
    apply hp p (by simp)
    have : p = q ++ c :: join c (q' :: qs) := h
    rw [this]
    simp
  | p :: p' :: ps, [q], _, _, _, hq, h => by
    exfalso
    apply hq q (by simp)
    have : p ++ c :: join c (p' :: ps) = q := h
    rw [← this]
    simp
  | p :: p' :: ps, q :: q' :: qs, _, _, hp, hq, h => by
    obtain ⟨e1, e2⟩ := append_inj' c p q _ _ (hp p (by simp)) (hq q (by simp))
      (show p ++ c :: join c (p' :: ps) = q ++ c :: join c (q' :: qs) from h)
    have := join_inj c (p' :: ps) (q' :: qs) (by simp) (by simp) (fun x hx => hp x (by simp [List.mem_cons.1 hx]))
      (fun x hx => hq x (by simp [List.mem_cons.1 hx])) e2
    rw [e1, this]

/-! ### Grids -/

theorem ext_line (r ax n i : Nat) (h : ax < r) : ext ((List.replicate r 1).set ax n) i = if i = ax then n else 1 := by
  unfold ext
  rw [List.getD_eq_getElem?_getD, List.getElem?_set]
  by_cases e : ax = i
  · subst e
    simp [h]
  · rw [if_neg e, if_neg (fun e' => e e'.symm), List.getElem?_replicate]
    split <;> rfl

theorem line_fold (ax : Nat) (e idx : Nat → Nat) (he : ∀ i, i ≠ ax → e i = 1 ∧ idx i = 0) : ∀ r,
    (List.range r).foldl (fun p i => p * e i + idx i) 0 = if ax < r then idx ax else 0 := by
  intro r
  induction r with
  | zero => rfl
  | succ r ih =>
    rw [List.range_succ, List.foldl_append, ih, List.foldl_cons, List.foldl_nil]
    by_cases h : r = ax
    · subst h
      rw [if_neg (by omega), if_pos (by omega)]
      simp
    · obtain ⟨e1, e2⟩ := he r h
      rw [e1, e2]
      by_cases h' : ax < r
      · rw [if_pos h', if_pos (by omega)]; simp
      · rw [if_neg h', if_neg (by omega)]

/-! ### Locations -/

theorem counters_points (s : List Nat) : (counters s).map (fun v i => v.getD i 0) = points s := by
  induction s with
  | nil => simp [counters, points]
  | cons n s ih =>
    unfold counters points
    rw [List.map_flatMap]
    congr 1
    funext i
    rw [← ih, List.map_map, List.map_map]
    apply List.map_congr_left
    intro v _
    funext k
    cases k <;> rfl

theorem counters_len (s : List Nat) : (counters s).length = size s := by
  have h1 := congrArg List.length (counters_points s)
  have h2 := congrArg List.length (points_position s)
  rw [List.length_map] at h1 h2
  rw [h1, h2, List.length_range]

/-- Points that are inside are in the list. -/
theorem points_all : ∀ (s : List Nat) (idx : Nat → Nat), Inside s idx → idx ∈ points s := by
  intro s
  induction s with
  | nil =>
    intro idx h
    simp only [points, List.mem_singleton]
    funext i
    have := h i
    rw [ext_nil] at this
    omega
  | cons n s ih =>
    intro idx h
    unfold points
    rw [List.mem_flatMap]
    refine ⟨idx 0, List.mem_range.2 (h 0), List.mem_map.2 ⟨fun i => idx (i + 1), ih _ (fun i => h (i + 1)), ?_⟩⟩
    funext k
    cases k <;> rfl

theorem at_inside (a : Arr ℚ) (idx : Nat → Nat) (h : Inside a.shape idx) : a.at idx = a.data[position a.shape idx]? := by
  unfold Arr.at
  congr 2
  funext i
  have := h i
  split <;> omega

/-- The pairs that are looked at are the points with their values. -/
theorem pairs_at (a : Arr ℚ) (ha : a.Wf) :
    (∀ x ∈ (counters a.shape).zip a.data, Inside a.shape (fun i => x.1.getD i 0) ∧ a.at (fun i => x.1.getD i 0) = some x.2) ∧
    (∀ idx m, Inside a.shape idx → a.at idx = some m → ∃ x ∈ (counters a.shape).zip a.data, x.2 = m) := by
  have hpos : ∀ p (h : p < (counters a.shape).length),
      position a.shape (fun i => ((counters a.shape)[p]).getD i 0) = p := by
    intro p h
    have e := points_position a.shape
    rw [← counters_points, List.map_map] at e
    have := congrArg (·[p]?) e
    simp only [List.getElem?_map, List.getElem?_eq_getElem h, Option.map_some, Function.comp_apply] at this
    rw [List.getElem?_range (by rw [← counters_len]; exact h)] at this
    exact Option.some.inj this
  constructor
  · intro x hx
    obtain ⟨p, hp, rfl⟩ := List.getElem_of_mem hx
    rw [List.length_zip] at hp
    rw [List.getElem_zip]
    have hin : Inside a.shape (fun i => ((counters a.shape)[p]'(by omega)).getD i 0) := by
      apply points_inside
      rw [← counters_points]
      exact List.mem_map.2 ⟨_, List.getElem_mem _, rfl⟩
    refine ⟨hin, ?_⟩
    rw [at_inside a _ hin, hpos p (by omega), List.getElem?_eq_getElem (by omega)]
  · intro idx m hin hm
    rw [at_inside a _ hin] at hm
    obtain ⟨hlt, hm⟩ := List.getElem?_eq_some_iff.1 hm
    refine ⟨((counters a.shape).zip a.data)[position a.shape idx]'(by rw [List.length_zip, counters_len, ← ha.2]; omega),
      List.getElem_mem _, ?_⟩
    rw [List.getElem_zip]
    exact hm

theorem bestIndex_spec (better : ℚ → ℚ → Bool) (hir : ∀ x, better x x = false)
    (htr : ∀ x y z, better x y = true → better y z = true → better x z = true)
    (hneg : ∀ x y z, better x y = false → better y z = false → better x z = false) :
    ∀ (l : List (List Nat × ℚ)) (b : Option (List Nat × ℚ)) r, bestIndex better b l = some r →
      (r ∈ l ∨ b = some r) ∧ (∀ x ∈ l, better x.2 r.2 = false) ∧ (∀ x, b = some x → better x.2 r.2 = false) := by
  intro l
  induction l with
  | nil =>
    intro b r h
    unfold bestIndex at h
    subst h
    exact ⟨.inr rfl, by simp, fun x hx => by cases hx; exact hir _⟩
  | cons y l ih =>
    intro b r h
    cases b with
    | none =>
      unfold bestIndex at h
      obtain ⟨h1, h2, h3⟩ := ih _ r h
      refine ⟨.inl ?_, ?_, fun x hx => (by cases hx)⟩
      · rcases h1 with h1 | h1
        · exact List.mem_cons_of_mem _ h1
        · cases h1; exact List.mem_cons_self
      · intro x hx
        rcases List.mem_cons.1 hx with rfl | hx
        · exact h3 _ rfl
        · exact h2 x hx
    | some b =>
      unfold bestIndex at h
      obtain ⟨h1, h2, h3⟩ := ih _ r h
      by_cases hb : better y.2 b.2 = true
      · rw [if_pos hb] at h1 h3
        have hy := h3 y rfl
        refine ⟨.inl ?_, ?_, ?_⟩
        · rcases h1 with h1 | h1
          · exact List.mem_cons_of_mem _ h1
          · cases h1; exact List.mem_cons_self
        · intro x hx
          rcases List.mem_cons.1 hx with rfl | hx
          · exact hy
          · exact h2 x hx
        · intro x hx
          cases hx
          by_contra hc
          rw [Bool.not_eq_false] at hc
          rw [htr _ _ _ hb hc] at hy
          cases hy
      · rw [if_neg hb] at h1 h3
        have hy := h3 b rfl
        refine ⟨?_, ?_, ?_⟩
        · rcases h1 with h1 | h1
          · exact .inl (List.mem_cons_of_mem _ h1)
          · exact .inr h1
        · intro x hx
          rcases List.mem_cons.1 hx with rfl | hx
          · exact hneg _ _ _ (by simpa using hb) hy
          · exact h2 x hx
        · intro x hx
          cases hx
          exact hy

theorem bestIndex_some (better : ℚ → ℚ → Bool) : ∀ (l : List (List Nat × ℚ)) (b : Option (List Nat × ℚ)),
    (l ≠ [] ∨ b ≠ none) → ∃ r, bestIndex better b l = some r := by
  intro l
  induction l with
  | nil =>
    intro b h
    cases b with
    | none => simp at h
    | some b => exact ⟨b, rfl⟩
  | cons y l ih =>
    intro b _
    cases b with
    | none => unfold bestIndex; exact ih _ (.inr (by simp))
    | some b =>
      unfold bestIndex
      apply ih
      right
      split <;> simp

theorem ext_shape (c : Cells) (i : Nat) (g : CellGrid.Grid) (hg : c.axis i = some g) : ext c.shape i = g.x.length := by
  unfold Cells.shape ext
  unfold Cells.axis at hg
  rw [List.getD_eq_getElem?_getD] at hg ⊢
  rw [List.getElem?_map]
  cases he : c.axes[i]? with
  | none => rw [he] at hg; cases hg
  | some o =>
    rw [he] at hg
    simp only [Option.getD_some] at hg
    subst hg
    rfl

theorem place_ok (c : Cells) (dim : Nat) (v : List Nat) : ∀ (is : List Nat),
    (∀ i ∈ is, i < dim → (c.center i).length > 0 → v.getD i 0 < (c.center i).length) →
    place c dim v is = .ok (is.map fun i => if i < dim ∧ (c.center i).length > 0 then (c.center i)[v.getD i 0]? else none) := by
  intro is
  induction is with
  | nil => intro _; rfl
  | cons i is ih =>
    intro h
    unfold place
    rw [ih (fun j hj => h j (by simp [hj]))]
    dsimp only
    rw [List.map_cons]
    by_cases hc : i < dim ∧ (c.center i).length > 0
    · have hlt := h i (by simp) hc.1 hc.2
      rw [if_pos hc, if_pos hc, List.getElem?_eq_getElem hlt]
    · rw [if_neg hc, if_neg hc]

theorem locate_spec (better : ℚ → ℚ → Bool) (hir : ∀ x, better x x = false)
    (htr : ∀ x y z, better x y = true → better y z = true → better x z = true)
    (hneg : ∀ x y z, better x y = false → better y z = false → better x z = false)
    (c : Cells) (a : Arr ℚ) (ha : a.Wf) (hb : Broadcasts a.shape c.shape) (h0 : 0 < a.shape.length) (h4 : a.shape.length ≤ 4) :
    Located (fun x y => better x y = true) c a (locate better c a) a.shape.length := by
  obtain ⟨p1, p2⟩ := pairs_at a ha
  have hne : (counters a.shape).zip a.data ≠ [] := by
    intro e
    have := congrArg List.length e
    rw [List.length_zip, counters_len, ha.2, List.length_nil, Nat.min_self] at this
    have hs : ∀ s : List Nat, Positive s → 0 < size s := by
      intro s
      induction s with
      | nil => intro _; decide
      | cons n s ih =>
        intro hp
        rw [size_cons]
        exact Nat.mul_pos (hp n (by simp)) (ih (fun m hm => hp m (by simp [hm])))
    have := hs _ ha.1
    omega
  obtain ⟨b, hbst⟩ := bestIndex_some better _ none (.inl hne)
  obtain ⟨h1, h2, _⟩ := bestIndex_spec better hir htr hneg _ _ _ hbst
  have hmem : b ∈ (counters a.shape).zip a.data := by
    rcases h1 with h | h
    · exact h
    · cases h
  obtain ⟨hin, hat⟩ := p1 b hmem
  have hcen : ∀ i, (c.center i).length > 0 → b.1.getD i 0 < (c.center i).length := by
    intro i hl
    have hlt := hin i
    have : ext c.shape i = (c.center i).length := by
      unfold Cells.center at hl ⊢
      cases he : c.axis i with
      | none => rw [he] at hl; simp at hl
      | some g => rw [ext_shape c i g he]
    rcases hb.2 i with e | e
    · rw [e] at hlt; simp only at hlt; omega
    · rw [e, this] at hlt; exact hlt
  unfold locate
  rw [if_neg (by omega), hbst]
  dsimp only
  rw [place_ok c _ _ _ (fun i _ _ hl => hcen i hl)]
  refine ⟨_, _, rfl, by simp, hin, ⟨b.2, hat, ?_⟩, ?_⟩
  · intro idx' m' hi' hm' hbt
    obtain ⟨x, hx, hxe⟩ := p2 idx' m' hi' hm'
    have := h2 x hx
    rw [hxe, hbt] at this
    cases this
  · intro i hi g hg hne'
    have hx : c.center i = g.x := by unfold Cells.center; rw [hg]
    have hl : 0 < (c.center i).length := by rw [hx]; exact List.length_pos_of_ne_nil hne'
    have hlt := hcen i hl
    have hr : i < c.rank := by
      have := hb.1
      unfold Cells.shape at this
      rw [List.length_map] at this
      unfold Cells.rank
      omega
    refine ⟨(c.center i)[b.1.getD i 0], by rw [← hx]; exact List.getElem?_eq_getElem hlt, ?_⟩
    rw [List.getElem?_map, List.getElem?_range hr]
    simp only [Option.map_some]
    rw [if_pos ⟨hi, hl⟩, List.getElem?_eq_getElem hlt]

end Verif.Locate
