import Verif.Proof.Resample
import Mathlib.Tactic.NormNum
/-!
# Integration of values to coarser cells: C211, C212
-/
namespace Verif.Resample

/-- **C211**, as one would expect it: when values are integrated to other cells of the same domain, each new value is the mean of the old ones, weighted
with the parts of the old cells that lie in the new cell. -/
def C211_full : Prop :=
  ∀ (dx dy : ℚ × ℚ) (ix iy ox oy : List (ℚ × ℚ)) (b : List (List ℚ)) (B : Nat → Nat → ℚ),
    Fills dx ix → Fills dy iy → Fills dx ox → Fills dy oy → Holds b ix.length iy.length B →
    ∃ a, integrate ix iy ⟨dx, ox⟩ ⟨dy, oy⟩ b = .ok a ∧ Means ix iy ox oy B a

/-- **C211** (partial): it is so if the numbers of old and new cells differ, an axis with one old cell has one new cell, and the values are not constant.
Missing: the other cases, in which it is false. -/
theorem C211_partial (dx dy : ℚ × ℚ) (ix iy ox oy : List (ℚ × ℚ)) (b : List (List ℚ)) (B : Nat → Nat → ℚ)
    (hix : Fills dx ix) (hiy : Fills dy iy) (hox : Fills dx ox) (hoy : Fills dy oy) (h : Holds b ix.length iy.length B)
    (hne : ¬ (ox.length = ix.length ∧ oy.length = iy.length)) (hx : ix.length = 1 → ox.length = 1) (hy : iy.length = 1 → oy.length = 1)
    (hc : b.length ≠ 1 ∨ ∀ r ∈ b, r.length ≠ 1) : ∃ a, integrate ix iy ⟨dx, ox⟩ ⟨dy, oy⟩ b = .ok a ∧ Means ix iy ox oy B a := by
  have h1 := hix.ivs.pos
  have h2 := hiy.ivs.pos
  refine integrate_ok hix hiy hox hoy hne ?_ ?_ h hc
  · by_cases e : ix.length = 1
    · exact Or.inr ⟨e, hx e⟩
    · exact Or.inl (by omega)
  · by_cases e : iy.length = 1
    · exact Or.inr ⟨e, hy e⟩
    · exact Or.inl (by omega)

/-- Four cells of size 1. -/
def four : List (ℚ × ℚ) := [(1 / 2, 1), (3 / 2, 1), (5 / 2, 1), (7 / 2, 1)]
/-- Two cells of size 2. -/
def two : List (ℚ × ℚ) := [(1, 2), (3, 2)]
/-- A cell of size 1 and one of size 3. -/
def uneven : List (ℚ × ℚ) := [(1 / 2, 1), (5 / 2, 3)]
/-- One cell of size 1. -/
def one : List (ℚ × ℚ) := [(1 / 2, 1)]
/-- Two cells of size 1. -/
def pair : List (ℚ × ℚ) := [(1 / 2, 1), (3 / 2, 1)]

/-- Without gaps, cell by cell. -/
def chain : ℚ × ℚ → List (ℚ × ℚ) → ℚ → Bool
  | c, [], e => decide (0 < c.2 ∧ hi c = e)
  | c, c' :: r, e => decide (0 < c.2 ∧ hi c = lo c') && chain c' r e

theorem fills_chain (d c : ℚ × ℚ) (r : List (ℚ × ℚ)) (h0 : lo c = d.1) (h : chain c r d.2 = true) : Fills d (c :: r) := by
  suffices hs : ∀ (r : List (ℚ × ℚ)) (c : ℚ × ℚ), chain c r d.2 = true → (∀ x ∈ c :: r, 0 < x.2) ∧
      (∀ (i : Nat) x x', (c :: r)[i]? = some x → (c :: r)[i + 1]? = some x' → hi x = lo x') ∧ ∃ x, (c :: r).getLast? = some x ∧ hi x = d.2 from
    ⟨(hs r c h).1, (hs r c h).2.1, ⟨c, rfl, h0⟩, (hs r c h).2.2⟩
  intro r
  induction r with
  | nil =>
    intro c hc
    simp only [chain, decide_eq_true_eq] at hc
    exact ⟨by simpa using hc.1, by simp, c, rfl, hc.2⟩
  | cons c' r ih =>
    intro c hc
    simp only [chain, Bool.and_eq_true, decide_eq_true_eq] at hc
    obtain ⟨h1, h2, h3⟩ := ih c' hc.2
    refine ⟨?_, ?_, ?_⟩
    · intro x hx
      rcases List.mem_cons.mp hx with rfl | hx
      · exact hc.1.1
      · exact h1 x hx
    · intro i x x' hx hx'
      cases i with
      | zero =>
        simp at hx hx'
        subst hx hx'
        exact hc.1.2
      | succ i => exact h2 i x x' hx hx'
    · obtain ⟨x, hx, e⟩ := h3
      exact ⟨x, by rw [List.getLast?_cons_cons]; exact hx, e⟩

theorem four_fills : Fills (0, 4) four := fills_chain _ _ _ (by decide +kernel) (by decide +kernel)
theorem two_fills : Fills (0, 4) two := fills_chain _ _ _ (by decide +kernel) (by decide +kernel)
theorem uneven_fills : Fills (0, 4) uneven := fills_chain _ _ _ (by decide +kernel) (by decide +kernel)
theorem one_fills : Fills (0, 1) one := fills_chain _ _ _ (by decide +kernel) (by decide +kernel)
theorem pair_fills : Fills (0, 2) pair := fills_chain _ _ _ (by decide +kernel) (by decide +kernel)

/-- Values 1, 2, 3, 6 of four cells. -/
def sample : Nat → Nat → ℚ := fun i _ => if i = 3 then 6 else i + 1

theorem sample_holds : Holds [[1], [2], [3], [6]] 4 1 sample := by
  refine ⟨Or.inl rfl, ⟨1, Or.inl rfl, by simp⟩, ?_⟩
  intro i j hi' hj
  have : j = 0 := by omega
  subst this
  have : i = 0 ∨ i = 1 ∨ i = 2 ∨ i = 3 := by omega
  rcases this with rfl | rfl | rfl | rfl <;> simp [sample] <;> norm_num

/-- Non-vacuity of `C211_partial`, and its value: cells of sizes 1 and 3 get 1 and (2+3+6)/3. -/
example : ∃ a, integrate four one ⟨(0, 4), uneven⟩ ⟨(0, 1), one⟩ [[1], [2], [3], [6]] = .ok a ∧ Means four one uneven one sample a :=
  C211_partial _ _ _ _ _ _ _ _ four_fills one_fills uneven_fills one_fills sample_holds (by decide) (by decide) (by decide) (Or.inl (by decide))

example : integrate four one ⟨(0, 4), uneven⟩ ⟨(0, 1), one⟩ [[1], [2], [3], [6]] = .ok [[1], [11 / 3]] := by decide +kernel

theorem const_holds (v : ℚ) (n m : Nat) : Holds [[v]] n m (fun _ _ => v) :=
  ⟨Or.inr rfl, ⟨1, Or.inr rfl, by simp⟩, fun i j _ _ => ⟨[v], by simp, by simp⟩⟩

/-- **C211 is false of constants**: the constant 5 over four cells, integrated to two cells, is 10. -/
theorem C211_refuted : ¬ C211_full := by
  intro h
  obtain ⟨a, h1, h2⟩ := h (0, 4) (0, 1) four one two one [[5]] (fun _ _ => 5) four_fills one_fills two_fills one_fills (const_holds 5 4 1)
  have e : integrate four one ⟨(0, 4), two⟩ ⟨(0, 1), one⟩ [[5]] = .ok [[10], [10]] := by decide +kernel
  rw [e] at h1
  cases h1
  obtain ⟨v, ⟨r, hr, hv⟩, h3, h4⟩ := h2.2 0 0 (1, 2) (1 / 2, 1) rfl rfl
  simp at hr
  subst hr
  simp at hv
  subst hv
  have e2 : total four.length one.length (fun k l => part four k (1, 2) * part one l (1 / 2, 1) * 5) =
      total four.length one.length (fun k l => part four k (1, 2) * part one l (1 / 2, 1)) * 5 := by
    simp only [total, Finset.sum_mul]
  rw [e2] at h4
  linarith

/-- **C211 is false if the numbers of cells are the same**: values 1 and 4 of two cells of size 2 are taken as they are for cells of sizes 1 and 3. -/
theorem C211_counts : ∃ (b : List (List ℚ)) (B : Nat → Nat → ℚ), Holds b two.length one.length B ∧
    ∃ a, integrate two one ⟨(0, 4), uneven⟩ ⟨(0, 1), one⟩ b = .ok a ∧ ¬ Means two one uneven one B a := by
  refine ⟨[[1], [4]], fun i _ => if i = 0 then 1 else 4, ⟨Or.inl rfl, ⟨1, Or.inl rfl, by simp⟩, ?_⟩, [[1], [4]], by decide +kernel, ?_⟩
  · intro i j hi' hj
    have hi' : i < 2 := hi'
    have hj : j < 1 := hj
    have : j = 0 := by omega
    subst this
    have : i = 0 ∨ i = 1 := by omega
    rcases this with rfl | rfl <;> simp
  · rintro ⟨_, h2⟩
    obtain ⟨v, ⟨r, hr, hv⟩, h3, h4⟩ := h2 1 0 (5 / 2, 3) (1 / 2, 1) rfl rfl
    simp at hr
    subst hr
    simp at hv
    subst hv
    revert h4
    decide +kernel

/-- **C211**: with one old cell and more than one new cell on the first axis, elements beyond the end of the array are read, whatever the cells and values. -/
theorem C211_split (c d : ℚ × ℚ) (iy ox : List (ℚ × ℚ)) (oy : Axis) (b : List (List ℚ)) (h : 2 ≤ ox.length) :
    integrate [c] iy ⟨d, ox⟩ oy b = .ub := by
  unfold integrate
  rw [if_neg (by simp; omega)]
  simp [graph_split h]

example : integrate one one ⟨(0, 1), [(1 / 4, 1 / 2), (3 / 4, 1 / 2)]⟩ ⟨(0, 1), one⟩ [[3]] = .ub := C211_split _ _ _ _ _ _ (by decide)

/-- **C212**, as one would expect it: of flagged values, only those that are not flagged count for the mean, and a new value is flagged if, of the old
cells that overlap with it, more than the given part are flagged. -/
def C212_full : Prop :=
  ∀ (p : Policy) (dx dy : ℚ × ℚ) (ix iy ox oy : List (ℚ × ℚ)) (b : List (List ℚ)) (B : Nat → Nat → ℚ) (f : List (List Nat)) (F : Nat → Nat → Nat),
    Fills dx ix → Fills dy iy → Fills dx ox → Fills dy oy → Holds b ix.length iy.length B → HasFlags f ix.length iy.length F →
    ¬ (ox.length = ix.length ∧ oy.length = iy.length) → 2 ≤ ix.length → 2 ≤ iy.length → b.length ≠ 1 → (∀ r ∈ b, r.length ≠ 1) → 0 ≤ p.density →
    ∃ a, integrateF p ix iy ⟨dx, ox⟩ ⟨dy, oy⟩ b f = .ok a ∧ FlaggedMeans p ix iy ox oy (fun o q k l => 0 < part ix k o ∧ 0 < part iy l q) B F a

/-- **C212** (partial): it is so, except that old cells which end where the new cell starts are counted as well. Missing: that only cells that overlap
are counted, which is false; values with one row or column. -/
theorem C212_partial (p : Policy) (dx dy : ℚ × ℚ) (ix iy ox oy : List (ℚ × ℚ)) (b : List (List ℚ)) (B : Nat → Nat → ℚ) (f : List (List Nat))
    (F : Nat → Nat → Nat) (hix : Fills dx ix) (hiy : Fills dy iy) (hox : Fills dx ox) (hoy : Fills dy oy) (h : Holds b ix.length iy.length B)
    (hf : HasFlags f ix.length iy.length F) (hne : ¬ (ox.length = ix.length ∧ oy.length = iy.length)) (hx : 2 ≤ ix.length) (hy : 2 ≤ iy.length)
    (hb : b.length ≠ 1) (hc : ∀ r ∈ b, r.length ≠ 1) (hd : 0 ≤ p.density) :
    ∃ a, integrateF p ix iy ⟨dx, ox⟩ ⟨dy, oy⟩ b f = .ok a ∧ FlaggedMeans p ix iy ox oy (fun o q k l => Meets ix k o ∧ Meets iy l q) B F a :=
  integrateF_ok p hix hiy hox hoy hne hx hy h hb hc hf hd

/-- Values of four times two cells. -/
def table : List (List ℚ) := [[1, 1], [2, 2], [3, 3], [6, 6]]
theorem table_holds : Holds table 4 2 sample := by
  refine ⟨Or.inl rfl, ⟨2, Or.inl rfl, by decide⟩, ?_⟩
  intro i j hi' hj
  have hj : j = 0 ∨ j = 1 := by omega
  have : i = 0 ∨ i = 1 ∨ i = 2 ∨ i = 3 := by omega
  rcases this with rfl | rfl | rfl | rfl <;> rcases hj with rfl | rfl <;> simp [sample, table] <;> norm_num

/-- The second and third cells are flagged. -/
def marks : List (List Nat) := [[0, 0], [1, 1], [1, 1], [0, 0]]
def marked : Nat → Nat → Nat := fun i _ => if i = 1 ∨ i = 2 then 1 else 0
theorem marks_has : HasFlags marks 4 2 marked := by
  intro i j hi' hj
  have hj : j = 0 ∨ j = 1 := by omega
  have : i = 0 ∨ i = 1 ∨ i = 2 ∨ i = 3 := by omega
  rcases this with rfl | rfl | rfl | rfl <;> rcases hj with rfl | rfl <;> simp [At, marks, marked]

/-- Non-vacuity of `C212_partial`. -/
example : ∃ a, integrateF ⟨1, 0, 1 / 2⟩ four pair ⟨(0, 4), two⟩ ⟨(0, 2), pair⟩ table marks = .ok a ∧
    FlaggedMeans ⟨1, 0, 1 / 2⟩ four pair two pair (fun o q k l => Meets four k o ∧ Meets pair l q) sample marked a :=
  C212_partial _ _ _ _ _ _ _ _ _ _ _ four_fills pair_fills two_fills pair_fills table_holds marks_has (by decide) (by decide) (by decide) (by decide)
    (by decide) (by norm_num)

theorem marks_out : integrateF ⟨1, 0, 1 / 2⟩ four pair ⟨(0, 4), two⟩ ⟨(0, 2), pair⟩ table marks = .ok [[(1, 0), (1, 0)], [(6, 1), (6, 1)]] := by
  decide +kernel

/-- **C212 is false**: of the two old cells in the second new one half are flagged, which is not more than half; but the one before it is flagged, and is
counted. -/
theorem C212_refuted : ¬ C212_full := by
  intro h
  obtain ⟨a, h1, h2⟩ := h ⟨1, 0, 1 / 2⟩ _ _ four pair two pair table sample marks marked four_fills pair_fills two_fills pair_fills table_holds marks_has
    (by decide) (by decide) (by decide) (by decide) (by decide) (by norm_num)
  rw [marks_out] at h1
  cases h1
  obtain ⟨v, g, ⟨r, hr, hv⟩, _, _, h3, _⟩ := h2.2 1 0 (3, 2) (1 / 2, 1) rfl rfl
  simp at hr
  subst hr
  simp at hv
  obtain ⟨rfl, rfl⟩ := hv
  have := h3 (by
    have e0 : part four 0 (3, 2) = 0 := by decide +kernel
    have e1 : part four 1 (3, 2) = 0 := by decide +kernel
    have e2 : part four 2 (3, 2) = 1 := by decide +kernel
    have e3 : part four 3 (3, 2) = 1 := by decide +kernel
    have p0 : part pair 0 (1 / 2, 1) = 1 := by decide +kernel
    have p1 : part pair 1 (1 / 2, 1) = 0 := by decide +kernel
    have l4 : four.length = 4 := rfl
    have l2 : pair.length = 2 := rfl
    simp only [count, total, l4, l2, Finset.sum_range_succ, Finset.sum_range_zero, e0, e1, e2, e3, p0, p1, marked]
    norm_num)
  cases this

/-- **C212**: with one column, flags are not considered: the value is the mean of all, and no flags come out, though all old values are flagged. -/
theorem C212_single : integrateF ⟨1, 0, 1 / 2⟩ four one ⟨(0, 4), two⟩ ⟨(0, 1), one⟩ [[1], [2], [3], [6]] [[1], [1], [1], [1]] =
    .ok [[(3 / 2, 0)], [(9 / 2, 0)]] := by
  decide +kernel

end Verif.Resample
