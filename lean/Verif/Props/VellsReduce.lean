import Verif.Proof.VellsReduce
/-! # Reductions of flagged arrays (C39, C72) -/
namespace Verif.Vells

/-! ### Expansion -/

/-! ## C39 -/

/-- The full statement: all four reductions are those over the unflagged points of the expanded array. -/
def C39_full : Prop := ∀ (φ : Type) (hit : φ → Bool) (x : Arr ℚ) (fl : Option (Arr φ)) (shape : List Nat), OnGrid x fl shape →
  vsum hit x fl shape = .ok (unflagged hit x fl shape).sum ∧
  vproduct hit x fl shape = .ok (unflagged hit x fl shape).prod ∧
  vnelements hit x fl shape = .ok (unflagged hit x fl shape).length ∧
  vmean hit x fl = .ok ((unflagged hit x fl shape).sum / ((unflagged hit x fl shape).length : ℚ))

/-- A scalar with flags along an axis: 1 at two unflagged points sums to 4. -/
theorem C39_refuted : ¬ C39_full := by
  intro h
  obtain ⟨h1, _⟩ := h Bool id ⟨[1], [1]⟩ (some ⟨[2], [false, false]⟩) [2]
    ⟨⟨by intro n hn; simp at hn; omega, rfl⟩, by intro n hn; simp at hn; omega,
      ⟨by simp, fun i => by cases i with | zero => exact Or.inl rfl | succ i => exact Or.inl (ext_nil i)⟩,
      fun f hf => by cases hf; exact ⟨⟨by intro n hn; simp at hn; omega, rfl⟩, ⟨Nat.le_refl _, fun i => Or.inr rfl⟩⟩⟩
  have e1 : vsum id (⟨[1], [1]⟩ : Arr ℚ) (some (⟨[2], [false, false]⟩ : Arr Bool)) [2] = .ok 4 := by decide +kernel
  have e2 : (unflagged id (⟨[1], [1]⟩ : Arr ℚ) (some (⟨[2], [false, false]⟩ : Arr Bool)) [2]).sum = 2 := by decide +kernel
  rw [e1, e2] at h1
  injection h1 with h1
  exact absurd h1 (by decide +kernel)

/-- The number of elements is the number of unflagged points. -/
theorem C39_nelements_partial {α φ} (hit : φ → Bool) (x : Arr α) (fl : Option (Arr φ)) (shape : List Nat) (hg : OnGrid x fl shape) :
    vnelements hit x fl shape = .ok (unflagged hit x fl shape).length := by
  cases fl with
  | none =>
    unfold vnelements
    simp only
    obtain ⟨h1, h2⟩ := unflagged_expand hit x none x.shape shape hg.2.2.1 ⟨Nat.le_refl _, fun i => Or.inr rfl⟩ (fun f hf => by cases hf)
    have h3 := congrArg Multiset.card h1
    rw [Multiset.card_nsmul, Multiset.coe_card, Multiset.coe_card, unflagged_none hit x hg.1, hg.1.2] at h3
    rw [h3, ← h2]
  | some f =>
    obtain ⟨m, hp, hb, bx, bf, _, hm, hr⟩ := reduce_spec (fun (_ : Unit) (_ : α) => ()) () hit x (some f) shape hg
    unfold vnelements
    simp only
    rw [hr]
    simp only [Res.bind]
    obtain ⟨h1, _⟩ := unflagged_expand hit x (some f) m shape hb bx bf
    have h3 := congrArg Multiset.card h1
    rw [Multiset.card_nsmul, Multiset.coe_card, Multiset.coe_card] at h3
    rw [h3]
    congr 1
    have hj := ((merge_some _ _ _).1 (hm f rfl)).2
    have key : ∀ (s : List Nat) (i nel : Nat), (∀ n ∈ s, 0 < n) → renormCount x.shape f.shape s i nel = times m s i • nel := by
      intro s
      induction s with
      | nil => intro i nel _; simp [renormCount, times]
      | cons n s ih =>
        intro i nel hs
        unfold renormCount times
        rw [ih _ _ fun k hk => hs k (List.mem_cons_of_mem _ hk)]
        have hn := hs n List.mem_cons_self
        have hji := join_some (hj i)
        have hmi : ext m i = 1 ↔ ext x.shape i = 1 ∧ ext f.shape i = 1 := by
          constructor
          · intro h; omega
          · rintro ⟨h1, h2⟩; omega
        simp only [smul_eq_mul]
        by_cases h1 : ext m i = 1
        · rw [if_pos h1]
          by_cases h2 : 1 < n
          · rw [if_pos ⟨h2, hmi.1 h1⟩]; ring
          · rw [if_neg (fun h => h2 h.1), show n = 1 by omega]; ring
        · rw [if_neg h1, if_neg (fun h => h1 (hmi.2 h.2))]; ring
    exact key shape 0 _ hg.2.1

/-- The mean is that of the unflagged points, 0 if there are none. -/
theorem C39_mean_partial {α φ} [Field α] [CharZero α] (hit : φ → Bool) (x : Arr α) (fl : Option (Arr φ)) (shape : List Nat)
    (hg : OnGrid x fl shape) :
    vmean hit x fl = .ok ((unflagged hit x fl shape).sum / ((unflagged hit x fl shape).length : α)) := by
  obtain ⟨m, hp, hb, bx, bf, _, hm, hr⟩ := reduce_spec (· + ·) (0 : α) hit x fl shape hg
  unfold vmean
  rw [hr]
  simp only [Res.bind]
  obtain ⟨h1, h2⟩ := unflagged_expand hit x fl m shape hb bx bf
  have h3 := congrArg Multiset.card h1
  rw [Multiset.card_nsmul, Multiset.coe_card, Multiset.coe_card] at h3
  have h4 := congrArg Multiset.sum h1
  rw [Multiset.sum_nsmul, Multiset.sum_coe] at h4
  have ht : (times m shape 0 : α) ≠ 0 := by
    have : times m shape 0 ≠ 0 := by
      intro h0
      rw [h0, Nat.zero_mul] at h2
      exact size_size_pos hg.2.1 h2.symm
    exact_mod_cast this
  congr 1
  rw [h3, h4, foldl_add_eq]
  split
  · push_cast
    rw [nsmul_eq_mul, mul_div_mul_left _ _ ht]
  · rename_i h0
    have h0 : (unflagged hit x fl m).length = 0 := by simpa using h0
    rw [h0]
    simp

/-- If the flags vary only along axes along which the data vary too, the sum is that over the unflagged points.  Missing:
flags varying along other axes, for which the sum counts points several times. -/
theorem C39_sum_partial {α φ} [CommSemiring α] (hit : φ → Bool) (x : Arr α) (fl : Option (Arr φ)) (shape : List Nat)
    (hg : OnGrid x fl shape) (hf : ∀ f, fl = some f → Broadcasts f.shape x.shape) :
    vsum hit x fl shape = .ok (unflagged hit x fl shape).sum := by
  obtain ⟨m, hp, hb, bx, bf, hn, hm, hr⟩ := reduce_spec (· + ·) (0 : α) hit x fl shape hg
  have hmx : m = x.shape := by
    cases fl with
    | none => exact hn rfl
    | some f =>
      have h1 := hm f rfl
      rw [merge_of_broadcasts (hf f rfl)] at h1
      exact (Option.some.inj h1).symm
  unfold vsum
  rw [hr, times_div x fl shape hg]
  simp only [Res.bind]
  obtain ⟨h1, _⟩ := unflagged_expand hit x fl m shape hb bx bf
  have h4 := congrArg Multiset.sum h1
  rw [Multiset.sum_nsmul, Multiset.sum_coe] at h4
  rw [h4, foldl_add_eq, hmx, nsmul_eq_mul, mul_comm]

/-- The same for the product. -/
theorem C39_product_partial {α φ} [CommSemiring α] (hit : φ → Bool) (x : Arr α) (fl : Option (Arr φ)) (shape : List Nat)
    (hg : OnGrid x fl shape) (hf : ∀ f, fl = some f → Broadcasts f.shape x.shape) :
    vproduct hit x fl shape = .ok (unflagged hit x fl shape).prod := by
  obtain ⟨m, hp, hb, bx, bf, hn, hm, hr⟩ := reduce_spec (· * ·) (1 : α) hit x fl shape hg
  have hmx : m = x.shape := by
    cases fl with
    | none => exact hn rfl
    | some f =>
      have h1 := hm f rfl
      rw [merge_of_broadcasts (hf f rfl)] at h1
      exact (Option.some.inj h1).symm
  unfold vproduct
  rw [hr, times_div x fl shape hg]
  simp only [Res.bind]
  obtain ⟨h1, _⟩ := unflagged_expand hit x fl m shape hb bx bf
  have h4 := congrArg Multiset.prod h1
  rw [Multiset.prod_nsmul, Multiset.prod_coe] at h4
  rw [h4, foldl_mul_eq, hmx]

example : OnGrid (⟨[2], [3, 4]⟩ : Arr ℚ) (some (⟨[2], [true, false]⟩ : Arr Bool)) [2, 3] :=
  ⟨⟨by intro n hn; simp at hn; omega, rfl⟩, by intro n hn; simp at hn; omega,
    ⟨by simp, fun i => by match i with | 0 => exact Or.inr rfl | i + 1 => exact Or.inl (ext_nil i)⟩,
    fun f hf => by
      cases hf
      exact ⟨⟨by intro n hn; simp at hn; omega, rfl⟩, ⟨by simp, fun i => by match i with | 0 => exact Or.inr rfl | i + 1 => exact Or.inl (ext_nil i)⟩⟩⟩
example : vsum id (⟨[2], [3, 4]⟩ : Arr ℚ) (some (⟨[2], [true, false]⟩ : Arr Bool)) [2, 3] = .ok 12 ∧
    vnelements id (⟨[2], [3, 4]⟩ : Arr ℚ) (some (⟨[1, 3], [true, false, false]⟩ : Arr Bool)) [2, 3] = .ok 4 := by decide +kernel

/-! ## C72 -/

/-- The maximum is the largest unflagged element. -/
def C72_max_full : Prop := ∀ (φ : Type) (hit : φ → Bool) (x : Arr ℚ) (fl : Option (Arr φ)) (shape : List Nat), OnGrid x fl shape →
  unflagged hit x fl shape ≠ [] → ∃ v, vmax hit x fl = .ok v ∧ v ∈ unflagged hit x fl shape ∧ ∀ u ∈ unflagged hit x fl shape, u ≤ v

/-- The maximum of an array of negative numbers is a tiny positive number. -/
theorem C72_refuted : ¬ C72_max_full := by
  intro h
  obtain ⟨v, h1, h2, _⟩ := h Bool id ⟨[1], [-1]⟩ none [1]
    ⟨⟨by intro n hn; simp at hn; omega, rfl⟩, by intro n hn; simp at hn; omega, ⟨Nat.le_refl _, fun i => Or.inr rfl⟩,
      fun f hf => by cases hf⟩ (by decide +kernel)
  have e1 : unflagged (φ := Bool) id (⟨[1], [-1]⟩ : Arr ℚ) none [1] = [-1] := by decide +kernel
  rw [e1, List.mem_singleton] at h2
  subst h2
  have e2 : vmax (φ := Bool) id (⟨[1], [-1]⟩ : Arr ℚ) none = .ok dblMin := by decide +kernel
  rw [e2] at h1
  injection h1 with h1
  exact absurd h1 (by decide +kernel)

/-- If some unflagged element is at least the smallest positive number the maximum is right.  Missing: arrays whose
unflagged elements are all zero or negative. -/
theorem C72_max_partial {φ} (hit : φ → Bool) (x : Arr ℚ) (fl : Option (Arr φ)) (shape : List Nat) (hg : OnGrid x fl shape)
    (h : ∃ u ∈ unflagged hit x fl shape, dblMin ≤ u) :
    ∃ v, vmax hit x fl = .ok v ∧ v ∈ unflagged hit x fl shape ∧ ∀ u ∈ unflagged hit x fl shape, u ≤ v := by
  obtain ⟨m, hp, hb, bx, bf, _, _, hr⟩ := reduce_spec (fun y x => max x y) dblMin hit x fl shape hg
  have hmem := mem_expand hit x fl m shape hg.2.1 hb bx bf
  obtain ⟨h1, h2, h3⟩ := foldl_max_spec (unflagged hit x fl m) dblMin
  refine ⟨_, by unfold vmax; rw [hr]; rfl, ?_, fun u hu => h3 u ((hmem u).1 hu)⟩
  rw [hmem]
  obtain ⟨u, hu, hle⟩ := h
  rcases h1 with h1 | h1
  · have := h3 u ((hmem u).1 hu)
    rw [h1] at this
    have e : u = dblMin := le_antisymm this hle
    rw [h1, ← e]
    exact (hmem u).1 hu
  · exact h1

/-- The minimum is right if there is an unflagged element and all are within range. -/
theorem C72_min_partial {φ} (hit : φ → Bool) (x : Arr ℚ) (fl : Option (Arr φ)) (shape : List Nat) (hg : OnGrid x fl shape)
    (hne : unflagged hit x fl shape ≠ []) (hle : ∀ u ∈ unflagged hit x fl shape, u ≤ dblMax) :
    ∃ v, vmin hit x fl = .ok v ∧ v ∈ unflagged hit x fl shape ∧ ∀ u ∈ unflagged hit x fl shape, v ≤ u := by
  obtain ⟨m, hp, hb, bx, bf, _, _, hr⟩ := reduce_spec (fun y x => min x y) dblMax hit x fl shape hg
  have hmem := mem_expand hit x fl m shape hg.2.1 hb bx bf
  obtain ⟨h1, h2, h3⟩ := foldl_min_spec (unflagged hit x fl m) dblMax
  refine ⟨_, by unfold vmin; rw [hr]; rfl, ?_, fun u hu => h3 u ((hmem u).1 hu)⟩
  rw [hmem]
  obtain ⟨u, hu⟩ := List.exists_mem_of_ne_nil _ hne
  rcases h1 with h1 | h1
  · have := h3 u ((hmem u).1 hu)
    rw [h1] at this
    have e : u = dblMax := le_antisymm (hle u hu) this
    rw [h1, ← e]
    exact (hmem u).1 hu
  · exact h1

example : vmax id (⟨[3], [-1, 5, 2]⟩ : Arr ℚ) (some (⟨[3], [false, true, false]⟩ : Arr Bool)) = .ok 2 ∧
    vmin id (⟨[3], [-1, 5, 2]⟩ : Arr ℚ) (some (⟨[3], [true, false, false]⟩ : Arr Bool)) = .ok 2 := by decide +kernel

end Verif.Vells
