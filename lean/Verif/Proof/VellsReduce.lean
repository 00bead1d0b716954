import Verif.Spec.VellsReduce
import Verif.Proof.Vells
import Mathlib.Algebra.BigOperators.Group.Multiset.Basic
import Mathlib.Data.Multiset.Filter
import Mathlib.Tactic.FieldSimp
/-! # Lemmas: reductions of flagged arrays (C39, C72) -/
namespace Verif.Vells

theorem fold_pos (s : List Nat) : ∀ (idx : Nat → Nat) (p : Nat),
    (List.range s.length).foldl (fun p i => p * ext s i + idx i) p = p * size s + position s idx := by
  induction s with
  | nil => intro idx p; simp [size, position]
  | cons n s ih =>
    intro idx p
    have key : ∀ p, (List.range (n :: s).length).foldl (fun p i => p * ext (n :: s) i + idx i) p =
        (p * n + idx 0) * size s + position s (fun i => idx (i + 1)) := by
      intro p
      rw [List.length_cons, List.range_succ_eq_map, List.foldl_cons, List.foldl_map]
      simp only [ext_cons_zero, Nat.succ_eq_add_one, ext_cons_succ]
      exact ih (fun i => idx (i + 1)) _
    rw [key]
    have : position (n :: s) idx = (0 * n + idx 0) * size s + position s (fun i => idx (i + 1)) := key 0
    rw [this, size_cons]
    ring

theorem position_cons (n : Nat) (s : List Nat) (i : Nat) (idx : Nat → Nat) :
    position (n :: s) (consIdx i idx) = i * size s + position s idx := by
  conv_lhs => unfold position
  rw [List.length_cons, List.range_succ_eq_map, List.foldl_cons, List.foldl_map]
  simp only [ext_cons_zero, Nat.succ_eq_add_one, ext_cons_succ, consIdx]
  rw [fold_pos s idx]
  simp

theorem points_position (s : List Nat) : (points s).map (position s) = List.range (size s) := by
  induction s with
  | nil => rfl
  | cons n s ih =>
    unfold points
    rw [List.map_flatMap, size_cons]
    simp only [List.map_map, Function.comp_def, position_cons]
    have e : ∀ i, (points s).map (fun idx => i * size s + position s idx) = (List.range (size s)).map (i * size s + ·) := by
      intro i
      rw [← ih, List.map_map]
      rfl
    simp only [e]
    induction n with
    | zero => simp
    | succ n ihn =>
      rw [List.range_succ, List.flatMap_append, ihn, Nat.succ_mul, List.range_add]
      simp

theorem points_inside (s : List Nat) : ∀ idx ∈ points s, Inside s idx := by
  induction s with
  | nil =>
    intro idx h i
    simp only [points, List.mem_singleton] at h
    subst h
    rw [ext_nil]
    exact Nat.one_pos
  | cons n s ih =>
    intro idx h i
    unfold points at h
    rw [List.mem_flatMap] at h
    obtain ⟨j, hj, h⟩ := h
    rw [List.mem_map] at h
    obtain ⟨idx', h', rfl⟩ := h
    cases i with
    | zero => exact List.mem_range.1 hj
    | succ i => exact ih idx' h' i

/-- What the loop of a reduction gives. -/
theorem reduceLoop_spec {α β φ} (op : β → α → β) (hit : φ → Bool) (x : Arr α) (f : Arr φ) (m : List Nat)
    (h : (Nat → Nat) → List Int)
    (hx : ∀ idx, Inside m idx → ∃ v, x.at idx = some v ∧ read x.data ((h idx).getD 0 0) = .ok v)
    (hf : ∀ idx, Inside m idx → ∃ v, f.at idx = some v ∧ read f.data ((h idx).getD 1 0) = .ok v) :
    ∀ (l : List (Nat → Nat)) (s : β × Nat), (∀ idx ∈ l, Inside m idx) →
    reduceLoop op hit x.data f.data (l.map h) s =
      .ok ((l.filterMap fun idx => if flaggedAt hit (some f) idx then none else x.at idx).foldl op s.1,
        s.2 + (l.filterMap fun idx => if flaggedAt hit (some f) idx then none else x.at idx).length) := by
  intro l
  induction l with
  | nil => intro s _; rfl
  | cons idx l ih =>
    intro s hl
    have hi := hl idx List.mem_cons_self
    obtain ⟨v, hv1, hv2⟩ := hx idx hi
    obtain ⟨w, hw1, hw2⟩ := hf idx hi
    have hfl : flaggedAt hit (some f) idx = hit w := by simp [flaggedAt, hw1]
    simp only [List.map_cons, reduceLoop]
    rw [hw2]
    simp only [Res.bind]
    split
    · rename_i hh
      rw [ih s fun j hj => hl j (List.mem_cons_of_mem _ hj)]
      simp [hfl, hh]
    · rename_i hh
      rw [hv2]
      simp only
      rw [ih _ fun j hj => hl j (List.mem_cons_of_mem _ hj)]
      simp [hfl, hh, hv1]
      omega

theorem unflagged_none {α φ} (hit : φ → Bool) (x : Arr α) (hx : x.Wf) : unflagged hit x none x.shape = x.data := by
  unfold unflagged flaggedAt
  have e : (points x.shape).filterMap (fun idx => x.at idx) = (List.range (size x.shape)).filterMap (x.data[·]?) := by
    rw [← points_position, List.filterMap_map]
    apply List.filterMap_congr
    intro idx hi
    have hin := points_inside _ _ hi
    rw [at_eq]
    congr 1
    apply pos_congr
    intro i _
    unfold coll
    have := hin i
    split
    · omega
    · rfl
  simp only [Bool.false_eq_true, if_false]
  rw [e, ← hx.2]
  generalize x.data = d
  induction d using List.reverseRecOn with
  | nil => rfl
  | append_singleton d a ih =>
    rw [List.length_append, List.length_singleton, List.range_succ, List.filterMap_append]
    congr 1
    · conv_rhs => rw [← ih]
      apply List.filterMap_congr
      intro i hi
      rw [List.getElem?_append_left (List.mem_range.1 hi)]
    · simp

/-- Every reduction is a fold over the unflagged points of the grid spanned by data and flags. -/
theorem reduce_spec {α β φ} (op : β → α → β) (y0 : β) (hit : φ → Bool) (x : Arr α) (fl : Option (Arr φ)) (shape : List Nat)
    (hg : OnGrid x fl shape) : ∃ m, Positive m ∧ Broadcasts m shape ∧ Broadcasts x.shape m ∧
      (∀ f, fl = some f → Broadcasts f.shape m) ∧
      (fl = none → m = x.shape) ∧ (∀ f, fl = some f → mergeShape x.shape f.shape = some m) ∧
      reduce op y0 hit x fl = .ok ((unflagged hit x fl m).foldl op y0, (unflagged hit x fl m).length) := by
  obtain ⟨hx, hs, hb, hfl⟩ := hg
  cases fl with
  | none =>
    refine ⟨x.shape, hx.1, hb, ⟨Nat.le_refl _, fun i => Or.inr rfl⟩, (fun f hf => by cases hf), fun _ => rfl, (fun f hf => by cases hf), ?_⟩
    rw [unflagged_none hit x hx]
    rfl
  | some f =>
    obtain ⟨hf, hfb⟩ := hfl f rfl
    have hmrg : ∃ m, mergeShape x.shape f.shape = some m := by
      cases hm : mergeShape x.shape f.shape with
      | some m => exact ⟨m, rfl⟩
      | none =>
        obtain ⟨i, hi⟩ := (merge_none _ _).1 hm
        have h1 := (join_eq_none _ _).1 hi
        have h2 := hb.2 i
        have h3 := hfb.2 i
        omega
    obtain ⟨m, hm⟩ := hmrg
    obtain ⟨bx, bf⟩ := merge_bounds hm
    have hp := merge_pos hx.1 hf.1 hm
    obtain ⟨hlen, hjoin⟩ := (merge_some _ _ _).1 hm
    refine ⟨m, hp, ⟨by have := hb.1; have := hfb.1; omega, fun i => ?_⟩, bx, ?_, (fun h => by cases h), ?_, ?_⟩
    · have h1 := join_some (hjoin i)
      have h2 := hb.2 i
      have h3 := hfb.2 i
      omega
    · intro f' hf'; cases hf'; exact bf
    · intro f' hf'; cases hf'; exact hm
    · have e := outShape_pair x.shape f.shape hx.1 hf.1
      rw [hm] at e
      have hrank : outRank [x.shape, f.shape] = m.length := by rw [outRank_pair]; exact hlen.symm
      have hsw := sweep_spec m hp [x.shape, f.shape] (by
        intro s hs
        rcases List.mem_cons.1 hs with rfl | hs
        · exact bx.2
        · rw [List.mem_singleton.1 hs]; exact bf.2)
      unfold reduce computeStrides
      simp only
      rw [e, hrank]
      simp only [Option.map_some]
      rw [hsw]
      simp only
      rw [← points_position, List.map_map]
      rw [reduceLoop_spec op hit x f m _ ?_ ?_ _ _ (points_inside m)]
      · simp [unflagged]
      · intro idx hi
        obtain ⟨v, hv1, hv2⟩ := read_at x hx m bx.1 bx.2 idx hi
        exact ⟨v, hv1, by simpa using hv2⟩
      · intro idx hi
        obtain ⟨v, hv1, hv2⟩ := read_at f hf m bf.1 bf.2 idx hi
        exact ⟨v, hv1, by simpa using hv2⟩

theorem flat_const {γ} (l : List γ) (n : Nat) : (((List.range n).flatMap fun _ => l : List γ) : Multiset γ) = n • (l : Multiset γ) := by
  induction n with
  | zero => simp
  | succ n ih => rw [List.range_succ, List.flatMap_append, ← Multiset.coe_add, ih, succ_nsmul]; simp

theorem flat_smul {γ} (f h : Nat → List γ) (R n : Nat) (hfh : ∀ i, (f i : Multiset γ) = R • (h i : Multiset γ)) :
    (((List.range n).flatMap f : List γ) : Multiset γ) = R • (((List.range n).flatMap h : List γ) : Multiset γ) := by
  induction n with
  | zero => simp
  | succ n ih =>
    rw [List.range_succ, List.flatMap_append, List.flatMap_append, ← Multiset.coe_add, ← Multiset.coe_add, ih, nsmul_add]
    simp [hfh]

/-- How often each point of a small grid occurs in a larger one. -/
def times (m : List Nat) : List Nat → Nat → Nat
  | [], _ => 1
  | n :: shape, i => (if ext m i = 1 then n else 1) * times m shape (i + 1)

theorem times_succ (a : Nat) (m shape : List Nat) : ∀ i, times (a :: m) shape (i + 1) = times m shape i := by
  induction shape with
  | nil => intro i; rfl
  | cons n shape ih => intro i; unfold times; rw [ih]; rfl

theorem times_nil (shape : List Nat) : ∀ i j, times [] shape i = times [] shape j := by
  induction shape with
  | nil => intro i j; rfl
  | cons n shape ih => intro i j; simp only [times, ext_nil, ih (i + 1) (j + 1)]

theorem expand {γ} (shape : List Nat) : ∀ (m : List Nat) (g : (Nat → Nat) → γ), Broadcasts m shape →
    (∀ idx idx', (∀ i, ext m i ≠ 1 → idx i = idx' i) → g idx = g idx') →
    (((points shape).map g : List γ) : Multiset γ) = times m shape 0 • (((points m).map g : List γ) : Multiset γ) ∧
      times m shape 0 * size m = size shape := by
  induction shape with
  | nil =>
    intro m g hb _
    have : m = [] := List.eq_nil_of_length_eq_zero (by have := hb.1; simpa using this)
    subst this
    exact ⟨by simp [times], rfl⟩
  | cons n s ih =>
    intro m g hb hg
    cases m with
    | nil =>
      obtain ⟨h1, h2⟩ := ih [] (g ∘ consIdx 0) ⟨by simp, fun i => Or.inl (ext_nil i)⟩ fun idx idx' _ =>
        hg _ _ fun i hi => absurd (ext_nil i) hi
      have e : ∀ i, (points s).map (g ∘ consIdx i) = (points s).map (g ∘ consIdx 0) := fun i => by
        apply List.map_congr_left
        intro idx _
        exact hg _ _ fun i hi => absurd (ext_nil i) hi
      constructor
      · unfold points times
        rw [List.map_flatMap]
        simp only [List.map_map, e, ext_nil, if_true, times_nil s (0 + 1) 0]
        rw [flat_const, h1, mul_nsmul']
        congr 2
        simp only [points, List.map_cons, List.map_nil]
        congr 2
        exact hg _ _ fun i hi => absurd (ext_nil i) hi
      · simp only [times, ext_nil, if_true, times_nil s (0 + 1) 0, size_cons]
        rw [← h2]
        ring
    | cons a m =>
      have hb' : Broadcasts m s := ⟨by have := hb.1; simpa using this, fun i => hb.2 (i + 1)⟩
      have hgi : ∀ i, ∀ idx idx', (∀ j, ext m j ≠ 1 → idx j = idx' j) → (g ∘ consIdx i) idx = (g ∘ consIdx i) idx' := by
        intro i idx idx' h
        refine hg _ _ fun j hj => ?_
        cases j with
        | zero => rfl
        | succ j => exact h j hj
      have ht : times (a :: m) s (0 + 1) = times m s 0 := times_succ a m s 0
      have h0 := hb.2 0
      simp only [ext_cons_zero] at h0
      by_cases ha : a = 1
      · subst ha
        obtain ⟨h1, h2⟩ := ih m (g ∘ consIdx 0) hb' (hgi 0)
        have e : ∀ i, (points s).map (g ∘ consIdx i) = (points s).map (g ∘ consIdx 0) := fun i => by
          apply List.map_congr_left
          intro idx _
          refine hg _ _ fun j hj => ?_
          cases j with
          | zero => exact absurd rfl hj
          | succ j => rfl
        constructor
        · unfold points times
          rw [List.map_flatMap, List.map_flatMap]
          simp only [List.map_map, e, ext_cons_zero, if_true, ht]
          rw [flat_const, h1, mul_nsmul']
          simp [List.range_one]
        · simp only [times, ext_cons_zero, if_true, ht, size_cons]
          rw [← h2]
          ring
      · have han : a = n := by omega
        subst han
        obtain ⟨_, h2⟩ := ih m (g ∘ consIdx 0) hb' (hgi 0)
        have htm : times (a :: m) (a :: s) 0 = times m s 0 := by
          conv_lhs => unfold times
          rw [if_neg (show ¬ ext (a :: m) 0 = 1 from ha), ht, Nat.one_mul]
        rw [htm]
        constructor
        · unfold points
          rw [List.map_flatMap, List.map_flatMap]
          simp only [List.map_map]
          exact flat_smul _ _ _ _ fun i => (ih m (g ∘ consIdx i) hb' (hgi i)).1
        · simp only [size_cons]
          rw [← h2]
          ring

theorem filterMap_smul {γ δ} (f : γ → Option δ) (R : Nat) (s : Multiset γ) : (R • s).filterMap f = R • s.filterMap f := by
  induction R with
  | zero => simp
  | succ R ih => rw [succ_nsmul, Multiset.filterMap_add, ih, succ_nsmul]

theorem at_congr {α} (a : Arr α) (idx idx' : Nat → Nat) (h : ∀ i, ext a.shape i ≠ 1 → idx i = idx' i) : a.at idx = a.at idx' := by
  rw [at_eq, at_eq]
  congr 1
  apply pos_congr
  intro i _
  unfold coll
  split
  · rfl
  · exact h i ‹_›

/-- The unflagged elements on a larger grid are those on the smaller one, each a fixed number of times. -/
theorem unflagged_expand {α φ} (hit : φ → Bool) (x : Arr α) (fl : Option (Arr φ)) (m shape : List Nat) (hb : Broadcasts m shape)
    (hx : Broadcasts x.shape m) (hf : ∀ f, fl = some f → Broadcasts f.shape m) :
    (unflagged hit x fl shape : Multiset α) = times m shape 0 • (unflagged hit x fl m : Multiset α) ∧
      times m shape 0 * size m = size shape := by
  have hc : ∀ s : List Nat, Broadcasts s m → ∀ idx idx' : Nat → Nat, (∀ i, ext m i ≠ 1 → idx i = idx' i) →
      ∀ i, ext s i ≠ 1 → idx i = idx' i := by
    intro s hs idx idx' h i hi
    apply h
    have := hs.2 i
    omega
  obtain ⟨h1, h2⟩ := expand shape m (fun idx => if flaggedAt hit fl idx then none else x.at idx) hb (by
    intro idx idx' h
    have e1 : x.at idx = x.at idx' := at_congr x idx idx' (hc _ hx idx idx' h)
    have e2 : flaggedAt hit fl idx = flaggedAt hit fl idx' := by
      unfold flaggedAt
      cases fl with
      | none => rfl
      | some f => simp only; rw [at_congr f idx idx' (hc _ (hf f rfl) idx idx' h)]
    simp only [e1, e2])
  refine ⟨?_, h2⟩
  have h3 := congrArg (Multiset.filterMap id) h1
  rw [filterMap_smul, Multiset.filterMap_coe, Multiset.filterMap_coe] at h3
  simp only [List.filterMap_map, Function.comp_def, id] at h3
  exact h3

theorem size_size_pos {s : List Nat} (h : Positive s) : size s ≠ 0 := by have := size_pos h; omega

theorem foldl_add_eq {α} [AddCommMonoid α] (l : List α) : l.foldl (· + ·) 0 = (l : Multiset α).sum := by
  rw [Multiset.sum_coe, List.sum_eq_foldl]

theorem foldl_mul_eq {α} [CommMonoid α] (l : List α) : l.foldl (· * ·) 1 = (l : Multiset α).prod := by
  rw [Multiset.prod_coe, List.prod_eq_foldl]

theorem times_div {α φ} (x : Arr α) (fl : Option (Arr φ)) (shape : List Nat) (hg : OnGrid x fl shape) :
    size shape / x.data.length = times x.shape shape 0 := by
  obtain ⟨_, h⟩ := expand shape x.shape (fun _ => ()) hg.2.2.1 fun _ _ _ => rfl
  have := size_pos hg.1.1
  rw [hg.1.2, ← h, Nat.mul_div_cancel _ this]

theorem foldl_max_spec (l : List ℚ) : ∀ y0 : ℚ, (l.foldl (fun y x => max x y) y0 = y0 ∨ l.foldl (fun y x => max x y) y0 ∈ l) ∧
    y0 ≤ l.foldl (fun y x => max x y) y0 ∧ ∀ u ∈ l, u ≤ l.foldl (fun y x => max x y) y0 := by
  induction l with
  | nil => intro y0; exact ⟨Or.inl rfl, le_refl _, fun u hu => by cases hu⟩
  | cons a l ih =>
    intro y0
    obtain ⟨h1, h2, h3⟩ := ih (max a y0)
    simp only [List.foldl_cons]
    refine ⟨?_, le_trans (le_max_right _ _) h2, fun u hu => ?_⟩
    · rcases h1 with h1 | h1
      · rcases max_choice a y0 with h | h
        · right; rw [h1, h]; exact List.mem_cons_self
        · left; rw [h1, h]
      · right; exact List.mem_cons_of_mem _ h1
    · rcases List.mem_cons.1 hu with rfl | hu
      · exact le_trans (le_max_left _ _) h2
      · exact h3 u hu

theorem foldl_min_spec (l : List ℚ) : ∀ y0 : ℚ, (l.foldl (fun y x => min x y) y0 = y0 ∨ l.foldl (fun y x => min x y) y0 ∈ l) ∧
    l.foldl (fun y x => min x y) y0 ≤ y0 ∧ ∀ u ∈ l, l.foldl (fun y x => min x y) y0 ≤ u := by
  induction l with
  | nil => intro y0; exact ⟨Or.inl rfl, le_refl _, fun u hu => by cases hu⟩
  | cons a l ih =>
    intro y0
    obtain ⟨h1, h2, h3⟩ := ih (min a y0)
    simp only [List.foldl_cons]
    refine ⟨?_, le_trans h2 (min_le_right _ _), fun u hu => ?_⟩
    · rcases h1 with h1 | h1
      · rcases min_choice a y0 with h | h
        · right; rw [h1, h]; exact List.mem_cons_self
        · left; rw [h1, h]
      · right; exact List.mem_cons_of_mem _ h1
    · rcases List.mem_cons.1 hu with rfl | hu
      · exact le_trans h2 (min_le_left _ _)
      · exact h3 u hu

theorem mem_expand {α φ} (hit : φ → Bool) (x : Arr α) (fl : Option (Arr φ)) (m shape : List Nat) (hs : Positive shape)
    (hb : Broadcasts m shape) (hx : Broadcasts x.shape m) (hf : ∀ f, fl = some f → Broadcasts f.shape m) (u : α) :
    u ∈ unflagged hit x fl shape ↔ u ∈ unflagged hit x fl m := by
  obtain ⟨h1, h2⟩ := unflagged_expand hit x fl m shape hb hx hf
  have ht : times m shape 0 ≠ 0 := by
    intro h0
    rw [h0, Nat.zero_mul] at h2
    exact size_size_pos hs h2.symm
  have h3 : u ∈ (unflagged hit x fl shape : Multiset α) ↔ u ∈ times m shape 0 • (unflagged hit x fl m : Multiset α) := by rw [h1]
  rw [Multiset.mem_nsmul, Multiset.mem_coe, Multiset.mem_coe] at h3
  exact h3.trans ⟨fun h => h.2, fun h => ⟨ht, h⟩⟩

end Verif.Vells
