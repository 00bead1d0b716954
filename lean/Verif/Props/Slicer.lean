import Verif.Proof.Slicer
/-! # Slicing arrays (C40) -/
namespace Verif.Slicer

open Verif.Vells

/-! ### The loop -/

/-! ### Steps -/

/-! ### Positions are linear -/

/-! ### Zipped axes -/

/-! ### Setting up -/

/-! ## C40 -/

/-- Iterating a slicer presents, for each combination of indices along the axes that are not sliced, in row-major order,
the offset of the slice at these indices; with the slicer's strides, the element `j` of the slice is the element of the
array with indices `j` along the sliced axes. -/
theorem C40_slices (shape axs : List Nat) (hp : Positive shape) (hnd : axs.Nodup) (hr : axs.length ≤ shape.length)
    (hax : ∀ a ∈ axs, a < maxAxis) : ∃ strides, slices shape axs =
      .ok ((points (collapsed shape axs)).map (fun p => (position shape p : Int)), axs.map (ext shape), strides) ∧
    strides.length = axs.length ∧
    ∀ base ∈ points (collapsed shape axs), ∀ j : Nat → Nat, (∀ k, k < axs.length → j k < ext shape (axs.getD k 0)) →
      (position shape base : Int) + strided strides j = position shape (within axs base j) := by
  obtain ⟨s, hs, i1, i2, i3, i4, i5, i6⟩ := init_loop shape axs [] ⟨shape, List.replicate shape.length false, [], []⟩ (by simpa using hnd) hax
    ⟨Nat.le_refl _, by
      apply shape_ext (by simp)
      intro i
      by_cases h : i < shape.length
      · exact (ext_mk _ _ _ h).symm ▸ by simp
      · rw [ext_of_le _ _ (by simp only; omega), ext_of_le _ _ (by simp; omega)],
      by intro i h1 h2; simp only at h1; omega, by simp, rfl, rfl⟩
  simp only [List.nil_append] at i2 i3 i4 i5 i6
  have hinit : init shape axs = .ok s := by
    unfold init
    rw [if_neg (by omega), hs]
  refine ⟨s.strides, ?_, by rw [i6]; simp, ?_⟩
  · set r := s.ns.length with hrdef
    have hcol : collapsed shape axs = s.ns ++ List.replicate (shape.length - r) 1 := by
      apply shape_ext (by simp [collapsed]; omega)
      intro i
      rw [ext_append_ones]
      by_cases h : i < shape.length
      · have e1 : ext (collapsed shape axs) i = if i ∈ axs then 1 else ext shape i := ext_mk _ _ _ h
        rw [e1]
        by_cases h2 : i < r
        · rw [i2]
          exact (ext_mk r (fun i => if i ∈ axs then 1 else ext shape i) i h2).symm
        · rw [ext_of_le s.ns i (by omega), if_pos (i3 i (by omega) h)]
      · rw [ext_of_le _ _ (by simp [collapsed]; omega), ext_of_le s.ns i (by omega)]
    have hns : ∀ i, i < r → ext s.ns i = if i ∈ axs then 1 else ext shape i := by
      intro i h
      rw [i2]
      exact ext_mk _ _ _ h
    have hnsp : Positive s.ns := by
      intro n hn
      rw [i2, List.mem_map] at hn
      obtain ⟨i, _, rfl⟩ := hn
      split
      · exact Nat.one_pos
      · exact ext_pos hp i
    have hss : (s.sliced.take r).reverse.map (!·) = ((List.range r).map fun i => !decide (i ∈ axs)).reverse := by
      rw [i4, ← List.map_take, List.take_range, Nat.min_eq_left (by omega), List.map_reverse, List.map_map]
      rfl
    have hrun := run_start s.ns hnsp
      [(step (vstrides (axes r shape) (size (shape.drop r))) (s.sliced.take r).reverse true,
        fun k => (size (shape.drop r) : Int) * offG (marked shape (fun i => !decide (i ∈ axs)) r) (unlin s.ns.reverse k))] (by
      intro p hp' k hk
      rw [List.mem_singleton] at hp'
      subst hp'
      have hnsr : Positive s.ns.reverse := by intro n hn; exact hnsp n (List.mem_reverse.1 hn)
      obtain ⟨h1, h2⟩ := incr_next s.ns.reverse hnsr k (by rw [size_reverse]; exact hk)
      simp only
      rw [step_eq _ _ _ _ _ (by rw [i4]; simp [axes]; omega), hss, zip_marked,
        str_incr _ s.ns.reverse (unlin s.ns.reverse k) _ true ?_ (valid_unlin _ hnsr k) h2, h1]
      · simp only [if_true]; ring
      · rw [← axes_self]
        apply fits_marked
        intro i hi hb
        rw [hns i hi, if_neg (by simpa using hb)]) [0] (by
      have h0 : ∀ l : List (Nat × Bool), offG l (unlin s.ns.reverse 0) = 0 := by
        intro l
        rw [unlin_zero]
        generalize s.ns.reverse = o
        induction l generalizing o with
        | nil => cases o <;> rfl
        | cons p l ih => cases o with
          | nil => rfl
          | cons n o => simp only [List.map_cons, offG, ih]; simp
      simp [h0])
    unfold slices
    rw [hinit]
    simp only [Res.bind]
    rw [vs_eq shape r i1]
    simp only [List.map_cons, List.map_nil] at hrun
    rw [hrun]
    simp only [List.map_map]
    rw [i5, hcol, points_ones]
    congr 2
    apply List.map_congr_left
    intro p hpp
    have hin := points_inside s.ns p hpp
    simp only [Function.comp_def, List.getD_cons_zero]
    have e1 : unlin s.ns.reverse (position s.ns p) = ctr r p := by
      rw [← axes_self]
      exact unlin_lin s.ns p hin _
    rw [e1, off_marked]
    have hz : ∀ i, r ≤ i → p i = 0 := by
      intro i hi
      have := hin i
      rw [ext_of_le s.ns i (by omega)] at this
      omega
    have e2 : pos r shape (fun i => if (!decide (i ∈ axs)) = true then p i else 0) = pos r shape p := by
      apply pos_congr
      intro i hi
      by_cases h : i ∈ axs
      · have := hin i
        rw [hns i hi, if_pos h] at this
        simp [h]
        omega
      · simp [h]
    rw [e2]
    have e3 := pos_drop shape p r (shape.length - r) (by omega) hz
    rw [Nat.add_sub_cancel' i1, List.take_of_length_le (by simp)] at e3
    unfold position
    unfold pos at e3 ⊢
    rw [e3]
    push_cast
    rfl
  · intro base hbase j hj
    have hin := points_inside _ _ hbase
    have e0 : ∀ idx, position shape idx = ∑ i ∈ Finset.range shape.length, weight shape shape.length i * idx i :=
      fun idx => pos_linear shape idx shape.length
    have hb0 : ∀ i, i < shape.length → i ∈ axs → base i = 0 := by
      intro i h1 h2
      have := hin i
      have e1 : ext (collapsed shape axs) i = if i ∈ axs then 1 else ext shape i := ext_mk _ _ _ h1
      rw [e1, if_pos h2] at this
      omega
    rw [e0, e0]
    push_cast
    have e4 : ∀ i ∈ Finset.range shape.length, (weight shape shape.length i : Int) * (within axs base j i : Int) =
        weight shape shape.length i * (base i : Int) +
          weight shape shape.length i * ((if i ∈ axs then j (axs.idxOf i) else 0 : Nat) : Int) := by
      intro i hi
      rw [Finset.mem_range] at hi
      unfold within
      by_cases h : i ∈ axs
      · rw [if_pos h, if_pos h, hb0 i hi h]; simp
      · rw [if_neg h, if_neg h]; simp
    rw [Finset.sum_congr rfl e4, Finset.sum_add_distrib]
    congr 1
    rw [sum_within axs hnd shape.length (fun i => (weight shape shape.length i : Int)) j (by
      intro k hk h
      have := hj k hk
      rw [ext_of_le shape _ h] at this
      omega)]
    unfold strided
    rw [i6, List.length_map]
    congr 1
    apply List.map_congr_left
    intro k hk
    rw [List.mem_range] at hk
    congr 1
    rw [List.getD_eq_getElem?_getD, List.getElem?_map, List.getElem?_eq_getElem hk, List.getD_eq_getElem?_getD,
      List.getElem?_eq_getElem hk]
    simp only [Option.map_some, Option.getD_some]
    by_cases h : axs[k] < shape.length
    · rw [if_pos h, if_pos h]
      unfold vstride
      have := vstrides_weight shape shape.length 1 axs[k] h
      rw [axes_self] at this
      rw [this]
      ring
    · rw [if_neg h, if_neg h]

/-- Every point of the array is in exactly one slice. -/
theorem C40_cover (shape axs : List Nat) (idx : Nat → Nat) (hin : Inside shape idx) :
    ∃! base, base ∈ points (collapsed shape axs) ∧
      ∃ j : Nat → Nat, (∀ k, k < axs.length → j k < ext shape (axs.getD k 0)) ∧ within axs base j = idx := by
  refine ⟨fun i => if i ∈ axs then 0 else idx i, ⟨?_, fun k => idx (axs.getD k 0), fun k _ => hin _, ?_⟩, ?_⟩
  · apply points_complete
    intro i
    by_cases h1 : i < shape.length
    · have e1 : ext (collapsed shape axs) i = if i ∈ axs then 1 else ext shape i := ext_mk _ _ _ h1
      rw [e1]
      by_cases h : i ∈ axs
      · simp [h]
      · simp only [if_neg h]; exact hin i
    · rw [ext_of_le _ _ (by simp [collapsed]; omega)]
      have := hin i
      rw [ext_of_le _ _ (by omega)] at this
      simp only
      split
      · omega
      · exact this
  · funext i
    unfold within
    by_cases h : i ∈ axs
    · rw [if_pos h]
      have := List.idxOf_lt_length_iff.2 h
      simp [List.getD_eq_getElem?_getD, List.getElem?_eq_getElem this]
    · simp [h]
  · rintro base ⟨hb, j, _, hw⟩
    funext i
    by_cases h : i ∈ axs
    · rw [if_pos h]
      exact collapsed_zero shape axs base hb i (Or.inl h)
    · rw [if_neg h, ← hw]
      unfold within
      rw [if_neg h]

example : slices [2, 3, 4] [1] = .ok ([0, 1, 2, 3, 12, 13, 14, 15], [3], [4]) := by decide +kernel
example : slices [2, 3, 4] [2, 0] = .ok ([0, 4, 8], [4, 2], [1, 12]) := by decide +kernel

/-! ### With flags -/

/-- A slicer with flags walks data and flags together over the grid they share: at each combination of indices along the
axes that are not sliced it points to the matching slice of the data and of the flags.  It never reports the "slice is out of
range" failure. -/
theorem C40_flags (v : List Nat) (fl : Option (List Nat)) (m axs : List Nat) (hv : Positive v) (hf : Positive (fl.getD []))
    (hm : mergeShape v (fl.getD []) = some m) (hnd : axs.Nodup) (hr : axs.length ≤ m.length) (hax : ∀ a ∈ axs, a < maxAxis) :
    ∃ s, fslices v fl axs = .ok ((points (collapsed m axs)).map (fun p =>
        [(position v (onto v p) : Int), (position (fl.getD []) (onto (fl.getD []) p) : Int)]), s) ∧
      s.shape = axs.map (ext v) ∧ s.fshape = axs.map (ext (fl.getD [])) ∧
      ∀ base ∈ points (collapsed m axs), ∀ j : Nat → Nat,
        ((∀ k, k < axs.length → j k < ext v (axs.getD k 0)) →
          (position v (onto v base) : Int) + strided s.strides j = position v (onto v (within axs base j))) ∧
        ((∀ k, k < axs.length → j k < ext (fl.getD []) (axs.getD k 0)) →
          (position (fl.getD []) (onto (fl.getD []) base) : Int) + strided s.fstrides j =
            position (fl.getD []) (onto (fl.getD []) (within axs base j))) := by
  unfold fslices finit
  simp only
  generalize fl.getD [] = f at *
  have hms := (merge_some v f m).1 hm
  obtain ⟨hml, hme⟩ := hms
  have hmp := merge_pos hv hf hm
  have hbb := merge_bounds hm
  set r := max v.length f.length with hrdef
  have hmax : ∀ i, ext m i = max (ext v i) (ext f i) := by
    intro i
    have h1 := join_some (hme i)
    have := ext_pos hv i
    have := ext_pos hf i
    omega
  have hlen : m.length = r := by omega
  rw [if_neg (by omega)]
  obtain ⟨s, hs, i1, i2, i3, i4, i5, i6, i7⟩ := finit_loop r v f hv hf axs []
    ⟨(List.range r).map fun i => max (ext v i) (ext f i), (List.range r).map fun i => decide (1 < ext v i),
      (List.range r).map fun i => decide (1 < ext f i), [], [], [], []⟩ hax ⟨by simp, by simp, by simp, rfl, rfl, rfl, rfl⟩
  rw [hs]
  simp only [List.nil_append] at i1 i2 i3 i4 i5 i6 i7
  simp only [Res.bind]
  have hns : s.ns = collapsed m axs := by
    rw [i1]
    unfold collapsed
    rw [hlen]
    apply List.map_congr_left
    intro i _
    rw [hmax]
  obtain ⟨o1, a1, a2, a3⟩ := fpart r v m axs s.ns s.iter hv (by omega) hlen hbb.1.2 hmp hnd hns i2
  obtain ⟨o2, b1, b2, b3⟩ := fpart r f m axs s.ns s.fiter hf (by omega) hlen hbb.2.2 hmp hnd hns i3
  have hnsp : Positive s.ns := by
    intro n hn
    rw [hns, collapsed, List.mem_map] at hn
    obtain ⟨i, _, rfl⟩ := hn
    split
    · exact Nat.one_pos
    · exact ext_pos hmp i
  have hrun := run_start s.ns hnsp [(_, o1), (_, o2)] (by
    intro p hp
    simp only [List.mem_cons, List.not_mem_nil, or_false] at hp
    rcases hp with rfl | rfl
    · exact a1
    · exact b1) [0, 0] (by simp [a2, b2])
  simp only [List.map_cons, List.map_nil] at hrun
  rw [hrun]
  simp only
  rw [if_neg ?_]
  · refine ⟨s, ?_, i4, i5, ?_⟩
    · rw [hns] at a3 b3 ⊢
      congr 2
      apply List.map_congr_left
      intro p hp
      rw [(a3 p hp).1, (b3 p hp).1]
    · intro base hbase j
      rw [i6, i7]
      exact ⟨fstrided r v m axs (by omega) hlen hnd base hbase j, fstrided r f m axs (by omega) hlen hnd base hbase j⟩
  · simp only [Bool.not_eq_true, List.any_eq_false, List.mem_map]
    rintro ps ⟨p, hp, rfl⟩
    have h1 := (a3 p hp).2
    have h2 := (b3 p hp).2
    rw [← i4] at h1
    rw [← i5] at h2
    simp only [List.getD_cons_zero, List.getD_cons_succ, Bool.or_eq_false_iff, Bool.and_eq_false_imp, decide_eq_false_iff_not]
    exact ⟨by omega, fun _ => by omega⟩

example : fslices [2, 3] (some [1, 3, 2]) [1] =
    .ok ([[0, 0], [0, 1], [3, 0], [3, 1]], ⟨[2, 1, 2], [true, false, false], [false, false, true], [3], [3], [1], [2]⟩) := by
  decide +kernel

/-- Naming the same axis twice writes outside the slicer's tables. -/
theorem C40_duplicate : slices [2, 3] [1, 1] = .ub := by decide +kernel

end Verif.Slicer
