import Verif.Proof.Polc
/-!
# Properties of polynomials

C46 (numbering and update of solvable coefficients), C47 (change of offset and scale), C80 (value and perturbed values), C81 (solve
domain), C82 (change of the number of coefficients), C83 (making a polynomial solvable).
-/
namespace Verif.Polc

open Finset

/-! ## C46 -/

/-- C46: a mask with an entry for each coefficient numbers the selected coefficients; another mask is rejected. -/
theorem C46_numbering (p : Poly) (spid0 : Int) (mask : List Bool) :
    (mask.length = p.coeff.length → ∃ q, makeSolvableMask p spid0 mask = .ok (q, (mask.filter id).length) ∧ q.coeff = p.coeff ∧ Numbered q spid0 mask) ∧
    (mask.length ≠ p.coeff.length → makeSolvableMask p spid0 mask = .err) := by
  refine ⟨fun h => ?_, fun h => ?_⟩
  · obtain ⟨h1, h2, h3, h4, h5⟩ := assign_ids mask (List.replicate p.coeff.length p.pert) spid0 0
    refine ⟨{ p with spids := (assign mask (List.replicate p.coeff.length p.pert) spid0 0).1,
                     spidInx := (assign mask (List.replicate p.coeff.length p.pert) spid0 0).2.2,
                     parmPerts := List.replicate p.coeff.length p.pert,
                     spidPerts := (assign mask (List.replicate p.coeff.length p.pert) spid0 0).2.1 }, ?_, rfl, h, ?_, h1, ?_, h5, ?_⟩
    · simp only [makeSolvableMask]
      rw [if_neg (by simpa using h)]
    · simp only; rw [h3, h]
    · intro k i hk; simpa using h4 k i hk
    · intro k hk; exact h2 k (by simpa [h1] using hk)
  · simp only [makeSolvableMask]
    rw [if_pos h]

/-- C46: without a mask the default selection is numbered. -/
theorem C46_default (p : Poly) (spid0 : Int) (hw : PolcWf p) (hm : p.mask = none) :
    ∃ q, makeSolvable p spid0 = .ok (q, ((defaultMask p).filter id).length) ∧ Numbered q spid0 (defaultMask p) := by
  obtain ⟨⟨a, hs⟩, hl, -, -⟩ := hw
  by_cases h4 : p.coeff.length < 4
  · obtain ⟨q, hq, hn, -⟩ := numbered_all p spid0 hm
    refine ⟨q, ?_, ?_⟩
    · simp only [makeSolvable, if_pos h4, hq, defaultMask, if_pos (Or.inl h4)]; simp
    · simpa only [defaultMask, if_pos (Or.inl h4)] using hn
  · rcases hs with ⟨ha, hs⟩ | ⟨b, hb, ha, hs⟩
    · obtain ⟨q, hq, hn, -⟩ := numbered_all p spid0 hm
      have hd : p.coeff.length < 4 ∨ p.shape.length ≤ 1 := Or.inr (by simp [hs])
      refine ⟨q, ?_, ?_⟩
      · simp only [makeSolvable, if_neg h4, hs, hq, defaultMask]; simp
      · simpa only [defaultMask, if_pos hd] using hn
    · have hd : ¬ (p.coeff.length < 4 ∨ p.shape.length ≤ 1) := by simp [hs]; omega
      have hl' : p.coeff.length = a * b := by simpa [nrows, ncols, hs] using hl
      have hmask : defaultMask p = (List.range (a * b)).map (inTriangle a b) := by
        unfold defaultMask
        rw [if_neg hd, hl', show nrows p = a by simp [nrows, hs], show ncols p = b by simp [ncols, hs]]; rfl
      obtain ⟨q, hq, -, hn⟩ := (C46_numbering
        { p with coeff := (List.range p.coeff.length).map fun k => if k < a * b ∧ inTriangle a b k = false then 0 else p.coeff.getD k 0,
                 mask := some (defaultMask p) } spid0 (defaultMask p)).1 (by simp [hmask, hl'])
      refine ⟨q, ?_, hn⟩
      simp only [makeSolvable, if_neg h4, hs, hm]
      rw [← hmask]
      rw [hs] at hq
      exact hq

/-- C46: a mask given with the polynomial is used, if it has an entry for each coefficient. -/
theorem C46_given (p : Poly) (spid0 : Int) (m : List Bool) (hm : p.mask = some m) (hl : m.length = p.coeff.length) :
    ∃ q, makeSolvable p spid0 = .ok (q, (m.filter id).length) ∧ q.coeff = p.coeff ∧ Numbered q spid0 m := by
  obtain ⟨q, hq, hc, hn⟩ := (C46_numbering p spid0 m).1 hl
  refine ⟨q, ?_, hc, hn⟩
  unfold makeSolvable
  split
  · simp only [makeSolvableAll, hm, hq]
  · split
    · simp only [hm, if_pos hl, hq]
    · simp only [makeSolvableAll, hm, hq]

/-- C46: an update adds to each selected coefficient its own increment and leaves the others alone; the absolute value is taken
of a constant if asked for. -/
theorem C46_update (p : Poly) (spid0 : Int) (mask : List Bool) (values : List ℚ) (pos : Bool) (hn : Numbered p spid0 mask)
    (hv : p.spids.length ≤ values.length) :
    ∃ c, update p values pos = .ok { p with coeff := c } ∧ c.length = p.coeff.length ∧
      (∀ (k i : Nat) (a : ℚ), IsNth mask k i → p.coeff[i]? = some a →
        c[i]? = some (if pos = true ∧ p.coeff.length = 1 then |a + values.getD k 0| else a + values.getD k 0)) ∧
      ∀ i : Nat, mask[i]? = some false → c[i]? = p.coeff[i]? := by
  obtain ⟨c, hc, hl, h1, h2⟩ := update_numbered (fun _ => ⟨none, none, pos && decide (p.coeff.length ≤ 1)⟩) hn hv
  refine ⟨c, by simp [update, hc, Res.bind], hl, ?_, h2⟩
  intro k i a hk ha
  rw [h1 k i a hk ha]
  have hpos : 0 < p.coeff.length := by
    have := (List.getElem?_eq_some_iff.1 ha).1; omega
  simp only [Limits.apply, Bool.and_eq_true, decide_eq_true_eq]
  have he : (p.coeff.length ≤ 1) ↔ (p.coeff.length = 1) := by omega
  by_cases h3 : p.coeff.length = 1
  · simp [h3]
  · rw [if_neg (fun h => h3 (he.1 h.2)), if_neg (fun h => h3 h.2)]

/-- C46: an update with bounds keeps each selected coefficient within its own. -/
theorem C46_bounds (p : Poly) (spid0 : Int) (mask : List Bool) (values lo hi : List ℚ) (hn : Numbered p spid0 mask)
    (hv : p.spids.length ≤ values.length) :
    ∃ c, updateBounds p values lo hi false = .ok { p with coeff := c } ∧ c.length = p.coeff.length ∧
      (∀ (k i : Nat) (a l h : ℚ), IsNth mask k i → p.coeff[i]? = some a → lo[i]? = some l → hi[i]? = some h →
        c[i]? = some (clamp l h (a + values.getD k 0))) ∧
      ∀ i : Nat, mask[i]? = some false → c[i]? = p.coeff[i]? := by
  obtain ⟨c, hc, hl, h1, h2⟩ := update_numbered (fun i => ⟨lo[i]?, hi[i]?, false && decide (p.coeff.length ≤ 1)⟩) hn hv
  refine ⟨c, by rw [updateBounds, hc]; rfl, hl, ?_, h2⟩
  intro k i a l h hk ha hl hh
  rw [h1 k i a hk ha]
  simp [Limits.apply, clamp, hl, hh, max_comm, min_comm]

/-- C46: an update of a constant with a pair of bounds; a polynomial that is not constant is updated without. -/
theorem C46_const (p : Poly) (spid0 : Int) (mask : List Bool) (values : List ℚ) (lo hi : ℚ) (hn : Numbered p spid0 mask)
    (hv : p.spids.length ≤ values.length) :
    (p.coeff.length = 1 → ∃ c, updateConst p values lo hi false = .ok { p with coeff := c } ∧ c.length = p.coeff.length ∧
      (∀ (k i : Nat) (a : ℚ), IsNth mask k i → p.coeff[i]? = some a → c[i]? = some (clamp lo hi (a + values.getD k 0))) ∧
      ∀ i : Nat, mask[i]? = some false → c[i]? = p.coeff[i]?) ∧
    (1 < p.coeff.length → updateConst p values lo hi false = update p values false) := by
  refine ⟨fun hone => ?_, fun h => ?_⟩
  · obtain ⟨c, hc, hl, h1, h2⟩ := update_numbered (fun _ => ⟨some lo, some hi, false⟩) hn hv
    refine ⟨c, by simp [updateConst, hc, Res.bind, hone], hl, ?_, h2⟩
    intro k i a hk ha
    rw [h1 k i a hk ha]
    simp [Limits.apply, clamp, max_comm, min_comm]
  · unfold updateConst
    rw [if_pos (by omega)]

/-- C46: row and column of the coefficient with a given id. -/
theorem C46_index (p : Poly) (spid0 : Int) (mask : List Bool) (hn : Numbered p spid0 mask) (k i : Nat) (hk : IsNth mask k i) :
    coeffIndex p k = (i / ncols p, i % ncols p) := by
  obtain ⟨h1, h2, h3, h4, h5, h6⟩ := hn
  have hi : i < p.coeff.length := by
    have := (List.getElem?_eq_some_iff.1 hk.1).1; omega
  have hki := nth_le hk
  have hfind : ((List.range p.coeff.length).drop k).find? (fun i => p.spidInx.getD i (-1) = (k : Int)) = some i := by
    have hp : p.spidInx.getD i (-1) = (k : Int) := by simp [List.getD_eq_getElem?_getD, h4 k i hk]
    have hmem : i ∈ (List.range p.coeff.length).drop k := by
      rw [List.mem_iff_getElem?]
      exact ⟨i - k, by rw [List.getElem?_drop, show k + (i - k) = i by omega]; simp [hi]⟩
    have huniq : ∀ j ∈ (List.range p.coeff.length).drop k, p.spidInx.getD j (-1) = (k : Int) → j = i := by
      intro j hj he
      have hjl : j < p.coeff.length := by simpa using List.mem_of_mem_drop hj
      have hjm : j < mask.length := by omega
      cases hmj : mask[j] with
      | true =>
        obtain ⟨k', hk'⟩ := nth_exists (m := mask) (i := j) (by rw [List.getElem?_eq_getElem hjm, hmj])
        have := h4 k' j hk'
        rw [List.getD_eq_getElem?_getD, this] at he
        have : k' = k := by simpa using he
        subst this
        exact nth_unique hk' hk
      | false =>
        have := h5 j (by rw [List.getElem?_eq_getElem hjm, hmj])
        rw [List.getD_eq_getElem?_getD, this] at he
        simp at he
    cases hf : ((List.range p.coeff.length).drop k).find? (fun i => p.spidInx.getD i (-1) = (k : Int)) with
    | none =>
      have := List.find?_eq_none.1 hf i hmem
      simp only [hp, decide_true, not_true_eq_false] at this
    | some j =>
      have h7 := List.find?_some hf
      have h8 := List.mem_of_find?_eq_some hf
      rw [huniq j h8 (by simpa using h7)]
  unfold coeffIndex
  rw [hfind]
  rcases hs : p.shape with _ | ⟨a, _ | ⟨b, l⟩⟩ <;> simp [ncols, hs]

/-- A polynomial with four coefficients. -/
def demo : Poly := ⟨[1, 2, 3, 4], [2, 2], [0, 0], [1, 2], some [true, false, true, false], 1 / 2, [], [], [], []⟩

example : PolcWf demo ∧ makeSolvable demo 7 =
    .ok ({ demo with spids := [7, 8], spidInx := [0, -1, 1, -1], parmPerts := [1/2, 1/2, 1/2, 1/2], spidPerts := [1/2, 1/2] }, 2) := by
  exact ⟨⟨⟨2, Or.inr ⟨2, by decide, by decide, rfl⟩⟩, rfl, by decide, by decide⟩, by decide +kernel⟩

example : Numbered { demo with spids := [7, 8], spidInx := [0, -1, 1, -1] } 7 [true, false, true, false] ∧
    IsNth [true, false, true, false] 1 2 ∧
    update { demo with spids := [7, 8], spidInx := [0, -1, 1, -1] } [10, 20] true =
      .ok { demo with spids := [7, 8], spidInx := [0, -1, 1, -1], coeff := [11, 2, 23, 4] } := by
  refine ⟨?_, by unfold IsNth; decide, by decide +kernel⟩
  obtain ⟨q, hq, -, hn⟩ := C46_given demo 7 _ rfl rfl
  have : makeSolvable demo 7 = .ok ({ demo with spids := [7, 8], spidInx := [0, -1, 1, -1], parmPerts := [1/2, 1/2, 1/2, 1/2], spidPerts := [1/2, 1/2] }, 2) := by
    decide +kernel
  rw [this] at hq
  injection hq with hq
  injection hq with hq _
  subst hq
  exact hn

/-! ## C47 -/

/-- C47: a polynomial re-expressed with other offsets and scales, for each of its axes, has the same value everywhere. -/
theorem C47_transform (p : Poly) (hw : PolcWf p) (no ns : List ℚ) (hl : no.length = ns.length) (h1 : p.shape.length ≤ no.length)
    (h2 : no.length ≤ 2) (h3 : no.length ≤ p.offsets.length) (h4 : no.length ≤ p.scales.length) (h0 : ∀ s ∈ ns, s ≠ 0) :
    ∃ q, transformCoeff p no ns = .ok q ∧ PolcWf q ∧ q.shape = p.shape ∧ (∀ i : Nat, i < no.length → q.offsets[i]? = no[i]? ∧ q.scales[i]? = ns[i]?) ∧
      ∀ x y, value q x y = value p x y := by
  obtain ⟨⟨a, hs⟩, hc, hlo, hls⟩ := hw
  have hdims : dims p.shape = (nrows p, ncols p) ∧ 0 < nrows p ∧ 0 < ncols p := by
    rcases hs with ⟨ha, hs⟩ | ⟨b, hb, ha, hs⟩
    · simp [dims, nrows, ncols, hs]; omega
    · simp [dims, nrows, ncols, hs]; omega
  obtain ⟨hd, hx0, hy0⟩ := hdims
  have hshape : ∀ q : Poly, q.shape = p.shape → q.coeff.length = p.coeff.length → p.offsets.length = q.offsets.length → p.scales.length = q.scales.length → PolcWf q := by
    intro q e1 e2 e3 e4
    refine ⟨⟨a, ?_⟩, ?_, by rw [e1, ← e3]; exact hlo, by rw [e1, ← e4]; exact hls⟩
    · rw [e1]; exact hs
    · rw [e2, hc]; simp only [nrows, ncols, e1]
  -- the state after the loop over the axes
  have hloop : ∃ of sc dO dS ch, axLoop (no.zip ns) 0 ⟨p.offsets, p.scales, [], [], false, false⟩ = .ok ⟨of, sc, dO, dS, ch, false⟩ ∧
      dO.length = no.length ∧ of.length = p.offsets.length ∧ sc.length = p.scales.length ∧
      (∀ i : Nat, i < no.length → of[i]? = no[i]? ∧ sc[i]? = ns[i]?) ∧
      ∀ (C : List ℚ), ∀ x y, (ch = false → polyVal (nrows p) (ncols p) C (scaled (of.getD 0 0) (sc.getD 0 0) x) (scaled (of.getD 1 0) (sc.getD 1 0) y) =
            polyVal (nrows p) (ncols p) C (scaled (p.offsets.getD 0 0) (p.scales.getD 0 0) x) (scaled (p.offsets.getD 1 0) (p.scales.getD 1 0) y)) ∧
          polyVal (nrows p) (ncols p) C (dS.getD 0 0 * (scaled (of.getD 0 0) (sc.getD 0 0) x + dO.getD 0 0)) (dS.getD 1 0 * (scaled (of.getD 1 0) (sc.getD 1 0) y + dO.getD 1 0)) =
            polyVal (nrows p) (ncols p) C (scaled (p.offsets.getD 0 0) (p.scales.getD 0 0) x) (scaled (p.offsets.getD 1 0) (p.scales.getD 1 0) y) := by
    rcases no with _ | ⟨o0, _ | ⟨o1, _ | ⟨o2, no⟩⟩⟩
    · rcases hs with ⟨ha, hs⟩ | ⟨b, hb, ha, hs⟩ <;> simp [hs] at h1
    · rcases ns with _ | ⟨s0, _ | ⟨s1, ns⟩⟩
      · simp at hl
      · have hone : ncols p = 1 := by
          rcases hs with ⟨ha, hs⟩ | ⟨b, hb, ha, hs⟩
          · simp [ncols, hs]
          · simp [hs] at h1
        have hs0 : s0 ≠ 0 := h0 s0 (by simp)
        obtain ⟨ch, hax, hch⟩ := axLoop_one p o0 s0 hs0 (by simpa using h3) (by simpa using h4)
        refine ⟨_, _, _, _, ch, hax, by simp, by simp, by simp, ?_, ?_⟩
        · intro i hi
          have hi : i = 0 := by simpa using hi
          subst hi
          have hp : 0 < p.offsets.length := by simp at h3; omega
          have hq : 0 < p.scales.length := by simp at h4; omega
          simp [hp, hq]
        · intro C x y
          have hp : (p.offsets.set 0 o0).getD 0 0 = o0 := by
            have hp : 0 < p.offsets.length := by simp at h3; omega
            simp [List.getD_eq_getElem?_getD, hp]
          have hq : (p.scales.set 0 s0).getD 0 0 = s0 := by
            have hp : 0 < p.scales.length := by simp at h4; omega
            simp [List.getD_eq_getElem?_getD, hp]
          rw [hp, hq, hone]
          refine ⟨fun h => ?_, ?_⟩
          · obtain ⟨e1, e2⟩ := hch h
            have := scaled_change (p.offsets.getD 0 0) (p.scales.getD 0 0) o0 s0 x hs0
            rw [e1, e2] at this
            rw [this, one_mul, add_zero]
            exact polyVal_one_col _ _ _ _ _
          · rw [scaled_change (p.offsets.getD 0 0) (p.scales.getD 0 0) o0 s0 x hs0]
            simp only [List.getD_cons_zero]
            exact polyVal_one_col _ _ _ _ _
      · simp at hl
    · rcases ns with _ | ⟨s0, _ | ⟨s1, _ | ⟨s2, ns⟩⟩⟩
      · simp at hl
      · simp at hl
      · have hs0 : s0 ≠ 0 := h0 s0 (by simp)
        have hs1 : s1 ≠ 0 := h0 s1 (by simp)
        have hp : 2 ≤ p.offsets.length := by simpa using h3
        have hq : 2 ≤ p.scales.length := by simpa using h4
        obtain ⟨ch, hax, hch⟩ := axLoop_two p o0 o1 s0 s1 hs0 hs1 hp hq
        refine ⟨_, _, _, _, ch, hax, by simp, by simp, by simp, ?_, ?_⟩
        · intro i hi
          have hi : i < 2 := by simpa using hi
          rcases i with _ | _ | i
          · simp [show 0 < p.offsets.length by omega, show 0 < p.scales.length by omega]
          · simp [show 1 < p.offsets.length by omega, show 1 < p.scales.length by omega]
          · omega
        · intro C x y
          have hp0 : ((p.offsets.set 0 o0).set 1 o1).getD 0 0 = o0 := by
            simp [List.getD_eq_getElem?_getD, show 0 < p.offsets.length by omega]
          have hp1 : ((p.offsets.set 0 o0).set 1 o1).getD 1 0 = o1 := by
            simp [List.getD_eq_getElem?_getD, show 1 < p.offsets.length by omega]
          have hq0 : ((p.scales.set 0 s0).set 1 s1).getD 0 0 = s0 := by
            simp [List.getD_eq_getElem?_getD, show 0 < p.scales.length by omega]
          have hq1 : ((p.scales.set 0 s0).set 1 s1).getD 1 0 = s1 := by
            simp [List.getD_eq_getElem?_getD, show 1 < p.scales.length by omega]
          rw [hp0, hp1, hq0, hq1]
          have ex := scaled_change (p.offsets.getD 0 0) (p.scales.getD 0 0) o0 s0 x hs0
          have ey := scaled_change (p.offsets.getD 1 0) (p.scales.getD 1 0) o1 s1 y hs1
          refine ⟨fun h => ?_, ?_⟩
          · obtain ⟨e1, e2, e3, e4⟩ := hch h
            rw [e1, e2, one_mul, add_zero] at ex
            rw [e3, e4, one_mul, add_zero] at ey
            rw [ex, ey]
          · simp only [List.getD_cons_zero, List.getD_cons_succ]
            rw [← ex, ← ey]
      · simp at hl
    · simp at h2
  obtain ⟨of, sc, dO, dS, ch, hax, hdl, hofl, hscl, hset, hval⟩ := hloop
  have hndims1 : (dims p.shape).1 = nrows p := by rw [hd]
  have hndims2 : (dims p.shape).2 = ncols p := by rw [hd]
  simp only [transformCoeff]
  rw [if_neg (by simpa using hl), hax]
  simp only [Res.bind, Bool.false_eq_true, if_false, hndims1, hndims2]
  have hsame : ∀ x y, (∀ u v u' v', polyVal (nrows p) (ncols p) p.coeff u v = polyVal (nrows p) (ncols p) p.coeff u' v') →
      value { p with offsets := of, scales := sc } x y = value p x y := by
    intro x y h
    simp only [value, nrows, ncols] at h ⊢
    exact h _ _ _ _
  by_cases hc1 : nrows p ≤ 1 ∧ ncols p ≤ 1
  · rw [if_pos hc1]
    refine ⟨_, rfl, hshape _ rfl rfl hofl.symm hscl.symm, rfl, hset, ?_⟩
    intro x y
    refine hsame x y fun u v u' v' => ?_
    rw [polyVal_const _ _ hx0 hy0 _ _ u v, polyVal_const _ _ hx0 hy0 _ _ u' v'] <;>
    · intro k hk
      have h1 : nrows p = 1 := by omega
      have h2 : ncols p = 1 := by omega
      rw [h1, h2] at hk
      left; omega
  rw [if_neg hc1]
  by_cases hc2 : ch = false
  · rw [if_pos hc2]
    refine ⟨_, rfl, hshape _ rfl rfl hofl.symm hscl.symm, rfl, hset, ?_⟩
    intro x y
    simp only [value, nrows, ncols]
    have := (hval p.coeff x y).1 hc2
    simpa only [nrows, ncols] using this
  rw [if_neg hc2]
  by_cases hc3 : (List.range (nrows p * ncols p)).all (fun k => k = 0 || p.coeff.getD k 0 = 0) = true
  · rw [if_pos hc3]
    refine ⟨_, rfl, hshape _ rfl rfl hofl.symm hscl.symm, rfl, hset, ?_⟩
    intro x y
    have hk : ∀ k, k < nrows p * ncols p → k = 0 ∨ p.coeff.getD k 0 = 0 := by
      intro k hk
      have := List.all_eq_true.1 hc3 k (by simpa using hk)
      simpa using this
    refine hsame x y fun u v u' v' => ?_
    rw [polyVal_const _ _ hx0 hy0 _ hk, polyVal_const _ _ hx0 hy0 _ hk]
  rw [if_neg hc3, if_neg]
  · have hnew := newCoeff_spec (nrows p) (ncols p) p.coeff dO dS
    refine ⟨_, rfl, hshape _ rfl ?_ hofl.symm hscl.symm, rfl, hset, ?_⟩
    · rw [hc]; exact (hnew 0 0).1
    · intro x y
      have e1 := (hnew (scaled (of.getD 0 0) (sc.getD 0 0) x) (scaled (of.getD 1 0) (sc.getD 1 0) y)).2
      rw [(hval p.coeff x y).2] at e1
      simpa only [value, nrows, ncols] using e1
  · rintro ⟨h5, h6⟩
    rcases hs with ⟨ha, hs⟩ | ⟨b, hb, ha, hs⟩
    · simp [ncols, hs] at h6
    · rw [hdl] at h5
      simp [hs] at h1
      omega

example : PolcWf demo ∧ transformCoeff demo [1, 3] [2, 1/2] = .ok { demo with offsets := [1, 3], scales := [2, 1/2], coeff := [13, 3/2, 18, 2] } ∧
    value demo 5 7 = 93 := by
  refine ⟨⟨⟨2, Or.inr ⟨2, by decide, by decide, rfl⟩⟩, rfl, by decide, by decide⟩, by decide +kernel, ?_⟩
  norm_num [value, polyVal, sum_range_succ, demo, nrows, ncols, scaled]

/-- A new scale of 0 makes the call stop halfway: the first axis has changed, the coefficients have not. -/
theorem C47_zero_scale : ∃ q, transformCoeff demo [0, 0] [2, 0] = .ok q ∧ value q 5 7 ≠ value demo 5 7 :=
  ⟨{ demo with scales := [2, 2] }, by decide +kernel, by norm_num [value, polyVal, sum_range_succ, demo, nrows, ncols, scaled]⟩

/-! ## C80 -/

/-- C80, in full. -/
def C80_full : Prop := ∀ (p : Poly) (np : Nat) (x y : ℚ), PolcWf p → EvalRight p np x y

/-- C80, for polynomials with at most 10 coefficients in the second variable, with one variable, or without perturbations. -/
theorem C80_value_partial (p : Poly) (np : Nat) (x y : ℚ) (hw : PolcWf p) (h10 : np = 0 ∨ ncols p ≤ 10 ∨ nrows p = 1) : EvalRight p np x y := by
  obtain ⟨⟨a, hs⟩, hl, -, -⟩ := hw
  have hpos : 0 < nrows p ∧ 0 < ncols p := by
    rcases hs with ⟨ha, hs⟩ | ⟨b, hb, ha, hs⟩ <;> simp [nrows, ncols, hs] <;> omega
  obtain ⟨hx0, hy0⟩ := hpos
  have hmod := value_modify p hl hy0
  generalize hu : scaled (p.offsets.getD 0 0) (p.scales.getD 0 0) x = u at hmod
  generalize hv : scaled (p.offsets.getD 1 0) (p.scales.getD 1 0) y = v at hmod
  have hval : value p x y = polyVal (nrows p) (ncols p) p.coeff u v := by simp only [value, hu, hv]
  -- all cases but the first from what is known of the perturbed values
  have build : ∀ pt : Point, evalAt p np x y = .ok pt → pt.value = value p x y →
      (np = 0 ∧ pt.perts = (List.range p.coeff.length).map (fun _ => []) ∨ pt.perts = (List.range p.coeff.length).map fun k =>
        spread pt.value (p.parmPerts.getD k 0 * v ^ (k % ncols p) * u ^ (k / ncols p)) np) → EvalRight p np x y := by
    intro pt h1 h2 h3
    refine ⟨pt, h1, h2, ?_, ?_⟩
    · rcases h3 with ⟨_, h3⟩ | h3 <;> simp [h3]
    · intro k hk
      rcases h3 with ⟨h0, h3⟩ | h3
      · exact ⟨[], by simp [h3, hk], by simp [h0], (fun m hm => by omega)⟩
      · refine ⟨_, by simp [h3, hk]; rfl, spread_length _ _ _, fun m hm => ?_⟩
        rw [spread_get _ _ _ m hm, h2]
        have := hmod k hk ((-1) ^ m * p.parmPerts.getD k 0) x y
        rw [hu, hv] at this
        rw [this]
        simp only [List.getD_eq_getElem?_getD]
        congr 1; ring
  by_cases h1 : p.coeff.length = 1
  · have hn : nrows p = 1 ∧ ncols p = 1 := by
      rw [h1] at hl
      exact ⟨Nat.dvd_one.1 ⟨_, hl⟩, Nat.dvd_one.1 ⟨nrows p, by rw [Nat.mul_comm]; exact hl⟩⟩
    have hv0 : value p x y = p.coeff.getD 0 0 := by
      rw [hval, hn.1, hn.2]; simp [polyVal]
    refine build ⟨p.coeff.getD 0 0, [spread (p.coeff.getD 0 0) (p.parmPerts.getD 0 0) np]⟩ ?_ hv0.symm (Or.inr ?_)
    · simp only [evalAt]
      rw [if_pos h1]
    · simp [h1, hn.2]
  · rcases hs with ⟨ha, hs⟩ | ⟨b, hb, ha, hs⟩
    · have hc : ncols p = 1 := by simp [ncols, hs]
      have hr : nrows p = p.coeff.length := by rw [hl, hc, Nat.mul_one]
      have ht : horner u p.coeff = value p x y := by
        rw [hval, hc, hr, polyVal_col _ _ _ _ rfl]
      refine build (eval1 p.coeff p.parmPerts np u) ?_ ?_ (Or.inr ?_)
      · simp only [evalAt]
        rw [if_neg h1, hs]
        simp only [normal_eq, hu]
      · exact ht
      · simp only [eval1]
        refine List.map_congr_left fun k hk => ?_
        rw [powLoop_get u _ _ k (by simpa using hk), hc, Nat.mod_one, Nat.div_one]
        congr 1; ring
    · have hc : ncols p = b := by simp [ncols, hs]
      have hr : nrows p = a := by simp [nrows, hs]
      by_cases hone : a = 1 ∨ b = 1
      · have hev : evalAt p np x y = .ok (eval1 p.coeff p.parmPerts np (if 1 < a then u else v)) := by
          simp only [evalAt]
          rw [if_neg h1, hs]
          simp only [normal_eq, hu, hv]
          rw [if_pos hone]
        refine build _ hev ?_ (Or.inr ?_)
        · simp only [eval1]
          rw [hval, hc, hr]
          by_cases ha1 : 1 < a
          · have hb1 : b = 1 := by omega
            subst hb1
            rw [if_pos ha1, polyVal_col a p.coeff u v (by rw [hl, hr, hc]; omega)]
          · have ha1' : a = 1 := by omega
            subst ha1'
            rw [if_neg ha1, polyVal_row b p.coeff u v (by rw [hl, hr, hc]; omega)]
        · simp only [eval1]
          refine List.map_congr_left fun k hk => ?_
          have hk : k < p.coeff.length := by simpa using hk
          rw [powLoop_get _ _ _ k hk, hc]
          by_cases ha1 : 1 < a
          · have hb1 : b = 1 := by omega
            subst hb1
            rw [if_pos ha1, Nat.mod_one, Nat.div_one]
            congr 1; ring
          · have ha1' : a = 1 := by omega
            subst ha1'
            have hkb : k < b := by rw [hl, hr, hc] at hk; omega
            rw [if_neg ha1, Nat.mod_eq_of_lt hkb, Nat.div_eq_of_lt hkb]
            congr 1; ring
      · have hev : evalAt p np x y = eval2 a b p.coeff p.parmPerts np u v := by
          simp only [evalAt]
          rw [if_neg h1, hs]
          simp only [normal_eq, hu, hv]
          rw [if_neg hone]
        have ht : rowsLoop u v b p.coeff a = value p x y := by
          rw [hval, hc, hr]
          exact rowsLoop_eq u v b a p.coeff (by rw [hl, hr, hc])
        by_cases h0 : np = 0
        · refine build ⟨rowsLoop u v b p.coeff a, (List.range p.coeff.length).map fun _ => []⟩ ?_ ht (Or.inl ⟨h0, rfl⟩)
          rw [hev]
          simp only [eval2]
          rw [if_pos h0]
        · refine build ⟨rowsLoop u v b p.coeff a, (List.range (a * b)).map fun k =>
              spread (rowsLoop u v b p.coeff a) (p.parmPerts.getD k 0 * (powLoop v b 1).getD (k % b) 0 * (powLoop u a 1).getD (k / b) 0) np⟩ ?_ ht (Or.inr ?_)
          · rw [hev]
            simp only [eval2]
            rw [if_neg h0, if_neg (by rw [hc, hr] at h10; omega)]
          · simp only
            rw [hl, hr, hc]
            refine List.map_congr_left fun k hk => ?_
            have hk : k < a * b := by simpa using hk
            rw [powLoop_get v b 1 _ (Nat.mod_lt _ hb), powLoop_get u a 1 _ (Nat.div_lt_of_lt_mul (by rw [Nat.mul_comm]; exact hk))]
            congr 1; ring

/-- C80 fails with more than 10 coefficients in the second variable: the table of powers is too small. -/
theorem C80_refuted : ¬ C80_full := by
  intro h
  obtain ⟨pt, hpt, -⟩ := h ⟨List.replicate 22 1, [2, 11], [0, 0], [1, 1], none, 1, [], [], [], []⟩ 1 0 0
    ⟨⟨2, Or.inr ⟨11, by decide, by decide, rfl⟩⟩, rfl, by decide, by decide⟩
  have : evalAt ⟨List.replicate 22 1, [2, 11], [0, 0], [1, 1], none, 1, [], [], [], []⟩ 1 0 0 = .ub := by decide +kernel
  rw [this] at hpt
  cases hpt

example : evalAt { demo with parmPerts := [1, 1, 1, 1 / 2] } 2 5 7 =
    .ok ⟨93, [[94, 92], [193 / 2, 179 / 2], [98, 88], [407 / 4, 337 / 4]]⟩ := by decide +kernel

/-! ## C81 -/

/-- C81, in full. -/
def C81_full : Prop := ∀ (p : Poly) (sol val : Nat → ℚ × ℚ), PolcWf p → (∀ i, (sol i).1 < (sol i).2 ∧ (val i).1 < (val i).2) →
  ∃ q, changeSolveDomain p sol val = .ok q ∧ SolveRight p q sol val

/-- C81 for polynomials with two offsets and scales. -/
theorem C81_solve_partial (p : Poly) (sol val : Nat → ℚ × ℚ) (hw : PolcWf p) (hd : ∀ i, (sol i).1 < (sol i).2 ∧ (val i).1 < (val i).2)
    (ho : 2 ≤ p.offsets.length) (hs : 2 ≤ p.scales.length) : ∃ q, changeSolveDomain p sol val = .ok q ∧ SolveRight p q sol val := by
  have h2 : p.shape.length ≤ 2 := by
    obtain ⟨⟨a, hs⟩, -⟩ := hw
    rcases hs with ⟨ha, hs⟩ | ⟨b, hb, ha, hs⟩ <;> simp [hs]
  obtain ⟨q, hq, -, -, hset, hval⟩ := C47_transform p hw
    ((List.range 2).map fun i => ((sol i).1 * (val i).2 - (sol i).2 * (val i).1) / ((sol i).1 - (sol i).2))
    ((List.range 2).map fun i => ((val i).2 - (val i).1) / ((sol i).2 - (sol i).1)) (by simp) (by simpa using h2) (by simp)
    (by simpa using ho) (by simpa using hs) (by
      intro s hs
      obtain ⟨i, -, rfl⟩ := List.mem_map.1 hs
      have := hd i
      exact div_ne_zero (by linarith) (by linarith))
  refine ⟨q, hq, hval, fun i hi => ?_⟩
  obtain ⟨h3, h4⟩ := hset i (by simp; omega)
  have hi2 : i < 2 := by omega
  have eo : q.offsets.getD i 0 = ((sol i).1 * (val i).2 - (sol i).2 * (val i).1) / ((sol i).1 - (sol i).2) := by
    rw [List.getD_eq_getElem?_getD, h3]; simp [hi2]
  have es : q.scales.getD i 0 = ((val i).2 - (val i).1) / ((sol i).2 - (sol i).1) := by
    rw [List.getD_eq_getElem?_getD, h4]; simp [hi2]
  rw [eo, es]
  obtain ⟨d1, d2⟩ := hd i
  generalize (sol i).1 = a at *
  generalize (sol i).2 = b at *
  generalize (val i).1 = s at *
  generalize (val i).2 = e at *
  have n1 : b - a ≠ 0 := by linarith
  have n2 : e - s ≠ 0 := by linarith
  have n3 : a - b ≠ 0 := by linarith
  unfold scaled
  rw [if_neg (div_ne_zero n2 n1)]
  refine ⟨?_, ?_⟩
  · rw [div_eq_iff (div_ne_zero n2 n1)]
    field_simp
    ring
  · rw [div_eq_iff (div_ne_zero n2 n1)]
    field_simp
    ring

/-- C81 fails for a polynomial with one axis: the offset of the second is read. -/
theorem C81_refuted : ¬ C81_full := by
  intro h
  obtain ⟨q, hq, -⟩ := h ⟨[1, 2], [2], [0], [1], none, 1, [], [], [], []⟩ (fun _ => (0, 1)) (fun _ => (0, 2))
    ⟨⟨2, Or.inl ⟨by decide, rfl⟩⟩, rfl, by decide, by decide⟩ (fun _ => by norm_num)
  have : changeSolveDomain ⟨[1, 2], [2], [0], [1], none, 1, [], [], [], []⟩ (fun _ => (0, 1)) (fun _ => (0, 2)) = .ub := by decide +kernel
  rw [this] at hq
  cases hq

example : changeSolveDomain demo (fun _ => (-1, 1)) (fun _ => (0, 4)) =
    .ok { demo with offsets := [2, 2], scales := [2, 2], coeff := [17, 10, 14, 8] } := by decide +kernel

/-! ## C82 -/

/-- C82, in full. -/
def C82_full : Prop := ∀ (p : Poly) (shape : List Nat), PolcWf p → (shape.length = 1 ∨ shape.length = 2) → (∀ n ∈ shape, 0 < n) →
  (setCoeffShape p shape).shape = shape ∧ PolcWf (setCoeffShape p shape) ∧ KeepsCommon p (setCoeffShape p shape)

/-- C82 when the number of axes stays the same, or the polynomial is a constant. -/
theorem C82_shape_partial (p : Poly) (shape : List Nat) (hw : PolcWf p) (hr : shape.length = p.shape.length ∨ p.coeff.length = 1)
    (hl2 : shape.length = 1 ∨ shape.length = 2) (hpos : ∀ n ∈ shape, 0 < n) :
    (setCoeffShape p shape).shape = shape ∧ PolcWf (setCoeffShape p shape) ∧ KeepsCommon p (setCoeffShape p shape) := by
  by_cases hsame : p.shape = shape
  · have : setCoeffShape p shape = p := by simp [setCoeffShape, hsame]
    rw [this]
    refine ⟨hsame, hw, fun i j hi hj => ?_⟩
    rw [if_pos ⟨hi, hj⟩]
  obtain ⟨⟨a, hs⟩, hl, ho, hsc⟩ := hw
  have hrows : nrows p * ncols p = p.coeff.length := hl.symm
  -- the position of each element
  have hpos2 : ∀ k, k < p.coeff.length → position shape (coords p.shape k) 0 false =
      (k / ncols p * shape.getD 1 1 + k % ncols p,
        (decide (0 < k / ncols p) && decide ((shape.getD 0 1) ≤ k / ncols p)) || (decide (0 < k % ncols p) && decide ((shape.getD 1 1) ≤ k % ncols p))) := by
    intro k hk
    rcases hs with ⟨ha, hs⟩ | ⟨b, hb, ha, hs⟩
    · have hc : ncols p = 1 := by simp [ncols, hs]
      have hka : k < a := by rw [hl] at hk; simpa [nrows, ncols, hs] using hk
      rcases shape with _ | ⟨a', _ | ⟨b', _ | ⟨c', l⟩⟩⟩
      · simp at hl2
      · simp [coords, position, hs, hc, Nat.mod_eq_of_lt hka, Nat.mod_one]
      · rcases hr with hr | hr
        · simp [hs] at hr
        · have hk0 : k = 0 := by omega
          subst hk0
          simp [coords, position, hs]
      · simp at hl2
    · have hc : ncols p = b := by simp [ncols, hs]
      have hka : k < a * b := by rw [hl] at hk; simpa [nrows, ncols, hs] using hk
      have hdiv : k / b % a = k / b := Nat.mod_eq_of_lt (Nat.div_lt_of_lt_mul (by rw [Nat.mul_comm]; exact hka))
      rcases shape with _ | ⟨a', _ | ⟨b', _ | ⟨c', l⟩⟩⟩
      · simp at hl2
      · rcases hr with hr | hr
        · simp [hs] at hr
        · have hk0 : k = 0 := by omega
          subst hk0
          simp [coords, position, hs]
      · simp [coords, position, hs, hc, hdiv]
      · simp at hl2
  obtain ⟨a', b', ha', hb', e0, e1, e3, e4, e5⟩ : ∃ a' b', 0 < a' ∧ 0 < b' ∧ shape.getD 0 1 = a' ∧ shape.getD 1 1 = b' ∧
      shape.foldr (· * ·) 1 = a' * b' ∧ nrows { p with shape := shape } = a' ∧
      ncols { p with shape := shape } = b' := by
    rcases shape with _ | ⟨a', _ | ⟨b', _ | ⟨c', l⟩⟩⟩
    · simp at hl2
    · exact ⟨a', 1, hpos a' (by simp), by omega, rfl, rfl, by simp, rfl, rfl⟩
    · exact ⟨a', b', hpos a' (by simp), hpos b' (by simp), rfl, rfl, by simp, rfl, rfl⟩
    · simp at hl2
  rw [e0, e1] at hpos2
  have hcpos : 0 < ncols p := by
    rcases hs with ⟨ha, hs⟩ | ⟨b, hb, ha, hs⟩
    · simp [ncols, hs]
    · simpa [ncols, hs] using hb
  have hok : ∀ k, k < p.coeff.length →
      ((!(position shape (coords p.shape k) 0 false).2 && decide ((position shape (coords p.shape k) 0 false).1 < a' * b')) = true ↔
        k / ncols p < a' ∧ k % ncols p < b') := by
    intro k hk
    rw [hpos2 k hk]
    simp only [Bool.and_eq_true, Bool.not_eq_true', Bool.or_eq_false_iff, Bool.and_eq_false_iff, decide_eq_false_iff_not, decide_eq_true_eq]
    refine ⟨fun ⟨⟨h1, h2⟩, _⟩ => ⟨by omega, by omega⟩, fun ⟨h1, h2⟩ => ⟨⟨by omega, by omega⟩, mul_add_lt h1 h2⟩⟩
  obtain ⟨f1, f2, f3⟩ := foldl_set
    (fun k => !(position shape (coords p.shape k) 0 false).2 && decide ((position shape (coords p.shape k) 0 false).1 < a' * b'))
    (fun k => (position shape (coords p.shape k) 0 false).1) (fun k => p.coeff.getD k 0) (a' * b') p.coeff.length
    (by
      intro k _ h
      simp only [Bool.and_eq_true, decide_eq_true_eq] at h
      exact h.2)
    (by
      intro k l hk hl' ok ol he
      have ok := (hok k hk).1 ok
      have ol := (hok l hl').1 ol
      simp only [hpos2 k hk, hpos2 l hl'] at he
      obtain ⟨g1, g2⟩ := mul_add_inj ok.2 ol.2 he
      rw [← Nat.div_add_mod k (ncols p), ← Nat.div_add_mod l (ncols p), g1, g2]) p.coeff.length (Nat.le_refl _)
  have hq : setCoeffShape p shape = { p with
      shape := shape
      coeff := (List.range p.coeff.length).foldl (fun c k =>
        if (!(position shape (coords p.shape k) 0 false).2 && decide ((position shape (coords p.shape k) 0 false).1 < a' * b')) = true then
          c.set (position shape (coords p.shape k) 0 false).1 (p.coeff.getD k 0) else c) (List.replicate (a' * b') 0)
      offsets := p.offsets ++ List.replicate (shape.length - p.offsets.length) 0
      scales := p.scales ++ List.replicate (shape.length - p.scales.length) 1 } := by
    simp only [setCoeffShape, if_neg hsame, e3]
  rw [hq]
  have e4' : ∀ c o s, nrows { p with shape := shape, coeff := c, offsets := o, scales := s } = a' := fun _ _ _ => e4
  have e5' : ∀ c o s, ncols { p with shape := shape, coeff := c, offsets := o, scales := s } = b' := fun _ _ _ => e5
  refine ⟨rfl, ⟨?_, ?_, ?_, ?_⟩, ?_⟩
  · rcases shape with _ | ⟨a', _ | ⟨b', _ | ⟨c', l⟩⟩⟩
    · simp at hl2
    · exact ⟨a', Or.inl ⟨hpos a' (by simp), rfl⟩⟩
    · exact ⟨a', Or.inr ⟨b', hpos b' (by simp), hpos a' (by simp), rfl⟩⟩
    · simp at hl2
  · rw [e4', e5']; exact f1
  · simp only [List.length_append, List.length_replicate]; omega
  · simp only [List.length_append, List.length_replicate]; omega
  · intro i j hi hj
    rw [e4'] at hi
    rw [e5'] at hj ⊢
    by_cases hij : i < nrows p ∧ j < ncols p
    · rw [if_pos hij]
      have hk : i * ncols p + j < p.coeff.length := by rw [hl]; exact mul_add_lt hij.1 hij.2
      have hd : (i * ncols p + j) / ncols p = i := by
        rw [Nat.add_comm, Nat.add_mul_div_right _ _ hcpos, Nat.div_eq_of_lt hij.2, Nat.zero_add]
      have hm : (i * ncols p + j) % ncols p = j := by
        rw [Nat.add_comm, Nat.add_mul_mod_self_right, Nat.mod_eq_of_lt hij.2]
      have := f2 (i * ncols p + j) hk ((hok _ hk).2 ⟨by rw [hd]; exact hi, by rw [hm]; exact hj⟩)
      simp only [hpos2 _ hk, hd, hm] at this
      exact this
    · rw [if_neg hij]
      refine f3 _ fun k hk ok he => hij ?_
      have ok := (hok k hk).1 ok
      simp only [hpos2 k hk] at he
      obtain ⟨g1, g2⟩ := mul_add_inj ok.2 hj he
      rw [← g1, ← g2]
      exact ⟨Nat.div_lt_of_lt_mul (by rw [Nat.mul_comm, hrows]; exact hk), Nat.mod_lt _ hcpos⟩

/-- C82 fails when an axis is added: the polynomial 1 + 2 x becomes 1 + 2 y. -/
theorem C82_refuted : ¬ C82_full := by
  intro h
  obtain ⟨-, -, hk⟩ := h ⟨[1, 2], [2], [0], [1], none, 1, [], [], [], []⟩ [2, 2] ⟨⟨2, Or.inl ⟨by decide, rfl⟩⟩, rfl, by decide, by decide⟩
    (Or.inr rfl) (by decide)
  have := hk 0 1 (by decide +kernel) (by decide +kernel)
  revert this
  decide +kernel

/-- ... and when one is taken away: the constant term is replaced. -/
theorem C82_fewer : (setCoeffShape demo [2]).coeff = [2, 4] ∧ demo.coeff = [1, 2, 3, 4] := by decide +kernel

/-- C82: a polynomial that is given more coefficients keeps its value. -/
theorem C82_value (p : Poly) (shape : List Nat) (hw : PolcWf p) (hr : shape.length = p.shape.length)
    (hpos : ∀ n ∈ shape, 0 < n) (hmore : ∀ i, p.shape.getD i 1 ≤ shape.getD i 1) (x y : ℚ) : value (setCoeffShape p shape) x y = value p x y := by
  have hl2 : shape.length = 1 ∨ shape.length = 2 := by
    obtain ⟨⟨a, hs⟩, -⟩ := hw
    rcases hs with ⟨ha, hs⟩ | ⟨b, hb, ha, hs⟩
    · left; rw [hr, hs]; rfl
    · right; rw [hr, hs]; rfl
  obtain ⟨h1, -, h3⟩ := C82_shape_partial p shape hw (Or.inl hr) hl2 hpos
  have hoff : (setCoeffShape p shape).offsets = p.offsets ∧ (setCoeffShape p shape).scales = p.scales := by
    unfold setCoeffShape
    split
    · exact ⟨rfl, rfl⟩
    · obtain ⟨-, -, ho, hs⟩ := hw
      simp only
      rw [hr, Nat.sub_eq_zero_of_le ho, Nat.sub_eq_zero_of_le hs]
      simp
  have hrow : nrows p ≤ nrows (setCoeffShape p shape) ∧ ncols p ≤ ncols (setCoeffShape p shape) := by
    have m0 := hmore 0
    have m1 := hmore 1
    simp only [nrows, ncols, h1]
    obtain ⟨⟨a, hs⟩, -⟩ := hw
    rcases shape with _ | ⟨a', _ | ⟨b', _ | ⟨c', l⟩⟩⟩
    · simp at hl2
    · rcases hs with ⟨ha, hs⟩ | ⟨b, hb, ha, hs⟩
      · rw [hs] at m0 ⊢; simpa using m0
      · rw [hs] at hr; simp at hr
    · rcases hs with ⟨ha, hs⟩ | ⟨b, hb, ha, hs⟩
      · rw [hs] at hr; simp at hr
      · rw [hs] at m0 m1 ⊢; exact ⟨by simpa using m0, by simpa using m1⟩
    · simp at hl2
  simp only [value, hoff.1, hoff.2]
  generalize scaled (p.offsets.getD 0 0) (p.scales.getD 0 0) x = u
  generalize scaled (p.offsets.getD 1 0) (p.scales.getD 1 0) y = v
  generalize setCoeffShape p shape = q at *
  unfold polyVal
  have hin : ∀ i, i < nrows q → ∑ j ∈ range (ncols q), q.coeff.getD (i * ncols q + j) 0 * u ^ i * v ^ j =
      if i < nrows p then ∑ j ∈ range (ncols p), p.coeff.getD (i * ncols p + j) 0 * u ^ i * v ^ j else 0 := by
    intro i hi
    by_cases hip : i < nrows p
    · rw [if_pos hip]
      symm
      refine sum_subset_zero_on_sdiff (fun j hj => ?_) (fun j hj => ?_) (fun j hj => ?_)
      · have := mem_range.1 hj
        exact mem_range.2 (by omega)
      · obtain ⟨g1, g2⟩ := mem_sdiff.1 hj
        rw [h3 i j hi (mem_range.1 g1), if_neg (fun h => g2 (mem_range.2 h.2))]; ring
      · have hj := mem_range.1 hj
        rw [h3 i j hi (by omega), if_pos ⟨hip, hj⟩]
    · rw [if_neg hip]
      refine sum_eq_zero fun j hj => ?_
      rw [h3 i j hi (mem_range.1 hj), if_neg (fun h => hip h.1)]; ring
  rw [sum_congr rfl fun i hi => hin i (mem_range.1 hi)]
  symm
  refine sum_subset_zero_on_sdiff (fun i hi => ?_) (fun i hi => ?_) (fun i hi => ?_)
  · have := mem_range.1 hi
    exact mem_range.2 (by omega)
  · obtain ⟨g1, g2⟩ := mem_sdiff.1 hi
    rw [if_neg (fun h => g2 (mem_range.2 h))]
  · rw [if_pos (mem_range.1 hi)]

example : (setCoeffShape demo [3, 3]).coeff = [1, 2, 0, 3, 4, 0, 0, 0, 0] ∧ (setCoeffShape demo [1, 2]).coeff = [1, 2] := by decide +kernel

/-! ## C83 -/

/-- C83, in full. -/
def C83_full : Prop := ∀ (p : Poly) (spid0 : Int) (q : Poly) (n : Nat), PolcWf p → makeSolvable p spid0 = .ok (q, n) → ∀ x y, value q x y = value p x y

/-- C83: what becomes of the polynomial: unless a mask was given, coefficients outside the default selection become 0. -/
theorem C83_dropped (p : Poly) (spid0 : Int) (q : Poly) (n : Nat) (hw : PolcWf p) (h : makeSolvable p spid0 = .ok (q, n)) :
    q.shape = p.shape ∧ q.offsets = p.offsets ∧ q.scales = p.scales ∧
    (q.coeff = p.coeff ∨ (∀ m, p.mask = some m → m.length ≠ p.coeff.length) ∧ q.coeff.length = p.coeff.length ∧
      ∀ k, k < p.coeff.length → q.coeff.getD k 0 = if (defaultMask p)[k]? = some false then 0 else p.coeff.getD k 0) := by
  unfold makeSolvable at h
  split at h
  · obtain ⟨g1, g2, g3, g4⟩ := solvable_all_same h
    exact ⟨g2, g3, g4, Or.inl g1⟩
  · rename_i h4
    split at h
    · rename_i nx ny l hs
      have hl0 : l = [] := by
        obtain ⟨⟨a, hs'⟩, -⟩ := hw
        rcases hs' with ⟨ha, hs'⟩ | ⟨b, hb, ha, hs'⟩
        · rw [hs'] at hs; simp at hs
        · rw [hs'] at hs
          simp only [List.cons.injEq] at hs
          exact hs.2.2.symm
      subst hl0
      have hl : p.coeff.length = nx * ny := by
        have := hw.2.1
        simpa [nrows, ncols, hs] using this
      have hd : ¬ (p.coeff.length < 4 ∨ p.shape.length ≤ 1) := by simp [hs]; omega
      have key : ∀ {r}, makeSolvableMask { p with coeff := (List.range p.coeff.length).map (fun k => if k < nx * ny ∧ inTriangle nx ny k = false then 0 else p.coeff.getD k 0), mask := some ((List.range (nx * ny)).map (inTriangle nx ny)) } spid0 ((List.range (nx * ny)).map (inTriangle nx ny)) = .ok (r, n) →
          r.shape = p.shape ∧ r.offsets = p.offsets ∧ r.scales = p.scales ∧ r.coeff.length = p.coeff.length ∧
          ∀ k, k < p.coeff.length → r.coeff.getD k 0 = if (defaultMask p)[k]? = some false then 0 else p.coeff.getD k 0 := by
        intro r hr
        obtain ⟨g1, g2, g3, g4⟩ := solvable_same hr
        refine ⟨g2, g3, g4, by rw [g1]; simp, fun k hk => ?_⟩
        rw [g1]
        unfold defaultMask
        rw [if_neg hd, show nrows p = nx by simp [nrows, hs], show ncols p = ny by simp [ncols, hs]]
        have hk' : k < nx * ny := by omega
        simp only [List.getD_eq_getElem?_getD, List.getElem?_map, List.getElem?_range hk, Option.map_some, Option.getD_some, Option.some.injEq, hk', true_and]
        rfl
      simp only at h
      split at h
      · rename_i m hm
        split at h
        · obtain ⟨g1, g2, g3, g4⟩ := solvable_same h
          exact ⟨g2, g3, g4, Or.inl g1⟩
        · rename_i hml
          obtain ⟨g1, g2, g3, g4⟩ := key h
          refine ⟨g1, g2, g3, Or.inr ⟨?_, g4⟩⟩
          intro m' hm'
          rw [hm] at hm'
          injection hm' with hm'
          subst hm'
          exact hml
      · rename_i hm
        obtain ⟨g1, g2, g3, g4⟩ := key h
        exact ⟨g1, g2, g3, Or.inr ⟨(fun m' hm' => by rw [hm] at hm'; cases hm'), g4⟩⟩
    · obtain ⟨g1, g2, g3, g4⟩ := solvable_all_same h
      exact ⟨g2, g3, g4, Or.inl g1⟩

/-- C83 when a mask of the right size was given, or no coefficient outside the default selection is in use. -/
theorem C83_value_partial (p : Poly) (spid0 : Int) (q : Poly) (n : Nat) (hw : PolcWf p) (h : makeSolvable p spid0 = .ok (q, n))
    (hok : (∃ m, p.mask = some m ∧ m.length = p.coeff.length) ∨ ∀ k : Nat, (defaultMask p)[k]? = some false → p.coeff.getD k 0 = 0)
    (x y : ℚ) : value q x y = value p x y := by
  obtain ⟨g1, g2, g3, g4⟩ := C83_dropped p spid0 q n hw h
  have hc : ∀ k, k < p.coeff.length → q.coeff.getD k 0 = p.coeff.getD k 0 := by
    intro k hk
    rcases g4 with g4 | ⟨g4, -, g5⟩
    · rw [g4]
    · rcases hok with ⟨m, hm, hm'⟩ | hz
      · exact (g4 m hm hm').elim
      · rw [g5 k hk]
        split
        · rename_i hf; exact (hz k hf).symm
        · rfl
  have hl := hw.2.1
  have er : nrows q = nrows p := by simp only [nrows, g1]
  have ec : ncols q = ncols p := by simp only [ncols, g1]
  simp only [value, g2, g3, er, ec, polyVal]
  refine sum_congr rfl fun i hi => sum_congr rfl fun j hj => ?_
  rw [hc _ (by rw [hl]; exact mul_add_lt (mem_range.1 hi) (mem_range.1 hj))]

/-- C83 fails for 1 + 2 y + 3 x + 4 x y: the last term is dropped. -/
theorem C83_refuted : ¬ C83_full := by
  intro h
  have h1 : makeSolvable { demo with mask := none } 0 = .ok
      ({ demo with coeff := [1, 2, 3, 0], mask := some [true, true, true, false], spids := [0, 1, 2], spidInx := [0, 1, 2, -1],
                   parmPerts := [1/2, 1/2, 1/2, 1/2], spidPerts := [1/2, 1/2, 1/2] }, 3) := by decide +kernel
  have := h _ 0 _ _ ⟨⟨2, Or.inr ⟨2, by decide, by decide, rfl⟩⟩, rfl, by decide, by decide⟩ h1 1 2
  norm_num [value, polyVal, sum_range_succ, demo, nrows, ncols, scaled] at this

end Verif.Polc
