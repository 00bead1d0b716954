import Verif.Proof.RequestId
/-! # Properties of request ids and symbolic dependencies (C28, C29, C30, C69) -/
namespace Verif.RequestId

/-! ## C28 -/

/-- Full statement: the difference mask tells exactly which components differ. -/
def C28_full : Prop := ∀ (a b : List Int) (i : Nat), (diffMask a b).testBit i = true ↔ comp a i ≠ comp b i

/-- Components beyond the sixteenth are not looked at. -/
theorem C28_refuted : ¬ C28_full := by
  intro h
  have := (h [] (List.replicate 16 0 ++ [1]) 16).2 (by decide)
  revert this
  decide +kernel

/-- **C28 (part).** The difference mask has bit `i` set iff component `i` differs, for the first 16 components, and no
other bits.  Missing: components beyond the sixteenth. -/
theorem C28_diffMask_partial (a b : List Int) (i : Nat) :
    (diffMask a b).testBit i = true ↔ i < 16 ∧ comp a i ≠ comp b i := by
  unfold diffMask
  rw [testBit_diffLoop]
  simp [nbits]

/-- For ids of up to 16 components, which is what a request id is documented to have, it is exact. -/
theorem C28_diffMask (a b : List Int) (ha : a.length ≤ 16) (hb : b.length ≤ 16) (i : Nat) :
    (diffMask a b).testBit i = true ↔ comp a i ≠ comp b i := by
  rw [C28_diffMask_partial]
  constructor
  · exact fun h => h.2
  · intro h
    refine ⟨?_, h⟩
    by_contra hc
    rw [comp_ge a i (by omega), comp_ge b i (by omega)] at h
    exact h rfl

/-- **C28.** For ids with components, the masked comparison is true iff all components selected by the mask agree. -/
theorem C28_maskedCompare (a b : List Int) (m : Nat) (ha : a ≠ []) (hb : b ≠ []) :
    maskedCompare a b m = true ↔ ∀ i < 16, m.testBit i = true → comp a i = comp b i := by
  unfold maskedCompare
  by_cases h0 : (m : Int) = 0
  · have : m = 0 := by omega
    subst this
    simp
  · rw [if_neg h0, if_neg (by simp [ha, hb]), cmpLoop_iff]
    simp only [Nat.zero_add, bit_natCast]
    rfl

/-- An id without components agrees with nothing, itself included, unless the mask is empty. -/
theorem C28_null_id (a : List Int) (m : Int) : (maskedCompare a [] m = true ↔ m = 0) ∧ (maskedCompare [] a m = true ↔ m = 0) := by
  unfold maskedCompare
  constructor <;> (by_cases h : m = 0 <;> simp [h])

/-- The two functions tell the same story. -/
theorem C28_agree (a b : List Int) (m : Nat) (ha : a ≠ []) (hb : b ≠ []) :
    maskedCompare a b m = true ↔ diffMask a b &&& m = 0 := by
  rw [C28_maskedCompare a b m ha hb]
  constructor
  · intro h
    apply Nat.eq_of_testBit_eq
    intro i
    rw [Nat.testBit_and, Nat.zero_testBit]
    by_contra hc
    simp only [Bool.not_eq_false, Bool.and_eq_true] at hc
    obtain ⟨h1, h2⟩ := hc
    rw [C28_diffMask_partial] at h1
    exact h1.2 (h i h1.1 h2)
  · intro h i hi hb'
    by_contra hc
    have h1 := (C28_diffMask_partial a b i).2 ⟨hi, hc⟩
    have : (diffMask a b &&& m).testBit i = true := by rw [Nat.testBit_and, h1, hb']; rfl
    rw [h] at this
    simp at this

/-- Masking an id keeps exactly the selected components (an empty mask gives the id `0`). -/
theorem C28_maskSubId (id : List Int) (m : Nat) (i : Nat) (hi : i < 16) :
    comp (maskSubId id m) i = if m.testBit i = true then comp id i else 0 := by
  unfold maskSubId
  by_cases h0 : (m : Int) = 0
  · have : m = 0 := by omega
    subst this
    simp only [if_pos h0, Nat.zero_testBit, Bool.false_eq_true, if_false]
    cases i <;> simp [comp]
  · rw [if_neg h0, comp_maskLoop, Nat.zero_add, bit_natCast]
    unfold nbits
    cases m.testBit i <;> simp [hi]

example : diffMask [1, 2, 3] [1, 5] = 6 ∧ maskedCompare [1, 2, 3] [1, 5] 1 = true ∧ maskedCompare [1, 2, 3] [1, 5] 5 = false
    ∧ maskSubId [1, 2, 3] 5 = [1, 0, 3] := by decide +kernel

/-! ## C29 -/

/-- **C29.** `setSubId` returns for every mask without the sign bit, sets the selected components to the value and leaves
every other as it was. -/
theorem C29_setSubId (id : List Int) (m : Nat) (v : Int) : ∃ id', setSubId id m v = some id' ∧
    ∀ i, comp id' i = if i < 16 ∧ m.testBit i = true then v else comp id i := by
  by_cases h0 : (m : Int) = 0
  · refine ⟨id, by simp [setSubId, h0], fun i => ?_⟩
    have : m = 0 := by omega
    subst this
    simp
  · refine ⟨updLoop (fun _ => v) m 0 (resizeUp id (shiftLoop m m)), ?_, fun i => ?_⟩
    · unfold setSubId msb
      rw [if_neg h0, if_neg (by omega)]
      simp
    · exact comp_upd (fun _ => v) id m i

/-- **C29.** `incrSubId` adds one to the selected components and leaves every other as it was. -/
theorem C29_incrSubId (id : List Int) (m : Nat) : ∃ id', incrSubId id m = some id' ∧
    ∀ i, comp id' i = if i < 16 ∧ m.testBit i = true then comp id i + 1 else comp id i := by
  by_cases h0 : (m : Int) = 0
  · refine ⟨id, by simp [incrSubId, h0], fun i => ?_⟩
    have : m = 0 := by omega
    subst this
    simp
  · refine ⟨updLoop (· + 1) m 0 (resizeUp id (shiftLoop m m)), ?_, fun i => ?_⟩
    · unfold incrSubId msb
      rw [if_neg h0, if_neg (by omega)]
      simp
    · exact comp_upd (· + 1) id m i

/-- **C29.** The difference mask of an id and its increment is the mask itself, and that of an id and its update is
contained in the mask. -/
theorem C29_diff (id id₁ id₂ : List Int) (m : Nat) (v : Int) (hm : m < 2 ^ 16) (h1 : incrSubId id m = some id₁)
    (h2 : setSubId id m v = some id₂) : diffMask id id₁ = m ∧ diffMask id id₂ &&& m = diffMask id id₂ := by
  obtain ⟨i1, e1, c1⟩ := C29_incrSubId id m
  obtain ⟨i2, e2, c2⟩ := C29_setSubId id m v
  rw [h1] at e1
  rw [h2] at e2
  cases e1
  cases e2
  constructor
  · apply Nat.eq_of_testBit_eq
    intro i
    have key : (diffMask id id₁).testBit i = true ↔ m.testBit i = true := by
      rw [C28_diffMask_partial, c1]
      constructor
      · rintro ⟨hi, h⟩
        by_contra hc
        rw [if_neg (by simp [hc])] at h
        exact h rfl
      · intro h
        have hi : i < 16 := by
          by_contra hc
          rw [Nat.testBit_lt_two_pow (Nat.lt_of_lt_of_le hm (Nat.pow_le_pow_right (by omega) (by omega)))] at h
          cases h
        rw [if_pos ⟨hi, h⟩]
        exact ⟨hi, by omega⟩
    cases ha : (diffMask id id₁).testBit i <;> cases hb : m.testBit i <;> simp_all
  · apply Nat.eq_of_testBit_eq
    intro i
    rw [Nat.testBit_and]
    cases hd : (diffMask id id₂).testBit i with
    | false => rfl
    | true =>
      rw [C28_diffMask_partial, c2] at hd
      by_contra hc
      have : ¬ m.testBit i = true := by
        intro h; rw [h] at hc; exact hc rfl
      rw [if_neg (by simp [this])] at hd
      exact hd.2 rfl

/-- With a negative mask neither function returns: the loop looking for the highest bit shifts in sign bits. -/
theorem C29_negative_mask (id : List Int) (m v : Int) (h : m < 0) : incrSubId id m = none ∧ setSubId id m v = none := by
  have h0 : m ≠ 0 := by omega
  have hm : msb m = none := if_pos h
  simp [incrSubId, setSubId, h0, hm]

example : incrSubId [7] 6 = some [7, 1, 1] ∧ setSubId [7, 8] 1 3 = some [3, 8] := by decide +kernel

/-! ## C30 -/

/-- Full statement: after any sequence of calls, failed ones included, the active mask is the union of the masks of the
active dependencies. -/
def C30_full : Prop := ∀ (ops : List SOp) (i : Nat),
  (ops.foldl sstep sinit).mask.testBit i = true ↔
    ∃ d ∈ (ops.foldl sstep sinit).active, (maskOf (ops.foldl sstep sinit).map d).testBit i = true

/-- A load that fails has already thrown away the old masks, but the active mask stays. -/
theorem C30_refuted : ¬ C30_full := by
  intro h
  have := (h [.set [1] 1, .setActive [[1]], .loadBad []] 0).1 (by decide)
  revert this
  decide +kernel

/-- **C30 (part).** After any sequence of successful calls the active mask is the union of the masks of the active
dependencies.  Missing: loads that fail half-way. -/
theorem C30_active_mask_partial (ops : List SOp) (hops : ∀ m, SOp.loadBad m ∉ ops) (i : Nat) :
    let s := ops.foldl sstep sinit
    s.mask.testBit i = true ↔ ∃ d ∈ s.active, (maskOf s.map d).testBit i = true := by
  have inv : ∀ (ops : List SOp) (s : Symdeps), (∀ m, SOp.loadBad m ∉ ops) → (∀ i, s.mask.testBit i = true ↔ ∃ d ∈ s.active, (maskOf s.map d).testBit i = true) →
      ∀ i, (ops.foldl sstep s).mask.testBit i = true ↔ ∃ d ∈ (ops.foldl sstep s).active, (maskOf (ops.foldl sstep s).map d).testBit i = true := by
    intro ops
    induction ops with
    | nil => intro s _ h; exact h
    | cons op ops ih =>
      intro s hops h
      apply ih _ (fun m hm => hops m (by simp [hm]))
      intro i
      cases op with
      | set d m => exact testBit_getMask _ _ i
      | load m => exact testBit_getMask _ _ i
      | loadBad m => exact absurd (by simp) (hops m)
      | setActive deps => exact testBit_getMask _ _ i
      | clearActive => simp [sstep]
  exact inv ops sinit hops (by intro i; simp [sinit]) i

/-- What a dependency's mask is: the last one set, or the last one in the map loaded last. -/
theorem C30_maskOf (s : Symdeps) (d d' : List Int) (m : Nat) (map : List (List Int × Nat)) (deps : List (List Int)) :
    maskOf (sstep s (.set d m)).map d' = (if d' = d then m else maskOf s.map d') ∧
    maskOf (sstep s (.load map)).map d' = maskOf map.reverse d' ∧
    maskOf (sstep s (.setActive deps)).map d' = maskOf s.map d' ∧ (sstep s (.setActive deps)).active = deps ∧
    (sstep s (.set d m)).active = s.active ∧ (sstep s (.load map)).active = s.active := by
  have hload : ∀ (map acc : List (List Int × Nat)),
      Assoc.find (map.foldl (fun acc p => Assoc.set acc p.1 p.2) acc) d' = (Assoc.find map.reverse d').or (Assoc.find acc d') := by
    intro map
    induction map with
    | nil => intro acc; simp [Assoc.find]
    | cons p map ih =>
      intro acc
      simp only [List.foldl_cons]
      rw [ih, Assoc.find_set]
      have happ : ∀ l : List (List Int × Nat), Assoc.find (l ++ [p]) d' = (Assoc.find l d').or (if d' = p.1 then some p.2 else none) := by
        intro l
        induction l with
        | nil => obtain ⟨k, v⟩ := p; simp [Assoc.find, eq_comm]
        | cons q l ih =>
          obtain ⟨k, v⟩ := q
          simp only [List.cons_append, Assoc.find]
          split
          · rfl
          · exact ih
      rw [List.reverse_cons, happ, Option.or_assoc]
      congr 1
      split <;> simp
  refine ⟨?_, ?_, rfl, rfl, rfl, rfl⟩
  · simp only [sstep, maskOf, Assoc.find_set]
    split <;> rfl
  · simp only [sstep, maskOf, loadMap, hload]
    simp [Assoc.find]

example : ([SOp.setActive [[1], [2]], .set [1] 4, .load [([2], 8), ([1], 1)]].foldl sstep sinit).mask = 9 := by decide +kernel

/-! ## C69: a changed dependency always gives a new request id -/

/-- Requests made with changing dependencies: all ids in the order they are made. -/
def trace (map : List (List Int × Nat)) : Counts → List (List Int) → List (List Int)
  | s, [] => [s.id]
  | s, d :: ds => s.id :: trace map (incrRequestId map s d) ds

/-- Full statement: an id made by changing a (known) dependency differs, in the components of that dependency, from
every id made before it. -/
def C69_full : Prop := ∀ (map : List (List Int × Nat)) (ds : List (List Int)) (d : List Int),
  (∀ p ∈ map, p.2 < 2 ^ 16) → maskOf map d ≠ 0 →
  ∀ old ∈ trace map ⟨[], []⟩ ds, diffMask old (incrRequestId map (ds.foldl (incrRequestId map) ⟨[], []⟩) d).id ≠ 0

/-- Two dependencies sharing a bit count separately, so one repeats the other's values: here, changing the second
dependency after the first leaves the request id as it was. -/
theorem C69_refuted : ¬ C69_full := by
  intro h
  have := h [([1], 1), ([2], 1)] [[1]] [2] (by decide) (by decide) [1] (by decide)
  revert this
  decide +kernel

/-- Masks of different dependencies have no bit in common. -/
def Disjoint (map : List (List Int × Nat)) : Prop :=
  ∀ d d', d ≠ d' → ∀ i, ¬ ((maskOf map d).testBit i = true ∧ (maskOf map d').testBit i = true)

theorem getMask_one (map : List (List Int × Nat)) (d : List Int) : getMask map [d] = maskOf map d := by
  unfold getMask maskOf
  simp only [List.foldl_cons, List.foldl_nil]
  cases Assoc.find map d <;> simp

/-- How often a dependency has changed. -/
def cnt (s : Counts) (d : List Int) : Nat := (Assoc.find s.counts d).getD 0

theorem incr_cnt (map : List (List Int × Nat)) (s : Counts) (d d' : List Int) :
    cnt (incrRequestId map s d) d' = if d' = d ∧ maskOf map d ≠ 0 then cnt s d + 1 else cnt s d' := by
  unfold incrRequestId
  rw [getMask_one]
  by_cases h : maskOf map d = 0
  · simp [h]
  · simp only [h, if_false, cnt, Assoc.find_set, ne_eq, not_false_eq_true, and_true]
    split <;> rfl

theorem incr_comp (map : List (List Int × Nat)) (s : Counts) (d : List Int) (i : Nat) :
    comp (incrRequestId map s d).id i =
      if i < 16 ∧ (maskOf map d).testBit i = true then ((cnt s d + 1 : Nat) : Int) else comp s.id i := by
  unfold incrRequestId
  rw [getMask_one]
  by_cases h : maskOf map d = 0
  · simp [h]
  · simp only [h, if_false]
    obtain ⟨id', e, hc⟩ := C29_setSubId s.id (maskOf map d) ((cnt s d + 1 : Nat) : Int)
    have e' : setSubId s.id ↑(maskOf map d) ↑((Assoc.find s.counts d).getD 0 + 1) = some id' := e
    rw [e']
    exact hc i

/-- Each component in use holds the count of its dependency. -/
def Inv (map : List (List Int × Nat)) (s : Counts) : Prop :=
  ∀ d i, i < 16 → (maskOf map d).testBit i = true → comp s.id i = (cnt s d : Int)

theorem inv_incr (map : List (List Int × Nat)) (hd : Disjoint map) (s : Counts) (h : Inv map s) (d : List Int) :
    Inv map (incrRequestId map s d) := by
  intro d' i hi hb
  rw [incr_comp, incr_cnt]
  by_cases e : d' = d
  · subst e
    have hne : maskOf map d' ≠ 0 := by intro h0; rw [h0] at hb; simp at hb
    rw [if_pos ⟨hi, hb⟩, if_pos ⟨rfl, hne⟩]
  · rw [if_neg (fun hc => hd d' d e i ⟨hb, hc.2⟩), if_neg (fun hc => e hc.1)]
    exact h d' i hi hb

theorem cnt_mono (map : List (List Int × Nat)) (s : Counts) (d d' : List Int) : cnt s d' ≤ cnt (incrRequestId map s d) d' := by
  rw [incr_cnt]
  split
  · rename_i h; rw [h.1]; omega
  · omega

theorem trace_le (map : List (List Int × Nat)) (hd : Disjoint map) (ds : List (List Int)) : ∀ s, Inv map s →
    (Inv map (ds.foldl (incrRequestId map) s)) ∧ (∀ d, cnt s d ≤ cnt (ds.foldl (incrRequestId map) s) d) ∧
    ∀ old ∈ trace map s ds, ∀ d i, i < 16 → (maskOf map d).testBit i = true →
      comp old i ≤ (cnt (ds.foldl (incrRequestId map) s) d : Int) := by
  induction ds with
  | nil =>
    intro s h
    refine ⟨h, fun _ => Nat.le_refl _, ?_⟩
    intro old ho d i hi hb
    simp only [trace, List.mem_singleton] at ho
    subst ho
    rw [h d i hi hb]
    exact Int.le_refl _
  | cons d ds ih =>
    intro s h
    obtain ⟨h1, h2, h3⟩ := ih (incrRequestId map s d) (inv_incr map hd s h d)
    simp only [List.foldl_cons]
    refine ⟨h1, fun d' => Nat.le_trans (cnt_mono map s d d') (h2 d'), ?_⟩
    intro old ho d' i hi hb
    simp only [trace, List.mem_cons] at ho
    rcases ho with rfl | ho
    · rw [h d' i hi hb]
      have := Nat.le_trans (cnt_mono map s d d') (h2 d')
      omega
    · exact h3 old ho d' i hi hb

/-- **C69 (part).** If no two dependencies share a bit, an id made by changing a dependency differs, in every component of
that dependency, from every id made before.  Missing: dependencies with common bits. -/
theorem C69_new_id_partial (map : List (List Int × Nat)) (hd : Disjoint map) (ds : List (List Int)) (d : List Int)
    (old : List Int) (ho : old ∈ trace map ⟨[], []⟩ ds) (i : Nat) (hi : i < 16) (hb : (maskOf map d).testBit i = true) :
    (diffMask old (incrRequestId map (ds.foldl (incrRequestId map) ⟨[], []⟩) d).id).testBit i = true := by
  obtain ⟨_, _, h3⟩ := trace_le map hd ds ⟨[], []⟩ (by intro d i _ _; simp [comp_nil, cnt, Assoc.find])
  have := h3 old ho d i hi hb
  rw [C28_diffMask_partial, incr_comp, if_pos ⟨hi, hb⟩]
  refine ⟨hi, ?_⟩
  omega

example : (incrRequestId [([1], 1), ([2], 6)] (incrRequestId [([1], 1), ([2], 6)] ⟨[], []⟩ [2]) [1]).id = [1, 1, 1] := by
  decide +kernel

end Verif.RequestId
