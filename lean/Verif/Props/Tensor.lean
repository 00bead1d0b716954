import Verif.Proof.TensorMul
/-! # Tensor results: C98 - C102 -/
namespace Verif.Tensor
open Verif.Func (mapRes Plane ChildRes Code failPlane addFails evalPlane)

/-- Planes of examples: number, with 100 and above for failures, 0 for an empty one. -/
def exOps : Ops Nat := ⟨fun p => decide (100 ≤ p), fun p => decide (p = 0 ∨ 100 ≤ p), 0, 999⟩

/-! ## C98: composing -/

/-- Planes and return code of a composed result, whatever the children are. -/
def C98_full : Prop :=
  ∀ (P : Type) (o : Ops P) (dims : List Nat) (ch : List (TRes P)), (∀ c ∈ ch, c.planes.length < 2 ∨ Sized c) →
    ∀ r code, compose o dims ch = .ok (r, code) → code = codeFor o r.planes ∧ (r.planes ≠ [] → Sized r)

/-- Without tensor mode the children's planes follow each other; planes that are lacking are new ones, and the return code tells
whether all of the children's planes are failures or all are empty. -/
theorem C98_append_partial (o : Ops P) (dims : List Nat) (ch : List (TRes P)) (hd : dims ≠ [0]) :
    ∃ r code, compose o dims ch = .ok (r, code) ∧
      r.planes = ch.flatMap (·.planes) ++ List.replicate ((if dims = [] then 0 else prod dims) - (ch.flatMap (·.planes)).length) o.new ∧
      r.dims = (if dims = [] then (if 1 < (ch.flatMap (·.planes)).length then [(ch.flatMap (·.planes)).length] else []) else outShape dims) ∧
      code = codeFor o (ch.flatMap (·.planes)) := by
  have hlen : (ch.map fun c => c.planes.length).sum = (ch.flatMap (·.planes)).length := by rw [List.length_flatMap]
  unfold compose
  rw [if_neg hd]
  simp only
  rw [appendLoop_spec o ch ⟨if dims = [] then allocN o.new _ else allocDims o.new dims, 0, 0, 0⟩ [] _ rfl rfl]
  simp only [Res.bind, hlen]
  refine ⟨_, _, rfl, ?_, ?_, ?_⟩
  · by_cases h : dims = []
    · simp [h, allocN]
    · simp [h, allocDims]
  · by_cases h : dims = []
    · simp [h, allocN]
    · simp only [h, if_false, allocDims, outShape]
  · apply codeFor_count
    · simp
    · simp

/-- With as many planes as the node's dimensions ask for, the result has these dimensions. -/
theorem C98_shape_partial (o : Ops P) (dims : List Nat) (ch : List (TRes P)) (hd : dims ≠ [0]) (hne : dims ≠ [])
    (hn : (ch.flatMap (·.planes)).length = prod dims) :
    ∃ r, compose o dims ch = .ok (r, codeFor o (ch.flatMap (·.planes))) ∧ Sized r ∧ r.dims = outShape dims ∧ r.planes = ch.flatMap (·.planes) := by
  obtain ⟨r, code, h1, h2, h3, h4⟩ := C98_append_partial o dims ch hd
  have hp : r.planes = ch.flatMap (·.planes) := by rw [h2, if_neg hne, hn, Nat.sub_self]; simp
  rw [if_neg hne] at h3
  refine ⟨r, by rw [h1, h4], ⟨?_, ?_⟩, h3, hp⟩
  · rw [hp, hn, h3]; unfold outShape; split
    · assumption
    · rfl
  · rw [hp, hn, h3]; intro h; unfold outShape; rw [if_pos h]

/-- In tensor mode children that are tensors of the same dimensions, scalars and empty results become a tensor with one more
axis, over the children; scalars are repeated. -/
theorem C98_tensor_partial (o : Ops P) (ch : List (TRes P)) (d : List Nat) (hch : ch ≠ [])
    (hc : ∀ c ∈ ch, c.planes.length < 2 ∨ (Sized c ∧ c.dims = d)) (hd : d = [] ∨ ∃ c ∈ ch, 2 ≤ c.planes.length) :
    ∃ r code, compose o [0] ch = .ok (r, code) ∧ r.dims = outShape (ch.length :: d) ∧ r.planes.length = ch.length * prod d ∧
      ∀ (i : Nat) (c : TRes P), ch[i]? = some c → ∀ idx, ValidIdx d idx →
        r.planes[rowMajor (ch.length :: d) (i :: idx)]? = if 2 ≤ c.planes.length then elem c idx else some (c.planes.headD o.new) := by
  have hw : ∀ c ∈ ch, 2 ≤ c.planes.length → c.dims ≠ [] := by
    intro c h h2 hn
    rcases hc c h with h3 | ⟨h3, _⟩
    · omega
    · have := h3.1; rw [hn] at this; simp [prod] at this; omega
  have hcd : ∀ c ∈ ch, 2 ≤ c.planes.length → c.dims = d := fun c h h2 => by
    rcases hc c h with h3 | ⟨_, h3⟩
    · omega
    · exact h3
  have hcom : commonDims ch [] 0 = .ok (d, prod d) := by
    rcases hd with hd | hd
    · subst hd
      have hall : ∀ c ∈ ch, c.planes.length < 2 := by
        intro c h
        by_contra hcon
        exact hw c h (by omega) (hcd c h (by omega))
      rw [(commonDims_spec ch [] 0 hw).2.2.1 rfl hall, if_neg hch]; rfl
    · exact (commonDims_spec ch [] 0 hw).2.2.2.1 rfl d hcd hd
  have hcn : ∀ c ∈ ch, c.planes.length = prod d ∨ c.planes.length < 2 := by
    intro c h
    rcases hc c h with h3 | ⟨h3, h4⟩
    · exact Or.inr h3
    · left; rw [h3.1, h4]
  have hsl : ∀ c ∈ ch, (spread o (prod d) c).length = prod d := by
    intro c _; unfold spread; split
    · assumption
    · simp
  have hfl := flatMap_length_const (spread o (prod d)) (prod d) ch hsl
  unfold compose
  rw [if_pos rfl]
  simp only [hcom, Res.bind]
  rw [tensorLoop_spec o (prod d) ch hcn ⟨allocDims o.new (ch.length :: d), 0, 0, 0⟩ [] _ rfl rfl]
  have hpl : [] ++ ch.flatMap (spread o (prod d)) ++ (List.replicate (prod (ch.length :: d)) o.new).drop (ch.length * prod d) = ch.flatMap (spread o (prod d)) := by
    rw [List.drop_eq_nil_of_le (by simp [prod])]; simp
  refine ⟨_, _, rfl, rfl, ?_, ?_⟩
  · simp only [hpl, hfl]
  · intro i c hi idx hidx
    simp only [hpl, rowMajor]
    have hm : c ∈ ch := List.mem_iff_getElem?.2 ⟨i, hi⟩
    have hlt := rowMajor_lt d idx hidx
    rw [flatMap_get (spread o (prod d)) (prod d) ch hsl i _ c hi hlt]
    by_cases h2 : 2 ≤ c.planes.length
    · rw [if_pos h2]
      have hl : c.planes.length = prod d := by rcases hcn c hm with h | h; exact h; omega
      simp only [spread, if_pos hl, elem, hcd c hm h2]
    · rw [if_neg h2]
      unfold spread
      split
      · rename_i hl
        cases hp : c.planes with
        | nil => rw [hp] at hl; simp at hl; omega
        | cons p l =>
          cases l with
          | cons q l => rw [hp] at h2; simp at h2
          | nil =>
            rw [hp] at hl
            simp only [List.length_cons, List.length_nil] at hl
            rw [show rowMajor d idx = 0 by omega]; rfl
      · simp [hlt]

/-- If all children have as many planes as the others, the return code is that of the planes of the result. -/
theorem C98_tensorCode_partial (o : Ops P) (ch : List (TRes P)) (d : List Nat) (hch : ch ≠ []) (hc : ∀ c ∈ ch, c.dims = d ∧ Sized c) (hd : d = [] ∨ 2 ≤ prod d) :
    ∃ r, compose o [0] ch = .ok (r, codeFor o r.planes) ∧ r.planes = ch.flatMap (·.planes) := by
  have hlen : ∀ c ∈ ch, c.planes.length = prod d := fun c h => by rw [(hc c h).2.1, (hc c h).1]
  have hw : ∀ c ∈ ch, 2 ≤ c.planes.length → c.dims ≠ [] := by
    intro c h h2 hn
    have := (hc c h).2.1
    rw [hn] at this; simp [prod] at this; omega
  have hcom : commonDims ch [] 0 = .ok (d, prod d) := by
    rcases hd with hd | hd
    · subst hd
      rw [(commonDims_spec ch [] 0 hw).2.2.1 rfl (fun c h => by rw [hlen c h]; simp [prod]), if_neg hch]; rfl
    · obtain ⟨c, hcm⟩ := List.exists_mem_of_ne_nil ch hch
      exact (commonDims_spec ch [] 0 hw).2.2.2.1 rfl d (fun c h _ => (hc c h).1) ⟨c, hcm, by rw [hlen c hcm]; exact hd⟩
  have hspread : ∀ c ∈ ch, spread o (prod d) c = c.planes := fun c h => by unfold spread; rw [if_pos (hlen c h)]
  have hfm : ch.flatMap (spread o (prod d)) = ch.flatMap (·.planes) := List.flatMap_congr hspread
  have hfl := flatMap_length_const (fun c : TRes P => c.planes) (prod d) ch hlen
  have hsum : (ch.map fun c => c.planes.length).sum = (ch.flatMap (·.planes)).length := by rw [List.length_flatMap]
  have ht1 : (ch.map fun c => (tally o (prod d) c).1).sum = (ch.flatMap (·.planes)).countP o.isFail := by
    rw [List.countP_flatMap]
    congr 1
    exact List.map_congr_left fun c h => by unfold tally; rw [if_pos (hlen c h)]; rfl
  have ht2 : (ch.map fun c => (tally o (prod d) c).2).sum = (ch.flatMap (·.planes)).countP (fun p => !o.isFail p && o.isEmpty p) := by
    rw [List.countP_flatMap]
    congr 1
    exact List.map_congr_left fun c h => by unfold tally; rw [if_pos (hlen c h)]; rfl
  unfold compose
  rw [if_pos rfl]
  simp only [hcom, Res.bind]
  rw [tensorLoop_spec o (prod d) ch (fun c h => Or.inl (hlen c h)) ⟨allocDims o.new (ch.length :: d), 0, 0, 0⟩ [] _ rfl rfl]
  have hpl : [] ++ ch.flatMap (spread o (prod d)) ++ (List.replicate (prod (ch.length :: d)) o.new).drop (ch.length * prod d) = ch.flatMap (·.planes) := by
    rw [List.drop_eq_nil_of_le (by simp [prod]), hfm]; simp
  refine ⟨{ allocDims o.new (ch.length :: d) with planes := ch.flatMap (·.planes) }, ?_, rfl⟩
  simp only [hpl, hsum]
  congr 2
  apply codeFor_count
  · simp [ht1]
  · simp [ht2]

/-- Tensors of different dimensions are refused in tensor mode. -/
theorem C98_mismatch (o : Ops P) (ch : List (TRes P)) (hw : ∀ c ∈ ch, 2 ≤ c.planes.length → c.dims ≠ [])
    (h : ∃ c ∈ ch, ∃ c' ∈ ch, 2 ≤ c.planes.length ∧ 2 ≤ c'.planes.length ∧ c.dims ≠ c'.dims) : compose o [0] ch = .err := by
  unfold compose
  rw [if_pos rfl, (commonDims_spec ch [] 0 hw).2.2.2.2 rfl h]
  rfl

/-- A child with data next to a child without planes: the result holds the data, but is reported as missing. -/
theorem C98_refuted : ¬ C98_full := by
  intro h
  have := (h Nat exOps [0] [⟨[], none, [7]⟩, ⟨[], none, []⟩] (by simp) ⟨[2], none, [7, 0]⟩ .missing (by decide +kernel)).1
  have h2 : codeFor exOps [7, 0] = .fine := by
    unfold codeFor
    rw [if_neg (by simp [exOps]), if_neg (by simp [exOps])]
  rw [h2] at this
  cases this

/-- A tensor with data next to two failed scalars: the result is reported as failed. -/
theorem C98_refuted_fail : compose exOps [0] [⟨[2], none, [7, 8]⟩, ⟨[], none, [100]⟩, ⟨[], none, [101]⟩] =
    .ok (⟨[3, 2], some [3, 2], [7, 8, 100, 100, 101, 101]⟩, .fail) := by decide +kernel

/-- More planes than the node's dimensions: the result has more planes than its dimensions say, and cannot be sent. -/
theorem C98_refuted_size : compose exOps [2, 2] [⟨[3], none, [1, 2, 3]⟩, ⟨[2], none, [4, 5]⟩] = .ok (⟨[2, 2], some [2, 2], [1, 2, 3, 4, 5]⟩, .fine) ∧
    transmit (⟨[2, 2], some [2, 2], [1, 2, 3, 4, 5]⟩ : TRes Nat) = .err := by decide +kernel

example : ∃ r code, compose exOps [0] [⟨[2], none, [7, 8]⟩, ⟨[], none, [9]⟩, ⟨[], none, []⟩] = .ok (r, code) ∧ r.dims = [3, 2] ∧ r.planes = [7, 8, 9, 9, 0, 0] :=
  ⟨⟨[3, 2], some [3, 2], [7, 8, 9, 9, 0, 0]⟩, .fine, by decide +kernel, rfl, rfl⟩

example : ∀ c ∈ [(⟨[2], none, [7, 8]⟩ : TRes Nat), ⟨[], none, [9]⟩, ⟨[], none, []⟩], c.planes.length < 2 ∨ (Sized c ∧ c.dims = [2]) := by
  intro c hc
  simp only [List.mem_cons, List.not_mem_nil, or_false] at hc
  rcases hc with rfl | rfl | rfl
  · right; exact ⟨⟨rfl, by intro h; cases h⟩, rfl⟩
  · left; decide
  · left; decide

/-! ## C99: selecting -/

/-- Whatever is selected of a tensor is returned. -/
def C99_full : Prop := ∀ (P : Type) (o : Ops P) (sel : List Int) (c : TRes P), SelOk sel c.dims → Sized c → SelectsIt o sel c

/-- A selection with one slice (or none) is returned. -/
theorem C99_slice_partial (o : Ops P) (sel : List Int) (c : TRes P) (hok : SelOk sel c.dims) (hc : Sized c) (h1 : OneSlice sel c.dims) : SelectsIt o sel c := by
  obtain ⟨shape, offs, e, s1, s2, hl, hg, ho, _⟩ := selOffsets_one c.dims sel hok h1
  obtain ⟨ps, p1, p2, p3⟩ := mapRes_getPlane c offs (fun i hi => by rw [hc.1]; exact (ho i hi).1)
  have hne : sel ≠ [] := fun h => by have := hok.1; rw [h] at this; simp at this
  have hn1 : (false || sel.length == 1) = false := by
    have := hok.1
    simp; omega
  have hgp : ∀ t, ValidIdx (selShape sel c.dims) t → ps[rowMajor (selShape sel c.dims) t]? = elem c (place sel t) := by
    intro t ht
    rw [p3 _ _ (hg t ht)]; rfl
  unfold SelectsIt select
  rw [if_neg hne, hn1]
  simp only [Bool.false_eq_true, if_false, e, Res.bind, p1]
  cases hs : shape with
  | none =>
    have hnil := s1 hs
    refine ⟨_, _, rfl, ?_, by show ps.length = _; omega, hgp⟩
    rw [hnil]; simp [fill, allocN, outShape, prod]
  | some shp =>
    have hsh := s2 shp hs
    subst hsh
    exact ⟨_, _, rfl, rfl, by show ps.length = _; omega, hgp⟩

/-- Of a tensor with different planes a selection is returned if and only if it has one slice. -/
theorem C99_iff (o : Ops P) (sel : List Int) (c : TRes P) (hok : SelOk sel c.dims) (hc : Sized c) (hnd : c.planes.Nodup) (hpos : c.planes ≠ []) :
    SelectsIt o sel c ↔ OneSlice sel c.dims := by
  refine ⟨fun h => ?_, C99_slice_partial o sel c hok hc⟩
  by_contra h1
  have hp : prod c.dims ≠ 0 := by
    rw [← hc.1]; exact fun h => hpos (List.eq_nil_of_length_eq_zero h)
  obtain ⟨shape, offs, t, e, ht, k, hk, hne⟩ := selOffsets_wrong c.dims sel hok hp h1
  obtain ⟨r, code, hsel, _, hlen, hget⟩ := h
  have hne' : sel ≠ [] := fun h => by have := hok.1; rw [h] at this; simp at this
  have hn1 : (false || sel.length == 1) = false := by
    have := hok.1
    simp; omega
  unfold select at hsel
  rw [if_neg hne', hn1] at hsel
  simp only [Bool.false_eq_true, if_false, e, Res.bind] at hsel
  cases hm : mapRes (getPlane c) offs with
  | err => rw [hm] at hsel; cases hsel
  | ub => rw [hm] at hsel; cases hsel
  | ok ps =>
    rw [hm] at hsel
    have hrp : r.planes = ps := by
      cases shape with
      | none => simp only [Res.ok.injEq, Prod.mk.injEq] at hsel; rw [← hsel.1]; rfl
      | some s => simp only [Res.ok.injEq, Prod.mk.injEq] at hsel; rw [← hsel.1]; rfl
    obtain ⟨_, g2⟩ := (mapRes_ok _ _ _).1 hm
    obtain ⟨p, hp1, hp2⟩ := g2 _ _ hk
    have hge := hget t ht
    rw [hrp, hp1] at hge
    unfold getPlane at hp2
    cases hck : c.planes[k]? with
    | none => rw [hck] at hp2; cases hp2
    | some q =>
      rw [hck] at hp2
      injection hp2 with hp2
      subst hp2
      unfold elem at hge
      have hkl : k < c.planes.length := by
        by_contra hcon; rw [List.getElem?_eq_none (by omega)] at hck; cases hck
      have hjl : rowMajor c.dims (place sel t) < c.planes.length := by
        by_contra hcon; rw [List.getElem?_eq_none (by omega)] at hge; cases hge
      rw [List.getElem?_eq_getElem hkl] at hck
      rw [List.getElem?_eq_getElem hjl] at hge
      injection hck with hck
      injection hge with hge
      exact hne ((List.Nodup.getElem_inj_iff hnd).1 (hck.trans hge))

/-- Selecting planes by number: one plane per number, a failure where there is no such plane. -/
theorem C99_multi (o : Ops P) (multi : Bool) (sel : List Int) (c : TRes P) (hne : sel ≠ []) (hm : multi = true ∨ sel.length = 1) :
    ∃ r code, select o multi sel c = .ok (r, code) ∧ r.dims = (if 1 < sel.length then [sel.length] else []) ∧ r.planes.length = sel.length ∧
      (∀ (i : Nat) (s : Int), sel[i]? = some s → r.planes[i]? = some (if 0 ≤ s then c.planes.getD s.toNat o.bad else o.bad)) ∧
      (code = .fail ↔ ∀ s ∈ sel, 0 ≤ s → ∀ p, c.planes[s.toNat]? = some p → o.isFail p = true) ∧
      (code = .missing ↔ code ≠ .fail ∧ ∀ s ∈ sel, 0 ≤ s → ∀ p, c.planes[s.toNat]? = some p → o.isEmpty p = true) := by
  have hb : (multi || sel.length == 1) = true := by
    rcases hm with h | h
    · simp [h]
    · simp [h]
  unfold select
  rw [if_neg hne, hb]
  simp only [if_true]
  have hmem : ∀ (f : P → Bool), ((sel.map fun i => if i < 0 then none else c.planes[i.toNat]?).filterMap id).all f = true ↔
      ∀ s ∈ sel, 0 ≤ s → ∀ p, c.planes[s.toNat]? = some p → f p = true := by
    intro f
    simp only [List.all_eq_true, List.mem_filterMap, List.mem_map, id_eq]
    constructor
    · intro h s hs h0 p hp
      exact h p ⟨some p, ⟨s, hs, by rw [if_neg (by omega), hp]⟩, rfl⟩
    · rintro h p ⟨x, ⟨s, hs, he⟩, rfl⟩
      by_cases h0 : s < 0
      · rw [if_pos h0] at he; cases he
      · rw [if_neg h0] at he; exact h s hs (by omega) p he
  refine ⟨_, _, rfl, rfl, by simp [fill], ?_, ?_, ?_⟩
  · intro i s hi
    simp only [fill, List.getElem?_map, hi, Option.map_some, List.getD_eq_getElem?_getD]
    by_cases h0 : s < 0
    · rw [if_pos h0, if_neg (by omega)]; rfl
    · rw [if_neg h0, if_pos (by omega)]
  · rw [← hmem o.isFail]
    unfold selCode
    generalize ((sel.map fun i => if i < 0 then none else c.planes[i.toNat]?).filterMap id).all o.isFail = x
    generalize ((sel.map fun i => if i < 0 then none else c.planes[i.toNat]?).filterMap id).all o.isEmpty = y
    cases x <;> cases y <;> simp
  · rw [← hmem o.isEmpty]
    unfold selCode
    generalize ((sel.map fun i => if i < 0 then none else c.planes[i.toNat]?).filterMap id).all o.isFail = x
    generalize ((sel.map fun i => if i < 0 then none else c.planes[i.toNat]?).filterMap id).all o.isEmpty = y
    cases x <;> cases y <;> simp

/-- Selections (and pastings) with the wrong number of indices, or with an index out of range, are refused. -/
theorem C99_refuses (o : Ops P) (sel : List Int) (c c' : TRes P) (hl : 2 ≤ sel.length) (hw : ¬ SelOk sel c.dims) :
    select o false sel c = .err ∧ paste false sel c c' = .err := by
  have he : selOffsets c.dims sel = .err := by
    unfold selOffsets
    by_cases h : c.dims.length ≠ sel.length
    · rw [if_pos h]
    · rw [if_neg h]
      have h := not_not.1 h
      rw [(setup_spec (sel.zip c.dims) 0).2]
      · rfl
      · by_contra hcon
        apply hw
        refine ⟨hl, List.forall₂_iff_zip.2 ⟨h.symm, ?_⟩⟩
        intro a b hab
        by_contra h2
        exact hcon ⟨(a, b), hab, by omega⟩
  have hne : sel ≠ [] := fun h => by rw [h] at hl; simp at hl
  have hn1 : (false || sel.length == 1) = false := by simp; omega
  constructor
  · unfold select
    rw [if_neg hne, hn1]
    simp only [Bool.false_eq_true, if_false, he, Res.bind]
  · unfold paste
    rw [if_neg hne, hn1]
    simp only [Bool.false_eq_true, if_false, he, Res.bind]

/-- The return code tells whether all that was selected failed, or is empty. -/
theorem C99_code (o : Ops P) (sel : List Int) (c r : TRes P) (code : Code) (hl : 2 ≤ sel.length) (h : select o false sel c = .ok (r, code)) :
    (code = .fail ↔ ∀ p ∈ r.planes, o.isFail p = true) ∧ (code = .missing ↔ code ≠ .fail ∧ ∀ p ∈ r.planes, o.isEmpty p = true) := by
  have hne : sel ≠ [] := fun h => by rw [h] at hl; simp at hl
  have hn1 : (false || sel.length == 1) = false := by simp; omega
  unfold select at h
  rw [if_neg hne, hn1] at h
  simp only [Bool.false_eq_true, if_false] at h
  cases hs : selOffsets c.dims sel with
  | err => rw [hs] at h; cases h
  | ub => rw [hs] at h; cases h
  | ok s =>
    rw [hs] at h
    simp only [Res.bind] at h
    cases hm : mapRes (getPlane c) s.2 with
    | err => rw [hm] at h; cases h
    | ub => rw [hm] at h; cases h
    | ok ps =>
      rw [hm] at h
      have hh : r.planes = ps ∧ code = selCode o ps := by
        cases hs1 : s.1 with
        | none => simp only [hs1, Res.ok.injEq, Prod.mk.injEq] at h; rw [← h.1, ← h.2]; exact ⟨rfl, rfl⟩
        | some shp => simp only [hs1, Res.ok.injEq, Prod.mk.injEq] at h; rw [← h.1, ← h.2]; exact ⟨rfl, rfl⟩
      rw [hh.1, hh.2, ← List.all_eq_true, ← List.all_eq_true]
      unfold selCode
      generalize ps.all o.isFail = x
      generalize ps.all o.isEmpty = y
      cases x <;> cases y <;> simp

/-- In a 2 by 2 by 3 tensor, the slice with first index 0 has elements with first index 1. -/
theorem C99_refuted : ¬ C99_full := by
  intro h
  have := (C99_iff exOps [0, -1, -1] ⟨[2, 2, 3], some [2, 2, 3], [1, 2, 3, 4, 5, 6, 7, 8, 9, 10, 11, 12]⟩ (by
    refine ⟨by simp, ?_⟩
    exact .cons (by decide) (.cons (by decide) (.cons (by decide) .nil))) ⟨rfl, by intro h; cases h⟩ (by decide) (by simp)).1
    (h Nat exOps [0, -1, -1] ⟨[2, 2, 3], some [2, 2, 3], [1, 2, 3, 4, 5, 6, 7, 8, 9, 10, 11, 12]⟩ (by
    refine ⟨by simp, ?_⟩
    exact .cons (by decide) (.cons (by decide) (.cons (by decide) .nil))) ⟨rfl, by intro h; cases h⟩)
  unfold OneSlice at this
  exact absurd this (by decide +kernel)

/-- What is returned there: two rows of different halves. -/
theorem C99_refuted_slice : select exOps false [0, -1, -1] ⟨[2, 2, 3], some [2, 2, 3], [1, 2, 3, 4, 5, 6, 7, 8, 9, 10, 11, 12]⟩ =
    .ok (⟨[1, 2, 3], some [1, 2, 3], [1, 2, 3, 7, 8, 9]⟩, .fine) ∧
    select exOps false [-1, -1] ⟨[2, 2], some [2, 2], [1, 2, 3, 4]⟩ = .err := by decide +kernel

/-- A column of a matrix. -/
example : SelOk [-1, 1] [2, 3] ∧ OneSlice [-1, 1] [2, 3] ∧
    select exOps false [-1, 1] ⟨[2, 3], some [2, 3], [1, 2, 3, 4, 5, 6]⟩ = .ok (⟨[2], none, [2, 5]⟩, .fine) := by
  refine ⟨⟨by simp, .cons (by decide) (.cons (by decide) .nil)⟩, ?_, by decide +kernel⟩
  unfold OneSlice; decide +kernel

/-! ## C100: pasting -/

/-- What is pasted replaces what was selected. -/
def C100_full : Prop :=
  ∀ (P : Type) (sel : List Int) (r c : TRes P), SelOk sel r.dims → Sized r → Sized c → selShape sel r.dims ≠ [] → c.dims = selShape sel r.dims →
    ∃ r', paste false sel r c = .ok r' ∧ PastesIt sel r c r'

/-- Pasting at a selection with one slice. -/
theorem C100_slice_partial (sel : List Int) (r c : TRes P) (hok : SelOk sel r.dims) (hr : Sized r) (h1 : OneSlice sel r.dims)
    (hcd : if selShape sel r.dims = [] then c.planes.length = 1 else c.dims = selShape sel r.dims ∧ c.planes.length = prod c.dims) :
    ∃ r', paste false sel r c = .ok r' ∧ PastesIt sel r c r' := by
  obtain ⟨shape, offs, e, s1, s2, hl, hg, ho, hnd⟩ := selOffsets_one r.dims sel hok h1
  have hne : sel ≠ [] := fun h => by have := hok.1; rw [h] at this; simp at this
  have hn1 : (false || sel.length == 1) = false := by
    have := hok.1
    simp; omega
  have hcl : c.planes.length = prod (selShape sel r.dims) := by
    by_cases h : selShape sel r.dims = []
    · rw [if_pos h] at hcd; rw [hcd, h]; rfl
    · rw [if_neg h] at hcd; rw [hcd.2, hcd.1]
  obtain ⟨r', q1, q2, q3, q4, q5, q6⟩ := putAll_nodup offs c.planes r (by omega) hnd (fun k hk => by rw [hr.1]; exact (ho k hk).1)
  refine ⟨r', ?_, q2, q4, ?_, ?_⟩
  · unfold paste
    rw [if_neg hne, hn1]
    simp only [Bool.false_eq_true, if_false, e, Res.bind]
    cases hs : shape with
    | none =>
      have hnil := s1 hs
      rw [if_pos hnil] at hcd
      simp only
      rw [if_neg (not_not.2 hcd), q1]
    | some shp =>
      have hsh := s2 shp hs
      have hnn := shape_some_ne sel r.dims hok shp offs (by rw [← hs]; exact e)
      rw [if_neg hnn] at hcd
      simp only
      rw [if_neg (by rw [hsh]; exact not_not.2 hcd.1)]
      have hread : mapRes (getPlane c) (List.range offs.length) = .ok c.planes := by
        rw [mapRes_ok]
        refine ⟨by simp; omega, ?_⟩
        intro i a hi
        have hi' : i < offs.length := by
          by_contra hcon; rw [List.getElem?_eq_none (by simp; omega)] at hi; cases hi
        rw [List.getElem?_range hi'] at hi
        injection hi with hi
        subst hi
        have : i < c.planes.length := by omega
        exact ⟨c.planes[i], List.getElem?_eq_getElem this, by simp [getPlane, List.getElem?_eq_getElem this]⟩
      rw [hread]
      exact q1
  · intro t ht
    unfold elem
    rw [q2]
    exact q5 _ _ (hg t ht)
  · intro k hk
    apply q6
    intro hmem
    obtain ⟨_, t, ht, hte⟩ := ho k hmem
    exact hk t ht hte

/-- Selecting what was pasted gives it back. -/
theorem C100_roundtrip_partial (o : Ops P) (sel : List Int) (r c : TRes P) (hok : SelOk sel r.dims) (hr : Sized r) (h1 : OneSlice sel r.dims)
    (hcd : if selShape sel r.dims = [] then c.planes.length = 1 else c.dims = selShape sel r.dims ∧ c.planes.length = prod c.dims) :
    ∃ r' s code, paste false sel r c = .ok r' ∧ select o false sel r' = .ok (s, code) ∧ s.planes = c.planes := by
  obtain ⟨r', hp, g1, g2, g3, g4⟩ := C100_slice_partial sel r c hok hr h1 hcd
  have hr' : Sized r' := by unfold Sized; rw [g1, g2]; exact hr
  obtain ⟨s, code, hs, hd, hl, hv⟩ := C99_slice_partial o sel r' (by rw [g1]; exact hok) hr' (by rw [g1]; exact h1)
  refine ⟨r', s, code, hp, hs, ?_⟩
  rw [g1] at hl hv
  have hcl : c.planes.length = prod (selShape sel r.dims) := by
    by_cases h : selShape sel r.dims = []
    · rw [if_pos h] at hcd; rw [hcd, h]; rfl
    · rw [if_neg h] at hcd; rw [hcd.2, hcd.1]
  apply List.ext_getElem?
  intro i
  by_cases hi : i < prod (selShape sel r.dims)
  · obtain ⟨t, ht, hti⟩ := rowMajor_surj _ i hi
    have a1 := hv t ht
    have a2 := g3 t ht
    rw [hti] at a1 a2
    rw [a1, a2]
  · rw [List.getElem?_eq_none (by omega), List.getElem?_eq_none (by omega)]

/-- Pasting planes by number: refused unless there is one plane per number and all numbers are those of planes; else of a number
that is given more than once the last plane stays, and other planes are as they were. -/
theorem C100_multi (multi : Bool) (sel : List Int) (r c : TRes P) (hne : sel ≠ []) (hm : multi = true ∨ sel.length = 1) :
    ((c.planes.length ≠ sel.length ∨ ∃ s ∈ sel, s < 0 ∨ (r.planes.length : Int) ≤ s) → paste multi sel r c = .err) ∧
    (c.planes.length = sel.length → (∀ s ∈ sel, 0 ≤ s ∧ s < r.planes.length) →
      ∃ r', paste multi sel r c = .ok r' ∧ r'.dims = r.dims ∧ r'.planes.length = r.planes.length ∧
        (∀ (i : Nat) (s : Int), sel[i]? = some s → (∀ j : Nat, i < j → sel[j]? ≠ some s) → r'.planes[s.toNat]? = c.planes[i]?) ∧
        ∀ k : Nat, (k : Int) ∉ sel → r'.planes[k]? = r.planes[k]?) := by
  have hb : (multi || sel.length == 1) = true := by
    rcases hm with h | h
    · simp [h]
    · simp [h]
  unfold paste
  rw [if_neg hne, hb]
  simp only [if_true]
  constructor
  · rintro (h | ⟨s, hs, h⟩)
    · rw [if_pos h]
    · by_cases hl : c.planes.length ≠ sel.length
      · rw [if_pos hl]
      · rw [if_neg hl, if_pos]
        rw [List.any_eq_true]
        exact ⟨s, hs, by simpa using h⟩
  · intro hl hall
    rw [if_neg (not_not.2 hl), if_neg]
    · obtain ⟨r', h1, h2, _, h4, h5, h6⟩ := putAll_spec ((sel.map Int.toNat).zip c.planes) r (by
        intro x hx
        obtain ⟨s, hs, he⟩ := List.mem_map.1 (List.of_mem_zip hx).1
        have := hall s hs
        omega)
      refine ⟨r', h1, h2, h4, ?_, ?_⟩
      · intro i s hi hlast
        have hil : i < sel.length := by
          by_contra hcon; rw [List.getElem?_eq_none (by omega)] at hi; cases hi
        have hp : c.planes[i]? = some (c.planes[i]'(by omega)) := List.getElem?_eq_getElem _
        rw [hp]
        refine h5 i s.toNat _ ?_ ?_
        · rw [List.getElem?_zip_eq_some]; exact ⟨by simp [hi], hp⟩
        · intro j q hij hq
          rw [List.getElem?_zip_eq_some, List.getElem?_map] at hq
          cases hj : sel[j]? with
          | none => rw [hj] at hq; simp at hq
          | some s' =>
            rw [hj] at hq
            simp only [Option.map_some, Option.some.injEq] at hq
            have h1 := hall s (List.mem_iff_getElem?.2 ⟨i, hi⟩)
            have h2 := hall s' (List.mem_iff_getElem?.2 ⟨j, hj⟩)
            exact hlast j hij (by rw [hj]; congr 1; omega)
      · intro k hk
        apply h6
        intro p hp
        obtain ⟨s, hs, he⟩ := List.mem_map.1 (List.of_mem_zip hp).1
        have := hall s hs
        apply hk
        have : s = (k : Int) := by omega
        rw [← this]; exact hs
    · rw [List.any_eq_true]
      rintro ⟨s, hs, h⟩
      have := hall s hs
      simp only [Bool.or_eq_true, decide_eq_true_eq] at h
      omega

/-- What has other dimensions than what it is to replace is refused. -/
theorem C100_misfit (sel : List Int) (r c : TRes P) (hok : SelOk sel r.dims) (h1 : OneSlice sel r.dims)
    (hcd : if selShape sel r.dims = [] then c.planes.length ≠ 1 else c.dims ≠ selShape sel r.dims) : paste false sel r c = .err := by
  obtain ⟨shape, offs, e, s1, s2, _⟩ := selOffsets_one r.dims sel hok h1
  have hne : sel ≠ [] := fun h => by have := hok.1; rw [h] at this; simp at this
  have hn1 : (false || sel.length == 1) = false := by
    have := hok.1
    simp; omega
  unfold paste
  rw [if_neg hne, hn1]
  simp only [Bool.false_eq_true, if_false, e, Res.bind]
  cases hs : shape with
  | none =>
    rw [if_pos (s1 hs)] at hcd
    simp only
    rw [if_pos hcd]
  | some shp =>
    have hsh := s2 shp hs
    have hnn := shape_some_ne sel r.dims hok shp offs (by rw [← hs]; exact e)
    rw [if_neg hnn] at hcd
    simp only
    rw [if_pos (by rw [hsh]; exact hcd)]

/-- Pasting a whole 2 by 2 matrix: the result has six planes. -/
theorem C100_refuted : ¬ C100_full := by
  intro h
  obtain ⟨r', hp, hq⟩ := h Nat [-1, -1] ⟨[2, 2], some [2, 2], [1, 2, 3, 4]⟩ ⟨[2, 2], some [2, 2], [5, 6, 7, 8]⟩
    ⟨by simp, .cons (by decide) (.cons (by decide) .nil)⟩ ⟨rfl, by intro h; cases h⟩ ⟨rfl, by intro h; cases h⟩ (by decide) rfl
  have e : paste false [-1, -1] (⟨[2, 2], some [2, 2], [1, 2, 3, 4]⟩ : TRes Nat) ⟨[2, 2], some [2, 2], [5, 6, 7, 8]⟩ =
      .ok ⟨[2, 2], some [2, 2], [5, 6, 3, 4, 7, 8]⟩ := by decide +kernel
  rw [e] at hp
  injection hp with hp
  subst hp
  exact absurd hq.2.1 (by decide)

example : paste false [-1, 1] (⟨[2, 3], some [2, 3], [1, 2, 3, 4, 5, 6]⟩ : TRes Nat) ⟨[2], none, [8, 9]⟩ = .ok ⟨[2, 3], some [2, 3], [1, 8, 3, 4, 9, 6]⟩ := by decide +kernel

/-! ## C101: products -/

/-- The product of two matrices: its planes are the sums of products of the planes, for the main values as for those with a
parameter perturbed; each plane depends on the parameters its terms depend on. -/
theorem C101_product {V F : Type} [CommRing V] [Inhabited V] (m n p N : Nat) (π : Int → Nat → ℚ) (a b : TRes (Plane V F)) (ha : IsMat m n a) (hb : IsMat n p b)
    (hga : ∀ q ∈ a.planes, GoodPlane N π q) (hgb : ∀ q ∈ b.planes, GoodPlane N π q) :
    ∃ r, matMul a b = .ok r ∧ r.dims = (if p = 1 then (if 1 < m then [m] else []) else outShape [m, p]) ∧ r.planes.length = m * p ∧
      (∀ q ∈ r.planes, GoodPlane N π q ∧ q.value.isSome = true) ∧
      (∀ i < m, ∀ k < p, ∀ s, s ∈ (plane r (i * p + k)).spids ↔ ∃ j < n, s ∈ (plane a (i * n + j)).spids ∨ s ∈ (plane b (j * p + k)).spids) ∧
      ∀ σ, ValidPert N σ → matAt m p σ r = matAt m n σ a * matAt n p σ b :=
  matMul_good m n p N π a b ha hb hga hgb

/-- The product of any number of scalars and d by d matrices. -/
theorem C101_chain {V F : Type} [CommRing V] [Inhabited V] (d N : Nat) (hd : 2 ≤ d) (π : Int → Nat → ℚ) (isNull isUnity : V → Bool)
    (hn : ∀ v, isNull v = true → v = 0) (hu : ∀ v, isUnity v = true → v = 1) (ch : List (TRes (Plane V F))) (h2 : 2 ≤ ch.length) (hch : ∀ c ∈ ch, Arg d N π c) :
    ∃ r, multiply isNull isUnity ch = .ok (r, .fine) ∧ Arg d N π r ∧ ∀ σ, ValidPert N σ → asMat d σ r = (ch.map (asMat d σ)).prod := by
  match ch, h2, hch with
  | [], h, _ => simp at h
  | [_], h, _ => simp at h
  | a :: b :: l, _, hch =>
    obtain ⟨r, h1, h3, h4⟩ := mulLoop_good d N hd π isNull isUnity hn hu (b :: l) a (hch a (by simp)) (fun c hc => hch c (by simp [hc]))
    exact ⟨r, h1, h3, fun σ hσ => by rw [h4 σ hσ, List.map_cons (a := a), List.prod_cons]⟩

/-- A plane of the product of two matrices fails if and only if one of the planes that go in fails. -/
theorem C101_failures {V F : Type} [CommRing V] [Inhabited V] (m n p : Nat) (a b : TRes (Plane V F)) (ha : IsMat m n a) (hb : IsMat n p b)
    (hna : ∀ q ∈ a.planes, q.fail ≠ some []) (hnb : ∀ q ∈ b.planes, q.fail ≠ some []) (r : TRes (Plane V F)) (h : matMul a b = .ok r) :
    ∀ i < m, ∀ k < p, (plane r (i * p + k)).fail.isSome = true ↔ ∃ j < n, (plane a (i * n + j)).fail.isSome = true ∨ (plane b (j * p + k)).fail.isSome = true :=
  matMul_fail m n p a b ha hb hna hnb r h

/-- Matrices that do not go together, and tensors of more than two axes, are refused. -/
theorem C101_refuses {V F : Type} [CommRing V] [Inhabited V] (a b : TRes (Plane V F)) :
    (∀ m n n' p, IsMat m n a → IsMat n' p b → n ≠ n' → matMul a b = .err) ∧ (2 < a.dims.length → matMul a b = .err) ∧
    (2 < b.dims.length → matMul a b = .err) ∧ (∀ isNull isUnity : V → Bool, 2 < b.dims.length → scalarMul isNull isUnity a b = .err) := by
  have h3 : ∀ t : TRes (Plane V F), 2 < t.dims.length → matDims t = .err := by
    intro t ht
    unfold matDims
    match hd : t.dims with
    | [] => rfl
    | [_] => rw [hd] at ht; simp at ht
    | [_, _] => rw [hd] at ht; simp at ht
    | _ :: _ :: _ :: _ => rfl
  refine ⟨?_, ?_, ?_, ?_⟩
  · intro m n n' p ha hb hne
    simp only [matMul, matDims_isMat ha, matDims_isMat hb, Res.bind]
    rw [if_pos hne]
  · intro h; simp only [matMul, h3 a h, Res.bind]
  · intro h
    have hu : matDims a ≠ .ub := by
      unfold matDims
      split <;> simp
    simp only [matMul, h3 b h]
    cases ha : matDims a with
    | ok x => rfl
    | err => rfl
    | ub => exact absurd ha hu
  · intro isNull isUnity h; unfold scalarMul; rw [if_pos h]

/-- A product with a scalar has the dimensions of the tensor, and fails where the tensor does. -/
def C101_full : Prop :=
  ∀ (V F : Type) [CommRing V] [Inhabited V] (isNull isUnity : V → Bool) (s t r : TRes (Plane V F)), (∀ v, isNull v = true → v = 0) → (∀ v, isUnity v = true → v = 1) →
    s.dims = [] → s.planes.length = 1 → (∀ q ∈ s.planes, q.fail = none ∧ q.value.isSome = true) → Sized t → t.dims.length ≤ 2 → scalarMul isNull isUnity s t = .ok r →
      r.dims = t.dims ∧ ∀ i < t.planes.length, (plane t i).fail.isSome = true → (plane r i).fail.isSome = true

/-- Zero times a matrix with failed elements is the scalar zero. -/
theorem C101_refuted : ¬ C101_full := by
  intro h
  let z : Plane Int Nat := ⟨none, some 0, [], 0, fun _ _ => 0, fun _ _ => 0⟩
  let f : Plane Int Nat := failPlane (some [5])
  have := (h Int Nat (fun v => decide (v = 0)) (fun v => decide (v = 1)) ⟨[], none, [z]⟩ ⟨[2], none, [f, z]⟩ (fill (allocN (failPlane none) 1) [z]) (by simp) (by simp) rfl rfl
    (by intro q hq; simp only [List.mem_singleton] at hq; subst hq; exact ⟨rfl, rfl⟩) ⟨rfl, by intro h; cases h⟩ (by simp) rfl).1
  cases this

/-- A plane of examples. -/
def exP (v : Int) (spids : List Int) (pv : Int) : Plane Int Nat := ⟨none, some v, spids, 1, fun _ _ => 1, fun _ _ => pv⟩

example : Arg 2 1 (fun _ _ => 1) (⟨[2, 2], some [2, 2], [exP 1 [3] 2, exP 4 [] 0, exP 5 [3, 7] 6, failPlane none]⟩ : TRes (Plane Int Nat)) := by
  refine ⟨Or.inr ⟨rfl, rfl⟩, ?_⟩
  intro p hp
  simp only [List.mem_cons, List.not_mem_nil, or_false] at hp
  rcases hp with rfl | rfl | rfl | rfl <;> refine ⟨rfl, ?_, ?_, ?_, ?_, ?_⟩ <;> simp [exP, failPlane, Func.IdsWf, Func.Increasing]

example : ((multiply (fun v => decide (v = 0)) (fun v => decide (v = 1)) [⟨[2, 2], some [2, 2], [exP 1 [3] 2, exP 4 [] 0, exP 5 [3, 7] 6, failPlane none]⟩,
      ⟨[], none, [exP 10 [7] 20]⟩, ⟨[2], none, [exP 1 [] 0, exP 3 [] 0]⟩]).bind
    fun r => .ok (r.1.dims, r.1.planes.map fun p => (p.value, p.spids, (List.range p.spids.length).map (p.pval · 0)))) =
    .ok ([2], [(some 130, [3, 7], [140, 260]), (some 50, [3, 7], [60, 120])]) := by decide +kernel

/-! ## C102: dimensions -/

/-- Results as they are built. -/
inductive Made (e : P) : TRes P → Prop
  | number (n : Nat) : Made e (allocN e n)
  | dims (d : List Nat) : Made e (allocDims e d)
  | reshape (r r' : TRes P) (d : List Nat) : Made e r → setDims e r d = .ok r' → Made e r'
  | put (r r' : TRes P) (i : Nat) (p : P) : Made e r → i < r.planes.length → putPlane r i p = .ok r' → Made e r'

/-- A result that was sent has the dimensions it had. -/
def C102_full : Prop := ∀ (P : Type) (e : P) (r : TRes P), Made e r → r.planes ≠ [] → transmit r = .ok r

/-- Results as they are built, of other than one plane if of more than one axis. -/
inductive MadeLarge (e : P) : TRes P → Prop
  | number (n : Nat) : MadeLarge e (allocN e n)
  | dims (d : List Nat) : (prod d = 1 → d.length ≤ 1) → MadeLarge e (allocDims e d)
  | reshape (r r' : TRes P) (d : List Nat) : MadeLarge e r → (prod d = 1 → d.length ≤ 1 ∨ r.planes ≠ []) → setDims e r d = .ok r' → MadeLarge e r'
  | put (r r' : TRes P) (i : Nat) (p : P) : MadeLarge e r → i < r.planes.length → putPlane r i p = .ok r' → MadeLarge e r'

/-- A result that was sent has the dimensions it had, unless a single plane was made with two or more axes of extent 1. -/
theorem C102_sent_partial (e : P) (r : TRes P) (h : MadeLarge e r) (hne : r.planes ≠ []) : transmit r = .ok r ∧ Sized r := by
  -- dimensions are stored if there are two or more
  have key : r.planes ≠ [] → r.planes.length = prod r.dims ∧ (r.planes.length = 1 → r.dims = []) ∧ r.stored = (if 1 < r.dims.length then some r.dims else none) := by
    clear hne
    have hdims : ∀ d : List Nat, (prod d = 1 → d.length ≤ 1) → (allocDims e d).planes ≠ [] →
        (allocDims e d).planes.length = prod (allocDims e d).dims ∧ ((allocDims e d).planes.length = 1 → (allocDims e d).dims = []) ∧
        (allocDims e d).stored = (if 1 < (allocDims e d).dims.length then some (allocDims e d).dims else none) := by
      intro d h1 _
      have e1 : (allocDims e d).planes.length = prod d := List.length_replicate
      have e2 : (allocDims e d).dims = if prod d = 1 then [] else d := rfl
      have e3 : (allocDims e d).stored = if 1 < d.length then some d else none := rfl
      rw [e1, e3]
      generalize (allocDims e d).dims = y at e2 ⊢
      subst e2
      by_cases hd : prod d = 1
      · have := h1 hd
        rw [if_pos hd, hd]
        exact ⟨rfl, fun _ => rfl, by rw [if_neg (by omega)]; rfl⟩
      · simp [hd]
    induction h with
    | number n =>
      intro hn
      simp only [allocN, List.length_replicate]
      have : n ≠ 0 := by intro h; subst h; exact hn rfl
      by_cases h1 : 1 < n
      · simp [h1, prod]; omega
      · simp [h1, prod]; omega
    | dims d h1 => exact hdims d h1
    | reshape r r' d hr h1 hs ih =>
      intro hn
      unfold setDims at hs
      by_cases h0 : r.planes.length = 0
      · rw [if_pos h0] at hs
        injection hs with hs
        subst hs
        refine hdims d (fun hd => ?_) hn
        rcases h1 hd with h | h
        · exact h
        · exact absurd (List.eq_nil_of_length_eq_zero h0) h
      · rw [if_neg h0] at hs
        by_cases hp : prod d ≠ r.planes.length
        · rw [if_pos hp] at hs; cases hs
        · rw [if_neg hp] at hs
          injection hs with hs
          subst hs
          have hp := not_not.1 hp
          by_cases hd : 1 < prod d
          · simp only [if_pos hd]; exact ⟨hp.symm, fun h => by omega, trivial⟩
          · simp only [if_neg hd]; exact ⟨by simp [prod]; omega, fun _ => trivial, trivial⟩
    | put r r' i p hr hi hs ih =>
      intro hn
      unfold putPlane at hs
      rw [if_neg (by omega), if_neg (by omega)] at hs
      injection hs with hs
      subst hs
      have := ih (fun h => by rw [h] at hi; simp at hi)
      simpa using this
  obtain ⟨h1, h2, h3⟩ := key hne
  refine ⟨?_, h1, h2⟩
  unfold transmit validate
  rw [h3]
  obtain ⟨dims, stored, planes⟩ := r
  simp only at h1 h2 h3 hne ⊢
  by_cases hl : 1 < dims.length
  · rw [if_pos hl] at h3 ⊢
    simp only
    rw [if_neg (not_not.2 h1.symm), h3]
  · rw [if_neg hl] at h3 ⊢
    simp only
    rw [h3]
    match dims, hl, h1, h2 with
    | [], _, h1, _ => simp only [prod, List.foldr_nil] at h1; rw [if_neg (by omega)]
    | [n], _, h1, h2 =>
      simp only [prod, List.foldr_cons, List.foldr_nil, Nat.mul_one] at h1
      have hp0 : planes.length ≠ 0 := fun h => hne (List.eq_nil_of_length_eq_zero h)
      have : planes.length ≠ 1 := fun h => by have := h2 h; cases this
      rw [if_pos (by omega), h1]
    | _ :: _ :: _, hl, _, _ => simp at hl

/-- A record whose dimensions are not those of its planes is refused. -/
theorem C102_inconsistent (r : TRes P) (d : List Nat) (h : r.stored = some d) (hn : prod d ≠ r.planes.length) : transmit r = .err := by
  unfold transmit validate
  rw [h]
  simp only
  rw [if_pos hn]

/-- A tensor of one plane made with two axes has no dimensions, but two after being sent. -/
theorem C102_refuted : ¬ C102_full := by
  intro h
  have := h Nat 0 (allocDims 0 [1, 1]) (Made.dims [1, 1]) (by decide)
  rw [show transmit (allocDims 0 [1, 1]) = .ok ⟨[1, 1], some [1, 1], [0]⟩ by decide +kernel] at this
  cases this

/-- A plane is found by its index: just the valid indices are accepted, each is another plane and every plane has one. -/
theorem C102_offset (dims : List Nat) :
    (∀ ind : List Int, (∃ k, getOffsetChk dims ind = .ok k) ↔ ∃ idx, ValidIdx dims idx ∧ ind = idx.map Int.ofNat) ∧
    (∀ ind, getOffsetChk dims ind ≠ .ub) ∧
    (∀ idx, ValidIdx dims idx → getOffsetChk dims (idx.map Int.ofNat) = .ok (rowMajor dims idx : Nat)) ∧
    (∀ idx, ValidIdx dims idx → rowMajor dims idx < prod dims) ∧
    (∀ idx idx', ValidIdx dims idx → ValidIdx dims idx' → rowMajor dims idx = rowMajor dims idx' → idx = idx') ∧
    ∀ k < prod dims, ∃ idx, ValidIdx dims idx ∧ rowMajor dims idx = k := by
  have hvl : ∀ idx, ValidIdx dims idx → idx.length = dims.length := fun idx h => List.Forall₂.length_eq h
  have hinj : ∀ a b : List Nat, a.map Int.ofNat = b.map Int.ofNat → a = b := by
    intro a b h
    exact List.map_injective_iff.2 (fun x y h => by simpa using h) h
  have hok : ∀ idx, ValidIdx dims idx → getOffsetChk dims (idx.map Int.ofNat) = .ok (rowMajor dims idx : Nat) := by
    intro idx h
    unfold getOffsetChk
    rw [if_neg (by simp [hvl idx h])]
    rcases offsetLoop_spec dims (idx.map Int.ofNat) (by simp [hvl idx h]) with ⟨idx', h1, h2, h3⟩ | ⟨h1, _⟩
    · rw [h3, hinj _ _ h2]; rfl
    · exact absurd ⟨idx, h, rfl⟩ h1
  refine ⟨?_, ?_, hok, rowMajor_lt dims, rowMajor_inj dims, rowMajor_surj dims⟩
  · intro ind
    constructor
    · rintro ⟨k, hk⟩
      unfold getOffsetChk at hk
      by_cases hl : ind.length ≠ dims.length
      · rw [if_pos hl] at hk; cases hk
      · rw [if_neg hl] at hk
        rcases offsetLoop_spec dims ind (not_not.1 hl) with ⟨idx', h1, h2, _⟩ | ⟨_, h2⟩
        · exact ⟨idx', h1, h2⟩
        · rw [h2] at hk; cases hk
    · rintro ⟨idx, h, rfl⟩; exact ⟨_, hok idx h⟩
  · intro ind
    unfold getOffsetChk
    split
    · intro h; cases h
    · rename_i hl
      rcases offsetLoop_spec dims ind (not_not.1 hl) with ⟨idx', _, _, h3⟩ | ⟨_, h2⟩
      · rw [h3]; intro h; cases h
      · rw [h2]; intro h; cases h

example : MadeLarge 0 (allocDims 0 [2, 3]) ∧ transmit (allocDims 0 [2, 3]) = .ok ⟨[2, 3], some [2, 3], [0, 0, 0, 0, 0, 0]⟩ :=
  ⟨.dims [2, 3] (by decide), by decide +kernel⟩

example : ValidIdx [2, 3] [1, 2] ∧ getOffsetChk [2, 3] [1, 2] = .ok 5 ∧ getOffsetChk [2, 3] [1, 3] = .err :=
  ⟨.cons (by decide) (.cons (by decide) .nil), by decide +kernel, by decide +kernel⟩

end Verif.Tensor
