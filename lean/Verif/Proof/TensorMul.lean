import Verif.Proof.Tensor
import Verif.Props.Function
import Mathlib.Algebra.BigOperators.Fin
namespace Verif.Tensor
open Verif.Func (mapRes Plane ChildRes Code failPlane addFails evalPlane)

set_option linter.unusedSectionVars false

variable {V F : Type} [CommRing V] [Inhabited V]

/-- Plane of a result. -/
def plane (r : TRes (Plane V F)) (q : Nat) : Plane V F := r.planes.getD q (failPlane none)

theorem getPlane_lt (r : TRes (Plane V F)) (q : Nat) (h : q < r.planes.length) : getPlane r q = .ok (plane r q) := by
  simp [getPlane, plane, List.getElem?_eq_getElem h, List.getD_eq_getElem?_getD]

theorem plane_mem (r : TRes (Plane V F)) (q : Nat) (h : q < r.planes.length) : plane r q ∈ r.planes := by
  simp [plane, List.getD_eq_getElem?_getD, List.getElem?_eq_getElem h]

theorem getElem_plane (r : TRes (Plane V F)) (q : Nat) (h : q < r.planes.length) : r.planes[q]? = some (plane r q) := by
  simp [plane, List.getD_eq_getElem?_getD, List.getElem?_eq_getElem h]

/-! ## The terms of a sum -/

theorem terms_spec (a b : TRes (Plane V F)) (ca cb i k : Nat) : ∀ (n j : Nat), (∀ x, j ≤ x → x < j + n → i * ca + x < a.planes.length ∧ k + x * cb < b.planes.length) →
    terms a b ca cb i k j n = .ok ((List.range' j n).flatMap fun x => [plane a (i * ca + x), plane b (k + x * cb)]) := by
  intro n
  induction n with
  | zero => intro j _; rfl
  | succ n ih =>
    intro j h
    obtain ⟨h1, h2⟩ := h j (Nat.le_refl _) (by omega)
    simp only [terms, getPlane_lt a _ h1, getPlane_lt b _ h2, Res.bind]
    rw [ih (j + 1) (fun x hx hx' => h x (by omega) (by omega))]
    simp [List.range'_succ]

theorem computeSum_spec (x y : Nat → Option V) : ∀ (l : List Nat) (out : V),
    computeSum out (l.flatMap fun j => [x j, y j]) = out + (l.map fun j => (x j).getD 0 * (y j).getD 0).sum := by
  intro l
  induction l with
  | nil => intro out; simp [computeSum]
  | cons j l ih =>
    intro out
    rw [List.flatMap_cons, List.map_cons, List.sum_cons]
    cases hx : x j with
    | none => simp only [List.cons_append, List.nil_append, computeSum, ih, Option.getD_none, zero_mul, zero_add]
    | some u =>
      cases hy : y j with
      | none => simp only [List.cons_append, List.nil_append, computeSum, ih, Option.getD_none, mul_zero, zero_add]
      | some v => simp only [List.cons_append, List.nil_append, computeSum, ih, Option.getD_some]; ring

theorem sum_range_fin (f : Nat → V) (n : Nat) : ((List.range n).map f).sum = ∑ i : Fin n, f i := by
  rw [← Finset.sum_range]
  induction n with
  | zero => simp
  | succ n ih => rw [List.range_succ, List.map_append, List.sum_append, ih, Finset.sum_range_succ]; simp

/-! ## Values -/

/-- A plane's value, or that with a parameter perturbed, as an argument. -/
def optAt (σ : Option (Int × Nat)) (c : Option (Plane V F)) : Option V :=
  match σ with
  | none => Func.mainVal c
  | some (s, k) => Func.pertVal s k c

theorem optAt_argV (n : Nat) (π : Int → Nat → ℚ) (σ : Option (Int × Nat)) (p : Plane V F) (h : GoodPlane n π p) : (optAt σ (argV p)).getD 0 = valAt σ p := by
  unfold argV
  cases hv : p.value with
  | none =>
    have hs := h.2.1 hv
    simp only [Option.isSome_none, Bool.false_eq_true, if_false]
    cases σ with
    | none => simp [optAt, Func.mainVal, valAt, hv]
    | some x => obtain ⟨s, k⟩ := x; simp [optAt, Func.pertVal, valAt, hv, hs]
  | some v =>
    simp only [Option.isSome_some, if_true]
    cases σ with
    | none => simp [optAt, Func.mainVal, valAt, hv]
    | some x => obtain ⟨s, k⟩ := x; simp [optAt, Func.pertVal, valAt]

/-- Evaluating a function that does not fail. -/
theorem eval_good (n : Nat) (π : Int → Nat → ℚ) (g : List (Option V) → V) (ps : List (Plane V F)) (hg : ∀ p ∈ ps, GoodPlane n π p) :
    ∃ r, evalPlane (fun _ => true) (fun vs => .ok (g vs)) (ps.map argV) = .ok r ∧ GoodPlane n π r ∧ r.value.isSome = true ∧
      (∀ s, s ∈ r.spids ↔ ∃ p ∈ ps, s ∈ p.spids) ∧
      ∀ σ, ValidPert n σ → valAt σ r = g (ps.map fun p => optAt σ (argV p)) := by
  have hmem : ∀ c, some c ∈ ps.map argV → c ∈ ps ∧ c.value.isSome = true := by
    intro c hc
    obtain ⟨p, hp, he⟩ := List.mem_map.1 hc
    unfold argV at he
    split at he
    · injection he with he; subst he; exact ⟨hp, by assumption⟩
    · cases he
  have hw : ∀ c, some c ∈ ps.map argV → Func.PlaneWf n c := by
    intro c hc
    obtain ⟨h1, h2⟩ := hmem c hc
    obtain ⟨_, _, g3, g4, g5, _⟩ := hg c h1
    exact ⟨g3, h2, g4, g5⟩
  have hagree : Func.Agree n (ps.map argV) := by
    intro c d hc hd i j s hi hj k hk
    rw [(hg c (hmem c hc).1).2.2.2.2.2 i s hi k hk, (hg d (hmem d hd).1).2.2.2.2.2 j s hj k hk]
  have hev : Func.Evaluates (fun vs => Res.ok (g vs)) n (ps.map argV) := ⟨⟨_, rfl⟩, fun _ _ _ _ => ⟨_, rfl⟩⟩
  obtain ⟨r, hr⟩ := (Func.C77_succeeds (fun _ => true) (fun vs => .ok (g vs)) n (ps.map argV) hw).2 ⟨fun _ _ _ _ _ _ => rfl, hagree, hev⟩
  obtain ⟨⟨v, hv, hgv⟩, hf, hids, hdep, hnp, hval⟩ := Func.C77_values (fun _ => true) (fun vs => .ok (g vs)) n (ps.map argV) hw r hr
  have hdep' : ∀ s, s ∈ r.spids ↔ ∃ p ∈ ps, s ∈ p.spids := by
    intro s
    rw [hdep s]
    constructor
    · rintro ⟨c, hc, hs⟩; exact ⟨c, (hmem c hc).1, hs⟩
    · rintro ⟨p, hp, hs⟩
      have : p.value.isSome = true := by
        cases hv : p.value with
        | some v => rfl
        | none => rw [(hg p hp).2.1 hv] at hs; cases hs
      exact ⟨p, List.mem_map.2 ⟨p, hp, by simp [argV, this]⟩, hs⟩
  have hle : r.npert ≤ n := by
    by_cases hs : r.spids = []
    · have hz : Func.maxSets (ps.map argV) = 0 := by
        unfold Func.maxSets
        have : ((Func.idsOf (ps.map argV)).map List.length).sum = 0 := by
          have hall : ∀ ids ∈ Func.idsOf (ps.map argV), ids = [] := by
            intro ids hi
            unfold Func.idsOf at hi
            obtain ⟨c, hc, he⟩ := List.mem_filterMap.1 hi
            cases c with
            | none => simp at he
            | some c =>
              simp only [Option.map_some, Option.some.injEq] at he
              subst he
              rw [List.eq_nil_iff_forall_not_mem]
              intro s hs'
              have := (hdep s).2 ⟨c, hc, hs'⟩
              rw [hs] at this; cases this
          generalize Func.idsOf (ps.map argV) = L at hall
          induction L with
          | nil => rfl
          | cons x L ih =>
            rw [List.map_cons, List.sum_cons, ih (fun y hy => hall y (by simp [hy])), hall x (by simp)]; rfl
        rw [if_pos this]
      have : r.npert = Func.maxSets (ps.map argV) := by
        have h := hr
        unfold evalPlane at h
        cases h1 : Func.findSpids (Func.idsOf (ps.map argV)) with
        | err => rw [h1] at h; cases h
        | ub => rw [h1] at h; cases h
        | ok sp =>
          rw [h1] at h
          simp only [Res.bind] at h
          cases h2 : Func.spidLoop (fun _ => true) (fun vs => Res.ok (g vs)) (Func.maxSets (ps.map argV)) (ps.map argV)
              ((ps.map argV).map fun c => c.bind (·.value)) sp (List.replicate (ps.map argV).length 0) with
          | err => rw [h2] at h; cases h
          | ub => rw [h2] at h; cases h
          | ok rows => rw [h2] at h; simp only [Res.ok.injEq] at h; rw [← h]
      omega
    · rw [hnp hs]
  refine ⟨r, hr, ⟨hf, ?_, hids, hnp, hle, ?_⟩, by rw [hv]; rfl, hdep', ?_⟩
  · intro h; rw [hv] at h; cases h
  · intro i s hi k hk
    have hs : s ∈ r.spids := List.mem_iff_getElem?.2 ⟨i, hi⟩
    obtain ⟨c, hc, hcs⟩ := (hdep s).1 hs
    obtain ⟨j, hj⟩ := List.mem_iff_getElem?.1 hcs
    rw [(hval i s hi k hk).2 c hc j hj]
    exact (hg c (hmem c hc).1).2.2.2.2.2 j s hj k hk
  · intro σ hσ
    injection hgv with hgv
    cases σ with
    | none =>
      simp only [valAt, hv, Option.getD_some, ← hgv, List.map_map]
      rfl
    | some x =>
      obtain ⟨s, k⟩ := x
      have hk := hσ s k rfl
      simp only [valAt]
      by_cases hs : s ∈ r.spids
      · rw [if_pos hs]
        have hi : r.spids[r.spids.idxOf s]? = some s := by
          have := List.idxOf_lt_length_of_mem hs
          rw [List.getElem?_eq_getElem this, List.getElem_idxOf]
        have := (hval _ s hi k hk).1
        injection this with this
        simp only [Option.getD_some]
        rw [← this, List.map_map]
        rfl
      · rw [if_neg hs, hv]
        simp only [Option.getD_some]
        rw [← hgv]
        congr 1
        rw [List.map_map]
        apply List.map_congr_left
        intro p hp
        have hnp : s ∉ p.spids := fun h => hs ((hdep' s).2 ⟨p, hp, h⟩)
        simp only [Function.comp_apply, optAt, Func.mainVal, Func.pertVal]
        unfold argV
        split
        · simp [hnp]
        · rfl

/-! ## Products of tensors -/

theorem foldl_addFails (ps : List (Plane V F)) (h : ∀ p ∈ ps, p.fail = none) : ps.foldl (fun cur p => addFails cur (p.fail.getD [])) none = none := by
  induction ps with
  | nil => rfl
  | cons p ps ih =>
    rw [List.foldl_cons, h p (by simp)]
    exact ih (fun q hq => h q (by simp [hq]))

theorem sumPlane_good (n : Nat) (π : Int → Nat → ℚ) (x y : Nat → Plane V F) (l : List Nat) (hx : ∀ j ∈ l, GoodPlane n π (x j)) (hy : ∀ j ∈ l, GoodPlane n π (y j)) :
    ∃ r, sumPlane (l.flatMap fun j => [x j, y j]) = .ok r ∧ GoodPlane n π r ∧ r.value.isSome = true ∧
      (∀ s, s ∈ r.spids ↔ ∃ j ∈ l, s ∈ (x j).spids ∨ s ∈ (y j).spids) ∧
      ∀ σ, ValidPert n σ → valAt σ r = (l.map fun j => valAt σ (x j) * valAt σ (y j)).sum := by
  have hg : ∀ p ∈ l.flatMap (fun j => [x j, y j]), GoodPlane n π p := by
    intro p hp
    obtain ⟨j, hj, hp⟩ := List.mem_flatMap.1 hp
    simp only [List.mem_cons, List.not_mem_nil, or_false] at hp
    rcases hp with rfl | rfl
    · exact hx j hj
    · exact hy j hj
  obtain ⟨r, h1, h2, h3, h4, h5⟩ := eval_good n π (fun vs => computeSum 0 vs) _ hg
  refine ⟨r, ?_, h2, h3, ?_, ?_⟩
  · unfold sumPlane
    rw [foldl_addFails _ (fun p hp => (hg p hp).1)]
    exact h1
  · intro s
    rw [h4 s]
    constructor
    · rintro ⟨p, hp, hs⟩
      obtain ⟨j, hj, hp⟩ := List.mem_flatMap.1 hp
      simp only [List.mem_cons, List.not_mem_nil, or_false] at hp
      rcases hp with rfl | rfl
      · exact ⟨j, hj, Or.inl hs⟩
      · exact ⟨j, hj, Or.inr hs⟩
    · rintro ⟨j, hj, hs | hs⟩
      · exact ⟨x j, List.mem_flatMap.2 ⟨j, hj, by simp⟩, hs⟩
      · exact ⟨y j, List.mem_flatMap.2 ⟨j, hj, by simp⟩, hs⟩
  · intro σ hσ
    rw [h5 σ hσ, List.map_flatMap]
    simp only [List.map_cons, List.map_nil]
    rw [computeSum_spec (fun j => optAt σ (argV (x j))) (fun j => optAt σ (argV (y j))), zero_add]
    congr 1
    apply List.map_congr_left
    intro j hj
    rw [optAt_argV n π σ _ (hx j hj), optAt_argV n π σ _ (hy j hj)]

theorem matDims_isMat {m n : Nat} {r : TRes (Plane V F)} (h : IsMat m n r) : matDims r = .ok (m, n) := by
  obtain ⟨h1 | ⟨h1, h2⟩, h3⟩ := h
  · simp [matDims, h1]
  · subst h1
    simp [matDims, h2, h3]

theorem mapRes_plane {α : Type} (f : Nat → Res α) (good : Nat → α → Prop) (n : Nat) (h : ∀ q < n, ∃ r, f q = .ok r ∧ good q r) :
    ∃ ps, mapRes f (List.range n) = .ok ps ∧ ps.length = n ∧ ∀ (q : Nat) (r : α), ps[q]? = some r → good q r := by
  have gen : ∀ l : List Nat, (∀ q ∈ l, q < n) → ∃ ps, mapRes f l = .ok ps ∧ ps.length = l.length ∧ ∀ (i q : Nat) (r : α), l[i]? = some q → ps[i]? = some r → good q r := by
    intro l
    induction l with
    | nil => intro _; exact ⟨[], rfl, rfl, by simp⟩
    | cons q l ih =>
      intro hq
      obtain ⟨ps, h1, h2, h3⟩ := ih (fun x hx => hq x (by simp [hx]))
      obtain ⟨r, hr, hgr⟩ := h q (hq q (by simp))
      refine ⟨r :: ps, by simp only [mapRes, hr, Res.bind, h1], by simp [h2], ?_⟩
      intro i x y hx hy
      cases i with
      | zero =>
        simp only [List.getElem?_cons_zero, Option.some.injEq] at hx hy
        subst hx hy; exact hgr
      | succ i =>
        rw [List.getElem?_cons_succ] at hx hy
        exact h3 i x y hx hy
  obtain ⟨ps, h1, h2, h3⟩ := gen (List.range n) (fun q hq => List.mem_range.1 hq)
  refine ⟨ps, h1, by simpa using h2, ?_⟩
  intro q r hr
  have hq : q < n := by
    by_contra hc
    rw [List.getElem?_eq_none (by rw [h2]; simp; omega)] at hr; cases hr
  exact h3 q q r (by simp [hq]) hr

theorem matMul_good (m n p N : Nat) (π : Int → Nat → ℚ) (a b : TRes (Plane V F)) (ha : IsMat m n a) (hb : IsMat n p b)
    (hga : ∀ q ∈ a.planes, GoodPlane N π q) (hgb : ∀ q ∈ b.planes, GoodPlane N π q) :
    ∃ r, matMul a b = .ok r ∧ r.dims = (if p = 1 then (if 1 < m then [m] else []) else outShape [m, p]) ∧ r.planes.length = m * p ∧
      (∀ q ∈ r.planes, GoodPlane N π q ∧ q.value.isSome = true) ∧
      (∀ i < m, ∀ k < p, ∀ s, s ∈ (plane r (i * p + k)).spids ↔ ∃ j < n, s ∈ (plane a (i * n + j)).spids ∨ s ∈ (plane b (j * p + k)).spids) ∧
      ∀ σ, ValidPert N σ → matAt m p σ r = matAt m n σ a * matAt n p σ b := by
  have hla := ha.2
  have hlb := hb.2
  obtain ⟨ps, h1, h2, h3⟩ := mapRes_plane (fun q => (terms a b n p (q / p) (q % p) 0 n).bind sumPlane)
    (fun q (r : Plane V F) => (GoodPlane N π r ∧ r.value.isSome = true) ∧
      (∀ s, s ∈ r.spids ↔ ∃ j ∈ List.range n, s ∈ (plane a (q / p * n + j)).spids ∨ s ∈ (plane b (q % p + j * p)).spids) ∧
      ∀ σ, ValidPert N σ → valAt σ r = ((List.range n).map fun j => valAt σ (plane a (q / p * n + j)) * valAt σ (plane b (q % p + j * p))).sum)
    (m * p) (by
      intro q hq
      have hp : 0 < p := by
        rcases Nat.eq_zero_or_pos p with h | h
        · subst h; simp at hq
        · exact h
      have hqm : q / p < m := Nat.div_lt_of_lt_mul (by rw [Nat.mul_comm]; exact hq)
      have hqp : q % p < p := Nat.mod_lt _ hp
      have hbound : ∀ x, x < n → q / p * n + x < a.planes.length ∧ q % p + x * p < b.planes.length := by
        intro x hx
        have e1 : (q / p + 1) * n ≤ m * n := Nat.mul_le_mul_right _ hqm
        have e2 : (x + 1) * p ≤ n * p := Nat.mul_le_mul_right _ hx
        rw [Nat.add_mul] at e1 e2
        omega
      rw [terms_spec a b n p (q / p) (q % p) n 0 (fun x _ hx => hbound x (by omega))]
      rw [← List.range_eq_range']
      obtain ⟨r, g1, g2, g3, g4, g5⟩ := sumPlane_good N π (fun x => plane a (q / p * n + x)) (fun x => plane b (q % p + x * p)) (List.range n)
        (fun j hj => hga _ (plane_mem a _ (hbound j (List.mem_range.1 hj)).1))
        (fun j hj => hgb _ (plane_mem b _ (hbound j (List.mem_range.1 hj)).2))
      exact ⟨r, g1, ⟨g2, g3⟩, g4, g5⟩)
  have hq : ∀ i < m, ∀ k < p, (i * p + k) / p = i ∧ (i * p + k) % p = k ∧ i * p + k < m * p := by
    intro i hi k hk
    have e1 : (i + 1) * p ≤ m * p := Nat.mul_le_mul_right _ hi
    rw [Nat.add_mul] at e1
    refine ⟨?_, ?_, by omega⟩
    · rw [Nat.mul_comm, Nat.mul_add_div (by omega), Nat.div_eq_of_lt hk]; omega
    · rw [Nat.mul_comm, Nat.mul_add_mod, Nat.mod_eq_of_lt hk]
  refine ⟨fill (if p = 1 then allocN (failPlane none) m else allocDims (failPlane none) [m, p]) ps, ?_, ?_, h2, ?_, ?_, ?_⟩
  · simp only [matMul, matDims_isMat ha, matDims_isMat hb, Res.bind] at h1 ⊢
    rw [if_neg (not_not.2 rfl), h1]
  · unfold fill
    by_cases hp : p = 1
    · rw [if_pos hp, if_pos hp]; rfl
    · rw [if_neg hp, if_neg hp]; rfl
  · intro q hq'
    obtain ⟨i, hi⟩ := List.mem_iff_getElem?.1 hq'
    exact (h3 i q hi).1
  · intro i hi k hk s
    obtain ⟨e1, e2, e3⟩ := hq i hi k hk
    have hpl := getElem_plane (fill (if p = 1 then allocN (failPlane none) m else allocDims (failPlane none) [m, p]) ps) (i * p + k) (by
      show i * p + k < ps.length; omega)
    have := (h3 _ _ hpl).2.1 s
    rw [e1, e2] at this
    rw [this]
    constructor
    · rintro ⟨j, hj, h⟩; exact ⟨j, List.mem_range.1 hj, by rw [Nat.add_comm (j * p)]; exact h⟩
    · rintro ⟨j, hj, h⟩; exact ⟨j, List.mem_range.2 hj, by rw [Nat.add_comm k]; exact h⟩
  · intro σ hσ
    ext i k
    obtain ⟨e1, e2, e3⟩ := hq i i.2 k k.2
    have hpl := getElem_plane (fill (if p = 1 then allocN (failPlane none) m else allocDims (failPlane none) [m, p]) ps) (i * p + k) (by
      show i * p + k < ps.length; omega)
    have := (h3 _ _ hpl).2.2 σ hσ
    rw [e1, e2] at this
    rw [Matrix.mul_apply]
    show valAt σ (plane _ (i * p + k)) = _
    rw [this, sum_range_fin (fun j => valAt σ (plane a (i * n + j)) * valAt σ (plane b (k + j * p))) n]
    apply Finset.sum_congr rfl
    intro j _
    rw [Nat.add_comm (k : Nat)]
    rfl

/-! ## Products with a scalar -/

theorem scalePlane_good (n : Nat) (π : Int → Nat → ℚ) (s t : Plane V F) (hs : s.value.isSome = true) (hgs : GoodPlane n π s) (hgt : GoodPlane n π t) :
    ∃ r, scalePlane s t = .ok r ∧ GoodPlane n π r ∧ ∀ σ, ValidPert n σ → valAt σ r = valAt σ t * valAt σ s := by
  unfold scalePlane
  by_cases ht : t.value.isSome = true
  · rw [if_pos ht]
    obtain ⟨r, h1, h2, _, _, h5⟩ := eval_good n π mulTwo [t, s] (by
      intro p hp
      simp only [List.mem_cons, List.not_mem_nil, or_false] at hp
      rcases hp with rfl | rfl
      · exact hgt
      · exact hgs)
    have hm : [t, s].map argV = [some t, some s] := by simp [argV, ht, hs]
    rw [hm] at h1
    refine ⟨r, h1, h2, fun σ hσ => ?_⟩
    rw [h5 σ hσ, ← optAt_argV n π σ t hgt, ← optAt_argV n π σ s hgs]
    have hsome : ∀ c : Plane V F, c.value.isSome = true → ∃ v, optAt σ (argV c) = some v := by
      intro c hc
      obtain ⟨v, hv⟩ := Option.isSome_iff_exists.1 hc
      simp only [argV, hc, if_true]
      cases σ with
      | none => exact ⟨v, by simp [optAt, Func.mainVal, hv]⟩
      | some x =>
        obtain ⟨a, b⟩ := x
        simp only [optAt, Func.pertVal, Option.bind_some]
        split
        · exact ⟨_, rfl⟩
        · exact ⟨v, hv⟩
    obtain ⟨u, hu⟩ := hsome t ht
    obtain ⟨v, hv⟩ := hsome s hs
    simp [hu, hv, mulTwo]
  · rw [if_neg ht]
    refine ⟨t, rfl, hgt, fun σ _ => ?_⟩
    have hv : t.value = none := by
      cases h : t.value with
      | none => rfl
      | some v => rw [h] at ht; exact absurd rfl ht
    have hsp := hgt.2.1 hv
    have : valAt σ t = 0 := by
      cases σ with
      | none => simp [valAt, hv]
      | some x => obtain ⟨a, b⟩ := x; simp [valAt, hv, hsp]
    rw [this, zero_mul]

/-- Values of the product of a scalar and a result, plane by plane; a result that is a scalar stands for all planes. -/
theorem scalarMul_good (N : Nat) (π : Int → Nat → ℚ) (isNull isUnity : V → Bool) (hn : ∀ v, isNull v = true → v = 0) (hu : ∀ v, isUnity v = true → v = 1)
    (s t : TRes (Plane V F)) (hs1 : s.planes.length = 1) (ht : t.planes.length = prod t.dims) (htr : t.dims.length ≤ 2) (htn : prod t.dims = 1 → t.dims = [])
    (hgs : ∀ q ∈ s.planes, GoodPlane N π q) (hgt : ∀ q ∈ t.planes, GoodPlane N π q) :
    ∃ r, scalarMul isNull isUnity s t = .ok r ∧ (r.dims = [] ∧ r.planes.length = 1 ∨ r.dims = t.dims ∧ r.planes.length = t.planes.length) ∧
      (∀ q ∈ r.planes, GoodPlane N π q) ∧ (r.dims ≠ t.dims → ∀ σ, ValidPert N σ → valAt σ (plane s 0) = 0 ∧ valAt σ (plane r 0) = 0) ∧
      ∀ σ, ValidPert N σ → ∀ i < t.planes.length, valAt σ (plane r (if r.dims = [] then 0 else i)) = valAt σ (plane s 0) * valAt σ (plane t i) := by
  unfold scalarMul
  rw [if_neg (by omega)]
  cases hsp : s.planes with
  | nil => rw [hsp] at hs1; simp at hs1
  | cons p l =>
    have hp0 : plane s 0 = p := by simp [plane, hsp]
    have hgp := hgs p (by rw [hsp]; simp)
    simp only [hgp.1, Option.isSome_none, Bool.false_eq_true, if_false]
    have hval0 : ∀ (r : TRes (Plane V F)) (q : Plane V F), r.dims = [] → r.planes = [q] → q.value.getD 0 = 0 → q.spids = [] → (∀ σ, ValidPert N σ → valAt σ p = 0) →
        (r.dims ≠ t.dims → ∀ σ, ValidPert N σ → valAt σ (plane s 0) = 0 ∧ valAt σ (plane r 0) = 0) ∧
        ∀ σ, ValidPert N σ → ∀ i < t.planes.length, valAt σ (plane r (if r.dims = [] then 0 else i)) = valAt σ (plane s 0) * valAt σ (plane t i) := by
      intro r q h1 h2 h3 h4 h5
      have hz : ∀ σ, ValidPert N σ → valAt σ (plane s 0) = 0 ∧ valAt σ (plane r 0) = 0 := by
        intro σ hσ
        have : plane r 0 = q := by simp [plane, h2]
        rw [this, hp0]
        refine ⟨h5 σ hσ, ?_⟩
        cases σ with
        | none => exact h3
        | some x => obtain ⟨a, b⟩ := x; simp only [valAt, h4]; simpa using h3
      refine ⟨fun _ => hz, ?_⟩
      intro σ hσ i _
      rw [if_pos h1, (hz σ hσ).1, (hz σ hσ).2, zero_mul]
    have hgnone : GoodPlane N π (failPlane none : Plane V F) :=
      ⟨rfl, fun _ => rfl, ⟨List.Pairwise.nil, by intro s hs; cases hs⟩, fun h => absurd rfl h, Nat.zero_le _, by intro i s h; simp [failPlane] at h⟩
    have hg0 : GoodPlane N π (⟨none, some 0, [], 0, fun _ _ => 0, fun _ _ => 0⟩ : Plane V F) :=
      ⟨rfl, fun _ => rfl, ⟨List.Pairwise.nil, by intro s hs; cases hs⟩, fun h => absurd rfl h, Nat.zero_le _, by intro i s h; simp at h⟩
    cases hv : p.value with
    | none =>
      simp only
      have hsn := hgp.2.1 hv
      refine ⟨_, rfl, Or.inl ⟨by simp [allocN], by simp [allocN]⟩, ?_, ?_⟩
      · intro q hq; simp [allocN] at hq; subst hq; exact hgnone
      · refine hval0 _ (failPlane none) (by simp [allocN]) (by simp [allocN]) rfl rfl (fun σ _ => ?_)
        cases σ with
        | none => simp [valAt, hv]
        | some x => obtain ⟨a, b⟩ := x; simp [valAt, hv, hsn]
    | some v =>
      simp only
      by_cases h0 : p.spids = [] ∧ isNull v = true
      · rw [if_pos h0]
        have hv0 := hn v h0.2
        refine ⟨_, rfl, Or.inl ⟨by simp [fill, allocN], by simp [fill]⟩, ?_, ?_⟩
        · intro q hq; simp [fill] at hq; subst hq; exact hg0
        · refine hval0 _ ⟨none, some 0, [], 0, fun _ _ => 0, fun _ _ => 0⟩ (by simp [fill, allocN]) (by simp [fill]) rfl rfl (fun σ _ => ?_)
          cases σ with
          | none => simp [valAt, hv, hv0]
          | some x => obtain ⟨a, b⟩ := x; simp [valAt, hv, h0.1, hv0]
      · rw [if_neg h0]
        by_cases h1 : p.spids = [] ∧ isUnity v = true
        · rw [if_pos h1]
          have hv1 := hu v h1.2
          refine ⟨t, rfl, Or.inr ⟨rfl, rfl⟩, hgt, fun h => absurd rfl h, ?_⟩
          intro σ _ i hi
          have : valAt σ (plane s 0) = 1 := by
            rw [hp0]
            cases σ with
            | none => simp [valAt, hv, hv1]
            | some x => obtain ⟨a, b⟩ := x; simp [valAt, hv, h1.1, hv1]
          rw [this, one_mul]
          by_cases hd : t.dims = []
          · rw [if_pos hd]
            have : t.planes.length = 1 := by rw [ht, hd]; rfl
            rw [show i = 0 by omega]
          · rw [if_neg hd]
        · rw [if_neg h1]
          obtain ⟨ps, m1, m2, m3⟩ := mapRes_plane (fun i => (getPlane t i).bind (scalePlane p))
            (fun i (r : Plane V F) => GoodPlane N π r ∧ ∀ σ, ValidPert N σ → valAt σ r = valAt σ (plane t i) * valAt σ p) (prod t.dims) (by
              intro q hq
              rw [getPlane_lt t q (by omega)]
              exact scalePlane_good N π p (plane t q) (by rw [hv]; rfl) hgp (hgt _ (plane_mem t q (by omega))))
          refine ⟨fill (allocDims (failPlane none) t.dims) ps, ?_, Or.inr ⟨?_, by show ps.length = _; omega⟩, ?_, ?_, ?_⟩
          · rw [m1]; rfl
          · show (if prod t.dims = 1 then [] else t.dims) = t.dims
            by_cases h : prod t.dims = 1
            · rw [if_pos h, htn h]
            · rw [if_neg h]
          · intro q hq
            obtain ⟨i, hi⟩ := List.mem_iff_getElem?.1 hq
            exact (m3 i q hi).1
          · intro h
            refine absurd ?_ h
            show (if prod t.dims = 1 then [] else t.dims) = t.dims
            by_cases h : prod t.dims = 1
            · rw [if_pos h, htn h]
            · rw [if_neg h]
          · intro σ hσ i hi
            have hd : (fill (allocDims (failPlane none) t.dims) ps).dims = t.dims := by
              show (if prod t.dims = 1 then [] else t.dims) = t.dims
              by_cases h : prod t.dims = 1
              · rw [if_pos h, htn h]
              · rw [if_neg h]
            rw [hd, hp0]
            have hpl := getElem_plane (fill (allocDims (failPlane none) t.dims) ps) i (by show i < ps.length; omega)
            have := (m3 _ _ hpl).2 σ hσ
            by_cases hdn : t.dims = []
            · rw [if_pos hdn]
              have : t.planes.length = 1 := by rw [ht, hdn]; rfl
              have hi0 : i = 0 := by omega
              subst hi0
              rw [(m3 _ _ hpl).2 σ hσ, mul_comm]
            · rw [if_neg hdn, this, mul_comm]

/-! ## Chains -/

theorem mulStep_good (d N : Nat) (hd : 2 ≤ d) (π : Int → Nat → ℚ) (isNull isUnity : V → Bool) (hn : ∀ v, isNull v = true → v = 0) (hu : ∀ v, isUnity v = true → v = 1)
    (a b : TRes (Plane V F)) (ha : Arg d N π a) (hb : Arg d N π b) :
    ∃ r, mulStep isNull isUnity a b = .ok r ∧ Arg d N π r ∧ ∀ σ, ValidPert N σ → asMat d σ r = asMat d σ a * asMat d σ b := by
  have hpd : prod [d, d] = d * d := by simp [prod]
  have hdd : d * d ≠ 1 := by
    intro h
    have := Nat.eq_one_of_mul_eq_one_right h
    omega
  -- facts about arguments
  have argfacts : ∀ t : TRes (Plane V F), Arg d N π t → t.planes.length = prod t.dims ∧ t.dims.length ≤ 2 ∧ (prod t.dims = 1 → t.dims = []) := by
    intro t ht
    rcases ht.1 with ⟨h1, h2⟩ | ⟨h1, h2⟩
    · rw [h1, h2]; exact ⟨rfl, by simp, fun _ => rfl⟩
    · rw [h1, h2, hpd]; exact ⟨rfl, by simp, fun h => absurd h hdd⟩
  -- scalar case
  have hscal : ∀ s t : TRes (Plane V F), Arg d N π s → Arg d N π t → s.dims = [] →
      ∃ r, scalarMul isNull isUnity s t = .ok r ∧ Arg d N π r ∧ ∀ σ, ValidPert N σ → asMat d σ r = valAt σ (plane s 0) • asMat d σ t := by
    intro s t hs ht hsd
    have hs1 : s.planes.length = 1 := by
      rcases hs.1 with ⟨_, h2⟩ | ⟨h1, _⟩
      · exact h2
      · rw [hsd] at h1; cases h1
    obtain ⟨f1, f2, f3⟩ := argfacts t ht
    obtain ⟨r, h1, h2, h3, hz, h4⟩ := scalarMul_good N π isNull isUnity hn hu s t hs1 f1 f2 f3 hs.2 ht.2
    refine ⟨r, h1, ⟨?_, h3⟩, ?_⟩
    · rcases h2 with h2 | ⟨h2, h2'⟩
      · exact Or.inl h2
      · rcases ht.1 with ⟨t1, t2⟩ | ⟨t1, t2⟩
        · exact Or.inl ⟨by rw [h2, t1], by rw [h2', t2]⟩
        · exact Or.inr ⟨by rw [h2, t1], by rw [h2', t2]⟩
    · intro σ hσ
      have h4 := h4 σ hσ
      unfold asMat
      rcases ht.1 with ⟨t1, t2⟩ | ⟨t1, t2⟩
      · -- two scalars
        have hr : r.dims = [] := by rcases h2 with h2 | h2; exact h2.1; rw [h2.1, t1]
        have := h4 0 (by omega)
        rw [if_pos hr] at this
        rw [if_pos hr, if_pos t1]
        show valAt σ (plane r 0) • (1 : Matrix (Fin d) (Fin d) V) = valAt σ (plane s 0) • (valAt σ (plane t 0) • (1 : Matrix (Fin d) (Fin d) V))
        rw [this, smul_smul]
      · have htne : t.dims ≠ [] := by rw [t1]; simp
        rw [if_neg htne]
        rcases h2 with ⟨hr, hr'⟩ | ⟨hr, hr'⟩
        · -- null scalar
          rw [if_pos hr]
          obtain ⟨z1, z2⟩ := hz (by rw [hr]; exact htne.symm) σ hσ
          show valAt σ (plane r 0) • (1 : Matrix (Fin d) (Fin d) V) = _
          rw [z1, z2, zero_smul, zero_smul]
        · have hrne : r.dims ≠ [] := by rw [hr]; exact htne
          rw [if_neg hrne]
          ext i j
          have hlt : (i : Nat) * d + j < t.planes.length := by
            rw [t2]
            have : ((i : Nat) + 1) * d ≤ d * d := Nat.mul_le_mul_right _ i.2
            rw [Nat.add_mul] at this
            have := j.2
            omega
          have := h4 (i * d + j) hlt
          rw [if_neg hrne] at this
          exact this
  unfold mulStep
  by_cases had : a.dims = []
  · rw [if_pos had]
    obtain ⟨r, h1, h2, h3⟩ := hscal a b ha hb had
    refine ⟨r, h1, h2, fun σ hσ => ?_⟩
    rw [h3 σ hσ]
    have : asMat d σ a = valAt σ (plane a 0) • (1 : Matrix (Fin d) (Fin d) V) := by unfold asMat; rw [if_pos had]; rfl
    rw [this, Matrix.smul_mul, Matrix.one_mul]
  · rw [if_neg had]
    by_cases hbd : b.dims = []
    · rw [if_pos hbd]
      obtain ⟨r, h1, h2, h3⟩ := hscal b a hb ha hbd
      refine ⟨r, h1, h2, fun σ hσ => ?_⟩
      rw [h3 σ hσ]
      have : asMat d σ b = valAt σ (plane b 0) • (1 : Matrix (Fin d) (Fin d) V) := by unfold asMat; rw [if_pos hbd]; rfl
      rw [this, Matrix.mul_smul, Matrix.mul_one]
    · rw [if_neg hbd]
      have hma : a.dims = [d, d] ∧ a.planes.length = d * d := by rcases ha.1 with h | h; exact absurd h.1 had; exact h
      have hmb : b.dims = [d, d] ∧ b.planes.length = d * d := by rcases hb.1 with h | h; exact absurd h.1 hbd; exact h
      obtain ⟨r, h1, h2, h3, h4, _, h6⟩ := matMul_good d d d N π a b ⟨Or.inl hma.1, hma.2⟩ ⟨Or.inl hmb.1, hmb.2⟩ ha.2 hb.2
      have hrd : r.dims = [d, d] := by
        rw [h2, if_neg (by omega)]
        unfold outShape
        rw [hpd, if_neg hdd]
      refine ⟨r, h1, ⟨Or.inr ⟨hrd, h3⟩, fun q hq => (h4 q hq).1⟩, fun σ hσ => ?_⟩
      unfold asMat
      rw [if_neg had, if_neg hbd, if_neg (by rw [hrd]; simp)]
      exact h6 σ hσ

theorem mulLoop_good (d N : Nat) (hd : 2 ≤ d) (π : Int → Nat → ℚ) (isNull isUnity : V → Bool) (hn : ∀ v, isNull v = true → v = 0) (hu : ∀ v, isUnity v = true → v = 1) :
    ∀ (l : List (TRes (Plane V F))) (a : TRes (Plane V F)), Arg d N π a → (∀ b ∈ l, Arg d N π b) →
    ∃ r, mulLoop isNull isUnity a l = .ok (r, .fine) ∧ Arg d N π r ∧ ∀ σ, ValidPert N σ → asMat d σ r = asMat d σ a * (l.map (asMat d σ)).prod := by
  intro l
  induction l with
  | nil => intro a ha _; exact ⟨a, rfl, ha, fun σ _ => by simp⟩
  | cons b l ih =>
    intro a ha hl
    obtain ⟨r, h1, h2, h3⟩ := mulStep_good d N hd π isNull isUnity hn hu a b ha (hl b (by simp))
    obtain ⟨r', g1, g2, g3⟩ := ih r h2 (fun c hc => hl c (by simp [hc]))
    refine ⟨r', ?_, g2, fun σ hσ => ?_⟩
    · simp only [mulLoop, h1, Res.bind]
      have hf : (r.planes.filter fun p => p.fail.isSome) = [] := by
        rw [List.filter_eq_nil_iff]
        intro p hp
        simp [(h2.2 p hp).1]
      have hpos : r.planes.length ≠ 0 := by
        rcases h2.1 with ⟨_, h⟩ | ⟨_, h⟩
        · omega
        · rw [h]; exact Nat.mul_ne_zero (by omega) (by omega)
      rw [hf, if_neg (by simp only [List.length_nil]; omega)]
      exact g1
    · rw [g3 σ hσ, h3 σ hσ, List.map_cons, List.prod_cons, Matrix.mul_assoc]

/-! ## Failures -/

theorem addFails_some (fs : List F) (h : fs ≠ []) (cur : Option (List F)) : (addFails cur fs).isSome = true := by
  unfold addFails
  induction fs generalizing cur with
  | nil => exact absurd rfl h
  | cons f fs ih =>
    rw [List.foldl_cons]
    by_cases hf : fs = []
    · subst hf; rfl
    · exact ih hf _

theorem foldl_addFails_some (ps : List (Plane V F)) (hne : ∀ p ∈ ps, p.fail ≠ some []) : ∀ cur : Option (List F),
    (ps.foldl (fun cur p => addFails cur (p.fail.getD [])) cur).isSome = true ↔ cur.isSome = true ∨ ∃ p ∈ ps, p.fail.isSome = true := by
  induction ps with
  | nil => intro cur; simp
  | cons p ps ih =>
    intro cur
    rw [List.foldl_cons, ih (fun q hq => hne q (by simp [hq]))]
    have : (addFails cur (p.fail.getD [])).isSome = true ↔ cur.isSome = true ∨ p.fail.isSome = true := by
      cases hf : p.fail with
      | none => simp [addFails]
      | some fs =>
        have : fs ≠ [] := fun h => hne p (by simp) (by rw [hf, h])
        simp [addFails_some fs this cur]
    rw [this]
    simp [or_assoc]

theorem sumPlane_fail (ps : List (Plane V F)) (hne : ∀ p ∈ ps, p.fail ≠ some []) (r : Plane V F) (h : sumPlane ps = .ok r) :
    r.fail.isSome = true ↔ ∃ p ∈ ps, p.fail.isSome = true := by
  have key := foldl_addFails_some ps hne none
  unfold sumPlane at h
  cases hf : ps.foldl (fun cur p => addFails cur (p.fail.getD [])) none with
  | some fs =>
    rw [hf] at h key
    simp only [Res.ok.injEq] at h
    subst h
    simp only [Option.isSome_some, true_iff, Option.isSome_none, Bool.false_eq_true, false_or] at key
    exact ⟨fun _ => key, fun _ => rfl⟩
  | none =>
    rw [hf] at h key
    simp only [Option.isSome_none, Bool.false_eq_true, false_iff, false_or] at key
    have hr : r.fail = none := by
      simp only at h
      unfold evalPlane at h
      cases h1 : Func.findSpids (Func.idsOf (ps.map argV)) with
      | err => rw [h1] at h; cases h
      | ub => rw [h1] at h; cases h
      | ok sp =>
        rw [h1] at h
        simp only [Res.bind] at h
        cases h2 : Func.spidLoop (fun _ => true) (fun vs => Res.ok (computeSum 0 vs)) (Func.maxSets (ps.map argV)) (ps.map argV)
            ((ps.map argV).map fun c => c.bind (·.value)) sp (List.replicate (ps.map argV).length 0) with
        | err => rw [h2] at h; cases h
        | ub => rw [h2] at h; cases h
        | ok rows => rw [h2] at h; simp only [Res.ok.injEq] at h; rw [← h]
    rw [hr]
    exact ⟨fun h => (by cases h), fun h => absurd h key⟩

theorem matMul_fail (m n p : Nat) (a b : TRes (Plane V F)) (ha : IsMat m n a) (hb : IsMat n p b)
    (hna : ∀ q ∈ a.planes, q.fail ≠ some []) (hnb : ∀ q ∈ b.planes, q.fail ≠ some []) (r : TRes (Plane V F)) (h : matMul a b = .ok r) :
    ∀ i < m, ∀ k < p, (plane r (i * p + k)).fail.isSome = true ↔ ∃ j < n, (plane a (i * n + j)).fail.isSome = true ∨ (plane b (j * p + k)).fail.isSome = true := by
  intro i hi k hk
  have hla := ha.2
  have hlb := hb.2
  simp only [matMul, matDims_isMat ha, matDims_isMat hb, Res.bind] at h
  rw [if_neg (not_not.2 rfl)] at h
  cases hm : mapRes (fun q => (terms a b n p (q / p) (q % p) 0 n).bind sumPlane) (List.range (m * p)) with
  | err => simp only [Res.bind] at hm; rw [hm] at h; cases h
  | ub => simp only [Res.bind] at hm; rw [hm] at h; cases h
  | ok ps =>
    have hm' := hm
    simp only [Res.bind] at hm'
    rw [hm'] at h
    simp only [Res.ok.injEq] at h
    obtain ⟨g1, g2⟩ := (mapRes_ok _ _ _).1 hm
    have e0 : (i + 1) * p ≤ m * p := Nat.mul_le_mul_right _ hi
    rw [Nat.add_mul] at e0
    have e1 : (i * p + k) / p = i := by rw [Nat.mul_comm, Nat.mul_add_div (by omega), Nat.div_eq_of_lt hk]; omega
    have e2 : (i * p + k) % p = k := by rw [Nat.mul_comm, Nat.mul_add_mod, Nat.mod_eq_of_lt hk]
    obtain ⟨q, hq, hs⟩ := g2 (i * p + k) (i * p + k) (by rw [List.getElem?_range]; omega)
    have hpl : plane r (i * p + k) = q := by
      rw [← h]; simp [plane, fill, List.getD_eq_getElem?_getD, hq]
    rw [hpl]
    have hbound : ∀ x, x < n → i * n + x < a.planes.length ∧ k + x * p < b.planes.length := by
      intro x hx
      have f1 : (i + 1) * n ≤ m * n := Nat.mul_le_mul_right _ hi
      have f2 : (x + 1) * p ≤ n * p := Nat.mul_le_mul_right _ hx
      rw [Nat.add_mul] at f1 f2
      omega
    rw [e1, e2, terms_spec a b n p i k n 0 (fun x _ hx => hbound x (by omega)), ← List.range_eq_range'] at hs
    simp only [Res.bind] at hs
    rw [sumPlane_fail _ (by
      intro x hx
      obtain ⟨j, hj, hx⟩ := List.mem_flatMap.1 hx
      have hj := List.mem_range.1 hj
      simp only [List.mem_cons, List.not_mem_nil, or_false] at hx
      rcases hx with rfl | rfl
      · exact hna _ (plane_mem a _ (hbound j hj).1)
      · exact hnb _ (plane_mem b _ (hbound j hj).2)) q hs]
    constructor
    · rintro ⟨x, hx, hxf⟩
      obtain ⟨j, hj, hx⟩ := List.mem_flatMap.1 hx
      simp only [List.mem_cons, List.not_mem_nil, or_false] at hx
      refine ⟨j, List.mem_range.1 hj, ?_⟩
      rcases hx with rfl | rfl
      · exact Or.inl hxf
      · exact Or.inr (by rw [Nat.add_comm (j * p)]; exact hxf)
    · rintro ⟨j, hj, hf | hf⟩
      · exact ⟨_, List.mem_flatMap.2 ⟨j, List.mem_range.2 hj, by simp⟩, hf⟩
      · exact ⟨plane b (k + j * p), List.mem_flatMap.2 ⟨j, List.mem_range.2 hj, by simp⟩, by rw [Nat.add_comm k]; exact hf⟩

end Verif.Tensor
