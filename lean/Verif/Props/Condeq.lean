import Verif.Proof.Condeq
import Mathlib.Tactic.NormNum
/-! # Conditional equations (C157–C161) -/
namespace Verif.Condeq

open Verif.Func (IdsWf Increasing)

/-! Examples used below -/

/-- A child that depends on one parameter with one set of perturbed values. -/
def ex1 (s : Int) (v p w : ℚ) (f : Option (BitVec 32)) : Plane :=
  ⟨false, some ⟨false, v, 0⟩, f, [s], 1, fun _ _ => p, fun _ _ => ⟨false, w, 0⟩⟩

theorem ex1_wf (s : Int) (v p w : ℚ) (f) (hs : 0 ≤ s) : PlaneWf (ex1 s v p w f) ⟨false, v, 0⟩ :=
  ⟨⟨List.pairwise_singleton _ _, fun x hx => by rw [List.mem_singleton.1 hx]; exact hs⟩, rfl, fun _ => rfl, fun _ => Or.inl rfl, fun _ _ _ _ _ => rfl⟩

theorem ex1_real (s : Int) (v p w : ℚ) (f) : RealPlane (ex1 s v p w f) ⟨false, v, 0⟩ := ⟨rfl, fun _ _ _ _ => rfl⟩

/-- A child without parameters. -/
def exC (v : Num) (f : Option (BitVec 32)) : Plane := ⟨false, some v, f, [], 0, fun _ _ => 0, fun _ _ => v⟩

/-- An element without a value. -/
def exNull (fail : Bool) : Plane := ⟨fail, none, none, [], 0, fun _ _ => 0, fun _ _ => ⟨false, 0, 0⟩⟩

/-- C157, C158, C159, C161: for results of children that fit each other, each element of the equation is the second child less the
first, with derivatives for every parameter either depends on; see `OutOk`. -/
theorem C157_equation (m : ℚ) (a b : CRes) (c2 : Option CRes) (d : List Nat) (ha : CResWf a ∧ Fits d a) (hb : CResWf b ∧ Fits d b)
    (hc : ∀ c, c2 = some c → CResWf c ∧ Fits d c) (hd : d = [] ∨ a.dims = d ∨ b.dims = d ∨ ∃ c, c2 = some c ∧ c.dims = d)
    (hg : ∀ i < d.foldr (· * ·) 1, ∀ p0 p1, elem a i = some p0 → elem b i = some p1 → ElemGood m p0 p1 (weightOf c2 i)) :
    ∃ r, getResult m (some a) (some b) c2 = .ok (.result d r) ∧ r.length = d.foldr (· * ·) 1 ∧
      ∀ i < d.foldr (· * ·) 1, ∀ p0 p1, elem a i = some p0 → elem b i = some p1 →
        ∃ o, r[i]? = some o ∧ ElemOk m p0 p1 (weightOf c2 i) o := getResult_spec m a b c2 d ha hb hc hd hg

example : getResult 0 (some ⟨[], [ex1 3 10 (1/2) 11 (some 1)]⟩) (some ⟨[], [ex1 4 12 1 15 (some 4)]⟩) none =
    .ok (.result [] [some ⟨⟨false, 2, 0⟩, some 5, [3, 4], [⟨false, 2, 0⟩, ⟨false, -3, 0⟩], [1/2, 1], none⟩]) := by decide +kernel

example : ElemGood 0 (ex1 3 10 (1/2) 11 none) (ex1 3 12 1 15 none) none := by
  intro v0 v1 h0 h1
  injection h0 with h0; injection h1 with h1
  subst h0 h1
  exact ⟨ex1_wf _ _ _ _ _ (by decide), ex1_wf _ _ _ _ _ (by decide), fun h => absurd rfl h, fun x h => by cases h⟩

/-- C157: for children affine in the parameters, the derivatives say what the equation's value is after the parameters change by `δ`: its
value less the sum of derivatives times changes (up to multiples of `m`). -/
theorem C157_law (m : ℚ) (c0 c1 : Plane) (v0 v1 : Num) (w : Option Num) (o : Out) (a0 a1 δ : Int → ℚ) (h0 : PlaneWf c0 v0) (h1 : PlaneWf c1 v1)
    (hm : m ≠ 0 → RealPlane c0 v0 ∧ RealPlane c1 v1) (hw : ∀ x, w = some x → x.cplx = false)
    (ho : plane m c0 c1 w = .ok (some o)) (f0 : Affine m Num.re c0 v0 a0) (f1 : Affine m Num.re c1 v1 a1) (s0 : Steps m c0 a0) (s1 : Steps m c1 a1) :
    ∃ k : ℤ, moved Num.re c1 v1 a1 δ - moved Num.re c0 v0 a0 δ =
      o.value.re - ((o.spids.zip o.derivs).map fun x => x.2.re * δ x.1).sum + k * m := by
  obtain ⟨o', e, h⟩ := plane_spec m c0 c1 v0 v1 w h0 h1 hm hw
  rw [ho] at e
  injection e with e; injection e with e
  subst e
  exact affine_moved m c0 c1 v0 v1 w o a0 a1 δ h0 h1 h f0 f1 s0 s1

/-- The children of the first example are affine, with coefficients 2 and 3. -/
example : Affine 0 Num.re (ex1 3 10 (1/2) 11 none) ⟨false, 10, 0⟩ (fun s => if s = 3 then 2 else 0) ∧
    Steps 0 (ex1 3 10 (1/2) 11 none) (fun s => if s = 3 then 2 else 0) := by
  refine ⟨⟨fun s hs => ?_, fun i s hi k _ => ⟨0, ?_⟩⟩, fun s hs => ?_⟩
  · have : s ≠ 3 := fun h => hs (by rw [h]; exact List.mem_singleton.2 rfl)
    simp [this]
  · have : s = 3 := by
      have := List.mem_of_getElem? hi
      exact List.mem_singleton.1 this
    subst this
    change (11 : ℚ) = 10 + (if (3 : Int) = 3 then 2 else 0) * (1 / 2) + ((0 : ℤ) : ℚ) * 0
    norm_num
  · obtain rfl : s = 3 := List.mem_singleton.1 hs
    refine ⟨?_, Or.inl rfl⟩
    change (if (3 : Int) ∈ [3] then _ else (1 : ℚ)) ≠ 0
    rw [if_pos (by simp)]
    change ((1 : ℚ) / 2) ≠ 0
    norm_num

/-! ## C158: equations modulo something -/

/-- With a modulo the value is the nearest to zero of the numbers the difference can be; and derivatives of children affine up to
multiples of it are exact if the changes are less than half of it. -/
theorem C158_modulo (m : ℚ) (hm : m ≠ 0) (c0 c1 : Plane) (v0 v1 : Num) (w : Option Num) (h0 : PlaneWf c0 v0) (h1 : PlaneWf c1 v1)
    (hr : RealPlane c0 v0 ∧ RealPlane c1 v1) (hw : ∀ x, w = some x → x.cplx = false) :
    ∃ o, plane m c0 c1 w = .ok (some o) ∧ o.value.cplx = false ∧
      (∃ k : ℤ, o.value.re = v1.re - v0.re + k * m) ∧ (∀ k : ℤ, |o.value.re| ≤ |v1.re - v0.re + k * m|) ∧
      ∀ a0 a1, Affine m Num.re c0 v0 a0 → Affine m Num.re c1 v1 a1 → Steps m c0 a0 → Steps m c1 a1 →
        ∀ (j : Nat) (s : Int), o.spids[j]? = some s → ∃ d, o.derivs[j]? = some d ∧ d.re = a0 s - a1 s := by
  obtain ⟨o, e, h⟩ := plane_spec m c0 c1 v0 v1 w h0 h1 (fun _ => hr) hw
  refine ⟨o, e, h.real.2 hr, ?_, ?_, fun a0 a1 f0 f1 s0 s1 => affine_deriv m c0 c1 v0 v1 w o a0 a1 h0 h1 h f0 f1 s0 s1⟩
  · have := h.re
    unfold Brought at this
    rw [if_neg hm] at this
    exact this.1
  · intro k
    by_contra hlt
    rw [not_le] at hlt
    obtain ⟨z, hz⟩ := brought_congr _ _ _ h.re
    have hb := h.re
    unfold Brought at hb
    rw [if_neg hm] at hb
    have he : Brought m (v1.re - v0.re + k * m) o.value.re := by
      apply brought_shift _ _ _ (-k)
      have : v1.re - v0.re + (k : ℚ) * m + ((-k : ℤ) : ℚ) * m = v1.re - v0.re := by push_cast; ring
      rw [this]; exact h.re
    have := brought_eq _ _ _ he (Or.inr (lt_of_lt_of_le hlt hb.2))
    rw [this] at hlt
    exact lt_irrefl _ hlt

/-- Phases of 179 and -179 degrees differ by 2, and so do they when a parameter has moved one of them past 180. -/
example : getResult 360 (some ⟨[], [ex1 3 179 1 (-180) none]⟩) (some ⟨[], [exC ⟨false, -179, 0⟩ none]⟩) none =
    .ok (.result [] [some ⟨⟨false, 2, 0⟩, none, [3], [⟨false, 1, 0⟩], [1], none⟩]) := by decide +kernel

/-- Complex values have no modulo: an exception. -/
theorem C158_complex (m : ℚ) (hm : m ≠ 0) (c0 c1 : Plane) (v0 v1 : Num) (w : Option Num) (h0 : PlaneWf c0 v0) (h1 : PlaneWf c1 v1)
    (hc : v0.cplx = true ∨ v1.cplx = true) : plane m c0 c1 w = .err := by
  obtain ⟨u, hu, _⟩ := Func.findSpids_spec [c0.spids, c1.spids] (by
    intro l hl
    rcases List.mem_cons.1 hl with rfl | hl
    · exact h0.ids
    · rw [List.mem_singleton.1 hl]; exact h1.ids)
  have hx : (v1.sub v0).cplx = true := by
    change (v1.cplx || v0.cplx) = true
    rcases hc with h | h <;> rw [h] <;> simp
  unfold plane
  rw [h0.value, h1.value]
  dsimp only
  rw [hu]
  dsimp only [Res.bind]
  unfold mainValue remainder
  rw [if_pos hm, hx]
  rfl

example : getResult 360 (some ⟨[], [exC ⟨true, 1, 1⟩ none]⟩) (some ⟨[], [exC ⟨false, 2, 0⟩ none]⟩) none = .err := by decide +kernel

/-! ## C159: types, flags and weights -/

/-- Value and derivatives of an element are all real or all complex, real if everything is; flags are those of either child; the weight
is the third child's. -/
theorem C159_element (m : ℚ) (c0 c1 : Plane) (v0 v1 : Num) (w : Option Num) (o : Out) (h0 : PlaneWf c0 v0) (h1 : PlaneWf c1 v1)
    (hm : m ≠ 0 → RealPlane c0 v0 ∧ RealPlane c1 v1) (hw : ∀ x, w = some x → x.cplx = false) (ho : plane m c0 c1 w = .ok (some o)) :
    (∀ d ∈ o.derivs, d.cplx = o.value.cplx) ∧ (o.value.cplx = false ↔ RealPlane c0 v0 ∧ RealPlane c1 v1) ∧
    (∀ b, flagBit o.flags b = (flagBit c0.flags b || flagBit c1.flags b)) ∧ o.weight = w.map Num.re := by
  obtain ⟨o', e, h⟩ := plane_spec m c0 c1 v0 v1 w h0 h1 hm hw
  rw [ho] at e
  injection e with e; injection e with e
  subst e
  refine ⟨fun d hd => ?_, h.real, h.flags.2, h.weight⟩
  obtain ⟨j, hj⟩ := List.mem_iff_getElem?.1 hd
  have hlt : j < o.spids.length := by
    rw [← h.nderivs]
    exact (List.getElem?_eq_some_iff.1 hj).1
  obtain ⟨d', _, e1, _, _, e4⟩ := h.deriv j _ (List.getElem?_eq_getElem hlt)
  rw [hj] at e1
  injection e1 with e1
  rw [e1]; exact e4

/-- A complex derivative makes the value and the real derivatives before it complex. -/
example : getResult 0 (some ⟨[], [ex1 3 10 1 11 none]⟩)
    (some ⟨[], [⟨false, some ⟨false, 12, 0⟩, none, [4], 1, fun _ _ => 1, fun _ _ => ⟨true, 12, 1⟩⟩]⟩) (some ⟨[], [exC ⟨false, 7, 0⟩ none]⟩) =
    .ok (.result [] [some ⟨⟨true, 2, 0⟩, none, [3, 4], [⟨true, 1, 0⟩, ⟨true, 0, -1⟩], [1, 1], some 7⟩]) := by decide +kernel

/-! ## C160: elements without a value, failed elements -/

/-- Full statement: an element without a value in a child gives one in the result; an element that failed in a child is not made one that
merely has no value. -/
def C160_full : Prop :=
  ∀ (m : ℚ) (a b : CRes) (c2 : Option CRes) (d : List Nat) (r : List (Option Out)), getResult m (some a) (some b) c2 = .ok (.result d r) →
    ∀ (i : Nat) (p0 p1 : Plane), i < d.foldr (· * ·) 1 → elem a i = some p0 → elem b i = some p1 →
      (p0.value = none ∨ p1.value = none → p0.fail = false → p1.fail = false → r[i]? = some none) ∧
      (p0.fail = true ∨ p1.fail = true → r[i]? ≠ some none)

/-- Elements without a value.  Missing: failed elements, see `C160_refuted`. -/
theorem C160_null_partial (m : ℚ) (a b : CRes) (c2 : Option CRes) (d : List Nat) (ha : CResWf a ∧ Fits d a) (hb : CResWf b ∧ Fits d b)
    (hc : ∀ c, c2 = some c → CResWf c ∧ Fits d c) (hd : d = [] ∨ a.dims = d ∨ b.dims = d ∨ ∃ c, c2 = some c ∧ c.dims = d)
    (hg : ∀ i < d.foldr (· * ·) 1, ∀ p0 p1, elem a i = some p0 → elem b i = some p1 → ElemGood m p0 p1 (weightOf c2 i)) :
    ∃ r, getResult m (some a) (some b) c2 = .ok (.result d r) ∧
      ∀ i < d.foldr (· * ·) 1, ∀ p0 p1, elem a i = some p0 → elem b i = some p1 →
        (p0.value = none ∨ p1.value = none ↔ r[i]? = some none) := by
  obtain ⟨r, e, _, h⟩ := getResult_spec m a b c2 d ha hb hc hd hg
  refine ⟨r, e, fun i hi p0 p1 e0 e1 => ?_⟩
  obtain ⟨o, h1, h2, h3⟩ := h i hi p0 p1 e0 e1
  rw [h1]
  constructor
  · intro hn; rw [h2 hn]
  · intro hn
    injection hn with hn
    by_contra hv
    rw [not_or] at hv
    obtain ⟨v0, hv0⟩ := Option.ne_none_iff_exists'.1 hv.1
    obtain ⟨v1, hv1⟩ := Option.ne_none_iff_exists'.1 hv.2
    obtain ⟨x, hx, _⟩ := h3 v0 v1 hv0 hv1
    rw [hn] at hx; cases hx

/-- A failed element of a child becomes an element without a value: the failure is lost. -/
theorem C160_refuted : ¬ C160_full := by
  intro h
  have e : getResult 0 (some ⟨[2], [exNull true, exC ⟨false, 1, 0⟩ none]⟩) (some ⟨[], [exC ⟨false, 5, 0⟩ none]⟩) none =
      .ok (.result [2] [none, some ⟨⟨false, 4, 0⟩, none, [], [], [], none⟩]) := by decide +kernel
  exact (h 0 _ _ none _ _ e 0 (exNull true) (exC ⟨false, 5, 0⟩ none) (by decide) rfl rfl).2 (Or.inl rfl) rfl

example : CResWf ⟨[2], [exNull true, exC ⟨false, 1, 0⟩ none]⟩ ∧ Fits [2] ⟨[2], [exNull true, exC ⟨false, 1, 0⟩ none]⟩ :=
  ⟨⟨rfl, by simp⟩, Or.inr rfl⟩

/-! ## C161: children without a result, children that do not fit -/

/-- Full statement: without a result of one of the first two children the node's result is missing; the third may have none. -/
def C161_full : Prop :=
  ∀ (m : ℚ) (a b c2 : Option CRes), (∀ c, a = some c ∨ b = some c ∨ c2 = some c → CResWf c) →
    (getResult m a b c2 = .ok .missing ↔ a = none ∨ b = none)

/-- If the first child has a result.  Missing: if it has none, see `C161_refuted`. -/
theorem C161_missing_partial (m : ℚ) (a : CRes) (b c2 : Option CRes) (hw : CResWf a) :
    getResult m (some a) b c2 = .ok .missing ↔ b = none := by
  have hne : ¬ a.planes.length = 0 := by have := List.length_pos_iff.2 hw.2; omega
  unfold getResult
  dsimp only
  rw [if_neg hne]
  cases b with
  | none => simp
  | some b =>
    dsimp only
    constructor
    · intro h
      exfalso
      cases h1 : joinDims a.dims b with
      | err => rw [h1] at h; cases h
      | ub => rw [h1] at h; cases h
      | ok d =>
        rw [h1] at h
        dsimp only [Res.bind] at h
        cases h2 : joinOpt d c2 with
        | err => rw [h2] at h; cases h
        | ub => rw [h2] at h; cases h
        | ok d' =>
          rw [h2] at h
          dsimp only at h
          cases h3 : planes m a b c2 (List.range (d'.foldr (· * ·) 1)) with
          | err => rw [h3] at h; cases h
          | ub => rw [h3] at h; cases h
          | ok r => rw [h3] at h; cases h
    · intro h; cases h

/-- Without a result of the first child there is an exception. -/
theorem C161_refuted : ¬ C161_full := by
  intro h
  have := (h 0 none none none (by rintro c (h | h | h) <;> cases h)).2 (Or.inl rfl)
  exact absurd this (by decide +kernel)

/-- Tensors of different dimensions: an exception. -/
theorem C161_mismatch (m : ℚ) (a b : CRes) (c2 : Option CRes) (x y : CRes) (ha : CResWf a) (hb : CResWf b)
    (hx : x = a ∨ x = b ∨ c2 = some x) (hy : y = a ∨ y = b ∨ c2 = some y) (hxd : x.dims ≠ []) (hyd : y.dims ≠ []) (hxy : x.dims ≠ y.dims) :
    getResult m (some a) (some b) c2 = .err := by
  have hna : ¬ a.planes.length = 0 := by have := List.length_pos_iff.2 ha.2; omega
  have hnb : ¬ b.planes.length = 0 := by have := List.length_pos_iff.2 hb.2; omega
  unfold getResult
  dsimp only
  rw [if_neg hna]
  by_cases hab : a.dims = [] ∨ b.dims = [] ∨ a.dims = b.dims
  · have h1 : ∃ d, joinDims a.dims b = .ok d ∧ (a.dims = [] ∨ a.dims = d) ∧ (b.dims = [] ∨ b.dims = d) := by
      unfold joinDims
      rw [if_neg hnb]
      by_cases h2 : b.dims = []
      · rw [if_neg (by simpa using h2)]; exact ⟨_, rfl, Or.inr rfl, Or.inl h2⟩
      · rw [if_pos h2]
        by_cases h3 : a.dims = []
        · rw [if_pos h3]; exact ⟨_, rfl, Or.inl h3, Or.inr rfl⟩
        · have h4 := (hab.resolve_left h3).resolve_left h2
          rw [if_neg h3, if_neg (by simpa using h4)]
          exact ⟨_, rfl, Or.inr rfl, Or.inr h4.symm⟩
    obtain ⟨d, e, k0, k1⟩ := h1
    rw [e]
    dsimp only [Res.bind]
    have hcs : ∃ c, c2 = some c ∧ c.dims ≠ [] ∧ d ≠ [] ∧ d ≠ c.dims := by
      have fit : ∀ z, z = a ∨ z = b → z.dims ≠ [] → z.dims = d := by
        rintro z (rfl | rfl) hz
        · exact k0.resolve_left hz
        · exact k1.resolve_left hz
      have hx' : (x = a ∨ x = b) ∨ c2 = some x := by rw [or_assoc]; exact hx
      have hy' : (y = a ∨ y = b) ∨ c2 = some y := by rw [or_assoc]; exact hy
      rcases hx' with hx' | hx' <;> rcases hy' with hy' | hy'
      · exact absurd ((fit x hx' hxd).trans (fit y hy' hyd).symm) hxy
      · refine ⟨y, hy', hyd, ?_, ?_⟩
        · rw [← fit x hx' hxd]; exact hxd
        · rw [← fit x hx' hxd]; exact hxy
      · refine ⟨x, hx', hxd, ?_, ?_⟩
        · rw [← fit y hy' hyd]; exact hyd
        · rw [← fit y hy' hyd]; exact hxy.symm
      · rw [hx'] at hy'
        injection hy' with hy'
        exact absurd (by rw [hy']) hxy
    obtain ⟨c, rfl, c1, c3, c4⟩ := hcs
    unfold joinOpt joinDims
    dsimp only
    by_cases hz : c.planes.length = 0
    · rw [if_pos hz]
    · rw [if_neg hz, if_pos c1, if_neg c3, if_pos c4]
  · rw [not_or, not_or] at hab
    unfold joinDims
    rw [if_neg hnb, if_pos hab.2.1, if_neg hab.1, if_pos hab.2.2]
    rfl

example : getResult 0 (some ⟨[2], [exC ⟨false, 1, 0⟩ none, exC ⟨false, 1, 0⟩ none]⟩)
    (some ⟨[1, 2], [exC ⟨false, 1, 0⟩ none, exC ⟨false, 1, 0⟩ none]⟩) none = .err := by decide +kernel

end Verif.Condeq
