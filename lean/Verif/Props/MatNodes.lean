import Verif.Proof.MatNodes
/-! # Functions of tensors (C162–C165) -/
namespace Verif.MatNodes
open Verif.Func (Plane IdsWf PlaneWf pertVal Code Depends Agree mainVal)
open Verif.Tensor (TRes Sized elem prod ValidIdx)

/-! ## C162: functions of whole tensors -/

/-- Elements of the result have the function's main values, depend on all parameters any element of any child depends on, and their
perturbed values are the function of the perturbed arguments. -/
theorem C162_values [Inhabited V] (f : List (List (Option V)) → Res (List V)) (n : Nat) (ch : List (List (Plane V F)))
    (hw : ∀ c ∈ ch, ∀ p ∈ c, PlaneWf n p) (out : List (Plane V F)) (h : tensorEval f ch = .ok out) :
    ∃ main, f (mainArgs ch) = .ok main ∧ out.length = main.length ∧ ∀ (j : Nat) (p : Plane V F), out[j]? = some p → ElemIs f n ch main j p := by
  unfold tensorEval at h
  split at h
  · cases h
  · obtain ⟨_, main, h1, h2, h3⟩ := (tensorCore_spec _ n (ch.flatten.map some) (fun c hc => by
      obtain ⟨l, hl, hc⟩ := (mem_flat ch c).1 hc
      exact hw l hl c hc)).2 out h
    have key : ∀ s k, f (regroup (ch.map List.length) ((ch.flatten.map some).map (pertVal s k))) = f (pertArgs s k ch) := fun s k => flat_map ch f (pertVal s k)
    have hm : f (regroup (ch.map List.length) ((ch.flatten.map some).map mainVal)) = f (mainArgs ch) := flat_map ch f mainVal
    rw [hm] at h1
    refine ⟨main, h1, h2, fun j p hj => ?_⟩
    obtain ⟨q1, q2, q3, q4, q5, q6⟩ := h3 j p hj
    refine ⟨q1, q2, q3, fun s => (q4 s).trans (depends_flat ch s), q5, fun i s hi k hk => ?_⟩
    obtain ⟨⟨vs, e, hv⟩, hp⟩ := q6 i s hi k hk
    rw [key] at e
    exact ⟨⟨vs, e, hv⟩, fun c hc q hq l hl => hp q ((mem_flat ch q).2 ⟨c, hc, hq⟩) l hl⟩

/-- There is a result exactly if the function has values for the main and all perturbed arguments and elements that depend on the same
parameter perturb it by the same amount. -/
theorem C162_succeeds [Inhabited V] (f : List (List (Option V)) → Res (List V)) (n : Nat) (ch : List (List (Plane V F)))
    (hw : ∀ c ∈ ch, ∀ p ∈ c, PlaneWf n p) :
    (∃ out, tensorEval f ch = .ok out) ↔ (∃ main, f (mainArgs ch) = .ok main) ∧ AgreeT n ch ∧
      ∀ s, DependsT ch s → ∀ k < n, ∃ vs, f (pertArgs s k ch) = .ok vs := by
  have hw' : ∀ c, some c ∈ ch.flatten.map some → PlaneWf n c := fun c hc => by
    obtain ⟨l, hl, hc⟩ := (mem_flat ch c).1 hc
    exact hw l hl c hc
  have key : ∀ s k, f (regroup (ch.map List.length) ((ch.flatten.map some).map (pertVal s k))) = f (pertArgs s k ch) := fun s k => flat_map ch f (pertVal s k)
  have hm : f (regroup (ch.map List.length) ((ch.flatten.map some).map mainVal)) = f (mainArgs ch) := flat_map ch f mainVal
  have hno : ch.flatten.any (fun c => c.value.isNone) = false := by
    rw [List.any_eq_false]
    intro p hp
    obtain ⟨l, hl, hp⟩ := List.mem_flatten.1 hp
    have := (hw l hl p hp).2.1
    cases hv : p.value with
    | none => rw [hv] at this; cases this
    | some v => simp
  constructor
  · rintro ⟨out, h⟩
    have h0 := h
    unfold tensorEval at h
    rw [hno, if_neg (by simp)] at h
    obtain ⟨ha, main, h1, _⟩ := (tensorCore_spec _ n (ch.flatten.map some) hw').2 out h
    rw [hm] at h1
    refine ⟨⟨main, h1⟩, (agree_flat n ch).1 ha, ?_⟩
    -- the perturbed values were computed even if the result has no elements
    intro s hs k hk
    obtain ⟨u, e, hu, hdep, hmax, g1, _, _⟩ := Func.evalPlane_loop (fun _ => true) (fun vs => f (regroup (ch.map List.length) vs)) n (ch.flatten.map some) hw'
    rw [tensorCore_eq, hm, h1] at h
    dsimp only [Res.bind] at h
    rw [e] at h
    dsimp only at h
    cases hr : Func.spidLoop (fun _ => true) (fun vs => f (regroup (ch.map List.length) vs)) (Func.maxSets (ch.flatten.map some)) (ch.flatten.map some)
        ((ch.flatten.map some).map mainVal) u (List.replicate (ch.flatten.map some).length 0) with
    | err => rw [hr] at h; cases h
    | ub => rw [hr] at h; cases h
    | ok rows =>
      obtain ⟨_, g3⟩ := g1 rows hr
      obtain ⟨i, hi, he⟩ := List.mem_iff_getElem.1 ((hdep s).2 ((depends_flat ch s).2 hs))
      obtain ⟨_, row, _, hok⟩ := g3 i s (by rw [List.getElem?_eq_getElem hi, he])
      obtain ⟨p, w, _, a2, _⟩ := hok k hk
      exact ⟨w, (key s k).symm.trans a2⟩
  · rintro ⟨⟨main, h1⟩, h2, h3⟩
    unfold tensorEval
    rw [hno, if_neg (by simp)]
    refine (tensorCore_spec _ n (ch.flatten.map some) hw').1 ⟨main, by rw [hm]; exact h1⟩ ((agree_flat n ch).2 h2) fun s hs k hk => ?_
    obtain ⟨vs, e⟩ := h3 s ((depends_flat ch s).1 hs) k hk
    exact ⟨vs, by rw [key]; exact e⟩

/-- One element without a value, or one that failed, and the node fails as a whole. -/
theorem C162_missing [Inhabited V] (f : List (List (Option V)) → Res (List V)) (ch : List (List (Plane V F))) (c : List (Plane V F)) (p : Plane V F)
    (hc : c ∈ ch) (hp : p ∈ c) (hv : p.value = none) : tensorEval f ch = .err := by
  unfold tensorEval
  rw [if_pos]
  rw [List.any_eq_true]
  exact ⟨p, List.mem_flatten.2 ⟨c, hc, hp⟩, by rw [hv]; rfl⟩

/-- Sum and product of all elements. -/
def exF : List (List (Option Int)) → Res (List Int) := fun a =>
  .ok [(a.flatten.map (·.getD 0)).sum, (a.flatten.map (·.getD 0)).foldl (· * ·) 1]

def exT (v : Int) (spids : List Int) (pv : Int) : Plane Int Unit := ⟨none, some v, spids, 1, fun _ _ => 1 / 2, fun _ _ => pv⟩

example : ∀ c ∈ [[exT 2 [3] 4, exT 5 [] 0], [exT 7 [3, 6] 8]], ∀ p ∈ c, PlaneWf 1 p := by
  simp [exT, PlaneWf, IdsWf, Func.Increasing]

example : (tensorEval exF [[exT 2 [3] 4, exT 5 [] 0], [exT 7 [3, 6] 8]]).bind (fun l => .ok (l.map fun p => (p.value, p.spids, p.pval 0 0, p.pval 1 0, p.pert 0 0))) =
    .ok [(some 14, [3, 6], 17, 15, 1 / 2), (some 70, [3, 6], 160, 80, 1 / 2)] := by decide +kernel

/-! ## C163: inverting matrices -/

theorem inv_inverse [Field V] (a b c d : V) (h : a * d - b * c ≠ 0) :
    Inverse [a, b, c, d] [d * (1 / (a * d - b * c)), b * -(1 / (a * d - b * c)), c * -(1 / (a * d - b * c)), a * (1 / (a * d - b * c))] := by
  refine ⟨a, b, c, d, _, _, _, _, rfl, rfl, ?_, ?_, ?_, ?_⟩
  · field_simp; ring
  · ring
  · ring
  · rw [show c * (b * -(1 / (a * d - b * c))) + d * (a * (1 / (a * d - b * c))) = (a * d - b * c) * (1 / (a * d - b * c)) by ring]
    exact mul_one_div_cancel h

/-- An element without a value as a zero. -/
theorem orZero_wf [Field V] (n : Nat) (p : Plane V F) (hp : p.value = none → p.spids = []) (hw : p.value ≠ none → PlaneWf n p) :
    PlaneWf n (orZero p) ∧ (orZero p).spids = p.spids ∧ (orZero p).pert = p.pert ∧ mainVal (some (orZero p)) = some (p.value.getD 0) ∧
      ∀ s k, pertVal s k (some (orZero p)) = some ((pertVal s k (some p)).getD 0) := by
  unfold orZero
  cases hv : p.value with
  | none =>
    have hs := hp hv
    refine ⟨⟨⟨List.Pairwise.nil, fun s h => by cases h⟩, rfl, fun h => absurd rfl h, Nat.zero_le n⟩, hs.symm, rfl, rfl, fun s k => ?_⟩
    unfold pertVal
    simp [hs, hv]
  | some v =>
    refine ⟨hw (by rw [hv]; simp), rfl, rfl, by unfold mainVal; simp [hv], fun s k => ?_⟩
    unfold pertVal
    by_cases h : s ∈ p.spids
    · simp [h]
    · simp [h, hv]

/-- The result of a 2 by 2 matrix is its inverse, for the main values and for every set of perturbed values; elements without a value
count as zero. -/
theorem C163_inverse [Field V] [Inhabited V] (n : Nat) (p0 p1 p2 p3 : Plane V F) (st : Option (List Nat))
    (hf : ∀ p ∈ [p0, p1, p2, p3], p.fail = none ∧ (p.value = none → p.spids = []) ∧ (p.value ≠ none → PlaneWf n p))
    (ha : AgreeT n [[p0, p1, p2, p3]]) (hd : det (matMain [p0, p1, p2, p3]) ≠ 0)
    (hdp : ∀ s, DependsT [[p0, p1, p2, p3]] s → ∀ k < n, det (matPert s k [p0, p1, p2, p3]) ≠ 0) :
    ∃ r, matrixInvert ⟨[2, 2], st, [p0, p1, p2, p3]⟩ = .ok (r, .fine) ∧ r.dims = [2, 2] ∧ r.planes.length = 4 ∧
      (∀ p ∈ r.planes, p.fail = none ∧ IdsWf p.spids ∧ ∀ s, s ∈ p.spids ↔ DependsT [[p0, p1, p2, p3]] s) ∧
      Inverse (matMain [p0, p1, p2, p3]) (matMain r.planes) ∧
      ∀ s, DependsT [[p0, p1, p2, p3]] s → ∀ k < n, Inverse (matPert s k [p0, p1, p2, p3]) (matPert s k r.planes) ∧
        ∀ p ∈ r.planes, ∀ q ∈ [p0, p1, p2, p3], ∀ i j : Nat, p.spids[i]? = some s → q.spids[j]? = some s → p.pert i k = q.pert j k := by
  have hz := fun p hp => orZero_wf n p (hf p hp).2.1 (hf p hp).2.2
  have hcf : collectFails [p0, p1, p2, p3] = none := by
    unfold collectFails
    simp only [List.foldl_cons, List.foldl_nil, (hf p0 (by simp)).1, (hf p1 (by simp)).1, (hf p2 (by simp)).1, (hf p3 (by simp)).1]
  have hmem : ∀ c, some c ∈ [p0, p1, p2, p3].map (fun p => some (orZero p)) ↔ ∃ p ∈ [p0, p1, p2, p3], c = orZero p := by
    intro c
    rw [List.mem_map]
    constructor
    · rintro ⟨p, hp, e⟩; injection e with e; exact ⟨p, hp, e.symm⟩
    · rintro ⟨p, hp, e⟩; exact ⟨p, hp, by rw [e]⟩
  have hdep : ∀ s, Depends ([p0, p1, p2, p3].map fun p => some (orZero p)) s ↔ DependsT [[p0, p1, p2, p3]] s := by
    intro s
    unfold Depends DependsT
    constructor
    · rintro ⟨c, hc, hs⟩
      obtain ⟨p, hp, rfl⟩ := (hmem c).1 hc
      rw [(hz p hp).2.1] at hs
      exact ⟨_, List.mem_singleton.2 rfl, p, hp, hs⟩
    · rintro ⟨c, hc, p, hp, hs⟩
      rw [List.mem_singleton.1 hc] at hp
      exact ⟨orZero p, (hmem _).2 ⟨p, hp, rfl⟩, by rw [(hz p hp).2.1]; exact hs⟩
  have hag : Agree n ([p0, p1, p2, p3].map fun p => some (orZero p)) := by
    intro c d hc hd i j s h1 h2 k hk
    obtain ⟨p, hp, rfl⟩ := (hmem c).1 hc
    obtain ⟨q, hq, rfl⟩ := (hmem d).1 hd
    rw [(hz p hp).2.1] at h1
    rw [(hz q hq).2.1] at h2
    rw [(hz p hp).2.2.1, (hz q hq).2.2.1]
    exact ha _ (List.mem_singleton.2 rfl) _ (List.mem_singleton.2 rfl) p hp q hq i j s h1 h2 k hk
  have hmain : inv22 (([p0, p1, p2, p3].map fun p => some (orZero p)).map mainVal) = inv22 ((matMain [p0, p1, p2, p3]).map some) := by
    unfold matMain
    congr 1
    rw [List.map_map, List.map_map]
    exact List.map_congr_left fun p hp => (hz p hp).2.2.2.1
  have hpert : ∀ s k, inv22 (([p0, p1, p2, p3].map fun p => some (orZero p)).map (pertVal s k)) = inv22 ((matPert s k [p0, p1, p2, p3]).map some) := by
    intro s k
    unfold matPert
    congr 1
    rw [List.map_map, List.map_map]
    exact List.map_congr_left fun p hp => (hz p hp).2.2.2.2 s k
  have hspec := tensorCore_spec inv22 n ([p0, p1, p2, p3].map fun p => some (orZero p)) (fun c hc => by
    obtain ⟨p, hp, rfl⟩ := (hmem c).1 hc
    exact (hz p hp).1)
  have hok : ∀ l : List V, l.length = 4 → ∃ o, inv22 (l.map some) = .ok o ∧ o.length = 4 ∧ (det l ≠ 0 → Inverse l o) := by
    intro l hl
    match l, hl with
    | [a, b, c, d], _ => exact ⟨_, rfl, rfl, fun h => inv_inverse a b c d h⟩
  obtain ⟨out, ho⟩ := hspec.1 (by
      obtain ⟨o, e, _⟩ := hok (matMain [p0, p1, p2, p3]) rfl
      exact ⟨o, by rw [hmain]; exact e⟩) hag (fun s _ k _ => by
      obtain ⟨o, e, _⟩ := hok (matPert s k [p0, p1, p2, p3]) rfl
      exact ⟨o, by rw [hpert]; exact e⟩)
  obtain ⟨_, main, m1, m2, m3⟩ := hspec.2 out ho
  rw [hmain] at m1
  obtain ⟨o, e, ol, oi⟩ := hok (matMain [p0, p1, p2, p3]) rfl
  rw [e] at m1
  injection m1 with m1
  subst m1
  have hout : out.length = 4 := by rw [m2, ol]
  refine ⟨⟨[2, 2], some [2, 2], out⟩, ?_, rfl, hout, ?_, ?_, ?_⟩
  · unfold matrixInvert
    rw [if_neg (by simp), if_neg (by simp), if_neg (by simp)]
    dsimp only
    rw [hcf]
    dsimp only
    rw [ho]
    rfl
  · intro p hp
    obtain ⟨j, hj⟩ := List.mem_iff_getElem?.1 hp
    obtain ⟨q1, _, q3, q4, _⟩ := m3 j p hj
    exact ⟨q1, q3, fun s => (q4 s).trans (hdep s)⟩
  · have : matMain out = o := by
      unfold matMain
      apply List.ext_getElem?
      intro j
      rw [List.getElem?_map]
      cases hj : out[j]? with
      | none =>
        rw [List.getElem?_eq_none_iff, m2] at hj
        rw [List.getElem?_eq_none hj]; rfl
      | some p =>
        obtain ⟨_, q2, _⟩ := m3 j p hj
        have hlt : j < o.length := by rw [← m2]; exact (List.getElem?_eq_some_iff.1 hj).1
        rw [Option.map_some, q2, List.getElem?_eq_getElem hlt]; rfl
    dsimp only
    rw [this]
    exact oi hd
  · intro s hs k hk
    obtain ⟨o', e', ol', oi'⟩ := hok (matPert s k [p0, p1, p2, p3]) rfl
    constructor
    · have : matPert s k out = o' := by
        unfold matPert
        apply List.ext_getElem?
        intro j
        rw [List.getElem?_map]
        cases hj : out[j]? with
        | none =>
          rw [List.getElem?_eq_none_iff] at hj
          rw [List.getElem?_eq_none (by omega)]; rfl
        | some p =>
          obtain ⟨_, _, q3, q4, _, q6⟩ := m3 j p hj
          have hmem := (q4 s).2 ((hdep s).2 hs)
          have hi : p.spids[p.spids.idxOf s]? = some s := by
            rw [List.getElem?_eq_getElem (List.idxOf_lt_length_iff.2 hmem)]; simp
          obtain ⟨⟨vs, ev, hv⟩, _⟩ := q6 _ s hi k hk
          rw [hpert, e'] at ev
          injection ev with ev
          subst ev
          have hlt : j < o'.length := by
            have := (List.getElem?_eq_some_iff.1 hj).1
            omega
          have : (pertVal s k (some p)).getD 0 = p.pval (p.spids.idxOf s) k := by
            unfold pertVal; simp [hmem]
          rw [Option.map_some, this, hv, List.getD_eq_getElem?_getD, List.getElem?_eq_getElem hlt]
          rfl
      dsimp only
      rw [this]
      exact oi' (hdp s hs k hk)
    · intro p hp q hq i j h1 h2
      obtain ⟨l, hl⟩ := List.mem_iff_getElem?.1 hp
      obtain ⟨_, _, _, _, _, q6⟩ := m3 l p hl
      have := (q6 i s h1 k hk).2 (orZero q) ((hmem _).2 ⟨q, hq, rfl⟩) j (by rw [(hz q hq).2.1]; exact h2)
      rw [(hz q hq).2.2.1] at this
      exact this

def exM (v : ℚ) (spids : List Int) (pv : ℚ) : Plane ℚ Unit := ⟨none, some v, spids, 1, fun _ _ => 1 / 2, fun _ _ => pv⟩

/-- A matrix with an element without value, one element of which depends on a parameter. -/
example : (matrixInvert ⟨[2, 2], some [2, 2], [exM 2 [3] 4, exM 1 [] 0, ⟨none, none, [], 0, fun _ _ => 0, fun _ _ => 0⟩, exM 5 [] 0]⟩).bind
      (fun r => .ok (r.1.planes.map fun p => (p.value, p.spids, p.pval 0 0))) =
    .ok [(some (1 / 2), [3], 1 / 4), (some (-1 / 10), [3], -1 / 20), (some 0, [3], 0), (some (1 / 5), [3], 1 / 5)] := by decide +kernel

example : ∀ p ∈ [exM 2 [3] 4, exM 1 [] 0, ⟨none, none, [], 0, fun _ _ => 0, fun _ _ => 0⟩, exM 5 [] 0],
    p.fail = none ∧ (p.value = none → p.spids = []) ∧ (p.value ≠ none → PlaneWf 1 p) := by
  simp [exM, PlaneWf, IdsWf, Func.Increasing]

/-- A scalar: the reciprocal of the value and of each perturbed value. -/
theorem C163_scalar [Field V] [Inhabited V] (p : Plane V F) (v : V) (st : Option (List Nat)) (hf : p.fail = none) (hv : p.value = some v) :
    ∃ q, matrixInvert ⟨[], st, [p]⟩ = .ok (⟨[], none, [q]⟩, .fine) ∧ q.value = some v⁻¹ ∧ q.spids = p.spids ∧ q.npert = p.npert ∧
      ∀ i k, q.pval i k = (p.pval i k)⁻¹ ∧ q.pert i k = p.pert i k := by
  refine ⟨⟨none, some (1 / v), p.spids, p.npert, p.pert, fun i k => 1 / p.pval i k⟩, ?_, by simp, rfl, rfl, fun i k => ⟨by simp, rfl⟩⟩
  unfold matrixInvert invScalar
  simp [hf, hv, Res.bind]

/-- A scalar that failed is returned as it is, with the failure code. -/
theorem C163_scalar_failed [Field V] [Inhabited V] (p : Plane V F) (fs : List F) (st : Option (List Nat)) (hf : p.fail = some fs) :
    matrixInvert ⟨[], st, [p]⟩ = .ok (⟨[], none, [p]⟩, .fail) := by
  unfold matrixInvert invScalar
  simp [hf, Res.bind]

/-- Other dimensions are refused. -/
theorem C163_refuses [Field V] [Inhabited V] (c : TRes (Plane V F)) (h : c.dims ≠ []) (h2 : c.dims ≠ [2, 2]) : matrixInvert c = .err := by
  unfold matrixInvert
  rw [if_neg h, if_pos h2]

/-- An element that failed: the result is a single failure, one of those of the elements. -/
theorem C163_failures [Field V] [Inhabited V] (ps : List (Plane V F)) (st : Option (List Nat)) (hl : ps.length = 4) (p : Plane V F) (fs : List F)
    (hp : p ∈ ps) (hf : p.fail = some fs) (hne : fs ≠ []) :
    ∃ q x, matrixInvert ⟨[2, 2], st, ps⟩ = .ok (⟨[], none, [q]⟩, .fail) ∧ q.fail = some [x] ∧ q.value = none ∧
      ∃ p' ∈ ps, ∃ fs', p'.fail = some fs' ∧ x ∈ fs' := by
  have hadd : ∀ (fs : List F) (cur : Option (List F)), (fs ≠ [] → ∃ x ∈ fs, Func.addFails cur fs = some [x]) ∧ (fs = [] → Func.addFails cur fs = cur) := by
    intro fs
    unfold Func.addFails
    induction fs with
    | nil => intro cur; exact ⟨fun h => absurd rfl h, fun _ => rfl⟩
    | cons x l ih =>
      intro cur
      refine ⟨fun _ => ?_, fun h => by cases h⟩
      by_cases hl : l = []
      · subst hl; exact ⟨x, by simp, rfl⟩
      · obtain ⟨y, hy, e⟩ := (ih (some [x])).1 hl
        exact ⟨y, by simp [hy], e⟩
  have key : ∀ (l : List (Plane V F)) (cur : Option (List F)), (∀ p ∈ l, p ∈ ps) →
      (∃ x, cur = some [x] ∧ ∃ p' ∈ ps, ∃ fs', p'.fail = some fs' ∧ x ∈ fs') ∨ (∃ p ∈ l, ∃ fs, p.fail = some fs ∧ fs ≠ []) →
      ∃ x, l.foldl (fun cur p => match p.fail with | some fs => Func.addFails cur fs | none => cur) cur = some [x] ∧ ∃ p' ∈ ps, ∃ fs', p'.fail = some fs' ∧ x ∈ fs' := by
    intro l
    induction l with
    | nil =>
      rintro cur _ (⟨x, e, h⟩ | ⟨p, hp, _⟩)
      · exact ⟨x, e, h⟩
      · cases hp
    | cons q l ih =>
      intro cur hsub h
      rw [List.foldl_cons]
      refine ih _ (fun p hp => hsub p (by simp [hp])) ?_
      cases hq : q.fail with
      | none =>
        dsimp only
        rcases h with h | ⟨p, hp, fs, e1, e2⟩
        · exact Or.inl h
        · rcases List.mem_cons.1 hp with rfl | hp
          · rw [hq] at e1; cases e1
          · exact Or.inr ⟨p, hp, fs, e1, e2⟩
      | some gs =>
        dsimp only
        by_cases hg : gs = []
        · rw [(hadd gs cur).2 hg]
          rcases h with h | ⟨p, hp, fs, e1, e2⟩
          · exact Or.inl h
          · rcases List.mem_cons.1 hp with rfl | hp
            · rw [hq] at e1; injection e1 with e1; exact absurd (e1.symm.trans hg) e2
            · exact Or.inr ⟨p, hp, fs, e1, e2⟩
        · obtain ⟨x, hx, e⟩ := (hadd gs cur).1 hg
          exact Or.inl ⟨x, e, q, hsub q (by simp), gs, hq, hx⟩
  obtain ⟨x, e, hx⟩ := key ps none (fun p hp => hp) (Or.inr ⟨p, hp, fs, hf, hne⟩)
  refine ⟨Func.failPlane (some [x]), x, ?_, rfl, rfl, hx⟩
  unfold matrixInvert
  rw [if_neg (by simp), if_neg (by simp), if_neg (by simpa using hl)]
  have : collectFails ps = some [x] := e
  dsimp only
  rw [this]

example : ∃ q x, matrixInvert (V := ℚ) (F := Nat) ⟨[2, 2], none, [⟨some [7], none, [], 0, fun _ _ => 0, fun _ _ => 0⟩, ⟨none, some 1, [], 0, fun _ _ => 0, fun _ _ => 0⟩,
    ⟨some [8, 9], none, [], 0, fun _ _ => 0, fun _ _ => 0⟩, ⟨none, some 1, [], 0, fun _ _ => 0, fun _ _ => 0⟩]⟩ = .ok (⟨[], none, [q]⟩, .fail) ∧
    q.fail = some [x] := ⟨Func.failPlane (some [9]), 9, rfl, rfl⟩

/-! ## C164: transposing -/

theorem elem_map (r : TRes P) (f : P → P) (idx : List Nat) : elem (⟨r.dims, r.stored, r.planes.map f⟩ : TRes P) idx = (elem r idx).map f := by
  unfold elem
  rw [List.getElem?_map]

/-- The last two axes are exchanged, in each of the matrices of a tensor, and elements conjugated on demand, if the last but one axis has
an extent other than one. -/
theorem C164_transposes_partial (e : P) (cj : P → P) (conj tensor : Bool) (c : TRes P) (l : List Nat) (nx ny : Nat) (hd : c.dims = l ++ [nx, ny]) (hs : Sized c)
    (hne : c.planes ≠ []) (hx : nx ≠ 1) (ht : tensor = true → l = [] → ny ≠ 1) :
    ∃ r, transpose e cj conj tensor c = .ok r ∧ r.dims = l ++ [ny, nx] ∧ r.planes.length = c.planes.length ∧
      ∀ idx, ValidIdx l idx → ∀ i < ny, ∀ j < nx, elem r (idx ++ [i, j]) = (elem c (idx ++ [j, i])).map (if conj then cj else id) := by
  obtain ⟨r, h1, h2, h3, h4⟩ := reshape_spec e tensor c l nx ny hd hs hne hx ht
  unfold transpose
  rw [h1]
  dsimp only [Res.bind]
  cases conj with
  | false =>
    refine ⟨r, rfl, h2, h3, fun idx hidx i hi j hj => ?_⟩
    rw [h4 idx hidx i hi j hj, if_neg (by simp), Option.map_id]; rfl
  | true =>
    refine ⟨⟨r.dims, r.stored, r.planes.map cj⟩, rfl, h2, by simp [h3], fun idx hidx i hi j hj => ?_⟩
    rw [elem_map, h4 idx hidx i hi j hj, if_pos rfl]

/-- A scalar stays as it is.  A vector becomes a row, or stays as it is in tensor mode, as does a column.  A row becomes a vector. -/
theorem C164_vectors (e : P) (cj : P → P) (tensor : Bool) (c : TRes P) (hs : Sized c) (hne : c.planes ≠ []) :
    (c.dims = [] → transpose e cj false tensor c = .ok c) ∧
    (∀ n, c.dims = [n] → (tensor = true → transpose e cj false tensor c = .ok c) ∧
      (tensor = false → ∃ r, transpose e cj false tensor c = .ok r ∧ r.dims = [1, n] ∧ r.planes = c.planes)) ∧
    (∀ n, c.dims = [1, n] → n ≠ 1 → ∃ r, transpose e cj false tensor c = .ok r ∧ r.dims = [n] ∧ r.planes = c.planes) ∧
    (∀ n, c.dims = [n, 1] → tensor = true → transpose e cj false tensor c = .ok c) := by
  have hpos := List.length_pos_iff.2 hne
  refine ⟨fun h => ?_, fun n h => ⟨fun t => ?_, fun t => ?_⟩, fun n h h1 => ?_, fun n h t => ?_⟩
  · unfold transpose reshape; rw [h]; rfl
  · unfold transpose reshape; rw [h, t]; rfl
  · have hl : c.planes.length = n := by rw [hs.1, h]; simp [prod]
    have hn : n ≠ 1 := fun h1 => by
      have := hs.2 (by omega)
      rw [h] at this; cases this
    obtain ⟨r, e1, e2, e3⟩ := setDims_ok e c [1, n] hne (by simp [prod, hl]) (by simp [prod]; omega)
    exact ⟨r, by unfold transpose reshape; rw [h, t]; simp only [List.reverse_singleton]; rw [hl, e1]; rfl, e2, by exact e3⟩
  · have hl : c.planes.length = n := by rw [hs.1, h]; simp [prod]
    obtain ⟨r, e1, e2, e3⟩ := setDims_ok e c [n] hne (by simp [prod, hl]) (by simp [prod]; omega)
    refine ⟨r, ?_, e2, e3⟩
    unfold transpose reshape
    rw [h]
    simp only [List.reverse_cons, List.reverse_nil, List.nil_append, List.singleton_append]
    rw [if_neg (by simp [h1]), if_pos trivial, e1]
    rfl
  · unfold transpose reshape; rw [h, t]; rfl

/-- Transposing matrices twice gives back the elements, in their places. -/
theorem C164_twice_partial (e : P) (cj : P → P) (tensor : Bool) (c : TRes P) (l : List Nat) (nx ny : Nat) (hd : c.dims = l ++ [nx, ny]) (hs : Sized c)
    (hne : c.planes ≠ []) (hx : nx ≠ 1) (hy : ny ≠ 1) :
    ∃ r r', transpose e cj false tensor c = .ok r ∧ transpose e cj false tensor r = .ok r' ∧ r'.dims = c.dims ∧
      ∀ idx, ValidIdx l idx → ∀ i < nx, ∀ j < ny, elem r' (idx ++ [i, j]) = elem c (idx ++ [i, j]) := by
  obtain ⟨r, a1, a2, a3, a4⟩ := C164_transposes_partial e cj false tensor c l nx ny hd hs hne hx (fun _ _ => hy)
  have hl : c.planes.length ≠ 1 := fun h => by
    have := hs.2 h
    rw [hd] at this; simp at this
  have hs' : Sized r := by
    refine ⟨?_, fun h => absurd (a3 ▸ h) hl⟩
    rw [a3, hs.1, hd, a2, prod_append, prod_append]
    simp [prod]
    left; exact Nat.mul_comm _ _
  obtain ⟨r', b1, b2, b3, b4⟩ := C164_transposes_partial e cj false tensor r l ny nx a2 hs'
    (List.length_pos_iff.1 (by rw [a3]; exact List.length_pos_iff.2 hne)) hy (fun _ _ => hx)
  refine ⟨r, r', a1, b1, by rw [b2, hd], fun idx hidx i hi j hj => ?_⟩
  rw [b4 idx hidx i hi j hj, a4 idx hidx j hj i hi]
  simp

/-- Whatever the extents, the last two of two or more axes are exchanged. -/
def C164_full : Prop :=
  ∀ (P : Type) (e : P) (cj : P → P) (c : TRes P) (l : List Nat) (nx ny : Nat), c.dims = l ++ [nx, ny] → Sized c → c.planes ≠ [] →
    ∃ r, transpose e cj false false c = .ok r ∧ prod r.dims = prod c.dims ∧ (r.dims = l ++ [ny, nx] ∨ (l = [] ∧ nx = 1 ∧ r.dims = [ny]))

/-- False: a tensor of two 1 by 3 matrices becomes a 2 by 3 matrix, with an axis less; transposed again it is a 3 by 2 matrix. -/
theorem C164_refuted : ¬ C164_full := by
  intro h
  obtain ⟨r, h1, _, h2⟩ := h Nat 0 id ⟨[2, 1, 3], some [2, 1, 3], [10, 11, 12, 13, 14, 15]⟩ [2] 1 3 rfl ⟨rfl, by simp⟩ (by simp)
  have : transpose 0 id false false ⟨[2, 1, 3], some [2, 1, 3], [10, 11, 12, 13, 14, 15]⟩ = .ok (⟨[2, 3], some [2, 3], [10, 11, 12, 13, 14, 15]⟩ : TRes Nat) := by
    decide +kernel
  rw [this] at h1
  injection h1 with h1
  subst h1
  rcases h2 with h2 | ⟨h2, _⟩
  · cases h2
  · cases h2

/-- … and that is what happens to the axis in general: the elements stay in their order. -/
theorem C164_dropped (e : P) (cj : P → P) (tensor : Bool) (c : TRes P) (l : List Nat) (ny : Nat) (hd : c.dims = l ++ [1, ny]) (hl : l ≠ []) (hs : Sized c)
    (hne : c.planes ≠ []) :
    ∃ r, transpose e cj false tensor c = .ok r ∧ r.dims = l ++ [ny] ∧ r.planes = c.planes := by
  have hlen : c.planes.length = prod (l ++ [ny]) := by rw [hs.1, hd, prod_append, prod_append]; simp [prod]
  have h1 : c.planes.length ≠ 1 := fun h => by
    have := hs.2 h
    rw [hd] at this; simp at this
  have hpos := List.length_pos_iff.2 hne
  obtain ⟨r, e1, e2, e3⟩ := setDims_ok e c (l ++ [ny]) hne hlen.symm (by omega)
  refine ⟨r, ?_, e2, e3⟩
  unfold transpose reshape
  have hrev : c.dims.reverse = ny :: 1 :: l.reverse := by rw [hd]; simp
  rw [hrev]
  cases hlr : l.reverse with
  | nil => exact absurd (by simpa using hlr) hl
  | cons a t =>
    dsimp only
    rw [if_pos (show (1 : Nat) = 1 from rfl), ← hlr, List.reverse_reverse, e1]
    rfl

/-- Conjugating: the value and the perturbed values; parameters stay. -/
theorem C164_conjugate (cc : V → V) (p : Plane V F) (hp : p.value = none → p.spids = []) :
    (conjugate cc p).value = p.value.map cc ∧ (conjugate cc p).spids = p.spids ∧ (conjugate cc p).fail = p.fail ∧ (conjugate cc p).npert = p.npert ∧
      ∀ s k, pertVal s k (some (conjugate cc p)) = (pertVal s k (some p)).map cc := by
  unfold conjugate
  cases hv : p.value with
  | none => exact ⟨hv, rfl, rfl, rfl, fun s k => by unfold pertVal; simp [hp hv, hv]⟩
  | some v =>
    refine ⟨rfl, rfl, rfl, rfl, fun s k => ?_⟩
    unfold pertVal
    by_cases h : s ∈ p.spids <;> simp [h, hv]

example : (transpose 0 (· + 100) true false ⟨[2, 3], some [2, 3], [10, 11, 12, 13, 14, 15]⟩).bind (fun r => .ok (r.dims, r.planes)) =
    .ok ([3, 2], [110, 113, 111, 114, 112, 115]) := by decide +kernel

example : (transpose 0 id false false ⟨[2, 2, 2], some [2, 2, 2], [10, 11, 12, 13, 14, 15, 16, 17]⟩).bind (fun r => .ok (r.dims, r.planes)) =
    .ok ([2, 2, 2], [10, 12, 11, 13, 14, 16, 15, 17]) := by decide +kernel

/-! ## C165: Stokes parameters -/

/-- With all four values the node returns the coherency matrix. -/
theorem C165_matrix_partial (scale i q u v : ℚ) (ni nq nu nv : Bool) (si sq su sv : Nat) (rest : List SElem) (h : (su = 0 ∧ nu = true ∧ sv = 0 ∧ nv = true) → False) :
    ∃ xx xy yx yy : Condeq.Num, stokes scale (⟨some i, ni, si⟩ :: ⟨some q, nq, sq⟩ :: ⟨some u, nu, su⟩ :: ⟨some v, nv, sv⟩ :: rest) =
        .ok ([2, 2], [some xx, some xy, some yx, some yy]) ∧
      xx.re + yy.re = 2 * scale * i ∧ xx.re - yy.re = 2 * scale * q ∧ xy.re + yx.re = 2 * scale * u ∧ xy.im - yx.im = 2 * scale * v ∧
      xx.im = 0 ∧ yy.im = 0 ∧ xy.re = yx.re ∧ xy.im = -yx.im := by
  refine ⟨real ((i + q) * scale), ⟨true, u * scale, v * scale⟩, ⟨true, u * scale, -v * scale⟩, real ((i - q) * scale), ?_, ?_, ?_, ?_, ?_, rfl, rfl, rfl, ?_⟩
  · unfold stokes stokesOf
    have : (SElem.isNull ⟨some u, nu, su⟩ && SElem.isNull ⟨some v, nv, sv⟩) = false := by
      unfold SElem.isNull
      cases hb : ((some u).isNone || su == 0 && nu) && ((some v).isNone || sv == 0 && nv) with
      | false => rfl
      | true => simp at hb; exact absurd ⟨hb.1.1, hb.1.2, hb.2.1, hb.2.2⟩ h
    simp [SElem.get, Res.bind, this]
  all_goals simp only [real]; ring

/-- With U and V null the matrix is diagonal, and with Q null too a scalar: the same matrix, elements without a value and
off-diagonal elements of a scalar being zero. -/
theorem C165_unpolarised (scale i : ℚ) (ni : Bool) (si : Nat) (q u v : SElem) (rest : List SElem) (hu : u.value = none ∨ (u.nspids = 0 ∧ u.nul = true))
    (hv : v.value = none ∨ (v.nspids = 0 ∧ v.nul = true)) :
    (q.value = none ∨ (q.nspids = 0 ∧ q.nul = true) →
      stokes scale (⟨some i, ni, si⟩ :: q :: u :: v :: rest) = .ok ([], [some ⟨false, i * scale, 0⟩])) ∧
    (∀ vq, q.value = some vq → ¬ (q.nspids = 0 ∧ q.nul = true) →
      stokes scale (⟨some i, ni, si⟩ :: q :: u :: v :: rest) = .ok ([2, 2], [some ⟨false, (i + vq) * scale, 0⟩, none, none, some ⟨false, (i - vq) * scale, 0⟩])) := by
  have isn : ∀ x : SElem, x.isNull = true ↔ (x.value = none ∨ (x.nspids = 0 ∧ x.nul = true)) := by
    intro x; unfold SElem.isNull; simp
  have hn : (u.isNull && v.isNull) = true := by
    rw [(isn u).2 hu, (isn v).2 hv]; rfl
  constructor
  · intro h
    unfold stokes stokesOf
    dsimp only [SElem.get, Res.bind]
    rw [if_pos hn, if_pos ((isn q).2 h)]
    rfl
  · intro vq e h
    unfold stokes stokesOf
    dsimp only [SElem.get, Res.bind]
    rw [if_pos hn, if_neg (fun hq => by
      rcases (isn q).1 hq with h1 | h1
      · rw [e] at h1; cases h1
      · exact h h1)]
    simp only [e]
    rfl

/-- A missing value counts as zero in all four places, so that there always is a result. -/
def C165_full : Prop :=
  ∀ (scale : ℚ) (i q u v : SElem), ∃ d l, stokes scale [i, q, u, v] = .ok (d, l)

/-- False: Q without a value next to a U with one is an error, although U and V without values are not. -/
theorem C165_refuted : ¬ C165_full := by
  intro h
  obtain ⟨d, l, h⟩ := h 1 ⟨some 1, false, 0⟩ ⟨none, false, 0⟩ ⟨some 1, false, 0⟩ ⟨some 0, false, 0⟩
  have : stokes 1 [⟨some 1, false, 0⟩, ⟨none, false, 0⟩, ⟨some 1, false, 0⟩, ⟨some 0, false, 0⟩] = .err := by decide +kernel
  rw [this] at h
  cases h

/-- Exactly when there is no result. -/
theorem C165_error (scale : ℚ) (i q u v : SElem) (rest : List SElem) :
    (stokes scale (i :: q :: u :: v :: rest) = .err ↔
      i.value = none ∨ ((u.value ≠ none ∧ ¬ (u.nspids = 0 ∧ u.nul = true) ∨ v.value ≠ none ∧ ¬ (v.nspids = 0 ∧ v.nul = true)) ∧
        (q.value = none ∨ u.value = none ∨ v.value = none))) ∧
    ∀ l : List SElem, l.length < 4 → stokes scale l = .err := by
  constructor
  · unfold stokes stokesOf
    obtain ⟨iv, inn, is⟩ := i
    obtain ⟨qv, qn, qs⟩ := q
    obtain ⟨uv, un, us⟩ := u
    obtain ⟨vv, vn, vs⟩ := v
    cases iv with
    | none => simp [SElem.get, Res.bind]
    | some iv =>
      cases qv <;> cases uv <;> cases vv <;> simp [SElem.get, Res.bind, SElem.isNull] <;> (try split) <;> (try split) <;> (try simp_all) <;> (try (cases un <;> cases vn <;> simp <;> tauto))
  · intro l hl
    match l, hl with
    | [], _ => rfl
    | [_], _ => rfl
    | [_, _], _ => rfl
    | [_, _, _], _ => rfl

example : stokes (1 / 2) [⟨some 4, false, 2⟩, ⟨some 1, false, 0⟩, ⟨some 2, false, 0⟩, ⟨some 6, false, 0⟩] =
    .ok ([2, 2], [some ⟨false, 5 / 2, 0⟩, some ⟨true, 1, 3⟩, some ⟨true, 1, -3⟩, some ⟨false, 3 / 2, 0⟩]) := by decide +kernel

end Verif.MatNodes
