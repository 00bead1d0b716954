import Verif.Proof.Function
import Mathlib.Data.List.Induction
/-! # Functions of children's results (C45, C77, C78) -/
namespace Verif.Func

variable {V F : Type}

/-! ## C45 -/

/-- Merging the ids of children yields their union, in increasing order and without repetition. -/
theorem C45_union (ids : List (List Int)) (h : ∀ l ∈ ids, IdsWf l) :
    ∃ u, findSpids ids = .ok u ∧ IdsWf u ∧ ∀ x, x ∈ u ↔ ∃ l ∈ ids, x ∈ l := findSpids_spec ids h

/-- There is only one such list, so the order of the children does not matter. -/
theorem C45_order (ids ids' : List (List Int)) (h : ∀ l ∈ ids, IdsWf l) (hp : ids.Perm ids') : findSpids ids = findSpids ids' := by
  obtain ⟨u, e, hu, hm⟩ := findSpids_spec ids h
  obtain ⟨u', e', hu', hm'⟩ := findSpids_spec ids' (fun l hl => h l (hp.mem_iff.2 hl))
  rw [e, e']
  congr 1
  apply List.Perm.eq_of_pairwise (le := (· < ·)) (fun a b _ _ h1 h2 => absurd h1 (by omega)) hu.1 hu'.1
  refine (List.perm_ext_iff_of_nodup (hu.1.imp (fun h => by omega)) (hu'.1.imp (fun h => by omega))).2 fun x => ?_
  rw [hm, hm']
  constructor <;> rintro ⟨l, h1, h2⟩
  · exact ⟨l, hp.mem_iff.1 h1, h2⟩
  · exact ⟨l, hp.mem_iff.2 h1, h2⟩

example : findSpids [[1, 4, 7], [], [0, 4, 9], [4]] = .ok [0, 1, 4, 7, 9] := by decide +kernel
example : ∀ l ∈ [[1, 4, 7], [], [0, 4, 9], [4]], IdsWf l := by
  intro l hl
  simp only [List.mem_cons, List.not_mem_nil, or_false] at hl
  rcases hl with rfl | rfl | rfl | rfl <;> simp [IdsWf, Increasing]

/-! ## C77 -/

/-- Whenever children have strictly increasing ids and a value, nothing is read out of bounds. -/
def C77_full : Prop := ∀ (V F : Type) [Inhabited V] (compat : V → Bool) (f : List (Option V) → Res V) (ch : List (Option (Plane V F))),
  (∀ c, some c ∈ ch → IdsWf c.spids ∧ c.value.isSome = true) → (∀ vs, f vs ≠ .ub) → evalPlane compat f ch ≠ .ub

/-- The result's value is the function of the children's values; it depends on the parameters that some child depends on; and
its perturbed values are the function of the children's perturbed values, with the children's perturbation. -/
theorem C77_values [Inhabited V] (compat : V → Bool) (f : List (Option V) → Res V) (n : Nat) (ch : List (Option (Plane V F)))
    (hw : ∀ c, some c ∈ ch → PlaneWf n c) (r : Plane V F) (h : evalPlane compat f ch = .ok r) :
    (∃ v, r.value = some v ∧ f (ch.map mainVal) = .ok v) ∧ r.fail = none ∧ IdsWf r.spids ∧ (∀ x, x ∈ r.spids ↔ Depends ch x) ∧
    (r.spids ≠ [] → r.npert = n) ∧
    ∀ (i : Nat) (spid : Int), r.spids[i]? = some spid → ∀ k < n,
      f (ch.map (pertVal spid k)) = .ok (r.pval i k) ∧
      ∀ c, some c ∈ ch → ∀ j : Nat, c.spids[j]? = some spid → r.pert i k = c.pert j k := by
  obtain ⟨u, e, hu, hdep, hmax, h1, _, _⟩ := evalPlane_loop compat f n ch hw
  rw [evalPlane_eq] at h
  rw [e] at h
  simp only [Res.bind] at h
  cases hv : f (ch.map mainVal) with
  | err => rw [hv] at h; cases h
  | ub => rw [hv] at h; cases h
  | ok v =>
    rw [hv] at h
    simp only at h
    cases hr : spidLoop compat f (maxSets ch) ch (ch.map mainVal) u (List.replicate ch.length 0) with
    | err => rw [hr] at h; cases h
    | ub => rw [hr] at h; cases h
    | ok rows =>
      rw [hr] at h
      simp only at h
      injection h with h
      subst h
      obtain ⟨_, h3⟩ := h1 rows hr
      refine ⟨⟨v, rfl, rfl⟩, rfl, hu, hdep, hmax, fun i spid hi k hk => ?_⟩
      obtain ⟨_, row, hrow, hok⟩ := h3 i spid hi
      obtain ⟨p, w, a1, a2, a3⟩ := hok k hk
      have er : (rows.getD i []).getD k (0, v) = (p, w) := by
        rw [List.getD_eq_getElem?_getD, List.getD_eq_getElem?_getD, hrow]
        simp [a1]
      simp only
      rw [er]
      exact ⟨a2, fun c hc j hj => a3 _ ((mem_perts spid k ch _ (fun c hc => (hw c hc).1.1)).2 ⟨c, hc, j, hj, rfl⟩)⟩

/-- The evaluation succeeds exactly if the function does for all those values, the perturbed values fit and the children
perturb by the same amounts. -/
theorem C77_succeeds [Inhabited V] (compat : V → Bool) (f : List (Option V) → Res V) (n : Nat) (ch : List (Option (Plane V F)))
    (hw : ∀ c, some c ∈ ch → PlaneWf n c) :
    (∃ r, evalPlane compat f ch = .ok r) ↔ PertCompat compat n ch ∧ Agree n ch ∧ Evaluates f n ch := by
  obtain ⟨u, e, hu, hdep, hmax, h1, h2, _⟩ := evalPlane_loop compat f n ch hw
  have hinc : ∀ c, some c ∈ ch → Increasing c.spids := fun c hc => (hw c hc).1.1
  constructor
  · rintro ⟨r, h⟩
    obtain ⟨⟨v, _, hv⟩, _, _, _, _, hval⟩ := C77_values compat f n ch hw r h
    rw [evalPlane_eq] at h
    rw [e] at h
    simp only [Res.bind] at h
    rw [hv] at h
    simp only at h
    cases hr : spidLoop compat f (maxSets ch) ch (ch.map mainVal) u (List.replicate ch.length 0) with
    | err => rw [hr] at h; cases h
    | ub => rw [hr] at h; cases h
    | ok rows =>
      obtain ⟨_, h3⟩ := h1 rows hr
      have hG : ∀ s, Depends ch s → Good compat n s ch [] := by
        intro s hs
        obtain ⟨i, hi, he⟩ := List.mem_iff_getElem.1 ((hdep s).2 hs)
        exact (h3 i s (by rw [List.getElem?_eq_getElem hi, he])).1
      obtain ⟨g1, g2⟩ := (good_iff compat n ch hinc).1 hG
      refine ⟨g1, g2, ⟨v, hv⟩, fun s hs k hk => ?_⟩
      obtain ⟨i, hi, he⟩ := List.mem_iff_getElem.1 ((hdep s).2 hs)
      obtain ⟨_, row, _, hok⟩ := h3 i s (by rw [List.getElem?_eq_getElem hi, he])
      obtain ⟨p, w, _, a2, _⟩ := hok k hk
      exact ⟨w, a2⟩
  · rintro ⟨g1, g2, ⟨v, hv⟩, g3⟩
    have hG := (good_iff compat n ch hinc).2 ⟨g1, g2⟩
    obtain ⟨rows, hr⟩ := h2 (fun s hs => ⟨hG s ((hdep s).1 hs), g3 s ((hdep s).1 hs)⟩)
    rw [evalPlane_eq]
    rw [e]
    simp only [Res.bind]
    rw [hv]
    simp only
    rw [hr]
    exact ⟨_, rfl⟩

/-- If all children with perturbed values have the same number of sets of them, nothing is read out of bounds. -/
theorem C77_defined_partial [Inhabited V] (compat : V → Bool) (f : List (Option V) → Res V) (n : Nat) (ch : List (Option (Plane V F)))
    (hw : ∀ c, some c ∈ ch → PlaneWf n c) (hf : ∀ vs, f vs ≠ .ub) : evalPlane compat f ch ≠ .ub := by
  obtain ⟨u, e, _, _, _, _, _, h3⟩ := evalPlane_loop compat f n ch hw
  have h3 := h3 hf
  rw [evalPlane_eq]
  rw [e]
  simp only [Res.bind]
  cases hv : f (ch.map mainVal) with
  | err => intro h; cases h
  | ub => exact absurd hv (hf _)
  | ok v =>
    simp only
    cases hr : spidLoop compat f (maxSets ch) ch (ch.map mainVal) u (List.replicate ch.length 0) with
    | ok rows => intro h; cases h
    | err => intro h; cases h
    | ub => exact absurd hr h3

/-- A child with one set next to one with two: the second set of the first child is read. -/
theorem C77_refuted : ¬ C77_full := by
  intro h
  refine h Int Unit (fun _ => true) exSum [some (exPlane 1 [3] 1 fun _ _ => 2), some (exPlane 5 [4] 2 fun _ _ => 6)] ?_ ?_ rfl
  · intro c hc
    simp only [List.mem_cons, List.not_mem_nil, or_false, Option.some.injEq] at hc
    rcases hc with rfl | rfl <;> simp [exPlane, IdsWf, Increasing]
  · intro vs h; cases h

example : (∀ c, some c ∈ [some (exPlane 1 [3, 7] 1 fun i _ => 10 + i), none, some (exPlane 5 [7, 8] 1 fun i _ => 20 + i)] → PlaneWf 1 c) := by
  intro c hc
  simp only [List.mem_cons, List.not_mem_nil, or_false, Option.some.injEq, reduceCtorEq, false_or] at hc
  rcases hc with rfl | rfl <;> simp [exPlane, PlaneWf, IdsWf, Increasing]

example : (evalPlane (fun _ => true) exSum [some (exPlane 1 [3, 7] 1 fun i _ => 10 + i), none, some (exPlane 5 [7, 8] 1 fun i _ => 20 + i)]).bind
    (fun r => .ok (r.value, r.spids, (List.range 3).map (r.pval · 0))) = .ok (some 6, [3, 7, 8], [15, 31, 22]) := by decide +kernel

/-! ## C78 -/

/-- How a plane comes about: without the needed arguments it has no data; else it fails if a child failed; else the function is
evaluated.  A failure is that added last. -/
theorem C78_plane [Inhabited V] (compat : V → Bool) (f : List (Option V) → Res V) (allowMissing : Bool) (exc : F) (ch : List (Plane V F)) :
    (¬ ValuesFit compat ch → planeResult compat f allowMissing exc ch = .err) ∧
    (ValuesFit compat ch → Lacking allowMissing (ch.map argOf) →
      planeResult compat f allowMissing exc ch = .ok (failPlane ((failsOf ch).getLast?.map fun x => [x]), .missing)) ∧
    (ValuesFit compat ch → ¬ Lacking allowMissing (ch.map argOf) → ∀ x, (failsOf ch).getLast? = some x →
      planeResult compat f allowMissing exc ch = .ok (failPlane (some [x]), .failed)) ∧
    (ValuesFit compat ch → ¬ Lacking allowMissing (ch.map argOf) → failsOf ch = [] →
      (∀ p, evalPlane compat f (ch.map argOf) = .ok p → planeResult compat f allowMissing exc ch = .ok (p, .good)) ∧
      (evalPlane compat f (ch.map argOf) = .err → planeResult compat f allowMissing exc ch = .ok (failPlane (some [exc]), .failed)) ∧
      (evalPlane compat f (ch.map argOf) = .ub → planeResult compat f allowMissing exc ch = .ub)) :=
  plane_cases compat f allowMissing exc ch

/-- The result has the dimensions of those children that have any, and each of its planes comes from the corresponding planes of
the children. -/
theorem C78_planes [Inhabited V] (compat : V → Bool) (f : List (Option V) → Res V) (allowMissing : Bool) (exc : F) (ch : List (ChildRes V F))
    (hw : ∀ c ∈ ch, ResWf c) (r : ChildRes V F) (code : Code) (h : getResult compat f allowMissing exc ch = .ok (r, code)) :
    (∀ c ∈ ch, c.dims ≠ [] → r.dims = c.dims) ∧ ((∀ c ∈ ch, c.dims = []) → r.dims = []) ∧ ResWf r ∧
    ∃ kinds, code = codeOf kinds ∧ kinds.length = r.planes.length ∧ ∀ (i : Nat) (p : Plane V F), r.planes[i]? = some p →
      ∃ k, kinds[i]? = some k ∧ planeResult compat f allowMissing exc (ch.map (planeOf i)) = .ok (p, k) := by
  unfold getResult at h
  obtain ⟨o1, _⟩ := outDims_spec ch (fun c hc => (hw c hc).2.1)
  cases hd : outDims ch with
  | err => rw [hd] at h; cases h
  | ub => rw [hd] at h; cases h
  | ok d =>
    rw [hd] at h
    simp only [Res.bind] at h
    obtain ⟨d1, d2⟩ := o1 d hd
    obtain ⟨hpos, hnorm⟩ := prod_pos_of ch hw d d2
    cases hm : mapRes (fun i => (mapRes (childPlane i) ch).bind (planeResult compat f allowMissing exc)) (List.range (d.foldr (· * ·) 1)) with
    | err => simp only [Res.bind] at hm; rw [hm] at h; cases h
    | ub => simp only [Res.bind] at hm; rw [hm] at h; cases h
    | ok out =>
      have hm' := hm
      simp only [Res.bind] at hm'
      rw [hm'] at h
      simp only at h
      injection h with h
      injection h with h1 h2
      subst h1 h2
      obtain ⟨m1, m2⟩ := (mapRes_ok _ _ _).1 hm
      rw [List.length_range] at m1
      rw [hnorm]
      refine ⟨d1, fun h => ?_, ⟨by simp [m1], ?_, fun h => ?_⟩, out.map (·.2), rfl, by simp, fun i p hp => ?_⟩
      · rcases d2 with e | ⟨c, hc, e⟩
        · exact e
        · rw [e]; exact h c hc
      · simp only
        rw [← List.length_pos_iff]
        simp only [List.length_map]; omega
      · rcases d2 with e | ⟨c, hc, e⟩
        · exact e
        · simp only [List.length_map] at h
          obtain ⟨w1, _, w3⟩ := hw c hc
          simp only
          rw [e]; apply w3; rw [w1, ← e, ← m1, h]
      · simp only [List.getElem?_map, Option.map_eq_some_iff] at hp
        obtain ⟨q, hq, rfl⟩ := hp
        have hi : i < d.foldr (· * ·) 1 := by
          rw [← m1]; exact (List.getElem?_eq_some_iff.1 hq).1
        obtain ⟨b, e1, e2⟩ := m2 i i (by rw [List.getElem?_range hi])
        rw [hq] at e1
        injection e1 with e1
        subst e1
        rw [childPlanes_eq i ch (inRange ch hw d d1 i hi)] at e2
        exact ⟨q.2, by simp [hq], e2⟩

/-- The call succeeds, whatever planes fail, if the dimensions of the children agree and their values fit. -/
theorem C78_runs [Inhabited V] (compat : V → Bool) (f : List (Option V) → Res V) (allowMissing : Bool) (exc : F) (n : Nat) (ch : List (ChildRes V F))
    (hw : ∀ c ∈ ch, ResWf c) (hdims : ∀ c ∈ ch, ∀ c' ∈ ch, c.dims ≠ [] → c'.dims ≠ [] → c.dims = c'.dims)
    (hfit : ∀ c ∈ ch, ValuesFit compat c.planes) (hpl : ∀ c ∈ ch, ∀ p ∈ c.planes, p.fail = none → p.value.isSome = true → PlaneWf n p)
    (hf : ∀ vs, f vs ≠ .ub) : ∃ r code, getResult compat f allowMissing exc ch = .ok (r, code) := by
  obtain ⟨o1, o2⟩ := outDims_spec ch (fun c hc => (hw c hc).2.1)
  obtain ⟨d, hd⟩ := o2 hdims
  obtain ⟨d1, _⟩ := o1 d hd
  unfold getResult
  rw [hd]
  have : ∃ out, mapRes (fun i => (mapRes (childPlane i) ch).bind (planeResult compat f allowMissing exc)) (List.range (d.foldr (· * ·) 1)) = .ok out := by
    apply mapRes_exists
    intro i hi
    have hi := List.mem_range.1 hi
    have hr := inRange ch hw d d1 i hi
    rw [childPlanes_eq i ch hr]
    simp only [Res.bind]
    have hmem : ∀ c ∈ ch, planeOf i c ∈ c.planes := by
      intro c hc
      unfold planeOf
      rw [List.getD_eq_getElem?_getD, List.getElem?_eq_getElem (hr c hc)]
      exact List.getElem_mem _
    have hV : ValuesFit compat (ch.map (planeOf i)) := by
      intro p hp
      obtain ⟨c, hc, rfl⟩ := List.mem_map.1 hp
      exact hfit c hc _ (hmem c hc)
    obtain ⟨_, p2, p3, p4⟩ := C78_plane compat f allowMissing exc (ch.map (planeOf i))
    by_cases hl : Lacking allowMissing ((ch.map (planeOf i)).map argOf)
    · exact ⟨_, p2 hV hl⟩
    · cases hx : (failsOf (ch.map (planeOf i))).getLast? with
      | some x => exact ⟨_, p3 hV hl x hx⟩
      | none =>
        rw [List.getLast?_eq_none_iff] at hx
        obtain ⟨q1, q2, _⟩ := p4 hV hl hx
        have hnub := C77_defined_partial compat f n ((ch.map (planeOf i)).map argOf) (by
          intro c hc
          obtain ⟨p, hp, e⟩ := List.mem_map.1 hc
          obtain ⟨c', hc', rfl⟩ := List.mem_map.1 hp
          unfold argOf at e
          split at e
          · rename_i a v e1 e2
            injection e with e
            rw [← e]
            exact hpl c' hc' _ (hmem c' hc') e1 (by rw [e2]; rfl)
          · cases e) hf
        cases he : evalPlane compat f ((ch.map (planeOf i)).map argOf) with
        | ok p => exact ⟨_, q1 p he⟩
        | err => exact ⟨_, q2 he⟩
        | ub => exact absurd he hnub
  obtain ⟨out, ho⟩ := this
  simp only [Res.bind] at ho ⊢
  rw [ho]
  exact ⟨_, _, rfl⟩

/-- The code says that the call failed exactly if all planes have. -/
def C78_full : Prop := ∀ (V F : Type) [Inhabited V] (compat : V → Bool) (f : List (Option V) → Res V) (allowMissing : Bool) (exc : F)
  (ch : List (ChildRes V F)), (∀ c ∈ ch, ResWf c) → ∀ r code, getResult compat f allowMissing exc ch = .ok (r, code) →
    (code = .fail ↔ ∀ p ∈ r.planes, p.fail.isSome = true)

/-- If it says that the call failed, then all planes have; if it says that data is missing, no plane has any. -/
theorem C78_code_sound [Inhabited V] (compat : V → Bool) (f : List (Option V) → Res V) (allowMissing : Bool) (exc : F) (ch : List (ChildRes V F))
    (hw : ∀ c ∈ ch, ResWf c) (r : ChildRes V F) (code : Code) (h : getResult compat f allowMissing exc ch = .ok (r, code)) :
    (code = .fail → ∀ p ∈ r.planes, p.fail.isSome = true) ∧ (code = .missing → ∀ p ∈ r.planes, p.value = none) := by
  obtain ⟨_, _, hr, kinds, hk, hlen, hp⟩ := C78_planes compat f allowMissing exc ch hw r code h
  have hne : kinds ≠ [] := by
    rw [← List.length_pos_iff, hlen]; exact List.length_pos_iff.2 hr.2.1
  constructor
  · intro hc p hpm
    rw [hk, codeOf_fail] at hc
    obtain ⟨i, hi, he⟩ := List.mem_iff_getElem.1 hpm
    obtain ⟨k, e1, e2⟩ := hp i p (by rw [List.getElem?_eq_getElem hi, he])
    exact ((plane_kind compat f allowMissing exc _ p k e2).1 (hc k (List.mem_of_getElem? e1))).1
  · intro hc p hpm
    rw [hk, codeOf_missing kinds hne] at hc
    obtain ⟨i, hi, he⟩ := List.mem_iff_getElem.1 hpm
    obtain ⟨k, e1, e2⟩ := hp i p (by rw [List.getElem?_eq_getElem hi, he])
    exact ((plane_kind compat f allowMissing exc _ p k e2).2.2 (hc k (List.mem_of_getElem? e1))).1

/-- If no plane of a child is a failure, it says so exactly if all planes have failed, and says that data is missing exactly if no
plane has data or failed. -/
theorem C78_code_partial [Inhabited V] (compat : V → Bool) (f : List (Option V) → Res V) (allowMissing : Bool) (exc : F) (ch : List (ChildRes V F))
    (hw : ∀ c ∈ ch, ResWf c) (hnf : ∀ c ∈ ch, ∀ p ∈ c.planes, p.fail = none) (r : ChildRes V F) (code : Code)
    (h : getResult compat f allowMissing exc ch = .ok (r, code)) :
    (code = .fail ↔ ∀ p ∈ r.planes, p.fail.isSome = true) ∧ (code = .missing ↔ ∀ p ∈ r.planes, p.value = none ∧ p.fail = none) := by
  obtain ⟨_, _, hr, kinds, hk, hlen, hp⟩ := C78_planes compat f allowMissing exc ch hw r code h
  have hne : kinds ≠ [] := by
    rw [← List.length_pos_iff, hlen]; exact List.length_pos_iff.2 hr.2.1
  have hnofail : ∀ i, failsOf (ch.map (planeOf i)) = [] := by
    intro i
    unfold failsOf
    rw [List.flatMap_eq_nil_iff]
    intro p hp
    obtain ⟨c, hc, rfl⟩ := List.mem_map.1 hp
    have : (planeOf i c).fail = none := by
      unfold planeOf
      rw [List.getD_eq_getElem?_getD]
      cases hg : c.planes[if c.dims = [] then 0 else i]? with
      | none => rfl
      | some p => exact hnf c hc p (List.mem_of_getElem? hg)
    rw [this]; rfl
  have hat : ∀ k ∈ kinds, ∃ i p, r.planes[i]? = some p ∧ planeResult compat f allowMissing exc (ch.map (planeOf i)) = .ok (p, k) := by
    intro k hk
    obtain ⟨i, hi, he⟩ := List.mem_iff_getElem.1 hk
    have hi' : i < r.planes.length := by omega
    obtain ⟨k', e1, e2⟩ := hp i r.planes[i] (List.getElem?_eq_getElem hi')
    rw [List.getElem?_eq_getElem hi, he] at e1
    injection e1 with e1
    rw [e1]
    exact ⟨i, r.planes[i], List.getElem?_eq_getElem hi', e2⟩
  refine ⟨⟨(C78_code_sound compat f allowMissing exc ch hw r code h).1, fun hall => ?_⟩, ?_, fun hall => ?_⟩
  · rw [hk, codeOf_fail]
    intro k hkm
    obtain ⟨i, p, e1, e2⟩ := hat k hkm
    obtain ⟨_, c2, c3⟩ := plane_kind compat f allowMissing exc _ p k e2
    have hf := hall p (List.mem_of_getElem? e1)
    cases k with
    | failed => rfl
    | good => rw [(c2 rfl).1] at hf; cases hf
    | missing => exact absurd (hnofail i) ((c3 rfl).2.1 hf)
  · intro hc p hpm
    rw [hk, codeOf_missing kinds hne] at hc
    obtain ⟨i, hi, he⟩ := List.mem_iff_getElem.1 hpm
    obtain ⟨k, e1, e2⟩ := hp i p (by rw [List.getElem?_eq_getElem hi, he])
    obtain ⟨c1, c2⟩ := (plane_kind compat f allowMissing exc _ p k e2).2.2 (hc k (List.mem_of_getElem? e1))
    refine ⟨c1, ?_⟩
    cases hpf : p.fail with
    | none => rfl
    | some x => exact absurd (hnofail i) (c2.1 (by rw [hpf]; rfl))
  · rw [hk, codeOf_missing kinds hne]
    intro k hkm
    obtain ⟨i, p, e1, e2⟩ := hat k hkm
    obtain ⟨c1, c2, _⟩ := plane_kind compat f allowMissing exc _ p k e2
    obtain ⟨h1, h2⟩ := hall p (List.mem_of_getElem? e1)
    cases k with
    | failed => have := (c1 rfl).1; rw [h2] at this; cases this
    | good => have := (c2 rfl).2; rw [h1] at this; cases this
    | missing => rfl

/-- A plane that fails since a child's plane has failed counts as missing: if all planes do, the code is that of missing data. -/
theorem C78_refuted : ¬ C78_full := by
  intro h
  have hw : ∀ c ∈ [(⟨[2], [failPlane (some [()]), exPlane 1 [] 0 fun _ _ => 0]⟩ : ChildRes Int Unit), ⟨[2], [exPlane 1 [] 0 fun _ _ => 0, failPlane (some [()])]⟩], ResWf c := by
    intro c hc
    simp only [List.mem_cons, List.not_mem_nil, or_false] at hc
    rcases hc with rfl | rfl <;> simp [ResWf]
  have := (h Int Unit (fun _ => true) exSum false () _ hw _ _ rfl).2 (by
    intro p hp
    simp only [failPlane, List.map_cons, List.map_nil, List.mem_cons, List.not_mem_nil, or_false] at hp
    rcases hp with rfl | rfl <;> rfl)
  revert this
  decide

example : (getResult (fun _ => true) (fun vs : List (Option Int) => match vs with | [some a, some b] => if b = 0 then .err else .ok (a / b) | _ => .err) false ()
    [⟨[2], [exPlane 6 [] 0 fun _ _ => 0, exPlane 8 [] 0 fun _ _ => 0]⟩, ⟨[2], [exPlane 2 [] 0 fun _ _ => 0, exPlane 0 [] 0 fun _ _ => 0]⟩]).bind
    (fun r => .ok (r.2, r.1.dims, r.1.planes.map (·.value))) = .ok (.fine, [2], [some 3, none]) := by decide +kernel

end Verif.Func
