import Verif.Proof.PsvSum
/-!
# Properties of the visibilities of many sources
-/
namespace Verif.Psv
open Func (Increasing IdsWf)

/-! ## C213: main values -/

/-- For children as documented that agree on perturbations, the node gives a result for the ids of all parameters that some child depends on, in increasing
order, with the children's perturbations, and its main value is the sum over all sources of the visibilities. -/
theorem C213_main {R : Type} [CommRing R] (o : Ops R) (cs : List (Child R)) (n pairs : Nat) (hf : Fits cs n pairs) (ha : Agree cs) :
    ∃ r, psv o cs = .ok r ∧ r.spids.Pairwise (· < ·) ∧ (∀ s, s ∈ r.spids ↔ ∃ c e, Depends s cs c e) ∧
      r.perts.length = r.spids.length ∧ r.vals.length = r.spids.length + 1 ∧
      (∀ ch ∈ cs, ∀ v ∈ ch.planes, ∀ x ∈ v.perts, ∀ k : Nat, r.spids[k]? = some x.1 → r.perts[k]? = some x.2.1) ∧
      ∃ y, r.vals[0]? = some y ∧ Is y (total o cs n pairs (mainOf cs) (mainOf cs)) := by
  obtain ⟨r, e, w, mem, l1, l2, hp, hv⟩ := psv_spec o hf ha
  exact ⟨r, e, w.1, mem, l1, l2, hp, hv 0 (by omega) (Or.inl rfl)⟩

/-- Children that perturb a parameter by different amounts are refused. -/
theorem C213_disagree {R : Type} [CommRing R] (o : Ops R) (cs : List (Child R))
    (hids : ∀ ch ∈ cs, ∀ v ∈ ch.planes, IdsWf (v.perts.map (fun p => p.1))) (r : Out R) (h : psv o cs = .ok r) : Agree cs := by
  unfold psv at h
  rw [Res.bind_eq_ok] at h
  obtain ⟨x, h1, _⟩ := h
  exact collect_agree hids h1

/-! ## C214: perturbed values -/

/-- The perturbed values are the sums over all sources of the visibilities, with each child's own perturbed value for the parameter if it has one. -/
def C214_full : Prop :=
  ∀ (R : Type) (_ : CommRing R) (o : Ops R) (cs : List (Child R)) (n pairs : Nat), Fits cs n pairs → Agree cs → ∀ r, psv o cs = .ok r →
    ∀ (i : Nat) spid, r.spids[i]? = some spid → ∃ y, r.vals[i + 1]? = some y ∧ Is y (total o cs n pairs (mainOf cs) (under spid cs))

/-- Missing: parameters the uvw coordinates depend on; brightness that depends on a parameter if there are no Jones terms; and parameters for which a
product of Jones terms is taken from the values of main parameters that was overwritten by a parameter with a smaller id. -/
theorem C214_partial {R : Type} [CommRing R] (o : Ops R) (cs : List (Child R)) (n pairs : Nat) (hf : Fits cs n pairs) (ha : Agree cs) (r : Out R)
    (h : psv o cs = .ok r) (i : Nat) (spid : Int) (hi : r.spids[i]? = some spid)
    (h1 : 0 < pairs ∨ ∀ s, s < n → ¬ DependsM spid cs n 1 s) (h2 : ∀ e, e < 3 → ¬ Depends spid cs 2 e)
    (h3 : ∀ s, s < n → (DependsK spid cs s ∨ DependsUpTo spid cs n s pairs) → ∀ spid', spid' < spid → ∀ j, 0 < j → j ≤ pairs →
      DependsUpTo spid' cs n s j → DependsUpTo spid cs n s j) :
    ∃ y, r.vals[i + 1]? = some y ∧ Is y (total o cs n pairs (mainOf cs) (under spid cs)) := by
  obtain ⟨r', e, w, mem, l1, l2, hp, hv⟩ := psv_spec o hf ha
  rw [h] at e
  cases e
  have hlt : i < r.spids.length := (List.getElem?_eq_some_iff.mp hi).1
  have upto : ∀ s i' a j, r.spids[i']? = some a → (UpTo cs r.spids n s (i' + 1) j ↔ DependsUpTo a cs n s j) := by
    intro s i' a j ha
    simp only [UpTo, DependsUpTo, ChM, ha, Option.some.injEq]
    simp
  have hval : val cs r.spids (i + 1) = under spid cs := by simp only [val, hi]
  have := hv (i + 1) (by omega) (Or.inr (by
    intro s hs
    refine ⟨?_, ?_, ?_⟩
    · rcases h1 with h1 | h1
      · exact Or.inl h1
      · refine Or.inr ?_
        rintro ⟨a, ha, hd⟩
        rw [hi] at ha; cases ha
        exact h1 s hs hd
    · rintro e he ⟨a, ha, hd⟩
      rw [hi] at ha; cases ha
      exact h2 e he hd
    · intro hc p' hp1 hp2 j hj0 hj hu
      obtain ⟨i', rfl⟩ : ∃ i', p' = i' + 1 := ⟨p' - 1, by omega⟩
      obtain ⟨a, ha'⟩ : ∃ a, r.spids[i']? = some a := ⟨_, List.getElem?_eq_getElem (by omega)⟩
      rw [upto s i spid j hi]
      rw [upto s i' a j ha'] at hu
      refine h3 s hs ?_ a (inc_lt w.1 (by omega) ha' hi) j hj0 hj hu
      rcases hc with ⟨k, hk, hc⟩ | hc
      · refine Or.inl ⟨k, hk, ?_⟩
        rcases hc with ⟨b, hb, hc⟩ | ⟨b, hb, hc⟩
        · rw [hi] at hb; cases hb; exact Or.inl hc
        · rw [hi] at hb; cases hb; exact Or.inr hc
      · exact Or.inr ((upto s i spid pairs hi).mp hc)))
  rw [hval] at this
  exact this

/-! ### Cases -/

/-- A node with one source, at a position, with a brightness, uvw coordinates and a pair of Jones terms. -/
def one (l b u : VS ℤ) : List (Child ℤ) :=
  [⟨[1, 3], [l, ⟨0, []⟩, ⟨1, []⟩]⟩, ⟨[1], [b]⟩, ⟨[3], [u, ⟨0, []⟩, ⟨0, []⟩]⟩, ⟨[1], [⟨0, []⟩]⟩]

@[inherit_doc one]
def withJones (l b u j : VS ℤ) : List (Child ℤ) := one l b u ++ [⟨[1], [j]⟩, ⟨[1], [⟨1, []⟩]⟩]

/-- Simple functions. -/
def ops : Ops ℤ := ⟨fun x => x + 1, fun _ _ => 1, fun _ _ _ _ _ => 1, 1, 1⟩

theorem one_fits (l b u : VS ℤ) (hl : IdsWf (l.perts.map (fun p => p.1))) (hb : IdsWf (b.perts.map (fun p => p.1))) (hu : IdsWf (u.perts.map (fun p => p.1))) :
    Fits (one l b u) 1 0 where
  number := rfl
  small := by show 4 < 2 ^ 64; norm_num
  planes := by simp [one]
  ids := by
    have h0 : IdsWf ([] : List Int) := ⟨List.Pairwise.nil, by simp⟩
    simp [one, hl, hb, hu, h0]
  lmn := by simp [one]
  uvw := by simp [one]
  shape := by simp [one]
  rest := by
    intro c ch h hc
    match c, h with
    | 1, h => simp [one] at h; subst h; simp [PerSource]
    | 0, _ => omega
    | 2, _ => omega
    | 3, _ => omega
    | c + 4, h => simp [one] at h

theorem withJones_fits (l b u j : VS ℤ) (hl : IdsWf (l.perts.map (fun p => p.1))) (hb : IdsWf (b.perts.map (fun p => p.1)))
    (hu : IdsWf (u.perts.map (fun p => p.1))) (hj : IdsWf (j.perts.map (fun p => p.1))) : Fits (withJones l b u j) 1 1 where
  number := rfl
  small := by show 6 < 2 ^ 64; norm_num
  planes := by simp [one, withJones]
  ids := by
    have h0 : IdsWf ([] : List Int) := ⟨List.Pairwise.nil, by simp⟩
    simp [one, withJones, hl, hb, hu, hj, h0]
  lmn := by simp [one, withJones]
  uvw := by simp [one, withJones]
  shape := by simp [one, withJones]
  rest := by
    intro c ch h hc
    match c, h with
    | 1, h => simp [one, withJones] at h; subst h; simp [PerSource]
    | 0, _ => omega
    | 2, _ => omega
    | 3, _ => omega
    | 4, h => simp [one, withJones] at h; subst h; simp [PerSource]
    | 5, h => simp [one, withJones] at h; subst h; simp [PerSource]
    | c + 6, h => simp [one, withJones] at h

theorem ids_one (a : Int) (h : 0 < a) : IdsWf [a] := by
  refine ⟨List.pairwise_singleton .., ?_⟩
  simp
  omega

/-- A parameter of the uvw coordinates: the perturbed value is the main one, as the phase is not computed again. -/
theorem C214_uvw : ∃ cs r y, Fits cs 1 1 ∧ Agree cs ∧ (∀ s c e, Depends s cs c e → s = 5) ∧ psv ops cs = .ok r ∧ r.spids = [5] ∧ r.vals[1]? = some y ∧
    r.vals[0]? = some y ∧ ¬ Is y (total ops cs 1 1 (mainOf cs) (under 5 cs)) := by
  refine ⟨withJones ⟨2, []⟩ ⟨1, []⟩ ⟨1, [(5, 1, 3)]⟩ ⟨1, []⟩, ⟨[5], [1], [(3, 0, 0, 3), (3, 0, 0, 3)]⟩, (3, 0, 0, 3), ?_, ?_, ?_, by decide +kernel, rfl, rfl, rfl, ?_⟩
  · exact withJones_fits _ _ _ _ ⟨List.Pairwise.nil, by simp⟩ ⟨List.Pairwise.nil, by simp⟩ (ids_one 5 (by norm_num)) ⟨List.Pairwise.nil, by simp⟩
  · intro ch hch v hv p hp ch' hch' v' hv' p' hp' _
    simp [withJones, one] at hch hch'
    rcases hch with rfl | rfl | rfl | rfl | rfl | rfl <;> rcases hch' with rfl | rfl | rfl | rfl | rfl | rfl <;> simp at hv hv' <;> aesop
  · rintro s c e ⟨ch, v, p, h1, h2, h3, rfl⟩
    have := List.mem_of_getElem? h1
    have := List.mem_of_getElem? h2
    simp [withJones, one] at *
    aesop
  · unfold Is
    decide +kernel

/-- Parameter 1 changes a Jones term and parameter 2 the position: the value for 2 is computed with the Jones term for 1. -/
theorem C214_order : ∃ cs r y, Fits cs 1 1 ∧ Agree cs ∧ (∀ s e, ¬ Depends s cs 2 e) ∧ psv ops cs = .ok r ∧ r.spids = [1, 2] ∧ r.vals[2]? = some y ∧
    ¬ Is y (total ops cs 1 1 (mainOf cs) (under 2 cs)) := by
  refine ⟨withJones ⟨2, [(2, 1, 4)]⟩ ⟨1, []⟩ ⟨1, []⟩ ⟨1, [(1, 1, 5)]⟩, ⟨[1, 2], [1, 1], [(3, 0, 0, 3), (15, 0, 0, 15), (25, 0, 0, 25)]⟩, (25, 0, 0, 25), ?_, ?_, ?_,
    by decide +kernel, rfl, rfl, ?_⟩
  · exact withJones_fits _ _ _ _ (ids_one 2 (by norm_num)) ⟨List.Pairwise.nil, by simp⟩ ⟨List.Pairwise.nil, by simp⟩ (ids_one 1 (by norm_num))
  · intro ch hch v hv p hp ch' hch' v' hv' p' hp' _
    simp [withJones, one] at hch hch'
    rcases hch with rfl | rfl | rfl | rfl | rfl | rfl <;> rcases hch' with rfl | rfl | rfl | rfl | rfl | rfl <;> simp at hv hv' <;> aesop
  · rintro s e ⟨ch, v, p, h1, h2, h3, rfl⟩
    simp [withJones, one] at h1
    subst h1
    have := List.mem_of_getElem? h2
    simp at this
    aesop
  · unfold Is
    decide +kernel

/-- Without Jones terms, the perturbed value for a parameter of the brightness is the main one. -/
theorem C214_brightness : ∃ cs r y, Fits cs 1 0 ∧ Agree cs ∧ (∀ s c e, Depends s cs c e → s = 1 ∧ c = 1) ∧ psv ops cs = .ok r ∧ r.spids = [1] ∧
    r.vals[1]? = some y ∧ r.vals[0]? = some y ∧ ¬ Is y (total ops cs 1 0 (mainOf cs) (under 1 cs)) := by
  refine ⟨one ⟨2, []⟩ ⟨1, [(1, 1, 7)]⟩ ⟨1, []⟩, ⟨[1], [1], [(3, 0, 0, 3), (3, 0, 0, 3)]⟩, (3, 0, 0, 3), ?_, ?_, ?_, by decide +kernel, rfl, rfl, rfl, ?_⟩
  · exact one_fits _ _ _ ⟨List.Pairwise.nil, by simp⟩ (ids_one 1 (by norm_num)) ⟨List.Pairwise.nil, by simp⟩
  · intro ch hch v hv p hp ch' hch' v' hv' p' hp' _
    simp [one] at hch hch'
    rcases hch with rfl | rfl | rfl | rfl <;> rcases hch' with rfl | rfl | rfl | rfl <;> simp at hv hv' <;> aesop
  · rintro s c e ⟨ch, v, p, h1, h2, h3, rfl⟩
    have := List.mem_of_getElem? h2
    match c, h1 with
    | 0, h1 => simp [one] at h1; subst h1; simp at this; aesop
    | 1, h1 => simp [one] at h1; subst h1; simp at this; aesop
    | 2, h1 => simp [one] at h1; subst h1; simp at this; aesop
    | 3, h1 => simp [one] at h1; subst h1; simp at this; aesop
    | c + 4, h1 => simp [one] at h1
  · unfold Is
    decide +kernel

/-- Perturbed values can be wrong. -/
theorem C214_refuted : ¬ C214_full := by
  intro h
  obtain ⟨cs, r, y, hf, ha, _, hr, hs, hy, hn⟩ := C214_order
  obtain ⟨z, hz, iz⟩ := h ℤ inferInstance ops cs 1 1 hf ha r hr 1 2 (by rw [hs]; rfl)
  rw [hy] at hz
  cases hz
  exact hn iz

/-- A case of `C213_main` and `C214_partial`: the position depends on parameter 1 and a Jones term on 2. -/
example : ∃ cs r, Fits cs 1 1 ∧ Agree cs ∧ psv ops cs = .ok r ∧ r = ⟨[1, 2], [1, 1], [(3, 0, 0, 3), (5, 0, 0, 5), (15, 0, 0, 15)]⟩ ∧
    (∀ e, e < 3 → ¬ Depends 2 cs 2 e) ∧ (∀ spid', spid' < 2 → ¬ DependsUpTo spid' cs 1 0 1) := by
  refine ⟨withJones ⟨2, [(1, 1, 4)]⟩ ⟨1, []⟩ ⟨1, []⟩ ⟨1, [(2, 1, 5)]⟩, _, ?_, ?_, by decide +kernel, rfl, ?_, ?_⟩
  · exact withJones_fits _ _ _ _ (ids_one 1 (by norm_num)) ⟨List.Pairwise.nil, by simp⟩ ⟨List.Pairwise.nil, by simp⟩ (ids_one 2 (by norm_num))
  · intro ch hch v hv p hp ch' hch' v' hv' p' hp' _
    simp [withJones, one] at hch hch'
    rcases hch with rfl | rfl | rfl | rfl | rfl | rfl <;> rcases hch' with rfl | rfl | rfl | rfl | rfl | rfl <;> simp at hv hv' <;> aesop
  · rintro e _ ⟨ch, v, p, h1, h2, h3, h4⟩
    simp [withJones, one] at h1
    subst h1
    have := List.mem_of_getElem? h2
    simp at this
    aesop
  · rintro s hs (h | ⟨i, hi, h | h⟩)
    · simp [DependsM, withJones, one, Depends] at h
    · have : i = 0 := by omega
      subst this
      simp [DependsM, withJones, one, Depends] at h
      omega
    · have : i = 0 := by omega
      subst this
      simp [DependsM, withJones, one, Depends] at h

/-! ## C215: leaving out the shapes -/

/-- The first three children alone are enough. -/
def C215_full : Prop :=
  ∀ (R : Type) (_ : CommRing R) (o : Ops R) (a b c d : Child R) (n : Nat), Fits [a, b, c, d] n 0 → Agree [a, b, c] → ∃ r, psv o [a, b, c] = .ok r

/-- With three children the node fails. -/
theorem C215_three {R : Type} [CommRing R] (o : Ops R) (a b c : Child R)
    (hids : ∀ ch ∈ [a, b, c], ∀ v ∈ ch.planes, IdsWf (v.perts.map (fun p => p.1))) (ha : Agree [a, b, c]) : psv o [a, b, c] = .err := by
  obtain ⟨t, all, hs, e, _⟩ := collect_spec [a, b, c] hids ha
  unfold psv
  rw [e]
  simp only [Res.ok_bind, List.map_cons, List.map_nil]
  rw [resultDims_three]
  rfl

/-- The child with the shapes cannot be left out. -/
theorem C215_refuted : ¬ C215_full := by
  intro h
  have hf := one_fits ⟨2, []⟩ ⟨1, []⟩ ⟨1, []⟩ ⟨List.Pairwise.nil, by simp⟩ ⟨List.Pairwise.nil, by simp⟩ ⟨List.Pairwise.nil, by simp⟩
  obtain ⟨r, hr⟩ := h ℤ inferInstance ops _ _ _ _ 1 hf (by
    intro ch hch v hv p hp
    simp at hch
    rcases hch with rfl | rfl | rfl <;> simp at hv <;> aesop)
  rw [C215_three ops _ _ _ (by
    have h0 : IdsWf ([] : List Int) := ⟨List.Pairwise.nil, by simp⟩
    simp [h0]) (by
    intro ch hch v hv p hp
    simp at hch
    rcases hch with rfl | rfl | rfl <;> simp at hv <;> aesop)] at hr
  cases hr

/-- A child of one element instead of the shapes is enough: sources are then points. Missing: leaving it out. -/
theorem C215_partial {R : Type} [CommRing R] (o : Ops R) (a b c d : Child R) (n : Nat) (hf : Fits [a, b, c, d] n 0) (hd : d.dims.prod = 1)
    (ha : Agree [a, b, c, d]) : ∃ r y, psv o [a, b, c, d] = .ok r ∧ r.vals[0]? = some y ∧
      Is y (∑ s ∈ Finset.range n, (o.expo (phase o (mainOf [a, b, c, d]) s) * smearing o [a, b, c, d] (mainOf [a, b, c, d]) s) •
        jm [a, b, c, d] n (mainOf [a, b, c, d]) s 1) := by
  obtain ⟨r, e, _, _, _, _, _, y, hy, iy⟩ := C213_main o [a, b, c, d] n 0 hf ha
  refine ⟨r, y, e, hy, ?_⟩
  have : ∀ s, shaping o [a, b, c, d] n (mainOf [a, b, c, d]) s = 1 := by
    intro s
    unfold shaping
    rw [if_neg]
    intro h
    simp only [List.getElem?_cons_succ, List.getElem?_cons_zero, Option.map_some, Option.some.injEq] at h
    rw [h] at hd
    simp at hd
  simp only [total, vis, this, mul_one, core] at iy
  exact iy

end Verif.Psv
