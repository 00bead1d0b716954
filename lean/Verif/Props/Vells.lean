import Verif.Proof.Vells
/-! # Array shapes and element-wise operations (C37, C38, C71) -/
namespace Verif.Vells

/-! ## C37 -/

/-- Merging is commutative. -/
theorem C37_comm (s t : List Nat) : mergeShape s t = mergeShape t s := by
  apply Option.ext
  intro m
  rw [merge_some, merge_some, Nat.max_comm]
  simp only [join_comm]

/-- Merging is associative; one side fails exactly if the other does. -/
theorem C37_assoc (s t u : List Nat) :
    (mergeShape s t).bind (mergeShape · u) = (mergeShape t u).bind (mergeShape s ·) := by
  apply Option.ext
  intro m
  simp only [Option.bind_eq_some_iff]
  constructor
  · rintro ⟨p, h1, h2⟩
    obtain ⟨l1, j1⟩ := (merge_some _ _ _).1 h1
    obtain ⟨l2, j2⟩ := (merge_some _ _ _).1 h2
    cases h3 : mergeShape t u with
    | none =>
      obtain ⟨i, hi⟩ := (merge_none _ _).1 h3
      have := join_assoc (ext s i) (ext t i) (ext u i)
      rw [j1 i, Option.bind_some, j2 i, hi] at this
      cases this
    | some q =>
      refine ⟨q, rfl, (merge_some _ _ _).2 ?_⟩
      obtain ⟨l3, j3⟩ := (merge_some _ _ _).1 h3
      refine ⟨by omega, fun i => ?_⟩
      have := join_assoc (ext s i) (ext t i) (ext u i)
      rw [j1 i, Option.bind_some, j2 i, j3 i, Option.bind_some] at this
      exact this.symm
  · rintro ⟨q, h1, h2⟩
    obtain ⟨l1, j1⟩ := (merge_some _ _ _).1 h1
    obtain ⟨l2, j2⟩ := (merge_some _ _ _).1 h2
    cases h3 : mergeShape s t with
    | none =>
      obtain ⟨i, hi⟩ := (merge_none _ _).1 h3
      have := join_assoc (ext s i) (ext t i) (ext u i)
      rw [j1 i, Option.bind_some, j2 i, hi] at this
      cases this
    | some p =>
      refine ⟨p, rfl, (merge_some _ _ _).2 ?_⟩
      obtain ⟨l3, j3⟩ := (merge_some _ _ _).1 h3
      refine ⟨by omega, fun i => ?_⟩
      have := join_assoc (ext s i) (ext t i) (ext u i)
      rw [j1 i, Option.bind_some, j2 i, j3 i, Option.bind_some] at this
      exact this

/-- Merging is idempotent. -/
theorem C37_idem (s : List Nat) : mergeShape s s = some s := by
  rw [merge_some]
  exact ⟨by omega, fun i => join_self _⟩

/-- Merging fails exactly if along some axis the extents differ and neither is 1. -/
theorem C37_fails_iff (s t : List Nat) :
    mergeShape s t = none ↔ ∃ i, ext s i ≠ 1 ∧ ext t i ≠ 1 ∧ ext s i ≠ ext t i := by
  rw [merge_none]
  simp only [join_eq_none]

/-- The merged shape is the least to which both broadcast: both broadcast to it, and it broadcasts to any other to which
both do. -/
theorem C37_least (s t : List Nat) :
    (∀ m, mergeShape s t = some m → Broadcasts s m ∧ Broadcasts t m) ∧
    ∀ c, Broadcasts s c → Broadcasts t c → ∃ m, mergeShape s t = some m ∧ Broadcasts m c := by
  refine ⟨fun m h => merge_bounds h, fun c hs ht => ?_⟩
  cases h : mergeShape s t with
  | none =>
    obtain ⟨i, h1, h2, h3⟩ := (C37_fails_iff s t).1 h
    have := hs.2 i
    have := ht.2 i
    omega
  | some m =>
    obtain ⟨l, j⟩ := (merge_some s t m).1 h
    refine ⟨m, rfl, by have := hs.1; have := ht.1; omega, fun i => ?_⟩
    have := join_some (j i)
    have := hs.2 i
    have := ht.2 i
    omega

/-- Two shapes of equal rank without empty axes are congruent exactly if they can be merged. -/
theorem C37_congruent (s t : List Nat) (hs : Positive s) (ht : Positive t) :
    isCongruent s t = true ↔ s.length = t.length ∧ mergeShape s t ≠ none := by
  have key : ∀ s t : List Nat, Positive s → Positive t → s.length = t.length →
      (congLoop s t = true ↔ ∀ i, ext s i = 1 ∨ ext t i = 1 ∨ ext s i = ext t i) := by
    intro s
    induction s with
    | nil =>
      intro t _ _ hl
      have : t = [] := List.eq_nil_of_length_eq_zero (by rw [← hl]; rfl)
      subst this
      exact ⟨fun _ i => Or.inl (ext_nil i), fun _ => rfl⟩
    | cons a s ih =>
      intro t hs ht hl
      cases t with
      | nil => cases hl
      | cons b t =>
        have ha := hs a List.mem_cons_self
        have hb := ht b List.mem_cons_self
        unfold congLoop
        rw [Bool.and_eq_true, ih t (fun n hn => hs n (List.mem_cons_of_mem _ hn)) (fun n hn => ht n (List.mem_cons_of_mem _ hn))
          (by simpa using hl)]
        constructor
        · rintro ⟨h1, h2⟩ i
          cases i with
          | zero => simp only [ext_cons_zero]; simp at h1; omega
          | succ i => exact h2 i
        · intro h
          refine ⟨?_, fun i => h (i + 1)⟩
          have := h 0
          simp only [ext_cons_zero] at this
          simp; omega
  unfold isCongruent
  rw [Bool.and_eq_true, decide_eq_true_iff]
  constructor
  · rintro ⟨h1, h2⟩
    refine ⟨h1, fun hn => ?_⟩
    obtain ⟨i, hi⟩ := (C37_fails_iff s t).1 hn
    have := (key s t hs ht h1).1 h2 i
    omega
  · rintro ⟨h1, h2⟩
    refine ⟨h1, (key s t hs ht h1).2 fun i => ?_⟩
    by_contra hc
    exact h2 ((C37_fails_iff s t).2 ⟨i, by omega, by omega, by omega⟩)

example : mergeShape [3, 1, 4] [1, 2] = some [3, 2, 4] ∧ mergeShape [3] [1, 5] = some [3, 5] ∧ mergeShape [3] [2] = none := by decide
example : isCongruent [3, 1] [1, 2] = true ∧ isCongruent [3] [2] = false := by decide

/-! ## C71 -/

/-- What the comment on `isCompatible` claims. -/
def C71_full : Prop := ∀ s t : List Nat, isCompatible s t = true ↔ Broadcasts s t

/-- A shape with more axes passes although it does not broadcast. -/
theorem C71_refuted : ¬ C71_full := by
  intro h
  have := (h [1, 5] [3]).1 rfl
  have := this.1
  simp at this

/-- For a shape whose rank is not higher the test is right.  Missing: shapes of higher rank, of which the axes beyond the
main shape are not looked at. -/
theorem C71_partial (s t : List Nat) (h : s.length ≤ t.length) : isCompatible s t = true ↔ Broadcasts s t := by
  rw [compatible_iff]
  constructor
  · intro hc
    refine ⟨h, fun i => ?_⟩
    by_cases hi : i < s.length
    · exact hc i hi (by omega)
    · exact Or.inl (ext_of_le s i (by omega))
  · rintro ⟨_, hb⟩ i _ _
    exact hb i

example : isCompatible [1, 5] [3, 5] = true ∧ isCompatible [2, 5] [3, 5] = false := by decide

/-! ## C38 -/

/-- A binary operation throws exactly if the shapes cannot be merged; otherwise the result has the merged shape, and at
each point the value of the operation on the operands' elements at that point.  It never reads outside storage. -/
theorem C38_binary {α β γ} (f : α → β → γ) (a : Arr α) (b : Arr β) (ha : a.Wf) (hb : b.Wf) :
    (mergeShape a.shape b.shape = none → binop f a b = .err) ∧
    ∀ m, mergeShape a.shape b.shape = some m → ∃ y, binop f a b = .ok y ∧ y.shape = m ∧ y.Wf ∧
      ∀ idx, Inside m idx → ∃ u v, a.at idx = some u ∧ b.at idx = some v ∧ y.at idx = some (f u v) := by
  have e := outShape_pair a.shape b.shape ha.1 hb.1
  refine ⟨fun h => ?_, fun m h => ?_⟩
  · rw [h] at e
    unfold binop computeStrides
    rw [e]
    rfl
  · rw [h] at e
    obtain ⟨⟨la, ba⟩, ⟨lb, bb⟩⟩ := merge_bounds h
    have hp := merge_pos ha.1 hb.1 h
    have hrank : outRank [a.shape, b.shape] = m.length := by
      rw [outRank_pair]
      exact ((merge_some _ _ _).1 h).1.symm
    have hsw := sweep_spec m hp [a.shape, b.shape] (by
      intro s hs
      rcases List.mem_cons.1 hs with rfl | hs
      · exact ba
      · rw [List.mem_singleton.1 hs]; exact bb)
    have hex : ∀ idx : Nat → Nat, ∃ uv : α × β, Inside m idx → a.at idx = some uv.1 ∧ b.at idx = some uv.2 ∧
        binBody f a.data b.data ([a.shape, b.shape].map fun s =>
          (offG (gax (axes m.length s)) (unlin m.reverse (position m idx)) : Int)) = .ok (f uv.1 uv.2) := by
      intro idx
      by_cases hi : Inside m idx
      · obtain ⟨u, hu1, hu2⟩ := read_at a ha m la ba idx hi
        obtain ⟨v, hv1, hv2⟩ := read_at b hb m lb bb idx hi
        refine ⟨(u, v), fun _ => ⟨hu1, hv1, ?_⟩⟩
        unfold binBody
        simp only [List.map_cons, List.map_nil, List.getD_cons_zero, List.getD_cons_succ]
        rw [hu2, hv2]
        rfl
      · have h0 : Inside m fun _ => 0 := fun i => ext_pos hp i
        obtain ⟨u, _, _⟩ := read_at a ha m la ba _ h0
        obtain ⟨v, _, _⟩ := read_at b hb m lb bb _ h0
        exact ⟨(u, v), fun h => absurd h hi⟩
    choose uv huv using hex
    obtain ⟨d, hd1, hd2, hd3⟩ := loop_spec m hp (binBody f a.data b.data) (fun k => [a.shape, b.shape].map fun s =>
          (offG (gax (axes m.length s)) (unlin m.reverse k) : Int)) (fun idx => f (uv idx).1 (uv idx).2)
      fun idx hi => (huv idx hi).2.2
    have hfin : ∀ y, y = Arr.mk m d → y.shape = m ∧ y.Wf ∧
        ∀ idx, Inside m idx → ∃ u v, a.at idx = some u ∧ b.at idx = some v ∧ y.at idx = some (f u v) := by
      rintro y rfl
      exact ⟨rfl, hd2, fun idx hi => ⟨_, _, (huv idx hi).1, (huv idx hi).2.1, hd3 idx hi⟩⟩
    refine ⟨⟨m, d⟩, ?_, hfin _ rfl⟩
    unfold binop computeStrides
    rw [e, hrank]
    simp only [Option.map_some]
    split
    · rename_i hsc
      have hm1 : size m = 1 := by
        rw [← size_reverse m, ← axes_self]
        have key : ∀ r, size (axes r a.shape) = 1 → size (axes r b.shape) = 1 → size (axes r m) = 1 := by
          intro r
          induction r with
          | zero => intro _ _; rfl
          | succ r ih =>
            intro h1 h2
            rw [axes_succ, size_cons] at h1 h2 ⊢
            have j := join_some (((merge_some _ _ _).1 h).2 r)
            have x1 := Nat.eq_one_of_mul_eq_one_right h1
            have x2 := Nat.eq_one_of_mul_eq_one_left h1
            have y1 := Nat.eq_one_of_mul_eq_one_right h2
            have y2 := Nat.eq_one_of_mul_eq_one_left h2
            rw [ih x2 y2]
            omega
        apply key
        · obtain ⟨k, hk⟩ := Nat.exists_eq_add_of_le la
          rw [hk, size_axes, hsc.1]
        · obtain ⟨k, hk⟩ := Nat.exists_eq_add_of_le lb
          rw [hk, size_axes, hsc.2]
      have h0 : Inside m fun _ => 0 := fun i => ext_pos hp i
      rw [hm1] at hd1
      have hu0 : unlin m.reverse 0 = m.reverse.map fun _ => 0 := unlin_zero _
      simp only [List.range_one, List.map_cons, List.map_nil, collect] at hd1
      have ho : ∀ l : List (Nat × Bool), offG l (unlin m.reverse 0) = 0 := by
        intro l
        rw [hu0]
        generalize m.reverse = o
        induction l generalizing o with
        | nil => cases o <;> rfl
        | cons p l ih => cases o with
          | nil => rfl
          | cons n o => simp only [List.map_cons, offG, ih]; simp
      rw [ho, ho] at hd1
      simp only [Nat.cast_zero] at hd1
      cases hbb : binBody f a.data b.data [0, 0] with
      | ok y =>
        rw [hbb] at hd1
        simp only [Res.bind] at hd1 ⊢
        injection hd1 with hd1
        rw [hd1]
      | err => rw [hbb] at hd1; cases hd1
      | ub => rw [hbb] at hd1; cases hd1
    · rw [hsw]
      simp only [collectAll]
      rw [hd1]
      rfl

/-- `y OP= x` always gives what `y OP x` gives, exceptions included. -/
theorem C38_in_place {α β} (f : α → β → α) (y : Arr α) (x : Arr β) (hy : y.Wf) (hx : x.Wf) :
    inPlace f y x = binop f y x := by
  obtain ⟨b1, b2⟩ := C38_binary f y x hy hx
  unfold inPlace
  cases hc : canApplyInPlace y.shape x.shape with
  | no => rfl
  | fail =>
    unfold canApplyInPlace at hc
    split at hc
    · cases hc
    · exact (b1 ((C37_fails_iff _ _).2 (inPlaceLoop_fail _ _ _ _ _ hc))).symm
  | yes st =>
    unfold canApplyInPlace at hc
    split at hc
    · cases hc
    · rename_i hl
      obtain ⟨h1, h2⟩ := inPlaceLoop_yes _ _ hx.1 _ _ _ _ hc
      have hb : Broadcasts x.shape y.shape := ⟨by omega, fun i => by
        by_cases hi : i < y.shape.length
        · exact h1 i hi
        · exact Or.inl (ext_of_le _ _ (by omega))⟩
      obtain ⟨z, hz1, hz2, hz3, hz4⟩ := b2 _ (merge_of_broadcasts hb)
      rw [hz1]
      obtain ⟨d, hd1, hd2, hd3⟩ := own_loop f y x hy hx hb
      have hz : z = ⟨y.shape, d⟩ := arr_ext hz2 hz3 hd2 fun idx hi => by
        rw [hz2] at hi
        obtain ⟨u, v, e1, e2, e3⟩ := hz4 idx hi
        obtain ⟨u', v', e1', e2', e3'⟩ := hd3 idx hi
        rw [e1] at e1'
        rw [e2] at e2'
        cases e1'
        cases e2'
        rw [e3, e3']
      rw [h2]
      unfold inPlaceRun
      simp only
      split
      · rename_i hsc
        unfold binop at hz1
        cases hcs : computeStrides [y.shape, x.shape] with
        | none => rw [hcs] at hz1; cases hz1
        | some p =>
          obtain ⟨out, st'⟩ := p
          rw [hcs] at hz1
          simp only at hz1
          rw [if_pos hsc] at hz1
          cases hbb : binBody f y.data x.data [0, 0] with
          | ok v =>
            rw [hbb] at hz1
            simp only [Res.bind] at hz1 ⊢
            injection hz1 with hz1
            rw [← hz1] at hz2 ⊢
            simp only at hz2
            rw [hz2]
          | err => rw [hbb] at hz1; cases hz1
          | ub => rw [hbb] at hz1; cases hz1
      · rw [hd1]
        simp only [Res.bind]
        rw [hz, List.drop_eq_nil_of_le (by rw [hy.2]; exact Nat.le_of_eq hd2.2.symm), List.append_nil]

/-- A sum throws exactly if the shapes cannot be merged; otherwise it gives, at every point of the merged grid, the sum of
the elements, although it may return an operand unchanged instead of an array of the merged shape. -/
theorem C38_add {α} [DecidableEq α] [AddZeroClass α] (a b : Arr α) (ha : a.Wf) (hb : b.Wf) :
    (mergeShape a.shape b.shape = none → add a b = .err) ∧
    ∀ m, mergeShape a.shape b.shape = some m → ∃ y, add a b = .ok y ∧ y.Wf ∧
      (∀ i, ext y.shape i = 1 ∨ ext y.shape i = ext m i) ∧
      ∀ idx, Inside m idx → ∃ u v, a.at idx = some u ∧ b.at idx = some v ∧ y.at idx = some (u + v) := by
  obtain ⟨b1, b2⟩ := C38_binary (· + ·) a b ha hb
  unfold add
  by_cases h1 : isConst a 0 = true
  · obtain ⟨c1, c2⟩ := const_spec a 0 ha h1
    refine ⟨fun hn => absurd hn (mergeable_of_ones c1), fun m hm => ?_⟩
    obtain ⟨ba, bb⟩ := merge_bounds hm
    rw [if_pos h1]
    refine ⟨b, rfl, hb, bb.2, fun idx hi => ?_⟩
    obtain ⟨v, hv⟩ := at_inside b hb m bb.2 idx hi
    exact ⟨0, v, c2 idx, hv, by rw [hv, zero_add]⟩
  · rw [if_neg h1]
    by_cases h2 : isConst b 0 = true
    · obtain ⟨c1, c2⟩ := const_spec b 0 hb h2
      refine ⟨fun hn => absurd (by rw [C37_comm]; exact hn) (mergeable_of_ones (t := a.shape) c1), fun m hm => ?_⟩
      obtain ⟨ba, bb⟩ := merge_bounds hm
      rw [if_pos h2]
      refine ⟨a, rfl, ha, ba.2, fun idx hi => ?_⟩
      obtain ⟨v, hv⟩ := at_inside a ha m ba.2 idx hi
      exact ⟨v, 0, hv, c2 idx, by rw [hv, add_zero]⟩
    · rw [if_neg h2]
      refine ⟨b1, fun m hm => ?_⟩
      obtain ⟨y, e1, e2, e3, e4⟩ := b2 m hm
      exact ⟨y, e1, e3, fun i => Or.inr (by rw [e2]), e4⟩

/-- The same for a product. -/
theorem C38_mul {α} [DecidableEq α] [MulZeroOneClass α] (a b : Arr α) (ha : a.Wf) (hb : b.Wf) :
    (mergeShape a.shape b.shape = none → mul a b = .err) ∧
    ∀ m, mergeShape a.shape b.shape = some m → ∃ y, mul a b = .ok y ∧ y.Wf ∧
      (∀ i, ext y.shape i = 1 ∨ ext y.shape i = ext m i) ∧
      ∀ idx, Inside m idx → ∃ u v, a.at idx = some u ∧ b.at idx = some v ∧ y.at idx = some (u * v) := by
  obtain ⟨b1, b2⟩ := C38_binary (· * ·) a b ha hb
  have hz : (Arr.mk [1] [(0 : α)]).Wf := ⟨by intro n hn; simp at hn; omega, rfl⟩
  have hz1 : ∀ i, ext [1] i = 1 := by
    intro i
    cases i with
    | zero => rfl
    | succ i => exact ext_nil i
  have hz2 : ∀ idx, (Arr.mk [1] [(0 : α)]).at idx = some 0 := fun idx => rfl
  unfold mul
  by_cases h1 : isConst a 0 = true
  · obtain ⟨c1, c2⟩ := const_spec a 0 ha h1
    refine ⟨fun hn => absurd hn (mergeable_of_ones c1), fun m hm => ?_⟩
    obtain ⟨ba, bb⟩ := merge_bounds hm
    rw [if_pos (by simp [h1])]
    refine ⟨_, rfl, hz, fun i => Or.inl (hz1 i), fun idx hi => ?_⟩
    obtain ⟨v, hv⟩ := at_inside b hb m bb.2 idx hi
    exact ⟨0, v, c2 idx, hv, by rw [hz2, zero_mul]⟩
  · by_cases h2 : isConst b 0 = true
    · obtain ⟨c1, c2⟩ := const_spec b 0 hb h2
      refine ⟨fun hn => absurd (by rw [C37_comm]; exact hn) (mergeable_of_ones (t := a.shape) c1), fun m hm => ?_⟩
      obtain ⟨ba, bb⟩ := merge_bounds hm
      rw [if_pos (by simp [h2])]
      refine ⟨_, rfl, hz, fun i => Or.inl (hz1 i), fun idx hi => ?_⟩
      obtain ⟨v, hv⟩ := at_inside a ha m ba.2 idx hi
      exact ⟨v, 0, hv, c2 idx, by rw [hz2, mul_zero]⟩
    · rw [if_neg (by simp [h1, h2])]
      by_cases h3 : isConst a 1 = true
      · obtain ⟨c1, c2⟩ := const_spec a 1 ha h3
        refine ⟨fun hn => absurd hn (mergeable_of_ones c1), fun m hm => ?_⟩
        obtain ⟨ba, bb⟩ := merge_bounds hm
        rw [if_pos h3]
        refine ⟨b, rfl, hb, bb.2, fun idx hi => ?_⟩
        obtain ⟨v, hv⟩ := at_inside b hb m bb.2 idx hi
        exact ⟨1, v, c2 idx, hv, by rw [hv, one_mul]⟩
      · rw [if_neg h3]
        by_cases h4 : isConst b 1 = true
        · obtain ⟨c1, c2⟩ := const_spec b 1 hb h4
          refine ⟨fun hn => absurd (by rw [C37_comm]; exact hn) (mergeable_of_ones (t := a.shape) c1), fun m hm => ?_⟩
          obtain ⟨ba, bb⟩ := merge_bounds hm
          rw [if_pos h4]
          refine ⟨a, rfl, ha, ba.2, fun idx hi => ?_⟩
          obtain ⟨v, hv⟩ := at_inside a ha m ba.2 idx hi
          exact ⟨v, 1, hv, c2 idx, by rw [hv, mul_one]⟩
        · rw [if_neg h4]
          refine ⟨b1, fun m hm => ?_⟩
          obtain ⟨y, e1, e2, e3, e4⟩ := b2 m hm
          exact ⟨y, e1, e3, fun i => Or.inr (by rw [e2]), e4⟩

/-- Replacing flagged values throws exactly if the flags do not broadcast to the array; otherwise exactly the points whose
flag hits get the new value. -/
theorem C38_replace_flagged {α φ} (hit : φ → Bool) (v : α) (y : Arr α) (fl : Arr φ) (hy : y.Wf) (hf : fl.Wf) :
    (¬ Broadcasts fl.shape y.shape → replaceFlagged hit v y fl = .err) ∧
    (Broadcasts fl.shape y.shape → ∃ z, replaceFlagged hit v y fl = .ok z ∧ z.shape = y.shape ∧ z.Wf ∧
      ∀ idx, Inside y.shape idx → ∃ u w, y.at idx = some u ∧ fl.at idx = some w ∧
        z.at idx = some (if hit w = true then v else u)) := by
  have e := outShape_pair y.shape fl.shape hy.1 hf.1
  refine ⟨fun h => ?_, fun h => ?_⟩
  · unfold replaceFlagged computeStrides
    rw [e]
    cases hm : mergeShape y.shape fl.shape with
    | none => rfl
    | some m =>
      simp only [Option.map_some]
      rw [if_pos]
      rintro rfl
      exact h (merge_bounds hm).2
  · have hm := merge_of_broadcasts h
    rw [hm] at e
    obtain ⟨d, hd1, hd2, hd3⟩ := own_loop (fun x f => if hit f then v else x) y fl hy hf h
    refine ⟨⟨y.shape, d⟩, ?_, rfl, hd2, hd3⟩
    unfold replaceFlagged computeStrides
    have hrank : outRank [y.shape, fl.shape] = y.shape.length := by
      rw [outRank_pair]
      exact ((merge_some _ _ _).1 hm).1.symm
    rw [e, hrank]
    simp only [Option.map_some, List.map_cons, List.map_nil, List.getD_cons_succ, List.getD_cons_zero]
    rw [if_neg (by simp), hd1]
    simp only [Res.bind]
    rw [List.drop_eq_nil_of_le (by rw [hy.2]; exact Nat.le_of_eq hd2.2.symm), List.append_nil]

/-- The minimum or maximum of two flagged arrays throws exactly if there is no grid to which both arrays and both sets of
flags broadcast.  Otherwise at each point of the smallest such grid, the result is the operation if neither element is
flagged, the element that is not flagged if one is, and the first if both are. -/
theorem C38_flagged {α φ} (hit : φ → Bool) (f : α → α → α) (a b : Arr α) (fa fb : Arr φ) (ha : a.Wf) (hb : b.Wf)
    (hfa : fa.Wf) (hfb : fb.Wf) :
    ((¬ ∃ c, Broadcasts a.shape c ∧ Broadcasts b.shape c ∧ Broadcasts fa.shape c ∧ Broadcasts fb.shape c) ↔
      binopWF hit f a b fa fb = .err) ∧
    ((∃ c, Broadcasts a.shape c ∧ Broadcasts b.shape c ∧ Broadcasts fa.shape c ∧ Broadcasts fb.shape c) →
      ∃ y, binopWF hit f a b fa fb = .ok y ∧ y.Wf ∧
        Broadcasts a.shape y.shape ∧ Broadcasts b.shape y.shape ∧ Broadcasts fa.shape y.shape ∧ Broadcasts fb.shape y.shape ∧
        (∀ c, Broadcasts a.shape c → Broadcasts b.shape c → Broadcasts fa.shape c → Broadcasts fb.shape c → Broadcasts y.shape c) ∧
        ∀ idx, Inside y.shape idx → ∃ u v p q, a.at idx = some u ∧ b.at idx = some v ∧ fa.at idx = some p ∧
          fb.at idx = some q ∧ y.at idx = some (if hit p = true then (if hit q = true then u else v)
            else if hit q = true then u else f u v)) := by
  have hpos : ∀ s ∈ [a.shape, b.shape, fa.shape, fb.shape], Positive s := by
    intro s hs
    simp only [List.mem_cons, List.not_mem_nil, or_false] at hs
    rcases hs with rfl | rfl | rfl | rfl
    exacts [ha.1, hb.1, hfa.1, hfb.1]
  have hbr : ∀ c, (∀ s ∈ [a.shape, b.shape, fa.shape, fb.shape], Broadcasts s c) ↔
      Broadcasts a.shape c ∧ Broadcasts b.shape c ∧ Broadcasts fa.shape c ∧ Broadcasts fb.shape c := by
    intro c; simp
  cases ho : outShape [a.shape, b.shape, fa.shape, fb.shape] (outRank [a.shape, b.shape, fa.shape, fb.shape]) with
  | none =>
    have hn := outShape_none _ ho
    simp only [hbr] at hn
    refine ⟨⟨fun _ => ?_, fun _ => hn⟩, fun h => absurd h hn⟩
    unfold binopWF computeStrides
    rw [ho]
    rfl
  | some m =>
    obtain ⟨hl, hp, hB⟩ := outShape_bounds _ hpos m ho
    have hB' := (hbr m).1 hB
    obtain ⟨Ba, Bb, Bfa, Bfb⟩ := hB'
    have hsw := sweep_spec m hp [a.shape, b.shape, fa.shape, fb.shape] fun s hs => (hB s hs).2
    have hex : ∀ idx : Nat → Nat, ∃ w : (α × α) × (φ × φ), Inside m idx → a.at idx = some w.1.1 ∧ b.at idx = some w.1.2 ∧
        fa.at idx = some w.2.1 ∧ fb.at idx = some w.2.2 ∧
        wfBody hit f a.data b.data fa.data fb.data ([a.shape, b.shape, fa.shape, fb.shape].map fun s =>
          (offG (gax (axes m.length s)) (unlin m.reverse (position m idx)) : Int)) =
          .ok (if hit w.2.1 = true then (if hit w.2.2 = true then w.1.1 else w.1.2)
            else if hit w.2.2 = true then w.1.1 else f w.1.1 w.1.2) := by
      intro idx
      by_cases hi : Inside m idx
      · obtain ⟨u, hu1, hu2⟩ := read_at a ha m Ba.1 Ba.2 idx hi
        obtain ⟨v, hv1, hv2⟩ := read_at b hb m Bb.1 Bb.2 idx hi
        obtain ⟨p, hp1, hp2⟩ := read_at fa hfa m Bfa.1 Bfa.2 idx hi
        obtain ⟨q, hq1, hq2⟩ := read_at fb hfb m Bfb.1 Bfb.2 idx hi
        refine ⟨((u, v), (p, q)), fun _ => ⟨hu1, hv1, hp1, hq1, ?_⟩⟩
        unfold wfBody
        simp only [List.map_cons, List.map_nil, List.getD_cons_zero, List.getD_cons_succ]
        rw [hu2, hv2, hp2, hq2]
        simp only [Res.bind]
        split <;> split <;> rfl
      · have h0 : Inside m fun _ => 0 := fun i => ext_pos hp i
        obtain ⟨u, _, _⟩ := read_at a ha m Ba.1 Ba.2 _ h0
        obtain ⟨p, _, _⟩ := read_at fa hfa m Bfa.1 Bfa.2 _ h0
        exact ⟨((u, u), (p, p)), fun h => absurd h hi⟩
    choose w hw using hex
    obtain ⟨d, hd1, hd2, hd3⟩ := loop_spec m hp (wfBody hit f a.data b.data fa.data fb.data)
      (fun k => [a.shape, b.shape, fa.shape, fb.shape].map fun s =>
          (offG (gax (axes m.length s)) (unlin m.reverse k) : Int)) _
      fun idx hi => (hw idx hi).2.2.2.2
    have hok : binopWF hit f a b fa fb = .ok ⟨m, d⟩ := by
      unfold binopWF computeStrides
      rw [ho, ← hl]
      simp only [Option.map_some]
      rw [hsw]
      simp only [collectAll]
      rw [hd1]
      rfl
    refine ⟨⟨fun h => absurd ⟨m, Ba, Bb, Bfa, Bfb⟩ h, fun h => ?_⟩, fun _ => ⟨⟨m, d⟩, hok, hd2, Ba, Bb, Bfa, Bfb,
      fun c c1 c2 c3 c4 => outShape_least _ m ho c ((hbr c).2 ⟨c1, c2, c3, c4⟩), fun idx hi => ⟨_, _, _, _, (hw idx hi).1, (hw idx hi).2.1, (hw idx hi).2.2.1, (hw idx hi).2.2.2.1, hd3 idx hi⟩⟩⟩
    rw [hok] at h
    cases h

example : binop (· + ·) (⟨[2, 1, 2], [1, 2, 3, 4]⟩ : Arr Int) (⟨[1, 3], [10, 20, 30]⟩ : Arr Int) =
    .ok ⟨[2, 3, 2], [11, 12, 21, 22, 31, 32, 13, 14, 23, 24, 33, 34]⟩ := by decide
example : binop (· + ·) (⟨[2], [1, 2]⟩ : Arr Int) (⟨[3], [1, 2, 3]⟩ : Arr Int) = .err := by decide
example : inPlace (· + ·) (⟨[2, 2], [1, 2, 3, 4]⟩ : Arr Int) (⟨[2], [10, 20]⟩ : Arr Int) = .ok ⟨[2, 2], [11, 12, 23, 24]⟩ := by decide
example : (⟨[2, 1, 2], [1, 2, 3, 4]⟩ : Arr Int).Wf := ⟨by intro n hn; simp at hn; omega, rfl⟩
example : replaceFlagged (fun f : Nat => decide (f ≠ 0)) 9 (⟨[2, 2], [1, 2, 3, 4]⟩ : Arr Int) ⟨[1, 2], [0, 1]⟩ = .ok ⟨[2, 2], [1, 9, 3, 9]⟩ := by decide
example : mul (⟨[1], [1]⟩ : Arr Int) ⟨[2], [3, 4]⟩ = .ok ⟨[2], [3, 4]⟩ := by decide
example : binopWF (fun f : Nat => decide (f ≠ 0)) min (⟨[2], [1, 5]⟩ : Arr Int) ⟨[1], [3]⟩ ⟨[2], [1, 0]⟩ ⟨[1], [0]⟩ = .ok ⟨[2], [3, 3]⟩ := by decide

end Verif.Vells
