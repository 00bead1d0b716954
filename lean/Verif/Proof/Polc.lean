import Verif.Spec.Polc
import Mathlib.Data.Nat.Choose.Sum
import Mathlib.Tactic.Ring
import Mathlib.Tactic.FieldSimp
import Mathlib.Tactic.Linarith
/-! # Lemmas on polynomials -/
namespace Verif.Polc
open Finset

/-! ## Numbering -/

theorem assign_ids (m : List Bool) : ∀ (perts : List ℚ) (s isp : Int),
    (assign m perts s isp).1.length = (m.filter id).length ∧
    (∀ k : Nat, k < (m.filter id).length → (assign m perts s isp).1[k]? = some (s + k)) ∧
    (assign m perts s isp).2.2.length = m.length ∧
    (∀ k i : Nat, IsNth m k i → (assign m perts s isp).2.2[i]? = some (isp + k)) ∧
    ∀ i : Nat, m[i]? = some false → (assign m perts s isp).2.2[i]? = some (-1) := by
  induction m with
  | nil =>
    intro perts s isp
    refine ⟨rfl, (fun k h => by simp at h), rfl, (fun k i h => by simp [IsNth] at h), (fun i h => by simp at h)⟩
  | cons b m ih =>
    intro perts s isp
    cases b with
    | true =>
      obtain ⟨h1, h2, h3, h4, h5⟩ := ih perts.tail (s + 1) (isp + 1)
      refine ⟨by simp [assign, h1], ?_, by simp [assign, h3], ?_, ?_⟩
      · intro k hk
        cases k with
        | zero => simp [assign]
        | succ k =>
          have := h2 k (by simpa using hk)
          simp only [assign, List.getElem?_cons_succ, this]
          congr 1; push_cast; omega
      · intro k i h
        cases i with
        | zero =>
          have : k = 0 := by have := h.2; simpa using this.symm
          subst this; simp [assign]
        | succ i =>
          obtain ⟨ha, hb⟩ := h
          have hk : k = ((m.take i).filter id).length + 1 := by simpa using hb.symm
          subst hk
          have := h4 _ i ⟨by simpa using ha, rfl⟩
          simp only [assign, List.getElem?_cons_succ, this]
          congr 1; push_cast; omega
      · intro i h
        cases i with
        | zero => simp at h
        | succ i => simpa [assign] using h5 i (by simpa using h)
    | false =>
      obtain ⟨h1, h2, h3, h4, h5⟩ := ih perts.tail s isp
      refine ⟨by simp [assign, h1], ?_, by simp [assign, h3], ?_, ?_⟩
      · intro k hk
        simpa [assign] using h2 k (by simpa using hk)
      · intro k i h
        cases i with
        | zero => simp [IsNth] at h
        | succ i =>
          obtain ⟨ha, hb⟩ := h
          have := h4 k i ⟨by simpa using ha, by simpa using hb⟩
          simpa [assign] using this
      · intro i h
        cases i with
        | zero => simp [assign]
        | succ i => simpa [assign] using h5 i (by simpa using h)

theorem updateLoop_spec (values : List ℚ) (lim : Nat → Limits) (l : List Int) : ∀ (i : Nat) (c : List ℚ), l.length = c.length →
    (∀ s ∈ l, 0 ≤ s → s.toNat < values.length) →
    ∃ r, updateLoop values lim i l c = .ok r ∧ r.length = c.length ∧
      ∀ (j : Nat) (s : Int) (a : ℚ), l[j]? = some s → c[j]? = some a →
        r[j]? = some (if 0 ≤ s then (lim (i + j)).apply (a + values.getD s.toNat 0) else a) := by
  induction l with
  | nil =>
    intro i c hc _
    exact ⟨c, by cases c <;> simp_all [updateLoop], rfl, (fun j s a h => by simp at h)⟩
  | cons s l ih =>
    intro i c hc hv
    cases c with
    | nil => simp at hc
    | cons a c =>
      obtain ⟨r, hr, hl, hj⟩ := ih (i + 1) c (by simpa using hc) (fun t ht => hv t (List.mem_cons_of_mem _ ht))
      by_cases hs : 0 ≤ s
      · have hlt := hv s List.mem_cons_self hs
        refine ⟨(lim i).apply (a + values[s.toNat]) :: r, ?_, by simp [hl], ?_⟩
        · simp only [updateLoop]
          rw [if_pos hs, List.getElem?_eq_getElem hlt]
          simp [hr, Res.bind]
        · intro j t b ht hb
          cases j with
          | zero =>
            simp only [List.getElem?_cons_zero, Option.some.injEq] at ht hb
            subst ht hb
            simp [hs, hlt]
          | succ j =>
            have := hj j t b (by simpa using ht) (by simpa using hb)
            rw [List.getElem?_cons_succ, this, show i + 1 + j = i + (j + 1) by omega]
      · refine ⟨a :: r, ?_, by simp [hl], ?_⟩
        · simp only [updateLoop]
          rw [if_neg hs]
          simp [hr, Res.bind]
        · intro j t b ht hb
          cases j with
          | zero =>
            simp only [List.getElem?_cons_zero, Option.some.injEq] at ht hb
            subst ht hb
            simp [hs]
          | succ j =>
            have := hj j t b (by simpa using ht) (by simpa using hb)
            rw [List.getElem?_cons_succ, this, show i + 1 + j = i + (j + 1) by omega]

/-- A selected coefficient has a place smaller than the number of selected ones. -/
theorem nth_lt {m : List Bool} {k i : Nat} (h : IsNth m k i) : k < (m.filter id).length := by
  obtain ⟨h1, h2⟩ := h
  obtain ⟨hi, h1⟩ := List.getElem?_eq_some_iff.1 h1
  have : m = m.take i ++ m[i] :: m.drop (i + 1) := by simp
  rw [this, List.filter_append, List.length_append, h2, h1]
  simp

theorem nth_exists {m : List Bool} {i : Nat} (h : m[i]? = some true) : ∃ k, IsNth m k i := ⟨_, h, rfl⟩

theorem nth_le {m : List Bool} {k i : Nat} (h : IsNth m k i) : k ≤ i := by
  obtain ⟨_, h⟩ := h
  rw [← h]
  exact (List.length_filter_le _ _).trans (by simp)

theorem nth_unique {m : List Bool} {k i j : Nat} (hi : IsNth m k i) (hj : IsNth m k j) : i = j := by
  have key : ∀ {i j : Nat}, IsNth m k i → IsNth m k j → i < j → False := by
    intro i j hi hj hlt
    obtain ⟨h1, h2⟩ := hi
    obtain ⟨_, h4⟩ := hj
    obtain ⟨hl, h1⟩ := List.getElem?_eq_some_iff.1 h1
    have : m.take j = m.take i ++ true :: (m.take j).drop (i + 1) := by
      have hh : i < (m.take j).length := by simp; omega
      conv_lhs => rw [← List.take_append_drop i (m.take j), List.drop_eq_getElem_cons hh]
      simp [h1, List.take_take, Nat.min_eq_left (Nat.le_of_lt hlt)]
    rw [this, List.filter_append, List.length_append, h2] at h4
    simp at h4
  rcases Nat.lt_trichotomy i j with h | h | h
  · exact (key hi hj h).elim
  · exact h
  · exact (key hj hi h).elim

/-! ## Evaluation -/

theorem foldl_horner (x : ℚ) (l : List ℚ) : ∀ a : ℚ, l.foldl (fun t b => t * x + b) a = a * x ^ l.length + horner x l.reverse := by
  induction l with
  | nil => intro a; simp [horner]
  | cons b l ih =>
    intro a
    rw [List.foldl_cons, ih]
    have : horner x (b :: l).reverse = b * x ^ l.length + horner x l.reverse := by
      conv_lhs => unfold horner
      simp only [List.reverse_reverse]
      exact ih b
    rw [this, List.length_cons, pow_succ]
    ring

theorem horner_concat (x : ℚ) (c : List ℚ) (a : ℚ) : horner x (c ++ [a]) = horner x c + a * x ^ c.length := by
  have : horner x (c ++ [a]) = c.reverse.foldl (fun t b => t * x + b) a := by simp [horner]
  rw [this, foldl_horner]
  simp
  ring

theorem horner_eq (x : ℚ) (c : List ℚ) : horner x c = ∑ j ∈ range c.length, c.getD j 0 * x ^ j := by
  induction c using List.reverseRecOn with
  | nil => simp [horner]
  | append_singleton c a ih =>
    rw [horner_concat, ih]
    simp only [List.length_append, List.length_singleton, sum_range_succ]
    congr 1
    · refine sum_congr rfl fun j hj => ?_
      have := mem_range.1 hj
      simp [List.getElem?_append_left this]
    · simp

theorem rowsLoop_eq (x y : ℚ) (ny nx : Nat) (c : List ℚ) (h : c.length = nx * ny) : rowsLoop x y ny c nx = polyVal nx ny c x y := by
  have key : ∀ n, n ≤ nx → (List.range n).foldl (fun (s : ℚ × ℚ) ix => (s.1 + horner y ((c.drop (ix * ny)).take ny) * s.2, s.2 * x)) (0, 1) =
      (polyVal n ny c x y, x ^ n) := by
    intro n
    induction n with
    | zero => intro _; simp [polyVal]
    | succ n ih =>
      intro hn
      rw [List.range_succ, List.foldl_append, ih (by omega)]
      simp only [List.foldl_cons, List.foldl_nil, polyVal, sum_range_succ, pow_succ, Prod.mk.injEq, and_true]
      congr 1
      have hlen : n * ny + ny ≤ nx * ny := by
        have := Nat.mul_le_mul_right ny (show n + 1 ≤ nx by omega)
        rwa [Nat.succ_mul] at this
      rw [horner_eq, sum_mul]
      have hl : ((c.drop (n * ny)).take ny).length = ny := by simp; omega
      rw [hl]
      refine sum_congr rfl fun j hj => ?_
      have := mem_range.1 hj
      simp only [List.getD_eq_getElem?_getD, List.getElem?_take, this, if_true, List.getElem?_drop]
      ring
  unfold rowsLoop
  rw [key nx (Nat.le_refl _)]

theorem powLoop_get (x : ℚ) : ∀ (n : Nat) (w : ℚ) (j : Nat), j < n → (powLoop x n w).getD j 0 = w * x ^ j := by
  intro n
  induction n with
  | zero => intro w j h; omega
  | succ n ih =>
    intro w j h
    cases j with
    | zero => simp [powLoop]
    | succ j =>
      have := ih (w * x) j (by omega)
      simp only [powLoop, List.getD_cons_succ, this]
      ring

theorem spread_get (t : ℚ) : ∀ (n : Nat) (d : ℚ) (m : Nat), m < n → (spread t d n)[m]? = some (t + (-1) ^ m * d) := by
  intro n
  induction n with
  | zero => intro d m h; omega
  | succ n ih =>
    intro d m h
    cases m with
    | zero => simp [spread]
    | succ m =>
      simp only [spread, List.getElem?_cons_succ, ih (-d) m (by omega)]
      congr 1; ring

theorem spread_length (t : ℚ) : ∀ (n : Nat) (d : ℚ), (spread t d n).length = n := by
  intro n
  induction n with
  | zero => intro d; rfl
  | succ n ih => intro d; simp [spread, ih]

theorem normal_eq (o s x : ℚ) : normal o s x = scaled o s x := by
  unfold normal scaled
  by_cases h : s = 0
  · simp [h]
  · simp [h, div_eq_mul_inv]

/-- Changing one coefficient. -/
theorem polyVal_modify (nx ny : Nat) (c : List ℚ) (u v w : ℚ) (rx ry : Nat) (hx : rx < nx) (hy : ry < ny) (hl : c.length = nx * ny) :
    polyVal nx ny (c.modify (rx * ny + ry) (· + w)) u v = polyVal nx ny c u v + w * u ^ rx * v ^ ry := by
  have hlt : rx * ny + ry < c.length := by
    have := Nat.mul_le_mul_right ny (show rx + 1 ≤ nx by omega)
    rw [Nat.succ_mul] at this; omega
  have hg : ∀ k, (c.modify (rx * ny + ry) (· + w)).getD k 0 = c.getD k 0 + if k = rx * ny + ry then w else 0 := by
    intro k
    simp only [List.getD_eq_getElem?_getD, List.getElem?_modify]
    by_cases hk : k = rx * ny + ry
    · subst hk; simp [hlt]
    · simp [hk, Ne.symm hk]
  unfold polyVal
  simp only [hg, add_mul, sum_add_distrib]
  congr 1
  rw [sum_eq_single rx, sum_eq_single ry]
  · simp
  · intro j hj hne
    rw [if_neg (by omega)]; ring
  · intro h; exact (h (mem_range.2 hy)).elim
  · intro i hi hne
    refine sum_eq_zero fun j hj => ?_
    have hj := mem_range.1 hj
    rw [if_neg]
    · ring
    · intro he
      have h1 : (i * ny + j) / ny = i := by
        rw [Nat.add_comm, Nat.add_mul_div_right _ _ (by omega), Nat.div_eq_of_lt hj, Nat.zero_add]
      have h2 : (rx * ny + ry) / ny = rx := by
        rw [Nat.add_comm, Nat.add_mul_div_right _ _ (by omega), Nat.div_eq_of_lt hy, Nat.zero_add]
      rw [he, h2] at h1
      exact hne h1.symm
  · intro h; exact (h (mem_range.2 hx)).elim

theorem polyVal_col (n : Nat) (c : List ℚ) (u v : ℚ) (h : c.length = n) : polyVal n 1 c u v = horner u c := by
  subst h
  simp [polyVal, horner_eq]

theorem polyVal_row (n : Nat) (c : List ℚ) (u v : ℚ) (h : c.length = n) : polyVal 1 n c u v = horner v c := by
  subst h
  simp [polyVal, horner_eq]

/-! ## Transformation -/

theorem foldl_linear {α β : Type} (P : α → Prop) (L : α → ℚ) (f : α → β → α) (g : β → ℚ) (l : List β)
    (hf : ∀ a, P a → ∀ b ∈ l, P (f a b) ∧ L (f a b) = L a + g b) : ∀ a, P a → P (l.foldl f a) ∧ L (l.foldl f a) = L a + (l.map g).sum := by
  induction l with
  | nil => intro a ha; exact ⟨ha, by simp⟩
  | cons b l ih =>
    intro a ha
    obtain ⟨h1, h2⟩ := hf a ha b List.mem_cons_self
    obtain ⟨h3, h4⟩ := ih (fun a ha c hc => hf a ha c (List.mem_cons_of_mem _ hc)) (f a b) h1
    exact ⟨h3, by rw [List.foldl_cons, h4, h2]; simp; ring⟩

theorem sum_range_list (g : Nat → ℚ) (n : Nat) : ((List.range n).map g).sum = ∑ i ∈ range n, g i := by
  induction n with
  | zero => simp
  | succ n ih => rw [List.range_succ, List.map_append, List.sum_append, ih, sum_range_succ]; simp

theorem newCoeff_spec (nx ny : Nat) (c dO dS : List ℚ) (u v : ℚ) :
    (newCoeff nx ny c dO dS).length = nx * ny ∧
    polyVal nx ny (newCoeff nx ny c dO dS) u v = polyVal nx ny c (dS.getD 0 0 * (u + dO.getD 0 0)) (dS.getD 1 0 * (v + dO.getD 1 0)) := by
  generalize ha : dO.getD 0 0 = a
  generalize hb : dO.getD 1 0 = b
  generalize hs : dS.getD 0 0 = s
  generalize ht : dS.getD 1 0 = t
  have key := foldl_linear (fun C : List ℚ => C.length = nx * ny) (fun C => polyVal nx ny C u v)
    (fun C xi =>
      (List.range ny).foldl (fun C yi =>
        (List.range (xi + 1)).foldl (fun C rx =>
          (List.range (yi + 1)).foldl (fun C ry =>
            C.modify (rx * ny + ry) (· + (xi.choose rx : ℚ) * (yi.choose ry : ℚ) * a ^ (xi - rx) * b ^ (yi - ry) *
              c.getD (xi * ny + yi) 0 * (s ^ xi * t ^ yi))) C) C) C)
    (fun xi => ((List.range ny).map fun yi => ((List.range (xi + 1)).map fun rx => ((List.range (yi + 1)).map fun ry =>
      (xi.choose rx : ℚ) * (yi.choose ry : ℚ) * a ^ (xi - rx) * b ^ (yi - ry) * c.getD (xi * ny + yi) 0 * (s ^ xi * t ^ yi) * u ^ rx * v ^ ry).sum).sum).sum)
    (List.range nx)
    (by
      intro C hC xi hxi
      refine foldl_linear (fun C : List ℚ => C.length = nx * ny) (fun C => polyVal nx ny C u v) _ _ _ ?_ C hC
      intro C hC yi hyi
      refine foldl_linear (fun C : List ℚ => C.length = nx * ny) (fun C => polyVal nx ny C u v) _ _ _ ?_ C hC
      intro C hC rx hrx
      refine foldl_linear (fun C : List ℚ => C.length = nx * ny) (fun C => polyVal nx ny C u v) _ _ _ ?_ C hC
      intro C hC ry hry
      simp only [List.mem_range] at hxi hyi hrx hry
      exact ⟨by simpa using hC, polyVal_modify nx ny C u v _ rx ry (by omega) (by omega) hC⟩)
    (List.replicate (nx * ny) 0) (by simp)
  have hn : newCoeff nx ny c dO dS = (List.range nx).foldl (fun C xi =>
      (List.range ny).foldl (fun C yi =>
        (List.range (xi + 1)).foldl (fun C rx =>
          (List.range (yi + 1)).foldl (fun C ry =>
            C.modify (rx * ny + ry) (· + (xi.choose rx : ℚ) * (yi.choose ry : ℚ) * a ^ (xi - rx) * b ^ (yi - ry) *
              c.getD (xi * ny + yi) 0 * (s ^ xi * t ^ yi))) C) C) C) (List.replicate (nx * ny) 0) := by
    unfold newCoeff; rw [ha, hb, hs, ht]
  rw [hn]
  refine ⟨key.1, ?_⟩
  rw [key.2]
  have hz : polyVal nx ny (List.replicate (nx * ny) (0 : ℚ)) u v = 0 := by
    unfold polyVal
    refine sum_eq_zero fun i _ => sum_eq_zero fun j _ => ?_
    have : (List.replicate (nx * ny) (0 : ℚ)).getD (i * ny + j) 0 = 0 := by
      simp only [List.getD_eq_getElem?_getD, List.getElem?_replicate]
      split <;> rfl
    rw [this]; ring
  rw [hz, zero_add]
  simp only [sum_range_list]
  unfold polyVal
  refine sum_congr rfl fun xi _ => sum_congr rfl fun yi _ => ?_
  rw [mul_pow, mul_pow, add_pow u a xi, add_pow v b yi]
  have : c.getD (xi * ny + yi) 0 * (s ^ xi * ∑ m ∈ range (xi + 1), u ^ m * a ^ (xi - m) * (xi.choose m : ℚ)) *
      (t ^ yi * ∑ m ∈ range (yi + 1), v ^ m * b ^ (yi - m) * (yi.choose m : ℚ)) =
      c.getD (xi * ny + yi) 0 * s ^ xi * t ^ yi * ((∑ m ∈ range (xi + 1), u ^ m * a ^ (xi - m) * (xi.choose m : ℚ)) *
      ∑ m ∈ range (yi + 1), v ^ m * b ^ (yi - m) * (yi.choose m : ℚ)) := by ring
  rw [this, sum_mul_sum, mul_sum]
  refine sum_congr rfl fun rx _ => ?_
  rw [mul_sum]
  refine sum_congr rfl fun ry _ => ?_
  ring

theorem numbered_all (p : Poly) (spid0 : Int) (hm : p.mask = none) :
    ∃ q, makeSolvableAll p spid0 = .ok (q, p.coeff.length) ∧ Numbered q spid0 (List.replicate p.coeff.length true) ∧ q.coeff = p.coeff := by
  refine ⟨{ p with spids := (List.range p.coeff.length).map fun i : Nat => spid0 + i,
                   spidInx := (List.range p.coeff.length).map fun i : Nat => (i : Int),
                   parmPerts := List.replicate p.coeff.length p.pert, spidPerts := List.replicate p.coeff.length p.pert },
    by simp only [makeSolvableAll, hm], ⟨by simp, by simp, by simp, ?_, ?_, ?_⟩, rfl⟩
  · intro k i h
    have hi : i < p.coeff.length := by
      have := (List.getElem?_eq_some_iff.1 h.1).1
      simpa using this
    have : k = i := by
      have := h.2
      simpa [List.take_replicate, Nat.min_eq_left (Nat.le_of_lt hi)] using this.symm
    subst this
    simp [hi]
  · intro i h
    simp [List.getElem?_replicate] at h
  · intro k hk
    have hk : k < p.coeff.length := by simpa using hk
    simp [hk]

theorem update_numbered {p : Poly} {spid0 : Int} {mask : List Bool} {values : List ℚ} (lim : Nat → Limits) (hn : Numbered p spid0 mask)
    (hv : p.spids.length ≤ values.length) :
    ∃ c, updateLoop values lim 0 p.spidInx p.coeff = .ok c ∧ c.length = p.coeff.length ∧
      (∀ (k i : Nat) (a : ℚ), IsNth mask k i → p.coeff[i]? = some a → c[i]? = some ((lim i).apply (a + values.getD k 0))) ∧
      ∀ i : Nat, mask[i]? = some false → c[i]? = p.coeff[i]? := by
  obtain ⟨h1, h2, h3, h4, h5, h6⟩ := hn
  have hb : ∀ s ∈ p.spidInx, 0 ≤ s → s.toNat < values.length := by
    intro s hs h0
    obtain ⟨i, hi, rfl⟩ := List.mem_iff_getElem.1 hs
    have hi' : i < mask.length := by omega
    cases hmi : mask[i] with
    | true =>
      obtain ⟨k, hk⟩ := nth_exists (m := mask) (i := i) (by rw [List.getElem?_eq_getElem hi', hmi])
      have := h4 k i hk
      rw [List.getElem?_eq_getElem hi, Option.some.injEq] at this
      rw [this, Int.toNat_natCast]
      have := nth_lt hk
      omega
    | false =>
      have := h5 i (by rw [List.getElem?_eq_getElem hi', hmi])
      rw [List.getElem?_eq_getElem hi, Option.some.injEq] at this
      omega
  obtain ⟨c, hc, hl, hj⟩ := updateLoop_spec values lim p.spidInx 0 p.coeff h2 hb
  refine ⟨c, hc, hl, ?_, ?_⟩
  · intro k i a hk ha
    have := hj i k a (h4 k i hk) ha
    simpa using this
  · intro i hi
    have hlt : i < p.coeff.length := by
      have := (List.getElem?_eq_some_iff.1 hi).1; omega
    have := hj i (-1) p.coeff[i] (h5 i hi) (List.getElem?_eq_getElem hlt)
    rw [this, List.getElem?_eq_getElem hlt]
    simp

/-- The loop over the axes, when the new scales are not 0. -/
theorem axLoop_two (p : Poly) (o0 o1 s0 s1 : ℚ) (h0 : s0 ≠ 0) (h1 : s1 ≠ 0) (ho : 2 ≤ p.offsets.length) (hs : 2 ≤ p.scales.length) :
    ∃ ch, axLoop [(o0, s0), (o1, s1)] 0 ⟨p.offsets, p.scales, [], [], false, false⟩ =
      .ok ⟨(p.offsets.set 0 o0).set 1 o1, (p.scales.set 0 s0).set 1 s1,
        [(o0 - p.offsets.getD 0 0) / s0, (o1 - p.offsets.getD 1 0) / s1],
        [s0 / (if p.scales.getD 0 0 = 0 then 1 else p.scales.getD 0 0), s1 / (if p.scales.getD 1 0 = 0 then 1 else p.scales.getD 1 0)], ch, false⟩ ∧
      (ch = false → (o0 - p.offsets.getD 0 0) / s0 = 0 ∧ s0 / (if p.scales.getD 0 0 = 0 then 1 else p.scales.getD 0 0) = 1 ∧
        (o1 - p.offsets.getD 1 0) / s1 = 0 ∧ s1 / (if p.scales.getD 1 0 = 0 then 1 else p.scales.getD 1 0) = 1) := by
  obtain ⟨a, b, l, ho'⟩ : ∃ a b l, p.offsets = a :: b :: l := by
    rcases hh : p.offsets with _ | ⟨a, _ | ⟨b, l⟩⟩
    · simp [hh] at ho
    · simp [hh] at ho
    · exact ⟨a, b, l, rfl⟩
  obtain ⟨c, d, m, hs'⟩ : ∃ a b l, p.scales = a :: b :: l := by
    rcases hh : p.scales with _ | ⟨a, _ | ⟨b, l⟩⟩
    · simp [hh] at hs
    · simp [hh] at hs
    · exact ⟨a, b, l, rfl⟩
  rw [ho', hs']
  refine ⟨decide ((o0 - a) / s0 ≠ 0 ∨ s0 / (if c = 0 then 1 else c) ≠ 1) || decide ((o1 - b) / s1 ≠ 0 ∨ s1 / (if d = 0 then 1 else d) ≠ 1), ?_, ?_⟩
  · simp only [axLoop, List.getElem?_cons_zero, List.set_cons_zero, List.getElem?_cons_succ, List.set_cons_succ, if_neg h0, if_neg h1,
      List.getD_cons_zero, List.getD_cons_succ]
    rfl
  · intro h
    simp only [Bool.or_eq_false_iff, decide_eq_false_iff_not, not_or, not_not, ne_eq] at h
    exact ⟨h.1.1, h.1.2, h.2.1, h.2.2⟩

theorem axLoop_one (p : Poly) (o0 s0 : ℚ) (h0 : s0 ≠ 0) (ho : 1 ≤ p.offsets.length) (hs : 1 ≤ p.scales.length) :
    ∃ ch, axLoop [(o0, s0)] 0 ⟨p.offsets, p.scales, [], [], false, false⟩ =
      .ok ⟨p.offsets.set 0 o0, p.scales.set 0 s0, [(o0 - p.offsets.getD 0 0) / s0],
        [s0 / (if p.scales.getD 0 0 = 0 then 1 else p.scales.getD 0 0)], ch, false⟩ ∧
      (ch = false → (o0 - p.offsets.getD 0 0) / s0 = 0 ∧ s0 / (if p.scales.getD 0 0 = 0 then 1 else p.scales.getD 0 0) = 1) := by
  obtain ⟨a, l, ho'⟩ : ∃ a l, p.offsets = a :: l := by
    rcases hh : p.offsets with _ | ⟨a, l⟩
    · simp [hh] at ho
    · exact ⟨a, l, rfl⟩
  obtain ⟨c, m, hs'⟩ : ∃ a l, p.scales = a :: l := by
    rcases hh : p.scales with _ | ⟨a, l⟩
    · simp [hh] at hs
    · exact ⟨a, l, rfl⟩
  rw [ho', hs']
  refine ⟨decide ((o0 - a) / s0 ≠ 0 ∨ s0 / (if c = 0 then 1 else c) ≠ 1), ?_, ?_⟩
  · simp only [axLoop, List.getElem?_cons_zero, List.set_cons_zero, if_neg h0, List.getD_cons_zero]
    rfl
  · intro h
    simp only [decide_eq_false_iff_not, not_or, not_not, ne_eq] at h
    exact h

/-- The normalised coordinate in terms of the new one. -/
theorem scaled_change (o s o' s' x : ℚ) (h : s' ≠ 0) :
    scaled o s x = s' / (if s = 0 then 1 else s) * (scaled o' s' x + (o' - o) / s') := by
  unfold scaled
  rw [if_neg h]
  by_cases hs : s = 0
  · simp only [hs, if_true]; field_simp; ring
  · simp only [hs, if_false]; field_simp; ring

theorem polyVal_const (nx ny : Nat) (hx : 0 < nx) (hy : 0 < ny) (c : List ℚ) (hc : ∀ k, k < nx * ny → k = 0 ∨ c.getD k 0 = 0) (u v : ℚ) :
    polyVal nx ny c u v = c.getD 0 0 := by
  unfold polyVal
  rw [sum_eq_single 0, sum_eq_single 0]
  · simp
  · intro j hj h0
    have hj := mem_range.1 hj
    rcases hc (0 * ny + j) (by rw [Nat.zero_mul, Nat.zero_add]; exact Nat.lt_of_lt_of_le hj (Nat.le_mul_of_pos_left _ hx)) with h | h
    · omega
    · rw [h]; ring
  · intro h; exact (h (mem_range.2 hy)).elim
  · intro i hi h0
    refine sum_eq_zero fun j hj => ?_
    have hj := mem_range.1 hj
    have hi := mem_range.1 hi
    have h1 := Nat.mul_le_mul_right ny (show i + 1 ≤ nx by omega)
    have h2 : 0 < i * ny := Nat.mul_pos (Nat.pos_of_ne_zero h0) hy
    rw [Nat.succ_mul] at h1
    rcases hc (i * ny + j) (by omega) with h | h
    · omega
    · rw [h]; ring
  · intro h; exact (h (mem_range.2 hx)).elim

theorem polyVal_one_col (nx : Nat) (c : List ℚ) (u v w : ℚ) : polyVal nx 1 c u v = polyVal nx 1 c u w := by
  simp [polyVal]

/-- The value of a polynomial with one coefficient changed. -/
theorem value_modify (p : Poly) (hl : p.coeff.length = nrows p * ncols p) (hy : 0 < ncols p) (k : Nat) (hk : k < p.coeff.length) (w x y : ℚ) :
    value { p with coeff := p.coeff.modify k (· + w) } x y = value p x y + w *
      scaled (p.offsets.getD 0 0) (p.scales.getD 0 0) x ^ (k / ncols p) * scaled (p.offsets.getD 1 0) (p.scales.getD 1 0) y ^ (k % ncols p) := by
  have hx : k / ncols p < nrows p := Nat.div_lt_of_lt_mul (by rw [Nat.mul_comm, ← hl]; exact hk)
  have hm : k % ncols p < ncols p := Nat.mod_lt _ hy
  have := polyVal_modify (nrows p) (ncols p) p.coeff (scaled (p.offsets.getD 0 0) (p.scales.getD 0 0) x)
    (scaled (p.offsets.getD 1 0) (p.scales.getD 1 0) y) w _ _ hx hm hl
  rw [show k / ncols p * ncols p + k % ncols p = k by rw [Nat.mul_comm]; exact Nat.div_add_mod _ _] at this
  simpa only [value, nrows, ncols] using this

/-- Writing elements at different places. -/
theorem foldl_set (ok : Nat → Bool) (e : Nat → Nat) (f : Nat → ℚ) (n M : Nat) (he : ∀ k, k < M → ok k = true → e k < n)
    (hinj : ∀ k l, k < M → l < M → ok k = true → ok l = true → e k = e l → k = l) : ∀ (N : Nat), N ≤ M →
    ((List.range N).foldl (fun c k => if ok k then c.set (e k) (f k) else c) (List.replicate n 0)).length = n ∧
    (∀ k, k < N → ok k = true → ((List.range N).foldl (fun c k => if ok k then c.set (e k) (f k) else c) (List.replicate n 0)).getD (e k) 0 = f k) ∧
    ∀ t, (∀ k, k < N → ok k = true → e k ≠ t) → ((List.range N).foldl (fun c k => if ok k then c.set (e k) (f k) else c) (List.replicate n 0)).getD t 0 = 0 := by
  intro N
  induction N with
  | zero =>
    intro _
    refine ⟨by simp, (fun k h => by omega), fun t _ => ?_⟩
    simp only [List.range_zero, List.foldl_nil, List.getD_eq_getElem?_getD, List.getElem?_replicate]
    split <;> rfl
  | succ N ih =>
    intro hM
    obtain ⟨h1, h2, h3⟩ := ih (by omega)
    rw [List.range_succ, List.foldl_append]
    generalize (List.range N).foldl (fun c k => if ok k then c.set (e k) (f k) else c) (List.replicate n 0) = c at *
    simp only [List.foldl_cons, List.foldl_nil]
    by_cases hN : ok N = true
    · rw [if_pos hN]
      refine ⟨by simp [h1], ?_, ?_⟩
      · intro k hk hok
        by_cases hkN : k = N
        · subst hkN
          simp [List.getD_eq_getElem?_getD, h1, he k (by omega) hok]
        · have hne : e N ≠ e k := fun h => hkN (hinj k N (by omega) (by omega) hok hN h.symm)
          have := h2 k (by omega) hok
          simp only [List.getD_eq_getElem?_getD, List.getElem?_set, if_neg hne] at this ⊢
          exact this
      · intro t ht
        have hne : e N ≠ t := ht N (by omega) hN
        have := h3 t (fun k hk => ht k (by omega))
        simp only [List.getD_eq_getElem?_getD, List.getElem?_set, if_neg hne] at this ⊢
        exact this
    · rw [if_neg hN]
      refine ⟨h1, ?_, ?_⟩
      · intro k hk hok
        by_cases hkN : k = N
        · subst hkN; exact (hN hok).elim
        · exact h2 k (by omega) hok
      · intro t ht
        exact h3 t (fun k hk => ht k (by omega))

theorem mul_add_inj {b i j i' j' : Nat} (hj : j < b) (hj' : j' < b) (h : i * b + j = i' * b + j') : i = i' ∧ j = j' := by
  have hb : 0 < b := by omega
  have h1 : (i * b + j) / b = i := by rw [Nat.add_comm, Nat.add_mul_div_right _ _ hb, Nat.div_eq_of_lt hj, Nat.zero_add]
  have h2 : (i' * b + j') / b = i' := by rw [Nat.add_comm, Nat.add_mul_div_right _ _ hb, Nat.div_eq_of_lt hj', Nat.zero_add]
  rw [h, h2] at h1
  subst h1
  exact ⟨rfl, by omega⟩

theorem mul_add_lt {a b i j : Nat} (hi : i < a) (hj : j < b) : i * b + j < a * b := by
  have := Nat.mul_le_mul_right b (show i + 1 ≤ a by omega)
  rw [Nat.succ_mul] at this; omega

theorem solvable_same {p q : Poly} {spid0 : Int} {mask : List Bool} {n : Nat} (h : makeSolvableMask p spid0 mask = .ok (q, n)) :
    q.coeff = p.coeff ∧ q.shape = p.shape ∧ q.offsets = p.offsets ∧ q.scales = p.scales := by
  simp only [makeSolvableMask] at h
  split at h
  · cases h
  · injection h with h
    injection h with h _
    subst h
    exact ⟨rfl, rfl, rfl, rfl⟩

theorem solvable_all_same {p q : Poly} {spid0 : Int} {n : Nat} (h : makeSolvableAll p spid0 = .ok (q, n)) :
    q.coeff = p.coeff ∧ q.shape = p.shape ∧ q.offsets = p.offsets ∧ q.scales = p.scales := by
  unfold makeSolvableAll at h
  split at h
  · exact solvable_same h
  · injection h with h
    injection h with h _
    subst h
    exact ⟨rfl, rfl, rfl, rfl⟩

end Verif.Polc
