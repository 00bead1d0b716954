import Verif.Spec.Resample
import Mathlib.Algebra.Order.BigOperators.Group.Finset
import Mathlib.Algebra.Order.Field.Basic
import Mathlib.Algebra.BigOperators.Ring.Finset
import Mathlib.Tactic.Ring
import Mathlib.Tactic.FieldSimp
import Mathlib.Tactic.Linarith
/-!
# Lemmas on the integration of values to coarser cells
-/
namespace Verif.Resample

theorem right_eq (c : ℚ × ℚ) : right c = hi c := by simp only [right, hi]; ring
theorem left_eq (c : ℚ × ℚ) : left c = lo c := by simp only [left, lo]; ring

/-! ### The search -/

theorem bin_spec (l : List ℚ) (x : ℚ) (hlast : ∀ v, l[l.length - 1]? = some v → x < v) : ∀ (f s e : Nat), s < e → e ≤ l.length → e - s < f →
    (∀ v, l[s]? = some v → v ≤ x) → (∀ v, l[e]? = some v → x < v) →
    ∃ k : Nat, bin l x f s e = .ok (k : Int) ∧ ∃ v u, l[k]? = some v ∧ l[k + 1]? = some u ∧ v ≤ x ∧ x < u := by
  intro f
  induction f with
  | zero => intro s e _ _ h; omega
  | succ f ih =>
    intro s e hse hel hf hs he
    have gets : ∀ i, i < l.length → ∃ v, l[i]? = some v := fun i hi => ⟨_, List.getElem?_eq_getElem hi⟩
    unfold bin
    rw [if_neg (by omega)]
    split
    · rename_i h1
      obtain ⟨v, hv⟩ := gets s (by omega)
      have hvx := hs v hv
      have hel' : e < l.length := by
        by_contra hc
        have : s = l.length - 1 := by omega
        rw [this] at hv
        have := hlast v hv
        linarith
      obtain ⟨u, hu⟩ := gets e hel'
      have hxu := he u hu
      refine ⟨s, ?_, v, u, hv, by rw [← h1]; exact hu, hvx, hxu⟩
      simp [hv, hvx, hu, hxu]
    · rename_i h1
      obtain ⟨v, hv⟩ := gets ((s + e) / 2) (by omega)
      simp only [hv]
      split
      · rename_i hvx
        have hm : (s + e) / 2 + 1 < l.length := by
          by_contra hc
          have : (s + e) / 2 = l.length - 1 := by omega
          rw [this] at hv
          have := hlast v hv
          linarith
        obtain ⟨u, hu⟩ := gets _ hm
        simp only [hu]
        split
        · rename_i hxu
          exact ⟨_, rfl, v, u, hv, hu, hvx, hxu⟩
        · refine ih _ e (by omega) hel (by omega) ?_ he
          intro w hw
          rw [hv] at hw
          cases hw
          exact hvx
      · rename_i hvx
        refine ih s _ (by omega) (by omega) (by omega) hs ?_
        intro w hw
        rw [hv] at hw
        cases hw
        exact not_le.mp hvx

/-! ### Cells as intervals -/

structure Ivs (n : Nat) (L H : Nat → ℚ) (d : ℚ × ℚ) : Prop where
  pos : 0 < n
  lt : ∀ k, k < n → L k < H k
  nxt : ∀ k, k + 1 < n → H k = L (k + 1)
  fst : L 0 = d.1
  lst : H (n - 1) = d.2

def cell (l : List (ℚ × ℚ)) (k : Nat) : ℚ × ℚ := (l[k]?).getD (0, 0)

theorem cell_get {l : List (ℚ × ℚ)} {k : Nat} (h : k < l.length) : l[k]? = some (cell l k) := by
  simp [cell, List.getElem?_eq_getElem h]

theorem Fills.ivs {d : ℚ × ℚ} {l : List (ℚ × ℚ)} (h : Fills d l) : Ivs l.length (fun k => lo (cell l k)) (fun k => hi (cell l k)) d := by
  obtain ⟨c0, h0, e0⟩ := h.first
  obtain ⟨c1, h1, e1⟩ := h.last
  have hpos : 0 < l.length := by
    cases l with
    | nil => simp at h0
    | cons _ _ => simp
  refine ⟨hpos, ?_, ?_, ?_, ?_⟩
  · intro k hk
    have := h.pos _ (List.mem_of_getElem? (cell_get hk))
    simp only [lo, hi]
    linarith
  · intro k hk
    exact h.next k _ _ (cell_get (by omega)) (cell_get hk)
  · rw [← e0]
    have := cell_get hpos
    rw [List.head?_eq_getElem?, this] at h0
    cases h0
    rfl
  · rw [← e1]
    have := cell_get (l := l) (k := l.length - 1) (by omega)
    rw [List.getLast?_eq_getElem?, this] at h1
    cases h1
    rfl

theorem Fills.size {d : ℚ × ℚ} {l : List (ℚ × ℚ)} (h : Fills d l) {k : Nat} (hk : k < l.length) : 0 < (cell l k).2 :=
  h.pos _ (List.mem_of_getElem? (cell_get hk))

namespace Ivs
variable {n : Nat} {L H : Nat → ℚ} {d : ℚ × ℚ} (t : Ivs n L H d)
include t

theorem before : ∀ (j k : Nat), j < k → k < n → H j ≤ L k := by
  intro j k
  induction k with
  | zero => intro h; omega
  | succ k ih =>
    intro h hk
    have e := t.nxt k hk
    by_cases hjk : j = k
    · subst hjk; exact e.le
    · have h1 := ih (by omega) (by omega)
      have h2 := t.lt k (by omega)
      linarith

theorem monoL {j k : Nat} (h : j ≤ k) (hk : k < n) : L j ≤ L k := by
  by_cases hjk : j = k
  · subst hjk; exact le_refl _
  · have h1 := t.before j k (by omega) hk
    have h2 := t.lt j (by omega)
    linarith

theorem monoH {j k : Nat} (h : j ≤ k) (hk : k < n) : H j ≤ H k := by
  by_cases hjk : j = k
  · subst hjk; exact le_refl _
  · have h1 := t.before j k (by omega) hk
    have h2 := t.lt k hk
    linarith

theorem startL {k : Nat} (hk : k < n) : d.1 ≤ L k := by
  rw [← t.fst]; exact t.monoL (by omega) hk

theorem endH {k : Nat} (hk : k < n) : H k ≤ d.2 := by
  rw [← t.lst]; exact t.monoH (by omega) (by have := t.pos; omega)

theorem find (x : ℚ) (h1 : d.1 ≤ x) (h2 : x < d.2) : ∃ k, k < n ∧ L k ≤ x ∧ x < H k := by
  by_contra hc
  push Not at hc
  have : ∀ k, k < n → L k ≤ x := by
    intro k
    induction k with
    | zero => intro _; rw [t.fst]; exact h1
    | succ k ih =>
      intro hk
      rw [← t.nxt k hk]
      exact hc k (by omega) (ih (by omega))
  have hn := t.pos
  have := hc (n - 1) (by omega) (this _ (by omega))
  rw [t.lst] at this
  linarith

end Ivs

theorem bounds_get {d : ℚ × ℚ} {out : List (ℚ × ℚ)} (h : Fills d out) : (bounds d out).length = out.length + 1 ∧
    (∀ k, k < out.length → (bounds d out)[k]? = some (lo (cell out k)) ∧ (bounds d out)[k + 1]? = some (hi (cell out k))) := by
  have t := h.ivs
  have hn := t.pos
  have hlen : (bounds d out).length = out.length + 1 := by simp [bounds]; omega
  have hs : ∀ k, k < out.length → (bounds d out)[k + 1]? = some (hi (cell out k)) := by
    intro k hk
    simp only [bounds, List.getElem?_cons_succ]
    by_cases hl : k = out.length - 1
    · rw [List.getElem?_append_right (by simp; omega)]
      simp only [List.length_map, List.length_dropLast, hl, Nat.sub_self, List.getElem?_cons_zero]
      rw [← t.lst]
    · rw [List.getElem?_append_left (by simp; omega), List.getElem?_map, List.getElem?_dropLast, if_pos (by omega), cell_get hk]
      simp [right_eq]
  refine ⟨hlen, fun k hk => ⟨?_, hs k hk⟩⟩
  cases k with
  | zero => simp only [bounds, List.getElem?_cons_zero]; rw [← t.fst]
  | succ k =>
    rw [hs k (by omega), t.nxt k hk]

theorem search_spec {d : ℚ × ℚ} {out : List (ℚ × ℚ)} (h : Fills d out) : ∀ xs : List ℚ, (∀ x ∈ xs, d.1 ≤ x ∧ x < d.2) →
    ∃ ks : List Nat, search (bounds d out) xs = .ok (ks.map Int.ofNat) ∧ ks.length = xs.length ∧
      ∀ (i k : Nat) x, ks[i]? = some k → xs[i]? = some x → k < out.length ∧ lo (cell out k) ≤ x ∧ x < hi (cell out k) := by
  have t := h.ivs
  have hn := t.pos
  obtain ⟨hl, hb⟩ := bounds_get h
  intro xs
  induction xs with
  | nil => intro _; exact ⟨[], rfl, rfl, by simp⟩
  | cons x r ih =>
    intro hx
    obtain ⟨ks, hk, hkl, hks⟩ := ih (fun y hy => hx y (List.mem_cons_of_mem _ hy))
    obtain ⟨h1, h2⟩ := hx x (List.mem_cons_self ..)
    obtain ⟨k, hbin, v, u, hv, hu, hvx, hxu⟩ := bin_spec (bounds d out) x (by
        intro v hv
        have := (hb (out.length - 1) (by omega)).2
        rw [hl, show out.length + 1 - 1 = out.length - 1 + 1 by omega, this] at hv
        cases hv
        rw [← t.lst] at h2
        exact h2) ((bounds d out).length + 1) 0 (bounds d out).length (by omega) (le_refl _) (by omega) (by
        intro v hv
        rw [(hb 0 hn).1] at hv
        cases hv
        rw [← t.fst] at h1
        exact h1) (by intro v hv; simp at hv)
    refine ⟨k :: ks, ?_, by simp [hkl], ?_⟩
    · simp [search, hbin, hk]
    · intro i k' y hi' hy
      cases i with
      | zero =>
        simp only [List.getElem?_cons_zero, Option.some.injEq] at hi' hy
        subst hi' hy
        have hkl' : k < out.length := by
          by_contra hc
          rw [List.getElem?_eq_none (by omega)] at hu
          cases hu
        obtain ⟨e1, e2⟩ := hb k hkl'
        rw [e1] at hv
        rw [e2] at hu
        cases hv
        cases hu
        exact ⟨hkl', hvx, hxu⟩
      | succ i =>
        simp only [List.getElem?_cons_succ] at hi' hy
        exact hks i k' y hi' hy

/-! ### The insertions -/

def tab (m : Nat) (E : Nat → List (Nat × ℚ)) : List (List (Nat × ℚ)) := (List.range m).map E

theorem addEdge_tab (m : Nat) (E : Nat → List (Nat × ℚ)) (j a : Nat) (w : ℚ) (hj : j < m) :
    addEdge (tab m E) (j : Int) a w = .ok (tab m (fun o => if o = j then E o ++ [(a, w)] else E o)) := by
  have : ((tab m E)[j]?) = some (E j) := by simp [tab, hj]
  simp only [addEdge, Int.toNat_natCast, this]
  rw [if_neg (by omega)]
  congr 1
  apply List.ext_getElem?
  intro i
  by_cases hij : i = j
  · subst hij
    rw [List.getElem?_set_self (by simp [tab, hj])]
    simp [tab, hj]
  · rw [List.getElem?_set_ne (by omega)]
    by_cases him : i < m
    · simp [tab, him, hij]
    · simp [tab, him]

theorem insertLoop_tab (out : List (ℚ × ℚ)) (a : Nat) (c : ℚ × ℚ) (w : Nat → ℚ) : ∀ (n s : Nat) (E : Nat → List (Nat × ℚ)), s + n ≤ out.length →
    (∀ o, s ≤ o → o < s + n → (min (right (cell out o)) (right c) - max (left (cell out o)) (left c)) / c.2 = w o) →
    insertLoop out a c ((List.range n).map (fun k => (s : Int) + (k : Nat))) (tab out.length E) =
      .ok (tab out.length (fun o => if s ≤ o ∧ o < s + n then E o ++ [(a, w o)] else E o)) := by
  intro n
  induction n with
  | zero =>
    intro s E _ _
    simp only [List.range_zero, List.map_nil, insertLoop]
    congr 2
    funext o
    rw [if_neg (by omega)]
  | succ n ih =>
    intro s E hs hw
    rw [List.range_succ_eq_map]
    simp only [List.map_cons, List.map_map, insertLoop, Nat.cast_zero, add_zero]
    rw [if_neg (by omega)]
    simp only [Int.toNat_natCast, cell_get (l := out) (k := s) (by omega)]
    rw [addEdge_tab _ _ _ _ _ (by omega), hw s (by omega) (by omega), Res.ok_bind]
    have e : ((fun k : Nat => (s : Int) + (k : Nat)) ∘ Nat.succ) = (fun k : Nat => ((s + 1 : Nat) : Int) + (k : Nat)) := by
      funext k; simp; omega
    rw [e, ih (s + 1) _ (by omega) (fun o h1 h2 => hw o (by omega) (by omega))]
    congr 2
    funext o
    by_cases h1 : o = s
    · subst h1
      rw [if_neg (by omega), if_pos rfl, if_pos (by omega)]
    · by_cases h2 : s ≤ o ∧ o < s + (n + 1)
      · rw [if_pos (by omega), if_neg h1, if_pos h2]
      · rw [if_neg (by omega), if_neg h1, if_neg h2]

theorem insert_tab (inn out : List (ℚ × ℚ)) (a p q : Nat) (w : Nat → ℚ) (E : Nat → List (Nat × ℚ)) (hpq : p ≤ q) (hq : q < out.length)
    (ha : a < inn.length) (h1 : p = q → w p = 1)
    (hw : ∀ o, p ≤ o → o ≤ q → (min (right (cell out o)) (right (cell inn a)) - max (left (cell out o)) (left (cell inn a))) / (cell inn a).2 = w o) :
    insert inn out (tab out.length E) a (p : Int) (q : Int) = .ok (tab out.length (fun o => if p ≤ o ∧ o ≤ q then E o ++ [(a, w o)] else E o)) := by
  unfold insert
  split
  · rename_i h
    have h : p = q := by omega
    subst h
    rw [addEdge_tab _ _ _ _ _ hq]
    congr 2
    funext o
    by_cases ho : o = p
    · subst ho; rw [if_pos rfl, if_pos (by omega), h1 rfl]
    · rw [if_neg ho, if_neg (by omega)]
  · rw [cell_get ha]
    simp only []
    rw [show ((q : Int) - p + 1).toNat = q - p + 1 by omega, insertLoop_tab out a _ w _ _ _ (by omega) (fun o h2 h3 => hw o h2 (by omega))]
    congr 2
    funext o
    by_cases h2 : p ≤ o ∧ o ≤ q
    · rw [if_pos h2, if_pos (by omega)]
    · rw [if_neg h2, if_neg (by omega)]

theorem insertAll_tab (inn out : List (ℚ × ℚ)) (w : Nat → Nat → ℚ) (M : Nat → Nat → Bool) : ∀ (jobs : List ((Int × Int) × Nat)) (E : Nat → List (Nat × ℚ)),
    (∀ j ∈ jobs, ∃ p q : Nat, j.1 = ((p : Int), (q : Int)) ∧ p ≤ q ∧ q < out.length ∧ j.2 < inn.length ∧ (p = q → w j.2 p = 1) ∧
      (∀ o, o < out.length → (M j.2 o = true ↔ p ≤ o ∧ o ≤ q)) ∧
      (∀ o, p ≤ o → o ≤ q →
        (min (right (cell out o)) (right (cell inn j.2)) - max (left (cell out o)) (left (cell inn j.2))) / (cell inn j.2).2 = w j.2 o)) →
    insertAll inn out jobs (tab out.length E) =
      .ok (tab out.length (fun o => E o ++ ((jobs.map Prod.snd).filter (fun a => M a o)).map (fun a => (a, w a o)))) := by
  intro jobs
  induction jobs with
  | nil => intro E _; simp [insertAll]
  | cons j r ih =>
    intro E hj
    obtain ⟨⟨c1, c2⟩, a⟩ := j
    obtain ⟨p, q, e, hpq, hq, ha, h1, hM, hw⟩ := hj _ (List.mem_cons_self ..)
    simp only [Prod.mk.injEq] at e
    obtain ⟨rfl, rfl⟩ := e
    rw [insertAll, insert_tab inn out a p q (w a) E hpq hq ha h1 hw, Res.ok_bind, ih _ (fun j' hj' => hj j' (List.mem_cons_of_mem _ hj'))]
    congr 1
    unfold tab
    apply List.map_congr_left
    intro o ho
    have := hM o (List.mem_range.mp ho)
    by_cases hc : p ≤ o ∧ o ≤ q
    · rw [if_pos hc]
      simp [this.mpr hc]
    · rw [if_neg hc]
      have : M a o = false := by
        cases hm : M a o with
        | false => rfl
        | true => exact absurd (this.mp hm) hc
      simp [this]

/-! ### An axis -/

open Classical in
/-- The edges of a new cell. -/
noncomputable def edges (inn : List (ℚ × ℚ)) (o : ℚ × ℚ) : List (Nat × ℚ) :=
  ((List.range inn.length).filter (fun a => decide (Meets inn a o))).map (fun a => (a, part inn a o))

theorem part_get {inn : List (ℚ × ℚ)} {a : Nat} (h : a < inn.length) (o : ℚ × ℚ) :
    part inn a o = max 0 (min (hi (cell inn a)) (hi o) - max (lo (cell inn a)) (lo o)) / (cell inn a).2 := by
  simp only [part, cell_get h]

theorem meets_get {inn : List (ℚ × ℚ)} {a : Nat} (h : a < inn.length) (o : ℚ × ℚ) :
    Meets inn a o ↔ lo (cell inn a) < hi o ∧ lo o ≤ hi (cell inn a) := by
  simp [Meets, cell_get h]

theorem hi_sub_lo (c : ℚ × ℚ) : hi c - lo c = c.2 := by simp only [hi, lo]; ring

theorem part_one {inn : List (ℚ × ℚ)} {a : Nat} (h : a < inn.length) (o : ℚ × ℚ) (hp : 0 < (cell inn a).2) (h1 : lo o ≤ lo (cell inn a))
    (h2 : hi (cell inn a) ≤ hi o) : part inn a o = 1 := by
  rw [part_get h, min_eq_left h2, max_eq_left h1, hi_sub_lo, max_eq_right hp.le, div_self hp.ne']

theorem part_comm {inn : List (ℚ × ℚ)} {a : Nat} (h : a < inn.length) (o : ℚ × ℚ) (hp : 0 < (cell inn a).2) (ho : lo o < hi o)
    (h1 : lo (cell inn a) < hi o) (h2 : lo o ≤ hi (cell inn a)) :
    (min (right o) (right (cell inn a)) - max (left o) (left (cell inn a))) / (cell inn a).2 = part inn a o := by
  rw [part_get h, right_eq, right_eq, left_eq, left_eq, min_comm, max_comm (lo o)]
  have := hi_sub_lo (cell inn a)
  congr 1
  symm
  apply max_eq_right
  rw [sub_nonneg]
  apply max_le <;> apply le_min <;> linarith

theorem part_nonneg (inn : List (ℚ × ℚ)) (hp : ∀ c ∈ inn, 0 < c.2) (a : Nat) (o : ℚ × ℚ) : 0 ≤ part inn a o := by
  unfold part
  split
  · exact le_refl _
  · rename_i c hc
    exact div_nonneg (le_max_left _ _) (hp c (List.mem_of_getElem? hc)).le

theorem part_zero {inn : List (ℚ × ℚ)} {a : Nat} (h : a < inn.length) (o : ℚ × ℚ) (hm : ¬ Meets inn a o) : part inn a o = 0 := by
  rw [part_get h]
  rw [meets_get h] at hm
  rw [max_eq_left, zero_div]
  by_cases h1 : lo (cell inn a) < hi o
  · have h2 : hi (cell inn a) < lo o := by
      by_contra hc
      exact hm ⟨h1, not_lt.mp hc⟩
    have := min_le_left (hi (cell inn a)) (hi o)
    have := le_max_right (lo (cell inn a)) (lo o)
    linarith
  · have := min_le_right (hi (cell inn a)) (hi o)
    have := le_max_left (lo (cell inn a)) (lo o)
    have := not_lt.mp h1
    linarith

theorem job_get (ks : List Nat) (m a : Nat) (j : Int × Int)
    (h : (((0 : Int) :: ks.map Int.ofNat).zip (ks.map Int.ofNat ++ [((m : Nat) : Int)]))[a]? = some j) :
    a < ks.length + 1 ∧ ∃ p q : Nat, j = ((p : Int), (q : Int)) ∧ ((a = 0 ∧ p = 0) ∨ (0 < a ∧ ks[a - 1]? = some p)) ∧
      ((a = ks.length ∧ q = m) ∨ (a < ks.length ∧ ks[a]? = some q)) := by
  rw [List.getElem?_zip_eq_some] at h
  obtain ⟨h1, h2⟩ := h
  have ha : a < ks.length + 1 := by
    by_contra hc
    rw [List.getElem?_eq_none (by simp; omega)] at h1
    cases h1
  refine ⟨ha, ?_⟩
  have hp : ∃ p : Nat, j.1 = (p : Int) ∧ ((a = 0 ∧ p = 0) ∨ (0 < a ∧ ks[a - 1]? = some p)) := by
    cases a with
    | zero =>
      simp only [List.getElem?_cons_zero, Option.some.injEq] at h1
      exact ⟨0, by simp [← h1], by simp⟩
    | succ a =>
      simp only [List.getElem?_cons_succ, List.getElem?_map, Option.map_eq_some_iff] at h1
      obtain ⟨k, hk, e⟩ := h1
      exact ⟨k, e.symm, by simp [hk]⟩
  have hq : ∃ q : Nat, j.2 = (q : Int) ∧ ((a = ks.length ∧ q = m) ∨ (a < ks.length ∧ ks[a]? = some q)) := by
    by_cases hl : a = ks.length
    · rw [List.getElem?_append_right (by simp [hl])] at h2
      simp only [List.length_map, hl, Nat.sub_self, List.getElem?_cons_zero, Option.some.injEq] at h2
      exact ⟨m, h2.symm, Or.inl ⟨hl, rfl⟩⟩
    · rw [List.getElem?_append_left (by simp; omega)] at h2
      simp only [List.getElem?_map, Option.map_eq_some_iff] at h2
      obtain ⟨k, hk, e⟩ := h2
      exact ⟨k, e.symm, Or.inr ⟨by omega, hk⟩⟩
  obtain ⟨p, e1, hp⟩ := hp
  obtain ⟨q, e2, hq⟩ := hq
  exact ⟨p, q, by rw [← e1, ← e2], hp, hq⟩

theorem graph_many {d : ℚ × ℚ} {inn out : List (ℚ × ℚ)} (hi' : Fills d inn) (ho : Fills d out) (h2 : 2 ≤ inn.length) :
    graph d inn out = .ok (out.map (edges inn)) := by
  classical
  have ti := hi'.ivs
  have tt := ho.ivs
  have hn := tt.pos
  have rget : ∀ a, a + 1 < inn.length → (inn.dropLast.map right)[a]? = some (hi (cell inn a)) := by
    intro a ha
    rw [List.getElem?_map, List.getElem?_dropLast, if_pos (by omega), cell_get (by omega)]
    simp [right_eq]
  obtain ⟨ks, hk, hkl, hks⟩ := search_spec ho (inn.dropLast.map right) (by
    intro x hx
    obtain ⟨a, ha⟩ := List.getElem?_of_mem hx
    have hal : a + 1 < inn.length := by
      by_contra hc
      rw [List.getElem?_eq_none (by simp; omega)] at ha
      cases ha
    rw [rget a hal] at ha
    cases ha
    have e1 := ti.startL (k := a) (by omega)
    have e2 := ti.lt a (by omega)
    have e3 := ti.nxt a hal
    have e4 := ti.lt (a + 1) hal
    have e5 := ti.endH hal
    try simp only at e1 e2 e3 e4 e5
    constructor <;> linarith)
  simp only [List.length_map, List.length_dropLast] at hkl
  have hkf : ∀ a k : Nat, ks[a]? = some k → a + 1 < inn.length ∧ k < out.length ∧ lo (cell out k) ≤ hi (cell inn a) ∧ hi (cell inn a) < hi (cell out k) := by
    intro a k h
    have hal : a + 1 < inn.length := by
      by_contra hc
      rw [List.getElem?_eq_none (by omega)] at h
      cases h
    exact ⟨hal, hks a k _ h (rget a hal)⟩
  unfold graph
  rw [if_pos (by omega), hk, Res.ok_bind]
  dsimp only
  have e0 : List.replicate out.length ([] : List (Nat × ℚ)) = tab out.length (fun _ => []) := by
    apply List.ext_getElem <;> simp [tab]
  rw [e0, show (out.length : Int) - 1 = ((out.length - 1 : Nat) : Int) by omega]
  rw [insertAll_tab inn out (fun a o => part inn a (cell out o)) (fun a o => decide (Meets inn a (cell out o)))]
  · congr 1
    apply List.ext_getElem?
    intro o
    by_cases hol : o < out.length
    · have : ((((0 : Int) :: ks.map Int.ofNat).zip (ks.map Int.ofNat ++ [((out.length - 1 : Nat) : Int)])).zipIdx.map Prod.snd) = List.range inn.length := by
        rw [List.zipIdx_map_snd, List.range_eq_range']
        congr 1
        simp
        omega
      rw [List.getElem?_map, cell_get hol]
      simp only [tab, List.getElem?_map, List.getElem?_range hol, this, List.nil_append, Option.map_some, edges]
    · simp [tab, hol]
  · rintro ⟨j, a⟩ hj
    rw [List.mem_zipIdx_iff_getElem?] at hj
    obtain ⟨hal, p, q, rfl, hp, hq⟩ := job_get _ _ _ _ hj
    have ha : a < inn.length := by omega
    have hpf : p < out.length ∧ lo (cell out p) ≤ lo (cell inn a) ∧ lo (cell inn a) < hi (cell out p) := by
      rcases hp with ⟨rfl, rfl⟩ | ⟨h0, hp⟩
      · have e1 := ti.fst
        have e2 := tt.fst
        have e3 := tt.lt 0 hn
        try simp only at e1 e2 e3
        exact ⟨hn, by linarith, by linarith⟩
      · obtain ⟨_, e1, e2, e3⟩ := hkf _ _ hp
        have e4 := ti.nxt (a - 1) (by omega)
        rw [show a - 1 + 1 = a by omega] at e4
        try simp only at e4
        rw [e4] at e2 e3
        exact ⟨e1, e2, e3⟩
    have hqf : q < out.length ∧ lo (cell out q) ≤ hi (cell inn a) ∧ hi (cell inn a) ≤ hi (cell out q) ∧
        (q + 1 < out.length → hi (cell inn a) < hi (cell out q)) := by
      rcases hq with ⟨h0, rfl⟩ | ⟨h0, hq⟩
      · have e1 := ti.lst
        have e2 := tt.lst
        have e3 := tt.lt (out.length - 1) (by omega)
        rw [show inn.length - 1 = a by omega] at e1
        try simp only at e1 e2 e3
        exact ⟨by omega, by linarith, by linarith, by omega⟩
      · obtain ⟨_, e1, e2, e3⟩ := hkf _ _ hq
        exact ⟨e1, e2, e3.le, fun _ => e3⟩
    obtain ⟨p1, p2, p3⟩ := hpf
    obtain ⟨q1, q2, q3, q4⟩ := hqf
    have hlt := ti.lt a ha
    try simp only at hlt
    have hpq : p ≤ q := by
      by_contra hc
      have := tt.before q p (by omega) p1
      try simp only at this
      linarith
    have touch : ∀ o, o < out.length → (Meets inn a (cell out o) ↔ p ≤ o ∧ o ≤ q) := by
      intro o hol
      rw [meets_get ha]
      constructor
      · rintro ⟨m1, m2⟩
        constructor
        · by_contra hc
          have := tt.before o p (by omega) p1
          try simp only at this
          linarith
        · by_contra hc
          have := tt.before q o (by omega) hol
          have := q4 (by omega)
          try simp only at *
          linarith
      · rintro ⟨m1, m2⟩
        have e1 := tt.monoH m1 hol
        have e2 := tt.monoL m2 q1
        try simp only at e1 e2
        constructor <;> linarith
    refine ⟨p, q, rfl, hpq, q1, ha, ?_, ?_, ?_⟩
    · intro e
      subst e
      exact part_one ha _ (hi'.size ha) p2 q3
    · intro o hol
      rw [decide_eq_true_iff]
      exact touch o hol
    · intro o o1 o2
      obtain ⟨m1, m2⟩ := (meets_get ha _).mp ((touch o (by omega)).mpr ⟨o1, o2⟩)
      exact part_comm ha _ (hi'.size ha) (tt.lt o (by omega)) m1 m2

/-- What is used of an axis: sums over the edges are multiples of sums over the cells. -/
structure Good (inn : List (ℚ × ℚ)) (o : ℚ × ℚ) (s : ℚ) (es : List (Nat × ℚ)) : Prop where
  pos : 0 < s
  sum : ∀ f : Nat → ℚ, (inn.length = 1 → f 1 = f 0) → (es.map (fun e => e.2 * f e.1)).sum = s * ∑ k ∈ Finset.range inn.length, part inn k o * f k
  ids : ∀ e ∈ es, e.1 < inn.length ∨ (inn.length = 1 ∧ e.1 = 1)

theorem sum_range (n : Nat) (f : Nat → ℚ) : ((List.range n).map f).sum = ∑ k ∈ Finset.range n, f k := by
  induction n with
  | zero => simp
  | succ n ih => rw [List.range_succ, Finset.sum_range_succ, List.map_append, List.sum_append, ih]; simp

theorem sum_filter (l : List Nat) (P : Nat → Bool) (f : Nat → ℚ) : ((l.filter P).map f).sum = (l.map (fun k => if P k = true then f k else 0)).sum := by
  induction l with
  | nil => rfl
  | cons a r ih =>
    by_cases h : P a = true
    · simp [h, ih]
    · simp [h, ih]

theorem good_edges (inn : List (ℚ × ℚ)) (o : ℚ × ℚ) : Good inn o 1 (edges inn o) := by
  classical
  refine ⟨by norm_num, ?_, ?_⟩
  · intro f _
    simp only [edges, List.map_map]
    rw [sum_filter, sum_range, one_mul]
    apply Finset.sum_congr rfl
    intro k hk
    rw [Finset.mem_range] at hk
    by_cases h : Meets inn k o
    · simp [h]
    · simp [h, part_zero hk o h]
  · intro e he
    simp only [edges, List.mem_map, List.mem_filter, List.mem_range] at he
    obtain ⟨a, ⟨ha, _⟩, rfl⟩ := he
    exact Or.inl ha

theorem graph_one {d : ℚ × ℚ} {c o : ℚ × ℚ} (hi' : Fills d [c]) (ho : Fills d [o]) :
    graph d [c] [o] = .ok [[(0, 1), (1, 1)]] ∧ Good [c] o 2 [(0, 1), (1, 1)] := by
  constructor
  · simp [graph, insertAll, insert, addEdge, List.zipIdx]
  · have ti := hi'.ivs
    have tt := ho.ivs
    have e1 := ti.fst
    have e2 := ti.lst
    have e3 := tt.fst
    have e4 := tt.lst
    simp [cell] at e1 e2 e3 e4
    have : part [c] 0 o = 1 := part_one (by simp) _ (by have := hi'.pos c (by simp); simpa [cell] using this) (by simp [cell]; linarith) (by simp [cell]; linarith)
    refine ⟨by norm_num, ?_, by simp⟩
    intro f hf
    have := hf rfl
    simp_all
    ring

/-- Both kinds of axes. -/
theorem graph_good {d : ℚ × ℚ} {inn out : List (ℚ × ℚ)} (hi' : Fills d inn) (ho : Fills d out)
    (h : 2 ≤ inn.length ∨ (inn.length = 1 ∧ out.length = 1)) :
    ∃ g, graph d inn out = .ok g ∧ g.length = out.length ∧
      ∀ (i : Nat) o, out[i]? = some o → ∃ es s, g[i]? = some es ∧ Good inn o s es := by
  rcases h with h | ⟨h1, h2⟩
  · refine ⟨_, graph_many hi' ho h, by simp, ?_⟩
    intro i o hio
    exact ⟨edges inn o, 1, by simp [hio], good_edges inn o⟩
  · obtain ⟨c, rfl⟩ := List.length_eq_one_iff.mp h1
    obtain ⟨o, rfl⟩ := List.length_eq_one_iff.mp h2
    obtain ⟨e, hg⟩ := graph_one hi' ho
    refine ⟨_, e, by simp, ?_⟩
    intro i o' hio
    have : i = 0 := by
      by_contra hc
      rw [List.getElem?_eq_none (by simp; omega)] at hio
      cases hio
    subst this
    simp only [List.getElem?_cons_zero, Option.some.injEq] at hio
    subst hio
    exact ⟨_, 2, rfl, hg⟩

theorem part_total_pos {d : ℚ × ℚ} {inn out : List (ℚ × ℚ)} (hi' : Fills d inn) (ho : Fills d out) {i : Nat} {o : ℚ × ℚ} (h : out[i]? = some o) :
    0 < ∑ k ∈ Finset.range inn.length, part inn k o := by
  have ti := hi'.ivs
  have tt := ho.ivs
  have hil : i < out.length := by
    by_contra hc
    rw [List.getElem?_eq_none (by omega)] at h
    cases h
  have e : cell out i = o := by simp [cell, h]
  have e1 := tt.startL hil
  have e2 := tt.lt i hil
  have e3 := tt.endH hil
  simp only [e] at e1 e2 e3
  obtain ⟨k, hk, k1, k2⟩ := ti.find (lo o) e1 (by linarith)
  apply Finset.sum_pos' (fun k _ => part_nonneg inn hi'.pos k o)
  refine ⟨k, Finset.mem_range.mpr hk, ?_⟩
  rw [part_get hk, max_eq_right k1]
  apply div_pos _ (hi'.size hk)
  apply lt_max_of_lt_right
  rw [sub_pos]
  exact lt_min k2 e2

/-! ### Values -/

namespace Holds
variable {b : List (List ℚ)} {n m : Nat} {B : Nat → Nat → ℚ} (h : Holds b n m B)
include h

theorem elem_eq {i j : Nat} (hi' : i < n) (hj : j < m) : elem b i j = B i j := by
  obtain ⟨r, h1, h2⟩ := h.vals i j hi' hj
  simp only [elem, h1, Option.bind_some, h2, Option.getD_some]

theorem row_one (hn : n = 1) (j : Nat) : elem b 1 j = elem b 0 j := by
  have : b.length = 1 := by rcases h.rows with e | e <;> omega
  simp only [elem, this, if_true]

theorem col_one (hm : m = 1) (i : Nat) : elem b i 1 = elem b i 0 := by
  obtain ⟨w, hw, hr⟩ := h.cols
  have : w = 1 := by rcases hw with e | e <;> omega
  simp only [elem]
  cases hb : b[if b.length = 1 then 0 else i]? with
  | none => simp
  | some r =>
    have := hr r (List.mem_of_getElem? hb)
    simp only [Option.bind_some]
    rw [if_pos (by omega), if_pos (by omega)]

theorem exists_elem {i j : Nat} (hi' : i < n ∨ (n = 1 ∧ i = 1)) (hj : j < m ∨ (m = 1 ∧ j = 1)) :
    ((b[if b.length = 1 then 0 else i]?).bind (fun r => r[if r.length = 1 then 0 else j]?)).isSome = true := by
  obtain ⟨w, hw, hr⟩ := h.cols
  obtain ⟨r, h1, h2⟩ := h.vals (if n = 1 then 0 else i) (if m = 1 then 0 else j) (by split <;> omega) (by split <;> omega)
  have e1 : (if b.length = 1 then 0 else if n = 1 then 0 else i) = if b.length = 1 then 0 else i := by
    rcases h.rows with e | e
    · rw [e]; split <;> simp
    · simp [e]
  rw [e1] at h1
  have hrl := hr r (List.mem_of_getElem? h1)
  have e2 : (if r.length = 1 then 0 else if m = 1 then 0 else j) = if r.length = 1 then 0 else j := by
    rcases hw with e | e
    · rw [hrl, e]; split <;> simp
    · simp [hrl, e]
  rw [e2] at h2
  simp only [h1, Option.bind_some, h2, Option.isSome_some]

omit h in
theorem width_ne {b : List (List ℚ)} (hc : ∀ r ∈ b, r.length ≠ 1) : width b ≠ 1 := by
  cases b with
  | nil => simp [width]
  | cons r t =>
    simp only [width, List.head?_cons, Option.map_some, Option.getD_some]
    exact hc r (List.mem_cons_self ..)

end Holds

theorem double_sum {ix iy : List (ℚ × ℚ)} {o p : ℚ × ℚ} {s t : ℚ} {xs ys : List (Nat × ℚ)} (hx : Good ix o s xs) (hy : Good iy p t ys)
    (f : Nat → Nat → ℚ) (h1 : ix.length = 1 → ∀ l, f 1 l = f 0 l) (h2 : iy.length = 1 → ∀ k, f k 1 = f k 0) :
    (xs.map (fun x => (ys.map (fun y => x.2 * y.2 * f x.1 y.1)).sum)).sum =
      s * t * total ix.length iy.length (fun k l => part ix k o * part iy l p * f k l) := by
  have e1 : ∀ x : Nat × ℚ, (ys.map (fun y => x.2 * y.2 * f x.1 y.1)).sum =
      x.2 * (fun k => t * ∑ l ∈ Finset.range iy.length, part iy l p * f k l) x.1 := by
    intro x
    have := hy.sum (fun l => f x.1 l) (fun h => h2 h x.1)
    try simp only at this
    simp only [← this, ← List.sum_map_mul_left]
    congr 1
    apply List.map_congr_left
    intro y _
    ring
  simp only [e1]
  rw [hx.sum (fun k => t * ∑ l ∈ Finset.range iy.length, part iy l p * f k l) (fun h => by simp only [h1 h])]
  simp only [total, Finset.mul_sum]
  apply Finset.sum_congr rfl
  intro k _
  apply Finset.sum_congr rfl
  intro l _
  ring

theorem total_congr {n m : Nat} {f g : Nat → Nat → ℚ} (h : ∀ k l, k < n → l < m → f k l = g k l) : total n m f = total n m g := by
  unfold total
  apply Finset.sum_congr rfl
  intro k hk
  apply Finset.sum_congr rfl
  intro l hl
  exact h k l (Finset.mem_range.mp hk) (Finset.mem_range.mp hl)

theorem total_mul (n m : Nat) (f g : Nat → ℚ) : total n m (fun k l => f k * g l) = (∑ k ∈ Finset.range n, f k) * ∑ l ∈ Finset.range m, g l := by
  simp only [total]
  rw [Finset.sum_mul_sum]

theorem value_good {ix iy : List (ℚ × ℚ)} {o p : ℚ × ℚ} {s t : ℚ} {xs ys : List (Nat × ℚ)} (hx : Good ix o s xs) (hy : Good iy p t ys)
    {b : List (List ℚ)} {B : Nat → Nat → ℚ} (h : Holds b ix.length iy.length B)
    (hpos : 0 < total ix.length iy.length (fun k l => part ix k o * part iy l p)) :
    value b xs ys * total ix.length iy.length (fun k l => part ix k o * part iy l p) =
      total ix.length iy.length (fun k l => part ix k o * part iy l p * B k l) := by
  have e1 := double_sum hx hy (fun _ _ => 1) (fun _ _ => rfl) (fun _ _ => rfl)
  have e2 := double_sum hx hy (elem b) (fun hn l => h.row_one hn l) (fun hm k => h.col_one hm k)
  simp only [mul_one] at e1
  have e3 : total ix.length iy.length (fun k l => part ix k o * part iy l p * elem b k l) =
      total ix.length iy.length (fun k l => part ix k o * part iy l p * B k l) :=
    total_congr (fun k l hk hl => by rw [h.elem_eq hk hl])
  have hst : 0 < s * t := mul_pos hx.pos hy.pos
  simp only [value, e1, e2, e3]
  rw [if_pos (mul_pos hst hpos).ne', mul_div_mul_left _ _ hst.ne', div_mul_cancel₀ _ hpos.ne']

theorem integrate_ok {dx dy : ℚ × ℚ} {ix iy ox oy : List (ℚ × ℚ)} (hix : Fills dx ix) (hiy : Fills dy iy) (hox : Fills dx ox) (hoy : Fills dy oy)
    (hne : ¬ (ox.length = ix.length ∧ oy.length = iy.length))
    (hx : 2 ≤ ix.length ∨ (ix.length = 1 ∧ ox.length = 1)) (hy : 2 ≤ iy.length ∨ (iy.length = 1 ∧ oy.length = 1))
    {b : List (List ℚ)} {B : Nat → Nat → ℚ} (h : Holds b ix.length iy.length B)
    (hc : b.length ≠ 1 ∨ ∀ r ∈ b, r.length ≠ 1) :
    ∃ a, integrate ix iy ⟨dx, ox⟩ ⟨dy, oy⟩ b = .ok a ∧ Means ix iy ox oy B a := by
  obtain ⟨gx, egx, lgx, hgx⟩ := graph_good hix hox hx
  obtain ⟨gy, egy, lgy, hgy⟩ := graph_good hiy hoy hy
  have mem : ∀ {out : List (ℚ × ℚ)} {g : List (List (Nat × ℚ))} {inn : List (ℚ × ℚ)}, g.length = out.length →
      (∀ (i : Nat) o, out[i]? = some o → ∃ es s, g[i]? = some es ∧ Good inn o s es) → ∀ es ∈ g, ∃ o s, Good inn o s es := by
    intro out g inn hl hg es hes
    obtain ⟨i, hi'⟩ := List.getElem?_of_mem hes
    have hil : i < out.length := by
      by_contra hc
      rw [List.getElem?_eq_none (by omega)] at hi'
      cases hi'
    obtain ⟨es', s, h1, h2⟩ := hg i _ (cell_get hil)
    rw [hi'] at h1
    cases h1
    exact ⟨_, _, h2⟩
  refine ⟨gx.map (fun xs => gy.map (fun ys => value b xs ys)), ?_, ⟨by simp [lgx], by simp [lgy]⟩, ?_⟩
  · unfold integrate
    rw [if_neg hne, egx, egy]
    simp only [Res.ok_bind]
    rw [if_neg (fun e => hc.elim (fun h1 => h1 e.1) (fun h2 => Holds.width_ne h2 e.2)), if_pos]
    rw [List.all_eq_true]
    intro xs hxs
    rw [List.all_eq_true]
    intro ys hys
    obtain ⟨_, _, gx'⟩ := mem lgx hgx xs hxs
    obtain ⟨_, _, gy'⟩ := mem lgy hgy ys hys
    unfold inside
    rw [List.all_eq_true]
    intro x hx'
    rw [List.all_eq_true]
    intro y hy'
    exact h.exists_elem (gx'.ids x hx') (gy'.ids y hy')
  · intro i j o p ho hp
    obtain ⟨xs, s, e1, g1⟩ := hgx i o ho
    obtain ⟨ys, t, e2, g2⟩ := hgy j p hp
    have hpos : 0 < total ix.length iy.length (fun k l => part ix k o * part iy l p) := by
      rw [total_mul]
      exact mul_pos (part_total_pos hix hox ho) (part_total_pos hiy hoy hp)
    exact ⟨value b xs ys, ⟨_, by simp [e1]; rfl, by simp [e2]⟩, hpos, value_good g1 g2 h hpos⟩

/-! ### Flags -/

theorem pair_sum (n m : Nat) (P : Nat → Bool) (Q : Nat → Bool) (w u : Nat → ℚ) (h : (Nat × ℚ) × (Nat × ℚ) → ℚ) :
    ((((((List.range n).filter P).map (fun k => (k, w k))).flatMap
      (fun x => (((List.range m).filter Q).map (fun l => (l, u l))).map (fun y => (x, y)))).map h).sum) =
      total n m (fun k l => if P k = true ∧ Q l = true then h ((k, w k), (l, u l)) else 0) := by
  have fm : ∀ (l : List (Nat × ℚ)) (g : Nat × ℚ → List ((Nat × ℚ) × (Nat × ℚ))), ((l.flatMap g).map h).sum = (l.map (fun x => ((g x).map h).sum)).sum := by
    intro l g
    induction l with
    | nil => rfl
    | cons a r ih => simp [ih]
  rw [fm, List.map_map, sum_filter, sum_range]
  unfold total
  apply Finset.sum_congr rfl
  intro k _
  by_cases hP : P k = true
  · simp only [hP, if_true, Function.comp, true_and, List.map_map]
    rw [sum_filter, sum_range]
    rfl
  · simp [hP]

theorem filter_sum {α : Type} (l : List α) (P : α → Bool) (h : α → ℚ) : ((l.filter P).map h).sum = (l.map (fun q => if P q = true then h q else 0)).sum := by
  induction l with
  | nil => rfl
  | cons a r ih =>
    by_cases hp : P a = true <;> simp [hp, ih]

theorem length_sum {α : Type} (l : List α) : (l.length : ℚ) = (l.map (fun _ => (1 : ℚ))).sum := by
  induction l with
  | nil => simp
  | cons a r ih =>
    rw [List.map_cons, List.sum_cons, ← ih, List.length_cons]
    push_cast
    ring

theorem foldl_or {α : Type} (l : List α) (f : α → Nat) (t : Nat) : ∀ m, (l.foldl (fun m q => m ||| f q) m).testBit t = true ↔ m.testBit t = true ∨ ∃ q ∈ l, (f q).testBit t = true := by
  induction l with
  | nil => intro m; simp
  | cons a r ih =>
    intro m
    rw [List.foldl_cons, ih]
    simp [Nat.testBit_or, or_assoc]

theorem flagAt_eq {f : List (List Nat)} {n m : Nat} {F : Nat → Nat → Nat} (h : HasFlags f n m F) {i j : Nat} (hi' : i < n) (hj : j < m) : flagAt f i j = F i j := by
  obtain ⟨r, h1, h2⟩ := h i j hi' hj
  simp [flagAt, h1, h2]

theorem total_zero {n m : Nat} {f : Nat → Nat → ℚ} (h0 : ∀ k l, k < n → l < m → 0 ≤ f k l) (h : total n m f = 0) : ∀ k l, k < n → l < m → f k l = 0 := by
  intro k l hk hl
  unfold total at h
  have h1 := (Finset.sum_eq_zero_iff_of_nonneg (fun k hk => Finset.sum_nonneg (fun l hl => h0 k l (Finset.mem_range.mp hk) (Finset.mem_range.mp hl)))).mp h
    k (Finset.mem_range.mpr hk)
  exact (Finset.sum_eq_zero_iff_of_nonneg (fun l hl => h0 k l hk (Finset.mem_range.mp hl))).mp h1 l (Finset.mem_range.mpr hl)

theorem total_nonneg {n m : Nat} {f : Nat → Nat → ℚ} (h0 : ∀ k l, k < n → l < m → 0 ≤ f k l) : 0 ≤ total n m f :=
  Finset.sum_nonneg (fun k hk => Finset.sum_nonneg (fun l hl => h0 k l (Finset.mem_range.mp hk) (Finset.mem_range.mp hl)))

theorem flagged_good (pol : Policy) {ix iy : List (ℚ × ℚ)} {o p : ℚ × ℚ} (hix : ∀ c ∈ ix, 0 < c.2) (hiy : ∀ c ∈ iy, 0 < c.2)
    {b : List (List ℚ)} {B : Nat → Nat → ℚ} (hB : ∀ k l, k < ix.length → l < iy.length → elem b k l = B k l)
    {f : List (List Nat)} {F : Nat → Nat → Nat} (hF : HasFlags f ix.length iy.length F) (hd : 0 ≤ pol.density) :
    FlaggedMean pol ix.length iy.length (fun k l => part ix k o * part iy l p) (fun k l => Meets ix k o ∧ Meets iy l p) B F
      (flagged pol b f (edges ix o) (edges iy p)).1 (flagged pol b f (edges ix o) (edges iy p)).2 := by
  classical
  have hall := fun h => pair_sum ix.length iy.length (fun a => decide (Meets ix a o)) (fun a => decide (Meets iy a p)) (fun a => part ix a o) (fun a => part iy a p) h
  simp only [decide_eq_true_eq] at hall
  have key : ∀ (P : (Nat × ℚ) × (Nat × ℚ) → Bool) (h : (Nat × ℚ) × (Nat × ℚ) → ℚ),
      ((((edges ix o).flatMap (fun x => (edges iy p).map (fun y => (x, y)))).filter P).map h).sum =
      total ix.length iy.length (fun k l => if Meets ix k o ∧ Meets iy l p then (if P ((k, part ix k o), (l, part iy l p)) = true then
        h ((k, part ix k o), (l, part iy l p)) else 0) else 0) := by
    intro P h
    rw [filter_sum]
    exact hall _
  have lens : ∀ (P : (Nat × ℚ) × (Nat × ℚ) → Bool),
      ((((edges ix o).flatMap (fun x => (edges iy p).map (fun y => (x, y)))).filter P).length : ℚ) =
      count ix.length iy.length (fun k l => (Meets ix k o ∧ Meets iy l p) ∧ P ((k, part ix k o), (l, part iy l p)) = true) := by
    intro P
    rw [length_sum, key]
    unfold count
    apply total_congr
    intro k l _ _
    by_cases h1 : Meets ix k o ∧ Meets iy l p <;> by_cases h2 : P ((k, part ix k o), (l, part iy l p)) = true <;> simp [h1, h2]
  have len : ((((edges ix o).flatMap (fun x => (edges iy p).map (fun y => (x, y))))).length : ℚ) = count ix.length iy.length (fun k l => Meets ix k o ∧ Meets iy l p) := by
    have := lens (fun _ => true)
    rw [List.filter_true] at this
    rw [this]
    simp
  have wz : ∀ k l, k < ix.length → l < iy.length → ¬ (Meets ix k o ∧ Meets iy l p) → part ix k o * part iy l p = 0 := by
    intro k l hk hl h
    by_cases h1 : Meets ix k o
    · rw [part_zero hl p (fun h2 => h ⟨h1, h2⟩), mul_zero]
    · rw [part_zero hk o h1, zero_mul]
  have wsum : ((((edges ix o).flatMap (fun x => (edges iy p).map (fun y => (x, y)))).filter
      (fun q => decide (flagAt f q.1.1 q.2.1 &&& pol.mask = 0))).map (fun q => q.1.2 * q.2.2)).sum =
      total ix.length iy.length (fun k l => if F k l &&& pol.mask = 0 then part ix k o * part iy l p else 0) := by
    rw [key]
    apply total_congr
    intro k l hk hl
    simp only [decide_eq_true_eq, flagAt_eq hF hk hl]
    by_cases h1 : Meets ix k o ∧ Meets iy l p
    · rw [if_pos h1]
    · rw [if_neg h1, wz k l hk hl h1]; simp
  have vsum : ((((edges ix o).flatMap (fun x => (edges iy p).map (fun y => (x, y)))).filter
      (fun q => decide (flagAt f q.1.1 q.2.1 &&& pol.mask = 0))).map (fun q => q.1.2 * q.2.2 * elem b q.1.1 q.2.1)).sum =
      total ix.length iy.length (fun k l => if F k l &&& pol.mask = 0 then part ix k o * part iy l p * B k l else 0) := by
    rw [key]
    apply total_congr
    intro k l hk hl
    simp only [decide_eq_true_eq, flagAt_eq hF hk hl, hB k l hk hl]
    by_cases h1 : Meets ix k o ∧ Meets iy l p
    · rw [if_pos h1]
    · rw [if_neg h1, wz k l hk hl h1]; simp
  have bads : ((((edges ix o).flatMap (fun x => (edges iy p).map (fun y => (x, y)))).filter
      (fun q => decide (flagAt f q.1.1 q.2.1 &&& pol.mask ≠ 0))).length : ℚ) =
      count ix.length iy.length (fun k l => (Meets ix k o ∧ Meets iy l p) ∧ F k l &&& pol.mask ≠ 0) := by
    rw [lens]
    unfold count
    apply total_congr
    intro k l hk hl
    simp only [decide_eq_true_eq, flagAt_eq hF hk hl]
    by_cases h : (Meets ix k o ∧ Meets iy l p) ∧ F k l &&& pol.mask ≠ 0
    · rw [if_pos h, if_pos h]
    · rw [if_neg h, if_neg h]
  have tz : total ix.length iy.length (fun _ _ => 0) = 0 := by simp [total]
  have wnn : ∀ k l, k < ix.length → l < iy.length → 0 ≤ (if F k l &&& pol.mask = 0 then part ix k o * part iy l p else 0) := by
    intro k l _ _
    split
    · exact mul_nonneg (part_nonneg ix hix k o) (part_nonneg iy hiy l p)
    · exact le_refl _
  have vz : total ix.length iy.length (fun k l => if F k l &&& pol.mask = 0 then part ix k o * part iy l p else 0) = 0 →
      total ix.length iy.length (fun k l => if F k l &&& pol.mask = 0 then part ix k o * part iy l p * B k l else 0) = 0 := by
    intro h
    have := total_zero wnn h
    refine (total_congr ?_).trans tz
    intro k l hk hl
    have := this k l hk hl
    split
    · rename_i hf
      rw [if_pos hf] at this
      rw [this, zero_mul]
    · rfl
  have cmp : (pol.density < count ix.length iy.length (fun k l => (Meets ix k o ∧ Meets iy l p) ∧ F k l &&& pol.mask ≠ 0) /
        count ix.length iy.length (fun k l => Meets ix k o ∧ Meets iy l p)) ↔
      pol.density * count ix.length iy.length (fun k l => Meets ix k o ∧ Meets iy l p) <
        count ix.length iy.length (fun k l => (Meets ix k o ∧ Meets iy l p) ∧ F k l &&& pol.mask ≠ 0) := by
    have h0 : 0 ≤ count ix.length iy.length (fun k l => Meets ix k o ∧ Meets iy l p) := total_nonneg (fun k l _ _ => by split <;> norm_num)
    rcases h0.eq_or_lt with h0 | h0
    · have hz : count ix.length iy.length (fun k l => (Meets ix k o ∧ Meets iy l p) ∧ F k l &&& pol.mask ≠ 0) ≤ 0 := by
        have h1 := total_zero (fun k l _ _ => by split <;> norm_num) h0.symm
        unfold count
        apply le_of_eq
        refine (total_congr ?_).trans tz
        intro k l hk hl
        have := h1 k l hk hl
        have hnm : ¬ (Meets ix k o ∧ Meets iy l p) := by
          intro hc
          rw [if_pos hc] at this
          norm_num at this
        rw [if_neg (fun hc => hnm hc.1)]
      rw [← h0, div_zero, mul_zero]
      constructor <;> intro _ <;> linarith
    · rw [lt_div_iff₀ h0]
  simp only [flagged, FlaggedMean, wsum, vsum, bads, len, cmp]
  refine ⟨?_, ?_, ?_, ?_⟩
  · split
    · rename_i h; field_simp
    · rename_i h
      rw [not_not] at h
      rw [h, vz h]; simp
  · intro h
    rw [if_neg (by simp [h]), vz h]
  · intro h
    rw [if_neg h]
  · intro h
    rw [if_pos h]
    refine ⟨fun hb => by rw [if_pos hb], ?_⟩
    intro hb t
    rw [if_neg (by simp [hb]), foldl_or]
    simp only [Nat.zero_testBit, Bool.false_eq_true, false_or, List.mem_filter, List.mem_flatMap, List.mem_map, edges, List.mem_range, decide_eq_true_eq]
    constructor
    · rintro ⟨q, ⟨⟨x, ⟨k, ⟨hk, mk⟩, rfl⟩, y, ⟨l, ⟨hl, ml⟩, rfl⟩, rfl⟩, _⟩, hq⟩
      simp only [flagAt_eq hF hk hl] at hq
      exact ⟨k, l, hk, hl, ⟨mk, ml⟩, hq⟩
    · rintro ⟨k, l, hk, hl, ⟨mk, ml⟩, hq⟩
      refine ⟨((k, part ix k o), (l, part iy l p)), ⟨⟨_, ⟨k, ⟨hk, mk⟩, rfl⟩, _, ⟨l, ⟨hl, ml⟩, rfl⟩, rfl⟩, ?_⟩, ?_⟩
      · simp only [flagAt_eq hF hk hl]
        intro hc
        rw [hc] at hq
        simp at hq
      · simp only [flagAt_eq hF hk hl]
        exact hq

theorem integrateF_ok (pol : Policy) {dx dy : ℚ × ℚ} {ix iy ox oy : List (ℚ × ℚ)} (hix : Fills dx ix) (hiy : Fills dy iy) (hox : Fills dx ox)
    (hoy : Fills dy oy) (hne : ¬ (ox.length = ix.length ∧ oy.length = iy.length)) (hx : 2 ≤ ix.length) (hy : 2 ≤ iy.length)
    {b : List (List ℚ)} {B : Nat → Nat → ℚ} (h : Holds b ix.length iy.length B) (hb : b.length ≠ 1) (hc : ∀ r ∈ b, r.length ≠ 1)
    {f : List (List Nat)} {F : Nat → Nat → Nat} (hF : HasFlags f ix.length iy.length F) (hd : 0 ≤ pol.density) :
    ∃ a, integrateF pol ix iy ⟨dx, ox⟩ ⟨dy, oy⟩ b f = .ok a ∧
      FlaggedMeans pol ix iy ox oy (fun o q k l => Meets ix k o ∧ Meets iy l q) B F a := by
  refine ⟨(ox.map (edges ix)).map (fun xs => (oy.map (edges iy)).map (fun ys => flagged pol b f xs ys)), ?_,
    ⟨by simp, by intro r hr; obtain ⟨_, _, rfl⟩ := List.mem_map.mp hr; simp⟩, ?_⟩
  · unfold integrateF
    rw [if_neg hne, if_neg (fun e => e.elim hb (Holds.width_ne hc)), graph_many hix hox hx, graph_many hiy hoy hy]
    simp only [Res.ok_bind]
    rw [if_pos]
    rw [List.all_eq_true]
    intro xs hxs
    rw [List.all_eq_true]
    intro ys hys
    obtain ⟨o, _, rfl⟩ := List.mem_map.mp hxs
    obtain ⟨p, _, rfl⟩ := List.mem_map.mp hys
    unfold inside
    rw [List.all_eq_true]
    intro x hx'
    rw [List.all_eq_true]
    intro y hy'
    exact h.exists_elem ((good_edges ix o).ids x hx') ((good_edges iy p).ids y hy')
  · intro i j o p ho hp
    refine ⟨_, _, ⟨_, by simp [ho]; rfl, by simp [hp]; rfl⟩, ?_⟩
    exact flagged_good pol hix.pos hiy.pos (fun k l hk hl => h.elem_eq hk hl) hF hd

theorem graph_split {d c : ℚ × ℚ} {out : List (ℚ × ℚ)} (h : 2 ≤ out.length) : graph d [c] out = .ub := by
  have e0 : List.replicate out.length ([] : List (Nat × ℚ)) = tab out.length (fun _ => []) := by
    apply List.ext_getElem <;> simp [tab]
  simp only [graph, List.length_cons, List.length_nil, zero_add, lt_irrefl, if_false, Res.ok_bind, e0]
  simp only [List.cons_append, List.nil_append, List.zip_cons_cons, List.zip_nil_right, List.zipIdx_cons, List.zipIdx_nil, insertAll]
  rw [show (0 : Int) = ((0 : Nat) : Int) from rfl]
  unfold insert
  rw [if_pos rfl, addEdge_tab _ _ _ _ _ (by omega)]
  simp only [Res.ok_bind]
  rw [if_neg (by omega)]
  simp

end Verif.Resample
