import Verif.Proof.Resolution
import Verif.Props.CellsCompare
/-! # Changing the resolution of cells (C43, C75) -/
namespace Verif.CellGrid

/-! ## C43 -/

/-- Integrating joins groups of `n` cells: each new cell reaches from the start of the first to the end of the last. -/
theorem C43_integrate (g : Grid) (hg : g.Wf) (n : Nat) (hn : 0 < n) (sg : List (Int × Int)) :
    startEnd ⟨(integrate g.x g.h n).1, (integrate g.x g.h n).2, sg⟩ = (List.range (g.x.length / n)).map fun k =>
      (((startEnd g).getD (k * n) (0, 0)).1, ((startEnd g).getD (k * n + n - 1) (0, 0)).2) :=
  integrate_startEnd g hg n hn sg

/-- Upsampling divides each cell into `n` equal ones. -/
theorem C43_upsample (g : Grid) (n : Nat) (sg : List (Int × Int)) :
    startEnd ⟨(upsample g.x g.h n).1, (upsample g.x g.h n).2, sg⟩ = (startEnd g).flatMap (parts n) :=
  upsample_startEnd g n sg

/-- Integrating by the factor one has upsampled by gives the grid back. -/
theorem C43_up_down (g : Grid) (hg : g.Wf) (n : Nat) (hn : 0 < n) :
    integrate (upsample g.x g.h n).1 (upsample g.x g.h n).2 n = (g.x, g.h) := by
  obtain ⟨hl, _⟩ := hg
  obtain ⟨l1, l2⟩ := upsample_length g.x g.h hl n
  obtain ⟨m1, m2⟩ := integrate_length (upsample g.x g.h n).1 (upsample g.x g.h n).2 n
  rw [l1, Nat.mul_div_cancel _ hn] at m1 m2
  have hnq : (n : ℚ) ≠ 0 := by exact_mod_cast (by omega : n ≠ 0)
  have key : ∀ k, k < g.x.length → (integrate (upsample g.x g.h n).1 (upsample g.x g.h n).2 n).1.getD k 0 = g.x.getD k 0 ∧
      (integrate (upsample g.x g.h n).1 (upsample g.x g.h n).2 n).2.getD k 0 = g.h.getD k 0 := by
    intro k hk
    obtain ⟨h1, h2⟩ := integrate_getD (upsample g.x g.h n).1 (upsample g.x g.h n).2 n k (by rw [l1, Nat.mul_div_cancel _ hn]; exact hk)
    rw [h1, h2]
    have a := upsample_getD g.x g.h hl n k 0 hk hn
    have b := upsample_getD g.x g.h hl n k (n - 1) hk (by omega)
    rw [Nat.add_zero] at a
    rw [show k * n + n - 1 = k * n + (n - 1) by omega, a.1, a.2, b.1, b.2]
    have e : ((n - 1 : Nat) : ℚ) = (n : ℚ) - 1 := by push_cast [Nat.cast_sub hn]; ring
    rw [e]
    constructor
    · field_simp; push_cast; ring
    · field_simp; push_cast; ring
  apply Prod.ext
  · exact list_ext_getD 0 m1 fun i hi => (key i (by omega)).1
  · exact list_ext_getD 0 (by rw [m2]; exact hl) fun i hi => (key i (by omega)).2

/-- A regular grid integrated and upsampled by the same factor, a divisor of its length, is the same again. -/
theorem C43_down_up (n m : Nat) (hn : 0 < n) (x0 s : ℚ) (g : Grid) (hx : g.x = (List.range (m * n)).map fun i : Nat => x0 + s * i)
    (hh : g.h = List.replicate (m * n) s) :
    upsample (integrate g.x g.h n).1 (integrate g.x g.h n).2 n = (g.x, g.h) := by
  have lx : g.x.length = m * n := by rw [hx]; simp
  have lh : g.h.length = m * n := by rw [hh]; simp
  obtain ⟨m1, m2⟩ := integrate_length g.x g.h n
  rw [lx, Nat.mul_div_cancel _ hn] at m1 m2
  obtain ⟨l1, l2⟩ := upsample_length (integrate g.x g.h n).1 (integrate g.x g.h n).2 (by omega) n
  rw [m1] at l1 l2
  have hnq : (n : ℚ) ≠ 0 := by exact_mod_cast (by omega : n ≠ 0)
  have gx : ∀ i, i < m * n → g.x.getD i 0 = x0 + s * i := by
    intro i hi
    rw [hx, getD_map _ _ _ 0 _ (by simpa using hi)]
    simp [List.getD_eq_getElem?_getD, List.getElem?_range hi]
  have gh : ∀ i, i < m * n → g.h.getD i 0 = s := by
    intro i hi
    rw [hh]
    simp [List.getD_eq_getElem?_getD, hi]
  have key : ∀ i, i < m * n → (upsample (integrate g.x g.h n).1 (integrate g.x g.h n).2 n).1.getD i 0 = g.x.getD i 0 ∧
      (upsample (integrate g.x g.h n).1 (integrate g.x g.h n).2 n).2.getD i 0 = g.h.getD i 0 := by
    intro i hi
    have hk : i / n < m := (Nat.div_lt_iff_lt_mul hn).2 hi
    have hj : i % n < n := Nat.mod_lt _ hn
    have hi' : i = i / n * n + i % n := by rw [Nat.mul_comm]; exact (Nat.div_add_mod i n).symm
    have a := upsample_getD (integrate g.x g.h n).1 (integrate g.x g.h n).2 (by omega) n (i / n) (i % n) (by omega) hj
    rw [← hi'] at a
    obtain ⟨h1, h2⟩ := integrate_getD g.x g.h n (i / n) (by rw [lx, Nat.mul_div_cancel _ hn]; exact hk)
    have hb : i / n * n + n ≤ m * n := by
      have := Nat.mul_le_mul_right n (show i / n + 1 ≤ m by omega)
      rw [Nat.succ_mul] at this
      exact this
    rw [a.1, a.2, h1, h2, gx _ (by omega), gx _ (by omega), gh _ (by omega), gh _ (by omega), gx i hi, gh i hi]
    have e : ((i / n * n + n - 1 : Nat) : ℚ) = ((i / n * n : Nat) : ℚ) + (n : ℚ) - 1 := by
      rw [Nat.cast_sub (by omega)]; push_cast; ring
    have e2 : (i : ℚ) = ((i / n * n : Nat) : ℚ) + ((i % n : Nat) : ℚ) := by rw [← Nat.cast_add, ← hi']
    rw [e, e2]
    generalize ((i / n * n : Nat) : ℚ) = u
    generalize ((i % n : Nat) : ℚ) = v
    constructor
    · field_simp; ring
    · field_simp; ring
  apply Prod.ext
  · exact list_ext_getD 0 (by rw [l1]; exact lx.symm) fun i hi => (key i (by omega)).1
  · exact list_ext_getD 0 (by rw [l2]; exact lh.symm) fun i hi => (key i (by omega)).2

/-- Every resampling that succeeds gives the number of cells asked for. -/
theorem C43_count (op : Op) (arg : Nat) (g : Grid) (hg : g.Wf) (g' : Option Grid) (h : resampleGrid op arg g = .ok g') :
    count g' = asked op arg g.x.length := by
  have hi := fun n => (integrate_length g.x g.h n).1
  have hu := fun n => (upsample_length g.x g.h hg.1 n).1
  have hpos : 0 < g.x.length := List.length_pos_iff.2 hg.2
  unfold resampleGrid at h
  cases op with
  | none => simp only at h; injection h with h; rw [← h]; rfl
  | integrate =>
    simp only at h
    split at h
    · cases h
    · injection h with h; rw [← h, count_mk, hi]; rfl
  | upsample => simp only at h; injection h with h; rw [← h, count_mk, hu]; rfl
  | setNCells =>
    simp only at h
    split at h
    · rename_i e; injection h with h; rw [← h, e]; rfl
    · split at h
      · split at h
        · cases h
        · rename_i e
          injection h with h
          rw [← h, count_mk, hu]
          exact Nat.mul_div_cancel' (Nat.dvd_of_mod_eq_zero (by omega))
      · split at h
        · cases h
        · rename_i h0
          split at h
          · cases h
          · rename_i e
            split at h
            · cases h
            · injection h with h
              rw [← h, count_mk, hi]
              have hd : arg ∣ g.x.length := Nat.dvd_of_mod_eq_zero (by omega)
              exact Nat.div_div_self hd (by omega)

/-- Asking for a number of cells fails exactly if neither number is a multiple of the other. -/
theorem C43_fails (arg : Nat) (g : Grid) (hg : g.Wf) (h0 : 0 < arg) :
    (resampleGrid .setNCells arg g = .err ↔ ¬ arg ∣ g.x.length ∧ ¬ g.x.length ∣ arg) ∧ resampleGrid .setNCells arg g ≠ .ub := by
  have hpos : 0 < g.x.length := List.length_pos_iff.2 hg.2
  unfold resampleGrid
  simp only
  generalize g.x.length = np at hpos ⊢
  by_cases h1 : arg = np
  · rw [if_pos h1]
    exact ⟨⟨(fun h => by cases h), fun h => absurd (by rw [h1]) h.1⟩, by simp⟩
  · rw [if_neg h1]
    by_cases h2 : np < arg
    · rw [if_pos h2]
      by_cases h3 : arg % np ≠ 0
      · rw [if_pos h3]
        refine ⟨⟨fun _ => ⟨fun hd => ?_, fun hd => h3 (Nat.mod_eq_zero_of_dvd hd)⟩, fun _ => rfl⟩, by simp⟩
        have := Nat.le_of_dvd hpos hd
        omega
      · rw [if_neg h3]
        exact ⟨⟨(fun h => by cases h), fun h => absurd (Nat.dvd_of_mod_eq_zero (by omega)) h.2⟩, by simp⟩
    · rw [if_neg h2, if_neg (show ¬ arg = 0 by omega)]
      by_cases h3 : np % arg ≠ 0
      · rw [if_pos h3]
        refine ⟨⟨fun _ => ⟨fun hd => h3 (Nat.mod_eq_zero_of_dvd hd), fun hd => ?_⟩, fun _ => rfl⟩, by simp⟩
        have := Nat.le_of_dvd h0 hd
        omega
      · rw [if_neg h3, if_neg (show ¬ np / arg = 0 from by
          have := Nat.div_pos (show arg ≤ np by omega) h0
          omega)]
        exact ⟨⟨(fun h => by cases h), fun h => absurd (Nat.dvd_of_mod_eq_zero (by omega)) h.1⟩, by simp⟩

/-- Resampling cells without gaps gives cells without gaps that cover the same interval. -/
def C43_full : Prop := ∀ (op : Op) (arg : Nat) (g g' : Grid), g.Wf → Contiguous (startEnd g) →
  resampleGrid op arg g = .ok (some g') → Contiguous (startEnd g') ∧ extent (startEnd g') = extent (startEnd g)

/-- It does, if an integration is by a divisor of the number of cells. -/
theorem C43_cover_partial (op : Op) (arg : Nat) (g g' : Grid) (hg : g.Wf) (hc : Contiguous (startEnd g))
    (hd : op = .integrate → arg ∣ g.x.length) (h : resampleGrid op arg g = .ok (some g')) :
    Contiguous (startEnd g') ∧ extent (startEnd g') = extent (startEnd g) := by
  have hi : ∀ n, 0 < n → n ∣ g.x.length → mkGrid (integrate g.x g.h n).1 (integrate g.x g.h n).2
      (segments (integrate g.x g.h n).1 (integrate g.x g.h n).2) = some g' →
      Contiguous (startEnd g') ∧ extent (startEnd g') = extent (startEnd g) := by
    intro n hn hdv he
    obtain ⟨e, _⟩ := mk_some he
    subst e
    obtain ⟨a, b⟩ := integrate_cover g hg hc n hn (segments (integrate g.x g.h n).1 (integrate g.x g.h n).2)
    exact ⟨a, b hdv⟩
  have hu : ∀ n, mkGrid (upsample g.x g.h n).1 (upsample g.x g.h n).2
      (segments (upsample g.x g.h n).1 (upsample g.x g.h n).2) = some g' →
      Contiguous (startEnd g') ∧ extent (startEnd g') = extent (startEnd g) := by
    intro n he
    obtain ⟨e, h0⟩ := mk_some he
    subst e
    rw [(upsample_length g.x g.h hg.1 n).1] at h0
    exact upsample_cover g hg hc n (Nat.pos_of_ne_zero fun h => h0 (by rw [h, Nat.mul_zero])) _
  unfold resampleGrid at h
  cases op with
  | none => simp only at h; injection h with h; injection h with h; rw [← h]; exact ⟨hc, rfl⟩
  | integrate =>
    simp only at h
    split at h
    · cases h
    · rename_i h0
      injection h with h
      exact hi arg (by omega) (hd rfl) h
  | upsample => simp only at h; injection h with h; exact hu arg h
  | setNCells =>
    simp only at h
    split at h
    · injection h with h; injection h with h; rw [← h]; exact ⟨hc, rfl⟩
    · split at h
      · split at h
        · cases h
        · injection h with h; exact hu _ h
      · split at h
        · cases h
        · split at h
          · cases h
          · rename_i e
            split at h
            · cases h
            · rename_i h0
              injection h with h
              exact hi _ (Nat.pos_of_ne_zero h0) (Nat.div_dvd_of_dvd (Nat.dvd_of_mod_eq_zero (by omega))) h

/-- Otherwise the cells left over at the end are dropped. -/
theorem C43_refuted : ¬ C43_full := by
  intro h
  have h1 := (h .integrate 2 ⟨[1, 2, 3], [1, 1, 1], []⟩ ⟨[3 / 2], [2], [(0, 0)]⟩ (by constructor <;> decide) (by
    rw [contiguous_iff]
    intro i hi
    have : i = 0 ∨ i = 1 := by simp [startEnd] at hi; omega
    rcases this with rfl | rfl <;> (simp [startEnd]; norm_num)) (by decide +kernel)).2
  revert h1
  decide +kernel

example : resampleGrid .setNCells 6 ⟨[1, 3, 5], [2, 2, 2], [(0, 2)]⟩ =
    .ok (some ⟨[1 / 2, 3 / 2, 5 / 2, 7 / 2, 9 / 2, 11 / 2], [1, 1, 1, 1, 1, 1], [(0, 5)]⟩) := by decide +kernel

/-! ## All axes -/

/-- Resampling all axes: each is resampled on its own, and the domain is kept. -/
theorem C43_axes (c : Cells) (hc : c.Wf) (ops : Nat → Op) (args : Nat → Nat) (res : Nat → Option Grid)
    (h0 : ∀ i, c.axis i = none → res i = none) (h1 : ∀ i g, c.axis i = some g → resampleGrid (ops i) (args i) g = .ok (res i)) :
    ∃ c', resample c ops args = .ok c' ∧ c'.dom = c.dom ∧ c'.rank = maxAxis ∧ ∀ i, c'.axis i = res i := by
  obtain ⟨d, hd, _, hr, _, _⟩ := hc
  obtain ⟨l, e, hl, hg⟩ := resample_loop c ops args res h0 h1 maxAxis
  refine ⟨⟨some d, l⟩, ?_, hd.symm, by rw [Cells.rank, hl]; omega, fun i => ?_⟩
  · unfold resample
    rw [hd]
    exact (congrArg (fun r => Res.bind r fun l => Res.ok (⟨some d, l⟩ : Cells)) e).trans rfl
  · show l.getD i none = _
    rw [hg]
    by_cases hi : i < maxAxis
    · rw [if_pos hi]
    · rw [if_neg hi, h0 i (axis_rank c i (by omega))]

/-! ## C76 -/

/-- A regular grid divides its range into equal cells, and leaves other axes alone. -/
theorem C76_regular (c : Cells) (i : Nat) (x0 x1 : ℚ) (num : Nat) (size : ℚ) (hi : i < maxAxis) (hn : 0 < num) (hs : size < 0) :
    ∃ c' g, setRegular c i x0 x1 num size = .ok c' ∧ c'.dom = c.dom ∧ c'.axis i = some g ∧ g.Wf ∧ (∀ j, j ≠ i → c'.axis j = c.axis j) ∧
      startEnd g = parts num (x0, x1) ∧ Contiguous (startEnd g) ∧ extent (startEnd g) = (x0, x1) := by
  have hnq : (num : ℚ) ≠ 0 := by exact_mod_cast (by omega : num ≠ 0)
  have key : startEnd ⟨(List.range num).map fun k : Nat => x0 + (x1 - x0) / num / 2 + (x1 - x0) / num * k,
      List.replicate num ((x1 - x0) / num), [(0, (num : Int) - 1)]⟩ = parts num (x0, x1) := by
    have e : List.replicate num ((x1 - x0) / num : ℚ) = (List.range num).map fun _ : Nat => (x1 - x0) / num := by
      apply List.ext_getElem (by simp)
      intro k h1 h2
      simp
    rw [e]
    unfold startEnd parts
    simp only
    rw [List.zipWith_map, List.zipWith_self]
    apply List.map_congr_left
    intro j _
    simp only [Prod.mk.injEq]
    constructor <;> ring
  have hcover := upsample_cover ⟨[(x0 + x1) / 2], [x1 - x0], []⟩ ⟨rfl, by simp⟩ (by simp [Contiguous, startEnd]) num hn []
  rw [upsample_startEnd] at hcover
  have e1 : startEnd ⟨[(x0 + x1) / 2], [x1 - x0], []⟩ = [(x0, x1)] := by
    simp only [startEnd, List.zipWith_cons_cons, List.zipWith_nil_right, List.cons.injEq, Prod.mk.injEq, and_true]
    constructor <;> ring
  rw [e1] at hcover
  simp only [List.flatMap_cons, List.flatMap_nil, List.append_nil] at hcover
  refine ⟨{ c with axes := setAxis c.axes i (some ⟨(List.range num).map fun k : Nat => x0 + (x1 - x0) / num / 2 + (x1 - x0) / num * k,
      List.replicate num ((x1 - x0) / num), [(0, (num : Int) - 1)]⟩) }, ⟨(List.range num).map fun k : Nat => x0 + (x1 - x0) / num / 2 + (x1 - x0) / num * k,
      List.replicate num ((x1 - x0) / num), [(0, (num : Int) - 1)]⟩, ?_, ?_, ?_, ?_, ?_, key, by rw [key]; exact hcover.1,
      by rw [key]; exact hcover.2⟩
  · unfold setRegular
    rw [if_neg (by omega)]
    simp only
    rw [if_pos hs, mkGrid, if_neg (by simp; omega)]
  · rfl
  · show (setAxis _ _ _).getD _ _ = _
    rw [setAxis_getD, if_pos rfl]
  · exact ⟨by simp, by simp; omega⟩
  · intro j hj
    show (setAxis _ _ _).getD _ _ = _
    rw [setAxis_getD, if_neg hj]
    rfl

example : ∃ c', setRegular ⟨none, []⟩ 1 0 3 2 (-1) = .ok c' ∧ xh c' 1 = some ([3 / 4, 9 / 4], [3 / 2, 3 / 2]) := by
  refine ⟨_, rfl, ?_⟩
  decide +kernel

/-! ## C75 -/

/-- Resampling by no operation gives cells equal to the original. -/
def C75_full : Prop := ∀ (c : Cells) (args : Nat → Nat), c.Wf → ∃ c', resample c (fun _ => .none) args = .ok c' ∧ Cells.eq c' c = .ok true

/-- It keeps domain and cells, but the result is equal only to cells that have all the axes there can be. -/
theorem C75_noop_partial (c : Cells) (args : Nat → Nat) (hc : c.Wf) : ∃ c', resample c (fun _ => .none) args = .ok c' ∧
    c'.dom = c.dom ∧ (∀ i, c'.axis i = c.axis i) ∧ (Cells.eq c' c = .ok true ↔ c.rank = maxAxis) := by
  obtain ⟨c', e, hd, hr, hx⟩ := C43_axes c hc (fun _ => .none) args c.axis (fun _ h => h) (fun i g h => by rw [h]; rfl)
  refine ⟨c', e, hd, hx, ?_⟩
  have hc' : c'.Wf := by
    obtain ⟨d, h1, h2, h3, h4, h5⟩ := hc
    exact ⟨d, by rw [hd]; exact h1, h2, by rw [hr], fun i => by rw [hx]; exact h4 i, fun i g h => h5 i g (by rw [← hx]; exact h)⟩
  obtain ⟨p, q⟩ := C44_eq_partial c' c hc' hc
  constructor
  · intro h
    by_contra hn
    rw [q fun hs => hn (by rw [← hr]; exact hs.2.1.symm)] at h
    cases h
  · intro h
    exact p ⟨by rw [hd], by rw [hr, h], fun i => by rw [hx]⟩

theorem C75_refuted : ¬ C75_full := by
  intro h
  have hw := oneCells_wf 0 2 (by norm_num) ⟨[1], [2], []⟩ ⟨rfl, by simp⟩
  obtain ⟨c', e, h1⟩ := h _ (fun _ => 0) hw
  obtain ⟨c'', e', _, _, h2⟩ := C75_noop_partial _ (fun _ => 0) hw
  rw [e] at e'
  injection e' with e'
  rw [← e'] at h2
  have h3 := h2.1 h1
  revert h3
  decide

end Verif.CellGrid
