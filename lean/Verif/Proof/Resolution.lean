import Verif.Proof.Cells
import Verif.Proof.CellsCompare
import Mathlib.Tactic.FieldSimp
/-! # Lemmas: changing the resolution of cells (C43, C75) -/
namespace Verif.CellGrid

theorem getD_map {α β} (f : α → β) (l : List α) (i : Nat) (d : α) (d' : β) (h : i < l.length) :
    (l.map f).getD i d' = f (l.getD i d) := by
  simp [List.getD_eq_getElem?_getD, List.getElem?_eq_getElem h]

theorem list_ext_getD {α} {l l' : List α} (d : α) (hl : l.length = l'.length) (h : ∀ i, i < l.length → l.getD i d = l'.getD i d) : l = l' := by
  apply List.ext_getElem hl
  intro i h1 h2
  have := h i h1
  simpa [List.getD_eq_getElem?_getD, List.getElem?_eq_getElem h1, List.getElem?_eq_getElem h2] using this

theorem flatMap_length {α β} (f : α → List β) (m : Nat) (hf : ∀ a, (f a).length = m) (l : List α) : (l.flatMap f).length = l.length * m := by
  induction l with
  | nil => simp
  | cons a l ih => rw [List.flatMap_cons, List.length_append, ih, hf, List.length_cons]; ring

theorem flatMap_getD {α β} (f : α → List β) (m : Nat) (hf : ∀ a, (f a).length = m) (d : α) (d' : β) (l : List α) :
    ∀ k j, k < l.length → j < m → (l.flatMap f).getD (k * m + j) d' = (f (l.getD k d)).getD j d' := by
  induction l with
  | nil => intro k j h; cases h
  | cons a l ih =>
    intro k j hk hj
    rw [List.flatMap_cons]
    cases k with
    | zero =>
      rw [List.getD_eq_getElem?_getD, List.getElem?_append_left (by rw [hf]; omega)]
      simp
    | succ k =>
      rw [List.getD_eq_getElem?_getD, List.getElem?_append_right (by rw [hf, Nat.succ_mul]; omega), ← List.getD_eq_getElem?_getD, hf,
        show (k + 1) * m + j - m = k * m + j by rw [Nat.succ_mul]; omega, ih k j (by simpa using hk) hj]
      rfl

theorem subcells_eq (sz : ℚ) (n : Nat) : ∀ x1, subcells sz n x1 = (List.range n).map fun j : Nat => x1 + sz * j := by
  induction n with
  | zero => intro x1; rfl
  | succ n ih =>
    intro x1
    rw [subcells, ih, List.range_succ_eq_map]
    simp only [List.map_cons, List.map_map, Nat.cast_zero, mul_zero, add_zero, List.cons.injEq, true_and]
    apply List.map_congr_left
    intro j _
    simp only [Function.comp_def]
    push_cast
    ring

theorem startEnd_pairs (l : List (ℚ × ℚ)) (sg : List (Int × Int)) :
    startEnd ⟨l.map (·.1), l.map (·.2), sg⟩ = l.map fun p => (p.1 - p.2 / 2, p.1 + p.2 / 2) := by
  unfold startEnd
  simp only
  rw [List.zipWith_map, List.zipWith_self]

theorem startEnd_zip (g : Grid) : startEnd g = (g.x.zip g.h).map fun p => (p.1 - p.2 / 2, p.1 + p.2 / 2) := by
  unfold startEnd
  rw [List.zip, List.map_zipWith]

theorem startEnd_length (g : Grid) (hg : g.Wf) : (startEnd g).length = g.x.length := by
  unfold startEnd
  rw [List.length_zipWith, ← hg.1, Nat.min_self]

theorem startEnd_getD (g : Grid) (hg : g.Wf) (i : Nat) (hi : i < g.x.length) :
    (startEnd g).getD i (0, 0) = (g.x.getD i 0 - g.h.getD i 0 / 2, g.x.getD i 0 + g.h.getD i 0 / 2) := by
  have hh : i < g.h.length := by rw [← hg.1]; exact hi
  unfold startEnd
  rw [List.getD_eq_getElem?_getD, List.getElem?_eq_getElem (by rw [List.length_zipWith]; omega)]
  simp [List.getD_eq_getElem?_getD, List.getElem?_eq_getElem hi, List.getElem?_eq_getElem hh]

theorem integrate_startEnd (g : Grid) (hg : g.Wf) (n : Nat) (hn : 0 < n) (sg : List (Int × Int)) :
    startEnd ⟨(integrate g.x g.h n).1, (integrate g.x g.h n).2, sg⟩ = (List.range (g.x.length / n)).map fun k =>
      (((startEnd g).getD (k * n) (0, 0)).1, ((startEnd g).getD (k * n + n - 1) (0, 0)).2) := by
  unfold integrate
  simp only
  rw [startEnd_pairs, List.map_map]
  apply List.map_congr_left
  intro k hk
  rw [List.mem_range] at hk
  have h1 : k * n + n ≤ g.x.length := by
    have : (k + 1) * n ≤ g.x.length / n * n := Nat.mul_le_mul_right _ hk
    have h2 := Nat.div_mul_le_self g.x.length n
    rw [Nat.succ_mul] at this
    omega
  rw [startEnd_getD g hg _ (by omega), startEnd_getD g hg _ (by omega)]
  simp only [Function.comp_def, Prod.mk.injEq]
  constructor <;> ring

theorem upsample_startEnd (g : Grid) (n : Nat) (sg : List (Int × Int)) :
    startEnd ⟨(upsample g.x g.h n).1, (upsample g.x g.h n).2, sg⟩ = (startEnd g).flatMap (parts n) := by
  unfold upsample
  simp only
  rw [startEnd_pairs, startEnd_zip, List.map_flatMap, List.flatMap_map]
  congr 1
  funext p
  rw [subcells_eq, List.map_map, List.map_map]
  unfold parts
  apply List.map_congr_left
  intro j _
  simp only [Function.comp_def, Prod.mk.injEq]
  constructor <;> ring

theorem upsample_getD (x h : List ℚ) (hl : x.length = h.length) (n k j : Nat) (hk : k < x.length) (hj : j < n) :
    (upsample x h n).1.getD (k * n + j) 0 = x.getD k 0 - h.getD k 0 / 2 + h.getD k 0 / n / 2 + h.getD k 0 / n * j ∧
    (upsample x h n).2.getD (k * n + j) 0 = h.getD k 0 / n := by
  have hz : k < (x.zip h).length := by simp; omega
  have hpair : (x.zip h).getD k (0, 0) = (x.getD k 0, h.getD k 0) := by
    rw [List.getD_eq_getElem?_getD, List.getElem?_eq_getElem hz]
    simp [List.getD_eq_getElem?_getD, List.getElem?_eq_getElem hk, List.getElem?_eq_getElem (show k < h.length by omega)]
  have hsub : ∀ (sz : ℚ) (x1 : ℚ), (subcells sz n x1).length = n := by intro sz x1; rw [subcells_eq]; simp
  unfold upsample
  simp only
  rw [List.map_flatMap, List.map_flatMap, flatMap_getD _ n (by simp [hsub]) (0, 0) 0 _ k j hz hj,
    flatMap_getD _ n (by simp [hsub]) (0, 0) 0 _ k j hz hj, hpair]
  simp only [List.map_map, subcells_eq]
  rw [getD_map _ _ _ 0 _ (by simpa using hj), getD_map _ _ _ 0 _ (by simpa using hj)]
  have e : (List.range n).getD j 0 = j := by simp [List.getD_eq_getElem?_getD, List.getElem?_range hj]
  rw [e]
  simp only [Function.comp_def]
  constructor <;> ring

theorem upsample_length (x h : List ℚ) (hl : x.length = h.length) (n : Nat) :
    (upsample x h n).1.length = x.length * n ∧ (upsample x h n).2.length = x.length * n := by
  have hsub : ∀ (sz : ℚ) (x1 : ℚ), (subcells sz n x1).length = n := by intro sz x1; rw [subcells_eq]; simp
  unfold upsample
  simp only [List.length_map]
  rw [flatMap_length _ n (by simp [hsub])]
  simp [← hl]

theorem integrate_length (x h : List ℚ) (n : Nat) : (integrate x h n).1.length = x.length / n ∧ (integrate x h n).2.length = x.length / n := by
  simp [integrate]

theorem integrate_getD (x h : List ℚ) (n k : Nat) (hk : k < x.length / n) :
    (integrate x h n).1.getD k 0 = ((x.getD (k * n) 0 - h.getD (k * n) 0 / 2) + (x.getD (k * n + n - 1) 0 + h.getD (k * n + n - 1) 0 / 2)) / 2 ∧
    (integrate x h n).2.getD k 0 = (x.getD (k * n + n - 1) 0 + h.getD (k * n + n - 1) 0 / 2) - (x.getD (k * n) 0 - h.getD (k * n) 0 / 2) := by
  unfold integrate
  simp only [List.map_map]
  rw [getD_map _ _ _ 0 _ (by simpa using hk), getD_map _ _ _ 0 _ (by simpa using hk)]
  have e : (List.range (x.length / n)).getD k 0 = k := by simp [List.getD_eq_getElem?_getD, List.getElem?_range hk]
  rw [e]
  exact ⟨rfl, rfl⟩

theorem count_mk (x h : List ℚ) (sg : List (Int × Int)) : count (mkGrid x h sg) = x.length := by
  unfold mkGrid
  split
  · rename_i h'; simp [count, h']
  · rfl

theorem integ_eq (g : Grid) (n : Nat) (hn : 0 < n) : (if n = 0 then Res.ub
    else (let r := integrate g.x g.h n; .ok (mkGrid r.1 r.2 (segments r.1 r.2)) : Res (Option Grid))) =
    .ok (mkGrid (integrate g.x g.h n).1 (integrate g.x g.h n).2 (segments (integrate g.x g.h n).1 (integrate g.x g.h n).2)) := by
  rw [if_neg (by omega)]

theorem getLastD_eq {α} (l : List α) (d : α) : l.getLastD d = l.getD (l.length - 1) d := by
  rw [List.getLastD_eq_getLast?, List.getLast?_eq_getElem?, List.getD_eq_getElem?_getD]

theorem headD_eq {α} (l : List α) (d : α) : l.headD d = l.getD 0 d := by
  cases l <;> rfl

theorem contiguous_iff (l : List (ℚ × ℚ)) : Contiguous l ↔ ∀ i, i + 1 < l.length → (l.getD i (0, 0)).2 = (l.getD (i + 1) (0, 0)).1 := by
  unfold Contiguous
  rw [List.isChain_iff_getElem]
  constructor
  · intro h i hi
    have := h i hi
    simpa [List.getD_eq_getElem?_getD, List.getElem?_eq_getElem hi, List.getElem?_eq_getElem (show i < l.length by omega)] using this
  · intro h i hi
    have := h i hi
    simpa [List.getD_eq_getElem?_getD, List.getElem?_eq_getElem hi, List.getElem?_eq_getElem (show i < l.length by omega)] using this

theorem integrate_cover (g : Grid) (hg : g.Wf) (hc : Contiguous (startEnd g)) (n : Nat) (hn : 0 < n) (sg : List (Int × Int)) :
    Contiguous (startEnd ⟨(integrate g.x g.h n).1, (integrate g.x g.h n).2, sg⟩) ∧
    (n ∣ g.x.length → extent (startEnd ⟨(integrate g.x g.h n).1, (integrate g.x g.h n).2, sg⟩) = extent (startEnd g)) := by
  rw [integrate_startEnd g hg n hn sg]
  rw [contiguous_iff] at hc
  rw [startEnd_length g hg] at hc
  have hget : ∀ k, k < g.x.length / n → ((List.range (g.x.length / n)).map fun k =>
      (((startEnd g).getD (k * n) (0, 0)).1, ((startEnd g).getD (k * n + n - 1) (0, 0)).2)).getD k (0, 0) =
      (((startEnd g).getD (k * n) (0, 0)).1, ((startEnd g).getD (k * n + n - 1) (0, 0)).2) := by
    intro k hk
    rw [getD_map _ _ _ 0 _ (by simpa using hk)]
    have e : (List.range (g.x.length / n)).getD k 0 = k := by simp [List.getD_eq_getElem?_getD, List.getElem?_range hk]
    rw [e]
  constructor
  · rw [contiguous_iff]
    intro i hi
    simp only [List.length_map, List.length_range] at hi
    rw [hget i (by omega), hget (i + 1) hi]
    simp only
    have hb : (i + 1) * n + n ≤ g.x.length := by
      have := Nat.mul_le_mul_right n hi
      have h2 := Nat.div_mul_le_self g.x.length n
      rw [Nat.succ_mul] at this
      omega
    have := hc (i * n + n - 1) (by rw [Nat.succ_mul] at hb; omega)
    rw [this]
    congr 3
    rw [Nat.succ_mul]
    omega
  · rintro ⟨m, hm⟩
    have hpos : 0 < g.x.length := List.length_pos_iff.2 hg.2
    have hm0 : 0 < m := by
      rcases Nat.eq_zero_or_pos m with h | h
      · rw [h] at hm; omega
      · exact h
    unfold extent
    rw [headD_eq, headD_eq, getLastD_eq, getLastD_eq]
    have hdiv : g.x.length / n = m := by rw [hm, Nat.mul_div_cancel_left _ hn]
    rw [hget 0 (by omega), List.length_map, List.length_range, hget (g.x.length / n - 1) (by omega), startEnd_length g hg, hdiv]
    simp only [Nat.zero_mul]
    congr 3
    rw [hm]
    have : (m - 1) * n + n = n * m := by
      rw [← Nat.succ_mul, Nat.succ_eq_add_one, Nat.sub_add_cancel hm0, Nat.mul_comm]
    omega

theorem parts_length (n : Nat) (p : ℚ × ℚ) : (parts n p).length = n := by simp [parts]

theorem parts_getD (n : Nat) (p : ℚ × ℚ) (j : Nat) (hj : j < n) :
    (parts n p).getD j (0, 0) = (p.1 + (p.2 - p.1) / n * j, p.1 + (p.2 - p.1) / n * (j + 1)) := by
  unfold parts
  rw [getD_map _ _ _ 0 _ (by simpa using hj)]
  have e : (List.range n).getD j 0 = j := by simp [List.getD_eq_getElem?_getD, List.getElem?_range hj]
  rw [e]

theorem upsample_cover (g : Grid) (hg : g.Wf) (hc : Contiguous (startEnd g)) (n : Nat) (hn : 0 < n) (sg : List (Int × Int)) :
    Contiguous (startEnd ⟨(upsample g.x g.h n).1, (upsample g.x g.h n).2, sg⟩) ∧
    extent (startEnd ⟨(upsample g.x g.h n).1, (upsample g.x g.h n).2, sg⟩) = extent (startEnd g) := by
  rw [upsample_startEnd g n sg]
  rw [contiguous_iff] at hc
  have hnq : (n : ℚ) ≠ 0 := by exact_mod_cast (by omega : n ≠ 0)
  have hpos : 0 < (startEnd g).length := by rw [startEnd_length g hg]; exact List.length_pos_iff.2 hg.2
  have hlast : ∀ p : ℚ × ℚ, p.1 + (p.2 - p.1) / n * (((n - 1 : Nat) : ℚ) + 1) = p.2 := by
    intro p
    rw [show ((n - 1 : Nat) : ℚ) + 1 = (n : ℚ) by rw [Nat.cast_sub hn]; push_cast; ring]
    field_simp
    ring
  constructor
  · rw [contiguous_iff]
    intro i hi
    rw [flatMap_length _ n (parts_length n)] at hi
    have hk : i / n < (startEnd g).length := (Nat.div_lt_iff_lt_mul hn).2 (by omega)
    have hj : i % n < n := Nat.mod_lt _ hn
    have hi' : i = i / n * n + i % n := by rw [Nat.mul_comm]; exact (Nat.div_add_mod i n).symm
    have e1 := flatMap_getD (parts n) n (parts_length n) (0, 0) (0, 0) (startEnd g) (i / n) (i % n) hk hj
    rw [← hi'] at e1
    rw [e1, parts_getD _ _ _ hj]
    by_cases hj' : i % n + 1 < n
    · have e2 := flatMap_getD (parts n) n (parts_length n) (0, 0) (0, 0) (startEnd g) (i / n) (i % n + 1) hk hj'
      rw [show i / n * n + (i % n + 1) = i + 1 by omega] at e2
      rw [e2, parts_getD _ _ _ hj']
      simp only
      push_cast
      ring
    · have hk' : i / n + 1 < (startEnd g).length := by
        by_contra hc'
        have : (startEnd g).length * n ≤ (i / n + 1) * n := Nat.mul_le_mul_right _ (by omega)
        rw [Nat.succ_mul] at this
        omega
      have e2 := flatMap_getD (parts n) n (parts_length n) (0, 0) (0, 0) (startEnd g) (i / n + 1) 0 hk' hn
      rw [show (i / n + 1) * n + 0 = i + 1 by rw [Nat.succ_mul]; omega] at e2
      rw [e2, parts_getD _ _ _ hn]
      simp only [Nat.cast_zero, mul_zero, add_zero]
      rw [← hc _ hk', ← hlast ((startEnd g).getD (i / n) (0, 0)), show i % n = n - 1 by omega]
      simp only [hlast]
  · unfold extent
    rw [headD_eq, headD_eq, getLastD_eq, getLastD_eq, flatMap_length _ n (parts_length n)]
    have e1 := flatMap_getD (parts n) n (parts_length n) (0, 0) (0, 0) (startEnd g) 0 0 hpos hn
    have e2 := flatMap_getD (parts n) n (parts_length n) (0, 0) (0, 0) (startEnd g) ((startEnd g).length - 1) (n - 1) (by omega) (by omega)
    have e3 : ((startEnd g).length - 1) * n + (n - 1) = (startEnd g).length * n - 1 := by
      have : ((startEnd g).length - 1) * n + n = (startEnd g).length * n := by
        rw [← Nat.succ_mul, Nat.succ_eq_add_one, Nat.sub_add_cancel hpos]
      omega
    rw [e3] at e2
    rw [Nat.zero_mul, Nat.zero_add] at e1
    rw [e1, e2, parts_getD _ _ _ hn, parts_getD _ _ _ (show n - 1 < n by omega)]
    simp only [Nat.cast_zero, mul_zero, add_zero, hlast]

theorem mk_some {x h : List ℚ} {sg : List (Int × Int)} {g' : Grid} (e : mkGrid x h sg = some g') : g' = ⟨x, h, sg⟩ ∧ x.length ≠ 0 := by
  unfold mkGrid at e
  split at e
  · cases e
  · rename_i h0; injection e with e; exact ⟨e.symm, h0⟩

theorem resample_loop (c : Cells) (ops : Nat → Op) (args : Nat → Nat) (res : Nat → Option Grid)
    (h0 : ∀ i, c.axis i = none → res i = none) (h1 : ∀ i g, c.axis i = some g → resampleGrid (ops i) (args i) g = .ok (res i)) :
    ∀ n, ∃ l, loop (fun i l => match c.axis i with
        | none => .ok (setAxis l i none)
        | some g => (resampleGrid (ops i) (args i) g).bind fun g' => .ok (setAxis l i g'))
      (List.range n) (c.axes.map fun _ => none) = .ok l ∧ l.length = max c.rank n ∧
      ∀ i, l.getD i none = if i < n then res i else none := by
  intro n
  induction n with
  | zero =>
    refine ⟨_, rfl, by simp [Cells.rank], fun i => ?_⟩
    rw [if_neg (by omega), List.getD_eq_getElem?_getD, List.getElem?_map]
    cases c.axes[i]? <;> rfl
  | succ n ih =>
    obtain ⟨l, e, hl, hg⟩ := ih
    rw [List.range_succ, loop_append, e]
    simp only [Res.bind, loop]
    have hlen : ∀ g, (setAxis l n g).length = max c.rank (n + 1) := by
      intro g
      unfold setAxis
      rw [List.length_set, List.length_append, List.length_replicate, hl]
      omega
    have hget : ∀ i, (setAxis l n (res n)).getD i none = if i < n + 1 then res i else none := by
      intro i
      rw [setAxis_getD, hg]
      by_cases hi : i = n
      · rw [if_pos hi, if_pos (by omega), hi]
      · rw [if_neg hi]
        by_cases hi' : i < n
        · rw [if_pos hi', if_pos (by omega)]
        · rw [if_neg hi', if_neg (by omega)]
    cases hx : c.axis n with
    | none =>
      refine ⟨_, rfl, hlen _, fun i => ?_⟩
      have := hget i
      rw [h0 n hx] at this
      exact this
    | some g =>
      simp only [h1 n g hx]
      exact ⟨_, rfl, hlen _, hget⟩

end Verif.CellGrid
