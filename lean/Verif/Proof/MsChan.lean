import Verif.Spec.MsChan
import Mathlib.Tactic.Linarith
import Mathlib.Data.List.Chain
import Mathlib.Data.List.Nodup
import Mathlib.Data.List.Pairwise
import Mathlib.Data.List.Perm.Subperm

namespace Verif.MsChan

variable {γ : Type}

/-! ### Channels -/

theorem filterMap_range_get (f : Nat → Option γ) : ∀ n, (∀ k, k < n → (f k).isSome) →
    ((List.range n).filterMap f).length = n ∧ ∀ k, k < n → ((List.range n).filterMap f)[k]? = f k := by
  intro n
  induction n with
  | zero => intro _; exact ⟨rfl, fun k h => absurd h (Nat.not_lt_zero _)⟩
  | succ n ih =>
    intro h
    obtain ⟨h1, h2⟩ := ih (fun k hk => h k (by omega))
    obtain ⟨v, hv⟩ := Option.isSome_iff_exists.1 (h n (by omega))
    rw [List.range_succ, List.filterMap_append]
    have he : List.filterMap f [n] = [v] := by simp [hv]
    rw [he]
    refine ⟨by simp [h1], fun k hk => ?_⟩
    by_cases hkn : k < n
    · rw [List.getElem?_append_left (by omega)]; exact h2 k hkn
    · have : k = n := by omega
      subst this
      rw [List.getElem?_append_right (by omega), h1]; simp [hv]

theorem read_shows (c : Chans) (xs : List γ) (h : Fits c xs) : Shows c xs (c.read xs) := by
  obtain ⟨h1, h2⟩ := filterMap_range_get (fun k => xs[c.first + k * c.incr]?) c.count
    (fun k hk => by simp [h k hk])
  unfold Shows Chans.read
  dsimp only
  cases hf : c.flip with
  | false => simp only [Bool.false_eq_true, if_false]; exact ⟨h1, h2⟩
  | true =>
    simp only [if_true]
    refine ⟨by rw [List.length_reverse]; exact h1, fun k hk => ?_⟩
    rw [List.getElem?_reverse (by omega), h1]
    rw [show c.count - 1 - (c.count - 1 - k) = k by omega]
    exact h2 k hk

theorem putFrom_length (c : Chans) : ∀ (ys : List γ) k xs, (putFrom c k xs ys).length = xs.length := by
  intro ys
  induction ys with
  | nil => intros; rfl
  | cons y ys ih => intro k xs; unfold putFrom; rw [ih]; simp

theorem putFrom_other (c : Chans) : ∀ (ys : List γ) k xs j,
    (∀ i, i < ys.length → j ≠ c.first + (k + i) * c.incr) → (putFrom c k xs ys)[j]? = xs[j]? := by
  intro ys
  induction ys with
  | nil => intros; rfl
  | cons y ys ih =>
    intro k xs j h
    unfold putFrom
    rw [ih]
    · have := h 0 (by simp)
      rw [List.getElem?_set_ne]
      intro e; exact this (by simpa using e.symm)
    · intro i hi
      have := h (i + 1) (by simpa using hi)
      rwa [show k + 1 + i = k + (i + 1) by omega]

theorem putFrom_at (c : Chans) (hi : 0 < c.incr) : ∀ (ys : List γ) k xs i, i < ys.length →
    c.first + (k + i) * c.incr < xs.length → (putFrom c k xs ys)[c.first + (k + i) * c.incr]? = ys[i]? := by
  intro ys
  induction ys with
  | nil => intro k xs i h; exact absurd h (Nat.not_lt_zero _)
  | cons y ys ih =>
    intro k xs i h hl
    unfold putFrom
    cases i with
    | zero =>
      rw [putFrom_other]
      · simp at hl; simp [hl]
      · intro j _ e
        have : (k + 0) * c.incr = (k + 1 + j) * c.incr := by omega
        have := Nat.eq_of_mul_eq_mul_right hi this
        omega
    | succ i =>
      have := ih (k + 1) (xs.set (c.first + k * c.incr) y) i (by simpa using h)
        (by rw [List.length_set, show k + 1 + i = k + (i + 1) by omega]; exact hl)
      rw [show k + 1 + i = k + (i + 1) by omega] at this
      simpa using this

theorem write_spec (c : Chans) (hi : 0 < c.incr) (xs ys : List γ) (h : Fits c xs) (hy : ys.length = c.count) :
    Shows c (c.write xs ys) ys ∧ (c.write xs ys).length = xs.length ∧
    ∀ j, (∀ k, k < c.count → j ≠ c.first + k * c.incr) → (c.write xs ys)[j]? = xs[j]? := by
  have hz : (if c.flip then ys.reverse else ys).length = c.count := by split <;> simp [hy]
  unfold Chans.write
  refine ⟨⟨hy, fun k hk => ?_⟩, putFrom_length _ _ _ _, fun j hj => ?_⟩
  · have := putFrom_at c hi (if c.flip then ys.reverse else ys) 0 xs k (by omega)
      (by rw [Nat.zero_add]; exact h k hk)
    rw [Nat.zero_add] at this
    rw [this]
    cases hf : c.flip with
    | false => simp
    | true =>
      simp only [if_true]
      rw [List.getElem?_reverse (by omega), hy]
  · refine putFrom_other c _ 0 xs j (fun i h' => ?_)
    rw [Nat.zero_add]; exact hj i (by omega)

/-- Two lists shown by the same channels are the same. -/
theorem shows_inj {c : Chans} {xs ys zs : List γ} (h1 : Shows c xs ys) (h2 : Shows c xs zs) : ys = zs := by
  apply List.ext_getElem?
  intro j
  by_cases hj : j < c.count
  · have a := h1.2 (if c.flip then c.count - 1 - j else j) (by split <;> omega)
    have b := h2.2 (if c.flip then c.count - 1 - j else j) (by split <;> omega)
    cases hf : c.flip with
    | false => simp only [hf, Bool.false_eq_true, if_false] at a b; rw [a, b]
    | true =>
      simp only [hf, if_true] at a b
      rw [show c.count - 1 - (c.count - 1 - j) = j by omega] at a b
      rw [a, b]
  · rw [List.getElem?_eq_none (by rw [h1.1]; omega), List.getElem?_eq_none (by rw [h2.1]; omega)]

theorem write_shown (c : Chans) (hi : 0 < c.incr) (xs ys : List γ) (h : Fits c xs) (hs : Shows c xs ys) :
    c.write xs ys = xs := by
  obtain ⟨h1, h2, h3⟩ := write_spec c hi xs ys h hs.1
  apply List.ext_getElem?
  intro j
  by_cases hj : ∃ k, k < c.count ∧ j = c.first + k * c.incr
  · obtain ⟨k, hk, rfl⟩ := hj
    rw [← h1.2 k hk, hs.2 k hk]
  · exact h3 j (fun k hk e => hj ⟨k, hk, e⟩)

/-! ### Selected rows -/

theorem mem_selected (q : Sel) (ms : List (Row γ)) (i : Nat) (r : Row γ) :
    (i, r) ∈ selected q ms ↔ ms[i]? = some r ∧ Wanted q r := by
  unfold selected Wanted
  rw [List.mem_filter, List.mem_map]
  have : q.has r = true ↔ r.field = q.field ∧ r.ddid = q.ddid ∧ (q.autocorr = true ∨ r.a1 ≠ r.a2) := by
    unfold Sel.has
    simp [and_assoc]
  constructor
  · rintro ⟨⟨⟨a, b⟩, h1, h2⟩, h3⟩
    simp only [Prod.mk.injEq] at h2
    obtain ⟨rfl, rfl⟩ := h2
    exact ⟨List.mem_zipIdx_iff_getElem?.1 h1, this.1 h3⟩
  · rintro ⟨h1, h2⟩
    exact ⟨⟨(r, i), List.mem_zipIdx_iff_getElem?.2 h1, rfl⟩, this.2 h2⟩

/-! ### Times of the iterator -/

theorem mem_insertTime (t u : Rat) : ∀ ts, u ∈ insertTime t ts ↔ u = t ∨ u ∈ ts := by
  intro ts
  induction ts with
  | nil => simp [insertTime]
  | cons v vs ih =>
    unfold insertTime
    split
    · simp
    · split
      · rename_i h; subst h; simp
      · simp [ih]; constructor
        · rintro (h | h | h) <;> simp [h]
        · rintro (h | h | h) <;> simp [h]

theorem insertTime_sorted (t : Rat) : ∀ ts, ts.Pairwise (· < ·) → (insertTime t ts).Pairwise (· < ·) := by
  intro ts
  induction ts with
  | nil => intro _; simp [insertTime]
  | cons v vs ih =>
    intro h
    rw [List.pairwise_cons] at h
    unfold insertTime
    split
    · rename_i hlt
      refine List.pairwise_cons.2 ⟨fun u hu => ?_, List.pairwise_cons.2 h⟩
      rcases List.mem_cons.1 hu with rfl | hu
      · exact hlt
      · exact lt_trans hlt (h.1 u hu)
    · split
      · exact List.pairwise_cons.2 h
      · rename_i h1 h2
        refine List.pairwise_cons.2 ⟨fun u hu => ?_, ih h.2⟩
        rcases (mem_insertTime t u vs).1 hu with rfl | hu
        · exact lt_of_le_of_ne (not_lt.1 h1) (fun e => h2 e.symm)
        · exact h.1 u hu

theorem insertTime_length (t : Rat) : ∀ ts, (insertTime t ts).length ≤ ts.length + 1 := by
  intro ts
  induction ts with
  | nil => simp [insertTime]
  | cons v vs ih => unfold insertTime; split; · simp
                    · split <;> simp; exact ih

theorem fold_times (rs : List (Nat × Row γ)) : ∀ ts : List Rat, ts.Pairwise (· < ·) →
    (rs.foldl (fun ts x => insertTime x.2.time ts) ts).Pairwise (· < ·) ∧
    ∀ u, u ∈ rs.foldl (fun ts x => insertTime x.2.time ts) ts ↔ u ∈ ts ∨ ∃ x ∈ rs, x.2.time = u := by
  induction rs with
  | nil => intro ts h; exact ⟨h, fun u => by simp⟩
  | cons x xs ih =>
    intro ts h
    obtain ⟨h1, h2⟩ := ih _ (insertTime_sorted x.2.time ts h)
    refine ⟨h1, fun u => ?_⟩
    rw [List.foldl_cons, h2, mem_insertTime]
    simp only [List.mem_cons, exists_eq_or_imp]
    constructor
    · rintro ((h | h) | h)
      · exact .inr (.inl h.symm)
      · exact .inl h
      · exact .inr (.inr h)
    · rintro (h | h | h)
      · exact .inl (.inr h)
      · exact .inl (.inl h.symm)
      · exact .inr h

/-- The slots of an iterator: rows with the time, and times that increase. -/
structure Slots (q : Sel) (ms : List (Row γ)) (gs : List (Rat × List (Nat × Row γ))) : Prop where
  sorted : (gs.map Prod.fst).Pairwise (· < ·)
  rows : ∀ g ∈ gs, ∀ i r, (i, r) ∈ g.2 ↔ ms[i]? = some r ∧ Wanted q r ∧ r.time = g.1

theorem iterate_slots (q : Sel) (ms : List (Row γ)) : Slots q ms (iterate (selected q ms)) := by
  constructor
  · unfold iterate iterTimes
    rw [List.map_map]
    have : (Prod.fst ∘ fun t => (t, (selected q ms).filter (fun x => decide (x.2.time = t)))) = id := rfl
    rw [this, List.map_id]
    exact (fold_times _ [] List.Pairwise.nil).1
  · intro g hg i r
    unfold iterate at hg
    rw [List.mem_map] at hg
    obtain ⟨t, _, rfl⟩ := hg
    rw [List.mem_filter, mem_selected]
    simp [and_assoc]

theorem iterate_mem (q : Sel) (ms : List (Row γ)) (i : Nat) (r : Row γ) (h : ms[i]? = some r)
    (hw : Wanted q r) : ∃ g ∈ iterate (selected q ms), g.1 = r.time := by
  refine ⟨_, List.mem_map.2 ⟨r.time, ?_, rfl⟩, rfl⟩
  exact ((fold_times _ [] List.Pairwise.nil).2 _).2 (.inr ⟨(i, r), (mem_selected q ms i r).2 ⟨h, hw⟩, rfl⟩)

theorem Slots.sub {q : Sel} {ms : List (Row γ)} {gs gs'} (h : Slots q ms gs) (hs : gs'.Sublist gs) :
    Slots q ms gs' :=
  ⟨h.sorted.sublist (hs.map _), fun g hg => h.rows g (hs.subset hg)⟩

/-! ### Baselines -/

theorem mem_pairs (n a b : Nat) : (a, b) ∈ pairs n ↔ a < n ∧ b < n := by
  unfold pairs
  simp only [List.mem_flatMap, List.mem_range]
  constructor
  · rintro ⟨u, hu, v, hv, h⟩
    split at h
    · simp at h; omega
    · simp at h; omega
  · rintro ⟨ha, hb⟩
    by_cases h : b ≤ a
    · refine ⟨a, ha, b, by omega, ?_⟩
      split <;> simp
    · refine ⟨b, hb, a, by omega, ?_⟩
      rw [if_neg (by omega)]; simp

theorem pairs_nodup (n : Nat) : (pairs n).Nodup := by
  unfold pairs
  rw [List.nodup_flatMap]
  refine ⟨fun a _ => ?_, ?_⟩
  · rw [List.nodup_flatMap]
    refine ⟨fun b _ => ?_, ?_⟩
    · split
      · simp
      · rename_i h; simp; intro e; exact absurd e h
    · refine List.Pairwise.imp_of_mem ?_ (List.nodup_range)
      intro b b' hb hb' hne x hx hx'
      simp only [List.mem_range] at hb hb'
      dsimp only at hx hx'
      split at hx <;> split at hx' <;> simp at hx hx'
      · omega
      · rcases hx' with h | h <;> (rw [hx] at h; simp at h; omega)
      · rcases hx with h | h <;> (rw [hx'] at h; simp at h; omega)
      · rcases hx with h | h <;> rcases hx' with h' | h' <;> (rw [h] at h'; simp at h'; omega)
  · refine List.Pairwise.imp_of_mem ?_ (List.nodup_range)
    intro a a' _ _ hne x hx hx'
    simp only [List.mem_flatMap, List.mem_range] at hx hx'
    obtain ⟨b, hb, hx⟩ := hx
    obtain ⟨b', hb', hx'⟩ := hx'
    split at hx <;> split at hx' <;> simp at hx hx'
    · rw [hx] at hx'; simp at hx'; omega
    · rcases hx' with h | h <;> (rw [hx] at h; simp at h; omega)
    · rcases hx with h | h <;> (rw [hx'] at h; simp at h; omega)
    · rcases hx with h | h <;> rcases hx' with h' | h' <;> (rw [h] at h'; simp at h'; omega)

/-! ### Rows of tiles -/

theorem takeSlots_sub {σ : Type} (incr : Nat) : ∀ n (gs : List σ),
    ((takeSlots incr n gs).1 ++ (takeSlots incr n gs).2).Sublist gs := by
  intro n
  induction n with
  | zero => intro gs; simp [takeSlots]
  | succ n ih =>
    intro gs
    cases gs with
    | nil => simp [takeSlots]
    | cons g gs =>
      unfold takeSlots
      exact ((ih (gs.drop (incr - 1))).trans (List.drop_sublist _ _)).cons_cons g

theorem takeSlots_one {σ : Type} : ∀ n (gs : List σ), takeSlots 1 n gs = (gs.take n, gs.drop n) := by
  intro n
  induction n with
  | zero => intro gs; simp [takeSlots]
  | succ n ih =>
    intro gs
    cases gs with
    | nil => simp [takeSlots]
    | cons g gs => unfold takeSlots; simp [ih]

theorem lastRow_mem {p : Nat × Nat} {g : List (Nat × Row γ)} {y} (h : lastRow p g = some y) :
    y ∈ g ∧ y.2.a1 = p.1 ∧ y.2.a2 = p.2 := by
  unfold lastRow at h
  have := List.mem_of_getLast? h
  rw [List.mem_filter] at this
  exact ⟨this.1, by simpa using this.2⟩

theorem tileRows_get (c : Chans) (incr : Nat) (p : Nat × Nat) : ∀ n ts gs k (x : TRow γ),
    (tileRows c incr p ts n gs)[k]? = some (some x) →
    ∃ g y, gs[k]? = some g ∧ lastRow p g.2 = some y ∧ (tileTimes n gs)[k]? = some g.1 ∧
      x.slot = (ts + k) * incr ∧ x.data = c.read y.2.data ∧ x.seqnr = y.1 := by
  intro n
  induction n with
  | zero => intro ts gs k x h; simp [tileRows] at h
  | succ n ih =>
    intro ts gs k x h
    cases gs with
    | nil =>
      unfold tileRows at h
      cases k with
      | zero => simp at h
      | succ k =>
        rw [List.getElem?_cons_succ] at h
        obtain ⟨g, y, hg, _⟩ := ih ts [] k x h
        simp at hg
    | cons g gs =>
      unfold tileRows at h
      cases k with
      | zero =>
        simp only [List.getElem?_cons_zero, Option.some.injEq, Option.map_eq_some_iff] at h
        obtain ⟨y, hy, rfl⟩ := h
        exact ⟨g, y, rfl, hy, by simp [tileTimes], by simp, rfl, rfl⟩
      | succ k =>
        rw [List.getElem?_cons_succ] at h
        obtain ⟨g', y, h1, h2, h3, h4, h5⟩ := ih (ts + 1) gs k x h
        exact ⟨g', y, by simpa using h1, h2, by simpa [tileTimes] using h3,
          by rw [h4]; congr 1; omega, h5⟩

theorem tileRows_put (c : Chans) (incr : Nat) (p : Nat × Nat) : ∀ (n ts : Nat) (gs : List (Rat × List (Nat × Row γ)))
    (k : Nat) (g : Rat × List (Nat × Row γ)) (y : Nat × Row γ), gs.length ≤ n → gs[k]? = some g → lastRow p g.2 = some y →
    ∃ x : TRow γ, (tileRows c incr p ts n gs)[k]? = some (some x) ∧ x.seqnr = y.1 := by
  intro n
  induction n with
  | zero => intro ts gs k g y hl h; cases gs <;> simp at *
  | succ n ih =>
    intro ts gs k g y hl h hy
    cases gs with
    | nil => simp at h
    | cons g' gs =>
      unfold tileRows
      cases k with
      | zero =>
        simp only [List.getElem?_cons_zero, Option.some.injEq] at h
        subst h
        exact ⟨_, by rw [hy]; rfl, rfl⟩
      | succ k =>
        rw [List.getElem?_cons_succ] at h ⊢
        exact ih (ts + 1) gs k g y (by simpa using hl) h hy

theorem lens (c : Chans) (incr : Nat) (p : Nat × Nat) : ∀ n ts (gs : List (Rat × List (Nat × Row γ))),
    (tileRows c incr p ts n gs).length = n ∧ (tileTimes n gs).length = n := by
  intro n
  induction n with
  | zero => intro ts gs; simp [tileRows, tileTimes]
  | succ n ih =>
    intro ts gs
    cases gs with
    | nil => simp [tileRows, tileTimes, (ih ts []).1, (ih ts []).2]
    | cons g gs => simp [tileRows, tileTimes, (ih (ts + 1) gs).1, (ih (ts + 1) gs).2]

/-- The row `i` of the table has the time of `g` and the baseline `p`. -/
def Src (ms : List (Row γ)) (p : Nat × Nat) (t : Rat) (i : Nat) : Prop :=
  ∃ r, ms[i]? = some r ∧ r.time = t ∧ r.a1 = (p.1 : Int) ∧ r.a2 = (p.2 : Int)

theorem src_fun {ms : List (Row γ)} {p p' : Nat × Nat} {t t' i} (h : Src ms p t i) (h' : Src ms p' t' i) :
    p = p' ∧ t = t' := by
  obtain ⟨r, h1, h2, h3, h4⟩ := h
  obtain ⟨r', g1, g2, g3, g4⟩ := h'
  rw [h1] at g1; cases g1
  exact ⟨Prod.ext (by omega) (by omega), by rw [← h2, ← g2]⟩

theorem tileRows_src {q : Sel} {ms : List (Row γ)} (c : Chans) (incr : Nat) (p : Nat × Nat) {n ts gs i}
    (hs : Slots q ms gs)
    (h : i ∈ (tileRows c incr p ts n gs).filterMap (fun x => x.map TRow.seqnr)) :
    ∃ g ∈ gs, Src ms p g.1 i := by
  rw [List.mem_filterMap] at h
  obtain ⟨o, ho, he⟩ := h
  cases o with
  | none => simp at he
  | some x =>
    obtain ⟨k, hk⟩ := List.mem_iff_getElem?.1 ho
    obtain ⟨g, y, h1, h2, h3, h4, h5, h6⟩ := tileRows_get c incr p n ts gs k x hk
    have hg := List.mem_of_getElem? h1
    obtain ⟨m1, m2, m3⟩ := lastRow_mem h2
    obtain ⟨r1, r2, r3⟩ := (hs.rows g hg y.1 y.2).1 m1
    simp at he
    exact ⟨g, hg, y.2, by rw [← he, h6]; exact r1, r3, m2, m3⟩

theorem tileRows_nodup {q : Sel} {ms : List (Row γ)} (c : Chans) (incr : Nat) (p : Nat × Nat) : ∀ n ts gs,
    Slots q ms gs → ((tileRows c incr p ts n gs).filterMap (fun x => x.map TRow.seqnr)).Nodup := by
  intro n
  induction n with
  | zero => intro ts gs _; simp [tileRows]
  | succ n ih =>
    intro ts gs hs
    cases gs with
    | nil => unfold tileRows; simpa using ih ts [] hs
    | cons g gs =>
      have hs' : Slots q ms gs := hs.sub (List.sublist_cons_self g gs)
      have ihh := ih (ts + 1) gs hs'
      unfold tileRows
      cases hl : lastRow p g.2 with
      | none => simpa using ihh
      | some y =>
        show (y.1 :: (tileRows c incr p (ts + 1) n gs).filterMap (fun x => x.map TRow.seqnr)).Nodup
        rw [List.nodup_cons]
        refine ⟨fun hm => ?_, ihh⟩
        obtain ⟨g', hg', hsr⟩ := tileRows_src c incr p hs' hm
        obtain ⟨m1, m2, m3⟩ := lastRow_mem hl
        obtain ⟨r1, r2, r3⟩ := (hs.rows g (by simp) y.1 y.2).1 m1
        have : Src ms p g.1 y.1 := ⟨y.2, r1, r3, m2, m3⟩
        have he := (src_fun this hsr).2
        have hlt := (List.pairwise_cons.1 (by simpa using hs.sorted : ((g :: gs).map Prod.fst).Pairwise (· < ·))).1
          g'.1 (List.mem_map_of_mem hg')
        rw [he] at hlt
        exact lt_irrefl _ hlt

theorem chunk_seqnrs (q : Sel) (c : Chans) (no ts n : Nat) (gs : List (Rat × List (Nat × Row γ))) :
    seqnrs (chunk q c no ts n gs) = (pairs q.nant).flatMap (fun p =>
      (tileRows c (if q.incr < 1 then 1 else q.incr) p ts n gs).filterMap (fun x => x.map TRow.seqnr)) := by
  unfold chunk seqnrs
  generalize (if q.incr < 1 then 1 else q.incr) = m
  induction pairs q.nant with
  | nil => rfl
  | cons p ps ih =>
    rw [List.filterMap_cons, List.flatMap_cons, ← ih]
    dsimp only
    split
    · rename_i h
      split at h
      · cases h
      · rename_i hn
        have : (tileRows c m p ts n gs).filterMap
            (fun x => x.map TRow.seqnr) = [] := by
          rw [List.filterMap_eq_nil_iff]
          intro o ho
          cases o with
          | none => rfl
          | some x => exact absurd (List.any_eq_true.2 ⟨_, ho, rfl⟩) hn
        rw [this]; rfl
    · rename_i t h
      split at h
      · cases h; rfl
      · cases h

theorem chunk_nodup {q : Sel} {ms : List (Row γ)} (c : Chans) (no ts n : Nat) {gs} (hs : Slots q ms gs) :
    (seqnrs (chunk q c no ts n gs)).Nodup ∧
    ∀ i ∈ seqnrs (chunk q c no ts n gs), ∃ p, ∃ g ∈ gs, Src ms p g.1 i := by
  rw [chunk_seqnrs]
  constructor
  · rw [List.nodup_flatMap]
    refine ⟨fun p _ => tileRows_nodup c _ p n ts gs hs, ?_⟩
    refine List.Pairwise.imp ?_ (pairs_nodup q.nant)
    intro p p' hne i hi hi'
    obtain ⟨g, _, h1⟩ := tileRows_src c _ p hs hi
    obtain ⟨g', _, h2⟩ := tileRows_src c _ p' hs hi'
    exact hne (src_fun h1 h2).1
  · intro i hi
    obtain ⟨p, _, h⟩ := List.mem_flatMap.1 hi
    exact ⟨p, tileRows_src c _ p hs h⟩

theorem seqnrs_append (a b : List (Tile γ)) : seqnrs (a ++ b) = seqnrs a ++ seqnrs b := by
  unfold seqnrs; exact List.flatMap_append

theorem stream_nodup {q : Sel} {ms : List (Row γ)} (c : Chans) : ∀ sizes no ts gs tiles, Slots q ms gs →
    stream q c no ts sizes gs = .ok tiles →
    (seqnrs tiles).Nodup ∧ ∀ i ∈ seqnrs tiles, ∃ p, ∃ g ∈ gs, Src ms p g.1 i := by
  intro sizes
  induction sizes with
  | nil =>
    intro no ts gs tiles hs h
    cases gs with
    | nil => unfold stream at h; cases h; simp [seqnrs]
    | cons g gs => unfold stream at h; cases h
  | cons n ns ih =>
    intro no ts gs tiles hs h
    cases gs with
    | nil => unfold stream at h; cases h; simp [seqnrs]
    | cons g gs =>
      unfold stream at h
      dsimp only at h
      have hsub := takeSlots_sub (if q.incr < 1 then 1 else q.incr) n (g :: gs)
      generalize takeSlots (if q.incr < 1 then 1 else q.incr) n (g :: gs) = rr at h hsub
      split at h
      · rename_i tl htl
        cases h
        have hboth := hs.sub hsub
        obtain ⟨i1, i2⟩ := ih _ _ _ _ (hboth.sub (List.sublist_append_right _ _)) htl
        obtain ⟨j1, j2⟩ := chunk_nodup c no ts n (hboth.sub (List.sublist_append_left _ _))
        rw [seqnrs_append]
        refine ⟨List.nodup_append.2 ⟨j1, i1, ?_⟩, ?_⟩
        · intro a ha b hb e
          subst e
          obtain ⟨p, g1, hg1, s1⟩ := j2 a ha
          obtain ⟨p', g2, hg2, s2⟩ := i2 a hb
          have hlt := (List.pairwise_append.1 (by simpa using hboth.sorted :
            (rr.1.map Prod.fst ++ rr.2.map Prod.fst).Pairwise (· < ·))).2.2 g1.1
              (List.mem_map_of_mem hg1) g2.1 (List.mem_map_of_mem hg2)
          rw [(src_fun s1 s2).2] at hlt
          exact lt_irrefl _ hlt
        · intro i hi
          rcases List.mem_append.1 hi with hi | hi
          · obtain ⟨p, g', hg, hsr⟩ := j2 i hi
            exact ⟨p, g', hsub.subset (List.mem_append_left _ hg), hsr⟩
          · obtain ⟨p, g', hg, hsr⟩ := i2 i hi
            exact ⟨p, g', hsub.subset (List.mem_append_right _ hg), hsr⟩
      · cases h
      · cases h

theorem mem_chunk {q : Sel} {c : Chans} {no ts n : Nat} {gs : List (Rat × List (Nat × Row γ))} {t : Tile γ}
    (h : t ∈ chunk q c no ts n gs) : t.no = no ∧ t.times = tileTimes n gs ∧ (t.a1, t.a2) ∈ pairs q.nant ∧
      t.rows = tileRows c (if q.incr < 1 then 1 else q.incr) (t.a1, t.a2) ts n gs := by
  unfold chunk at h
  generalize (if q.incr < 1 then 1 else q.incr) = m at h ⊢
  rw [List.mem_filterMap] at h
  obtain ⟨p, hp, h⟩ := h
  dsimp only at h
  split at h
  · cases h; exact ⟨rfl, rfl, hp, rfl⟩
  · cases h

/-- Every row of a tile comes from a row of the table. -/
theorem stream_sound {q : Sel} {ms : List (Row γ)} (c : Chans) : ∀ sizes no ts gs tiles, Slots q ms gs →
    stream q c no ts sizes gs = .ok tiles → ∀ t ∈ tiles, ∀ (k : Nat) (x : TRow γ), t.rows[k]? = some (some x) →
    ∃ r, ms[x.seqnr]? = some r ∧ Wanted q r ∧ r.a1 = (t.a1 : Int) ∧ r.a2 = (t.a2 : Int) ∧
      t.times[k]? = some r.time ∧ x.data = c.read r.data := by
  intro sizes
  induction sizes with
  | nil =>
    intro no ts gs tiles hs h
    cases gs with
    | nil => unfold stream at h; cases h; simp
    | cons g gs => unfold stream at h; cases h
  | cons n ns ih =>
    intro no ts gs tiles hs h
    cases gs with
    | nil => unfold stream at h; cases h; simp
    | cons g gs =>
      unfold stream at h
      dsimp only at h
      have hsub := takeSlots_sub (if q.incr < 1 then 1 else q.incr) n (g :: gs)
      generalize takeSlots (if q.incr < 1 then 1 else q.incr) n (g :: gs) = rr at h hsub
      split at h
      · rename_i tl htl
        cases h
        have hboth := hs.sub hsub
        have hl : Slots q ms rr.1 := hboth.sub (List.sublist_append_left _ _)
        intro t ht k x hx
        rcases List.mem_append.1 ht with ht | ht
        · obtain ⟨_, h2, _, h3⟩ := mem_chunk ht
          rw [h3] at hx
          obtain ⟨g', y, h4, h5, h6, _, h7, h8⟩ := tileRows_get c _ _ n ts rr.1 k x hx
          obtain ⟨m1, m2, m3⟩ := lastRow_mem h5
          obtain ⟨r1, r2, r3⟩ := (hl.rows g' (List.mem_of_getElem? h4) y.1 y.2).1 m1
          exact ⟨y.2, by rw [h8]; exact r1, r2, m2, m3, by rw [h2, h6, r3], h7⟩
        · exact ih _ _ _ _ (hboth.sub (List.sublist_append_right _ _)) htl t ht k x hx
      · cases h
      · cases h

/-- Each slot gets into the tiles, when none is left out. -/
theorem stream_complete {q : Sel} {c : Chans} (hq : q.incr ≤ 1) : ∀ sizes no ts gs (tiles : List (Tile γ)),
    stream q c no ts sizes gs = .ok tiles → ∀ g ∈ gs, ∀ p ∈ pairs q.nant, ∀ y, lastRow p g.2 = some y →
    ∃ t ∈ tiles, ∃ (k : Nat) (x : TRow γ), t.rows[k]? = some (some x) ∧ x.seqnr = y.1 := by
  have h1 : (if q.incr < 1 then 1 else q.incr) = 1 := by split <;> omega
  intro sizes
  induction sizes with
  | nil =>
    intro no ts gs tiles h
    cases gs with
    | nil => intro g hg; simp at hg
    | cons g gs => unfold stream at h; cases h
  | cons n ns ih =>
    intro no ts gs tiles h
    cases gs with
    | nil => intro g hg; simp at hg
    | cons g gs =>
      unfold stream at h
      dsimp only at h
      rw [h1, takeSlots_one] at h
      split at h
      · rename_i tl htl
        cases h
        intro g' hg' p hp y hy
        rw [← List.take_append_drop n (g :: gs)] at hg'
        rcases List.mem_append.1 hg' with hg' | hg'
        · obtain ⟨k, hk⟩ := List.mem_iff_getElem?.1 hg'
          obtain ⟨x, hx, he⟩ := tileRows_put c 1 p n ts ((g :: gs).take n) k g' y
            (List.length_take_le _ _) hk hy
          refine ⟨⟨p.1, p.2, no, tileTimes n ((g :: gs).take n), _⟩, List.mem_append_left _ ?_, k, x, hx, he⟩
          unfold chunk
          rw [List.mem_filterMap]
          refine ⟨p, hp, ?_⟩
          dsimp only
          rw [h1, if_pos (List.any_eq_true.2 ⟨_, List.mem_of_getElem? hx, rfl⟩)]
        · obtain ⟨t, ht, r⟩ := ih _ _ _ _ htl g' hg' p hp y hy
          exact ⟨t, List.mem_append_right _ ht, r⟩
      · cases h
      · cases h

/-- Numbers of timeslots. -/
theorem stream_slot {q : Sel} {c : Chans} (hq : q.incr ≤ 1) (all : List (Rat × List (Nat × Row γ))) :
    ∀ sizes no ts gs (tiles : List (Tile γ)), gs = all.drop ts →
    stream q c no ts sizes gs = .ok tiles → ∀ t ∈ tiles, ∀ (k : Nat) (x : TRow γ), t.rows[k]? = some (some x) →
    (all.map Prod.fst)[x.slot]? = t.times[k]? := by
  have h1 : (if q.incr < 1 then 1 else q.incr) = 1 := by split <;> omega
  intro sizes
  induction sizes with
  | nil =>
    intro no ts gs tiles hs h
    cases gs with
    | nil => unfold stream at h; cases h; simp
    | cons g gs => unfold stream at h; cases h
  | cons n ns ih =>
    intro no ts gs tiles hs h
    cases gs with
    | nil => unfold stream at h; cases h; simp
    | cons g gs =>
      unfold stream at h
      dsimp only at h
      rw [h1, takeSlots_one] at h
      split at h
      · rename_i tl htl
        cases h
        intro t ht k x hx
        rcases List.mem_append.1 ht with ht | ht
        · obtain ⟨_, h2, _, h3⟩ := mem_chunk ht
          rw [h3, h1] at hx
          obtain ⟨g', y, h4, h5, h6, h7, _⟩ := tileRows_get c _ _ n ts _ k x hx
          rw [h2, h6, h7, Nat.mul_one]
          have : (g :: gs)[k]? = some g' := by
            rw [List.getElem?_take] at h4
            split at h4
            · exact h4
            · cases h4
          rw [hs, List.getElem?_drop] at this
          rw [List.getElem?_map, this]; rfl
        · refine ih _ _ _ _ ?_ htl t ht k x hx
          dsimp only
          rw [hs, List.drop_drop]
          by_cases hle : n ≤ (all.drop ts).length
          · rw [List.length_take_of_le hle]
          · rw [List.length_take, Nat.min_eq_right (by omega)]
            rw [List.length_drop] at hle ⊢
            rw [List.drop_eq_nil_of_le (by omega), List.drop_eq_nil_of_le (by omega)]
      · cases h
      · cases h

/-- It fails only if there are more slots than expected. -/
theorem stream_ok {q : Sel} {c : Chans} (hq : q.incr ≤ 1) : ∀ sizes no ts (gs : List (Rat × List (Nat × Row γ))),
    gs.length ≤ sizes.sum → ∃ tiles, stream q c no ts sizes gs = .ok tiles := by
  have h1 : (if q.incr < 1 then 1 else q.incr) = 1 := by split <;> omega
  intro sizes
  induction sizes with
  | nil =>
    intro no ts gs h
    cases gs with
    | nil => exact ⟨[], by unfold stream; rfl⟩
    | cons g gs => simp at h
  | cons n ns ih =>
    intro no ts gs h
    cases gs with
    | nil => exact ⟨[], by unfold stream; rfl⟩
    | cons g gs =>
      unfold stream
      dsimp only
      rw [h1, takeSlots_one]
      obtain ⟨tl, htl⟩ := ih (no + 1) (ts + ((g :: gs).take n).length) ((g :: gs).drop n)
        (by rw [List.length_drop]; rw [List.sum_cons] at h; omega)
      dsimp only
      rw [htl]
      exact ⟨_, rfl⟩

/-! ### Sizes of tiles -/

theorem regular_short {ts : List Rat} (h : ts.length ≤ 2) : Regular ts := by
  intro k a b t u h0 h1 hk hk1
  have hlt : k + 1 < ts.length := by
    by_contra hc
    rw [List.getElem?_eq_none (by omega)] at hk1; cases hk1
  have : k = 0 := by omega
  subst this
  rw [h0] at hk; rw [Nat.zero_add, h1] at hk1
  cases hk; cases hk1
  norm_num

theorem regular_snoc {ts : List Rat} {a b l tm : Rat} (h0 : ts[0]? = some a) (h1 : ts[1]? = some b)
    (hl : ts.getLast? = some l) : Regular (ts ++ [tm]) ↔ Regular ts ∧ |(tm - l) - (b - a)| ≤ 1 / 10 := by
  have hlen : 1 < ts.length := by
    by_contra hc
    rw [List.getElem?_eq_none (by omega)] at h1; cases h1
  rw [List.getLast?_eq_getElem?] at hl
  have e0 : (ts ++ [tm])[0]? = some a := by rw [List.getElem?_append_left (by omega)]; exact h0
  have e1 : (ts ++ [tm])[1]? = some b := by rw [List.getElem?_append_left (by omega)]; exact h1
  constructor
  · intro h
    refine ⟨fun k a' b' t u ha hb hk hk1 => ?_, ?_⟩
    · have hlt : k + 1 < ts.length := by
        by_contra hc
        rw [List.getElem?_eq_none (by omega)] at hk1; cases hk1
      rw [h0] at ha; rw [h1] at hb; cases ha; cases hb
      exact h k a b t u e0 e1 (by rw [List.getElem?_append_left (by omega)]; exact hk)
        (by rw [List.getElem?_append_left (by omega)]; exact hk1)
    · refine h (ts.length - 1) a b l tm e0 e1 (by rw [List.getElem?_append_left (by omega)]; exact hl) ?_
      rw [show ts.length - 1 + 1 = ts.length by omega]; simp
  · rintro ⟨h, hd⟩ k a' b' t u ha hb hk hk1
    rw [e0] at ha; rw [e1] at hb; cases ha; cases hb
    by_cases hlt : k + 1 < ts.length
    · rw [List.getElem?_append_left (by omega)] at hk hk1
      exact h k a b t u h0 h1 hk hk1
    · have hkl : k + 1 = ts.length := by
        by_contra hc
        rw [List.getElem?_eq_none (by simp; omega)] at hk1; cases hk1
      rw [hkl] at hk1
      rw [List.getElem?_append_left (by omega), show k = ts.length - 1 by omega, hl] at hk
      simp at hk1
      cases hk; subst hk1
      exact hd

/-- A tile was closed for a reason: it is full, or the next slot does not fit. -/
def Ended (size segs : Nat) (p : List Rat) (rest : List Rat) : Prop :=
  p.length = size ∨ (segs ≠ 0 ∧ (segs = 1 → ∃ u, rest.head? = some u ∧ ¬ Regular (p ++ [u])))

theorem Ended.mono {size segs : Nat} {p rest : List Rat} (h : Ended size segs p rest) (more : List Rat) :
    Ended size segs p (rest ++ more) := by
  rcases h with h | ⟨h, h'⟩
  · exact .inl h
  · refine .inr ⟨h, fun e => ?_⟩
    obtain ⟨u, hu, hr⟩ := h' e
    refine ⟨u, ?_, hr⟩
    rw [List.head?_append, hu]; rfl

/-- What holds of the variables of the loop. -/
structure TInv (nrows size segs : Nat) (s : Til) (sl : List Rat) (ps : List (List Rat)) (cp : List Rat) : Prop where
  flat : sl = ps.flatten ++ cp
  closed : s.closed = ps.map List.length
  cur : s.size = cp.length
  slots : s.slots = sl.length
  skip : s.skip = 0
  first : s.first = true ↔ sl = []
  last : s.first = false → sl.getLast? = some s.cur
  nonempty : ∀ p ∈ ps, p ≠ []
  small : size ≠ 0 → (∀ p ∈ ps, p.length ≤ size) ∧ cp.length < size
  over : s.over = true → nrows ≤ ps.length
  over' : nrows ≤ ps.length → 0 < ps.length → s.over = true
  ended : ∀ a p b, ps = a ++ p :: b → Ended size segs p (b.flatten ++ cp)
  nsub : segs = 1 → s.nsub = 0
  seg : segs = 1 → s.seg = cp.length
  delta : segs = 1 → ∀ a b, cp[0]? = some a → cp[1]? = some b → s.delta = b - a
  reg : segs = 1 → (∀ p ∈ ps, Regular p) ∧ Regular cp
  lastcp : cp ≠ [] → cp.getLast? = some s.cur
  segle : s.seg ≤ cp.length

theorem tinv_init (nrows size segs : Nat) : TInv nrows size segs Til.init [] [] [] := by
  refine ⟨rfl, rfl, rfl, rfl, rfl, by simp [Til.init], by simp [Til.init], by simp, ?_, by simp [Til.init],
    by simp, ?_, fun _ => rfl, fun _ => rfl, ?_, ?_, ?_, ?_⟩
  · intro h; exact ⟨by simp, by simp; omega⟩
  · intro a p b h; simp at h
  · intro _ a b h; simp at h
  · intro _; exact ⟨by simp, regular_short (by simp)⟩
  · intro h; exact absurd rfl h
  · exact Nat.le_refl _

/-- After `segment`, with the new slot not yet added: like the invariant. -/
structure MInv (nrows size segs : Nat) (tm : Rat) (s : Til) (sl : List Rat) (ps : List (List Rat)) (cp : List Rat) :
    Prop where
  flat : sl = ps.flatten ++ cp
  closed : s.closed = ps.map List.length
  cur : s.size = cp.length
  slots : s.slots = sl.length + 1
  skip : s.skip = 0
  first : s.first = false
  time : s.cur = tm
  nonempty : ∀ p ∈ ps, p ≠ []
  small : size ≠ 0 → (∀ p ∈ ps, p.length ≤ size) ∧ cp.length < size
  over : s.over = true → nrows ≤ ps.length
  over' : nrows ≤ ps.length → 0 < ps.length → s.over = true
  ended : ∀ a p b, ps = a ++ p :: b → Ended size segs p (b.flatten ++ cp ++ [tm])
  nsub : segs = 1 → s.nsub = 0
  seg : segs = 1 → s.seg = cp.length + 1
  delta : segs = 1 → ∀ a b, (cp ++ [tm])[0]? = some a → (cp ++ [tm])[1]? = some b → s.delta = b - a
  reg : segs = 1 → (∀ p ∈ ps, Regular p) ∧ Regular (cp ++ [tm])
  segle : s.seg ≤ cp.length + 1

theorem add_inv {nrows size segs : Nat} {tm : Rat} {s sl ps cp} (h : MInv nrows size segs tm s sl ps cp) :
    ∃ ps' cp', TInv nrows size segs (s.add nrows size) (sl ++ [tm]) ps' cp' := by
  unfold Til.add
  dsimp only
  split
  · rename_i hs
    have hlen : (cp ++ [tm]).length = size := by rw [List.length_append, ← hs, h.cur]; rfl
    refine ⟨ps ++ [cp ++ [tm]], [], ?_⟩
    refine ⟨?_, ?_, rfl, ?_, h.skip, ?_, ?_, ?_, ?_, ?_, ?_, ?_, fun _ => rfl, fun _ => rfl, ?_, ?_, ?_, Nat.le_refl _⟩
    · rw [h.flat]; simp
    · show s.closed ++ [s.size + 1] = _
      rw [h.closed, h.cur]; simp
    · show s.slots = _
      rw [h.slots]; simp
    · show s.first = true ↔ _
      rw [h.first]; simp
    · intro _; show _ = some s.cur; rw [h.time]; simp
    · intro p hp
      rcases List.mem_append.1 hp with hp | hp
      · exact h.nonempty p hp
      · simp at hp; subst hp; simp
    · intro h0
      refine ⟨fun p hp => ?_, by simp; omega⟩
      rcases List.mem_append.1 hp with hp | hp
      · exact (h.small h0).1 p hp
      · simp at hp; subst hp; omega
    · show (s.over || decide (nrows ≤ s.closed.length + 1)) = true → _
      intro ho
      rw [Bool.or_eq_true, decide_eq_true_eq, h.closed, List.length_map] at ho
      rw [List.length_append, List.length_singleton]
      rcases ho with ho | ho
      · have := h.over ho; omega
      · exact ho
    · intro hn _
      show (s.over || decide (nrows ≤ s.closed.length + 1)) = true
      rw [Bool.or_eq_true, decide_eq_true_eq, h.closed, List.length_map]
      rw [List.length_append, List.length_singleton] at hn
      exact .inr hn
    · intro a p b he
      rcases List.eq_nil_or_concat b with hb | ⟨b', x, hb⟩
      · subst hb
        have := (List.append_inj' he rfl).2
        simp at this
        exact .inl (by rw [← this]; exact hlen)
      · subst hb
        rw [List.concat_eq_append, ← List.cons_append, ← List.append_assoc] at he
        obtain ⟨e1, e2⟩ := List.append_inj' he rfl
        simp at e2
        have := h.ended a p b' e1
        rw [← e2]
        simpa using this
    · intro _ a b ha; simp at ha
    · intro h1
      refine ⟨fun p hp => ?_, regular_short (by simp)⟩
      rcases List.mem_append.1 hp with hp | hp
      · exact (h.reg h1).1 p hp
      · simp at hp; subst hp; exact (h.reg h1).2
    · intro hc; exact absurd rfl hc
  · rename_i hs
    refine ⟨ps, cp ++ [tm], ?_⟩
    refine ⟨?_, h.closed, ?_, ?_, h.skip, ?_, ?_, h.nonempty, ?_, h.over, h.over', ?_, h.nsub, ?_, h.delta,
      h.reg, ?_, ?_⟩
    · rw [h.flat]; simp
    · show s.size + 1 = _
      rw [h.cur]; simp
    · show s.slots = _
      rw [h.slots]; simp
    · show s.first = true ↔ _
      rw [h.first]; simp
    · intro _; show _ = some s.cur; rw [h.time]; simp
    · intro h0
      refine ⟨(h.small h0).1, ?_⟩
      have := (h.small h0).2
      have hs' : s.size + 1 ≠ size := hs
      rw [h.cur] at hs'
      rw [List.length_append, List.length_singleton]; omega
    · intro a p b he
      have := h.ended a p b he
      rwa [List.append_assoc] at this
    · intro h1
      show s.seg = _
      rw [h.seg h1]; simp
    · intro _; show _ = some s.cur; rw [h.time]; simp
    · rw [List.length_append, List.length_singleton]; exact h.segle

theorem segment_inv {nrows size segs : Nat} {tm : Rat} {s sl ps cp} (h : TInv nrows size segs s sl ps cp)
    (s' : Til) (hs' : s' = { s with first := false, skip := 0, cur := tm, slots := s.slots + 1, seg := s.seg + 1 }) :
    ∃ ps' cp', MInv nrows size segs tm (s'.segment nrows segs (tm - s.cur)) sl ps' cp' := by
  have keep : ∀ a p b, ps = a ++ p :: b → Ended size segs p (b.flatten ++ cp ++ [tm]) :=
    fun a p b he => (h.ended a p b he).mono [tm]
  unfold Til.segment
  split
  · rename_i hseg
    refine ⟨ps, cp, ?_⟩
    subst hs'
    refine ⟨h.flat, h.closed, h.cur, by show s.slots + 1 = _; rw [h.slots], rfl, rfl, rfl, h.nonempty, h.small,
      h.over, h.over', keep, h.nsub, fun h1 => by show s.seg + 1 = _; rw [h.seg h1], ?_, ?_, ?_⟩
    · intro h1 a b ha hb
      have hl : cp.length = 1 := by have := h.seg h1; have : s.seg + 1 = 2 := hseg; omega
      obtain ⟨z, hz⟩ := List.length_eq_one_iff.1 hl
      have := h.lastcp (by rw [hz]; simp)
      rw [hz] at this ha hb
      simp at this ha hb
      show tm - s.cur = b - a
      rw [← this, ha, hb]
    · intro h1
      have hl : cp.length = 1 := by have := h.seg h1; have : s.seg + 1 = 2 := hseg; omega
      exact ⟨(h.reg h1).1, regular_short (by simp; omega)⟩
    · have := h.segle; show s.seg + 1 ≤ _; omega
  · rename_i hseg
    split
    · rename_i hd
      dsimp only
      split
      · rename_i hsg
        have hlen : 2 ≤ cp.length := by
          have h1 := h.segle
          have h2 : 2 < s.seg + 1 := by rw [hs'] at hd; exact hd.1
          omega
        have hcp : cp ≠ [] := by intro e; rw [e] at hlen; simp at hlen
        refine ⟨ps ++ [cp], [], ?_⟩
        subst hs'
        refine ⟨?_, ?_, rfl, by show s.slots + 1 = _; rw [h.slots], rfl, rfl, rfl, ?_, ?_, ?_, ?_, ?_,
          fun _ => rfl, fun _ => rfl, ?_, ?_, Nat.le_refl _⟩
        · rw [h.flat]; simp
        · show s.closed ++ [s.size] = _
          rw [h.closed, h.cur]; simp
        · intro p hp
          rcases List.mem_append.1 hp with hp | hp
          · exact h.nonempty p hp
          · simp at hp; subst hp; exact hcp
        · intro h0
          refine ⟨fun p hp => ?_, by simp; omega⟩
          rcases List.mem_append.1 hp with hp | hp
          · exact (h.small h0).1 p hp
          · simp at hp; subst hp; have := (h.small h0).2; omega
        · show (s.over || decide (nrows ≤ s.closed.length + 1)) = true → _
          intro ho
          rw [Bool.or_eq_true, decide_eq_true_eq, h.closed, List.length_map] at ho
          rw [List.length_append, List.length_singleton]
          rcases ho with ho | ho
          · have := h.over ho; omega
          · exact ho
        · intro hn _
          show (s.over || decide (nrows ≤ s.closed.length + 1)) = true
          rw [Bool.or_eq_true, decide_eq_true_eq, h.closed, List.length_map]
          rw [List.length_append, List.length_singleton] at hn
          exact .inr hn
        · intro a p b he
          rcases List.eq_nil_or_concat b with hb | ⟨b', x, hb⟩
          · subst hb
            have := (List.append_inj' he rfl).2
            simp at this
            subst this
            refine .inr ⟨hsg.1, fun h1 => ⟨tm, by simp, ?_⟩⟩
            have e0 : cp[0]? = some cp[0] := List.getElem?_eq_getElem (by omega)
            have e1 : cp[1]? = some cp[1] := List.getElem?_eq_getElem (by omega)
            rw [regular_snoc e0 e1 (h.lastcp hcp), ← h.delta h1 _ _ e0 e1]
            intro hr
            exact absurd hd.2 (not_lt.2 hr.2)
          · subst hb
            rw [List.concat_eq_append, ← List.cons_append, ← List.append_assoc] at he
            obtain ⟨e1, e2⟩ := List.append_inj' he rfl
            simp at e2
            have := keep a p b' e1
            rw [← e2]
            simpa using this
        · intro _ a b ha hb; simp at hb
        · intro h1
          refine ⟨fun p hp => ?_, regular_short (by simp)⟩
          rcases List.mem_append.1 hp with hp | hp
          · exact (h.reg h1).1 p hp
          · simp at hp; subst hp; exact (h.reg h1).2
      · rename_i hsg
        refine ⟨ps, cp, ?_⟩
        subst hs'
        have hne : segs ≠ 1 := by
          intro e; subst e
          exact hsg ⟨by decide, by show 1 ≤ s.nsub + 1; omega⟩
        exact ⟨h.flat, h.closed, h.cur, by show s.slots + 1 = _; rw [h.slots], rfl, rfl, rfl, h.nonempty, h.small,
          h.over, h.over', keep, fun e => absurd e hne, fun e => absurd e hne, fun e => absurd e hne,
          fun e => absurd e hne, by show 1 ≤ _; omega⟩
    · rename_i hd
      refine ⟨ps, cp, ?_⟩
      subst hs'
      refine ⟨h.flat, h.closed, h.cur, by show s.slots + 1 = _; rw [h.slots], rfl, rfl, rfl, h.nonempty, h.small,
        h.over, h.over', keep, h.nsub, fun h1 => by show s.seg + 1 = _; rw [h.seg h1], ?_, ?_, ?_⟩
      · intro h1 a b ha hb
        have hseg' : s.seg + 1 ≠ 2 := hseg
        have h2 := h.seg h1
        have h3 : cp.length ≠ 0 := by
          intro e
          rw [List.length_eq_zero_iff] at e
          rw [e] at hb; simp at hb
        rw [List.getElem?_append_left (by omega)] at ha hb
        exact h.delta h1 a b ha hb
      · intro h1
        have hseg' : s.seg + 1 ≠ 2 := hseg
        have h2 := h.seg h1
        refine ⟨(h.reg h1).1, ?_⟩
        by_cases h3 : cp.length = 0
        · exact regular_short (by simp; omega)
        · have e0 : cp[0]? = some cp[0] := List.getElem?_eq_getElem (by omega)
          have e1 : cp[1]? = some cp[1] := List.getElem?_eq_getElem (by omega)
          have hcp : cp ≠ [] := by intro e; rw [e] at h3; simp at h3
          rw [regular_snoc e0 e1 (h.lastcp hcp), ← h.delta h1 _ _ e0 e1]
          refine ⟨(h.reg h1).2, not_lt.1 (fun hlt => hd ⟨?_, hlt⟩)⟩
          show 2 < s.seg + 1
          omega
      · have := h.segle; show s.seg + 1 ≤ _; omega

/-- A time is looked at, and none is left out. -/
theorem step_inv {nrows size segs : Nat} {s sl ps cp} (h : TInv nrows size segs s sl ps cp) (tm : Rat) :
    (s.first = false ∧ tm = s.cur ∧ Til.step nrows size segs 1 s tm = s) ∨
    ((s.first = true ∨ tm ≠ s.cur) ∧
      ∃ ps' cp', TInv nrows size segs (Til.step nrows size segs 1 s tm) (sl ++ [tm]) ps' cp') := by
  unfold Til.step
  by_cases h1 : s.first = false ∧ tm = s.cur
  · rw [if_pos h1]; exact .inl ⟨h1.1, h1.2, rfl⟩
  · rw [if_neg h1, if_neg (by omega)]
    refine .inr ⟨?_, ?_⟩
    · cases hf : s.first with
      | true => exact .inl rfl
      | false => exact .inr (fun e => h1 ⟨hf, e⟩)
    · obtain ⟨ps', cp', hm⟩ := segment_inv (tm := tm) h _ rfl
      exact add_inv hm

/-- The slots that the loop finds: those seen; in order if the table is. -/
theorem fold_inv (nrows size segs : Nat) : ∀ (times : List Rat) s sl ps cp, TInv nrows size segs s sl ps cp →
    ∃ sl' ps' cp', TInv nrows size segs (times.foldl (Til.step nrows size segs 1) s) sl' ps' cp' ∧
      (∀ u, u ∈ sl' ↔ u ∈ sl ∨ u ∈ times) ∧
      (sl.Pairwise (· < ·) → times.Pairwise (· ≤ ·) → (∀ u ∈ sl, ∀ v ∈ times, u ≤ v) → sl'.Pairwise (· < ·)) ∧
      sl'.length ≤ sl.length + times.length := by
  intro times
  induction times with
  | nil => intro s sl ps cp h; exact ⟨sl, ps, cp, h, by simp, fun h _ _ => h, by simp⟩
  | cons tm times ih =>
    intro s sl ps cp h
    rw [List.foldl_cons]
    rcases step_inv h tm with ⟨hf, he, hst⟩ | ⟨hne, ps', cp', hst⟩
    · rw [hst]
      obtain ⟨sl', ps', cp', i1, i2, i3, i4⟩ := ih s sl ps cp h
      have hm : tm ∈ sl := by rw [he]; exact List.mem_of_getLast? (h.last hf)
      refine ⟨sl', ps', cp', i1, fun u => ?_, fun a b c => ?_, by simp; omega⟩
      · rw [i2, List.mem_cons]
        constructor
        · rintro (x | x) <;> simp [x]
        · rintro (x | x | x)
          · exact .inl x
          · exact .inl (x ▸ hm)
          · exact .inr x
      · exact i3 a (List.pairwise_cons.1 b).2 (fun u hu v hv => c u hu v (List.mem_cons_of_mem _ hv))
    · obtain ⟨sl', ps'', cp'', i1, i2, i3, i4⟩ := ih _ _ _ _ hst
      refine ⟨sl', ps'', cp'', i1, fun u => ?_, fun a b c => ?_, by simp at i4 ⊢; omega⟩
      · rw [i2]; simp [or_assoc]
      · rw [List.pairwise_cons] at b
        refine i3 ?_ b.2 ?_
        · refine List.pairwise_append.2 ⟨a, by simp, fun u hu v hv => ?_⟩
          simp at hv; subst hv
          have hle := c u hu v (by simp)
          refine lt_of_le_of_ne hle (fun e => ?_)
          subst e
          rcases hne with hne | hne
          · rw [h.first.1 hne] at hu; simp at hu
          · have hf : s.first = false := by
              cases hf : s.first with
              | false => rfl
              | true => rw [h.first.1 hf] at hu; simp at hu
            have hlast := h.last hf
            have hcur := c s.cur (List.mem_of_getLast? hlast) u (by simp)
            have hsl : sl = sl.dropLast ++ [s.cur] := by
              have := List.dropLast_append_getLast? s.cur hlast
              exact this.symm
            rw [hsl] at hu a
            rcases List.mem_append.1 hu with hu | hu
            · have := (List.pairwise_append.1 a).2.2 u hu s.cur (by simp)
              exact absurd hcur (not_le.2 this)
            · simp at hu; exact hne hu
        · intro u hu v hv
          rcases List.mem_append.1 hu with hu | hu
          · exact c u hu v (List.mem_cons_of_mem _ hv)
          · simp at hu; subst hu; exact b.1 v hv

theorem sorted_unique : ∀ (a b : List Rat), a.Pairwise (· < ·) → b.Pairwise (· < ·) → (∀ u, u ∈ a ↔ u ∈ b) →
    a = b := by
  intro a
  induction a with
  | nil =>
    intro b _ _ h
    cases b with
    | nil => rfl
    | cons y ys => exact absurd ((h y).2 (by simp)) (by simp)
  | cons x xs ih =>
    intro b ha hb h
    cases b with
    | nil => exact absurd ((h x).1 (by simp)) (by simp)
    | cons y ys =>
      rw [List.pairwise_cons] at ha hb
      have hxy : x = y := by
        rcases List.mem_cons.1 ((h x).1 (by simp)) with e | e
        · exact e
        · rcases List.mem_cons.1 ((h y).2 (by simp)) with e' | e'
          · exact e'.symm
          · exact absurd (lt_trans (hb.1 x e) (ha.1 y e')) (lt_irrefl _)
      subst hxy
      congr 1
      refine ih ys ha.2 hb.2 (fun u => ?_)
      constructor
      · intro hu
        rcases List.mem_cons.1 ((h u).1 (by simp [hu])) with e | e
        · subst e; exact absurd (ha.1 u hu) (lt_irrefl _)
        · exact e
      · intro hu
        rcases List.mem_cons.1 ((h u).2 (by simp [hu])) with e | e
        · subst e; exact absurd (hb.1 u hu) (lt_irrefl _)
        · exact e

/-- A list in order is no longer than one with the same members. -/
theorem sorted_short : ∀ (a b : List Rat), a.Pairwise (· < ·) → (∀ u ∈ a, u ∈ b) → a.length ≤ b.length := by
  intro a b ha h
  have hn : a.Nodup := ha.imp (fun h e => by subst e; exact lt_irrefl _ h)
  exact (List.subperm_of_subset hn h).length_le

/-- The tiling: what comes out. -/
theorem tiling_spec (nrows size segs : Nat) (times : List Rat) :
    ∃ (sl : List Rat) (pieces : List (List Rat)), sl = pieces.flatten ∧
      (∀ u, u ∈ sl ↔ u ∈ times) ∧ (times.Pairwise (· ≤ ·) → sl.Pairwise (· < ·)) ∧ sl.length ≤ times.length ∧
      (∀ p ∈ pieces, p ≠ []) ∧ (size ≠ 0 → ∀ p ∈ pieces, p.length ≤ size) ∧
      (segs = 1 → ∀ p ∈ pieces, Regular p) ∧
      (∀ a p b, pieces = a ++ p :: b → b ≠ [] → Ended size segs p b.flatten) ∧
      (tiling nrows size segs 1 times = .ok (pieces.map List.length) ∨
        (tiling nrows size segs 1 times = .ub ∧ nrows ≤ pieces.length)) := by
  obtain ⟨sl, ps, cp, h, h1, h2, h3⟩ := fold_inv nrows size segs times _ _ _ _ (tinv_init nrows size segs)
  have hpc : ∀ p, p ∈ ps ++ (if cp = [] then [] else [cp]) → p ∈ ps ∨ (p = cp ∧ cp ≠ []) := by
    intro p hp
    rcases List.mem_append.1 hp with hp | hp
    · exact .inl hp
    · split at hp
      · simp at hp
      · simp at hp; exact .inr ⟨hp, by assumption⟩
  refine ⟨sl, ps ++ (if cp = [] then [] else [cp]), ?_, fun u => by simp [h1], fun hs => h2 List.Pairwise.nil hs (by simp),
    by simpa using h3, ?_, ?_, ?_, ?_, ?_⟩
  · rw [h.flat]; split <;> simp [*]
  · intro p hp
    rcases hpc p hp with hp | ⟨rfl, hp⟩
    · exact h.nonempty p hp
    · exact hp
  · intro h0 p hp
    rcases hpc p hp with hp | ⟨rfl, hp⟩
    · exact (h.small h0).1 p hp
    · exact Nat.le_of_lt (h.small h0).2
  · intro h0 p hp
    rcases hpc p hp with hp | ⟨rfl, hp⟩
    · exact (h.reg h0).1 p hp
    · exact (h.reg h0).2
  · intro a p b he hb
    by_cases hc : cp = []
    · rw [if_pos hc, List.append_nil] at he
      have := h.ended a p b he
      rwa [hc, List.append_nil] at this
    · rw [if_neg hc] at he
      rcases List.eq_nil_or_concat b with hb' | ⟨b', x, hb'⟩
      · exact absurd hb' hb
      · subst hb'
        rw [List.concat_eq_append, ← List.cons_append, ← List.append_assoc] at he
        obtain ⟨e1, e2⟩ := List.append_inj' he rfl
        simp at e2
        have := h.ended a p b' e1
        rw [← e2]
        simpa using this
  · unfold tiling
    dsimp only
    cases ho : (times.foldl (Til.step nrows size segs 1) Til.init).over with
    | true =>
      refine .inr ⟨by simp, ?_⟩
      have := h.over ho
      rw [List.length_append]; omega
    | false =>
      refine .inl ?_
      simp only [Bool.false_eq_true, if_false]
      congr 1
      rw [h.cur, h.closed]
      by_cases hc : cp = []
      · simp [hc]
      · rw [if_pos (by simpa using hc), if_neg hc]; simp

theorem pieces_short : ∀ (ps : List (List Rat)), (∀ p ∈ ps, p ≠ []) → ps.length ≤ ps.flatten.length := by
  intro ps
  induction ps with
  | nil => simp
  | cons p ps ih =>
    intro h
    have := ih (fun q hq => h q (by simp [hq]))
    have hp : 0 < p.length := List.length_pos_iff.2 (h p (by simp))
    rw [List.flatten_cons, List.length_append, List.length_cons]; omega

/-! ### Writing -/

theorem putRow_other (c : Chans) (ms : List (Row γ)) (o : Option (TRow γ)) (i : Nat)
    (h : ∀ x, o = some x → x.seqnr ≠ i) : (putRow c ms o)[i]? = ms[i]? := by
  cases o with
  | none => rfl
  | some x => exact by unfold putRow; rw [List.getElem?_modify]; simp [h x rfl]

theorem putRow_length (c : Chans) (ms : List (Row γ)) (o : Option (TRow γ)) : (putRow c ms o).length = ms.length := by
  cases o with
  | none => rfl
  | some x => unfold putRow; simp

/-- All rows of all tiles, one after the other. -/
theorem write_flat (c : Chans) : ∀ (tiles : List (Tile γ)) ms,
    writeMS c ms tiles = (tiles.flatMap Tile.rows).foldl (putRow c) ms := by
  intro tiles
  induction tiles with
  | nil => intro ms; rfl
  | cons t ts ih =>
    intro ms
    rw [List.flatMap_cons, List.foldl_append]
    exact ih _

theorem fold_length (c : Chans) : ∀ (os : List (Option (TRow γ))) ms, (os.foldl (putRow c) ms).length = ms.length := by
  intro os
  induction os with
  | nil => intro ms; rfl
  | cons o os ih => intro ms; rw [List.foldl_cons, ih, putRow_length]

theorem fold_other (c : Chans) (i : Nat) : ∀ (os : List (Option (TRow γ))) ms, (∀ x, some x ∈ os → x.seqnr ≠ i) →
    (os.foldl (putRow c) ms)[i]? = ms[i]? := by
  intro os
  induction os with
  | nil => intro ms _; rfl
  | cons o os ih =>
    intro ms h
    rw [List.foldl_cons, ih _ (fun x hx => h x (by simp [hx]))]
    exact putRow_other c ms o i (fun x hx => h x (by simp [hx]))

theorem fold_at (c : Chans) : ∀ (os : List (Option (TRow γ))) ms x,
    (os.filterMap (fun o => o.map TRow.seqnr)).Nodup → some x ∈ os →
    (os.foldl (putRow c) ms)[x.seqnr]? =
      ms[x.seqnr]?.map (fun r => { r with data := c.write r.data x.data }) := by
  intro os
  induction os with
  | nil => intro ms x _ h; simp at h
  | cons o os ih =>
    intro ms x hn h
    rw [List.foldl_cons]
    cases o with
    | none => exact ih ms x (by simpa using hn) (by simpa using h)
    | some y =>
      have hn' : (y.seqnr :: os.filterMap (fun o => o.map TRow.seqnr)).Nodup := hn
      rw [List.nodup_cons] at hn'
      have hy : ∀ z, some z ∈ os → z.seqnr ≠ y.seqnr := by
        intro z hz e
        exact hn'.1 (List.mem_filterMap.2 ⟨some z, hz, by simp [e]⟩)
      rcases List.mem_cons.1 h with h | h
      · cases h
        rw [fold_other c _ os _ hy]
        unfold putRow; rw [List.getElem?_modify]; simp
      · rw [ih _ x hn'.2 h]
        rw [putRow_other c ms (some y) x.seqnr (fun z hz => by cases hz; exact fun e => hy x h e.symm)]

theorem seqnrs_flat (tiles : List (Tile γ)) :
    seqnrs tiles = (tiles.flatMap Tile.rows).filterMap (fun o => o.map TRow.seqnr) := by
  unfold seqnrs
  induction tiles with
  | nil => rfl
  | cons t ts ih => rw [List.flatMap_cons, List.flatMap_cons, List.filterMap_append, ih]

theorem fold_same (c : Chans) (ms : List (Row γ)) : ∀ (os : List (Option (TRow γ))),
    (∀ x, some x ∈ os → ∀ r, ms[x.seqnr]? = some r → c.write r.data x.data = r.data) →
    os.foldl (putRow c) ms = ms := by
  intro os
  induction os with
  | nil => intro _; rfl
  | cons o os ih =>
    intro h
    rw [List.foldl_cons]
    have : putRow c ms o = ms := by
      cases o with
      | none => rfl
      | some x =>
        unfold putRow
        apply List.ext_getElem?
        intro j
        rw [List.getElem?_modify]
        by_cases hj : x.seqnr = j
        · subst hj
          cases hr : ms[x.seqnr]? with
          | none => rfl
          | some r =>
            have := h x (by simp) r hr
            simp [this]
        · simp [hj]
    rw [this]
    exact ih (fun x hx => h x (by simp [hx]))

/-! ### Shape of tiles -/

theorem stream_shape {q : Sel} {c : Chans} : ∀ sizes no ts gs (tiles : List (Tile γ)),
    stream q c no ts sizes gs = .ok tiles →
    (tiles.map (fun t => (t.no, t.a1, t.a2))).Nodup ∧
    (∀ t ∈ tiles, t.a1 < q.nant ∧ t.a2 < q.nant ∧ t.times.length = t.rows.length ∧
      (∃ m, t.no = no + m ∧ sizes[m]? = some t.rows.length) ∧ ∃ x, some x ∈ t.rows) ∧
    ∀ t ∈ tiles, ∀ u ∈ tiles, t.no = u.no → t.times = u.times := by
  intro sizes
  induction sizes with
  | nil =>
    intro no ts gs tiles h
    cases gs with
    | nil => unfold stream at h; cases h; simp
    | cons g gs => unfold stream at h; cases h
  | cons n ns ih =>
    intro no ts gs tiles h
    cases gs with
    | nil => unfold stream at h; cases h; simp
    | cons g gs =>
      unfold stream at h
      dsimp only at h
      generalize takeSlots (if q.incr < 1 then 1 else q.incr) n (g :: gs) = rr at h
      split at h
      · rename_i tl htl
        cases h
        obtain ⟨i1, i2, i3⟩ := ih _ _ _ _ htl
        have hgt : ∀ t ∈ tl, no < t.no := by
          intro t ht
          obtain ⟨_, _, _, ⟨m, hm, _⟩, _⟩ := i2 t ht
          omega
        refine ⟨?_, ?_, ?_⟩
        · rw [List.map_append, List.nodup_append]
          refine ⟨?_, i1, ?_⟩
          · have : (chunk q c no ts n rr.1).map (fun t => (t.no, t.a1, t.a2)) =
                ((chunk q c no ts n rr.1).map (fun t => (t.a1, t.a2))).map (fun p => (no, p.1, p.2)) := by
              rw [List.map_map]
              apply List.map_congr_left
              intro t ht
              rw [(mem_chunk ht).1]; rfl
            rw [this]
            refine List.Nodup.map (fun a b e => by simpa using e) ?_
            have hsub : ((chunk q c no ts n rr.1).map (fun t => (t.a1, t.a2))).Sublist (pairs q.nant) := by
              unfold chunk
              generalize (if q.incr < 1 then 1 else q.incr) = m
              induction pairs q.nant with
              | nil => simp
              | cons p ps ihp =>
                rw [List.filterMap_cons]
                dsimp only
                split
                · exact ihp.cons p
                · rename_i t h
                  split at h
                  · cases h; exact ihp.cons_cons p
                  · cases h
            exact (pairs_nodup q.nant).sublist hsub
          · intro a ha b hb e
            subst e
            obtain ⟨t, ht, rfl⟩ := List.mem_map.1 ha
            obtain ⟨u, hu, he⟩ := List.mem_map.1 hb
            have h1 := hgt u hu
            have h2 := (mem_chunk ht).1
            simp at he
            omega
        · intro t ht
          rcases List.mem_append.1 ht with ht | ht
          · obtain ⟨h1, h2, h3, h4⟩ := mem_chunk ht
            obtain ⟨l1, l2⟩ := lens c (if q.incr < 1 then 1 else q.incr) (t.a1, t.a2) n ts rr.1
            have hp := (mem_pairs _ _ _).1 h3
            refine ⟨hp.1, hp.2, by rw [h2, h4, l1, l2], ⟨0, h1, by rw [h4, l1]; rfl⟩, ?_⟩
            unfold chunk at ht
            generalize (if q.incr < 1 then 1 else q.incr) = m at ht
            rw [List.mem_filterMap] at ht
            obtain ⟨p, _, ht⟩ := ht
            dsimp only at ht
            split at ht
            · rename_i hany
              cases ht
              obtain ⟨o, ho, hs⟩ := List.any_eq_true.1 hany
              obtain ⟨x, rfl⟩ := Option.isSome_iff_exists.1 hs
              exact ⟨x, ho⟩
            · cases ht
          · obtain ⟨j1, j2, j3, ⟨m, hm, hm'⟩, j4⟩ := i2 t ht
            exact ⟨j1, j2, j3, ⟨m + 1, by omega, by simpa using hm'⟩, j4⟩
        · intro t ht u hu e
          rcases List.mem_append.1 ht with ht | ht <;> rcases List.mem_append.1 hu with hu | hu
          · rw [(mem_chunk ht).2.1, (mem_chunk hu).2.1]
          · have := hgt u hu; have := (mem_chunk ht).1; omega
          · have := hgt t ht; have := (mem_chunk hu).1; omega
          · exact i3 t ht u hu e
      · cases h
      · cases h

theorem lastRow_unique {p : Nat × Nat} {g : List (Nat × Row γ)} {i : Nat} {r : Row γ} (h : (i, r) ∈ g)
    (h1 : r.a1 = (p.1 : Int)) (h2 : r.a2 = (p.2 : Int))
    (hu : ∀ j r', (j, r') ∈ g → r'.a1 = r.a1 → r'.a2 = r.a2 → j = i) : ∃ y, lastRow p g = some y ∧ y.1 = i := by
  unfold lastRow
  have hm : (i, r) ∈ g.filter (fun x => decide (x.2.a1 = (p.1 : Int) ∧ x.2.a2 = (p.2 : Int))) := by
    rw [List.mem_filter]; exact ⟨h, by simp [h1, h2]⟩
  cases hl : (g.filter (fun x => decide (x.2.a1 = (p.1 : Int) ∧ x.2.a2 = (p.2 : Int)))).getLast? with
  | none => rw [List.getLast?_eq_none_iff] at hl; rw [hl] at hm; simp at hm
  | some y =>
    have hy := List.mem_of_getLast? hl
    rw [List.mem_filter] at hy
    have hy2 : y.2.a1 = (p.1 : Int) ∧ y.2.a2 = (p.2 : Int) := by simpa using hy.2
    exact ⟨y, rfl, hu y.1 y.2 hy.1 (by rw [h1]; exact hy2.1) (by rw [h2]; exact hy2.2)⟩

theorem read_stream {q : Sel} {c : Chans} {ms : List (Row γ)} {tiles} (h : readMS q c ms = .ok tiles) :
    ∃ sizes, openMS q ms = .ok sizes ∧ stream q c 0 0 sizes (iterate (selected q ms)) = .ok tiles := by
  unfold readMS at h
  split at h
  · rename_i sizes hs; exact ⟨sizes, hs, h⟩
  · cases h
  · cases h

theorem iterTimes_spec (q : Sel) (ms : List (Row γ)) :
    ((iterate (selected q ms)).map Prod.fst).Pairwise (· < ·) ∧
    ∀ u, u ∈ (iterate (selected q ms)).map Prod.fst ↔
      ∃ (i : Nat) (r : Row γ), ms[i]? = some r ∧ Wanted q r ∧ r.time = u := by
  refine ⟨(iterate_slots q ms).sorted, fun u => ?_⟩
  have : (iterate (selected q ms)).map Prod.fst = iterTimes (selected q ms) := by
    unfold iterate
    rw [List.map_map]
    exact List.map_id _
  rw [this]
  unfold iterTimes
  rw [(fold_times _ [] List.Pairwise.nil).2]
  constructor
  · rintro (h | ⟨⟨i, r⟩, h, e⟩)
    · simp at h
    · obtain ⟨a, b⟩ := (mem_selected q ms i r).1 h
      exact ⟨i, r, a, b, e⟩
  · rintro ⟨i, r, a, b, e⟩
    exact .inr ⟨(i, r), (mem_selected q ms i r).2 ⟨a, b⟩, e⟩

theorem selected_order (q : Sel) (ms : List (Row γ)) : ((selected q ms).map Prod.fst).Pairwise (· < ·) := by
  unfold selected
  have h : ((ms.zipIdx.map (fun x => (x.2, x.1))).map Prod.fst).Pairwise (· < ·) := by
    rw [List.map_map]
    have : (Prod.fst ∘ fun x : Row γ × Nat => (x.2, x.1)) = Prod.snd := rfl
    rw [this, List.zipIdx_map_snd]
    exact List.pairwise_lt_range'
  exact h.sublist ((List.filter_sublist).map _)

/-- If the wanted rows are in order of time, so are the times of the selection. -/
theorem selected_times (q : Sel) (ms : List (Row γ))
    (h : ∀ (i j : Nat) (r r' : Row γ), i < j → ms[i]? = some r → ms[j]? = some r' → Wanted q r → Wanted q r' → r.time ≤ r'.time) :
    ((selected q ms).map (fun x => x.2.time)).Pairwise (· ≤ ·) := by
  rw [List.pairwise_map]
  have := selected_order q ms
  rw [List.pairwise_map] at this
  refine this.imp_of_mem ?_
  rintro ⟨i, r⟩ ⟨j, r'⟩ hi hj hlt
  obtain ⟨a, b⟩ := (mem_selected q ms i r).1 hi
  obtain ⟨a', b'⟩ := (mem_selected q ms j r').1 hj
  exact h i j r r' hlt a a' b b'

theorem openMS_eq (q : Sel) (hq : q.incr ≤ 1) (ms : List (Row γ)) (i : Nat) (r : Row γ) (h : ms[i]? = some r)
    (hw : Wanted q r) : openMS q ms = tiling (selected q ms).length q.size q.tilesegs 1
      ((selected q ms).map (fun x => x.2.time)) := by
  unfold openMS
  dsimp only
  have hm := (mem_selected q ms i r).2 ⟨h, hw⟩
  rw [if_neg (by intro e; rw [List.isEmpty_iff] at e; rw [e] at hm; simp at hm)]
  have h1 : (if q.incr < 1 then 1 else q.incr) = 1 := by split <;> omega
  rw [h1]

end Verif.MsChan
