import Verif.Model.MsSeq
import Verif.Proof.MsChan
import Mathlib.Data.List.Flatten

namespace Verif.MsSeq

open Verif.MsChan

variable {γ : Type}

/-- The entry of a row of the table. -/
def look (map : List (Option (Nat × Nat))) (tiles : List (Tile γ)) (i : Nat) : Option (TRow γ) :=
  match map[i]? with
  | some (some (k, j)) => ((tiles[k]?).bind (fun t => t.rows[j]?)).join
  | _ => none

theorem flushRows_eq (c : Chans) (map : List (Option (Nat × Nat))) (tiles : List (Tile γ)) : ∀ is ms,
    (∀ i ∈ is, ∀ k j, map[i]? = some (some (k, j)) →
      ∃ x, (tiles[k]?).bind (fun t => t.rows[j]?) = some (some x) ∧ x.seqnr = i) →
    flushRows c map tiles is ms = .ok ((is.map (look map tiles)).foldl (putRow c) ms) := by
  intro is
  induction is with
  | nil => intro ms _; rfl
  | cons i is ih =>
    intro ms h
    have ih' := fun ms => ih ms (fun i hi => h i (by simp [hi]))
    unfold flushRows
    cases hm : map[i]? with
    | none => dsimp only; rw [ih', List.map_cons, List.foldl_cons]; unfold look; rw [hm]; rfl
    | some o =>
      cases o with
      | none => dsimp only; rw [ih', List.map_cons, List.foldl_cons]; unfold look; rw [hm]; rfl
      | some p =>
        obtain ⟨k, j⟩ := p
        obtain ⟨x, hx, he⟩ := h i (by simp) k j hm
        dsimp only
        rw [hx]
        dsimp only
        rw [ih', List.map_cons, List.foldl_cons]
        have : look map tiles i = some x := by unfold look; rw [hm]; dsimp only; rw [hx]; rfl
        rw [this, show putRow c ms (some x) = ms.modify x.seqnr (fun r => { r with data := c.write r.data x.data }) from rfl, he]

/-- Folding over lists with the same rows, each once, gives the same. -/
theorem fold_same_mem (c : Chans) (ms : List (Row γ)) (as bs : List (Option (TRow γ)))
    (ha : (as.filterMap (fun o => o.map TRow.seqnr)).Nodup) (hb : (bs.filterMap (fun o => o.map TRow.seqnr)).Nodup)
    (h : ∀ x, some x ∈ as ↔ some x ∈ bs) : as.foldl (putRow c) ms = bs.foldl (putRow c) ms := by
  apply List.ext_getElem?
  intro i
  by_cases hi : ∃ x, some x ∈ as ∧ x.seqnr = i
  · obtain ⟨x, hx, rfl⟩ := hi
    rw [fold_at c as ms x ha hx, fold_at c bs ms x hb ((h x).1 hx)]
  · rw [fold_other c i as ms (fun x hx e => hi ⟨x, hx, e⟩),
      fold_other c i bs ms (fun x hx e => hi ⟨x, (h x).2 hx, e⟩)]

/-- The invariant: `done` are the tiles written, `s.tiles` those kept. -/
structure SInv (c : Chans) (ms0 : List (Row γ)) (done : List (Tile γ)) (s : Seq γ) : Prop where
  ms : s.ms = writeMS c ms0 done
  len : s.map.length = ms0.length
  old : ∀ i k j, s.map[i]? = some (some (k, j)) →
    (∃ x, (s.tiles[k]?).bind (fun t => t.rows[j]?) = some (some x) ∧ x.seqnr = i) ∨ i ∈ seqnrs done
  new : ∀ k (t : Tile γ) j (x : TRow γ), s.tiles[k]? = some t → t.rows[j]? = some (some x) →
    s.map[x.seqnr]? = some (some (k, j))
  bnd : ∀ i ∈ seqnrs s.tiles, s.lo ≤ i ∧ i ≤ s.hi
  lo : s.tiles ≠ [] → s.lo ∈ seqnrs s.tiles
  fresh : s.tiles = [] → s.lo = ms0.length ∧ s.hi = 0
  nos : ∀ t ∈ s.tiles, s.no = some t.no
  none : s.no = none → s.tiles = []

theorem writeMS_length (c : Chans) (ms : List (Row γ)) (tiles) : (writeMS c ms tiles).length = ms.length := by
  rw [write_flat]; exact fold_length c _ ms

theorem writeMS_append (c : Chans) (ms : List (Row γ)) (a b : List (Tile γ)) :
    writeMS c ms (a ++ b) = writeMS c (writeMS c ms a) b := by
  unfold writeMS; rw [List.foldl_append]

theorem mem_seqnrs {tiles : List (Tile γ)} {i : Nat} :
    i ∈ seqnrs tiles ↔ ∃ (k : Nat) (t : Tile γ) (j : Nat) (x : TRow γ), tiles[k]? = some t ∧ t.rows[j]? = some (some x) ∧ x.seqnr = i := by
  unfold seqnrs
  rw [List.mem_flatMap]
  constructor
  · rintro ⟨t, ht, h⟩
    obtain ⟨o, ho, he⟩ := List.mem_filterMap.1 h
    obtain ⟨k, hk⟩ := List.mem_iff_getElem?.1 ht
    obtain ⟨j, hj⟩ := List.mem_iff_getElem?.1 ho
    cases o with
    | none => simp at he
    | some x => exact ⟨k, t, j, x, hk, hj, by simpa using he⟩
  · rintro ⟨k, t, j, x, hk, hj, he⟩
    exact ⟨t, List.mem_of_getElem? hk, List.mem_filterMap.2 ⟨some x, List.mem_of_getElem? hj, by simp [he]⟩⟩

theorem flush_inv {c : Chans} {ms0 : List (Row γ)} {done : List (Tile γ)} {s : Seq γ} (h : SInv c ms0 done s)
    (hn : (seqnrs s.tiles).Nodup) (hlt : ∀ i ∈ seqnrs done, ∀ j ∈ seqnrs s.tiles, i < j) :
    ∃ s', flush c s = .ok s' ∧ SInv c ms0 (done ++ s.tiles) s' ∧ s'.tiles = [] ∧ s'.no = s.no := by
  unfold flush
  by_cases he : s.tiles = []
  · rw [if_pos (by simp [he])]
    exact ⟨s, rfl, by rw [he, List.append_nil]; exact h, he, rfl⟩
  · rw [if_neg (by simp [he])]
    have hlo := h.lo he
    have hle := h.bnd _ hlo
    rw [if_pos (by omega)]
    have hgood : ∀ i ∈ List.range' s.lo (s.hi + 1 - s.lo), ∀ k j, s.map[i]? = some (some (k, j)) →
        ∃ x, (s.tiles[k]?).bind (fun t => t.rows[j]?) = some (some x) ∧ x.seqnr = i := by
      intro i hi k j hm
      rcases h.old i k j hm with hx | hx
      · exact hx
      · have h1 := hlt i hx _ hlo
        rw [List.mem_range'_1] at hi
        omega
    rw [flushRows_eq c _ _ _ _ hgood]
    have hsame : ((List.range' s.lo (s.hi + 1 - s.lo)).map (look s.map s.tiles)).foldl (putRow c) s.ms =
        writeMS c s.ms s.tiles := by
      rw [write_flat]
      have hlook : ∀ i x, i ∈ List.range' s.lo (s.hi + 1 - s.lo) → look s.map s.tiles i = some x →
          x.seqnr = i ∧ some x ∈ s.tiles.flatMap Tile.rows := by
        intro i x hi hx
        unfold look at hx
        split at hx
        · rename_i k j hm
          obtain ⟨y, hy, hyi⟩ := hgood i hi k j hm
          rw [hy] at hx
          cases hx
          refine ⟨hyi, ?_⟩
          rw [Option.bind_eq_some_iff] at hy
          obtain ⟨t, ht, hj⟩ := hy
          exact List.mem_flatMap.2 ⟨t, List.mem_of_getElem? ht, List.mem_of_getElem? hj⟩
        · cases hx
      apply fold_same_mem
      · have : ∀ is : List Nat, (∀ i ∈ is, i ∈ List.range' s.lo (s.hi + 1 - s.lo)) → is.Nodup →
            ((is.map (look s.map s.tiles)).filterMap (fun o => o.map TRow.seqnr)).Nodup ∧
            ∀ i ∈ (is.map (look s.map s.tiles)).filterMap (fun o => o.map TRow.seqnr), i ∈ is := by
          intro is
          induction is with
          | nil => intro _ _; simp
          | cons i is ih =>
            intro hr hnd
            rw [List.nodup_cons] at hnd
            obtain ⟨i1, i2⟩ := ih (fun i hi => hr i (by simp [hi])) hnd.2
            rw [List.map_cons]
            cases hl : look s.map s.tiles i with
            | none =>
              rw [List.filterMap_cons_none rfl]
              exact ⟨i1, fun a ha => by simp [i2 a ha]⟩
            | some x =>
              have hx := (hlook i x (hr i (by simp)) hl).1
              rw [List.filterMap_cons_some (b := i) (by rw [← hx]; rfl)]
              refine ⟨List.nodup_cons.2 ⟨fun hc => hnd.1 (i2 i hc), i1⟩, fun a ha => ?_⟩
              rcases List.mem_cons.1 ha with rfl | ha
              · simp
              · simp [i2 a ha]
        exact (this _ (fun i hi => hi) List.nodup_range').1
      · rw [← seqnrs_flat]; exact hn
      · intro x
        constructor
        · intro hx
          obtain ⟨i, hi, hl⟩ := List.mem_map.1 hx
          exact (hlook i x hi hl).2
        · intro hx
          obtain ⟨t, ht, hx⟩ := List.mem_flatMap.1 hx
          obtain ⟨k, hk⟩ := List.mem_iff_getElem?.1 ht
          obtain ⟨j, hj⟩ := List.mem_iff_getElem?.1 hx
          have hb := h.bnd x.seqnr (mem_seqnrs.2 ⟨k, t, j, x, hk, hj, rfl⟩)
          refine List.mem_map.2 ⟨x.seqnr, by rw [List.mem_range'_1]; omega, ?_⟩
          unfold look
          rw [h.new k t j x hk hj]
          dsimp only
          rw [hk]
          simp [hj]
    rw [hsame]
    refine ⟨_, rfl, ?_, rfl, rfl⟩
    refine ⟨?_, h.len, ?_, ?_, ?_, ?_, ?_, ?_, ?_⟩
    · rw [writeMS_append, ← h.ms]
    · intro i k j hm
      right
      rw [seqnrs_append, List.mem_append]
      rcases h.old i k j hm with ⟨x, hx, he⟩ | hx
      · right
        rw [Option.bind_eq_some_iff] at hx
        obtain ⟨t, ht, hj⟩ := hx
        exact mem_seqnrs.2 ⟨k, t, j, x, ht, hj, he⟩
      · exact .inl hx
    · intro k t j x hk; simp at hk
    · intro i hi; simp [seqnrs] at hi
    · intro hc; exact absurd rfl hc
    · intro _
      exact ⟨by show (writeMS c s.ms s.tiles).length = _; rw [writeMS_length, h.ms, writeMS_length], rfl⟩
    · intro t ht; simp at ht
    · intro _; rfl

/-- The rows of a tile are entered. -/
theorem enter_spec (k : Nat) : ∀ (xs : List (Option (TRow γ))) j (s : Seq γ),
    (∀ x, some x ∈ xs → x.seqnr < s.map.length) → (xs.filterMap (fun o => o.map TRow.seqnr)).Nodup →
    ∃ s', enter k j xs s = .ok s' ∧ s'.ms = s.ms ∧ s'.tiles = s.tiles ∧ s'.no = s.no ∧
      s'.map.length = s.map.length ∧
      (∀ i, (∀ x, some x ∈ xs → x.seqnr ≠ i) → s'.map[i]? = s.map[i]?) ∧
      (∀ m x, xs[m]? = some (some x) → s'.map[x.seqnr]? = some (some (k, j + m))) ∧
      s'.lo ≤ s.lo ∧ s.hi ≤ s'.hi ∧ (∀ x, some x ∈ xs → s'.lo ≤ x.seqnr ∧ x.seqnr ≤ s'.hi) ∧
      (s'.lo = s.lo ∨ ∃ x, some x ∈ xs ∧ x.seqnr = s'.lo) := by
  intro xs
  induction xs with
  | nil =>
    intro j s _ _
    exact ⟨s, rfl, rfl, rfl, rfl, rfl, fun _ _ => rfl, by simp, Nat.le_refl _, Nat.le_refl _, by simp, .inl rfl⟩
  | cons o xs ih =>
    intro j s hl hn
    cases o with
    | none =>
      obtain ⟨s', h1, h2, h3, h4, h5, h6, h7, h8, h9, h10, h11⟩ := ih (j + 1) s (fun x hx => hl x (by simp [hx]))
        (by simpa using hn)
      refine ⟨s', h1, h2, h3, h4, h5, fun i hi => h6 i (fun x hx => hi x (by simp [hx])), ?_, h8, h9,
        fun x hx => h10 x (by simpa using hx), ?_⟩
      · intro m x hm
        cases m with
        | zero => simp at hm
        | succ m => rw [h7 m x (by simpa using hm), show j + 1 + m = j + (m + 1) by omega]
      · rcases h11 with h | ⟨x, hx, he⟩
        · exact .inl h
        · exact .inr ⟨x, by simp [hx], he⟩
    | some y =>
      have hy := hl y (by simp)
      have hn' : (y.seqnr :: xs.filterMap (fun o => o.map TRow.seqnr)).Nodup := hn
      rw [List.nodup_cons] at hn'
      unfold enter
      rw [if_pos hy]
      obtain ⟨s', h1, h2, h3, h4, h5, h6, h7, h8, h9, h10, h11⟩ := ih (j + 1)
        { s with map := s.map.set y.seqnr (some (k, j)), lo := min s.lo y.seqnr, hi := max s.hi y.seqnr }
        (fun x hx => by rw [List.length_set]; exact hl x (by simp [hx])) hn'.2
      dsimp only at h2 h3 h4 h5 h6 h8 h9 h11
      have hne : ∀ x, some x ∈ xs → x.seqnr ≠ y.seqnr := fun x hx e =>
        hn'.1 (List.mem_filterMap.2 ⟨some x, hx, by simp [e]⟩)
      refine ⟨s', h1, h2, h3, h4, by rw [h5, List.length_set], ?_, ?_, by omega, by omega, ?_, ?_⟩
      · intro i hi
        rw [h6 i (fun x hx => hi x (by simp [hx])), List.getElem?_set_ne (hi y (by simp))]
      · intro m x hm
        cases m with
        | zero =>
          simp at hm
          subst hm
          rw [h6 _ hne]
          simp [hy]
        | succ m => rw [h7 m x (by simpa using hm), show j + 1 + m = j + (m + 1) by omega]
      · intro x hx
        rcases List.mem_cons.1 hx with hx | hx
        · cases hx
          clear h11 h10 h7 h6 h5
          exact ⟨by omega, by omega⟩
        · exact h10 x hx
      · rcases h11 with h | ⟨x, hx, he⟩
        · by_cases hc : s.lo ≤ y.seqnr
          · exact .inl (by omega)
          · exact .inr ⟨y, by simp, by omega⟩
        · exact .inr ⟨x, by simp [hx], he⟩

theorem getElem?_snoc {α : Type} {l : List α} {a b : α} {k : Nat} (h : (l ++ [a])[k]? = some b) :
    l[k]? = some b ∨ (k = l.length ∧ b = a) := by
  by_cases hk : k < l.length
  · rw [List.getElem?_append_left hk] at h; exact .inl h
  · rw [List.getElem?_append_right (by omega)] at h
    have : k - l.length = 0 := by
      by_contra hc
      rw [List.getElem?_eq_none (by simp; omega)] at h; cases h
    rw [this] at h
    simp at h
    exact .inr ⟨by omega, h.symm⟩

/-- A tile is entered. -/
theorem enter_inv {c : Chans} {ms0 : List (Row γ)} {done : List (Tile γ)} {s : Seq γ} (h : SInv c ms0 done s)
    (t : Tile γ) (hno : s.no = some t.no) (hrow : ∃ x, some x ∈ t.rows)
    (hl : ∀ i ∈ seqnrs [t], i < ms0.length) (hn : (seqnrs (s.tiles ++ [t])).Nodup) :
    ∃ s', enter s.tiles.length 0 t.rows { s with tiles := s.tiles ++ [t] } = .ok s' ∧ SInv c ms0 done s' ∧
      s'.tiles = s.tiles ++ [t] ∧ s'.no = s.no := by
  have hst : seqnrs [t] = t.rows.filterMap (fun o => o.map TRow.seqnr) := by simp [seqnrs]
  have hmem : ∀ x, some x ∈ t.rows → x.seqnr ∈ seqnrs [t] := fun x hx => by
    rw [hst]; exact List.mem_filterMap.2 ⟨some x, hx, rfl⟩
  rw [seqnrs_append, List.nodup_append] at hn
  obtain ⟨s', h1, h2, h3, h4, h5, h6, h7, h8, h9, h10, h11⟩ := enter_spec s.tiles.length t.rows 0
    { s with tiles := s.tiles ++ [t] } (fun x hx => by
      show x.seqnr < s.map.length
      rw [h.len]; exact hl _ (hmem x hx)) (by rw [← hst]; exact hn.2.1)
  dsimp only at h2 h3 h4 h5 h6 h8 h9 h11
  refine ⟨s', h1, ?_, h3, h4⟩
  refine ⟨by rw [h2]; exact h.ms, by rw [h5]; exact h.len, ?_, ?_, ?_, ?_, ?_, ?_, ?_⟩
  · intro i k j hm
    by_cases hi : ∃ x, some x ∈ t.rows ∧ x.seqnr = i
    · left
      obtain ⟨x, hx, rfl⟩ := hi
      obtain ⟨m, hm'⟩ := List.mem_iff_getElem?.1 hx
      rw [h7 m x hm'] at hm
      simp at hm
      obtain ⟨rfl, rfl⟩ := hm
      exact ⟨x, by rw [h3]; simp [hm'], rfl⟩
    · rw [h6 i (fun x hx e => hi ⟨x, hx, e⟩)] at hm
      rcases h.old i k j hm with ⟨x, hx, he⟩ | hd
      · left
        refine ⟨x, ?_, he⟩
        rw [Option.bind_eq_some_iff] at hx ⊢
        obtain ⟨u, hu, hj⟩ := hx
        refine ⟨u, ?_, hj⟩
        rw [h3, List.getElem?_append_left]
        · exact hu
        · by_contra hc
          rw [List.getElem?_eq_none (by omega)] at hu; cases hu
      · exact .inr hd
  · intro k u j x hk hj
    rw [h3] at hk
    rcases getElem?_snoc hk with hk | ⟨rfl, rfl⟩
    · rw [h6, h.new k u j x hk hj]
      intro y hy e
      exact hn.2.2 x.seqnr (mem_seqnrs.2 ⟨k, u, j, x, hk, hj, rfl⟩) y.seqnr (hmem y hy) e.symm
    · rw [h7 j x hj]; simp
  · intro i hi
    rw [h3, seqnrs_append, List.mem_append] at hi
    rcases hi with hi | hi
    · have := h.bnd i hi; omega
    · rw [hst] at hi
      obtain ⟨o, ho, he⟩ := List.mem_filterMap.1 hi
      cases o with
      | none => simp at he
      | some x => simp at he; rw [← he]; exact h10 x ho
  · intro _
    rw [h3, seqnrs_append, List.mem_append]
    rcases h11 with hlo | ⟨x, hx, he⟩
    · by_cases hc : s.tiles = []
      · exfalso
        obtain ⟨x, hx⟩ := hrow
        have a := (h10 x hx).1
        have b := hl _ (hmem x hx)
        have d := (h.fresh hc).1
        omega
      · rw [hlo]; exact .inl (h.lo hc)
    · rw [← he]; exact .inr (hmem x hx)
  · intro hc; rw [h3] at hc; simp at hc
  · intro u hu
    rw [h4]
    rw [h3, List.mem_append] at hu
    rcases hu with hu | hu
    · exact h.nos u hu
    · simp at hu; subst hu; exact hno
  · intro hc; rw [h4, hno] at hc; cases hc

/-- All tiles of a list come after those before, if they have another number. -/
theorem putAll_eq (c : Chans) (ms0 : List (Row γ)) : ∀ (ts : List (Tile γ)) (done : List (Tile γ)) (s : Seq γ),
    SInv c ms0 done s → (∀ t ∈ done, ∀ u ∈ s.tiles ++ ts, ∀ i ∈ seqnrs [t], ∀ j ∈ seqnrs [u], i < j) →
    (s.tiles ++ ts).Pairwise (fun t u => t.no ≠ u.no → ∀ i ∈ seqnrs [t], ∀ j ∈ seqnrs [u], i < j) →
    (seqnrs (s.tiles ++ ts)).Nodup → (∀ i ∈ seqnrs ts, i < ms0.length) → (∀ t ∈ ts, ∃ x, some x ∈ t.rows) →
    ∃ s', putAll c s ts = .ok s' ∧ s'.ms = writeMS c ms0 (done ++ s.tiles ++ ts) := by
  have hsplit : ∀ (l : List (Tile γ)) i, i ∈ seqnrs l ↔ ∃ t ∈ l, i ∈ seqnrs [t] := by
    intro l i; simp [seqnrs]
  intro ts
  induction ts with
  | nil =>
    intro done s h hd hp hn hl hr
    rw [List.append_nil] at hd hp hn
    obtain ⟨s', h1, h2, h3, _⟩ := flush_inv h hn (fun i hi j hj => by
      obtain ⟨t, ht, hi⟩ := (hsplit _ _).1 hi
      obtain ⟨u, hu, hj⟩ := (hsplit _ _).1 hj
      exact hd t ht u hu i hi j hj)
    exact ⟨s', h1, by rw [h2.ms, List.append_nil]⟩
  | cons t ts ih =>
    intro done s h hd hp hn hl hr
    have hn1 : (seqnrs s.tiles).Nodup := by
      rw [seqnrs_append, List.nodup_append] at hn; exact hn.1
    have hlt : ∀ i ∈ seqnrs [t], i < ms0.length := fun i hi => hl i (by
      rw [hsplit]; exact ⟨t, by simp, hi⟩)
    have hlts : ∀ i ∈ seqnrs ts, i < ms0.length := fun i hi => hl i (by
      obtain ⟨u, hu, hi⟩ := (hsplit _ _).1 hi
      rw [hsplit]; exact ⟨u, by simp [hu], hi⟩)
    have happ : s.tiles ++ t :: ts = (s.tiles ++ [t]) ++ ts := by simp
    -- the tile joins those kept
    have join : ∀ (done' : List (Tile γ)) (s1 : Seq γ), SInv c ms0 done' s1 → s1.no = some t.no →
        done' ++ s1.tiles = done ++ s.tiles →
        (∀ t' ∈ done', ∀ u ∈ s1.tiles ++ t :: ts, ∀ i ∈ seqnrs [t'], ∀ j ∈ seqnrs [u], i < j) →
        (s1.tiles ++ t :: ts).Sublist (s.tiles ++ t :: ts) →
        ∃ s', (match enter s1.tiles.length 0 t.rows { s1 with tiles := s1.tiles ++ [t] } with
            | .ok s => putAll c s ts
            | .err => .err
            | .ub => .ub) = .ok s' ∧ s'.ms = writeMS c ms0 (done ++ s.tiles ++ t :: ts) := by
      intro done' s1 g hno heq hd1 hsub
      have hn' : (seqnrs ((s1.tiles ++ [t]) ++ ts)).Nodup := by
        rw [show (s1.tiles ++ [t]) ++ ts = s1.tiles ++ t :: ts by simp]
        exact hn.sublist (List.Sublist.flatMap hsub _)
      have hn2 : (seqnrs (s1.tiles ++ [t])).Nodup := by
        rw [seqnrs_append, List.nodup_append] at hn'; exact hn'.1
      obtain ⟨s2, e1, e2, e3, e4⟩ := enter_inv g t hno (hr t (by simp)) hlt hn2
      rw [e1]
      dsimp only
      obtain ⟨s', f1, f2⟩ := ih done' s2 e2 (by rw [e3]; simpa using hd1)
        (by rw [e3]; simpa using hp.sublist hsub) (by rw [e3]; exact hn') hlts (fun u hu => hr u (by simp [hu]))
      refine ⟨s', f1, ?_⟩
      rw [f2, e3, ← heq]
      simp
    unfold putAll put
    cases hs : s.no with
    | none =>
      dsimp only
      have ht := h.none hs
      refine join done { s with no := some t.no, lo := s.ms.length, hi := 0 } ?_ rfl rfl hd (List.Sublist.refl _)
      have hf := h.fresh ht
      have e : s.ms.length = s.lo := by rw [h.ms, writeMS_length, hf.1]
      exact ⟨h.ms, h.len, h.old, h.new, fun i hi => by
          have hi' : i ∈ seqnrs s.tiles := hi
          rw [ht] at hi'; simp [seqnrs] at hi', fun hc => absurd ht hc, fun _ => ⟨by rw [← hf.1]; exact e, rfl⟩,
        fun u hu => by
          have hu' : u ∈ s.tiles := hu
          rw [ht] at hu'; simp at hu', fun hc => by cases hc⟩
    | some n =>
      dsimp only
      by_cases hne : t.no ≠ n
      · rw [if_pos hne]
        obtain ⟨s1, f1, f2, f3, f4⟩ := flush_inv h hn1 (fun i hi j hj => by
          obtain ⟨t', ht', hi⟩ := (hsplit _ _).1 hi
          obtain ⟨u, hu, hj⟩ := (hsplit _ _).1 hj
          exact hd t' ht' u (by simp [hu]) i hi j hj)
        rw [f1]
        dsimp only
        refine join (done ++ s.tiles) { s1 with no := some t.no } ?_ rfl ?_ ?_ ?_
        · exact ⟨f2.ms, f2.len, f2.old, f2.new, f2.bnd, f2.lo, f2.fresh, fun u hu => by
            have hu' : u ∈ s1.tiles := hu
            rw [f3] at hu'; simp at hu', fun hc => by cases hc⟩
        · show done ++ s.tiles ++ s1.tiles = _
          rw [f3, List.append_nil]
        · show ∀ t' ∈ done ++ s.tiles, ∀ u ∈ s1.tiles ++ t :: ts, _
          rw [f3]
          intro t' ht' u hu i hi j hj
          rcases List.mem_append.1 ht' with ht' | ht'
          · exact hd t' ht' u (List.mem_append_right _ hu) i hi j hj
          · have hcross := (List.pairwise_append.1 hp).2.2 t' ht'
            have hno := h.nos t' ht'
            rw [hs] at hno
            have hno' : n = t'.no := by cases hno; rfl
            have hts := List.pairwise_cons.1 (List.pairwise_append.1 hp).2.1
            rcases List.mem_cons.1 hu with rfl | hu'
            · exact hcross _ (by simp) (fun e => hne (by rw [← e, hno'])) i hi j hj
            · by_cases hc : t'.no = u.no
              · obtain ⟨x, hx⟩ := hr t (by simp)
                have hm : x.seqnr ∈ seqnrs [t] := by
                  simp only [seqnrs, List.flatMap_cons, List.flatMap_nil, List.append_nil]
                  exact List.mem_filterMap.2 ⟨some x, hx, rfl⟩
                have a := hcross t (by simp) (fun e => hne (by rw [← e, hno'])) i hi _ hm
                have b := hts.1 u hu' (fun e => hne (by rw [e, ← hc, hno'])) _ hm j hj
                omega
              · exact hcross u (by simp [hu']) hc i hi j hj
        · show (s1.tiles ++ t :: ts).Sublist _
          rw [f3]
          exact List.sublist_append_right _ _
      · rw [if_neg hne]
        dsimp only
        exact join done s h (by rw [hs]; congr 1; exact (Decidable.of_not_not hne).symm) rfl hd (List.Sublist.refl _)

/-- Tiles with another number come later in time. -/
theorem stream_later {q : Sel} {ms : List (Row γ)} (c : Chans) : ∀ sizes no ts gs tiles, Slots q ms gs →
    stream q c no ts sizes gs = .ok tiles →
    tiles.Pairwise (fun t u => t.no ≠ u.no → ∀ i ∈ seqnrs [t], ∀ j ∈ seqnrs [u],
      ∃ r r', ms[i]? = some r ∧ ms[j]? = some r' ∧ r.time < r'.time) := by
  intro sizes
  induction sizes with
  | nil =>
    intro no ts gs tiles hs h
    cases gs with
    | nil => unfold stream at h; cases h; simp
    | cons g gs => unfold stream at h; cases h
  | cons n ns ih =>
    intro no ts gs tiles hs h
    cases gs with
    | nil => unfold stream at h; cases h; simp
    | cons g gs =>
      unfold stream at h
      dsimp only at h
      have hsub := takeSlots_sub (if q.incr < 1 then 1 else q.incr) n (g :: gs)
      generalize takeSlots (if q.incr < 1 then 1 else q.incr) n (g :: gs) = rr at h hsub
      split at h
      · rename_i tl htl
        cases h
        have hboth := hs.sub hsub
        have i1 := ih _ _ _ _ (hboth.sub (List.sublist_append_right _ _)) htl
        have i2 := (stream_nodup c _ _ _ _ _ (hboth.sub (List.sublist_append_right _ _)) htl).2
        have j2 := (chunk_nodup c no ts n (hboth.sub (List.sublist_append_left _ _))).2
        have hsplit : ∀ (l : List (Tile γ)) t i, t ∈ l → i ∈ seqnrs [t] → i ∈ seqnrs l := by
          intro l t i ht hi
          simp only [seqnrs, List.flatMap_cons, List.flatMap_nil, List.append_nil] at hi
          exact List.mem_flatMap.2 ⟨t, ht, hi⟩
        refine List.pairwise_append.2 ⟨?_, i1, ?_⟩
        · refine List.pairwise_of_forall_mem_list (fun t ht u hu hne => ?_)
          exact absurd ((mem_chunk ht).1.trans (mem_chunk hu).1.symm) hne
        · intro t ht u hu _ i hi j hj
          obtain ⟨p, g1, hg1, r, s1, s2, _⟩ := j2 i (hsplit _ t i ht hi)
          obtain ⟨p', g2, hg2, r', s1', s2', _⟩ := i2 j (hsplit _ u j hu hj)
          have hlt := (List.pairwise_append.1 (by simpa using hboth.sorted :
            (rr.1.map Prod.fst ++ rr.2.map Prod.fst).Pairwise (· < ·))).2.2 g1.1
              (List.mem_map_of_mem hg1) g2.1 (List.mem_map_of_mem hg2)
          exact ⟨r, r', s1, s1', by rw [s2, s2']; exact hlt⟩
      · cases h
      · cases h

theorem start_inv (c : Chans) (ms : List (Row γ)) : SInv c ms [] (start ms) := by
  refine ⟨rfl, by simp [start], ?_, ?_, ?_, ?_, ?_, ?_, ?_⟩
  · intro i k j h
    unfold start at h
    rw [List.getElem?_replicate] at h
    split at h <;> cases h
  · intro k t j x h; simp [start] at h
  · intro i h; simp [start, seqnrs] at h
  · intro h; exact absurd rfl h
  · intro _; exact ⟨rfl, rfl⟩
  · intro t h; simp [start] at h
  · intro _; rfl

end Verif.MsSeq
