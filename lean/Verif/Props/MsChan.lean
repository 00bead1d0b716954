import Verif.Proof.MsChan

/-!
# Properties C225-C229: reading and writing of measurement sets
-/
namespace Verif.MsChan

/-- A row for examples: field 0, description 0. -/
def exRow (t : Rat) (a b : Int) (data : List Nat) : Row Nat := ⟨t, 1, 0, 0, a, b, data⟩

/-- Two antennas, up to 10 timeslots in a tile. -/
def exSel : Sel := ⟨0, 0, false, 10, 0, 1, 3⟩

/-- Channels 1 and 2, reversed. -/
def exChans : Chans := ⟨1, 2, 1, true⟩

/-- Three timeslots; the baseline 0-2 is missing in the second one; a row of autocorrelations. -/
def exMS : List (Row Nat) :=
  [exRow 1 0 1 [10, 11, 12], exRow 1 0 2 [20, 21, 22], exRow 1 1 1 [5, 5, 5], exRow 2 0 1 [30, 31, 32],
   exRow 3 0 2 [40, 41, 42], exRow 3 0 1 [50, 51, 52]]

/-! ### C225: rows in tiles -/

/-- The full property: the set can be read, and each wanted row of existing antennas is in a tile. -/
def C225_full : Prop :=
  ∀ (q : Sel) (c : Chans) (ms : List (Row Nat)), q.incr = 1 → 0 < q.tilesize → 0 < c.incr →
    (∀ r ∈ ms, Fits c r.data) → (∃ r ∈ ms, Wanted q r) →
    ∃ tiles, readMS q c ms = .ok tiles ∧
      ∀ (i : Nat) (r : Row Nat), ms[i]? = some r → Wanted q r → 0 ≤ r.a1 → r.a1 < q.nant → 0 ≤ r.a2 →
        r.a2 < q.nant → ∃ t ∈ tiles, ∃ k, At t k i

/-- Each row of a tile shows the selected channels of a wanted row of the table, which has the baseline of the
tile and the time given by the tile. -/
theorem C225_rows {γ : Type} (q : Sel) (c : Chans) (ms : List (Row γ)) (tiles : List (Tile γ))
    (h : readMS q c ms = .ok tiles) (hf : ∀ r ∈ ms, Fits c r.data) :
    ∀ t ∈ tiles, ∀ (k : Nat) (x : TRow γ), t.rows[k]? = some (some x) →
      ∃ r, ms[x.seqnr]? = some r ∧ Wanted q r ∧ r.a1 = (t.a1 : Int) ∧ r.a2 = (t.a2 : Int) ∧
        t.times[k]? = some r.time ∧ Shows c r.data x.data := by
  obtain ⟨sizes, _, hs⟩ := read_stream h
  intro t ht k x hx
  obtain ⟨r, h1, h2, h3, h4, h5, h6⟩ := stream_sound c sizes 0 0 _ tiles (iterate_slots q ms) hs t ht k x hx
  exact ⟨r, h1, h2, h3, h4, h5, by rw [h6]; exact read_shows c _ (hf r (List.mem_of_getElem? h1))⟩

/-- No row of the table is in the tiles twice. -/
theorem C225_once {γ : Type} (q : Sel) (c : Chans) (ms : List (Row γ)) (tiles : List (Tile γ))
    (h : readMS q c ms = .ok tiles) : (seqnrs tiles).Nodup := by
  obtain ⟨sizes, _, hs⟩ := read_stream h
  exact (stream_nodup c sizes 0 0 _ tiles (iterate_slots q ms) hs).1

/-- All timeslots are read, and the row is the only one of its baseline at its time: it is in a tile.  Missing
from the full property: rows of the same baseline and time, increments of time. -/
theorem C225_found_partial {γ : Type} (q : Sel) (c : Chans) (ms : List (Row γ)) (tiles : List (Tile γ))
    (hq : q.incr ≤ 1) (h : readMS q c ms = .ok tiles) (i : Nat) (r : Row γ) (hi : ms[i]? = some r)
    (hw : Wanted q r) (h1 : 0 ≤ r.a1) (h1' : r.a1 < q.nant) (h2 : 0 ≤ r.a2) (h2' : r.a2 < q.nant)
    (hu : ∀ (j : Nat) (r' : Row γ), ms[j]? = some r' → Wanted q r' → r'.time = r.time → r'.a1 = r.a1 →
      r'.a2 = r.a2 → j = i) :
    ∃ t ∈ tiles, ∃ k, At t k i := by
  obtain ⟨sizes, _, hs⟩ := read_stream h
  obtain ⟨g, hg, hgt⟩ := iterate_mem q ms i r hi hw
  have hrows := (iterate_slots q ms).rows g hg
  obtain ⟨y, hy, hyi⟩ := lastRow_unique (p := (r.a1.toNat, r.a2.toNat)) ((hrows i r).2 ⟨hi, hw, hgt.symm⟩)
    (by simp [h1]) (by simp [h2]) (fun j r' hj e1 e2 => by
      obtain ⟨a, b, e⟩ := (hrows j r').1 hj
      exact hu j r' a b (by rw [e, hgt]) e1 e2)
  obtain ⟨t, ht, k, x, hx, he⟩ := stream_complete hq sizes 0 0 _ tiles hs g hg (r.a1.toNat, r.a2.toNat)
    ((mem_pairs _ _ _).2 ⟨by omega, by omega⟩) y hy
  exact ⟨t, ht, k, x, hx, by rw [he, hyi]⟩

/-- The number of a timeslot is its place among all times of wanted rows. -/
theorem C225_slot_partial {γ : Type} (q : Sel) (c : Chans) (ms : List (Row γ)) (tiles : List (Tile γ))
    (hq : q.incr ≤ 1) (h : readMS q c ms = .ok tiles) (ts : List Rat) (hts : ts.Pairwise (· < ·))
    (hm : ∀ u, u ∈ ts ↔ ∃ r ∈ ms, Wanted q r ∧ r.time = u) :
    ∀ t ∈ tiles, ∀ (k : Nat) (x : TRow γ), t.rows[k]? = some (some x) → ts[x.slot]? = t.times[k]? := by
  obtain ⟨sizes, _, hs⟩ := read_stream h
  obtain ⟨a, b⟩ := iterTimes_spec q ms
  have : ts = (iterate (selected q ms)).map Prod.fst := by
    refine sorted_unique _ _ hts a (fun u => ?_)
    rw [hm, b]
    constructor
    · rintro ⟨r, hr, x⟩
      obtain ⟨i, hi⟩ := List.mem_iff_getElem?.1 hr
      exact ⟨i, r, hi, x⟩
    · rintro ⟨i, r, hi, x⟩
      exact ⟨r, List.mem_of_getElem? hi, x⟩
  rw [this]
  exact stream_slot hq (iterate (selected q ms)) sizes 0 0 _ tiles (by simp) hs

/-- Tiles: each has its own baseline and number, existing antennas, the size found when the set was opened,
the times of all tiles with this number, and some row. -/
theorem C225_tiles {γ : Type} (q : Sel) (c : Chans) (ms : List (Row γ)) (tiles : List (Tile γ)) (sizes : List Nat)
    (h : readMS q c ms = .ok tiles) (ho : openMS q ms = .ok sizes) :
    (tiles.map (fun t => (t.no, t.a1, t.a2))).Nodup ∧
    (∀ t ∈ tiles, t.a1 < q.nant ∧ t.a2 < q.nant ∧ sizes[t.no]? = some t.rows.length ∧
      t.times.length = t.rows.length ∧ ∃ x, some x ∈ t.rows) ∧
    ∀ t ∈ tiles, ∀ u ∈ tiles, t.no = u.no → t.times = u.times := by
  obtain ⟨sizes', ho', hs⟩ := read_stream h
  rw [ho] at ho'
  cases ho'
  obtain ⟨a, b, d⟩ := stream_shape sizes 0 0 _ tiles hs
  refine ⟨a, fun t ht => ?_, d⟩
  obtain ⟨b1, b2, b3, ⟨m, hm, hm'⟩, b4⟩ := b t ht
  exact ⟨b1, b2, by rw [hm, Nat.zero_add]; exact hm', b3, b4⟩

/-- With all timeslots read and some wanted row, reading does not fail (but may write outside of memory). -/
theorem C225_served_partial {γ : Type} (q : Sel) (c : Chans) (ms : List (Row γ)) (hq : q.incr ≤ 1)
    (hw : ∃ r ∈ ms, Wanted q r) : readMS q c ms ≠ .err := by
  obtain ⟨r, hr, hw⟩ := hw
  obtain ⟨i, hi⟩ := List.mem_iff_getElem?.1 hr
  have he := openMS_eq q hq ms i r hi hw
  obtain ⟨sl, pieces, p1, p2, p3, p4, p5, p6, p7, p8, p9⟩ := tiling_spec (selected q ms).length q.size q.tilesegs
    ((selected q ms).map (fun x => x.2.time))
  obtain ⟨a, b⟩ := iterTimes_spec q ms
  unfold readMS
  rw [he]
  rcases p9 with p9 | ⟨p9, _⟩
  · rw [p9]
    have hlen : (iterate (selected q ms)).length ≤ (pieces.map List.length).sum := by
      rw [← List.length_flatten, ← p1]
      have := sorted_short _ sl a (fun u hu => by
        rw [p2, List.mem_map]
        obtain ⟨i, r, x, y, z⟩ := (b u).1 hu
        exact ⟨(i, r), (mem_selected q ms i r).2 ⟨x, y⟩, z⟩)
      rwa [List.length_map] at this
    obtain ⟨tiles, ht⟩ := stream_ok (c := c) hq _ 0 0 (iterate (selected q ms)) hlen
    dsimp only
    rw [ht]
    intro e; cases e
  · rw [p9]
    intro e; cases e

/-- A set without wanted rows cannot be opened. -/
theorem C225_empty {γ : Type} (q : Sel) (c : Chans) (ms : List (Row γ)) (hw : ∀ r ∈ ms, ¬ Wanted q r) :
    readMS q c ms = .err := by
  have : selected q ms = [] := by
    rw [List.eq_nil_iff_forall_not_mem]
    rintro ⟨i, r⟩ hm
    obtain ⟨a, b⟩ := (mem_selected q ms i r).1 hm
    exact hw r (List.mem_of_getElem? a) b
  unfold readMS openMS
  simp [this]

/-- Of two rows with the same baseline and time only the second one is read. -/
theorem C225_refuted : ¬ C225_full := by
  intro h
  obtain ⟨tiles, h1, h2⟩ := h exSel ⟨0, 1, 1, false⟩ [exRow 1 0 1 [7], exRow 1 0 1 [8], exRow 2 0 1 [9]] rfl (by decide)
    (by decide) (by intro r hr k hk; simp [exRow] at hr hk ⊢; rcases hr with rfl | rfl | rfl <;> simp <;> omega)
    ⟨exRow 1 0 1 [7], by simp, by unfold Wanted; decide⟩
  obtain ⟨t, ht, k, x, hx, hs⟩ := h2 0 (exRow 1 0 1 [7]) rfl (by unfold Wanted; decide) (by decide) (by decide)
    (by decide) (by decide)
  have hm : 0 ∈ seqnrs tiles := by
    unfold seqnrs
    rw [List.mem_flatMap]
    exact ⟨t, ht, List.mem_filterMap.2 ⟨some x, List.mem_of_getElem? hx, by simp [hs]⟩⟩
  have hd : (match readMS exSel ⟨0, 1, 1, false⟩ [exRow 1 0 1 [7], exRow 1 0 1 [8], exRow 2 0 1 [9]] with
      | .ok tl => seqnrs tl | _ => []) = [1, 2] := by decide +kernel
  rw [h1] at hd
  dsimp only at hd
  rw [hd] at hm
  simp at hm

/-- Every second of three timeslots, with one row each: reading fails, after the first tile. -/
theorem C225_incr : readMS ⟨0, 0, false, 1, 0, 2, 3⟩ ⟨0, 1, 1, false⟩
    [exRow 1 0 1 [7], exRow 2 0 1 [8], exRow 3 0 1 [9]] = .err := by decide +kernel

example : readMS exSel exChans exMS =
    .ok [⟨0, 1, 0, [1, 2, 3], [some ⟨0, [12, 11], 0⟩, some ⟨1, [32, 31], 3⟩, some ⟨2, [52, 51], 5⟩]⟩,
      ⟨0, 2, 0, [1, 2, 3], [some ⟨0, [22, 21], 1⟩, none, some ⟨2, [42, 41], 4⟩]⟩] := by decide +kernel

/-! ### C226: sizes of tiles -/

/-- The full property: the set can be opened, and the tiles have as many timeslots as there are times. -/
def C226_full : Prop :=
  ∀ (q : Sel) (ms : List (Row Nat)) (ts : List Rat), q.incr = 1 → (∃ r ∈ ms, Wanted q r) → ts.Pairwise (· < ·) →
    (∀ u, u ∈ ts ↔ ∃ r ∈ ms, Wanted q r ∧ r.time = u) →
    ∃ sizes, openMS q ms = .ok sizes ∧ sizes.sum = ts.length

/-- The wanted rows are in order of time, and no timeslots are left out: the tiles cut the times into pieces that
are not empty and not too large; with one segment per tile they are regular; and a piece other than the last one
could not have been larger.  Missing: tables not in order, increments, the cause of failures. -/
theorem C226_pieces_partial {γ : Type} (q : Sel) (ms : List (Row γ)) (sizes : List Nat) (ts : List Rat)
    (hq : q.incr ≤ 1) (h : openMS q ms = .ok sizes)
    (hso : ∀ (i j : Nat) (r r' : Row γ), i < j → ms[i]? = some r → ms[j]? = some r' → Wanted q r → Wanted q r' →
      r.time ≤ r'.time)
    (hts : ts.Pairwise (· < ·)) (hm : ∀ u, u ∈ ts ↔ ∃ r ∈ ms, Wanted q r ∧ r.time = u) :
    ∃ pieces : List (List Rat), ts = pieces.flatten ∧ sizes = pieces.map List.length ∧
      (∀ p ∈ pieces, p ≠ [] ∧ (q.tilesize ≠ 0 → p.length ≤ q.tilesize) ∧
        (q.tilesize = 0 → q.tilesegs = 0 → p.length = 1) ∧ (q.tilesegs = 1 → Regular p)) ∧
      ∀ a p u b z, pieces = a ++ p :: (u :: b) :: z →
        (q.tilesegs = 0 → p.length = if q.tilesize = 0 then 1 else q.tilesize) ∧
        (q.tilesegs = 1 → p.length = q.tilesize ∨ ¬ Regular (p ++ [u])) := by
  by_cases hex : ∃ r ∈ ms, Wanted q r
  · obtain ⟨r, hr, hw⟩ := hex
    obtain ⟨i, hi⟩ := List.mem_iff_getElem?.1 hr
    rw [openMS_eq q hq ms i r hi hw] at h
    obtain ⟨sl, pieces, p1, p2, p3, p4, p5, p6, p7, p8, p9⟩ := tiling_spec (selected q ms).length q.size q.tilesegs
      ((selected q ms).map (fun x => x.2.time))
    have hok : sizes = pieces.map List.length := by
      rcases p9 with p9 | ⟨p9, _⟩
      · rw [p9] at h; cases h; rfl
      · rw [p9] at h; cases h
    have hsl : ts = sl := by
      refine sorted_unique _ _ hts (p3 (selected_times q ms hso)) (fun u => ?_)
      rw [hm, p2, List.mem_map]
      constructor
      · rintro ⟨r, hr, a, b⟩
        obtain ⟨i, hi⟩ := List.mem_iff_getElem?.1 hr
        exact ⟨(i, r), (mem_selected q ms i r).2 ⟨hi, a⟩, b⟩
      · rintro ⟨⟨i, r⟩, h', b⟩
        obtain ⟨x, y⟩ := (mem_selected q ms i r).1 h'
        exact ⟨r, List.mem_of_getElem? x, y, b⟩
    refine ⟨pieces, by rw [hsl, p1], hok, fun p hp => ⟨p5 p hp, ?_, ?_, fun h1 => p7 h1 p hp⟩, ?_⟩
    · intro h0
      have hz : q.size = q.tilesize := by unfold Sel.size; rw [if_neg (fun e => h0 e.1)]
      rw [hz] at p6
      exact p6 h0 p hp
    · intro h0 h1
      have hz : q.size = 1 := by unfold Sel.size; rw [if_pos ⟨h0, h1⟩]
      rw [hz] at p6
      have := p6 (by decide) p hp
      have := List.length_pos_iff.2 (p5 p hp)
      omega
    · intro a p u b z he
      have := p8 a p ((u :: b) :: z) he (by simp)
      constructor
      · intro h0
        rcases this with e | ⟨e, _⟩
        · rw [e]; unfold Sel.size; simp [h0]
        · exact absurd h0 e
      · intro h1
        rcases this with e | ⟨_, e⟩
        · exact .inl (by rw [e]; unfold Sel.size; simp [h1])
        · obtain ⟨v, hv, hr⟩ := e h1
          simp at hv
          subst hv
          exact .inr hr
  · have : selected q ms = [] := by
      rw [List.eq_nil_iff_forall_not_mem]
      rintro ⟨i, r⟩ hmem
      obtain ⟨a, b⟩ := (mem_selected q ms i r).1 hmem
      exact hex ⟨r, List.mem_of_getElem? a, b⟩
    unfold openMS at h
    simp [this] at h

/-- Nothing is written outside of memory if two rows have the same time (and the rows are in order). -/
theorem C226_opened_partial {γ : Type} (q : Sel) (ms : List (Row γ)) (hq : q.incr ≤ 1)
    (hso : ∀ (i j : Nat) (r r' : Row γ), i < j → ms[i]? = some r → ms[j]? = some r' → Wanted q r → Wanted q r' →
      r.time ≤ r'.time)
    (i j : Nat) (r r' : Row γ) (hij : i ≠ j) (hi : ms[i]? = some r) (hj : ms[j]? = some r') (hw : Wanted q r)
    (hw' : Wanted q r') (ht : r.time = r'.time) : ∃ sizes, openMS q ms = .ok sizes := by
  rw [openMS_eq q hq ms i r hi hw]
  obtain ⟨sl, pieces, p1, p2, p3, p4, p5, p6, p7, p8, p9⟩ := tiling_spec (selected q ms).length q.size q.tilesegs
    ((selected q ms).map (fun x => x.2.time))
  rcases p9 with p9 | ⟨_, p9⟩
  · exact ⟨_, p9⟩
  · exfalso
    have hsl := p3 (selected_times q ms hso)
    obtain ⟨k, hk⟩ := List.mem_iff_getElem?.1 ((mem_selected q ms i r).2 ⟨hi, hw⟩)
    obtain ⟨k', hk'⟩ := List.mem_iff_getElem?.1 ((mem_selected q ms j r').2 ⟨hj, hw'⟩)
    have hne : k' ≠ k := by
      intro e; subst e
      rw [hk] at hk'
      simp at hk'
      exact hij hk'.1
    have hlt : k < (selected q ms).length := by
      by_contra hc
      rw [List.getElem?_eq_none (by omega)] at hk; cases hk
    have hle := sorted_short sl (((selected q ms).map (fun x => x.2.time)).eraseIdx k) hsl (fun u hu => by
      rw [List.mem_eraseIdx_iff_getElem?]
      obtain ⟨m, hm⟩ := List.mem_iff_getElem?.1 ((p2 u).1 hu)
      by_cases e : m = k
      · subst e
        refine ⟨k', hne, ?_⟩
        rw [List.getElem?_map, hk] at hm
        rw [List.getElem?_map, hk']
        simp at hm ⊢
        rw [← ht, hm]
      · exact ⟨m, e, hm⟩)
    rw [List.length_eraseIdx_of_lt (by simpa using hlt), List.length_map] at hle
    have := pieces_short pieces p5
    rw [← p1] at this
    omega

/-- One row, and one timeslot to a tile (the default): a size is written behind the end of the vector. -/
theorem C226_refuted : ¬ C226_full := by
  intro h
  obtain ⟨sizes, h1, _⟩ := h ⟨0, 0, false, 0, 0, 1, 3⟩ [exRow 1 0 1 [7]] [1] rfl
    ⟨exRow 1 0 1 [7], by simp, by unfold Wanted; decide⟩ (by simp) (by intro u; simp [Wanted, exRow, eq_comm])
  have hd : (match openMS ⟨0, 0, false, 0, 0, 1, 3⟩ [exRow 1 0 1 [7]] with | .ub => true | _ => false) = true := by
    decide +kernel
  rw [h1] at hd
  cases hd

/-- Rows not in order of time (two times, three changes): one timeslot too many, so that the tile ends with a row
that is missing, at time 0. -/
theorem C226_unsorted : readMS exSel ⟨0, 1, 1, false⟩ [exRow 1 0 1 [7], exRow 2 0 1 [8], exRow 1 0 2 [9]] =
    .ok [⟨0, 1, 0, [1, 2, 0], [some ⟨0, [7], 0⟩, some ⟨1, [8], 1⟩, none]⟩,
      ⟨0, 2, 0, [1, 2, 0], [some ⟨0, [9], 2⟩, none, none]⟩] := by decide +kernel

/-- Up to 2 timeslots to a tile; and one segment to a tile. -/
example : (match openMS { exSel with tilesize := 2 } exMS with | .ok l => l | _ => []) = [2, 1] ∧
    (match openMS { exSel with tilesize := 0, tilesegs := 1 }
      [exRow 1 0 1 [], exRow 1 0 2 [], exRow 2 0 1 [], exRow 3 0 1 [], exRow 7 0 1 [], exRow 8 0 1 []] with
      | .ok l => l | _ => []) = [3, 2] := by decide +kernel

/-! ### C227: range of channels -/

/-- The full property: the range is within the channels. -/
def C227_full : Prop :=
  ∀ n c0 c1 : Int, 0 < n → 0 ≤ (selChannels n c0 c1).1 ∧ (selChannels n c0 c1).1 ≤ (selChannels n c0 c1).2 ∧
    (selChannels n c0 c1).2 < n

/-- Neither is the number of channels, and the last is not too far from the end: the range is within the channels.
Missing: these cases. -/
theorem C227_range_partial (n c0 c1 : Int) (hn : 0 < n) (h0 : c0 ≠ n) (h1 : c1 ≠ n) (h2 : -n ≤ c1) :
    0 ≤ (selChannels n c0 c1).1 ∧ (selChannels n c0 c1).1 ≤ (selChannels n c0 c1).2 ∧ (selChannels n c0 c1).2 < n := by
  unfold selChannels
  dsimp only
  split_ifs <;> dsimp only <;> omega

/-- Existing channels are taken as they are, in either order. -/
theorem C227_given (n c0 c1 : Int) (h0 : 0 ≤ c0) (h0' : c0 < n) (h1 : 0 ≤ c1) (h1' : c1 < n) :
    selChannels n c0 c1 = (min c0 c1, max c0 c1) := by
  unfold selChannels
  dsimp only
  rw [if_neg (show ¬ c0 < 0 by omega), if_neg (show ¬ c1 < 0 by omega), if_neg (show ¬ c0 > n by omega),
    if_neg (show ¬ c1 > n by omega)]
  split
  · rw [min_eq_right (by omega), max_eq_left (by omega)]
  · rw [min_eq_left (by omega), max_eq_right (by omega)]

/-- A negative last channel counts from the end, a negative first one is the first; what is too large is the
last one. -/
theorem C227_ends (n c0 c1 : Int) (hn : 0 < n) :
    (c0 < 0 → c1 < 0 → -n ≤ c1 → selChannels n c0 c1 = (0, n + c1)) ∧
    (c0 < 0 → n < c1 → selChannels n c0 c1 = (0, n - 1)) ∧
    (n < c0 → n < c1 → selChannels n c0 c1 = (n - 1, n - 1)) := by
  unfold selChannels
  dsimp only
  refine ⟨fun a b d => ?_, fun a b => ?_, fun a b => ?_⟩
  · rw [if_pos a, if_pos b, if_neg (show ¬ (0 : Int) > n by omega), if_neg (show ¬ n + c1 > n by omega),
      if_neg (by omega)]
  · rw [if_pos a, if_neg (show ¬ c1 < 0 by omega), if_neg (show ¬ (0 : Int) > n by omega),
      if_pos (show c1 > n by omega), if_neg (by omega)]
  · rw [if_neg (show ¬ c0 < 0 by omega), if_neg (show ¬ c1 < 0 by omega), if_pos (show c0 > n by omega),
      if_pos (show c1 > n by omega), if_neg (by omega)]

/-- The number of channels is taken for a channel. -/
theorem C227_refuted : ¬ C227_full := by
  intro h
  exact absurd (h 4 0 4 (by decide)).2.2 (by decide)

/-- So is a last channel before the first one: here -2. -/
theorem C227_before : selChannels 4 0 (-6) = (-2, 0) := by decide

example : selChannels 8 2 (-1) = (2, 7) ∧ selChannels 8 5 2 = (2, 5) := by decide

/-! ### C228: writing -/

/-- Tiles with data for different rows: each row gets its data in the selected channels; the other channels, what
else is in the row, and the other rows stay. -/
theorem C228_write {γ : Type} (c : Chans) (hc : 0 < c.incr) (ms : List (Row γ)) (tiles : List (Tile γ))
    (hf : ∀ r ∈ ms, Fits c r.data) (hn : (seqnrs tiles).Nodup)
    (hl : ∀ t ∈ tiles, ∀ x, some x ∈ t.rows → x.data.length = c.count) :
    (writeMS c ms tiles).length = ms.length ∧
    (∀ i, i ∉ seqnrs tiles → (writeMS c ms tiles)[i]? = ms[i]?) ∧
    ∀ t ∈ tiles, ∀ x, some x ∈ t.rows → ∀ r, ms[x.seqnr]? = some r →
      ∃ d, (writeMS c ms tiles)[x.seqnr]? = some { r with data := d } ∧ Shows c d x.data ∧
        d.length = r.data.length ∧ ∀ j, (∀ k, k < c.count → j ≠ c.first + k * c.incr) → d[j]? = r.data[j]? := by
  rw [write_flat]
  refine ⟨fold_length c _ ms, fun i hi => ?_, fun t ht x hx r hr => ?_⟩
  · refine fold_other c i _ ms (fun x hx e => hi ?_)
    rw [seqnrs_flat]
    exact List.mem_filterMap.2 ⟨some x, hx, by simp [e]⟩
  · rw [seqnrs_flat] at hn
    rw [fold_at c _ ms x hn (List.mem_flatMap.2 ⟨t, ht, hx⟩), hr]
    exact ⟨_, rfl, write_spec c hc r.data x.data (hf r (List.mem_of_getElem? hr)) (hl t ht x hx)⟩

/-- Tiles written as they were read change nothing, in whatever order the channels are. -/
theorem C228_same {γ : Type} (q : Sel) (c : Chans) (hc : 0 < c.incr) (ms : List (Row γ)) (tiles : List (Tile γ))
    (hf : ∀ r ∈ ms, Fits c r.data) (h : readMS q c ms = .ok tiles) : writeMS c ms tiles = ms := by
  rw [write_flat]
  refine fold_same c ms _ (fun x hx r hr => ?_)
  obtain ⟨t, ht, hx⟩ := List.mem_flatMap.1 hx
  obtain ⟨k, hk⟩ := List.mem_iff_getElem?.1 hx
  obtain ⟨r', h1, _, _, _, _, h6⟩ := C225_rows q c ms tiles h hf t ht k x hk
  rw [hr] at h1
  cases h1
  exact write_shown c hc r.data x.data (hf r (List.mem_of_getElem? hr)) h6

example : (writeMS exChans exMS [⟨0, 1, 0, [1, 2], [some ⟨0, [102, 101], 0⟩, some ⟨1, [302, 301], 3⟩]⟩]).map Row.data =
    [[10, 101, 102], [20, 21, 22], [5, 5, 5], [30, 301, 302], [40, 41, 42], [50, 51, 52]] := by decide +kernel

/-! ### C229: flags -/

/-- The full property: a cell that is flagged in the tile is flagged in the table, if `FLAG` is written and
the bit is one that counts. -/
def C229_full : Prop :=
  ∀ (p : OutPar) (rf f : BitVec 32) (s : Flags), p.writeLegacy = true → f &&& p.tileMask ≠ 0 →
    p.tileBit &&& p.legacyMask ≠ 0 → (outFlags p rf f s).flag = true

theorem or_ne_zero (a b m : BitVec 32) (h : b &&& m ≠ 0) : (a ||| b) &&& m ≠ 0 := by
  intro e
  apply h
  apply BitVec.eq_of_getLsbD_eq
  intro i hi
  have := congrArg (fun v => BitVec.getLsbD v i) e
  simp at this ⊢
  intro hb
  exact this (.inr hb)

/-- This holds unless bits are used but not written.  Missing: that case. -/
theorem C229_flagged_partial (p : OutPar) (rf f : BitVec 32) (s : Flags) (hw : p.writeLegacy = true)
    (hf : f &&& p.tileMask ≠ 0) (hb : p.tileBit &&& p.legacyMask ≠ 0)
    (hu : p.useBits = false ∨ p.writeBits = true) : (outFlags p rf f s).flag = true := by
  unfold outFlags
  have hm : p.tileMask ≠ 0 := by intro e; rw [e] at hf; simp at hf
  rcases Bool.eq_false_or_eq_true p.useBits with h | h
  · have h' : p.writeBits = true := by rcases hu with e | e; · rw [h] at e; cases e
                                       · exact e
    simp only [h, h', hw, if_true]
    rw [if_pos hm, if_pos hf, decide_eq_true_eq]
    exact or_ne_zero _ _ _ hb
  · simp only [h, hw, if_true, Bool.false_eq_true, if_false]
    exact decide_eq_true hf

/-- A flagged row is flagged in the table, in all cases. -/
theorem C229_row (p : OutPar) (rf f : BitVec 32) (s : Flags) (hw : p.writeLegacy = true)
    (hf : rf &&& p.tileMask ≠ 0) (hb : p.tileBit &&& p.legacyMask ≠ 0) : (outFlags p rf f s).rowFlag = true := by
  unfold outFlags
  rcases Bool.eq_false_or_eq_true p.useBits with h | h
  · rcases Bool.eq_false_or_eq_true p.writeBits with h' | h'
    · simp only [h, h', hw, if_true]
      rw [if_pos hf, decide_eq_true_eq]
      exact or_ne_zero _ _ _ hb
    · simp only [h, h', hw, if_true, Bool.false_eq_true, if_false]
      rw [if_pos hf, decide_eq_true_eq]
      exact or_ne_zero _ _ _ hb
  · simp only [h, hw, if_true, Bool.false_eq_true, if_false]
    exact decide_eq_true hf

/-- Bits that are written: old ones that are kept, and the one for flags of the tile. -/
theorem C229_bits (p : OutPar) (rf f : BitVec 32) (s : Flags) (hu : p.useBits = true) (hw : p.writeBits = true)
    (i : Nat) :
    (outFlags p rf f s).bits.getLsbD i =
      ((s.bits.getLsbD i && p.msMask.getLsbD i) || (decide (f &&& p.tileMask ≠ 0) && p.tileBit.getLsbD i)) ∧
    (outFlags p rf f s).rowBits.getLsbD i =
      ((s.rowBits.getLsbD i && p.msMask.getLsbD i) || (decide (rf &&& p.tileMask ≠ 0) && p.tileBit.getLsbD i)) := by
  have e : (outFlags p rf f s).bits = (s.bits &&& p.msMask) |||
        (if p.tileMask ≠ 0 then (if f &&& p.tileMask ≠ 0 then p.tileBit else 0) else 0) ∧
      (outFlags p rf f s).rowBits = ((((s.rowBits &&& p.msMask) ||| (if rf &&& p.tileMask ≠ 0 then p.tileBit else 0))
        &&& p.msMask) ||| (if rf &&& p.tileMask ≠ 0 then p.tileBit else 0)) := by
    unfold outFlags
    simp only [hu, hw, if_true]
    split <;> exact ⟨rfl, rfl⟩
  rw [e.1, e.2]
  constructor
  · by_cases hf : f &&& p.tileMask ≠ 0
    · have hm : p.tileMask ≠ 0 := by intro e; rw [e] at hf; simp at hf
      rw [if_pos hm, if_pos hf, decide_eq_true hf, BitVec.getLsbD_or, BitVec.getLsbD_and, Bool.true_and]
    · rw [if_neg hf, ite_self, decide_eq_false hf]; simp
  · by_cases hf : rf &&& p.tileMask ≠ 0
    · rw [if_pos hf, decide_eq_true hf, BitVec.getLsbD_or, BitVec.getLsbD_and, BitVec.getLsbD_or,
        BitVec.getLsbD_and, Bool.true_and]
      cases s.rowBits.getLsbD i <;> cases p.msMask.getLsbD i <;> cases p.tileBit.getLsbD i <;> rfl
    · rw [if_neg hf, decide_eq_false hf]; simp

/-- `FLAG` and `FLAG_ROW` after writing: by the bits, if these are written as well; else by the flags of the
tile. -/
theorem C229_legacy (p : OutPar) (rf f : BitVec 32) (s : Flags) (hw : p.writeLegacy = true) :
    (p.useBits = true → p.writeBits = true →
      ((outFlags p rf f s).flag = true ↔ (outFlags p rf f s).bits &&& p.legacyMask ≠ 0) ∧
      ((outFlags p rf f s).rowFlag = true ↔ (outFlags p rf f s).rowBits &&& p.legacyMask ≠ 0)) ∧
    (p.useBits = false →
      ((outFlags p rf f s).flag = true ↔ f &&& p.tileMask ≠ 0) ∧
      ((outFlags p rf f s).rowFlag = true ↔ rf &&& p.tileMask ≠ 0)) := by
  unfold outFlags
  refine ⟨fun h1 h2 => ?_, fun h1 => ?_⟩
  · simp only [h1, h2, hw, if_true]
    exact ⟨decide_eq_true_iff, decide_eq_true_iff⟩
  · simp only [h1, hw, if_true, Bool.false_eq_true, if_false]
    exact ⟨decide_eq_true_iff, decide_eq_true_iff⟩

/-- Columns that are not to be written stay. -/
theorem C229_kept (p : OutPar) (rf f : BitVec 32) (s : Flags) :
    (p.useBits = false ∨ p.writeBits = false →
      (outFlags p rf f s).bits = s.bits ∧ (outFlags p rf f s).rowBits = s.rowBits) ∧
    (p.writeLegacy = false → (outFlags p rf f s).flag = s.flag ∧ (outFlags p rf f s).rowFlag = s.rowFlag) := by
  unfold outFlags
  rcases Bool.eq_false_or_eq_true p.useBits with h | h <;> rcases Bool.eq_false_or_eq_true p.writeBits with h' | h' <;>
    rcases Bool.eq_false_or_eq_true p.writeLegacy with h'' | h'' <;> simp [h, h', h'']

/-- What is read: a cell is flagged in the tile if a bit asked for is set, or if `FLAG` is and counts. -/
theorem C229_read (p : InPar) (bits : BitVec 32) (flag : Bool) :
    (inFlag p bits flag ≠ 0 ↔ (p.useBits = true ∧ bits &&& p.mask ≠ 0) ∨ (flag = true ∧ p.legacy ≠ 0)) ∧
    (p.tile = 0 → ∀ i, (inFlag p bits flag).getLsbD i =
      ((p.useBits && bits.getLsbD i && p.mask.getLsbD i) || (flag && p.legacy.getLsbD i))) := by
  have hor : ∀ a b : BitVec 32, a ||| b ≠ 0 ↔ a ≠ 0 ∨ b ≠ 0 := by
    intro a b
    rw [← not_and_or, not_iff_not]
    exact BitVec.or_eq_zero_iff
  unfold inFlag
  dsimp only
  constructor
  · have hz : p.mask = 0 → bits &&& p.mask = 0 := by intro e; rw [e]; simp
    by_cases hu : p.useBits = true <;> by_cases hm : p.mask = 0 <;> by_cases ht : p.tile = 0 <;>
      by_cases hl : p.legacy = 0 <;> by_cases hb : bits &&& p.mask = 0 <;> cases flag <;>
      simp_all [-BitVec.ofNat_eq_ofNat]
  · intro ht i
    by_cases hu : p.useBits = true <;> by_cases hm : p.mask = 0 <;> by_cases hl : p.legacy = 0 <;> cases flag <;>
      simp only [BitVec.ofNat_eq_ofNat] at hm hl ht <;> simp [hu, hm, hl, ht]

/-- Bits are used but not written: the flag of the tile is lost (although that of the row is not). -/
theorem C229_refuted : ¬ C229_full := by
  intro h
  exact absurd (h ⟨true, false, true, 0xFFFFFFFF, 0xFFFFFFFF, 0xFFFFFFFF, 1⟩ 1 1 ⟨0, 0, false, false⟩ rfl (by decide)
    (by decide)) (by decide)

example : let s := outFlags ⟨true, true, true, 0xFFFFFFFF, 0xFFFFFFFE, 0xFFFFFFFF, 1⟩ 0 4 ⟨2, 3, false, false⟩
    (s.rowBits, s.bits, s.rowFlag, s.flag) = (2, 3, true, true) := by decide

end Verif.MsChan
