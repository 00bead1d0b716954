import Verif.Proof.VisNodes
/-! # C114 - C117: spigots and sinks -/
namespace Verif.VisNodes

/-- A tile of 2 correlations, 2 frequencies and 3 rows: data in column 0, nothing in column 1; one sample is flagged, row 1 is flagged, row 2
is missing. -/
def t0 : Tile Int :=
  ⟨2, 2, 3, fun _ => .cplx, fun q c k j => if q = 0 then 100 * c + 10 * k + j + 1 else 0, fun c k j => if c = 1 ∧ k = 0 ∧ j = 0 then 4 else 0,
    fun j => if j = 1 then 2 else if j = 2 then missing else 0⟩

/-- A spigot for both correlations with an empty plane between them. -/
def c0 : SpigotConf := ⟨0, [0, -1, 1], 6, 3, 0⟩

/-- A sink for them. -/
def d0 : SinkConf := ⟨some 1, [0, -1, 1], 6, 0⟩

/-- All rows. -/
def r0 : Range := ⟨0, 2⟩

/-! ## C114: what spigots give -/

/-- A spigot's result has a plane for every correlation that is asked for: its values are those of the column in the rows of the request, its
flags those of the tile under the masks. -/
def C114_holds (α : Type) (c : SpigotConf) (t : Tile α) (r : Range) (l : List (VS α)) : Prop :=
  l.length = c.corrs.length ∧
  ∀ (i : Nat) (ic : Int) (v : VS α), c.corrs[i]? = some ic → l[i]? = some v →
    (ic < 0 → v.value = none ∧ v.flags = none) ∧
    (0 ≤ ic → Shows v (r.last + 1 - r.first) t.nfreq (fun j k => t.col c.col ic.toNat k (r.first + j)) c.flagBit
      (fun j k w => ∀ b, w.getLsbD b = wantedBit c (t.flags ic.toNat k (r.first + j)) (t.rowflag (r.first + j)) b))

/-- Whatever the masks are. -/
def C114_full : Prop := ∀ (c : SpigotConf) (t : Tile Int) (r : Range) (l : List (VS Int)), spigot c t r = some (.ok l) → C114_holds Int c t r l

theorem spigot_ok {c : SpigotConf} {t : Tile α} {r : Range} {l : List (VS α)} (h : spigot c t r = some (.ok l)) : l = c.corrs.map (plane c t r) := by
  unfold spigot at h
  split at h
  · cases h
  split at h
  · cases h
  · injection h with h
    injection h with h
    exact h.symm

/-- It holds if there is a flag mask. -/
theorem C114_partial {c : SpigotConf} {t : Tile α} {r : Range} {l : List (VS α)} (hm : c.flagMask ≠ 0) (h : spigot c t r = some (.ok l)) :
    C114_holds α c t r l := by
  rw [spigot_ok h]
  refine ⟨by simp, fun i ic v hi hv => ?_⟩
  rw [List.getElem?_map, hi] at hv
  injection hv with hv
  subst hv
  refine ⟨fun hn => ?_, fun hp => plane_shows c t r ic hp hm⟩
  unfold plane
  rw [if_pos hn]
  exact ⟨rfl, rfl⟩

example : c0.flagMask ≠ 0 ∧ ∃ l, spigot c0 t0 r0 = some (.ok l) ∧ (l[2]?.map fun v => (v.flag 0 0, v.flag 0 1, v.flag 1 0, v.flag 2 0)) = some (4, 0, 2, 3) := by
  exact ⟨by decide, _, rfl, by decide +kernel⟩

/-- Without a mask only the first row's flag is used: the third row is missing but not flagged. -/
theorem C114_refuted : ¬ C114_full := by
  intro h
  obtain ⟨_, h2⟩ := h { c0 with flagMask := 0 } t0 r0 _ rfl
  obtain ⟨_, h3⟩ := h2 0 0 _ rfl rfl
  obtain ⟨a, _, _, _, h4⟩ := h3 (by decide)
  obtain ⟨w, h5, h6⟩ := h4 2 0 (by decide) (by decide)
  have h7 := h5 0
  have h8 : withBit 0 w = 0 := by
    refine h6.symm.trans ?_
    decide +kernel
  have h9 : w = 0 := by simpa [withBit] using h8
  rw [h9] at h7
  revert h7
  decide +kernel

/-- What it does then: values are right, the first time is flagged as its row, the others are not flagged. -/
theorem C114_noMask {c : SpigotConf} {t : Tile α} {r : Range} {l : List (VS α)} (hm : c.flagMask = 0) (h : spigot c t r = some (.ok l))
    {i : Nat} {ic : Int} {v : VS α} (hi : c.corrs[i]? = some ic) (hv : l[i]? = some v) (hp : 0 ≤ ic) :
    Shows v (r.last + 1 - r.first) t.nfreq (fun j k => t.col c.col ic.toNat k (r.first + j)) c.flagBit
      (fun j _ w => ∀ b, w.getLsbD b = (decide (j = 0) && wantedBit c 0 (t.rowflag r.first) b)) := by
  rw [spigot_ok h, List.getElem?_map, hi] at hv
  injection hv with hv
  subst hv
  obtain ⟨a, h1, h2, h3, h4⟩ := plane_noMask c t r ic hp hm
  refine ⟨a, h1, h2, h3, fun j k hj hk => ?_⟩
  obtain ⟨w, h5, h6⟩ := h4 j k hj hk
  refine ⟨w, fun b => ?_, h6⟩
  rw [h5]
  by_cases h0 : j = 0
  · rw [if_pos h0, decide_eq_true h0, Bool.true_and, ← bits, hm]
    simp
  · rw [if_neg h0, decide_eq_false h0, Bool.false_and]
    simp

example : ∃ l, spigot { c0 with flagMask := 0 } t0 r0 = some (.ok l) ∧ (l[0]?.map fun v => v.flag 2 0) = some 0 := ⟨_, rfl, by decide +kernel⟩

/-- A sample is flagged exactly if its flags or its row's flags have a bit of the mask, or its row is missing; the flag bit, if there is one,
is what flagged samples have. -/
theorem C114_flagged {c : SpigotConf} {t : Tile α} {r : Range} {l : List (VS α)} (hm : c.flagMask ≠ 0) (h : spigot c t r = some (.ok l))
    {i : Nat} {ic : Int} {v : VS α} (hi : c.corrs[i]? = some ic) (hv : l[i]? = some v) (hp : 0 ≤ ic) {j k : Nat} (hj : j < r.last + 1 - r.first) (hk : k < t.nfreq) :
    (v.flag j k ≠ 0 ↔ (t.flags ic.toNat k (r.first + j) &&& c.flagMask ≠ 0 ∨ t.rowflag (r.first + j) &&& c.rowMask ≠ 0 ∨
      t.rowflag (r.first + j) = missing)) ∧
    (c.flagBit ≠ 0 → v.flag j k = 0 ∨ v.flag j k = c.flagBit) := by
  obtain ⟨_, _, _, _, h4⟩ := ((C114_partial hm h).2 i ic v hi hv).2 hp
  obtain ⟨w, h5, h6⟩ := h4 j k hj hk
  have hw : w = (t.flags ic.toNat k (r.first + j) &&& c.flagMask) ||| rowBits c (t.rowflag (r.first + j)) := by
    apply BitVec.eq_of_getLsbD_eq
    intro b _
    rw [h5 b, bits]
  rw [h6]
  constructor
  · rw [withBit_ne, hw, ne_eq, or_zero, not_and_or, ← ne_eq, ← ne_eq, rowBits_ne]
  · intro hb
    unfold withBit
    rw [if_neg hb]
    by_cases hz : w = 0
    · rw [if_pos hz]; exact .inl rfl
    · rw [if_neg hz]; exact .inr rfl

example : ∃ l, spigot { c0 with flagBit := 8 } t0 r0 = some (.ok l) ∧ (l[2]?.map fun v => (v.flag 0 0, v.flag 0 1)) = some (8, 0) := ⟨_, rfl, by decide +kernel⟩

/-- It reads outside the tile exactly if the rows are not in it; otherwise it fails exactly if a correlation is asked for that the tile does
not have. -/
theorem C114_outcome (c : SpigotConf) (t : Tile α) (r : Range) :
    (spigot c t r = none ↔ ¬ r.within t.nrow) ∧
    (r.within t.nrow → (spigot c t r = some (.error ()) ↔ ∃ ic ∈ c.corrs, (t.ncorr : Int) ≤ ic)) := by
  unfold spigot Range.within
  constructor
  · constructor
    · intro h
      split at h
      · omega
      · split at h <;> cases h
    · intro h
      rw [if_pos (by omega)]
  · intro hr
    rw [if_neg (show ¬ (t.nrow ≤ r.last ∨ r.last < r.first) by omega)]
    constructor
    · intro h
      split at h
      · rename_i ha
        simpa using ha
      · cases h
    · rintro ⟨ic, hm, hi⟩
      rw [if_pos]
      rw [List.any_eq_true]
      exact ⟨ic, hm, by simpa using hi⟩

example : spigot c0 t0 ⟨2, 3⟩ = none ∧ spigot { c0 with corrs := [0, 2] } t0 r0 = some (.error ()) := ⟨rfl, rfl⟩

/-- Its documentation (Spigot.h:79-88): if both masks are 0, no flags are generated. -/
def C114_off_full : Prop :=
  ∀ (c : SpigotConf) (t : Tile Int) (r : Range) (l : List (VS Int)), c.flagMask = 0 → c.rowMask = 0 → spigot c t r = some (.ok l) → ∀ v ∈ l, v.flags = none

/-- Missing rows are flagged all the same. -/
theorem C114_off_refuted : ¬ C114_off_full := by
  intro h
  have := h ⟨0, [0], 0, 0, 0⟩ t0 ⟨2, 2⟩ _ rfl rfl rfl _ (List.mem_singleton.mpr rfl)
  have h2 : (plane ⟨0, [0], 0, 0, 0⟩ t0 ⟨2, 2⟩ 0).flags.isSome = true := by decide +kernel
  rw [this] at h2
  cases h2

/-- If no row is missing, it is so. -/
theorem C114_off_partial {c : SpigotConf} {t : Tile α} {r : Range} {l : List (VS α)} (hm : c.flagMask = 0) (hr : c.rowMask = 0)
    (h : spigot c t r = some (.ok l)) (hp : ∀ j, r.In j → t.rowflag j ≠ missing) {v : VS α} (hv : v ∈ l) : v.flags = none := by
  have hw : r.within t.nrow := by
    by_contra hc
    rw [((C114_outcome c t r).1).mpr hc] at h
    cases h
  rw [spigot_ok h, List.mem_map] at hv
  obtain ⟨ic, _, rfl⟩ := hv
  unfold plane
  split
  · rfl
  · dsimp only
    rw [if_neg]
    rw [Bool.not_eq_true]
    unfold anyFlag planeFlags
    rw [if_pos hm]
    rw [List.any_eq_false]
    intro j hj
    rw [Bool.not_eq_true, List.any_eq_false]
    intro k hk
    rw [decide_eq_true_eq, not_not]
    show (if j = 0 then rowBits c (t.rowflag r.first) else 0) = (0 : Flag)
    by_cases h0 : j = 0
    · rw [if_pos h0]
      have : t.rowflag r.first ≠ missing := hp _ (by unfold Range.In Range.within at *; omega)
      unfold rowBits
      rw [if_neg this, hr]
      simp
    · rw [if_neg h0]

example : ∃ l, spigot ⟨0, [0], 0, 0, 0⟩ t0 ⟨0, 1⟩ = some (.ok l) ∧ ∀ j, (Range.mk 0 1).In j → t0.rowflag j ≠ missing := by
  refine ⟨_, rfl, fun j hj => ?_⟩
  have : j = 0 ∨ j = 1 := by unfold Range.In at hj; simp at hj; omega
  rcases this with rfl | rfl <;> decide +kernel

/-- The UVW column: every plane has the coordinates of its rows; a row's flags are those in the mask, or all if it is missing. -/
theorem C114_uvw {c : SpigotConf} {n nrow : Nat} {uvw : Nat → Nat → α} {rowflag : Nat → Flag} {r : Range} {l : List (VS α)}
    (h : spigotUVW c n uvw nrow rowflag r = some l) :
    l.length = n ∧ ∀ i v, l[i]? = some v →
      ∃ a, v.value = some a ∧ a.shape = [r.last + 1 - r.first] ∧ ∀ j k, j < r.last + 1 - r.first →
        a.get j k = uvw i (r.first + j) ∧
        v.flag j k = withBit c.flagBit (if rowflag (r.first + j) = missing then missing else rowflag (r.first + j) &&& c.rowMask) := by
  unfold spigotUVW at h
  split at h
  · cases h
  injection h with h
  subst h
  refine ⟨by simp, fun i v hv => ?_⟩
  rw [List.getElem?_map] at hv
  obtain ⟨i', hi', rfl⟩ := Option.map_eq_some_iff.mp hv
  have hii : i' = i := by
    rw [List.getElem?_range (by
      by_contra hc
      rw [List.getElem?_eq_none (by simpa using hc)] at hi'
      cases hi')] at hi'
    exact (Option.some.inj hi').symm
  subst hii
  refine ⟨_, rfl, rfl, fun j k hj => ?_⟩
  have hj : j < r.count := hj
  refine ⟨?_, ?_⟩
  · unfold Arr.get
    show uvw _ (r.first + (if r.count = 1 then 0 else j)) = _
    congr 2
    split <;> omega
  · have := flag_attached (α := α) c.flagBit (⟨[r.count, 1], fun j _ => uvwBits c (rowflag (r.first + j))⟩ : Arr Flag)
      (some ⟨[r.count], fun j _ => uvw i' (r.first + j)⟩) true r.count (k + 1) j k (.inr rfl) hj (by omega)
    rw [this]
    congr 1
    unfold Arr.get
    show uvwBits c (rowflag (r.first + (if r.count = 1 then 0 else j))) = _
    have : (if r.count = 1 then 0 else j) = j := by split <;> omega
    rw [this]
    rfl

example : ∃ l, spigotUVW c0 3 (fun i j => (10 * i + j : Int)) 3 t0.rowflag r0 = some l ∧
    (l[1]?.map fun v => (v.flag 0 0, v.flag 1 0, v.flag 2 0)) = some (0, 2, missing) := ⟨_, rfl, by decide +kernel⟩

/-! ## C115: the queue of a spigot -/

/-- What a request gets was delivered for a matching request. -/
theorem C115_match {R K ρ : Type} [DecidableEq R] [DecidableEq K] {key : R → K} {h : List (QOp R ρ)} {rq : R} {x : ρ}
    (hx : (get key (qrun key ⟨[], none⟩ h).1 rq).2 = some x) : ∃ rq', .deliver rq' x ∈ h ∧ key rq' = key rq := by
  obtain ⟨p, hp, h1, h2⟩ := get_matches key _ rq x hx
  rcases queue_sound key h ⟨[], none⟩ p hp with h3 | h3
  · cases h3
  · exact ⟨p.1, by rw [← h2]; exact h3, h1⟩

example : (get (fun n : Nat => n / 10) (qrun (fun n : Nat => n / 10) ⟨[], none⟩ [.deliver 10 'a', .deliver 20 'b']).1 21).2 = some 'b' := by decide

/-- A request gets something if something was delivered for it. -/
def C115_full : Prop :=
  ∀ (h : List (QOp Nat Nat)) (rq x : Nat), .deliver rq x ∈ h → (get id (qrun id ⟨[], none⟩ h).1 rq).2 ≠ none

/-- A request for which nothing was delivered empties the queue. -/
theorem C115_refuted : ¬ C115_full := by
  intro h
  have := h [.deliver 1 7, .get 5] 1 7 (by simp)
  revert this
  decide

/-- It holds for a series of snippets with different requests: every request of a snippet gets its first tile, even if some snippets are never
asked for. -/
theorem C115_snippets_partial {R K ρ : Type} [DecidableEq R] [DecidableEq K] {key : R → K} (l : List (Snip R ρ)) (ht : ∀ s ∈ l, s.tiles ≠ [])
    (ha : ∀ s ∈ l, ∀ a ∈ s.asks, key a = key s.rq) (hd : (l.map fun s => key s.rq).Nodup) :
    (qrun key ⟨[], none⟩ (l.flatMap Snip.ops)).2 = l.flatMap fun s => s.asks.map fun _ => s.tiles.head? := by
  have main : ∀ (l : List (Snip R ρ)) (q : Queue R ρ), (∀ s ∈ l, s.tiles ≠ []) → (∀ s ∈ l, ∀ a ∈ s.asks, key a = key s.rq) →
      (l.map fun s => key s.rq).Nodup → (∀ s ∈ l, (∀ p ∈ q.items, key p.1 ≠ key s.rq) ∧ ∀ c, q.cur = some c → key c ≠ key s.rq) →
      (qrun key q (l.flatMap Snip.ops)).2 = l.flatMap fun s => s.asks.map fun _ => s.tiles.head? := by
    intro l
    induction l with
    | nil => intro q _ _ _ _; rfl
    | cons s l ih =>
      intro q ht ha hd hq
      obtain ⟨hq1, hq2⟩ := hq s (by simp)
      rw [List.map_cons, List.nodup_cons] at hd
      have hdiff : ∀ s' ∈ l, key s.rq ≠ key s'.rq := by
        intro s' hs' e
        exact hd.1 (List.mem_map.mpr ⟨s', hs', e.symm⟩)
      have hcur : q.cur ≠ some s.rq := fun e => hq2 s.rq e rfl
      rw [List.flatMap_cons, List.flatMap_cons, qrun_append]
      have e1 : qrun key q s.ops = ((qrun key ⟨q.items ++ s.tiles.map fun x => (s.rq, x), q.cur⟩ (s.asks.map .get)).1,
          (qrun key ⟨q.items ++ s.tiles.map fun x => (s.rq, x), q.cur⟩ (s.asks.map .get)).2) := by
        unfold Snip.ops
        rw [qrun_append, deliver_all key q s.rq s.tiles hcur]
        simp
      rw [e1]
      dsimp only
      obtain ⟨x, xs, hx⟩ : ∃ x xs, s.tiles = x :: xs := by
        cases h : s.tiles with
        | nil => exact absurd h (ht s (by simp))
        | cons x xs => exact ⟨x, xs, rfl⟩
      cases has : s.asks with
      | nil =>
        simp only [List.map_nil, qrun, List.nil_append]
        refine ih _ (fun s' h' => ht s' (by simp [h'])) (fun s' h' => ha s' (by simp [h'])) hd.2 fun s' hs' => ?_
        obtain ⟨h1, h2⟩ := hq s' (by simp [hs'])
        refine ⟨fun p hp => ?_, h2⟩
        rw [List.mem_append] at hp
        rcases hp with hp | hp
        · exact h1 p hp
        · obtain ⟨y, _, rfl⟩ := List.mem_map.mp hp
          exact hdiff s' hs'
      | cons a as =>
        have hka : key a = key s.rq := ha s (by simp) a (by simp [has])
        have hdrop : get key ⟨q.items ++ s.tiles.map fun x => (s.rq, x), q.cur⟩ a =
            (⟨s.tiles.map fun x => (s.rq, x), some a⟩, some x) := by
          have hd1 : (q.items ++ s.tiles.map fun x => (s.rq, x)).dropWhile (fun p => !decide (key a = key p.1)) = s.tiles.map fun x => (s.rq, x) := by
            rw [List.dropWhile_append_of_pos]
            · rw [hx, List.map_cons, List.dropWhile_cons_of_neg (by simp [hka])]
            · intro p hp
              simpa [hka] using fun e => hq1 p hp e.symm
          unfold get
          dsimp only
          rw [hd1, hx]
          rfl
        have hstep : qrun key ⟨q.items ++ s.tiles.map fun x => (s.rq, x), q.cur⟩ ((a :: as).map QOp.get) =
            ((qrun key ⟨s.tiles.map fun x => (s.rq, x), some a⟩ (as.map .get)).1,
              some x :: (qrun key ⟨s.tiles.map fun x => (s.rq, x), some a⟩ (as.map .get)).2) := by
          simp only [List.map_cons, qrun, qstep, hdrop]
          rfl
        rw [hstep]
        dsimp only
        obtain ⟨g1, g2⟩ := get_head key ⟨s.tiles.map fun x => (s.rq, x), some a⟩ (s.rq, x) (xs.map fun x => (s.rq, x)) (by rw [hx]; rfl) as
          (fun b hb => ha s (by simp) b (by simp [has, hb]))
        have g3 := get_cur key ⟨s.tiles.map fun x => (s.rq, x), some a⟩ as
        rw [g2, ih]
        · rw [hx]; rfl
        · exact fun s' h' => ht s' (by simp [h'])
        · exact fun s' h' => ha s' (by simp [h'])
        · exact hd.2
        · intro s' hs'
          constructor
          · intro p hp
            rw [g1] at hp
            have : p.1 = s.rq := by
              rw [List.mem_cons] at hp
              rcases hp with rfl | hp
              · rfl
              · obtain ⟨y, _, rfl⟩ := List.mem_map.mp hp
                rfl
            rw [this]
            exact hdiff s' hs'
          · intro c hc
            rw [g3] at hc
            have : c ∈ s.asks := by
              rw [has]
              cases hl : as.getLast? with
              | none => rw [hl] at hc; simp at hc; rw [hc]; simp
              | some b =>
                rw [hl] at hc
                simp at hc
                subst hc
                exact List.mem_cons_of_mem _ (List.mem_of_getLast? hl)
            rw [ha s (by simp) c this]
            exact hdiff s' hs'
  exact main l ⟨[], none⟩ ht ha hd fun s _ => ⟨fun p hp => (nomatch hp), fun c hc => (nomatch hc)⟩

/-- Three snippets: two tiles and two requests, one that is not asked for, one more. -/
def snips : List (Snip Nat Char) := [⟨10, ['a', 'b'], [11, 12]⟩, ⟨20, ['c'], []⟩, ⟨30, ['d'], [31]⟩]

example : (∀ s ∈ snips, s.tiles ≠ []) ∧ (∀ s ∈ snips, ∀ a ∈ s.asks, a / 10 = s.rq / 10) ∧ (snips.map fun s => s.rq / 10).Nodup ∧
    (snips.flatMap fun s => s.asks.map fun _ => s.tiles.head?) = [some 'a', some 'a', some 'd'] := by decide

/-- Every tile of a snippet that is asked for reaches a request. -/
def C115_tiles_full : Prop :=
  ∀ (tiles : List Nat) (n : Nat), tiles.length ≤ n → ∀ x ∈ tiles, some x ∈ (qrun id ⟨[], none⟩ (Snip.ops ⟨1, tiles, List.replicate n 1⟩)).2

/-- The second tile of a snippet never does: requests with the same identifier get the first one again. -/
theorem C115_tiles_refuted : ¬ C115_tiles_full := by
  intro h
  have := h [7, 8] 2 (by simp) 8 (by simp)
  revert this
  decide

/-- A tile that comes after its request was executed is refused, and nothing changes. -/
theorem C115_late {R K ρ : Type} [DecidableEq R] [DecidableEq K] (key : R → K) (q : Queue R ρ) (rq : R) (x : ρ) :
    deliver (get key q rq).1 rq x = ((get key q rq).1, false) := by
  unfold deliver get
  rw [if_pos rfl]

/-- While nothing is asked for, everything that is delivered is kept. -/
theorem C115_kept {R K ρ : Type} [DecidableEq R] [DecidableEq K] (key : R → K) (l : List (R × ρ)) :
    (qrun key ⟨[], none⟩ (l.map fun p => .deliver p.1 p.2)).1.items = l := by
  have : ∀ (l : List (R × ρ)) (q : Queue R ρ), q.cur = none → (qrun key q (l.map fun p => .deliver p.1 p.2)).1.items = q.items ++ l := by
    intro l
    induction l with
    | nil => intro q _; simp [qrun]
    | cons p l ih =>
      intro q hq
      have e : deliver q p.1 p.2 = (⟨q.items ++ [p], q.cur⟩, true) := by unfold deliver; rw [hq, if_neg (by simp)]
      simp only [List.map_cons, qrun, qstep, e]
      rw [ih ⟨q.items ++ [p], q.cur⟩ hq]
      simp
  simpa using this l ⟨[], none⟩ rfl

example : (qrun id ⟨[], none⟩ ([(1, 'a'), (2, 'b')].map fun p => QOp.deliver p.1 p.2)).1.items.length = 2 := by decide

/-! ## C116: what sinks write -/

section
variable {α : Type} [Zero α] [DecidableEq α]

/-- The frame: only the rows of the request, in the output column and in the flags, and only the correlations that planes are mapped to, change. -/
theorem C116_frame {c : SinkConf} {t t' : Tile α} {r : Range} {l : List (VS α)} (h : sink c t r l = .ok (some t')) :
    SameShape t t' ∧
    (∀ q cc k j, (c.col ≠ some q ∨ ¬ r.In j ∨ t.ncorr ≤ cc ∨ ∀ i, i < (planes l).length → ¬ Maps c i cc) →
      t'.col q cc k j = t.col q cc k j) ∧
    (∀ cc k j, (¬ r.In j ∨ t.ncorr ≤ cc ∨ ∀ i, i < (planes l).length → ¬ Maps c i cc) → t'.flags cc k j = t.flags cc k j) := by
  unfold sink at h
  cases hc : c.col with
  | none => rw [hc] at h; cases h
  | some col =>
    rw [hc] at h
    dsimp only at h
    cases hw : writeAll c col r 0 t false (planes l) with
    | throws => rw [hw] at h; cases h
    | ub => rw [hw] at h; cases h
    | ok x =>
      obtain ⟨t1, b⟩ := x
      rw [hw] at h
      have ht : t1 = t' := by
        cases b with
        | true => injection h with h; injection h with h
        | false => injection h with h; cases h
      subst ht
      obtain ⟨g1, g2, g3, g4, g5⟩ := writeAll_spec c col r (planes l) 0 t t1 false b hw
      refine ⟨g1, fun q cc k j ho => g3 q cc k j ?_, fun cc k j ho => g4 cc k j ?_⟩
      · rcases ho with ho | ho | ho | ho
        · exact .inl fun hx => ho (by rw [hx.1])
        · exact .inl fun hx => ho (has_iff.mp hx.2)
        · exact .inr (.inl ho)
        · exact .inr (.inr fun i hi hm => ho i hi (maps_iff.mp (by rw [← hm, Nat.zero_add])))
      · rcases ho with ho | ho | ho
        · exact .inl fun hx => ho (has_iff.mp hx)
        · exact .inr (.inl ho)
        · exact .inr (.inr fun i hi hm => ho i hi (maps_iff.mp (by rw [← hm, Nat.zero_add])))

/-- The value of a plane is written to the correlation it is mapped to, in all rows of the request. -/
theorem C116_values {c : SinkConf} {t t' : Tile α} {r : Range} {l : List (VS α)} (h : sink c t r l = .ok (some t')) {col : Nat} (hc : c.col = some col)
    {i corr : Nat} {v : Option (VS α)} (hv : (planes l)[i]? = some v) (hi : OnlyPlane c (planes l).length i corr) (hcorr : corr < t.ncorr)
    {k j : Nat} (hk : k < t.nfreq) (hj : r.In j) : t'.col col corr k j = sample v (j - r.first) k := by
  obtain ⟨col', h1, h2, _⟩ := sink_plane h hv hi hcorr
  rw [hc] at h1
  injection h1 with h1
  subst h1
  exact h2 k j hk hj

/-- The flags of a plane are written too: those in the mask, with the flag bit put in. -/
def C116_flags_holds (c : SinkConf) (t t' : Tile α) (r : Range) (l : List (VS α)) : Prop :=
  ∀ i corr w k j, (planes l)[i]? = some (some w) → OnlyPlane c (planes l).length i corr → corr < t.ncorr → k < t.nfreq → r.In j →
    t'.flags corr k j = withBit c.flagBit (w.flag (j - r.first) k &&& c.flagMask)

/-- Always, if there is a mask. -/
def C116_flags_full : Prop :=
  ∀ (c : SinkConf) (t t' : Tile Int) (r : Range) (l : List (VS Int)), c.flagMask ≠ 0 → sink c t r l = .ok (some t') → C116_flags_holds c t t' r l

/-- It holds for planes which are not null and whose flags have the shape of the whole tile or are constant. -/
theorem C116_flags_partial {c : SinkConf} {t t' : Tile α} {r : Range} {l : List (VS α)} (hm : c.flagMask ≠ 0) (h : sink c t r l = .ok (some t'))
    (hn : ∀ w ∈ l, ¬ w.IsZero) (hf : ∀ w ∈ l, ∀ f, w.flags = some f → Spans f.shape t) : C116_flags_holds c t t' r l := by
  intro i corr w k j hv hi hcorr hk hj
  have hmem : w ∈ l := by
    have := List.mem_of_getElem? hv
    unfold planes at this
    split at this
    · simpa using this
    · simpa using this
  obtain ⟨_, _, _, g, _⟩ := sink_plane h hv hi hcorr
  exact g w k j rfl (hn w hmem) hj hm (hf w hmem)

/-- A tile is attached to the result exactly if there is an output column and a plane is mapped to a correlation of the tile; a tile that is
not attached has not been changed. -/
theorem C116_attached {c : SinkConf} {t : Tile α} {r : Range} {l : List (VS α)} {o : Option (Tile α)} (h : sink c t r l = .ok o) :
    o.isSome = true ↔ c.col.isSome = true ∧ ∃ i corr, i < (planes l).length ∧ Maps c i corr ∧ corr < t.ncorr := by
  unfold sink at h
  cases hc : c.col with
  | none =>
    rw [hc] at h
    injection h with h
    subst h
    simp
  | some col =>
    rw [hc] at h
    dsimp only at h
    cases hw : writeAll c col r 0 t false (planes l) with
    | throws => rw [hw] at h; cases h
    | ub => rw [hw] at h; cases h
    | ok x =>
      obtain ⟨t1, b⟩ := x
      rw [hw] at h
      injection h with h
      subst h
      obtain ⟨_, g2, _⟩ := writeAll_spec c col r (planes l) 0 t t1 false b hw
      simp only [Nat.zero_add, Bool.false_eq_true, false_or] at g2
      have g3 : b = true ↔ ∃ i corr, i < (planes l).length ∧ Maps c i corr ∧ corr < t.ncorr := by
        rw [g2]
        constructor
        · rintro ⟨p, hp, h0, h1⟩
          exact ⟨p, (mapCorr c p).toNat, hp, maps_iff.mp (by omega), by omega⟩
        · rintro ⟨p, corr, hp, h0, h1⟩
          have := maps_iff.mpr h0
          exact ⟨p, hp, by omega, by omega⟩
      cases b with
      | true => simpa using g3
      | false => simpa using g3

/-- It succeeds if the rows are in the tile, the column holds doubles or complex numbers and the planes that are mapped to a correlation fit;
if it succeeds, they do (for correlations with one plane). -/
theorem C116_succeeds {c : SinkConf} {t : Tile α} {r : Range} {l : List (VS α)} {col : Nat} (hc : c.col = some col) :
    ((r.within t.nrow ∧ t.type col ≠ .other ∧
      ∀ i corr v, (planes l)[i]? = some v → Maps c i corr → corr < t.ncorr → Fits t col r v) → ∃ o, sink c t r l = .ok o) ∧
    (∀ o, sink c t r l = .ok o → ∀ i v corr, (planes l)[i]? = some v → OnlyPlane c (planes l).length i corr → corr < t.ncorr →
      r.within t.nrow ∧ t.type col ≠ .other ∧ Fits t col r v) := by
  constructor
  · rintro ⟨hr, ht, hf⟩
    obtain ⟨⟨t1, b⟩, h⟩ := writeAll_ok c col r (planes l) 0 t false hr ht (fun p v hp h0 h1 => by
      rw [Nat.zero_add] at h0 h1
      exact fits'_iff.mpr (hf p (mapCorr c p).toNat v hp (maps_iff.mp (by omega)) (by omega)))
    exact ⟨_, by unfold sink; rw [hc]; dsimp only; rw [h]⟩
  · intro o h i v corr hv hi hcorr
    unfold sink at h
    rw [hc] at h
    dsimp only at h
    cases hw : writeAll c col r 0 t false (planes l) with
    | throws => rw [hw] at h; cases h
    | ub => rw [hw] at h; cases h
    | ok x =>
      obtain ⟨t1, b⟩ := x
      obtain ⟨_, _, _, _, g5⟩ := writeAll_spec c col r (planes l) 0 t t1 false b hw
      obtain ⟨g0, g1, g2, _⟩ := g5 i v corr hv (by rw [Nat.zero_add]; exact maps_iff.mpr hi.2.1) hcorr
        (fun p' hp' hm => hi.2.2 p' hp' (by rw [← maps_iff, ← hm, Nat.zero_add]))
      exact ⟨g0, g2, fits'_iff.mp g1⟩

/-- A result of one plane, to a tile of four correlations: it goes to the first and the last one, the two others become 0. -/
theorem C116_scalar {c : SinkConf} {t t' : Tile α} {r : Range} {v : VS α} {col : Nat} (hcol : c.col = some col) (hcs : c.corrs = []) (h4 : t.ncorr = 4)
    (h : sink c t r [v] = .ok (some t')) {k j : Nat} (hk : k < t.nfreq) (hj : r.In j) :
    t'.col col 0 k j = sample (some v) (j - r.first) k ∧ t'.col col 1 k j = 0 ∧ t'.col col 2 k j = 0 ∧
    t'.col col 3 k j = sample (some v) (j - r.first) k := by
  have honly : ∀ i, i < 4 → OnlyPlane c (planes [v]).length i i := by
    intro i hi
    refine ⟨hi, .inl ⟨hcs, rfl⟩, fun i' _ hm => ?_⟩
    rcases hm with ⟨_, h⟩ | h
    · exact h
    · rw [hcs] at h; cases h
  refine ⟨?_, ?_, ?_, ?_⟩
  · exact C116_values h hcol (v := some v) (i := 0) rfl (honly 0 (by omega)) (by omega) hk hj
  · exact C116_values h hcol (v := none) (i := 1) rfl (honly 1 (by omega)) (by omega) hk hj
  · exact C116_values h hcol (v := none) (i := 2) rfl (honly 2 (by omega)) (by omega) hk hj
  · exact C116_values h hcol (v := some v) (i := 3) rfl (honly 3 (by omega)) (by omega) hk hj

end

/-- Values of a plane over three times and two frequencies, with flags. -/
def v0 : VS Int := ⟨some ⟨[3, 2], fun j k => 10 * j + k + 1⟩, false, some ⟨[3, 1], fun j _ => if j = 1 then 3 else 0⟩⟩

example : ∃ t', sink d0 t0 r0 [v0, v0, v0] = .ok (some t') ∧ OnlyPlane d0 3 2 1 ∧ t'.col 1 1 1 2 = 22 ∧ t'.flags 1 0 1 = 2 ∧ t'.flags 1 0 0 = 0 ∧
    (∀ w ∈ [v0, v0, v0], ¬ w.IsZero) ∧ (∀ w ∈ [v0, v0, v0], ∀ f, w.flags = some f → Spans f.shape t0) ∧ Fits t0 1 r0 (some v0) := by
  refine ⟨_, rfl, ⟨by decide, by decide, ?_⟩, by decide +kernel, by decide +kernel, by decide +kernel, ?_, ?_, ?_⟩
  · intro i' hi' hm
    have : i' = 0 ∨ i' = 1 ∨ i' = 2 := by omega
    rcases this with rfl | rfl | rfl
    · revert hm; decide
    · revert hm; decide
    · rfl
  · intro w hw hz
    simp at hw
    subst hw
    have := (hz _ rfl).1
    revert this
    decide
  · intro w hw f hf
    simp at hw
    subst hw
    have : f = ⟨[3, 1], fun j _ => if j = 1 then 3 else 0⟩ := (Option.some.inj hf).symm
    subst this
    decide
  · intro w hw _
    injection hw with hw
    subst hw
    exact ⟨.inl rfl, fun a ha => .inr (by have := Option.some.inj ha; subst this; rfl)⟩

example : ∃ t', sink { d0 with corrs := [] } { t0 with ncorr := 4 } r0 [v0] = .ok (some t') := ⟨_, rfl⟩

/-- If the rows are not those of the whole tile, the flags are dropped: two of three rows, both times flagged in the result, neither in the tile. -/
theorem C116_flags_refuted : ¬ C116_flags_full := by
  intro h
  have := h d0 t0 _ ⟨0, 1⟩ [⟨some ⟨[2, 2], fun _ _ => 5⟩, false, some ⟨[2, 2], fun _ _ => 2⟩⟩, v0, ⟨none, false, none⟩] (by decide) rfl
    0 0 _ 0 0 rfl ⟨by decide, by decide, ?_⟩ (by decide) (by decide) (by decide)
  · revert this; decide +kernel
  · intro i' hi' hm
    have : i' = 0 ∨ i' = 1 ∨ i' = 2 := by simp [planes] at hi'; omega
    rcases this with rfl | rfl | rfl
    · rfl
    · revert hm; decide
    · revert hm; decide

/-- A plane that is 0 everywhere, or whose flags do not have the shape of the tile, leaves the tile's flags as they are: a sample that is not
flagged in the result stays flagged, and the other way round. -/
theorem C116_flags_kept {α : Type} [Zero α] [DecidableEq α] {c : SinkConf} {t t' : Tile α} {r : Range} {l : List (VS α)} (h : sink c t r l = .ok (some t'))
    {i corr : Nat} {w : VS α} (hv : (planes l)[i]? = some (some w)) (hn : w.IsZero ∨ ∃ f, w.flags = some f ∧ ¬ Spans f.shape t)
    (hi : OnlyPlane c (planes l).length i corr) (hcorr : corr < t.ncorr) (k j : Nat) : t'.flags corr k j = t.flags corr k j := by
  obtain ⟨_, _, _, _, g⟩ := sink_plane h hv hi hcorr
  rcases hn with hn | ⟨f, h1, h2⟩
  · exact g k j (.inr (.inl ⟨w, rfl, hn⟩))
  · exact g k j (.inr (.inr (.inr ⟨w, f, rfl, h1, h2⟩)))

example : ∃ t', sink ⟨some 1, [1], 6, 0⟩ t0 r0 [⟨some ⟨[], fun _ _ => 0⟩, true, some ⟨[], fun _ _ => 0⟩⟩] = .ok (some t') ∧ t'.flags 1 0 0 = 4 :=
  ⟨_, rfl, by decide +kernel⟩

/-- A result of one plane goes to both correlations of a tile that has two (the parallel ones). -/
def C116_two_full : Prop :=
  ∀ (c : SinkConf) (t t' : Tile Int) (r : Range) (v : VS Int) (col : Nat), c.col = some col → c.corrs = [] → t.ncorr = 2 → sink c t r [v] = .ok (some t') →
    ∀ k j, k < t.nfreq → r.In j → t'.col col 1 k j = sample (some v) (j - r.first) k

/-- It is 0 in the second one, unless correlations are set. -/
theorem C116_two_refuted : ¬ C116_two_full := by
  intro h
  have := h { d0 with corrs := [] } t0 _ r0 v0 1 rfl rfl rfl rfl 0 0 (by decide) (by decide)
  revert this
  decide +kernel

/-- A column that holds neither doubles nor complex numbers: a plane that is 0 is written as complex numbers, past its end. -/
theorem C116_other_ub {α : Type} [Zero α] [DecidableEq α] {c : SinkConf} {t : Tile α} {r : Range} {w : VS α} {l : List (VS α)} {col : Nat} (hc : c.col = some col)
    (ht : t.type col = .other) (hn : w.IsZero) {corr : Nat} (h0 : Maps c 0 corr) (h1 : corr < t.ncorr) : sink c t r (w :: l) = .ub := by
  have hp : ∃ l', planes (w :: l) = some w :: l' := by
    cases l with
    | nil => exact ⟨_, rfl⟩
    | cons x l => exact ⟨_, rfl⟩
  obtain ⟨l', hp⟩ := hp
  unfold sink
  rw [hc, hp]
  have hm := maps_iff.mpr h0
  have hn := zero_iff.mpr hn
  dsimp only [writeAll]
  rw [if_neg (by omega)]
  have hw : writePlane c t col (mapCorr c 0).toNat r (some w) = .ub := by
    unfold writePlane
    simp only [Option.bind_some, hn, if_true, ht]
    split <;> rfl
  rw [hw]

example : sink d0 { t0 with type := fun _ => .other } r0 [⟨none, false, none⟩] = .ub := rfl

/-! ## C117: through a tree that changes nothing -/

/-- Both nodes work on the same correlations, and write each once. -/
def SameCorrs (c : SpigotConf) (d : SinkConf) : Prop :=
  d.corrs = c.corrs ∧ (∃ ic ∈ c.corrs, 0 ≤ ic) ∧ ∀ (i i' : Nat) (ic : Int), c.corrs[i]? = some ic → c.corrs[i']? = some ic → 0 ≤ ic → i = i'

/-- The output column can hold what the input column holds. -/
def Holds (t : Tile α) (inp out : Nat) : Prop := t.type out = .cplx ∨ (t.type out = .dbl ∧ t.type inp = .dbl)

theorem copy_aux {α : Type} [Zero α] [DecidableEq α] {c : SpigotConf} {d : SinkConf} {t : Tile α} {r : Range} {l : List (VS α)} {col : Nat}
    (h : spigot c t r = some (.ok l)) (hd : d.col = some col) (hsame : SameCorrs c d) (hty : Holds t c.col col) :
    r.within t.nrow ∧ ∃ t', sink d t r l = .ok (some t') ∧ ∀ ic ∈ c.corrs, 0 ≤ ic →
      ∃ i : Nat, (planes l)[i]? = some (some (plane c t r ic)) ∧ OnlyPlane d (planes l).length i ic.toNat ∧ ic.toNat < t.ncorr := by
  obtain ⟨hcs, hex, huse⟩ := hsame
  unfold Holds at hty
  have hw : r.within t.nrow := by
    by_contra hc
    rw [((C114_outcome c t r).1).mpr hc] at h
    cases h
  have hbound : ∀ ic ∈ c.corrs, ic < (t.ncorr : Int) := by
    intro ic hm
    by_contra hc
    rw [((C114_outcome c t r).2 hw).mpr ⟨ic, hm, by omega⟩] at h
    cases h
  have hl := spigot_ok h
  have hmaps : ∀ i corr : Nat, Maps d i corr ↔ c.corrs[i]? = some (corr : Int) := by
    intro i corr
    unfold Maps
    rw [hcs]
    refine ⟨fun h => ?_, .inr⟩
    rcases h with ⟨h, _⟩ | h
    · obtain ⟨ic, hm, _⟩ := hex
      rw [h] at hm; cases hm
    · exact h
  have hplane : ∀ (i : Nat) (ic : Int), c.corrs[i]? = some ic → (planes l)[i]? = some (some (plane c t r ic)) := by
    intro i ic hi
    have h1 : l[i]? = some (plane c t r ic) := by rw [hl, List.getElem?_map, hi]; rfl
    unfold planes
    split
    · rename_i v
      have : i = 0 := by
        by_contra hne
        rw [List.getElem?_eq_none (by simp; omega)] at h1
        cases h1
      subst this
      simpa using h1
    · rw [List.getElem?_map, h1]; rfl
  have hfit : ∀ ic, 0 ≤ ic → Fits t col r (some (plane c t r ic)) := by
    intro ic hp w hw' _
    injection hw' with hw'
    subst hw'
    unfold plane
    rw [if_neg (by omega)]
    refine ⟨?_, fun a ha => .inr ?_⟩
    · rcases hty with e | ⟨e, e'⟩
      · exact .inl e
      · exact .inr ⟨e, by rw [e']; rfl⟩
    · injection ha with ha
      rw [← ha]
      rfl
  have hty' : t.type col ≠ .other := by
    rcases hty with e | ⟨e, _⟩ <;> rw [e] <;> simp
  obtain ⟨o, ho⟩ := (C116_succeeds (c := d) (t := t) (r := r) (l := l) hd).1 ⟨hw, hty', fun i corr v hv h0 _ => by
    have h1 := (hmaps i corr).mp h0
    have h2 := hplane i _ h1
    rw [hv] at h2
    injection h2 with h2
    rw [h2]
    exact hfit _ (by omega)⟩
  have honly : ∀ (i : Nat) (ic : Int), c.corrs[i]? = some ic → 0 ≤ ic → OnlyPlane d (planes l).length i ic.toNat := by
    intro i ic hi hp
    have hcast : (ic.toNat : Int) = ic := by omega
    refine ⟨?_, by rw [hmaps, hcast]; exact hi, fun i' _ hm => ?_⟩
    · by_contra hc
      have := hplane i ic hi
      rw [List.getElem?_eq_none (by omega)] at this
      cases this
    · rw [hmaps, hcast] at hm
      exact (huse i i' ic hi hm hp).symm
  obtain ⟨ic0, hm0, hp0⟩ := hex
  obtain ⟨i0, hi0⟩ := List.mem_iff_getElem?.mp hm0
  have hsome : o.isSome = true := (C116_attached ho).mpr ⟨by rw [hd]; rfl, i0, ic0.toNat, (honly i0 ic0 hi0 hp0).1, (honly i0 ic0 hi0 hp0).2.1, by
    have := hbound ic0 hm0
    omega⟩
  obtain ⟨t', rfl⟩ := Option.isSome_iff_exists.mp hsome
  refine ⟨hw, t', ho, fun ic hm hp => ?_⟩
  obtain ⟨i, hi⟩ := List.mem_iff_getElem?.mp hm
  exact ⟨i, hplane i ic hi, honly i ic hi hp, by have := hbound ic hm; omega⟩

/-- A spigot and a sink with the same correlations: the output column gets the input column's values for those correlations and rows. -/
theorem C117_copy {α : Type} [Zero α] [DecidableEq α] {c : SpigotConf} {d : SinkConf} {t : Tile α} {r : Range} {l : List (VS α)} {col : Nat}
    (h : spigot c t r = some (.ok l)) (hd : d.col = some col) (hsame : SameCorrs c d) (hty : Holds t c.col col) :
    ∃ t', sink d t r l = .ok (some t') ∧
      ∀ ic ∈ c.corrs, 0 ≤ ic → ∀ k j, k < t.nfreq → r.In j → t'.col col ic.toNat k j = t.col c.col ic.toNat k j := by
  obtain ⟨_, t', ho, hp⟩ := copy_aux h hd hsame hty
  refine ⟨t', ho, fun ic hm h0 k j hk hj => ?_⟩
  obtain ⟨i, h1, h2, h3⟩ := hp ic hm h0
  rw [C116_values ho hd h1 h2 h3 hk hj]
  obtain ⟨h4, h5⟩ := has_sub (has_iff.mpr hj)
  unfold sample plane
  rw [if_neg (by omega)]
  simp only [Option.bind_some]
  rw [get_full _ _ _ _ _ h4 hk, h5]

/-- The flags of those samples stay what they were, if all flags are let through and no row is missing. -/
theorem C117_flags {α : Type} [Zero α] [DecidableEq α] {c : SpigotConf} {d : SinkConf} {t t' : Tile α} {r : Range} {l : List (VS α)} {col : Nat}
    (h : spigot c t r = some (.ok l)) (hd : d.col = some col) (hsame : SameCorrs c d) (hty : Holds t c.col col) (ho : sink d t r l = .ok (some t'))
    (hc1 : c.flagMask = BitVec.allOnes 32) (hc2 : c.rowMask = 0) (hc3 : c.flagBit = 0) (hd1 : d.flagMask = BitVec.allOnes 32) (hd2 : d.flagBit = 0)
    (hmiss : ∀ j, r.In j → t.rowflag j ≠ missing) {ic : Int} (hm : ic ∈ c.corrs) (h0 : 0 ≤ ic) {k j : Nat} (hk : k < t.nfreq) (hj : r.In j) :
    t'.flags ic.toNat k j = t.flags ic.toNat k j := by
  obtain ⟨_, t1, ho', hp⟩ := copy_aux h hd hsame hty
  rw [ho] at ho'
  injection ho' with ho'
  injection ho' with ho'
  subst ho'
  obtain ⟨i, h1, h2, h3⟩ := hp ic hm h0
  obtain ⟨_, _, _, g1, g2⟩ := sink_plane ho h1 h2 h3
  have hne : c.flagMask ≠ 0 := by rw [hc1]; decide
  have hne' : d.flagMask ≠ 0 := by rw [hd1]; decide
  by_cases hn : (plane c t r ic).IsZero
  · exact g2 k j (.inr (.inl ⟨_, rfl, hn⟩))
  · by_cases hf : ∀ f, (plane c t r ic).flags = some f → Spans f.shape t
    · rw [g1 _ k j rfl hn hj hne' hf]
      obtain ⟨h4, h5⟩ := has_sub (has_iff.mpr hj)
      obtain ⟨_, _, _, _, h6⟩ := plane_shows c t r ic h0 hne
      obtain ⟨w, h7, h8⟩ := h6 (j - r.first) k h4 hk
      rw [h8, hd2, hc3, hd1]
      unfold withBit
      rw [if_pos rfl, if_pos rfl, BitVec.and_allOnes]
      apply BitVec.eq_of_getLsbD_eq
      intro b hb
      rw [h7 b, h5]
      unfold wantedBit
      rw [hc1, hc2, decide_eq_false (hmiss j hj), BitVec.getLsbD_allOnes, decide_eq_true hb]
      simp
    · rw [not_forall] at hf
      obtain ⟨f, hf⟩ := hf
      rw [Classical.not_imp] at hf
      exact g2 k j (.inr (.inr (.inr ⟨_, f, rfl, hf.1, hf.2⟩)))

example : SameCorrs c0 d0 ∧ Holds t0 0 1 ∧ (∀ j, (Range.mk 0 1).In j → t0.rowflag j ≠ missing) ∧
    ∃ l t', spigot { c0 with flagMask := BitVec.allOnes 32, rowMask := 0 } t0 ⟨0, 1⟩ = some (.ok l) ∧
      sink { d0 with flagMask := BitVec.allOnes 32 } t0 ⟨0, 1⟩ l = .ok (some t') ∧ t'.flags 1 0 0 = 4 := by
  refine ⟨⟨rfl, ⟨0, by decide, by decide⟩, ?_⟩, .inl rfl, fun j hj => ?_, _, _, rfl, rfl, by decide +kernel⟩
  · intro i i' ic h1 h2 h0
    have hb : ∀ n, c0.corrs[n]? = some ic → (n = 0 ∧ ic = 0) ∨ (n = 2 ∧ ic = 1) := by
      intro n hn
      match n, hn with
      | 0, hn => exact .inl ⟨rfl, (Option.some.inj hn).symm⟩
      | 1, hn => have : ic = -1 := (Option.some.inj hn).symm; omega
      | 2, hn => exact .inr ⟨rfl, (Option.some.inj hn).symm⟩
      | n + 3, hn => cases hn
    have := hb i h1
    have := hb i' h2
    omega
  · have : j = 0 ∨ j = 1 := by unfold Range.In at hj; simp at hj; omega
    rcases this with rfl | rfl <;> decide +kernel

example : ∃ l t', spigot c0 t0 r0 = some (.ok l) ∧ sink d0 t0 r0 l = .ok (some t') ∧ t'.col 1 1 1 2 = 113 ∧ t'.flags 0 1 1 = 2 := by
  exact ⟨_, _, rfl, rfl, by decide +kernel, by decide +kernel⟩

/-- A sample in a flagged row is flagged in the tile that the sink writes. -/
def C117_rowflags_full : Prop :=
  ∀ (c : SpigotConf) (d : SinkConf) (t t' : Tile Int) (r : Range) (l : List (VS Int)), c.flagMask = missing → c.rowMask = missing → d.flagMask = missing →
    c.flagBit = 0 → d.flagBit = 0 → c.corrs = [0] → d.corrs = [0] → spigot c t r = some (.ok l) → sink d t r l = .ok (some t') →
    ∀ k j, k < t.nfreq → r.In j → t.rowflag j ≠ 0 → t'.flags 0 k j ≠ 0

/-- Not if the request is for two of three rows. -/
theorem C117_rowflags_refuted : ¬ C117_rowflags_full := by
  intro h
  have := h ⟨0, [0], missing, missing, 0⟩ ⟨some 1, [0], missing, 0⟩ t0 _ ⟨1, 2⟩ _ rfl rfl rfl rfl rfl rfl rfl rfl rfl 0 1 (by decide) (by decide) (by decide)
  revert this
  decide +kernel

end Verif.VisNodes
