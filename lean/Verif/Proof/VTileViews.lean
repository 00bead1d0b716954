import Verif.Proof.VTileSteps
/-!
# Values of tiles after an operation
-/
namespace Verif.VTile

theorem view_eq {T : Tile} {h : Nat → Block} {b : Nat} {f : List Col} (hb : T.blk = some b) (hf : T.fmt = some f) (c e t k : Nat) :
    view T h c e t k = match f[c]? with
      | none => .ub
      | some col => if col.ty ≠ 0 ∧ e < col.cells ∧ t < T.nrow ∧ k < col.el then
          .ok ((h b).mem (elemOff (colOff f T.nrow c) col.el T.nrow e t + k)) else .ub := by
  unfold view
  simp only [hb, hf, Option.bind_some, Option.getD_some]
  cases f[c]? <;> rfl

theorem view_none {T : Tile} {h : Nat → Block} (hb : T.blk = none) (c e t k : Nat) : view T h c e t k = .ub := by
  unfold view; rw [hb]

/-- Place of an element of a scalar column. -/
theorem scalar_off {o el n t k m : Nat} (ht : t < m) (hk : k < el) : elemOff o el n 0 t + k = o + (t * el + k) ∧ t * el + k < el * m := by
  unfold elemOff
  refine ⟨by simp; omega, ?_⟩
  have := Nat.mul_le_mul_right el (Nat.succ_le_of_lt ht)
  rw [Nat.succ_mul] at this
  rw [Nat.mul_comm el m]; omega

theorem inv_fmt {s : St} (h : Inv s) {i b : Nat} {f : List Col} (hb : (s.tile i).blk = some b) (hf : (s.tile i).fmt = some f) :
    FmtOk f ∧ 0 < (s.tile i).nrow ∧ b < s.next ∧ (s.heap b).size = (layout hdrSize (s.tile i).nrow f).2 ∧ (s.tile i).pd = ptrs b f (s.tile i).nrow := by
  obtain ⟨w1, w2, _, _, _, _, w7⟩ := (h.tiles i).1.some_ b hb
  obtain ⟨v1, v2, v3⟩ := w7 f hf
  exact ⟨v1, w2, w1, v3, v2⟩

theorem scalar_col {f : List Col} (hs : Scalar f) {c : Nat} {k : Col} (hc : f[c]? = some k) (hk : k.ty ≠ 0) : k.cells = 1 ∧ k.cell = k.el := by
  have := hs k (List.mem_of_getElem? hc) hk
  unfold Col.cell Col.cells
  rw [this]; simp

theorem rows_blk {s : St} (h : Inv s) {i : Nat} (hn : 0 < (s.tile i).nrow) : ∃ b, (s.tile i).blk = some b := by
  cases hb : (s.tile i).blk with
  | none => have := ((h.tiles i).1.none_ hb).1; omega
  | some b => exact ⟨b, rfl⟩

theorem norows_blk {s : St} (h : Inv s) {i : Nat} (hn : (s.tile i).nrow = 0) : (s.tile i).blk = none := by
  cases hb : (s.tile i).blk with
  | none => rfl
  | some b => have := ((h.tiles i).1.some_ b hb).2.1; omega

theorem grows {s s' : St} {i : Nat} {nr : Int} {f : List Col} (h : Inv s) (hi : i < s.nt) (hs : addRows s i nr = .ok s')
    (hf : (s.tile i).fmt = some f) (hsc : Scalar f) : Grows s s' i nr.toNat := by
  obtain ⟨f', a1, a2, a3, a4, a5, a6, a7, a8⟩ := addRows_spec h hi hs
  rw [hf] at a1; cases a1
  have hi' : i < s'.nt := by rw [a4.nt]; exact hi
  refine ⟨a5.trans hf.symm, a6, a7, fun c e t k ht => ?_, fun c col hcol e t k he ht ht' hk => ?_⟩
  · rw [get_view a3 hi', get_view h hi]
    rcases a8 with ⟨_, hsame⟩ | ⟨hpos, b', hb', hg⟩
    · exact hsame.view c e t k
    · obtain ⟨b, hb⟩ := rows_blk h (i := i) (by omega)
      rw [view_eq hb' a5, view_eq hb hf]
      cases hc : f[c]? with
      | none => rfl
      | some col =>
        simp only
        by_cases hr : col.ty ≠ 0 ∧ e < col.cells ∧ t < (s.tile i).nrow ∧ k < col.el
        · rw [if_pos hr, if_pos ⟨hr.1, hr.2.1, by omega, hr.2.2.2⟩]
          obtain ⟨s1, s2⟩ := scalar_col hsc hc hr.1
          have he : e = 0 := by omega
          subst he
          have hel : col.el ≠ 0 := by omega
          obtain ⟨o1, o2⟩ := scalar_off (o := colOff f (s.tile i).nrow c) (n := (s.tile i).nrow) ht hr.2.2.2
          obtain ⟨o3, _⟩ := scalar_off (o := colOff f (s'.tile i).nrow c) (n := (s'.tile i).nrow) ht hr.2.2.2
          rw [o1, o3, a6, (hg c col hc hel).1 _ (by rw [s2]; exact o2), hb]
        · rw [if_neg hr, if_neg (fun e => hr ⟨e.1, e.2.1, ht, e.2.2.2⟩)]
  · obtain ⟨f', q1, hc, hty⟩ := hcol
    rw [hf] at q1; cases q1
    rcases a8 with ⟨h0, _⟩ | ⟨hpos, b', hb', hg⟩
    · subst h0; simp at ht'; omega
    · rw [get_view a3 hi', view_eq hb' a5, hc]
      simp only
      rw [if_pos ⟨hty, he, by omega, hk⟩]
      obtain ⟨s1, s2⟩ := scalar_col hsc hc hty
      have he : e = 0 := by unfold Col.cells at s1; omega
      subst he
      have hel : col.el ≠ 0 := by omega
      obtain ⟨o3, o4⟩ := scalar_off (o := colOff f (s'.tile i).nrow c) (n := (s'.tile i).nrow) (t := t) (m := (s'.tile i).nrow) (by omega) hk
      rw [o3, a6, (hg c col hc hel).2]
      · rw [s2]
        have := Nat.mul_le_mul_right col.el ht
        rw [Nat.mul_comm col.el]; omega
      · rw [s2, ← a6]; exact o4

theorem addRows_ok {s : St} {i : Nat} {nr : Int} {f : List Col} (h : Inv s) (hi : i < s.nt) (hf : (s.tile i).fmt = some f) (hn : 0 ≤ nr)
    (hp : 0 < nr ∨ 0 < (s.tile i).nrow) : ∃ s', addRows s i nr = .ok s' := by
  obtain ⟨s1, h1⟩ := addRowsBase_ok (h.toB i) hi hf hn
  unfold addRows
  rw [h1, Res.ok_bind]
  obtain ⟨f', q1, q2, hh⟩ := addRowsBase_spec (h.toB i) hi h1
  rw [hf] at q1; cases q1
  rcases hh with ⟨h0, rfl⟩ | ⟨h0, g1, g2, g3, g4, g5, g6, g7, b', g8, _⟩
  · obtain ⟨b, hb⟩ := rows_blk h (i := i) (by omega)
    exact ia_ok (h.toB i) hb hf
  · exact ia_ok g1 g8 g4

theorem copy_fmt {s s' : St} {i j : Nat} {st ost num : Int} {f g : List Col} (hs : copy s i j st ost num = .ok s')
    (hf : (s.tile j).fmt = some f) (hg : (s.tile i).fmt = some g) : g = f := by
  unfold copy at hs
  obtain ⟨s1, h1, _⟩ := Res.bind_eq_ok.mp hs
  unfold copyBase at h1
  dsimp only at h1
  generalize (if num < 0 then ((s.tile j).nrow : Int) - ost else num) = n at h1
  split at h1
  · cases h1
  · split at h1
    · cases h1
    · split at h1
      · cases h1
      · simp only [hf] at h1
        obtain ⟨s2, h2, _⟩ := Res.bind_eq_ok.mp h1
        unfold applyFormat at h2
        simp only [hg] at h2
        split at h2
        · assumption
        · cases h2

/-- Elements after rows have been copied, for scalar columns. -/
theorem copies {s s' : St} {i j st ost n : Nat} {num : Int} {f : List Col} (h : Inv s) (hi : i < s.nt) (hj : j < s.nt) (hu : Unshared s i)
    (hs : copy s i j st ost num = .ok s') (hf : (s.tile j).fmt = some f) (hsc : Scalar f) (hn : 0 < n)
    (hnum : num = n ∨ num < 0 ∧ ost + n = (s.tile j).nrow) (h0 : (s.tile i).nrow = 0 → st = 0) : Copies s s' i j st ost n := by
  obtain ⟨f', n', a1, a2, a3, a4, a5, a6, a7, a8, a9, a10⟩ := copy_spec h hi hj hu hs
  rw [hf] at a1; cases a1
  have hn' : n' = n := by
    rw [a5]
    rcases hnum with e | ⟨e1, e2⟩
    · rw [if_neg (by omega), e]
    · rw [if_pos e1]; omega
  clear a5
  subst hn'
  rcases a10 with ⟨b1, _⟩ | ⟨b1, s4, m, d, rdy, b2, b3, b4, b5, b6, b7, b8⟩
  · omega
  · have hi' : i < s'.nt := by rw [a8.nt]; exact hi
    simp only [Int.toNat_natCast] at rdy b8
    have hfit : st + n ≤ (s4.tile i).nrow := by
      rw [rdy.nrow]
      by_cases e : (s.tile i).nrow = 0
      · rw [if_pos e, h0 e]; omega
      · rw [if_neg e]; have := b7 e; omega
    obtain ⟨b, hb, hcop⟩ := b8 (by omega) (by omega)
    refine ⟨by rw [a9, hf], by rw [b5, rdy.nrow], by rw [b6, rdy.id], fun c e t k ht => ?_, fun hsome c e t k ht ht' => ?_⟩
    · rw [get_view a7 hi', get_view h hj, view_eq b3 a9, view_eq hb hf]
      cases hc : f[c]? with
      | none => rfl
      | some col =>
        simp only
        by_cases hr : col.ty ≠ 0 ∧ e < col.cells ∧ k < col.el
        · rw [if_pos ⟨hr.1, hr.2.1, by omega, hr.2.2⟩, if_pos ⟨hr.1, hr.2.1, by omega, hr.2.2⟩]
          obtain ⟨s1, s2⟩ := scalar_col hsc hc hr.1
          have he : e = 0 := by omega
          subst he
          have hel : col.el ≠ 0 := by omega
          obtain ⟨o1, _⟩ := scalar_off (o := colOff f (s.tile j).nrow c) (n := (s.tile j).nrow) (t := ost + t) (m := ost + n) (by omega) hr.2.2
          obtain ⟨o3, _⟩ := scalar_off (o := colOff f (s'.tile i).nrow c) (n := (s'.tile i).nrow) (t := st + t) (m := st + n) (by omega) hr.2.2
          obtain ⟨_, o4⟩ := scalar_off (o := 0) (n := 0) ht hr.2.2
          have := (hcop c col hc hel).1 (t * col.el + k) (by rw [s2]; exact o4)
          rw [s2] at this
          rw [o1, o3, b5, b4]
          rw [show colOff f (s4.tile i).nrow c + ((st + t) * col.el + k) = colOff f (s4.tile i).nrow c + col.el * st + (t * col.el + k) by
            rw [Nat.add_mul, Nat.mul_comm st]; omega]
          rw [show colOff f (s.tile j).nrow c + ((ost + t) * col.el + k) = colOff f (s.tile j).nrow c + col.el * ost + (t * col.el + k) by
            rw [Nat.add_mul, Nat.mul_comm ost]; omega]
          rw [this]
        · rw [if_neg (fun e => hr ⟨e.1, e.2.1, e.2.2.2⟩), if_neg (fun e => hr ⟨e.1, e.2.1, e.2.2.2⟩)]
    · have hne : (s.tile i).nrow ≠ 0 := by omega
      obtain ⟨r1, r2⟩ := rdy.old hne
      have hnr := rdy.nrow
      rw [if_neg hne] at hnr
      have hbi : (s.tile i).blk = some d := by rw [← r1]; exact b2
      have hfi : (s.tile i).fmt = some f := by
        obtain ⟨g, hg⟩ := Option.isSome_iff_exists.mp hsome
        rw [hg, copy_fmt hs hf hg]
      rw [get_view a7 hi', get_view h hi, view_eq b3 a9, view_eq hbi hfi]
      cases hc : f[c]? with
      | none => rfl
      | some col =>
        simp only
        rw [b5, hnr]
        split
        · rename_i hr
          obtain ⟨s1, s2⟩ := scalar_col hsc hc hr.1
          have he : e = 0 := by omega
          subst he
          have hel : col.el ≠ 0 := by omega
          obtain ⟨o1, o2⟩ := scalar_off (o := colOff f (s.tile i).nrow c) (n := (s.tile i).nrow) ht hr.2.2.2
          have := (hcop c col hc hel).2 (t * col.el + k) (by rw [s2, hnr]; exact o2) (by
            rw [s2]
            rcases ht' with e | e
            · left; exact (scalar_off (o := 0) (n := 0) e hr.2.2.2).2
            · right
              have := Nat.mul_le_mul_right col.el e
              rw [Nat.mul_comm col.el]; omega)
          rw [hnr] at this
          rw [o1, b4, this, r2 d hbi]
        · rfl

/-- A whole tile is copied, whatever its columns. -/
theorem copies_all {s s' : St} {i j : Nat} {num : Int} (h : Inv s) (hi : i < s.nt) (hj : j < s.nt) (hu : Unshared s i)
    (hs : copy s i j 0 0 num = .ok s') (hnum : num = (s.tile j).nrow ∨ num < 0) (hn : 0 < (s.tile j).nrow)
    (h0 : (s.tile i).nrow = 0 ∨ (s.tile i).nrow = (s.tile j).nrow) :
    (s'.tile i).fmt = (s.tile j).fmt ∧ (s'.tile i).nrow = (s.tile j).nrow ∧ ∀ c e t k, get s' i c e t k = get s j c e t k := by
  obtain ⟨f, n', a1, a2, a3, a4, a5, a6, a7, a8, a9, a10⟩ := copy_spec h hi hj hu hs
  have hn' : n' = (s.tile j).nrow := by
    rw [a5]
    rcases hnum with e | e
    · rw [if_neg (by omega), e]
    · rw [if_pos e]; omega
  clear a5
  subst hn'
  rcases a10 with ⟨b1, _⟩ | ⟨b1, s4, m, d, rdy, b2, b3, b4, b5, b6, b7, b8⟩
  · omega
  · have hi' : i < s'.nt := by rw [a8.nt]; exact hi
    simp only [Int.toNat_natCast, Int.toNat_zero] at rdy b8
    have hnr : (s4.tile i).nrow = (s.tile j).nrow := by
      rw [rdy.nrow]
      split
      · rfl
      · omega
    obtain ⟨b, hb, hcop⟩ := b8 (by omega) (by omega)
    refine ⟨by rw [a9, a1], by rw [b5, hnr], fun c e t k => ?_⟩
    rw [get_view a7 hi', get_view h hj, view_eq b3 a9, view_eq hb a1]
    cases hc : f[c]? with
    | none => rfl
    | some col =>
      simp only
      rw [b5, hnr]
      split
      · rename_i hr
        have hel : col.el ≠ 0 := by omega
        have e2 := elem_in (o := colOff f (s.tile j).nrow c) (el := col.el) hr.2.1 hr.2.2.1
        have := (hcop c col hc hel).1 (elemOff (colOff f (s.tile j).nrow c) col.el (s.tile j).nrow e t + k - colOff f (s.tile j).nrow c)
          (by unfold Col.cell; omega)
        rw [hnr] at this
        simp only [Nat.mul_zero, Nat.add_zero] at this
        rw [show colOff f (s.tile j).nrow c + (elemOff (colOff f (s.tile j).nrow c) col.el (s.tile j).nrow e t + k - colOff f (s.tile j).nrow c) =
          elemOff (colOff f (s.tile j).nrow c) col.el (s.tile j).nrow e t + k by omega] at this
        rw [b4, this]
      · rfl

/-- Rows can be copied between tiles of the same format. -/
theorem copy_ok {s : St} {i j st ost n : Nat} {f : List Col} (h : Inv s) (hi : i < s.nt) (hj : j < s.nt) (hne : i ≠ j) (hu : Unshared s i)
    (hfi : (s.tile i).fmt = some f) (hf : (s.tile j).fmt = some f) (hn : 0 < n) (h1 : st + n ≤ (s.tile i).nrow) (h2 : ost + n ≤ (s.tile j).nrow)
    (hid : (s.tile i).id ≠ [] ∨ (s.tile j).id.length ≤ 16) : ∃ s', copy s i j st ost n = .ok s' := by
  have ha : applyFormat s i f = .ok s := by unfold applyFormat; simp [hfi]
  have hs4 : ∃ s4, (if (s.tile i).id = [] then setTileId s i (s.tile j).id else .ok s) = .ok s4 ∧ InvB s4 i ∧ Frame s s4 i ∧ Unshared s4 i ∧
      (s4.tile i).fmt = some f ∧ (s4.tile i).nrow = (s.tile i).nrow ∧ (s4.tile i).blk = (s.tile i).blk := by
    split
    · rename_i e
      have hl : ¬ (s.tile j).id.length > 16 := by rcases hid with q | q; exact absurd e q; omega
      have : ∃ s4, setTileId s i (s.tile j).id = .ok s4 := by
        unfold setTileId
        rw [unshared_mw hu, Res.ok_bind]
        simp only [if_neg hl]
        split <;> exact ⟨_, rfl⟩
      obtain ⟨s4, hs4⟩ := this
      obtain ⟨c1, c2, c3, c4, c5⟩ := setTileId_spec (h.toB i) hi hu hs4
      exact ⟨s4, hs4, c1, c2, c3, by rw [c4]; exact hfi, by rw [c4], by rw [c4]⟩
    · exact ⟨s, rfl, h.toB i, .refl _ _, hu, hfi, rfl, rfl⟩
  obtain ⟨s4, e4, c1, c2, c3, c4, c5, c6⟩ := hs4
  obtain ⟨d, hd⟩ := rows_blk h (i := i) (by omega)
  obtain ⟨b, hb⟩ := rows_blk h (i := j) (by omega)
  have hd4 : (s4.tile i).blk = some d := by rw [c6]; exact hd
  obtain ⟨w1, w2, w3, w4, w5, w6, w7⟩ := (c1.base i).some_ d hd4
  obtain ⟨v1, v2, v3⟩ := w7 f c4
  obtain ⟨y1, y2, y3, y4, y5⟩ := inv_fmt h hb hf
  have hbd : b ≠ d := by
    intro e; subst e
    exact (hu b hd).1 j hj (fun e => hne e.symm) hb
  obtain ⟨js, j1, j2, j3⟩ := rowJobs_ptrs st ost n (s4.tile i).nrow (s.tile j).nrow d b f
  obtain ⟨s', hr⟩ := runJobs_ok (d := d) (js := js) (s := s4) (fun J hJ => by
    obtain ⟨c, k, hc, hk, rfl⟩ := (j2 J).mp hJ
    have e1 := colOff_end (n := (s4.tile i).nrow) hc hk
    have e2 := colOff_end (n := (s.tile j).nrow) hc hk
    have e3 : k.cell * st + k.cell * n ≤ k.cell * (s4.tile i).nrow := by rw [← Nat.mul_add]; exact Nat.mul_le_mul_left _ (by omega)
    have e4 : k.cell * ost + k.cell * n ≤ k.cell * (s.tile j).nrow := by rw [← Nat.mul_add]; exact Nat.mul_le_mul_left _ (by omega)
    refine ⟨rfl, hbd, ?_, ?_⟩
    · simp only; rw [v3]; omega
    · simp only; rw [c2.heapT j b (fun e => hne e.symm) hb, y4]; omega)
  refine ⟨s', ?_⟩
  unfold copy copyBase
  have hc0 : ¬ ((n : Int) < 0) := by omega
  have hc1 : ¬ ((st : Int) < 0 ∨ (ost : Int) < 0) := by omega
  have hc2 : ¬ ((ost : Int) + n > (s.tile j).nrow) := by omega
  have hc3 : ¬ ((n : Int) = 0) := by omega
  have hc4 : ¬ (s.tile i).nrow = 0 := by omega
  have hc5 : ¬ ((st : Int) + n > (s.tile i).nrow) := by omega
  have hcr : colRows (s4.tile i) n = n := by unfold colRows; rw [if_neg hc0]; rfl
  simp only [if_neg hc0, if_neg hne, if_neg hc1, if_neg hc2, hf, ha, Res.ok_bind, if_neg hc3, unshared_mw hu, if_neg hc4, if_neg hc5, e4, hcr,
    Int.toNat_natCast, v2, y5, j1, hr, hfi, Option.isSome_some, if_true]

/-- A change of format. -/
theorem reformats {s s' : St} {i : Nat} {f g : List Col} (h : Inv s) (hi : i < s.nt) (hg : FmtOk g) (hs : changeFormat s i g = .ok s')
    (hf : (s.tile i).fmt = some f) (hst : SameTypes f g) (hn : 0 < (s.tile i).nrow) : Reformats s s' i g := by
  obtain ⟨f', a1, a2, a3, a4, a5, a6, a7⟩ := changeFormat_spec h hi hg hs
  rw [hf] at a1; cases a1
  obtain ⟨b, hb⟩ := rows_blk h hn
  obtain ⟨b', hb', hch⟩ := a7 hst b hb
  have hi' : i < s'.nt := by rw [a3.nt]; exact hi
  refine ⟨a4, a5, a6, fun c col hc hty => ⟨fun hcol e t k => ?_, fun hcol e t k he ht hk => ?_⟩⟩
  · obtain ⟨f', q1, hfc, _⟩ := hcol
    rw [hf] at q1; cases q1
    rw [get_view a2 hi', get_view h hi, view_eq hb' a4, view_eq hb hf, hc, hfc]
    simp only
    rw [a5]
    split
    · rename_i hr
      have hel : col.el ≠ 0 := by omega
      have e1 := elem_in (o := colOff g (s.tile i).nrow c) (el := col.el) hr.2.1 hr.2.2.1
      have := hch c col hc hel (elemOff (colOff g (s.tile i).nrow c) col.el (s.tile i).nrow e t + k - colOff g (s.tile i).nrow c) (by unfold Col.cell; omega)
      rw [if_pos hfc] at this
      rw [show colOff g (s.tile i).nrow c + (elemOff (colOff g (s.tile i).nrow c) col.el (s.tile i).nrow e t + k - colOff g (s.tile i).nrow c) =
        elemOff (colOff g (s.tile i).nrow c) col.el (s.tile i).nrow e t + k by omega] at this
      rw [this]
      congr 2
      unfold elemOff
      omega
    · rfl
  · have hfc : f[c]? ≠ some col := fun e => hcol ⟨f, hf, e, hty⟩
    rw [get_view a2 hi', view_eq hb' a4, hc]
    simp only
    rw [a5, if_pos ⟨hty, he, ht, hk⟩]
    have hel : col.el ≠ 0 := by omega
    have e1 := elem_in (o := colOff g (s.tile i).nrow c) (el := col.el) he ht
    have := hch c col hc hel (elemOff (colOff g (s.tile i).nrow c) col.el (s.tile i).nrow e t + k - colOff g (s.tile i).nrow c)
      (by unfold Col.cell Col.cells; omega)
    rw [if_neg hfc] at this
    rw [show colOff g (s.tile i).nrow c + (elemOff (colOff g (s.tile i).nrow c) col.el (s.tile i).nrow e t + k - colOff g (s.tile i).nrow c) =
      elemOff (colOff g (s.tile i).nrow c) col.el (s.tile i).nrow e t + k by omega] at this
    rw [this]

theorem changeFormat_ok {s : St} {i : Nat} {f g : List Col} (h : Inv s) (hi : i < s.nt) (hg : FmtOk g)
    (hf : (s.tile i).fmt = some f) (hst : SameTypes f g) (hn : 0 < (s.tile i).nrow) : ∃ s', changeFormat s i g = .ok s' := by
  obtain ⟨b, hb⟩ := rows_blk h hn
  obtain ⟨y1, y2, y3, y4, y5⟩ := inv_fmt h hb hf
  have pg : ∀ (c : Nat) (k : Col), g[c]? = some k → k.ty ≠ 0 → (ptrs s.next g (s.tile i).nrow)[c]? = some (some ⟨s.next, colOff g (s.tile i).nrow c⟩) := by
    intro c k hc hk
    rw [ptrs_get hc, if_neg (fun e => hk ((fmtOk_get hg hc).mpr e))]
  have pf : ∀ (c : Nat) (k : Col), f[c]? = some k → k.ty ≠ 0 → (ptrs b f (s.tile i).nrow)[c]? = some (some ⟨b, colOff f (s.tile i).nrow c⟩) := by
    intro c k hc hk
    rw [ptrs_get hc, if_neg (fun e => hk ((fmtOk_get y1 hc).mpr e))]
  obtain ⟨js, j1, j2, _⟩ := formatJobs_spec (s.tile i).nrow (fun _ _ => True) f g
    (ptrs s.next g (s.tile i).nrow) (ptrs b f (s.tile i).nrow) (ptrs_length _ _ _) (ptrs_length _ _ _)
    (fun c k hc hk => ⟨_, pg c k hc hk⟩) (fun c k hc hk => ⟨_, pf c k hc hk⟩)
  have hjs : ∀ J ∈ js, J.dst.blk = s.next ∧ J.src.blk ≠ s.next ∧
      J.dst.off + J.len ≤ ((alloc s (zeroBlock (layout hdrSize (s.tile i).nrow g).2 (s.tile i).nrow (s.tile i).id)).heap s.next).size ∧
      J.src.off + J.len ≤ ((alloc s (zeroBlock (layout hdrSize (s.tile i).nrow g).2 (s.tile i).nrow (s.tile i).id)).heap J.src.blk).size := by
    intro J hJ
    obtain ⟨c, x, y, u, v, q1, q2, q3, q4, q5, q6, q7, rfl⟩ := (j2 J).mp hJ
    rw [pg c y q2 q4] at q6
    rw [pf c x q1 q3] at q7
    cases q6; cases q7
    have : x = y := hst c x y q1 q2 q3 q4 q5
    subst this
    have hk : x.el ≠ 0 := fun e => q4 ((fmtOk_get hg q2).mpr e)
    have e1 := colOff_end (n := (s.tile i).nrow) q1 hk
    have e2 := colOff_end (n := (s.tile i).nrow) q2 hk
    refine ⟨rfl, by simp only; omega, ?_, ?_⟩
    · rw [alloc_new]; simp only [zeroBlock]; omega
    · simp only; rw [alloc_old _ _ y3, y4]; omega
  obtain ⟨s2, hr⟩ := runJobs_ok hjs
  obtain ⟨m, e, _⟩ := runJobs_spec (d := s.next) (fun J hJ => ⟨(hjs J hJ).1, (hjs J hJ).2.1⟩) hr
  rw [alloc_setMem] at e
  have ht : TileB (alloc s { zeroBlock (layout hdrSize (s.tile i).nrow g).2 (s.tile i).nrow (s.tile i).id with mem := m })
      { s.tile i with fmt := some g, pd := ptrs s.next g (s.tile i).nrow, blk := some s.next } := by
    refine ⟨(fun e => by cases e), fun b' e => ?_⟩
    cases e
    rw [alloc_new]
    refine ⟨Nat.lt_succ_self _, y2, rfl, rfl, layout_total _ _ _, (fun e => by cases e), fun f' e => ?_⟩
    cases e
    exact ⟨hg, rfl, rfl⟩
  obtain ⟨u1, u2, u3⟩ := upd (h.toB i) hi _ rfl ht
  rw [← e] at u1
  obtain ⟨s', hs'⟩ := ia_ok (f := g) u1 (by rw [setT_self]) (by rw [setT_self])
  refine ⟨s', ?_⟩
  unfold changeFormat
  simp only [hf, if_neg (show ¬ (s.tile i).nrow = 0 by omega), y5, j1, Res.ok_bind, hr]
  exact hs'

/-! Messages. -/

theorem Runs.spec {s s' : St} {n : Nat} (hr : Runs s n s') (h : Inv s) :
    Inv s' ∧ ∀ pre m post, s.msgs = pre ++ m :: post → n ≤ pre.length →
      s'.heap m.blk = s.heap m.blk ∧ ∃ post', s'.msgs = pre.drop n ++ m :: post' := by
  induction hr with
  | refl => exact ⟨h, fun pre m post e _ => ⟨rfl, post, by simpa using e⟩⟩
  | recv s1 s2 n i _ hs ih =>
    obtain ⟨i1, i2⟩ := ih
    obtain ⟨a1, _, _, a4⟩ := step_spec (op := .recv i) i1 trivial trivial hs
    refine ⟨a1, fun pre m post e hn => ?_⟩
    obtain ⟨h1, post', h2⟩ := i2 pre m post e (by omega)
    refine ⟨?_, post', ?_⟩
    · rw [a4.heap m (by rw [h2]; simp), h1]
    · rw [a4.recvd ⟨i, rfl⟩, h2]
      have : n < pre.length := by omega
      rw [List.drop_eq_getElem_cons this]
      rfl
  | other s1 s2 n op _ hF hA hne hs ih =>
    obtain ⟨i1, i2⟩ := ih
    obtain ⟨a1, _, _, a4⟩ := step_spec i1 hF hA hs
    refine ⟨a1, fun pre m post e hn => ?_⟩
    obtain ⟨h1, post', h2⟩ := i2 pre m post e hn
    refine ⟨by rw [a4.heap m (by rw [h2]; simp), h1], ?_⟩
    by_cases hsend : ∃ i, op = .send i
    · obtain ⟨m', hm'⟩ := a4.sent hsend
      exact ⟨post' ++ [m'], by rw [hm', h2]; simp⟩
    · exact ⟨post', by rw [a4.msgs hne (fun i e => hsend ⟨i, e⟩), h2]⟩

theorem recv_ok {s : St} {i : Nat} {m : Msg} {rest : List Msg} {f : List Col} (h : Inv s) (hi : i < s.nt) (hm : s.msgs = m :: rest)
    (hf : m.fmt = some f) (hr : (s.heap m.blk).rows ≠ 0) : ∃ s', recv s i = .ok s' := by
  have mo := h.msgs m (by rw [hm]; exact List.mem_cons_self)
  obtain ⟨m1, m2⟩ := mo.fmt f hf
  unfold recv
  simp only [hm]
  rw [if_neg (by have := mo.size; omega)]
  simp only [hf, Option.some_or, if_neg hr, if_pos (m2 hr).symm, Res.ok_bind, Option.isSome_some, if_true]
  have hl := h.less hm
  have hfr := frame_setT { s with msgs := rest } i
    ⟨some f, (s.heap m.blk).rows, (s.heap m.blk).id, some m.blk, ptrs m.blk f (s.heap m.blk).rows, (s.tile i).arrs⟩
  have hB := (hl.toB i).frame hfr hi (by
    rw [setT_self]
    refine ⟨(fun e => by cases e), fun b e => ?_⟩
    cases e
    refine ⟨mo.lt, by simp only; omega, rfl, rfl, mo.size, (fun e => by cases e), fun f' e => ?_⟩
    cases e
    exact ⟨m1, rfl, m2 hr⟩)
  exact ia_ok (f := f) hB (by rw [setT_self]) (by rw [setT_self])

theorem send_recv {s s1 s2 : St} {i j : Nat} {f : List Col} (h : Inv s) (hi : i < s.nt) (hf : (s.tile i).fmt = some f)
    (hn : 0 < (s.tile i).nrow) (h1 : send s i = .ok s1) (h2 : Runs s1 s.msgs.length s2) (hj : j < s2.nt) :
    ∃ s3, recv s2 j = .ok s3 ∧ SameTile s i s3 j := by
  obtain ⟨a1, a2, a3, a4, m, a5, a6, a7, a8, a9⟩ := send_spec h h1
  obtain ⟨b1, b2⟩ := h2.spec a1
  obtain ⟨c1, post, c2⟩ := b2 s.msgs m [] a5 (Nat.le_refl _)
  rw [List.drop_length, List.nil_append] at c2
  have hrow : (s2.heap m.blk).rows ≠ 0 := by rw [c1, a7]; omega
  obtain ⟨s3, h3⟩ := recv_ok b1 hj c2 (a6.trans hf) hrow
  refine ⟨s3, h3, ?_⟩
  obtain ⟨m', rest, d0, d1, d2, d3, d4, d5, d6, d7⟩ := recv_spec b1 hj h3
  rw [c2] at d0; cases d0
  rw [a6, hf, Option.some_or] at d4
  rw [c1, a7] at d5
  rw [c1, a8] at d6
  rw [if_neg hrow] at d7
  have hb := a9 (by omega)
  refine ⟨d4.trans hf.symm, d5, d6, fun c e t k => ?_⟩
  rw [get_view d1 (by rw [d2.nt]; exact hj), get_view h hi]
  refine view_congr (d4.trans hf.symm) d5 (fun e => by rw [hb] at e; cases e) (fun b e => ⟨m.blk, d7, ?_⟩) c e t k
  rw [hb] at e; cases e
  rw [d3, c1, a4 _ ((h.tiles i).1.some_ _ hb).1]

end Verif.VTile
