import Verif.Proof.VTileOps
/-!
# Operations on tiles, continued
-/
namespace Verif.VTile

/-! Identifiers and formats. -/

theorem setTileId_spec {s s' : St} {i : Nat} {id : List Int} (h : InvB s i) (hi : i < s.nt) (hu : Unshared s i)
    (hs : setTileId s i id = .ok s') :
    InvB s' i ∧ Frame s s' i ∧ Unshared s' i ∧ s'.tile i = { s.tile i with id := id } ∧ ∀ b, (s'.heap b).mem = (s.heap b).mem := by
  unfold setTileId at hs
  rw [unshared_mw hu, Res.ok_bind] at hs
  dsimp only at hs
  split at hs
  · cases hs
  · cases hb : (s.tile i).blk with
    | none =>
      simp only [hb, Res.ok.injEq] at hs
      subst hs
      have hf := frame_setT s i ⟨(s.tile i).fmt, (s.tile i).nrow, id, none, (s.tile i).pd, (s.tile i).arrs⟩
      refine ⟨h.frame hf hi ?_, hf, hu.frame hf (by rw [setT_self]; exact hb.symm), ?_, fun _ => rfl⟩
      · rw [setT_self]
        exact ⟨fun _ => (h.base i).none_ hb, fun b e => by cases e⟩
      · rw [setT_self]; simp only [hb]
    | some b =>
      simp only [hb, Res.ok.injEq] at hs
      subst hs
      obtain ⟨w1, w2, w3, w4, w5, w6, w7⟩ := (h.base i).some_ b hb
      have hf : Frame s { setT s i ⟨(s.tile i).fmt, (s.tile i).nrow, id, some b, (s.tile i).pd, (s.tile i).arrs⟩ with
          heap := fun k => if k = b then { s.heap k with rows := (s.tile i).nrow, id := id } else s.heap k } i := by
        refine ⟨rfl, Nat.le_refl _, fun _ e => setT_other s _ e, rfl, fun j b' hne e => ?_, fun m hm => ?_⟩
        · have : b' ≠ b := by
            intro e'; subst e'
            have hj : j < s.nt := by
              by_cases hj : j < s.nt
              · exact hj
              · rw [h.fresh j (by omega)] at e; cases e
            exact (hu b' hb).1 j hj hne e
          simp [this]
        · have : m.blk ≠ b := (hu b hb).2 m hm
          simp [this]
      refine ⟨h.frame hf hi ?_, hf, hu.frame hf (by simp only [setT, if_true]; exact hb.symm), ?_, fun b' => ?_⟩
      · simp only [setT, if_true]
        refine ⟨(fun e => by cases e), fun b' e => ?_⟩
        cases e
        simp only [if_true]
        exact ⟨w1, w2, trivial, trivial, w5, w6, w7⟩
      · simp only [setT, if_true, hb]
      · simp only [setT]
        split <;> rfl

theorem applyFormat_spec {s s' : St} {i : Nat} {f : List Col} (h : InvB s i) (hi : i < s.nt) (hok : FmtOk f)
    (hs : applyFormat s i f = .ok s') :
    InvB s' i ∧ Frame s s' i ∧ s'.heap = s.heap ∧ s'.next = s.next ∧ (s'.tile i).fmt = some f ∧ (s'.tile i).nrow = (s.tile i).nrow ∧ (s'.tile i).id = (s.tile i).id ∧
      (s'.tile i).blk = (s.tile i).blk ∧ (s'.tile i).arrs = (s.tile i).arrs ∧ ((s.tile i).fmt.isSome → s' = s) := by
  unfold applyFormat at hs
  dsimp only at hs
  cases hf : (s.tile i).fmt with
  | some g =>
    simp only [hf] at hs
    split at hs
    · rename_i e
      cases hs
      subst e
      exact ⟨h, .refl _ _, rfl, rfl, hf, rfl, rfl, rfl, rfl, fun _ => rfl⟩
    · cases hs
  | none =>
    simp only [hf] at hs
    split at hs
    · rename_i hz
      cases hs
      have hfr := frame_setT s i { s.tile i with fmt := some f }
      cases hb : (s.tile i).blk with
      | some b => have := ((h.base i).some_ b hb).2.1; omega
      | none =>
        simp only [hb] at hfr
        refine ⟨h.frame hfr hi ?_, hfr, rfl, rfl, ?_, ?_, ?_, ?_, ?_, fun e => by cases e⟩
        · rw [setT_self]
          obtain ⟨a1, a2, a3⟩ := (h.base i).none_ hb
          refine ⟨fun _ => ⟨a1, a2, fun f' e => ?_⟩, fun b e => by cases e⟩
          cases e; exact hok
        all_goals rw [setT_self]
    · rename_i hz
      cases hb : (s.tile i).blk with
      | none => simp only [hb] at hs; cases hs
      | some b =>
        simp only [hb] at hs
        split at hs
        · rename_i hsz
          cases hs
          have hfr := frame_setT s i { s.tile i with fmt := some f, pd := ptrs b f (s.tile i).nrow }
          simp only [hb] at hfr
          refine ⟨h.frame hfr hi ?_, hfr, rfl, rfl, ?_, ?_, ?_, ?_, ?_, fun e => by cases e⟩
          · rw [setT_self]
            obtain ⟨w1, w2, w3, w4, w5, w6, w7⟩ := (h.base i).some_ b hb
            refine ⟨(fun e => by cases e), fun b' e => ?_⟩
            cases e
            refine ⟨w1, w2, w3, w4, w5, (fun e => by cases e), fun f' e => ?_⟩
            cases e
            exact ⟨hok, rfl, hsz⟩
          all_goals rw [setT_self]
        · cases hs

/-! Rows are copied. -/

/-- What the memory of a tile holds after rows have been copied to it. -/
def Copied (f : List Col) (nd nb st ost n : Nat) (m0 mO m : Nat → Nat) : Prop :=
  ∀ (c : Nat) (k : Col), f[c]? = some k → k.el ≠ 0 →
    (∀ x < k.cell * n, m (colOff f nd c + k.cell * st + x) = mO (colOff f nb c + k.cell * ost + x)) ∧
    ∀ y < k.cell * nd, y < k.cell * st ∨ k.cell * (st + n) ≤ y → m (colOff f nd c + y) = m0 (colOff f nd c + y)

theorem copied {f : List Col} {nd nb st ost n d b : Nat} {js : List Job} {m0 mO m : Nat → Nat} (hn : st + n ≤ nd)
    (hj : ∀ J, J ∈ js ↔ ∃ (c : Nat) (k : Col), f[c]? = some k ∧ k.el ≠ 0 ∧
        J = ⟨⟨d, colOff f nd c + k.cell * st⟩, ⟨b, colOff f nb c + k.cell * ost⟩, k.cell * n⟩)
    (h1 : ∀ x, (∀ J ∈ js, x < J.dst.off ∨ J.dst.off + J.len ≤ x) → m x = m0 x)
    (h2 : ∀ J ∈ js, ∀ x < J.len, m (J.dst.off + x) = mO (J.src.off + x)) : Copied f nd nb st ost n m0 mO m := by
  intro c k hc hk
  refine ⟨fun x hx => h2 _ ((hj _).mpr ⟨c, k, hc, hk, rfl⟩) x hx, fun y hy hy' => h1 _ (fun J hJ => ?_)⟩
  obtain ⟨c', k', hc', hk', rfl⟩ := (hj J).mp hJ
  simp only
  have hle : k'.cell * st + k'.cell * n ≤ k'.cell * nd := by rw [← Nat.mul_add]; exact Nat.mul_le_mul_left _ hn
  rcases Nat.lt_trichotomy c c' with hlt | heq | hgt
  · have := colOff_lt (n := nd) hc hk hc' hk' hlt; omega
  · subst heq; rw [hc] at hc'; cases hc'
    rw [Nat.mul_add] at hy'
    omega
  · have := colOff_lt (n := nd) hc' hk' hc hk hgt; omega

/-- The state before the bytes are copied. -/
structure Ready (s s4 : St) (i : Nat) (f : List Col) (n : Nat) (oid : List Int) : Prop where
  inv : InvB s4 i
  frame : Frame s s4 i
  uns : Unshared s4 i
  fmt : (s4.tile i).fmt = some f
  nrow : (s4.tile i).nrow = if (s.tile i).nrow = 0 then n else (s.tile i).nrow
  id : (s4.tile i).id = if (s.tile i).id = [] then oid else (s.tile i).id
  arrs : (s4.tile i).arrs = (s.tile i).arrs
  old : (s.tile i).nrow ≠ 0 → (s4.tile i).blk = (s.tile i).blk ∧ ∀ b, (s.tile i).blk = some b → (s4.heap b).mem = (s.heap b).mem
  new : (s.tile i).nrow = 0 → ∃ b, (s4.tile i).blk = some b ∧ ∀ (c : Nat) (k : Col), f[c]? = some k → k.el ≠ 0 →
    ∀ x < k.cell * n, (s4.heap b).mem (colOff f n c + x) = 0

theorem copyBase_spec {s s' : St} {i j : Nat} {st ost num : Int} (h : Inv s) (hi : i < s.nt) (hj : j < s.nt) (hu : Unshared s i)
    (hs : copyBase s i j st ost num = .ok s') :
    ∃ f n, (s.tile j).fmt = some f ∧ i ≠ j ∧ 0 ≤ st ∧ 0 ≤ ost ∧ n = (if num < 0 then ((s.tile j).nrow : Int) - ost else num) ∧
      ost + n ≤ (s.tile j).nrow ∧ InvB s' i ∧ Frame s s' i ∧ Unshared s' i ∧ (s'.tile i).arrs = (s.tile i).arrs ∧ (s'.tile i).fmt = some f ∧
      ((s.tile i).fmt.isSome → ArrsOk (s'.tile i)) ∧
      ((n = 0 ∧ (s'.tile i).nrow = (s.tile i).nrow ∧ (s'.tile i).id = (s.tile i).id ∧ (s'.tile i).blk = (s.tile i).blk ∧ s'.heap = s.heap) ∨
       (n ≠ 0 ∧ ∃ s4 m d, Ready s s4 i f n.toNat (s.tile j).id ∧ (s4.tile i).blk = some d ∧ s' = setMem s4 d m ∧
        ((s.tile i).nrow ≠ 0 → st + n ≤ (s.tile i).nrow) ∧
        (0 < n → st + n ≤ (s4.tile i).nrow → ∃ b, (s.tile j).blk = some b ∧
          Copied f (s4.tile i).nrow (s.tile j).nrow st.toNat ost.toNat n.toNat (s4.heap d).mem (s.heap b).mem m))) := by
  unfold copyBase at hs
  dsimp only at hs
  generalize hn : (if num < 0 then ((s.tile j).nrow : Int) - ost else num) = n at hs
  split at hs
  · cases hs
  · rename_i hne
    split at hs
    · cases hs
    · rename_i hst
      split at hs
      · cases hs
      · rename_i hle
        cases hf : (s.tile j).fmt with
        | none => simp only [hf] at hs; cases hs
        | some f =>
          simp only [hf] at hs
          refine ⟨f, n, rfl, hne, by omega, by omega, rfl, by omega, ?_⟩
          obtain ⟨s1, h1, h2⟩ := Res.bind_eq_ok.mp hs
          have hok : FmtOk f := by
            cases hb : (s.tile j).blk with
            | none => exact ((h.tiles j).1.none_ hb).2.2 f hf
            | some b => exact (((h.tiles j).1.some_ b hb).2.2.2.2.2.2 f hf).1
          obtain ⟨a1, a2, a3, a4, a5, a6, a7, a8, a9, a10⟩ := applyFormat_spec (h.toB i) hi hok h1
          have u1 : Unshared s1 i := hu.frame a2 a8
          have hi1 : i < s1.nt := by rw [a2.nt]; exact hi
          split at h2
          · rename_i hz
            cases h2
            refine ⟨a1, a2, u1, a9, a5, fun e => ?_, .inl ⟨hz, a6, a7, a8, a3⟩⟩
            rw [a10 e]; exact (h.tiles i).2
          · rename_i hz
            rw [unshared_mw u1, Res.ok_bind] at h2
            dsimp only at h2
            obtain ⟨s3, h3, h4⟩ := Res.bind_eq_ok.mp h2
            obtain ⟨s4, h5, h6⟩ := Res.bind_eq_ok.mp h4
            -- rows
            have r3 : InvB s3 i ∧ Frame s s3 i ∧ Unshared s3 i ∧ (s3.tile i).fmt = some f ∧
                (s3.tile i).nrow = (if (s.tile i).nrow = 0 then n.toNat else (s.tile i).nrow) ∧ (s3.tile i).id = (s.tile i).id ∧
                (s3.tile i).arrs = (s.tile i).arrs ∧
                ((s.tile i).nrow ≠ 0 → s3 = s1 ∧ st + n ≤ (s.tile i).nrow) ∧
                ((s.tile i).nrow = 0 → ∃ b, (s3.tile i).blk = some b ∧ ∀ (c : Nat) (k : Col), f[c]? = some k → k.el ≠ 0 →
                  ∀ x < k.cell * n.toNat, (s3.heap b).mem (colOff f n.toNat c + x) = 0) := by
              split at h3
              · rename_i hr
                obtain ⟨f', q1, q2, hh⟩ := addRowsBase_spec a1 hi1 h3
                rw [a5] at q1; cases q1
                rcases hh with ⟨h0, _⟩ | ⟨h0, g1, g2, g3, g4, g5, g6, g7, b', g8, _, g9⟩
                · exact absurd h0 hz
                · have hr' := a6.symm.trans hr
                  rw [hr] at g5 g9
                  rw [Nat.zero_add] at g5 g9
                  refine ⟨g1, a2.trans g2, g3, g4, by rw [if_pos hr']; exact g5, g6.trans a7, g7.trans a9, fun e => absurd hr' e, fun _ => ⟨b', g8, ?_⟩⟩
                  intro c k hc hk x hx
                  exact (g9 c k hc hk).2 x (by simp) hx
              · rename_i hr
                split at h3
                · cases h3
                · rename_i hle2
                  cases h3
                  have hr' : (s.tile i).nrow ≠ 0 := by rw [← a6]; exact hr
                  rw [a6] at hle2
                  exact ⟨a1, a2, u1, a5, by rw [if_neg hr']; exact a6, a7, a9, fun _ => ⟨rfl, by omega⟩, fun e => absurd e hr'⟩
            obtain ⟨b1, b2, b3, b4, b5, b6, b7, b8, b9⟩ := r3
            have hi3 : i < s3.nt := by rw [b2.nt]; exact hi
            have rdy : Ready s s4 i f n.toNat (s.tile j).id := by
              split at h5
              · rename_i hid
                obtain ⟨c1, c2, c3, c4, c5⟩ := setTileId_spec b1 hi3 b3 h5
                refine ⟨c1, b2.trans c2, c3, by rw [c4]; exact b4, by rw [c4]; exact b5, ?_, by rw [c4]; exact b7, fun e => ?_, fun e => ?_⟩
                · rw [c4, if_pos (b6.symm.trans hid)]
                · rw [c4]
                  have e3 := (b8 e).1
                  subst e3
                  exact ⟨a8, fun b _ => by rw [c5, a3]⟩
                · obtain ⟨b, q1, q2⟩ := b9 e
                  exact ⟨b, by rw [c4]; exact q1, by rw [c5]; exact q2⟩
              · rename_i hid
                cases h5
                refine ⟨b1, b2, b3, b4, b5, ?_, b7, fun e => ?_, b9⟩
                · rw [if_neg (fun e => hid (b6.trans e))]; exact b6
                · have e3 := (b8 e).1
                  subst e3
                  exact ⟨a8, fun b _ => by rw [a3]⟩
            have hi4 : i < s4.nt := by rw [rdy.frame.nt]; exact hi
            cases hd : (s4.tile i).blk with
            | none =>
              exfalso
              by_cases e : (s.tile i).nrow = 0
              · obtain ⟨b, q1, _⟩ := rdy.new e
                rw [hd] at q1; cases q1
              · have := (rdy.old e).1
                rw [hd] at this
                exact e ((h.tiles i).1.none_ this.symm).1
            | some d =>
              obtain ⟨w1, w2, w3, w4, w5, w6, w7⟩ := (rdy.inv.base i).some_ d hd
              obtain ⟨v1, v2, v3⟩ := w7 f rdy.fmt
              -- the arrays
              have harr : (s.tile i).fmt.isSome → ArrsOk (s4.tile i) := by
                intro e
                have e1 := a10 e
                subst e1
                refine ⟨(fun e => by rw [rdy.fmt] at e; cases e), fun f' e' => ?_⟩
                rw [rdy.fmt] at e'; cases e'
                rw [rdy.arrs]
                by_cases hr : (s1.tile i).nrow = 0
                · have hb0 : (s1.tile i).blk = none := by
                    cases hb : (s1.tile i).blk with
                    | none => rfl
                    | some b => have := ((h.tiles i).1.some_ b hb).2.1; omega
                  have := (h.tiles i).2.2 f a5
                  rw [((h.tiles i).1.none_ hb0).2.1] at this
                  exact mkArrs_nil this _ _
                · have hb := (rdy.old hr).1
                  rw [hd] at hb
                  have k2 := (((h.tiles i).1.some_ d hb.symm).2.2.2.2.2.2 f a5).2.1
                  have k3 := (h.tiles i).2.2 f a5
                  have hnr := rdy.nrow
                  rw [if_neg hr] at hnr
                  rw [v2, hnr, ← k2]
                  exact k3
              split at h6
              · cases h6
              · rename_i js hjs
                rw [v2] at hjs
                -- the other block
                have hsrc : ∃ b, b ≠ d ∧ (∀ p, some p ∈ (s.tile j).pd → p.blk = b) ∧ ((s.tile j).blk = none ∨ (s.tile j).blk = some b) := by
                  cases hb : (s.tile j).blk with
                  | none =>
                    refine ⟨d + 1, by omega, fun p hp => ?_, .inl rfl⟩
                    rw [((h.tiles j).1.none_ hb).2.1] at hp; cases hp
                  | some b =>
                    refine ⟨b, ?_, fun p hp => ?_, .inr rfl⟩
                    · intro e; subst e
                      have := (rdy.uns b hd).1 j (by rw [rdy.frame.nt]; exact hj) (fun e => hne e.symm)
                      rw [rdy.frame.tile j (fun e => hne e.symm)] at this
                      exact this hb
                    · rw [(((h.tiles j).1.some_ b hb).2.2.2.2.2.2 f hf).2.1] at hp
                      exact ptrs_blk p hp
                obtain ⟨b, hbd, hps, hjb⟩ := hsrc
                have hdst := rowJobs_dst hjs ptrs_blk b hps
                obtain ⟨m, e', g1, g2⟩ := runJobs_spec (d := d) (fun J hJ => ⟨(hdst J hJ).1, by rw [(hdst J hJ).2]; exact hbd⟩) h6
                obtain ⟨x1, x2, x3⟩ := setMem_upd (m := m) rdy.inv hi4 rdy.uns hd
                subst e'
                refine ⟨x1, rdy.frame.trans x2, x3, rdy.arrs, rdy.fmt, harr, .inr ⟨hz, s4, m, d, rdy, hd, rfl, fun e => (b8 e).2, fun hpos hfit => ?_⟩⟩
                rcases hjb with hb | hb
                · have := ((h.tiles j).1.none_ hb).1
                  omega
                · refine ⟨b, hb, ?_⟩
                  have hcr : colRows (s4.tile i) n = n.toNat := by unfold colRows; rw [if_neg (by omega)]
                  rw [hcr, (((h.tiles j).1.some_ b hb).2.2.2.2.2.2 f hf).2.1] at hjs
                  obtain ⟨js', j1, j2, j3⟩ := rowJobs_ptrs st.toNat ost.toNat n.toNat (s4.tile i).nrow (s.tile j).nrow d b f
                  rw [hjs] at j1; cases j1
                  refine copied (by omega) j2 g1 (fun J hJ x hx => ?_)
                  rw [g2 (j3 (by omega)) J hJ x hx, (hdst J hJ).2, rdy.frame.heapT j b (fun e => hne e.symm) hb]

theorem copy_spec {s s' : St} {i j : Nat} {st ost num : Int} (h : Inv s) (hi : i < s.nt) (hj : j < s.nt) (hu : Unshared s i)
    (hs : copy s i j st ost num = .ok s') :
    ∃ f n, (s.tile j).fmt = some f ∧ i ≠ j ∧ 0 ≤ st ∧ 0 ≤ ost ∧ n = (if num < 0 then ((s.tile j).nrow : Int) - ost else num) ∧
      ost + n ≤ (s.tile j).nrow ∧ Inv s' ∧ Frame s s' i ∧ (s'.tile i).fmt = some f ∧
      ((n = 0 ∧ (s'.tile i).nrow = (s.tile i).nrow ∧ (s'.tile i).id = (s.tile i).id ∧ (s'.tile i).blk = (s.tile i).blk ∧ s'.heap = s.heap) ∨
       (n ≠ 0 ∧ ∃ s4 m d, Ready s s4 i f n.toNat (s.tile j).id ∧ (s4.tile i).blk = some d ∧
        (s'.tile i).blk = some d ∧ (s'.heap d).mem = m ∧ (s'.tile i).nrow = (s4.tile i).nrow ∧ (s'.tile i).id = (s4.tile i).id ∧
        ((s.tile i).nrow ≠ 0 → st + n ≤ (s.tile i).nrow) ∧
        (0 < n → st + n ≤ (s4.tile i).nrow → ∃ b, (s.tile j).blk = some b ∧
          Copied f (s4.tile i).nrow (s.tile j).nrow st.toNat ost.toNat n.toNat (s4.heap d).mem (s.heap b).mem m))) := by
  unfold copy at hs
  obtain ⟨s1, h1, h2⟩ := Res.bind_eq_ok.mp hs
  obtain ⟨f, n, a1, a2, a3, a4, a5, a6, a7, a8, a9, a10, a11, a12, a13⟩ := copyBase_spec h hi hj hu h1
  have hi1 : i < s1.nt := by rw [a8.nt]; exact hi
  have key : Inv s' ∧ Frame s1 s' i ∧ Same s1 s' i ∧ s'.heap = s1.heap ∧ (s'.tile i).blk = (s1.tile i).blk := by
    split at h2
    · rename_i e
      cases h2
      exact ⟨a7.full (a12 e), .refl _ _, .refl _ _, rfl, rfl⟩
    · obtain ⟨k1, k2, k3, k4, k5, _⟩ := ia a7 hi1 h2
      exact ⟨k1, k2, k3, k4, k5⟩
  obtain ⟨k1, k2, k3, k4, k5⟩ := key
  refine ⟨f, n, a1, a2, a3, a4, a5, a6, k1, a8.trans k2, k3.fmt.trans a11, ?_⟩
  rcases a13 with ⟨b1, b2, b3, b4, b5⟩ | ⟨b1, s4, m, d, b2, b3, b4, b5, b6⟩
  · exact .inl ⟨b1, k3.nrow.trans b2, k3.id.trans b3, k5.trans b4, k4.trans b5⟩
  · refine .inr ⟨b1, s4, m, d, b2, b3, ?_, ?_, ?_, ?_, b5, b6⟩
    · rw [k5, b4]; exact b3
    · rw [k4, b4]; simp [setMem]
    · rw [k3.nrow, b4]; rfl
    · rw [k3.id, b4]; rfl

/-! The format is changed. -/

theorem formatJobs_spec (n : Nat) (R : Job → Job → Prop) : ∀ (f g : List Col) (ds ps : List (Option Ptr)), ds.length = g.length → ps.length = f.length →
    (∀ (c : Nat) (b : Col), g[c]? = some b → b.ty ≠ 0 → ∃ p, ds[c]? = some (some p)) →
    (∀ (c : Nat) (a : Col), f[c]? = some a → a.ty ≠ 0 → ∃ p, ps[c]? = some (some p)) →
    ∃ js, formatJobs n f g ds ps = .ok js ∧
      (∀ J, J ∈ js ↔ ∃ (c : Nat) (a b : Col) (d p : Ptr), f[c]? = some a ∧ g[c]? = some b ∧ a.ty ≠ 0 ∧ b.ty ≠ 0 ∧ a.shape = b.shape ∧
        ds[c]? = some (some d) ∧ ps[c]? = some (some p) ∧ J = ⟨d, p, a.cell * n⟩) ∧
      ((∀ (c c' : Nat) (a a' b b' : Col) (d d' p p' : Ptr), c < c' → f[c]? = some a → g[c]? = some b → a.ty ≠ 0 → b.ty ≠ 0 → a.shape = b.shape →
          ds[c]? = some (some d) → ps[c]? = some (some p) → f[c']? = some a' → g[c']? = some b' → a'.ty ≠ 0 → b'.ty ≠ 0 →
          ds[c']? = some (some d') → ps[c']? = some (some p') →
          R ⟨d, p, a.cell * n⟩ ⟨d', p', a'.cell * n⟩) → js.Pairwise R)
  | [], g, ds, ps, _, _, _, _ => by
    refine ⟨[], ?_, fun J => by simp, fun _ => .nil⟩
    cases g <;> simp [formatJobs]
  | a :: f, [], ds, ps, _, _, _, _ => by
    refine ⟨[], by simp [formatJobs], fun J => by simp, fun _ => .nil⟩
  | a :: f, b :: g, [], ps, h1, _, _, _ => by simp at h1
  | a :: f, b :: g, d :: ds, [], _, h2, _, _ => by simp at h2
  | a :: f, b :: g, d :: ds, p :: ps, h1, h2, h3, h4 => by
    obtain ⟨js, k1, k2, k3⟩ := formatJobs_spec n R f g ds ps (by simpa using h1) (by simpa using h2)
      (fun c b' hb => by simpa using h3 (c + 1) b' (by simpa using hb)) (fun c a' ha => by simpa using h4 (c + 1) a' (by simpa using ha))
    have tail : (∀ (c c' : Nat) (x x' y y' : Col) (d1 d' p1 p' : Ptr), c < c' → (a :: f)[c]? = some x → (b :: g)[c]? = some y → x.ty ≠ 0 → y.ty ≠ 0 → x.shape = y.shape →
          (d :: ds)[c]? = some (some d1) → (p :: ps)[c]? = some (some p1) → (a :: f)[c']? = some x' → (b :: g)[c']? = some y' → x'.ty ≠ 0 → y'.ty ≠ 0 →
          (d :: ds)[c']? = some (some d') → (p :: ps)[c']? = some (some p') →
          R ⟨d1, p1, x.cell * n⟩ ⟨d', p', x'.cell * n⟩) → js.Pairwise R := by
      intro hR
      apply k3
      intro c c' x x' y y' d1 d' p1 p' hlt q1 q2 q3 q4 q5 q6 q7 q8 q9 q10 q11 q12 q13
      exact hR (c + 1) (c' + 1) x x' y y' d1 d' p1 p' (by omega) (by simpa using q1) (by simpa using q2) q3 q4 q5 (by simpa using q6)
        (by simpa using q7) (by simpa using q8) (by simpa using q9) q10 q11 (by simpa using q12) (by simpa using q13)
    simp only [formatJobs]
    by_cases hty : a.ty = 0 ∨ b.ty = 0
    · refine ⟨js, by rw [if_pos hty]; exact k1, fun J => ?_, tail⟩
      rw [k2 J]
      constructor
      · rintro ⟨c, x, y, u, v, q⟩; exact ⟨c + 1, x, y, u, v, by simpa using q⟩
      · rintro ⟨c, x, y, u, v, q1, q2, q3, q4, q⟩
        cases c with
        | zero =>
          simp only [List.getElem?_cons_zero, Option.some.injEq] at q1 q2
          subst q1; subst q2
          rcases hty with e | e
          · exact absurd e q3
          · exact absurd e q4
        | succ c => exact ⟨c, x, y, u, v, by simpa using q1, by simpa using q2, q3, q4, by simpa using q⟩
    · rw [if_neg hty]
      rw [not_or] at hty
      obtain ⟨p', hp'⟩ := h4 0 a (by simp) hty.1
      obtain ⟨d', hd'⟩ := h3 0 b (by simp) hty.2
      simp only [List.getElem?_cons_zero, Option.some.injEq] at hp' hd'
      subst hp'; subst hd'
      by_cases hsh : a.shape = b.shape
      · refine ⟨⟨d', p', a.cell * n⟩ :: js, by simp [hsh, k1], fun J => ?_, fun hR => ?_⟩
        · rw [List.mem_cons, k2 J]
          constructor
          · rintro (e | ⟨c, x, y, u, v, q⟩)
            · exact ⟨0, a, b, d', p', by simp, by simp, hty.1, hty.2, hsh, by simp, by simp, e⟩
            · exact ⟨c + 1, x, y, u, v, by simpa using q⟩
          · rintro ⟨c, x, y, u, v, q1, q2, q3, q4, q5, q6, q7, q8⟩
            cases c with
            | zero =>
              simp only [List.getElem?_cons_zero, Option.some.injEq] at q1 q2 q6 q7
              subst q1; subst q2; subst q6; subst q7
              exact .inl q8
            | succ c => exact .inr ⟨c, x, y, u, v, by simpa using q1, by simpa using q2, q3, q4, q5, by simpa using q6, by simpa using q7, q8⟩
        · refine List.pairwise_cons.mpr ⟨fun J hJ => ?_, tail hR⟩
          obtain ⟨c, x, y, u, v, q1, q2, q3, q4, q5, q6, q7, q8⟩ := (k2 J).mp hJ
          subst q8
          exact hR 0 (c + 1) a x b y d' u p' v (by omega) (by simp) (by simp) hty.1 hty.2 hsh (by simp) (by simp) (by simpa using q1)
            (by simpa using q2) q3 q4 (by simpa using q6) (by simpa using q7)
      · refine ⟨js, by simp [hsh, k1], fun J => ?_, tail⟩
        rw [k2 J]
        constructor
        · rintro ⟨c, x, y, u, v, q⟩; exact ⟨c + 1, x, y, u, v, by simpa using q⟩
        · rintro ⟨c, x, y, u, v, q1, q2, q3, q4, q5, q⟩
          cases c with
          | zero =>
            simp only [List.getElem?_cons_zero, Option.some.injEq] at q1 q2
            subst q1; subst q2
            exact absurd q5 hsh
          | succ c => exact ⟨c, x, y, u, v, by simpa using q1, by simpa using q2, q3, q4, q5, by simpa using q⟩

/-- What the memory of a tile holds after its format has been changed. -/
def Changed (f g : List Col) (n : Nat) (m0 m : Nat → Nat) : Prop :=
  ∀ (c : Nat) (k : Col), g[c]? = some k → k.el ≠ 0 → ∀ x < k.cell * n, m (colOff g n c + x) =
    if f[c]? = some k then m0 (colOff f n c + x) else 0

theorem changeFormat_spec {s s' : St} {i : Nat} {g : List Col} (h : Inv s) (hi : i < s.nt) (hg : FmtOk g)
    (hs : changeFormat s i g = .ok s') :
    ∃ f, (s.tile i).fmt = some f ∧ Inv s' ∧ Frame s s' i ∧ (s'.tile i).fmt = some g ∧ (s'.tile i).nrow = (s.tile i).nrow ∧
      (s'.tile i).id = (s.tile i).id ∧
      (SameTypes f g → ∀ b, (s.tile i).blk = some b → ∃ b', (s'.tile i).blk = some b' ∧ Changed f g (s.tile i).nrow (s.heap b).mem (s'.heap b').mem) := by
  unfold changeFormat at hs
  dsimp only at hs
  cases hf : (s.tile i).fmt with
  | none => simp only [hf] at hs; cases hs
  | some f =>
    simp only [hf] at hs
    refine ⟨f, rfl, ?_⟩
    obtain ⟨s1, h1, h2⟩ := Res.bind_eq_ok.mp hs
    split at h1
    · rename_i hz
      cases h1
      have hb0 : (s.tile i).blk = none := by
        cases hb : (s.tile i).blk with
        | none => rfl
        | some b => have := ((h.tiles i).1.some_ b hb).2.1; omega
      have hfr := frame_setT s i { s.tile i with fmt := some g }
      have hB := (h.toB i).frame hfr hi (by
        rw [setT_self]
        obtain ⟨a1, a2, a3⟩ := (h.tiles i).1.none_ hb0
        refine ⟨fun _ => ⟨a1, a2, fun f' e => by cases e; exact hg⟩, fun b e => ?_⟩
        simp only at e
        rw [hb0] at e; cases e)
      obtain ⟨k1, k2, k3, k4, k5, k6⟩ := ia hB hi h2
      refine ⟨k1, hfr.trans k2, ?_, ?_, ?_, fun _ b e => by rw [hb0] at e; cases e⟩
      · rw [k3.fmt, setT_self]
      · rw [k3.nrow, setT_self]
      · rw [k3.id, setT_self]
    · rename_i hz
      cases hb : (s.tile i).blk with
      | none => exact absurd ((h.tiles i).1.none_ hb).1 hz
      | some b =>
        obtain ⟨w1, w2, w3, w4, w5, w6, w7⟩ := (h.tiles i).1.some_ b hb
        obtain ⟨v1, v2, v3⟩ := w7 f hf
        obtain ⟨js, h3, h4⟩ := Res.bind_eq_ok.mp h1
        obtain ⟨s2, h5, h6⟩ := Res.bind_eq_ok.mp h4
        rw [v2] at h3
        have pg : ∀ (c : Nat) (k : Col), g[c]? = some k → k.ty ≠ 0 → (ptrs s.next g (s.tile i).nrow)[c]? = some (some ⟨s.next, colOff g (s.tile i).nrow c⟩) := by
          intro c k hc hk
          rw [ptrs_get hc, if_neg (fun e => hk ((fmtOk_get hg hc).mpr e))]
        have pf : ∀ (c : Nat) (k : Col), f[c]? = some k → k.ty ≠ 0 → (ptrs b f (s.tile i).nrow)[c]? = some (some ⟨b, colOff f (s.tile i).nrow c⟩) := by
          intro c k hc hk
          rw [ptrs_get hc, if_neg (fun e => hk ((fmtOk_get v1 hc).mpr e))]
        obtain ⟨js', j1, j2, j3⟩ := formatJobs_spec (s.tile i).nrow (fun a b => a.dst.off + a.len ≤ b.dst.off) f g
          (ptrs s.next g (s.tile i).nrow) (ptrs b f (s.tile i).nrow) (ptrs_length _ _ _) (ptrs_length _ _ _)
          (fun c k hc hk => ⟨_, pg c k hc hk⟩) (fun c k hc hk => ⟨_, pf c k hc hk⟩)
        rw [h3] at j1; cases j1
        have hbn : b ≠ s.next := by omega
        obtain ⟨m, e, g1, g2⟩ := runJobs_spec (d := s.next) (fun J hJ => by
          obtain ⟨c, x, y, u, v, q1, q2, q3, q4, q5, q6, q7, rfl⟩ := (j2 J).mp hJ
          rw [pg c y q2 q4] at q6
          rw [pf c x q1 q3] at q7
          cases q6; cases q7
          exact ⟨rfl, hbn⟩) h5
        rw [alloc_setMem] at e
        subst e
        cases h6
        have ht : TileB (alloc s { zeroBlock (layout hdrSize (s.tile i).nrow g).2 (s.tile i).nrow (s.tile i).id with mem := m })
            { s.tile i with fmt := some g, pd := ptrs s.next g (s.tile i).nrow, blk := some s.next } := by
          refine ⟨(fun e => by cases e), fun b' e => ?_⟩
          cases e
          rw [alloc_new]
          refine ⟨Nat.lt_succ_self _, w2, rfl, rfl, layout_total _ _ _, (fun e => by cases e), fun f' e => ?_⟩
          cases e
          exact ⟨hg, rfl, rfl⟩
        obtain ⟨u1, u2, u3⟩ := upd (h.toB i) hi _ rfl ht
        obtain ⟨k1, k2, k3, k4, k5, k6⟩ := ia u1 hi h2
        refine ⟨k1, u2.trans k2, ?_, ?_, ?_, fun hst b' e => ?_⟩
        · rw [k3.fmt, setT_self]
        · rw [k3.nrow, setT_self]
        · rw [k3.id, setT_self]
        · cases e
          refine ⟨s.next, by rw [k5, setT_self], ?_⟩
          have e1 : s'.heap s.next = { zeroBlock (layout hdrSize (s.tile i).nrow g).2 (s.tile i).nrow (s.tile i).id with mem := m } := by
            rw [k4]; exact alloc_new _ _
          rw [e1]
          simp only
          have hp := j3 (fun c c' x x' y y' d d' p p' hlt q1 q2 q3 q4 q5 q6 q7 q8 q9 q10 q11 q12 q13 => by
            rw [pg c y q2 q4] at q6
            rw [pg c' y' q9 q11] at q12
            cases q6; cases q12
            have : x = y := hst c x y q1 q2 q3 q4 q5
            subst this
            exact colOff_lt q2 (fun e => q4 ((fmtOk_get hg q2).mpr e)) q9 (fun e => q11 ((fmtOk_get hg q9).mpr e)) hlt)
          intro c k hc hk x hx
          have hkt : k.ty ≠ 0 := fun e => hk ((fmtOk_get hg hc).mp e)
          split
          · rename_i hfc
            have := g2 hp _ ((j2 _).mpr ⟨c, k, k, _, _, hfc, hc, hkt, hkt, rfl, pg c k hc hkt, pf c k hfc hkt, rfl⟩) x hx
            simp only at this
            rw [this, alloc_old _ _ w1]
          · rename_i hfc
            rw [g1]
            · rw [alloc_new]; rfl
            · intro J hJ
              obtain ⟨c', x', y', u, v, q1, q2, q3, q4, q5, q6, q7, rfl⟩ := (j2 J).mp hJ
              rw [pg c' y' q2 q4] at q6
              cases q6
              have : x' = y' := hst c' x' y' q1 q2 q3 q4 q5
              subst this
              have hk' : x'.el ≠ 0 := fun e => q4 ((fmtOk_get hg q2).mpr e)
              simp only
              rcases Nat.lt_trichotomy c c' with hlt | heq | hgt
              · have := colOff_lt (n := (s.tile i).nrow) hc hk q2 hk' hlt; omega
              · subst heq
                rw [hc] at q2; cases q2
                exact absurd q1 hfc
              · have := colOff_lt (n := (s.tile i).nrow) q2 hk' hc hk hgt; omega

end Verif.VTile
