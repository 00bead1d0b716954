import Verif.Proof.VTileOps2
/-!
# Histories of tiles
-/
namespace Verif.VTile

/-- Room for one more tile. -/
theorem Inv.more {s : St} (h : Inv s) : Inv { s with nt := s.nt + 1 } :=
  ⟨fun i => ⟨⟨(h.tiles i).1.none_, (h.tiles i).1.some_⟩, (h.tiles i).2⟩,
    fun m hm => ⟨(h.msgs m hm).lt, (h.msgs m hm).size, (h.msgs m hm).fmt⟩, fun i hi => h.fresh i (by simp only at hi; omega)⟩

theorem init_spec {s s' : St} {f : List Col} {n : Nat} (h : Inv s) (hf : FmtOk f)
    (hs : init { s with nt := s.nt + 1 } s.nt f n = .ok s') :
    Inv s' ∧ Frame { s with nt := s.nt + 1 } s' s.nt ∧ (s'.tile s.nt).fmt = some f ∧ (s'.tile s.nt).nrow = n ∧ (s'.tile s.nt).id = [] ∧
      (0 < n → ∃ b, (s'.tile s.nt).blk = some b ∧ ∀ x, (s'.heap b).mem x = 0) := by
  have hm := h.more
  unfold init at hs
  dsimp only at hs
  split at hs
  · rename_i hz
    have hfr := frame_setT { s with nt := s.nt + 1 } s.nt { blank with fmt := some f }
    have hB := (hm.toB s.nt).frame hfr (Nat.lt_succ_self _) (by
      rw [setT_self]
      exact ⟨fun _ => ⟨rfl, rfl, fun f' e => by cases e; exact hf⟩, fun b e => by cases e⟩)
    obtain ⟨k1, k2, k3, k4, k5, k6⟩ := ia hB (Nat.lt_succ_self _) hs
    refine ⟨k1, hfr.trans k2, ?_, ?_, ?_, fun e => by omega⟩
    · rw [k3.fmt, setT_self]
    · rw [k3.nrow, setT_self, hz]; rfl
    · rw [k3.id, setT_self]; rfl
  · rename_i hz
    obtain ⟨u1, u2, u3⟩ := upd (T := ⟨some f, n, [], some s.next, ptrs s.next f n, []⟩) (hm.toB s.nt) (Nat.lt_succ_self _)
      (zeroBlock (layout hdrSize n f).2 n []) rfl (by
        refine ⟨(fun e => by cases e), fun b e => ?_⟩
        cases e
        rw [show (alloc { s with nt := s.nt + 1 } (zeroBlock (layout hdrSize n f).2 n [])).heap s.next = zeroBlock (layout hdrSize n f).2 n [] from
          alloc_new _ _]
        refine ⟨Nat.lt_succ_self _, by simp only; omega, rfl, rfl, layout_total _ _ _, (fun e => by cases e), fun f' e => ?_⟩
        cases e
        exact ⟨hf, rfl, rfl⟩)
    obtain ⟨k1, k2, k3, k4, k5, k6⟩ := ia u1 (Nat.lt_succ_self _) hs
    refine ⟨k1, u2.trans k2, ?_, ?_, ?_, fun _ => ⟨s.next, ?_, fun x => ?_⟩⟩
    · rw [k3.fmt, setT_self]
    · rw [k3.nrow, setT_self]
    · rw [k3.id, setT_self]
    · rw [k5, setT_self]
    · rw [k4]
      rw [show (setT (alloc { s with nt := s.nt + 1 } (zeroBlock (layout hdrSize n f).2 n [])) s.nt
        ⟨some f, n, [], some s.next, ptrs s.next f n, []⟩).heap s.next = zeroBlock (layout hdrSize n f).2 n [] from alloc_new _ _]
      rfl

theorem clone_spec {s s' : St} {i : Nat} (h : Inv s)
    (hs : clone { s with nt := s.nt + 1 } i s.nt = .ok s') :
    Inv s' ∧ Frame { s with nt := s.nt + 1 } s' s.nt ∧ (s'.tile s.nt).fmt = (s.tile i).fmt ∧ (s'.tile s.nt).nrow = (s.tile i).nrow ∧
      (s'.tile s.nt).id = (s.tile i).id ∧ (s'.tile s.nt).blk = (s.tile i).blk ∧ s'.heap = s.heap := by
  have hm := h.more
  unfold clone at hs
  dsimp only at hs
  split at hs
  · cases hs
  · rename_i b hb
    have hfr := frame_setT { s with nt := s.nt + 1 } s.nt { s.tile i with arrs := [] }
    have hB := (hm.toB s.nt).frame hfr (Nat.lt_succ_self _) (by
      rw [setT_self]
      exact ⟨(h.tiles i).1.none_, (h.tiles i).1.some_⟩)
    split at hs
    · rename_i hf
      cases hs
      simp only [hb, hf] at hfr hB ⊢
      refine ⟨hB.full ?_, hfr, ?_⟩
      · rw [setT_self]
        exact ⟨fun _ => rfl, fun f' e => by cases e⟩
      · rw [setT_self]; exact ⟨rfl, rfl, rfl, rfl, rfl⟩
    · rename_i f hf
      obtain ⟨k1, k2, k3, k4, k5, k6⟩ := ia hB (Nat.lt_succ_self _) hs
      refine ⟨k1, hfr.trans k2, ?_, ?_, ?_, ?_, k4⟩
      · rw [k3.fmt, setT_self]
      · rw [k3.nrow, setT_self]
      · rw [k3.id, setT_self]
      · rw [k5, setT_self]

theorem send_spec {s s' : St} {i : Nat} (h : Inv s) (hs : send s i = .ok s') :
    Inv s' ∧ s'.nt = s.nt ∧ s'.tile = s.tile ∧ (∀ b < s.next, s'.heap b = s.heap b) ∧
      ∃ m, s'.msgs = s.msgs ++ [m] ∧ m.fmt = (s.tile i).fmt ∧ (s'.heap m.blk).rows = (s.tile i).nrow ∧ (s'.heap m.blk).id = (s.tile i).id ∧
        ((s.tile i).nrow ≠ 0 → (s.tile i).blk = some m.blk) := by
  unfold send at hs
  dsimp only at hs
  have hfm : ∀ f, (s.tile i).fmt = some f → FmtOk f := by
    intro f hf
    cases hb : (s.tile i).blk with
    | none => exact ((h.tiles i).1.none_ hb).2.2 f hf
    | some b => exact (((h.tiles i).1.some_ b hb).2.2.2.2.2.2 f hf).1
  split at hs
  · rename_i hz
    cases hs
    have hh : ∀ b < s.next, (alloc s (zeroBlock hdrSize 0 (s.tile i).id)).heap b = s.heap b := fun b hb => alloc_old _ _ hb
    refine ⟨⟨fun j => ⟨?_, (h.tiles j).2⟩, fun m hm => ?_, h.fresh⟩, rfl, rfl, hh, _, rfl, rfl, ?_, ?_, fun e => absurd hz e⟩
    · exact (h.tiles j).1.mono (Nat.le_succ _) (fun b hb => hh b ((h.tiles j).1.some_ b hb).1)
    · rcases List.mem_append.mp hm with hm | hm
      · exact (h.msgs m hm).mono (Nat.le_succ _) (hh _ (h.msgs m hm).lt)
      · cases List.mem_singleton.mp hm
        have e : (alloc s (zeroBlock hdrSize 0 (s.tile i).id)).heap s.next = zeroBlock hdrSize 0 (s.tile i).id := alloc_new _ _
        refine ⟨Nat.lt_succ_self _, ?_, fun f hf => ⟨hfm f hf, fun hr => ?_⟩⟩
        · show hdrSize ≤ ((alloc s (zeroBlock hdrSize 0 (s.tile i).id)).heap s.next).size
          rw [e]; exact Nat.le_refl _
        · exfalso; apply hr
          show ((alloc s (zeroBlock hdrSize 0 (s.tile i).id)).heap s.next).rows = 0
          rw [e]; rfl
    · show ((alloc s (zeroBlock hdrSize 0 (s.tile i).id)).heap s.next).rows = _
      rw [alloc_new, hz]; rfl
    · show ((alloc s (zeroBlock hdrSize 0 (s.tile i).id)).heap s.next).id = _
      rw [alloc_new]; rfl
  · rename_i hz
    cases hb : (s.tile i).blk with
    | none => simp only [hb] at hs; cases hs
    | some b =>
      simp only [hb] at hs
      cases hs
      obtain ⟨w1, w2, w3, w4, w5, w6, w7⟩ := (h.tiles i).1.some_ b hb
      refine ⟨⟨fun j => ⟨(h.tiles j).1.mono (Nat.le_refl _) (fun _ _ => rfl), (h.tiles j).2⟩, fun m hm => ?_, h.fresh⟩, rfl, rfl, fun _ _ => rfl, _, rfl, rfl, w3, w4, fun _ => rfl⟩
      rcases List.mem_append.mp hm with hm | hm
      · exact (h.msgs m hm).mono (Nat.le_refl _) rfl
      · cases List.mem_singleton.mp hm
        refine ⟨w1, w5, fun f hf => ⟨hfm f hf, fun _ => ?_⟩⟩
        simp only
        rw [w3]
        exact (w7 f hf).2.2

theorem Inv.less {s : St} {m : Msg} {rest : List Msg} (h : Inv s) (hm : s.msgs = m :: rest) : Inv { s with msgs := rest } :=
  ⟨fun i => ⟨⟨(h.tiles i).1.none_, (h.tiles i).1.some_⟩, (h.tiles i).2⟩,
    fun k hk => by
      have := h.msgs k (by rw [hm]; exact List.mem_cons_of_mem _ hk)
      exact ⟨this.lt, this.size, this.fmt⟩, h.fresh⟩

theorem recv_spec {s s' : St} {i : Nat} (h : Inv s) (hi : i < s.nt) (hs : recv s i = .ok s') :
    ∃ m rest, s.msgs = m :: rest ∧ Inv s' ∧ Frame { s with msgs := rest } s' i ∧ s'.heap = s.heap ∧
      (s'.tile i).fmt = m.fmt.or (s.tile i).fmt ∧ (s'.tile i).nrow = (s.heap m.blk).rows ∧
      (s'.tile i).id = (s.heap m.blk).id ∧ (s'.tile i).blk = (if (s.heap m.blk).rows = 0 then none else some m.blk) := by
  unfold recv at hs
  split at hs
  · cases hs
  · rename_i m rest hmm
    refine ⟨m, rest, hmm, ?_⟩
    dsimp only at hs
    have mo := h.msgs m (by rw [hmm]; exact List.mem_cons_self)
    split at hs
    · cases hs
    · generalize hfm : m.fmt.or (s.tile i).fmt = fm at hs ⊢
      have hok : ∀ f, fm = some f → FmtOk f := by
        intro f hf
        cases hmf : m.fmt with
        | some g =>
          rw [hmf] at hfm
          simp [Option.or] at hfm
          rw [← hfm] at hf; cases hf
          exact (mo.fmt f hmf).1
        | none =>
          rw [hmf] at hfm
          simp [Option.or] at hfm
          rw [← hfm] at hf
          cases hb : (s.tile i).blk with
          | none => exact ((h.tiles i).1.none_ hb).2.2 f hf
          | some b => exact (((h.tiles i).1.some_ b hb).2.2.2.2.2.2 f hf).1
      obtain ⟨T2, h2, h3⟩ := Res.bind_eq_ok.mp hs
      have key : TileB { s with msgs := rest } T2 ∧ T2.fmt = fm ∧ T2.nrow = (s.heap m.blk).rows ∧ T2.id = (s.heap m.blk).id ∧
          T2.blk = (if (s.heap m.blk).rows = 0 then none else some m.blk) ∧ T2.arrs = (s.tile i).arrs := by
        split at h2
        · rename_i hr
          cases h2
          refine ⟨⟨fun _ => ⟨hr, rfl, hok⟩, fun b e => by cases e⟩, rfl, rfl, rfl, by rw [if_pos hr], rfl⟩
        · rename_i hr
          cases fm with
          | none =>
            simp only at h2
            cases h2
            refine ⟨⟨(fun e => by cases e), fun b e => ?_⟩, rfl, rfl, rfl, by rw [if_neg hr], rfl⟩
            cases e
            refine ⟨mo.lt, by simp only; omega, rfl, rfl, mo.size, fun _ => rfl, fun f e => by cases e⟩
          | some f =>
            simp only at h2
            split at h2
            · rename_i hsz
              cases h2
              refine ⟨⟨(fun e => by cases e), fun b e => ?_⟩, rfl, rfl, rfl, by rw [if_neg hr], rfl⟩
              cases e
              refine ⟨mo.lt, by simp only; omega, rfl, rfl, mo.size, (fun e => by cases e), fun f' e => ?_⟩
              cases e
              exact ⟨hok f rfl, rfl, hsz.symm⟩
            · cases h2
      obtain ⟨t1, t2, t3, t4, t5, t6⟩ := key
      have hl := h.less hmm
      have hfr := frame_setT { s with msgs := rest } i T2
      have hB := (hl.toB i).frame hfr hi (by rw [setT_self]; exact ⟨t1.none_, t1.some_⟩)
      split at h3
      · obtain ⟨k1, k2, k3, k4, k5, k6⟩ := ia hB hi h3
        refine ⟨k1, hfr.trans k2, k4, ?_, ?_, ?_, ?_⟩
        · rw [k3.fmt, setT_self]; exact t2
        · rw [k3.nrow, setT_self]; exact t3
        · rw [k3.id, setT_self]; exact t4
        · rw [k5, setT_self]; exact t5
      · rename_i hn
        cases h3
        have hfn : fm = none := by
          cases fm with
          | none => rfl
          | some f => simp at hn
        have hTf : (s.tile i).fmt = none := by
          cases hmf : m.fmt with
          | some g => rw [hmf] at hfm; simp [Option.or] at hfm; rw [← hfm] at hfn; cases hfn
          | none => rw [hmf] at hfm; simp [Option.or] at hfm; rw [hfm]; exact hfn
        refine ⟨hB.full ?_, hfr, rfl, ?_, ?_, ?_, ?_⟩
        · rw [setT_self]
          refine ⟨fun _ => by rw [t6]; exact (h.tiles i).2.1 hTf, fun f e => ?_⟩
          rw [t2, hfn] at e; cases e
        · rw [setT_self]; exact t2
        · rw [setT_self]; exact t3
        · rw [setT_self]; exact t4
        · rw [setT_self]; exact t5

/-- A tile is as before. -/
structure Kept (s s' : St) (j : Nat) : Prop where
  fmt : (s'.tile j).fmt = (s.tile j).fmt
  nrow : (s'.tile j).nrow = (s.tile j).nrow
  id : (s'.tile j).id = (s.tile j).id
  get : ∀ c e t k, get s' j c e t k = VTile.get s j c e t k

theorem Frame.kept {s s' : St} {i j : Nat} (h : Inv s) (h' : Inv s') (hf : Frame s s' i) (hj : j < s.nt) (hne : j ≠ i) : Kept s s' j :=
  ⟨by rw [hf.tile j hne], by rw [hf.tile j hne], by rw [hf.tile j hne], fun c e t k => hf.get h h' hj hne c e t k⟩

theorem Frame.kept_of {s s0 s' : St} {i j : Nat} (h : Inv s) (h' : Inv s') (hf : Frame s0 s' i) (ht : s0.tile = s.tile) (hh : s0.heap = s.heap)
    (hn : s.nt ≤ s0.nt) (hj : j < s.nt) (hne : j ≠ i) : Kept s s' j := by
  refine ⟨by rw [hf.tile j hne, ht], by rw [hf.tile j hne, ht], by rw [hf.tile j hne, ht], fun c e t k => ?_⟩
  rw [get_view h' (by rw [hf.nt]; omega), get_view h hj, hf.view hne, ht, hh]

/-- Blocks of messages are left alone, and messages stay in order. -/
structure Mail (s s' : St) (op : Op) : Prop where
  heap : ∀ m ∈ s.msgs, s'.heap m.blk = s.heap m.blk
  msgs : (∀ i, op ≠ .recv i) → (∀ i, op ≠ .send i) → s'.msgs = s.msgs
  sent : (∃ i, op = .send i) → ∃ m, s'.msgs = s.msgs ++ [m]
  recvd : (∃ i, op = .recv i) → s'.msgs = s.msgs.tail

theorem Frame.mail {s s' : St} {i : Nat} {op : Op} (hf : Frame s s' i) (hs : ∀ i, op ≠ .send i) (hr : ∀ i, op ≠ .recv i) : Mail s s' op :=
  ⟨hf.heapM, fun _ _ => hf.msgs, fun ⟨i, e⟩ => absurd e (hs i), fun ⟨i, e⟩ => absurd e (hr i)⟩

theorem step_spec {s s' : St} {op : Op} (h : Inv s) (hF : Formed op) (hA : Allowed s op) (hs : step s op = .ok s') :
    Inv s' ∧ s.nt ≤ s'.nt ∧ (∀ j < s.nt, ¬ Changes op j → Kept s s' j) ∧ Mail s s' op := by
  cases op with
  | new f n =>
    obtain ⟨a1, a2, _⟩ := init_spec h hF hs
    exact ⟨a1, by rw [a2.nt]; simp only; omega, fun j hj _ => a2.kept_of h a1 rfl rfl (by simp only; omega) hj (by omega),
      ⟨a2.heapM, fun _ _ => a2.msgs, (fun ⟨i, e⟩ => by cases e), (fun ⟨i, e⟩ => by cases e)⟩⟩
  | empty =>
    simp only [step, Res.ok.injEq] at hs
    have hfr := frame_setT { s with nt := s.nt + 1 } s.nt blank
    have hI := ((h.more.toB s.nt).frame hfr (Nat.lt_succ_self _) (by rw [setT_self]; exact tileB_blank _)).full
      (by rw [setT_self]; exact arrsOk_blank)
    subst hs
    exact ⟨hI, by simp only [setT]; omega, fun j hj _ => hfr.kept_of h hI rfl rfl (by simp only; omega) hj (by omega),
      ⟨hfr.heapM, fun _ _ => hfr.msgs, (fun ⟨i, e⟩ => by cases e), (fun ⟨i, e⟩ => by cases e)⟩⟩
  | clone i =>
    simp only [step] at hs
    split at hs
    · rename_i hi
      obtain ⟨a1, a2, _⟩ := clone_spec h hs
      exact ⟨a1, by rw [a2.nt]; simp only; omega, fun j hj _ => a2.kept_of h a1 rfl rfl (by simp only; omega) hj (by omega),
        ⟨a2.heapM, fun _ _ => a2.msgs, (fun ⟨i, e⟩ => by cases e), (fun ⟨i, e⟩ => by cases e)⟩⟩
    · cases hs
  | drop i =>
    simp only [step] at hs
    split at hs
    · rename_i hi
      simp only [Res.ok.injEq] at hs
      have hfr := frame_setT s i blank
      have hI := ((h.toB i).frame hfr hi (by rw [setT_self]; exact tileB_blank _)).full (by rw [setT_self]; exact arrsOk_blank)
      subst hs
      exact ⟨hI, Nat.le_refl _, fun j hj hne => hfr.kept h hI hj hne, hfr.mail (fun i e => by cases e) (fun i e => by cases e)⟩
    · cases hs
  | addRows i nr =>
    simp only [step] at hs
    split at hs
    · rename_i hi
      obtain ⟨f, _, _, a1, a2, _⟩ := addRows_spec h hi hs
      exact ⟨a1, by rw [a2.nt]; exact Nat.le_refl _, fun j hj hne => a2.kept h a1 hj hne, a2.mail (fun i e => by cases e) (fun i e => by cases e)⟩
    · cases hs
  | copy i j st ost num =>
    simp only [step] at hs
    split at hs
    · rename_i hi
      obtain ⟨f, n, _, _, _, _, _, _, a1, a2, _⟩ := copy_spec h hi.1 hi.2 hA hs
      exact ⟨a1, by rw [a2.nt]; exact Nat.le_refl _, fun j hj hne => a2.kept h a1 hj hne, a2.mail (fun i e => by cases e) (fun i e => by cases e)⟩
    · cases hs
  | changeFormat i g =>
    simp only [step] at hs
    split at hs
    · rename_i hi
      obtain ⟨f, _, a1, a2, _⟩ := changeFormat_spec h hi hF hs
      exact ⟨a1, by rw [a2.nt]; exact Nat.le_refl _, fun j hj hne => a2.kept h a1 hj hne, a2.mail (fun i e => by cases e) (fun i e => by cases e)⟩
    · cases hs
  | setTileId i id =>
    simp only [step] at hs
    split at hs
    · rename_i hi
      obtain ⟨a1, a2, a3, a4, a5⟩ := setTileId_spec (h.toB i) hi hA hs
      have hI := a1.full (by rw [a4]; exact ⟨(h.tiles i).2.1, (h.tiles i).2.2⟩)
      exact ⟨hI, by rw [a2.nt]; exact Nat.le_refl _, fun j hj hne => a2.kept h hI hj hne, a2.mail (fun i e => by cases e) (fun i e => by cases e)⟩
    · cases hs
  | set i c e t v =>
    simp only [step] at hs
    split at hs
    · rename_i hi
      obtain ⟨col, _, _, _, a1, a2, _⟩ := set_spec h hi hs
      exact ⟨a1, by rw [a2.nt]; exact Nat.le_refl _, fun j hj hne => a2.kept h a1 hj hne, a2.mail (fun i e => by cases e) (fun i e => by cases e)⟩
    · cases hs
  | setColumn i c e t v =>
    simp only [step] at hs
    split at hs
    · rename_i hi
      obtain ⟨col, _, _, _, a1, a2, _⟩ := setColumn_spec h hi hA hs
      exact ⟨a1, by rw [a2.nt]; exact Nat.le_refl _, fun j hj hne => a2.kept h a1 hj hne, a2.mail (fun i e => by cases e) (fun i e => by cases e)⟩
    · cases hs
  | send i =>
    simp only [step] at hs
    split at hs
    · rename_i hi
      obtain ⟨a1, a2, a3, a4, m, a5, _⟩ := send_spec h hs
      refine ⟨a1, by rw [a2]; exact Nat.le_refl _, fun j hj _ => ?_, ⟨fun m hm => a4 _ (h.msgs m hm).lt, fun _ e => absurd rfl (e i), fun _ => ⟨m, a5⟩, (fun ⟨i, e⟩ => by cases e)⟩⟩
      refine ⟨by rw [a3], by rw [a3], by rw [a3], fun c e t k => ?_⟩
      rw [get_view a1 (by rw [a2]; exact hj), get_view h hj, a3]
      exact view_congr rfl rfl (fun h => h) (fun b hb => ⟨b, hb, by rw [a4 b ((h.tiles j).1.some_ b hb).1]⟩) c e t k
    · cases hs
  | recv i =>
    simp only [step] at hs
    split at hs
    · rename_i hi
      obtain ⟨m, rest, a0, a1, a2, a3, _⟩ := recv_spec h hi hs
      exact ⟨a1, by rw [a2.nt]; exact Nat.le_refl _, fun j hj hne => a2.kept_of h a1 rfl rfl (Nat.le_refl _) hj hne,
        ⟨fun m _ => by rw [a3], fun e _ => absurd rfl (e i), (fun ⟨i, e⟩ => by cases e), fun _ => by rw [a2.msgs, a0]; rfl⟩⟩
    · cases hs

theorem hist_inv {s : St} (h : Hist s) : Inv s := by
  induction h with
  | init => exact inv_init
  | step s s' op _ hF hA hs ih => exact (step_spec ih hF hA hs).1

end Verif.VTile
