import Verif.Proof.VTile
/-!
# Operations on tiles
-/
namespace Verif.VTile

/-! Copies of bytes. -/

/-- Memory of block `d` replaced. -/
def setMem (s : St) (d : Nat) (m : Nat → Nat) : St := { s with heap := fun k => if k = d then { s.heap k with mem := m } else s.heap k }

theorem setMem_self (s : St) (d : Nat) : setMem s d (s.heap d).mem = s := by
  unfold setMem
  have : (fun k => if k = d then { s.heap k with mem := (s.heap d).mem } else s.heap k) = s.heap := by
    funext k
    by_cases h : k = d
    · subst h; simp
    · simp [h]
  rw [this]

theorem setMem_setMem (s : St) (d : Nat) (m m' : Nat → Nat) : setMem (setMem s d m) d m' = setMem s d m' := by
  unfold setMem
  congr 1
  funext k
  by_cases h : k = d <;> simp [h]

theorem memcpy_eq {s : St} {J : Job} {d : Nat} (hd : J.dst.blk = d) (hs : J.src.blk ≠ d) :
    memcpy s J = if J.dst.off + J.len ≤ (s.heap d).size ∧ J.src.off + J.len ≤ (s.heap J.src.blk).size then
      .ok (setMem s d (fun x => if J.dst.off ≤ x ∧ x < J.dst.off + J.len then (s.heap J.src.blk).mem (J.src.off + (x - J.dst.off))
        else (s.heap d).mem x)) else .ub := by
  subst hd
  unfold memcpy setMem
  split
  · congr 2
    funext k
    by_cases h : k = J.dst.blk
    · subst h; simp
    · simp [h]
  · rfl

theorem runJobs_spec {d : Nat} : ∀ {js : List Job} {s s' : St}, (∀ J ∈ js, J.dst.blk = d ∧ J.src.blk ≠ d) → runJobs s js = .ok s' →
    ∃ m, s' = setMem s d m ∧
      (∀ x, (∀ J ∈ js, x < J.dst.off ∨ J.dst.off + J.len ≤ x) → m x = (s.heap d).mem x) ∧
      (js.Pairwise (fun a b => a.dst.off + a.len ≤ b.dst.off) →
        ∀ J ∈ js, ∀ x < J.len, m (J.dst.off + x) = (s.heap J.src.blk).mem (J.src.off + x))
  | [], s, s', _, h => by
    simp only [runJobs, Res.ok.injEq] at h
    subst h
    exact ⟨_, (setMem_self s d).symm, fun _ _ => rfl, fun _ J hJ => by cases hJ⟩
  | J :: js, s, s', hj, h => by
    simp only [runJobs] at h
    obtain ⟨s1, h1, h2⟩ := Res.bind_eq_ok.mp h
    obtain ⟨hd, hs⟩ := hj J List.mem_cons_self
    rw [memcpy_eq hd hs] at h1
    split at h1
    · simp only [Res.ok.injEq] at h1
      obtain ⟨m, e, g1, g2⟩ := runJobs_spec (fun K hK => hj K (List.mem_cons_of_mem _ hK)) h2
      subst h1
      rw [setMem_setMem] at e
      refine ⟨m, e, fun x hx => ?_, fun hp K hK x hx => ?_⟩
      · rw [g1 x (fun K hK => hx K (List.mem_cons_of_mem _ hK))]
        simp only [setMem, if_true]
        rw [if_neg]
        have := hx J List.mem_cons_self
        omega
      · rw [List.pairwise_cons] at hp
        rcases List.mem_cons.mp hK with e | hK'
        · subst e
          rw [g1 (K.dst.off + x) (fun L hL => by have := hp.1 L hL; omega)]
          simp only [setMem, if_true]
          rw [if_pos (by omega)]
          congr 1
          omega
        · rw [g2 hp.2 K hK' x hx]
          simp only [setMem]
          rw [if_neg (hj K hK).2]
    · cases h1

theorem runJobs_ok {d : Nat} : ∀ {js : List Job} {s : St}, (∀ J ∈ js, J.dst.blk = d ∧ J.src.blk ≠ d ∧
    J.dst.off + J.len ≤ (s.heap d).size ∧ J.src.off + J.len ≤ (s.heap J.src.blk).size) → ∃ s', runJobs s js = .ok s'
  | [], s, _ => ⟨s, rfl⟩
  | J :: js, s, h => by
    obtain ⟨h1, h2, h3, h4⟩ := h J List.mem_cons_self
    simp only [runJobs]
    rw [memcpy_eq h1 h2, if_pos ⟨h3, h4⟩, Res.ok_bind]
    apply runJobs_ok
    intro K hK
    obtain ⟨k1, k2, k3, k4⟩ := h K (List.mem_cons_of_mem _ hK)
    refine ⟨k1, k2, ?_, ?_⟩
    · simpa [setMem] using k3
    · simpa [setMem, k2] using k4

theorem rowJobs_spec (d0 s0 n nd nb d b : Nat) : ∀ (f : List Col) (tot tot' : Nat),
    ∃ js, rowJobs d0 s0 n f ((layout tot nd f).1.map (Option.map (Ptr.mk d))) ((layout tot' nb f).1.map (Option.map (Ptr.mk b))) = some js ∧
      (∀ J, J ∈ js ↔ ∃ (c : Nat) (k : Col) (o o' : Nat), f[c]? = some k ∧ (layout tot nd f).1[c]? = some (some o) ∧
        (layout tot' nb f).1[c]? = some (some o') ∧ J = ⟨⟨d, o + k.cell * d0⟩, ⟨b, o' + k.cell * s0⟩, k.cell * n⟩) ∧
      (d0 + n ≤ nd → js.Pairwise (fun a b => a.dst.off + a.len ≤ b.dst.off))
  | [], tot, tot' => ⟨[], rfl, fun J => by simp, fun _ => .nil⟩
  | a :: f, tot, tot' => by
    simp only [layout]
    by_cases ha : a.el = 0
    · obtain ⟨js, h1, h2, h3⟩ := rowJobs_spec d0 s0 n nd nb d b f tot tot'
      refine ⟨js, ?_, fun J => ?_, h3⟩
      · simp only [if_pos ha, List.map_cons, Option.map_none, rowJobs, h1]
      · simp only [if_pos ha]
        rw [h2 J]
        constructor
        · rintro ⟨c, k, o, o', g⟩; exact ⟨c + 1, k, o, o', by simpa using g⟩
        · rintro ⟨c, k, o, o', g1, g2, g3, g4⟩
          cases c with
          | zero => simp at g2
          | succ c => exact ⟨c, k, o, o', by simpa using g1, by simpa using g2, by simpa using g3, g4⟩
    · simp only [if_neg ha]
      have hd : tot ≤ (if tot % a.el = 0 then tot else tot + (a.el - tot % a.el)) := align_le _ _
      generalize (if tot % a.el = 0 then tot else tot + (a.el - tot % a.el)) = u at *
      generalize (if tot' % a.el = 0 then tot' else tot' + (a.el - tot' % a.el)) = u' at *
      obtain ⟨js, h1, h2, h3⟩ := rowJobs_spec d0 s0 n nd nb d b f (u + a.cell * nd) (u' + a.cell * nb)
      refine ⟨⟨⟨d, u + a.cell * d0⟩, ⟨b, u' + a.cell * s0⟩, a.cell * n⟩ :: js, ?_, fun J => ?_, fun hn => ?_⟩
      · simp only [List.map_cons, Option.map_some, rowJobs, h1]
      · rw [List.mem_cons, h2 J]
        constructor
        · rintro (e | ⟨c, k, o, o', g⟩)
          · exact ⟨0, a, u, u', by simp, by simp, by simp, e⟩
          · exact ⟨c + 1, k, o, o', by simpa using g⟩
        · rintro ⟨c, k, o, o', g1, g2, g3, g4⟩
          cases c with
          | zero =>
            simp only [List.getElem?_cons_zero, Option.some.injEq] at g1 g2 g3
            subst g1; subst g2; subst g3
            exact .inl g4
          | succ c => exact .inr ⟨c, k, o, o', by simpa using g1, by simpa using g2, by simpa using g3, g4⟩
      · refine List.pairwise_cons.mpr ⟨fun J hJ => ?_, h3 hn⟩
        obtain ⟨c, k, o, o', g1, g2, g3, g4⟩ := (h2 J).mp hJ
        subst g4
        have := (layout_col nd f _ c o k g1 g2).1
        have h5 : a.cell * d0 + a.cell * n ≤ a.cell * nd := by
          rw [← Nat.mul_add]; exact Nat.mul_le_mul_left _ hn
        simp only
        omega

/-- The same, with the offsets named. -/
theorem rowJobs_ptrs (d0 s0 n nd nb d b : Nat) (f : List Col) :
    ∃ js, rowJobs d0 s0 n f (ptrs d f nd) (ptrs b f nb) = some js ∧
      (∀ J, J ∈ js ↔ ∃ (c : Nat) (k : Col), f[c]? = some k ∧ k.el ≠ 0 ∧
        J = ⟨⟨d, colOff f nd c + k.cell * d0⟩, ⟨b, colOff f nb c + k.cell * s0⟩, k.cell * n⟩) ∧
      (d0 + n ≤ nd → js.Pairwise (fun a b => a.dst.off + a.len ≤ b.dst.off)) := by
  obtain ⟨js, h1, h2, h3⟩ := rowJobs_spec d0 s0 n nd nb d b f hdrSize hdrSize
  refine ⟨js, h1, fun J => ?_, h3⟩
  rw [h2 J]
  constructor
  · rintro ⟨c, k, o, o', g1, g2, g3, g4⟩
    have hk := (layout_col nd f _ c o k g1 g2).2.2.1
    have e1 := colOff_some (n := nd) g1 (by omega)
    have e2 := colOff_some (n := nb) g1 (by omega)
    rw [g2] at e1; rw [g3] at e2
    simp only [Option.some.injEq] at e1 e2
    subst e1; subst e2
    exact ⟨c, k, g1, by omega, g4⟩
  · rintro ⟨c, k, g1, g2, g3⟩
    exact ⟨c, k, _, _, g1, colOff_some g1 g2, colOff_some g1 g2, g3⟩

theorem rowJobs_dst {d d0 s0 n : Nat} : ∀ {f : List Col} {ds ps : List (Option Ptr)} {js : List Job}, rowJobs d0 s0 n f ds ps = some js →
    (∀ p, some p ∈ ds → p.blk = d) → ∀ b, (∀ p, some p ∈ ps → p.blk = b) → ∀ J ∈ js, J.dst.blk = d ∧ J.src.blk = b
  | [], _, _, js, h, _, _, _, J, hJ => by simp only [rowJobs, Option.some.injEq] at h; subst h; cases hJ
  | c :: f, [], _, js, h, _, _, _, _, _ => by simp [rowJobs] at h
  | c :: f, _ :: _, [], js, h, _, _, _, _, _ => by simp [rowJobs] at h
  | c :: f, x :: ds, p :: ps, js, h, hd, b, hb, J, hJ => by
    cases x with
    | none =>
      simp only [rowJobs] at h
      exact rowJobs_dst h (fun q hq => hd q (List.mem_cons_of_mem _ hq)) b (fun q hq => hb q (List.mem_cons_of_mem _ hq)) J hJ
    | some x =>
      cases p with
      | none => simp [rowJobs] at h
      | some p =>
        simp only [rowJobs, Option.map_eq_some_iff] at h
        obtain ⟨js', h1, rfl⟩ := h
        rcases List.mem_cons.mp hJ with e | hJ'
        · subst e; exact ⟨hd x List.mem_cons_self, hb p List.mem_cons_self⟩
        · exact rowJobs_dst h1 (fun q hq => hd q (List.mem_cons_of_mem _ hq)) b (fun q hq => hb q (List.mem_cons_of_mem _ hq)) J hJ'

theorem ptrs_blk {b n : Nat} {f : List Col} : ∀ p, some p ∈ ptrs b f n → p.blk = b := by
  intro p hp
  unfold ptrs at hp
  obtain ⟨o, _, ho⟩ := List.mem_map.mp hp
  cases o with
  | none => cases ho
  | some o => simp only [Option.map_some, Option.some.injEq] at ho; rw [← ho]

/-! Bytes of the tile's own block. -/

theorem setMem_upd {s : St} {i d : Nat} {m : Nat → Nat} (h : InvB s i) (hi : i < s.nt) (hu : Unshared s i) (hb : (s.tile i).blk = some d) :
    InvB (setMem s d m) i ∧ Frame s (setMem s d m) i ∧ Unshared (setMem s d m) i := by
  have hf : Frame s (setMem s d m) i := by
    refine ⟨rfl, Nat.le_refl _, fun _ _ => rfl, rfl, fun j b hne e => ?_, fun k hk => ?_⟩
    · have : b ≠ d := by
        intro e'; subst e'
        have hj : j < s.nt := by
          by_cases hj : j < s.nt
          · exact hj
          · rw [h.fresh j (by omega)] at e; cases e
        exact (hu b hb).1 j hj hne e
      simp [setMem, this]
    · have : k.blk ≠ d := (hu d hb).2 k hk
      simp [setMem, this]
  refine ⟨h.frame hf hi ?_, hf, hu.frame hf rfl⟩
  refine (h.base i).bytes (Nat.le_refl _) (fun b _ => ?_)
  by_cases e : b = d <;> simp [setMem, e]

/-! Assignment. -/

theorem poke_eq (s : St) (p : Ptr) (el : Nat) (v : Nat → Nat) :
    poke s p el v = if live s p.blk ∧ p.off + el ≤ (s.heap p.blk).size then
      .ok (setMem s p.blk (fun x => if p.off ≤ x ∧ x < p.off + el then v (x - p.off) else (s.heap p.blk).mem x)) else .ub := by
  unfold poke setMem
  split
  · congr 2
    funext k
    by_cases h : k = p.blk
    · subst h; simp
    · simp [h]
  · rfl

/-- A write to an element of a tile that is not shared. -/
theorem poke_spec {s s' : St} {i b c e t : Nat} {f : List Col} {col : Col} {v : Nat → Nat} (h : Inv s) (hi : i < s.nt) (hu : Unshared s i)
    (hb : (s.tile i).blk = some b) (hf : (s.tile i).fmt = some f) (hc : f[c]? = some col) (hty : col.ty ≠ 0)
    (he : e < col.cells) (ht : t < (s.tile i).nrow)
    (hp : poke s ⟨b, elemOff (colOff f (s.tile i).nrow c) col.el (s.tile i).nrow e t⟩ col.el v = .ok s') :
    Inv s' ∧ Frame s s' i ∧ s'.tile = s.tile ∧ Unshared s' i ∧
      (∀ k < col.el, get s' i c e t k = .ok (v k)) ∧
      ∀ c' e' t' k, ¬ (c' = c ∧ e' = e ∧ t' = t) → get s' i c' e' t' k = get s i c' e' t' k := by
  rw [poke_eq] at hp
  split at hp
  · simp only [Res.ok.injEq] at hp
    obtain ⟨g1, g2, g3⟩ := setMem_upd (m := fun x =>
      if elemOff (colOff f (s.tile i).nrow c) col.el (s.tile i).nrow e t ≤ x ∧
        x < elemOff (colOff f (s.tile i).nrow c) col.el (s.tile i).nrow e t + col.el
      then v (x - elemOff (colOff f (s.tile i).nrow c) col.el (s.tile i).nrow e t) else (s.heap b).mem x) (h.toB i) hi hu hb
    subst hp
    have hI := g1.full (h.tiles i).2
    refine ⟨hI, g2, rfl, g3, fun k hk => ?_, fun c' e' t' k hne => ?_⟩
    · rw [get_view hI (by exact hi)]
      unfold view
      simp only [setMem, hb, hf, Option.bind_some, hc, Option.getD_some, if_true]
      rw [if_pos ⟨hty, he, ht, hk⟩, if_pos (by omega)]
      congr 2; omega
    · rw [get_view hI (by exact hi), get_view h hi]
      unfold view
      simp only [setMem, hb, hf, Option.bind_some, Option.getD_some]
      cases hc' : f[c']? with
      | none => rfl
      | some col' =>
        simp only [if_true]
        split
        · rename_i hr
          rw [if_neg]
          intro hx
          obtain ⟨r1, r2, r3, r4⟩ := hr
          obtain ⟨w1, _, w3⟩ := ((h.tiles i).1.some_ b hb).2.2.2.2.2.2 f hf
          have hel : col.el ≠ 0 := fun e => hty ((fmtOk_get w1 hc).mpr e)
          have hel' : col'.el ≠ 0 := by omega
          have a1 := elem_in (o := colOff f (s.tile i).nrow c) (el := col.el) he ht
          have a2 := elem_in (o := colOff f (s.tile i).nrow c') (el := col'.el) r2 r3
          rcases Nat.lt_trichotomy c c' with hlt | heq | hgt
          · have := colOff_lt (n := (s.tile i).nrow) hc hel hc' hel' hlt
            unfold Col.cell at this
            omega
          · subst heq
            rw [hc] at hc'; cases hc'
            have := elem_ne (o := colOff f (s.tile i).nrow c) (e := e') (t := t') (e' := e) (t' := t) (k := k)
              (k' := elemOff (colOff f (s.tile i).nrow c) col.el (s.tile i).nrow e' t' + k -
                elemOff (colOff f (s.tile i).nrow c) col.el (s.tile i).nrow e t) r3 ht r4 (by omega) (by omega)
            exact hne ⟨rfl, this.1, this.2.1⟩
          · have := colOff_lt (n := (s.tile i).nrow) hc' hel' hc hel hgt
            unfold Col.cell at this
            omega
        · rfl
  · cases hp

theorem poke_ok {s : St} {i b c e t : Nat} {f : List Col} {col : Col} {v : Nat → Nat} (h : Inv s) (hi : i < s.nt)
    (hb : (s.tile i).blk = some b) (hf : (s.tile i).fmt = some f) (hc : f[c]? = some col) (hty : col.ty ≠ 0)
    (he : e < col.cells) (ht : t < (s.tile i).nrow) :
    ∃ s', poke s ⟨b, elemOff (colOff f (s.tile i).nrow c) col.el (s.tile i).nrow e t⟩ col.el v = .ok s' := by
  rw [poke_eq, if_pos]
  · exact ⟨_, rfl⟩
  · refine ⟨live_of_tile hi hb, ?_⟩
    obtain ⟨w1, _, w3⟩ := ((h.tiles i).1.some_ b hb).2.2.2.2.2.2 f hf
    have hel : col.el ≠ 0 := fun e => hty ((fmtOk_get w1 hc).mpr e)
    have a1 := elem_in (o := colOff f (s.tile i).nrow c) (el := col.el) he ht
    have a2 := colOff_end (n := (s.tile i).nrow) hc hel
    unfold Col.cell at a2
    simp only
    omega

theorem set_spec {s s' : St} {i c e t : Nat} {v : Nat → Nat} (h : Inv s) (hi : i < s.nt) (hs : set s i c e t v = .ok s') :
    ∃ col, HasCol s i c col ∧ e < col.cells ∧ t < (s.tile i).nrow ∧ Inv s' ∧ Frame s s' i ∧ Unshared s' i ∧
      (s'.tile i).fmt = (s.tile i).fmt ∧ (s'.tile i).nrow = (s.tile i).nrow ∧ (s'.tile i).id = (s.tile i).id ∧
      (∀ k < col.el, get s' i c e t k = .ok (v k)) ∧
      ∀ c' e' t' k, ¬ (c' = c ∧ e' = e ∧ t' = t) → get s' i c' e' t' k = get s i c' e' t' k := by
  unfold set at hs
  obtain ⟨s1, h1, h2⟩ := Res.bind_eq_ok.mp hs
  obtain ⟨i1, i2, i3, i4⟩ := vmw h hi h1
  have hi1 : i < s1.nt := by rw [i2.nt]; exact hi
  split at h2
  · rename_i a ha
    split at h2
    · rename_i hr
      cases hb : (s1.tile i).blk with
      | none =>
        exfalso
        obtain ⟨_, q2, q3⟩ := (i1.tiles i).1.none_ hb
        cases hf : (s1.tile i).fmt with
        | none => rw [(i1.tiles i).2.1 hf] at ha; simp at ha
        | some f =>
          rw [mkArrs_get ((i1.tiles i).2.2 f hf) c, q2] at ha
          cases hc : f[c]? with
          | none => rw [hc] at ha; simp at ha
          | some k => rw [hc] at ha; simp at ha
      | some b =>
        rw [arrs_get (i1.tiles i) hb] at ha
        cases hf : (s1.tile i).fmt with
        | none => rw [hf] at ha; simp at ha
        | some f =>
          rw [hf] at ha
          simp only [Option.bind_some, Option.getD_some] at ha
          cases hc : f[c]? with
          | none => rw [hc] at ha; simp at ha
          | some col =>
            rw [hc] at ha
            simp only [Option.some.injEq] at ha
            by_cases hty : col.ty = 0
            · rw [if_pos hty] at ha; cases ha
            · rw [if_neg hty] at ha
              cases ha
              obtain ⟨p1, p2, p3, p4, p5, p6⟩ := poke_spec i1 hi1 i3 hb hf hc hty hr.1 hr.2 h2
              refine ⟨col, ⟨f, by rw [← i4.fmt]; exact hf, hc, hty⟩, hr.1, by rw [← i4.nrow]; exact hr.2, p1, i2.trans p2, p4,
                by rw [p3]; exact i4.fmt, by rw [p3]; exact i4.nrow, by rw [p3]; exact i4.id, p5, fun c' e' t' k hne => ?_⟩
              rw [p6 c' e' t' k hne, get_view i1 hi1, get_view h hi, i4.view]
    · cases h2
  · cases h2

theorem set_ok {s : St} {i c e t : Nat} {v : Nat → Nat} {col : Col} (h : Inv s) (hi : i < s.nt) (hc : HasCol s i c col)
    (he : e < col.cells) (ht : t < (s.tile i).nrow) : ∃ s', set s i c e t v = .ok s' := by
  obtain ⟨f, hf, hc, hty⟩ := hc
  cases hb : (s.tile i).blk with
  | none => have := ((h.tiles i).1.none_ hb).1; omega
  | some b =>
    obtain ⟨s1, h1⟩ := vmw_ok h hi hb hf
    obtain ⟨i1, i2, i3, i4⟩ := vmw h hi h1
    obtain ⟨b', g1, _⟩ := i4.some_ b hb
    unfold set
    rw [h1, Res.ok_bind, arrs_get (i1.tiles i) g1, i4.fmt, hf]
    simp only [Option.bind_some, hc, if_neg hty, Option.getD_some]
    rw [if_pos ⟨he, by rw [i4.nrow]; exact ht⟩]
    exact poke_ok i1 (by rw [i2.nt]; exact hi) g1 (by rw [i4.fmt]; exact hf) hc hty he (by rw [i4.nrow]; exact ht)

theorem setColumn_spec {s s' : St} {i c e t : Nat} {v : Nat → Nat} (h : Inv s) (hi : i < s.nt) (hu : Unshared s i)
    (hs : setColumn s i c e t v = .ok s') :
    ∃ col, HasCol s i c col ∧ e < col.cells ∧ t < (s.tile i).nrow ∧ Inv s' ∧ Frame s s' i ∧ s'.tile = s.tile ∧
      (∀ k < col.el, get s' i c e t k = .ok (v k)) ∧
      ∀ c' e' t' k, ¬ (c' = c ∧ e' = e ∧ t' = t) → get s' i c' e' t' k = get s i c' e' t' k := by
  unfold setColumn at hs
  rw [unshared_mw hu, Res.ok_bind] at hs
  dsimp only at hs
  cases hb : (s.tile i).blk with
  | none =>
    obtain ⟨_, q2, q3⟩ := (h.tiles i).1.none_ hb
    rw [q2] at hs
    simp at hs
  | some b =>
    obtain ⟨w0, _, _, _, _, w6, w7⟩ := (h.tiles i).1.some_ b hb
    cases hf : (s.tile i).fmt with
    | none => rw [w6 hf] at hs; simp at hs
    | some f =>
      obtain ⟨w1, w2, w3⟩ := w7 f hf
      rw [hf] at hs
      simp only [Option.bind_some] at hs
      cases hc : f[c]? with
      | none =>
        rw [hc] at hs
        have : (s.tile i).pd[c]? = none := by
          rw [w2, List.getElem?_eq_none_iff, ptrs_length]
          exact List.getElem?_eq_none_iff.mp hc
        rw [this] at hs
        simp at hs
      | some col =>
        have hp := ptrs_get (b := b) (n := (s.tile i).nrow) hc
        rw [← w2] at hp
        rw [hp, hc] at hs
        by_cases hel : col.el = 0
        · rw [if_pos hel] at hs; simp at hs
        · rw [if_neg hel] at hs
          simp only at hs
          split at hs
          · rename_i hr
            have hty : col.ty ≠ 0 := fun e => hel ((fmtOk_get w1 hc).mp e)
            obtain ⟨p1, p2, p3, p4, p5, p6⟩ := poke_spec h hi hu hb hf hc hty hr.1 hr.2 hs
            exact ⟨col, ⟨f, hf, hc, hty⟩, hr.1, hr.2, p1, p2, p3, p5, p6⟩
          · cases hs

/-! Rows are added. -/

/-- A new block, and copies to it. -/
theorem alloc_setMem (s : St) (B : Block) (m : Nat → Nat) : setMem (alloc s B) s.next m = alloc s { B with mem := m } := by
  unfold setMem alloc
  simp only
  congr 1
  funext k
  by_cases h : k = s.next <;> simp [h]

theorem alloc_new (s : St) (B : Block) : (alloc s B).heap s.next = B := by simp [alloc]
theorem alloc_old (s : St) (B : Block) {b : Nat} (h : b < s.next) : (alloc s B).heap b = s.heap b := by
  simp only [alloc]; rw [if_neg (by omega)]

/-- What the memory of a tile holds after rows have been added. -/
def Grown (f : List Col) (n0 n : Nat) (m0 m : Nat → Nat) : Prop :=
  ∀ (c : Nat) (k : Col), f[c]? = some k → k.el ≠ 0 →
    (∀ x < k.cell * n0, m (colOff f n c + x) = m0 (colOff f n0 c + x)) ∧
    ∀ x, k.cell * n0 ≤ x → x < k.cell * n → m (colOff f n c + x) = 0

theorem grown {f : List Col} {n0 n d b : Nat} {js : List Job} {m0 m : Nat → Nat} (hn : n0 ≤ n)
    (hj : ∀ J, J ∈ js ↔ ∃ (c : Nat) (k : Col), f[c]? = some k ∧ k.el ≠ 0 ∧
        J = ⟨⟨d, colOff f n c + k.cell * 0⟩, ⟨b, colOff f n0 c + k.cell * 0⟩, k.cell * n0⟩)
    (h1 : ∀ x, (∀ J ∈ js, x < J.dst.off ∨ J.dst.off + J.len ≤ x) → m x = 0)
    (h2 : ∀ J ∈ js, ∀ x < J.len, m (J.dst.off + x) = m0 (J.src.off + x)) : Grown f n0 n m0 m := by
  intro c k hc hk
  refine ⟨fun x hx => ?_, fun x hx hx' => h1 _ (fun J hJ => ?_)⟩
  · have := h2 _ ((hj _).mpr ⟨c, k, hc, hk, rfl⟩) x hx
    simpa using this
  · obtain ⟨c', k', hc', hk', rfl⟩ := (hj J).mp hJ
    simp only [Nat.mul_zero, Nat.add_zero]
    have hle : k'.cell * n0 ≤ k'.cell * n := Nat.mul_le_mul_left _ hn
    rcases Nat.lt_trichotomy c c' with hlt | heq | hgt
    · have := colOff_lt (n := n) hc hk hc' hk' hlt; omega
    · subst heq; rw [hc] at hc'; cases hc'; omega
    · have := colOff_lt (n := n) hc' hk' hc hk hgt; omega

theorem addRowsBase_spec {s s' : St} {i : Nat} {nr : Int} (h : InvB s i) (hi : i < s.nt) (hs : addRowsBase s i nr = .ok s') :
    ∃ f, (s.tile i).fmt = some f ∧ 0 ≤ nr ∧ ((nr = 0 ∧ s' = s) ∨ (0 < nr ∧ InvB s' i ∧ Frame s s' i ∧ Unshared s' i ∧
      (s'.tile i).fmt = some f ∧ (s'.tile i).nrow = (s.tile i).nrow + nr.toNat ∧ (s'.tile i).id = (s.tile i).id ∧
      (s'.tile i).arrs = (s.tile i).arrs ∧
      ∃ b', (s'.tile i).blk = some b' ∧ s.next ≤ b' ∧
        Grown f (s.tile i).nrow ((s.tile i).nrow + nr.toNat) (fun x => match (s.tile i).blk with | some b => (s.heap b).mem x | none => 0)
          (s'.heap b').mem)) := by
  unfold addRowsBase at hs
  split at hs
  · cases hs
  · rename_i f hf
    refine ⟨f, hf, ?_⟩
    split at hs
    · rename_i h0
      cases hs
      exact ⟨by omega, .inl ⟨h0, rfl⟩⟩
    · rename_i h0
      split at hs
      · cases hs
      · rename_i hneg
        refine ⟨by omega, .inr ⟨by omega, ?_⟩⟩
        obtain ⟨⟨s1, ch⟩, h1, h2⟩ := Res.bind_eq_ok.mp hs
        obtain ⟨i1, i2, i3, i4, i5, i6⟩ := mw h hi h1
        have harr : (s1.tile i).arrs = (s.tile i).arrs := by
          unfold makeWritable at h1
          dsimp only at h1
          split at h1
          · cases h1; rfl
          · split at h1
            · cases h1; rfl
            · split at h1
              · cases h1
              · cases h1; rw [setT_self]
        have hi1 : i < s1.nt := by rw [i2.nt]; exact hi
        have hf1 : (s1.tile i).fmt = some f := i4.fmt.trans hf
        dsimp only at h2
        obtain ⟨s3, h3, h4⟩ := Res.bind_eq_ok.mp h2
        have hok : FmtOk f := by
          cases hb : (s1.tile i).blk with
          | none => exact ((i1.base i).none_ hb).2.2 f hf1
          | some b => exact (((i1.base i).some_ b hb).2.2.2.2.2.2 f hf1).1
        -- the state before the tile is set
        have key : ∃ m, s3 = alloc s1 ⟨(layout hdrSize ((s1.tile i).nrow + nr.toNat) f).2, m, (s1.tile i).nrow + nr.toNat, (s1.tile i).id⟩ ∧
            Grown f (s1.tile i).nrow ((s1.tile i).nrow + nr.toNat)
              (fun x => match (s1.tile i).blk with | some b => (s1.heap b).mem x | none => 0) m := by
          split at h3
          · rename_i hz
            cases h3
            refine ⟨fun _ => 0, rfl, fun c k hc hk => ⟨fun x hx => ?_, fun _ _ _ => rfl⟩⟩
            rw [hz] at hx; simp at hx
          · rename_i hz
            cases hb : (s1.tile i).blk with
            | none => exact absurd ((i1.base i).none_ hb).1 hz
            | some b =>
              obtain ⟨w0, _, _, _, _, _, w7⟩ := (i1.base i).some_ b hb
              obtain ⟨_, w2, w3⟩ := w7 f hf1
              obtain ⟨js, j1, j2, j3⟩ := rowJobs_ptrs 0 0 (s1.tile i).nrow ((s1.tile i).nrow + nr.toNat) (s1.tile i).nrow s1.next b f
              rw [w2, j1] at h3
              simp only at h3
              have hne : b ≠ s1.next := by omega
              obtain ⟨m, e, g1, g2⟩ := runJobs_spec (d := s1.next) (fun J hJ => by
                obtain ⟨c, k, _, _, rfl⟩ := (j2 J).mp hJ
                exact ⟨rfl, hne⟩) h3
              rw [alloc_setMem] at e
              refine ⟨m, e, grown (by omega) j2 (fun x hx => ?_) (fun J hJ x hx => ?_)⟩
              · rw [g1 x hx, alloc_new]; rfl
              · rw [g2 (j3 (by omega)) J hJ x hx]
                obtain ⟨c, k, _, _, rfl⟩ := (j2 J).mp hJ
                simp only
                rw [alloc_old _ _ w0]
        obtain ⟨m, e3, hg⟩ := key
        cases h4
        subst e3
        have ht : TileB (alloc s1 ⟨(layout hdrSize ((s1.tile i).nrow + nr.toNat) f).2, m, (s1.tile i).nrow + nr.toNat, (s1.tile i).id⟩)
            { s1.tile i with nrow := (s1.tile i).nrow + nr.toNat, blk := some s1.next, pd := ptrs s1.next f ((s1.tile i).nrow + nr.toNat) } := by
          refine ⟨(fun e => by cases e), fun b' e => ?_⟩
          cases e
          rw [alloc_new]
          refine ⟨Nat.lt_succ_self _, by simp only; omega, rfl, rfl, layout_total _ _ _, (fun e => by rw [hf1] at e; cases e), fun f' e => ?_⟩
          simp only at e
          rw [hf1] at e; cases e
          exact ⟨hok, rfl, rfl⟩
        obtain ⟨u1, u2, u3⟩ := upd i1 hi1 _ rfl ht
        refine ⟨u1, i2.trans u2, u3, ?_, ?_, ?_, ?_, s1.next, ?_, i2.next, ?_⟩
        · rw [setT_self]; exact hf1
        · rw [setT_self]; simp only [i4.nrow]
        · rw [setT_self]; exact i4.id
        · rw [setT_self]; exact harr
        · rw [setT_self]
        · have e1 : (setT (alloc s1 ⟨(layout hdrSize ((s1.tile i).nrow + nr.toNat) f).2, m, (s1.tile i).nrow + nr.toNat, (s1.tile i).id⟩) i
            { s1.tile i with nrow := (s1.tile i).nrow + nr.toNat, blk := some s1.next, pd := ptrs s1.next f ((s1.tile i).nrow + nr.toNat) }).heap s1.next
            = ⟨(layout hdrSize ((s1.tile i).nrow + nr.toNat) f).2, m, (s1.tile i).nrow + nr.toNat, (s1.tile i).id⟩ := alloc_new _ _
          rw [e1]
          simp only
          rw [i4.nrow] at hg
          refine fun c k hc hk => ⟨fun x hx => ?_, (hg c k hc hk).2⟩
          rw [(hg c k hc hk).1 x hx]
          cases hb : (s.tile i).blk with
          | none => rw [i4.none_ hb]
          | some b => obtain ⟨b', q1, q2⟩ := i4.some_ b hb; rw [q1]; simp only [q2]

theorem addRowsBase_ok {s : St} {i : Nat} {nr : Int} {f : List Col} (h : InvB s i) (hi : i < s.nt) (hf : (s.tile i).fmt = some f)
    (hn : 0 ≤ nr) : ∃ s', addRowsBase s i nr = .ok s' := by
  unfold addRowsBase
  simp only [hf]
  split
  · exact ⟨_, rfl⟩
  · rw [if_neg (by omega)]
    have : ∃ q, makeWritable s i = .ok q := by
      unfold makeWritable
      dsimp only
      cases hb : (s.tile i).blk with
      | none => exact ⟨_, rfl⟩
      | some b =>
        simp only [hf]
        split <;> exact ⟨_, rfl⟩
    obtain ⟨⟨s1, ch⟩, hq⟩ := this
    obtain ⟨i1, i2, i3, i4, i5, i6⟩ := mw h hi hq
    have hf1 : (s1.tile i).fmt = some f := i4.fmt.trans hf
    rw [hq, Res.ok_bind]
    dsimp only
    split
    · exact ⟨_, rfl⟩
    · rename_i hz
      cases hb : (s1.tile i).blk with
      | none => exact absurd ((i1.base i).none_ hb).1 hz
      | some b =>
        obtain ⟨w0, _, _, _, _, _, w7⟩ := (i1.base i).some_ b hb
        obtain ⟨_, w2, w3⟩ := w7 f hf1
        obtain ⟨js, j1, j2, j3⟩ := rowJobs_ptrs 0 0 (s1.tile i).nrow ((s1.tile i).nrow + nr.toNat) (s1.tile i).nrow s1.next b f
        rw [w2, j1]
        simp only
        obtain ⟨s', hr⟩ := runJobs_ok (d := s1.next) (js := js)
          (s := alloc s1 (zeroBlock (layout hdrSize ((s1.tile i).nrow + nr.toNat) f).2 ((s1.tile i).nrow + nr.toNat) (s1.tile i).id))
          (fun J hJ => by
            obtain ⟨c, k, hc, hk, rfl⟩ := (j2 J).mp hJ
            have e1 := colOff_end (n := (s1.tile i).nrow + nr.toNat) hc hk
            have e2 := colOff_end (n := (s1.tile i).nrow) hc hk
            have e3 : k.cell * (s1.tile i).nrow ≤ k.cell * ((s1.tile i).nrow + nr.toNat) := Nat.mul_le_mul_left _ (by omega)
            refine ⟨rfl, by simp only; omega, ?_, ?_⟩
            · rw [alloc_new]; simp only [zeroBlock]; omega
            · simp only; rw [alloc_old _ _ w0, w3]; omega)
        rw [hr, Res.ok_bind]
        exact ⟨_, rfl⟩

/-- A tile without rows has arrays only if no column is defined. -/
theorem mkArrs_nil {n : Nat} : ∀ {f : List Col} {as : List (Option Arr)}, mkArrs n f [] = .ok as → ∀ n' pd, mkArrs n' f pd = .ok as
  | [], as, h, _, _ => h
  | c :: f, as, h, n', pd => by
    simp only [mkArrs, List.tail_nil] at h ⊢
    split at h
    · rename_i hc
      obtain ⟨q, hq, he⟩ := Res.bind_eq_ok.mp h
      rw [if_pos hc, mkArrs_nil hq n' pd.tail]
      exact he
    · cases h

theorem addRows_spec {s s' : St} {i : Nat} {nr : Int} (h : Inv s) (hi : i < s.nt) (hs : addRows s i nr = .ok s') :
    ∃ f, (s.tile i).fmt = some f ∧ 0 ≤ nr ∧ Inv s' ∧ Frame s s' i ∧
      (s'.tile i).fmt = some f ∧ (s'.tile i).nrow = (s.tile i).nrow + nr.toNat ∧ (s'.tile i).id = (s.tile i).id ∧
      ((nr = 0 ∧ Same s s' i) ∨ (0 < nr ∧ ∃ b', (s'.tile i).blk = some b' ∧
        Grown f (s.tile i).nrow ((s.tile i).nrow + nr.toNat) (fun x => match (s.tile i).blk with | some b => (s.heap b).mem x | none => 0)
          (s'.heap b').mem)) := by
  unfold addRows at hs
  obtain ⟨s1, h1, h2⟩ := Res.bind_eq_ok.mp hs
  obtain ⟨f, hf, h0, hh⟩ := addRowsBase_spec (h.toB i) hi h1
  refine ⟨f, hf, h0, ?_⟩
  rcases hh with ⟨h0, rfl⟩ | ⟨h0, g1, g2, g3, g4, g5, g6, g7, b', g8, _, g9⟩
  · obtain ⟨k1, k2, k3, k4, k5, k6⟩ := ia (h.toB i) hi h2
    exact ⟨k1, k2, k3.fmt.trans hf, by rw [k3.nrow, h0]; rfl, k3.id, .inl ⟨h0, k3⟩⟩
  · obtain ⟨k1, k2, k3, k4, k5, k6⟩ := ia g1 (by rw [g2.nt]; exact hi) h2
    exact ⟨k1, g2.trans k2, k3.fmt.trans g4, k3.nrow.trans g5, k3.id.trans g6, .inr ⟨h0, b', k5.trans g8, by rw [k4]; exact g9⟩⟩

end Verif.VTile
