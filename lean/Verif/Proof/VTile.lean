import Verif.Spec.VTile
/-!
# Lemmas about tiles
-/
namespace Verif.VTile

/-! Layout. -/

theorem layout_length (n : Nat) : ∀ (f : List Col) (tot : Nat), (layout tot n f).1.length = f.length
  | [], _ => rfl
  | c :: r, tot => by
    simp only [layout]
    split <;> simp [layout_length n r]

theorem align_le (tot el : Nat) : tot ≤ (if tot % el = 0 then tot else tot + (el - tot % el)) := by
  split <;> omega

theorem align_mod {tot el : Nat} (h : 0 < el) : (if tot % el = 0 then tot else tot + (el - tot % el)) % el = 0 := by
  split
  · assumption
  · have h1 := Nat.div_add_mod tot el
    have h2 := Nat.mod_lt tot h
    have h3 : tot + (el - tot % el) = el * (tot / el + 1) := by rw [Nat.mul_add, Nat.mul_one]; omega
    rw [h3]; exact Nat.mul_mod_right _ _

theorem layout_total (n : Nat) : ∀ (f : List Col) (tot : Nat), tot ≤ (layout tot n f).2
  | [], _ => Nat.le_refl _
  | c :: r, tot => by
    simp only [layout]
    split
    · exact layout_total n r tot
    · have h1 := align_le tot c.el
      have h2 := layout_total n r ((if tot % c.el = 0 then tot else tot + (c.el - tot % c.el)) + c.cell * n)
      simp only; omega

theorem layout_col (n : Nat) : ∀ (f : List Col) (tot c o : Nat) (k : Col), f[c]? = some k → (layout tot n f).1[c]? = some (some o) →
    tot ≤ o ∧ o % k.el = 0 ∧ 0 < k.el ∧ o + k.cell * n ≤ (layout tot n f).2
  | [], _, _, _, _, h, _ => by simp at h
  | a :: r, tot, c, o, k, h, ho => by
    simp only [layout] at ho ⊢
    by_cases ha : a.el = 0
    · simp only [if_pos ha] at ho ⊢
      cases c with
      | zero => simp at ho
      | succ c =>
        simp only [List.getElem?_cons_succ] at h ho
        exact layout_col n r tot c o k h ho
    · simp only [if_neg ha] at ho ⊢
      have h1 := align_le tot a.el
      have h2 := @align_mod tot a.el (by omega)
      generalize (if tot % a.el = 0 then tot else tot + (a.el - tot % a.el)) = t at *
      cases c with
      | zero =>
        simp only [List.getElem?_cons_zero, Option.some.injEq] at h ho
        subst h; subst ho
        exact ⟨h1, h2, by omega, layout_total n r _⟩
      | succ c =>
        simp only [List.getElem?_cons_succ] at h ho
        obtain ⟨g1, g2, g3, g4⟩ := layout_col n r _ c o k h ho
        exact ⟨by omega, g2, g3, g4⟩

theorem layout_lt (n : Nat) : ∀ (f : List Col) (tot c c' o o' : Nat) (k : Col), c < c' → f[c]? = some k →
    (layout tot n f).1[c]? = some (some o) → (layout tot n f).1[c']? = some (some o') → o + k.cell * n ≤ o'
  | [], _, _, _, _, _, _, _, h, _, _ => by simp at h
  | a :: r, tot, c, c', o, o', k, hc, h, ho, ho' => by
    simp only [layout] at ho ho'
    cases c' with
    | zero => omega
    | succ c' =>
      by_cases ha : a.el = 0
      · simp only [if_pos ha] at ho ho'
        cases c with
        | zero => simp at ho
        | succ c =>
          simp only [List.getElem?_cons_succ] at h ho ho'
          exact layout_lt n r tot c c' o o' k (by omega) h ho ho'
      · simp only [if_neg ha] at ho ho'
        cases c with
        | zero =>
          simp only [List.getElem?_cons_zero, Option.some.injEq, List.getElem?_cons_succ] at h ho ho'
          subst h; subst ho
          have hl : c' < r.length := by
            have := (List.getElem?_eq_some_iff.mp ho').1
            rwa [layout_length] at this
          exact (layout_col n r _ c' o' r[c'] (by simp [hl]) ho').1
        | succ c =>
          simp only [List.getElem?_cons_succ] at h ho ho'
          exact layout_lt n r _ c c' o o' k (by omega) h ho ho'

theorem layout_def (n : Nat) : ∀ (f : List Col) (tot c : Nat) (k : Col), f[c]? = some k →
    (k.el = 0 → (layout tot n f).1[c]? = some none) ∧ (k.el ≠ 0 → ∃ o, (layout tot n f).1[c]? = some (some o))
  | [], _, _, _, h => by simp at h
  | a :: r, tot, c, k, h => by
    simp only [layout]
    by_cases ha : a.el = 0
    · simp only [if_pos ha]
      cases c with
      | zero =>
        simp only [List.getElem?_cons_zero, Option.some.injEq] at h
        subst h; simp [ha]
      | succ c =>
        simp only [List.getElem?_cons_succ] at h ⊢
        exact layout_def n r tot c k h
    · simp only [if_neg ha]
      cases c with
      | zero =>
        simp only [List.getElem?_cons_zero, Option.some.injEq] at h
        subst h; simp [ha]
      | succ c =>
        simp only [List.getElem?_cons_succ] at h ⊢
        exact layout_def n r _ c k h

/-- Offset of a column. -/
def colOff (f : List Col) (n c : Nat) : Nat := (((layout hdrSize n f).1[c]?).join).getD 0

theorem colOff_some {f : List Col} {n c : Nat} {k : Col} (h : f[c]? = some k) (hk : k.el ≠ 0) :
    (layout hdrSize n f).1[c]? = some (some (colOff f n c)) := by
  obtain ⟨o, ho⟩ := (layout_def n f hdrSize c k h).2 hk
  rw [ho]; simp [colOff, ho]

theorem colOff_end {f : List Col} {n c : Nat} {k : Col} (h : f[c]? = some k) (hk : k.el ≠ 0) :
    colOff f n c + k.cell * n ≤ (layout hdrSize n f).2 := (layout_col n f _ c _ k h (colOff_some h hk)).2.2.2

theorem colOff_lt {f : List Col} {n c c' : Nat} {k k' : Col} (h : f[c]? = some k) (hk : k.el ≠ 0) (h' : f[c']? = some k')
    (hk' : k'.el ≠ 0) (hc : c < c') : colOff f n c + k.cell * n ≤ colOff f n c' :=
  layout_lt n f _ c c' _ _ k hc h (colOff_some h hk) (colOff_some h' hk')

theorem ptrs_get {b : Nat} {f : List Col} {n c : Nat} {k : Col} (h : f[c]? = some k) :
    (ptrs b f n)[c]? = some (if k.el = 0 then none else some ⟨b, colOff f n c⟩) := by
  unfold ptrs
  rw [List.getElem?_map]
  by_cases hk : k.el = 0
  · rw [(layout_def n f hdrSize c k h).1 hk]; simp [hk]
  · rw [colOff_some h hk]; simp [hk]

theorem ptrs_length (b : Nat) (f : List Col) (n : Nat) : (ptrs b f n).length = f.length := by
  simp [ptrs, layout_length]

/-! Places of elements. -/

theorem elem_in {o el rows cells e t : Nat} (he : e < cells) (ht : t < rows) :
    o ≤ elemOff o el rows e t ∧ elemOff o el rows e t + el ≤ o + el * cells * rows := by
  unfold elemOff
  refine ⟨by omega, ?_⟩
  have h1 : e * rows + t + 1 ≤ cells * rows := by
    have := Nat.mul_le_mul_right rows (Nat.succ_le_of_lt he)
    rw [Nat.succ_mul] at this; omega
  have h2 := Nat.mul_le_mul_right el h1
  rw [Nat.succ_mul] at h2
  have h3 : el * cells * rows = cells * rows * el := by rw [Nat.mul_assoc, Nat.mul_comm]
  omega

theorem elem_ne {o el rows e t e' t' k k' : Nat} (ht : t < rows) (ht' : t' < rows) (hk : k < el) (hk' : k' < el)
    (h : elemOff o el rows e t + k = elemOff o el rows e' t' + k') : e = e' ∧ t = t' ∧ k = k' := by
  unfold elemOff at h
  have hel : 0 < el := by omega
  have h0 : (e * rows + t) * el + k = (e' * rows + t') * el + k' := by omega
  have h1 : e * rows + t = e' * rows + t' := by
    have a1 : ((e * rows + t) * el + k) / el = e * rows + t := by
      rw [Nat.mul_comm, Nat.mul_add_div hel, Nat.div_eq_of_lt hk]; omega
    have a2 : ((e' * rows + t') * el + k') / el = e' * rows + t' := by
      rw [Nat.mul_comm, Nat.mul_add_div hel, Nat.div_eq_of_lt hk']; omega
    rw [← a1, ← a2, h0]
  have hr : 0 < rows := by omega
  have h2 : e = e' := by
    have a1 : (e * rows + t) / rows = e := by
      rw [Nat.mul_comm, Nat.mul_add_div hr, Nat.div_eq_of_lt ht]; omega
    have a2 : (e' * rows + t') / rows = e' := by
      rw [Nat.mul_comm, Nat.mul_add_div hr, Nat.div_eq_of_lt ht']; omega
    rw [← a1, ← a2, h1]
  subst h2
  have h3 : t = t' := by omega
  subst h3
  exact ⟨rfl, rfl, by omega⟩

/-! Arrays. -/

/-- The arrays of a tile in good order. -/
theorem mkArrs_get {n : Nat} : ∀ {f : List Col} {pd : List (Option Ptr)} {as : List (Option Arr)}, mkArrs n f pd = .ok as →
    ∀ c : Nat, as[c]? = match f[c]? with
      | none => none
      | some k => some (if k.ty = 0 then none else match pd[c]? with | some (some p) => some ⟨p, k.el, k.cells, n⟩ | _ => none)
  | [], _, as, h, c => by simp only [mkArrs, Res.ok.injEq] at h; subst h; simp
  | a :: f, pd, as, h, c => by
    simp only [mkArrs] at h
    split at h
    · rename_i ha
      obtain ⟨q, hq, he⟩ := Res.bind_eq_ok.mp h
      cases he
      cases c with
      | zero => simp [ha]
      | succ c =>
        simp only [List.getElem?_cons_succ]
        rw [mkArrs_get hq c]
        cases pd <;> simp
    · rename_i ha
      cases pd with
      | nil => cases h
      | cons p pd =>
        cases p with
        | none => cases h
        | some p =>
          obtain ⟨q, hq, he⟩ := Res.bind_eq_ok.mp h
          cases he
          cases c with
          | zero => simp [ha]
          | succ c => simp only [List.getElem?_cons_succ]; exact mkArrs_get hq c

theorem mkArrs_ok {n b : Nat} (m : Nat) : ∀ {f : List Col} (tot : Nat), FmtOk f →
    ∃ as, mkArrs n f ((layout tot m f).1.map (Option.map (Ptr.mk b))) = .ok as
  | [], _, _ => ⟨[], rfl⟩
  | a :: f, tot, h => by
    have ha := h a List.mem_cons_self
    have hf : FmtOk f := fun c hc => h c (List.mem_cons_of_mem _ hc)
    simp only [layout]
    by_cases hel : a.el = 0
    · obtain ⟨as, has⟩ := mkArrs_ok (n := n) (b := b) m tot hf
      refine ⟨none :: as, ?_⟩
      simp only [if_pos hel, List.map_cons, Option.map_none, mkArrs, if_pos (ha.mpr hel), List.tail_cons, has]
      rfl
    · obtain ⟨as, has⟩ := mkArrs_ok (n := n) (b := b) m (f := f)
        ((if tot % a.el = 0 then tot else tot + (a.el - tot % a.el)) + a.cell * m) hf
      refine ⟨some ⟨⟨b, if tot % a.el = 0 then tot else tot + (a.el - tot % a.el)⟩, a.el, a.cells, n⟩ :: as, ?_⟩
      simp only [if_neg hel, List.map_cons, Option.map_some, mkArrs, if_neg (fun e => hel (ha.mp e)), has]
      rfl

theorem mkArrs_ptrs {f : List Col} (n b m : Nat) (h : FmtOk f) : ∃ as, mkArrs n f (ptrs b f m) = .ok as := mkArrs_ok m hdrSize h

/-! The invariant. -/

/-- A tile whose pointers and header agree. -/
structure TileB (s : St) (T : Tile) : Prop where
  none_ : T.blk = none → T.nrow = 0 ∧ T.pd = [] ∧ ∀ f, T.fmt = some f → FmtOk f
  some_ : ∀ b, T.blk = some b → b < s.next ∧ 0 < T.nrow ∧ (s.heap b).rows = T.nrow ∧ (s.heap b).id = T.id ∧ hdrSize ≤ (s.heap b).size ∧
    (T.fmt = none → T.pd = []) ∧
    ∀ f, T.fmt = some f → FmtOk f ∧ T.pd = ptrs b f T.nrow ∧ (s.heap b).size = (layout hdrSize T.nrow f).2

/-- The arrays of a tile are those of its pointers. -/
def ArrsOk (T : Tile) : Prop := (T.fmt = none → T.arrs = []) ∧ ∀ f, T.fmt = some f → mkArrs T.nrow f T.pd = .ok T.arrs

def TileOk (s : St) (T : Tile) : Prop := TileB s T ∧ ArrsOk T

structure MsgOk (s : St) (m : Msg) : Prop where
  lt : m.blk < s.next
  size : hdrSize ≤ (s.heap m.blk).size
  fmt : ∀ f, m.fmt = some f → FmtOk f ∧ ((s.heap m.blk).rows ≠ 0 → (s.heap m.blk).size = (layout hdrSize (s.heap m.blk).rows f).2)

/-- In good order, but for the arrays of tile `i`. -/
structure InvB (s : St) (i : Nat) : Prop where
  base : ∀ j, TileB s (s.tile j)
  arrs : ∀ j, j ≠ i → ArrsOk (s.tile j)
  msgs : ∀ m ∈ s.msgs, MsgOk s m
  fresh : ∀ j, s.nt ≤ j → s.tile j = blank

structure Inv (s : St) : Prop where
  tiles : ∀ i, TileOk s (s.tile i)
  msgs : ∀ m ∈ s.msgs, MsgOk s m
  fresh : ∀ i, s.nt ≤ i → s.tile i = blank

theorem Inv.toB {s : St} (h : Inv s) (i : Nat) : InvB s i :=
  ⟨fun j => (h.tiles j).1, fun j _ => (h.tiles j).2, h.msgs, h.fresh⟩

theorem InvB.full {s : St} {i : Nat} (h : InvB s i) (ha : ArrsOk (s.tile i)) : Inv s :=
  ⟨fun j => ⟨h.base j, if e : j = i then e ▸ ha else h.arrs j e⟩, h.msgs, h.fresh⟩

theorem tileB_blank (s : St) : TileB s blank :=
  ⟨fun _ => ⟨rfl, rfl, fun f h => by cases h⟩, fun b h => by cases h⟩

theorem arrsOk_blank : ArrsOk blank := ⟨fun _ => rfl, fun f h => by cases h⟩

theorem inv_init : Inv St.init :=
  ⟨fun _ => ⟨tileB_blank _, arrsOk_blank⟩, fun m h => (by cases h), fun _ _ => rfl⟩

theorem TileB.mono {s s' : St} {T : Tile} (h : TileB s T) (hn : s.next ≤ s'.next)
    (hh : ∀ b, T.blk = some b → s'.heap b = s.heap b) : TileB s' T := by
  refine ⟨h.none_, fun b hb => ?_⟩
  have := h.some_ b hb
  rw [hh b hb]
  exact ⟨by omega, this.2⟩

/-- Only bytes of the block have changed. -/
theorem TileB.bytes {s s' : St} {T : Tile} (h : TileB s T) (hn : s.next ≤ s'.next)
    (hh : ∀ b, T.blk = some b → (s'.heap b).size = (s.heap b).size ∧ (s'.heap b).rows = (s.heap b).rows ∧ (s'.heap b).id = (s.heap b).id) :
    TileB s' T := by
  refine ⟨h.none_, fun b hb => ?_⟩
  have := h.some_ b hb
  obtain ⟨h1, h2, h3⟩ := hh b hb
  rw [h1, h2, h3]
  exact ⟨by omega, this.2⟩

theorem MsgOk.mono {s s' : St} {m : Msg} (h : MsgOk s m) (hn : s.next ≤ s'.next) (hh : s'.heap m.blk = s.heap m.blk) : MsgOk s' m := by
  obtain ⟨h1, h2, h3⟩ := h
  exact ⟨by omega, by rw [hh]; exact h2, by rw [hh]; exact h3⟩

/-- All but tile `i` is left alone. -/
structure Frame (s s' : St) (i : Nat) : Prop where
  nt : s'.nt = s.nt
  next : s.next ≤ s'.next
  tile : ∀ j, j ≠ i → s'.tile j = s.tile j
  msgs : s'.msgs = s.msgs
  heapT : ∀ j b, j ≠ i → (s.tile j).blk = some b → s'.heap b = s.heap b
  heapM : ∀ m ∈ s.msgs, s'.heap m.blk = s.heap m.blk

theorem Frame.refl (s : St) (i : Nat) : Frame s s i :=
  ⟨rfl, Nat.le_refl _, fun _ _ => rfl, rfl, fun _ _ _ _ => rfl, fun _ _ => rfl⟩

theorem Frame.trans {s s' s'' : St} {i : Nat} (h : Frame s s' i) (h' : Frame s' s'' i) : Frame s s'' i := by
  refine ⟨h'.nt.trans h.nt, Nat.le_trans h.next h'.next, ?_, h'.msgs.trans h.msgs, ?_, ?_⟩
  · intro j hj; rw [h'.tile j hj, h.tile j hj]
  · intro j b hj hb
    rw [h'.heapT j b hj (by rw [h.tile j hj]; exact hb), h.heapT j b hj hb]
  · intro m hmm
    rw [h'.heapM m (by rw [h.msgs]; exact hmm), h.heapM m hmm]

theorem InvB.frame {s s' : St} {i : Nat} (h : InvB s i) (hf : Frame s s' i) (hi : i < s.nt) (ht : TileB s' (s'.tile i)) : InvB s' i := by
  refine ⟨fun j => ?_, fun j e => ?_, fun m hm => ?_, fun j hj => ?_⟩
  · by_cases e : j = i
    · rw [e]; exact ht
    · rw [hf.tile j e]
      exact (h.base j).mono hf.next (fun b hb => hf.heapT j b e hb)
  · rw [hf.tile j e]; exact h.arrs j e
  · rw [hf.msgs] at hm
    exact (h.msgs m hm).mono hf.next (hf.heapM m hm)
  · rw [hf.nt] at hj
    rw [hf.tile j (by omega)]; exact h.fresh j hj

theorem live_of_tile {s : St} {i b : Nat} (hi : i < s.nt) (hb : (s.tile i).blk = some b) : live s b = true := by
  unfold live
  rw [Bool.or_eq_true]
  left
  rw [List.any_eq_true]
  exact ⟨i, List.mem_range.mpr hi, by simpa using hb⟩

/-- What the arrays of a tile show. -/
def view (T : Tile) (h : Nat → Block) (c e t k : Nat) : Res Nat :=
  match T.blk, T.fmt.bind (·[c]?) with
  | some b, some col =>
    if col.ty ≠ 0 ∧ e < col.cells ∧ t < T.nrow ∧ k < col.el then
      .ok ((h b).mem (elemOff (colOff (T.fmt.getD []) T.nrow c) col.el T.nrow e t + k))
    else .ub
  | _, _ => .ub

theorem fmtOk_get {f : List Col} (h : FmtOk f) {c : Nat} {k : Col} (hc : f[c]? = some k) : k.ty = 0 ↔ k.el = 0 :=
  h k (List.mem_of_getElem? hc)

theorem arrs_get {s : St} {T : Tile} (h : TileOk s T) {b : Nat} (hb : T.blk = some b) (c : Nat) :
    T.arrs[c]? = match T.fmt.bind (·[c]?) with
      | none => none
      | some k => some (if k.ty = 0 then none else some ⟨⟨b, colOff (T.fmt.getD []) T.nrow c⟩, k.el, k.cells, T.nrow⟩) := by
  obtain ⟨_, h1, h2, h3, _, h4, h5⟩ := h.1.some_ b hb
  cases hf : T.fmt with
  | none => rw [h.2.1 hf]; simp
  | some f =>
    obtain ⟨g1, g2, g3⟩ := h5 f hf
    rw [mkArrs_get (h.2.2 f hf) c]
    simp only [Option.bind_some, Option.getD_some]
    cases hc : f[c]? with
    | none => rfl
    | some k =>
      simp only
      rw [g2, ptrs_get hc]
      have := fmtOk_get g1 hc
      by_cases hk : k.ty = 0
      · simp [hk]
      · have hel : k.el ≠ 0 := fun e => hk (this.mpr e)
        simp only [if_neg hk, if_neg hel]

theorem get_view {s : St} (h : Inv s) {i : Nat} (hi : i < s.nt) (c e t k : Nat) :
    get s i c e t k = view (s.tile i) s.heap c e t k := by
  unfold get view
  have ht := h.tiles i
  cases hb : (s.tile i).blk with
  | none =>
    obtain ⟨h1, h2, h4⟩ := ht.1.none_ hb
    cases hf : (s.tile i).fmt with
    | none => rw [ht.2.1 hf]; simp
    | some f =>
      have g2 := ht.2.2 f hf
      rw [mkArrs_get g2 c, h2]
      cases hc : f[c]? with
      | none => simp
      | some k => by_cases hk : k.ty = 0 <;> simp [hk]
  | some b =>
    rw [arrs_get ht hb]
    cases hf : (s.tile i).fmt.bind (·[c]?) with
    | none => simp
    | some col =>
      simp only
      by_cases hk : col.ty = 0
      · simp [hk]
      · rw [if_neg hk]
        simp only [ne_eq, hk, not_false_eq_true, true_and]
        by_cases hr : e < col.cells ∧ t < (s.tile i).nrow ∧ k < col.el
        · rw [if_pos hr, if_pos hr, if_pos]
          refine ⟨live_of_tile hi hb, ?_⟩
          obtain ⟨_, h1, h2, h3, _, h4, h5⟩ := ht.1.some_ b hb
          obtain ⟨f, hff, hc⟩ := Option.bind_eq_some_iff.mp hf
          obtain ⟨g1, g2, g3⟩ := h5 f hff
          rw [g3, hff]
          simp only [Option.getD_some]
          have hel : col.el ≠ 0 := by omega
          have e1 := colOff_end (n := (s.tile i).nrow) hc hel
          have e2 := (elem_in (o := colOff f (s.tile i).nrow c) (el := col.el) hr.1 hr.2.1).2
          unfold Col.cell at e1
          omega
        · rw [if_neg hr, if_neg hr]

theorem view_congr {T T' : Tile} {h h' : Nat → Block} (h1 : T'.fmt = T.fmt) (h2 : T'.nrow = T.nrow)
    (h3 : T.blk = none → T'.blk = none) (h4 : ∀ b, T.blk = some b → ∃ b', T'.blk = some b' ∧ (h' b').mem = (h b).mem) (c e t k : Nat) :
    view T' h' c e t k = view T h c e t k := by
  unfold view
  rw [h1, h2]
  cases hb : T.blk with
  | none => rw [h3 hb]
  | some b =>
    obtain ⟨b', g1, g2⟩ := h4 b hb
    rw [g1]
    cases T.fmt.bind (·[c]?) with
    | none => rfl
    | some k => simp only [g2]

theorem Frame.view {s s' : St} {i j : Nat} (hf : Frame s s' i) (hne : j ≠ i) (c e t k : Nat) :
    view (s'.tile j) s'.heap c e t k = view (s.tile j) s.heap c e t k := by
  rw [hf.tile j hne]
  exact view_congr rfl rfl id (fun b hb => ⟨b, hb, by rw [hf.heapT j b hne hb]⟩) c e t k

theorem Frame.get {s s' : St} {i j : Nat} (h : Inv s) (h' : Inv s') (hf : Frame s s' i) (hj : j < s.nt) (hne : j ≠ i) (c e t k : Nat) :
    get s' j c e t k = get s j c e t k := by
  rw [get_view h' (by rw [hf.nt]; exact hj), get_view h hj, hf.view hne]

/-! Writing. -/

theorem sole_iff {s : St} {i b : Nat} :
    sole s i b = true ↔ (∀ j < s.nt, j ≠ i → (s.tile j).blk ≠ some b) ∧ ∀ m ∈ s.msgs, m.blk ≠ b := by
  unfold sole
  simp only [Bool.and_eq_true, List.all_eq_true, List.mem_range, Bool.or_eq_true, decide_eq_true_eq]
  constructor
  · rintro ⟨h1, h2⟩
    exact ⟨fun j hj hne => (h1 j hj).resolve_left hne, h2⟩
  · rintro ⟨h1, h2⟩
    exact ⟨fun j hj => if e : j = i then .inl e else .inr (h1 j hj e), h2⟩

theorem setT_self (s : St) (i : Nat) (T : Tile) : (setT s i T).tile i = T := by simp [setT]
theorem setT_other (s : St) {i j : Nat} (T : Tile) (h : j ≠ i) : (setT s i T).tile j = s.tile j := by simp [setT, h]

/-- A change of the tile only. -/
theorem frame_setT (s : St) (i : Nat) (T : Tile) : Frame s (setT s i T) i :=
  ⟨rfl, Nat.le_refl _, fun _ h => setT_other s T h, rfl, fun _ _ _ _ => rfl, fun _ _ => rfl⟩

/-- The tile is given a new block. -/
theorem upd {s : St} {i : Nat} (h : InvB s i) (hi : i < s.nt) (B : Block) {T : Tile} (hT : T.blk = some s.next)
    (hb : TileB (alloc s B) T) :
    InvB (setT (alloc s B) i T) i ∧ Frame s (setT (alloc s B) i T) i ∧ Unshared (setT (alloc s B) i T) i := by
  have hf : Frame s (setT (alloc s B) i T) i := by
    refine ⟨rfl, Nat.le_succ _, fun _ h => setT_other _ T h, rfl, fun j b _ hb => ?_, fun m hm => ?_⟩
    · have := ((h.base j).some_ b hb).1
      simp only [setT, alloc]
      rw [if_neg (by omega)]
    · have := (h.msgs m hm).lt
      simp only [setT, alloc]
      rw [if_neg (by omega)]
  refine ⟨h.frame hf hi ?_, hf, ?_⟩
  · rw [setT_self]
    exact hb.mono (Nat.le_refl _) (fun _ _ => rfl)
  · intro b hb
    rw [setT_self, hT] at hb
    cases hb
    refine ⟨fun j _ hne => ?_, fun m hm => ?_⟩
    · rw [setT_other _ _ hne]
      intro hb
      have := ((h.base j).some_ _ hb).1
      omega
    · have := (h.msgs m hm).lt
      omega

/-- The same contents. -/
structure Same (s s' : St) (i : Nat) : Prop where
  fmt : (s'.tile i).fmt = (s.tile i).fmt
  nrow : (s'.tile i).nrow = (s.tile i).nrow
  id : (s'.tile i).id = (s.tile i).id
  none_ : (s.tile i).blk = none → (s'.tile i).blk = none
  some_ : ∀ b, (s.tile i).blk = some b → ∃ b', (s'.tile i).blk = some b' ∧ s'.heap b' = s.heap b

theorem Same.refl (s : St) (i : Nat) : Same s s i := ⟨rfl, rfl, rfl, fun h => h, fun b h => ⟨b, h, rfl⟩⟩

theorem Same.view {s s' : St} {i : Nat} (h : Same s s' i) (c e t k : Nat) :
    view (s'.tile i) s'.heap c e t k = view (s.tile i) s.heap c e t k :=
  view_congr h.fmt h.nrow h.none_ (fun b hb => by obtain ⟨b', h1, h2⟩ := h.some_ b hb; exact ⟨b', h1, by rw [h2]⟩) c e t k

theorem mw {s s1 : St} {i : Nat} {ch : Bool} (h : InvB s i) (hi : i < s.nt) (hm : makeWritable s i = .ok (s1, ch)) :
    InvB s1 i ∧ Frame s s1 i ∧ Unshared s1 i ∧ Same s s1 i ∧ (ch = false → s1 = s) ∧
      (ch = true → (s1.tile i).fmt.isSome ∧ ¬ Unshared s i) := by
  unfold makeWritable at hm
  dsimp only at hm
  cases hb : (s.tile i).blk with
  | none =>
    simp only [hb, Res.ok.injEq, Prod.mk.injEq] at hm
    obtain ⟨rfl, rfl⟩ := hm
    exact ⟨h, .refl _ _, (fun b e => by rw [hb] at e; cases e), .refl _ _, fun _ => rfl, (fun e => by cases e)⟩
  | some b =>
    simp only [hb] at hm
    split at hm
    · rename_i hs
      simp only [Res.ok.injEq, Prod.mk.injEq] at hm
      obtain ⟨rfl, rfl⟩ := hm
      refine ⟨h, .refl _ _, fun b' e => ?_, .refl _ _, fun _ => rfl, fun e => by cases e⟩
      rw [hb] at e; cases e
      exact sole_iff.mp hs
    · rename_i hs
      split at hm
      · cases hm
      · rename_i f hf
        simp only [Res.ok.injEq, Prod.mk.injEq] at hm
        obtain ⟨rfl, rfl⟩ := hm
        obtain ⟨g1, g2, g3, g4, g5, g6, g7⟩ := (h.base i).some_ b hb
        have ht : TileB (alloc s (s.heap b)) { s.tile i with blk := some s.next, pd := ptrs s.next f (s.tile i).nrow } := by
          refine ⟨(fun e => by cases e), fun b' e => ?_⟩
          cases e
          simp only [alloc, if_true]
          refine ⟨Nat.lt_succ_self _, g2, g3, g4, g5, (fun e => by rw [hf] at e; cases e), fun f' e => ?_⟩
          obtain ⟨k1, k2, k3⟩ := g7 f' e
          rw [hf] at e; cases e
          exact ⟨k1, rfl, k3⟩
        obtain ⟨i1, i2, i3⟩ := upd h hi (s.heap b) rfl ht
        refine ⟨i1, i2, i3, ⟨?_, ?_, ?_, fun e => ?_, fun b' e => ?_⟩, (fun e => by cases e), fun _ => ⟨?_, ?_⟩⟩
        · rw [setT_self]
        · rw [setT_self]
        · rw [setT_self]
        · rw [hb] at e; cases e
        · rw [hb] at e; cases e
          refine ⟨s.next, by rw [setT_self], ?_⟩
          simp [setT, alloc]
        · rw [setT_self]; simp [hf]
        · intro hu
          exact hs (sole_iff.mpr (hu b hb))

theorem unshared_mw {s : St} {i : Nat} (hu : Unshared s i) : makeWritable s i = .ok (s, false) := by
  unfold makeWritable
  dsimp only
  cases hb : (s.tile i).blk with
  | none => rfl
  | some b => simp only [sole_iff.mpr (hu b hb), if_true]

theorem ia {s s' : St} {i : Nat} (h : InvB s i) (hi : i < s.nt) (ha : initArrays s i = .ok s') :
    Inv s' ∧ Frame s s' i ∧ Same s s' i ∧ s'.heap = s.heap ∧ (s'.tile i).blk = (s.tile i).blk ∧ (s'.tile i).pd = (s.tile i).pd := by
  unfold initArrays at ha
  dsimp only at ha
  split at ha
  · cases ha
  · rename_i f hf
    obtain ⟨as, h1, h2⟩ := Res.bind_eq_ok.mp ha
    cases h2
    have hfr := frame_setT s i { s.tile i with arrs := as }
    have hB := h.frame hfr hi (by
      rw [setT_self]
      exact ⟨(h.base i).none_, (h.base i).some_⟩)
    refine ⟨hB.full ?_, hfr, ⟨?_, ?_, ?_, fun e => ?_, fun b e => ⟨b, ?_, rfl⟩⟩, rfl, ?_, ?_⟩
    · rw [setT_self]
      refine ⟨(fun e => by rw [hf] at e; cases e), fun f' e => ?_⟩
      rw [hf] at e; cases e; exact h1
    all_goals rw [setT_self]
    · exact e
    · exact e

/-- Arrays can be set up for a tile with rows. -/
theorem ia_ok {s : St} {i b : Nat} {f : List Col} (h : InvB s i) (hb : (s.tile i).blk = some b) (hf : (s.tile i).fmt = some f) :
    ∃ s', initArrays s i = .ok s' := by
  obtain ⟨_, _, _, _, _, _, g7⟩ := (h.base i).some_ b hb
  obtain ⟨k1, k2, _⟩ := g7 f hf
  obtain ⟨as, ha⟩ := mkArrs_ptrs (s.tile i).nrow b (s.tile i).nrow k1
  refine ⟨setT s i { s.tile i with arrs := as }, ?_⟩
  unfold initArrays
  simp only [hf, k2, ha, Res.ok_bind]

theorem Unshared.frame {s s' : St} {i : Nat} (hu : Unshared s i) (hf : Frame s s' i) (hb : (s'.tile i).blk = (s.tile i).blk) :
    Unshared s' i := by
  intro b e
  rw [hb] at e
  refine ⟨fun j hj hne => ?_, fun m hm => ?_⟩
  · rw [hf.tile j hne]
    rw [hf.nt] at hj
    exact (hu b e).1 j hj hne
  · rw [hf.msgs] at hm
    exact (hu b e).2 m hm

theorem Same.trans {s s' s'' : St} {i : Nat} (h : Same s s' i) (h' : Same s' s'' i) : Same s s'' i := by
  refine ⟨h'.fmt.trans h.fmt, h'.nrow.trans h.nrow, h'.id.trans h.id, fun e => h'.none_ (h.none_ e), fun b e => ?_⟩
  obtain ⟨b', h1, h2⟩ := h.some_ b e
  obtain ⟨b'', h3, h4⟩ := h'.some_ b' h1
  exact ⟨b'', h3, h4.trans h2⟩

theorem vmw {s s1 : St} {i : Nat} (h : Inv s) (hi : i < s.nt) (hm : vMakeWritable s i = .ok s1) :
    Inv s1 ∧ Frame s s1 i ∧ Unshared s1 i ∧ Same s s1 i := by
  unfold vMakeWritable at hm
  obtain ⟨⟨s0, ch⟩, h1, h2⟩ := Res.bind_eq_ok.mp hm
  obtain ⟨i1, i2, i3, i4, i5, i6⟩ := mw (h.toB i) hi h1
  simp only at h2
  cases ch with
  | false =>
    simp only [Bool.false_eq_true, if_false, Res.ok.injEq] at h2
    subst h2
    have e := i5 rfl
    subst e
    exact ⟨h, i2, i3, i4⟩
  | true =>
    simp only [if_true] at h2
    obtain ⟨k1, k2, k3, k4, k5, _⟩ := ia i1 (by rw [i2.nt]; exact hi) h2
    exact ⟨k1, i2.trans k2, i3.frame k2 k5, i4.trans k3⟩

theorem vmw_ok {s : St} {i b : Nat} {f : List Col} (h : Inv s) (hi : i < s.nt) (hb : (s.tile i).blk = some b)
    (hf : (s.tile i).fmt = some f) : ∃ s', vMakeWritable s i = .ok s' := by
  unfold vMakeWritable
  have : ∃ q, makeWritable s i = .ok q := by
    unfold makeWritable
    simp only [hb, hf]
    split <;> exact ⟨_, rfl⟩
  obtain ⟨⟨s0, ch⟩, hq⟩ := this
  rw [hq, Res.ok_bind]
  cases ch with
  | false => exact ⟨_, rfl⟩
  | true =>
    obtain ⟨i1, i2, i3, i4, i5, i6⟩ := mw (h.toB i) hi hq
    obtain ⟨b', h1, _⟩ := i4.some_ b hb
    exact ia_ok i1 h1 (i4.fmt.trans hf)

end Verif.VTile
