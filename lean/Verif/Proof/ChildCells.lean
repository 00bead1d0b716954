import Verif.Spec.ChildCells
import Verif.Proof.Vells
import Mathlib.Tactic.Positivity
import Mathlib.Tactic.Linarith
/-! # Lemmas about cells of children -/
namespace Verif.ChildCells
open Verif.Vells (ext mergeShape join merge_some merge_none ext_of_le)

theorem near_refl (a : ℚ) : Near a a := by
  unfold Near
  rw [sub_self, abs_zero, max_self]
  positivity

theorem near_of_not_far (a b : ℚ) (h : far a b = false) : Near a b := by
  unfold far at h
  unfold Near
  exact not_lt.1 (of_decide_eq_false h)

theorem axisStep_spec (re ce : Nat) (acc new r : Option Ax) (c : Bool) (h : axisStep re ce acc new = some (r, c)) :
    (new = none ∧ r = acc ∧ c = false) ∨ (∃ y, new = some y ∧ r = some y ∧ c = true ∧ (acc = none ∨ (re = 1 ∧ 1 < ce))) ∨
    (∃ x y, acc = some x ∧ new = some y ∧ r = some x ∧ c = false ∧ ((re = 1 ∧ ¬ 1 < ce) ∨ (re ≠ 1 ∧ ce = 1) ∨ (re ≠ 1 ∧ ce ≠ 1 ∧ x.n = y.n ∧ far x.s y.s = false ∧ far x.e y.e = false))) := by
  unfold axisStep at h
  cases new with
  | none => cases h; exact Or.inl ⟨rfl, rfl, rfl⟩
  | some y =>
    cases acc with
    | none => cases h; exact Or.inr (Or.inl ⟨y, rfl, rfl, rfl, Or.inl rfl⟩)
    | some x =>
      dsimp only at h
      by_cases h1 : re = 1
      · rw [if_pos h1] at h
        by_cases h2 : 1 < ce
        · rw [if_pos h2] at h; cases h; exact Or.inr (Or.inl ⟨y, rfl, rfl, rfl, Or.inr ⟨h1, h2⟩⟩)
        · rw [if_neg h2] at h; cases h; exact Or.inr (Or.inr ⟨x, y, rfl, rfl, rfl, rfl, Or.inl ⟨h1, h2⟩⟩)
      · rw [if_neg h1] at h
        by_cases h2 : ce = 1
        · rw [if_pos h2] at h; cases h; exact Or.inr (Or.inr ⟨x, y, rfl, rfl, rfl, rfl, Or.inr (Or.inl ⟨h1, h2⟩)⟩)
        · rw [if_neg h2] at h
          by_cases h3 : x.n ≠ y.n
          · rw [if_pos h3] at h; cases h
          · rw [if_neg h3] at h
            by_cases h4 : (far x.s y.s || far x.e y.e) = true
            · rw [if_pos h4] at h; cases h
            · rw [if_neg h4] at h
              cases h
              simp only [Bool.or_eq_true, not_or, Bool.not_eq_true] at h4
              exact Or.inr (Or.inr ⟨x, y, rfl, rfl, rfl, rfl, Or.inr (Or.inr ⟨h1, h2, by simpa using h3, h4.1, h4.2⟩)⟩)

theorem axLoop_spec (rs cs : List Nat) (cc : Nat → Option Ax) (l : List Nat) (ax ax' : Nat → Option Ax) (ch ch' : Bool) (hn : l.Nodup)
    (h : axLoop rs cs cc l ax ch = some (ax', ch')) :
    (∀ i, i ∈ l → ∃ c, axisStep (ext rs i) (ext cs i) (ax i) (cc i) = some (ax' i, c) ∧ (c = true → ch' = true)) ∧ (∀ i, i ∉ l → ax' i = ax i) ∧ (ch = true → ch' = true) ∧
      (ch' = true → ch = true ∨ ∃ i, i ∈ l ∧ axisStep (ext rs i) (ext cs i) (ax i) (cc i) = some (ax' i, true)) := by
  induction l generalizing ax ch with
  | nil => cases h; exact ⟨by simp, fun _ _ => rfl, id, fun h => Or.inl h⟩
  | cons i l ih =>
    unfold axLoop at h
    cases hs : axisStep (ext rs i) (ext cs i) (ax i) (cc i) with
    | none => rw [hs] at h; cases h
    | some p =>
      obtain ⟨x, c⟩ := p
      rw [hs] at h
      dsimp only at h
      rw [List.nodup_cons] at hn
      obtain ⟨h1, h2, h3, h4⟩ := ih _ _ hn.2 h
      have hx : ax' i = x := by rw [h2 i hn.1]; simp
      have hj : ∀ j, j ∈ l → (if j = i then x else ax j) = ax j := fun j hj => by rw [if_neg]; rintro rfl; exact hn.1 hj
      refine ⟨fun j hj' => ?_, fun j hj' => ?_, fun hc => h3 (by simp [hc]), fun hc => ?_⟩
      · rcases List.mem_cons.1 hj' with rfl | hm
        · exact ⟨c, by rw [hx, hs], fun hc => h3 (by simp [hc])⟩
        · obtain ⟨c', e, e2⟩ := h1 j hm
          rw [hj j hm] at e
          exact ⟨c', e, e2⟩
      · have hne : j ≠ i := fun e => hj' (by rw [e]; simp)
        rw [h2 j (fun hm => hj' (List.mem_cons_of_mem _ hm)), if_neg hne]
      · rcases h4 hc with h5 | ⟨j, hm, e⟩
        · cases ch with
          | true => exact Or.inl rfl
          | false =>
            refine Or.inr ⟨i, by simp, ?_⟩
            have : c = true := by simpa using h5
            rw [hs, hx, this]
        · rw [hj j hm] at e
          exact Or.inr ⟨j, List.mem_cons_of_mem _ hm, e⟩

theorem axLoop_none (rs cs : List Nat) (cc : Nat → Option Ax) (l : List Nat) (ax : Nat → Option Ax) (ch : Bool) (hn : l.Nodup)
    (h : ∀ i, i ∈ l → axisStep (ext rs i) (ext cs i) (ax i) (cc i) ≠ none) : axLoop rs cs cc l ax ch ≠ none := by
  induction l generalizing ax ch with
  | nil => simp [axLoop]
  | cons i l ih =>
    unfold axLoop
    rw [List.nodup_cons] at hn
    cases hs : axisStep (ext rs i) (ext cs i) (ax i) (cc i) with
    | none => exact absurd hs (h i (by simp))
    | some p =>
      obtain ⟨x, c⟩ := p
      dsimp only
      refine ih _ _ hn.2 fun j hj => ?_
      rw [if_neg (show j ≠ i by rintro rfl; exact hn.1 hj)]
      exact h j (List.mem_cons_of_mem _ hj)

/-- What is known after some children: `done` are those that were compared, all those that had cells in `seen`. -/
structure CInv (a : Acc) (done seen : List Child) : Prop where
  right : ∀ c ∈ done, Right a.ax c
  shape : ∀ c ∈ done, ∀ i, ext c.shape i ≠ 1 → ext a.shape i = ext c.shape i
  from_ : ∀ i, ext a.shape i ≠ 1 → ∃ c ∈ done, ext c.shape i = ext a.shape i ∧ a.ax i = c.ax i
  axes : ∀ i x, a.ax i = some x → ∃ c ∈ seen, c.ax i = some x
  same : ∀ k, a.id = some k → ∃ c ∈ seen, c.id = k ∧ a.ax = c.ax
  sub : ∀ c ∈ done, c ∈ seen

theorem join_some (a b m : Nat) (h : join a b = some m) : (a ≠ 1 → m = a) ∧ (b ≠ 1 → m = b) ∧ (a = 1 → m = b) ∧ (b = 1 → m = a) := by
  unfold join at h
  split at h
  · cases h; rename_i h1; exact ⟨fun h => absurd h1 h, fun _ => rfl, fun _ => rfl, fun h => by rw [h, h1]⟩
  · split at h
    · cases h; rename_i h0 h1; exact ⟨fun _ => rfl, fun h => absurd h1 h, fun h => absurd h h0, fun _ => rfl⟩
    · split at h
      · cases h; rename_i h0 h1 h2; exact ⟨fun _ => rfl, fun _ => h2, fun h => absurd h h0, fun h => absurd h h1⟩
      · cases h

/-- One child that is compared. -/
theorem cinv_compare (a a' : Acc) (done seen : List Child) (c : Child) (hc : Conforms c) (ha : CInv a done seen) (hne : a.id ≠ some c.id)
    (h : childStep (some a) (some c) = some (some a')) : CInv a' (c :: done) (c :: seen) := by
  unfold childStep at h
  dsimp only at h
  rw [if_neg hne] at h
  cases hl : axLoop a.shape c.shape c.ax (List.range (max a.shape.length c.shape.length)) a.ax false with
  | none => rw [hl] at h; cases h
  | some p =>
    obtain ⟨ax, ch⟩ := p
    rw [hl] at h
    dsimp only at h
    cases hm : mergeShape a.shape c.shape with
    | none => rw [hm] at h; cases h
    | some m =>
      rw [hm] at h
      cases h
      obtain ⟨l1, l2, -, l4⟩ := axLoop_spec _ _ _ _ _ _ _ _ List.nodup_range hl
      obtain ⟨-, hj⟩ := (merge_some _ _ _).1 hm
      -- along an axis on which either varies, what the step did
      have hin : ∀ i, ext a.shape i ≠ 1 ∨ ext c.shape i ≠ 1 → i ∈ List.range (max a.shape.length c.shape.length) := by
        intro i hi
        rw [List.mem_range]
        by_contra hcon
        rcases hi with hi | hi
        · exact hi (ext_of_le _ _ (by omega))
        · exact hi (ext_of_le _ _ (by omega))
      -- if the shape so far varies, the axis stays
      have hstay : ∀ i, ext a.shape i ≠ 1 → ax i = a.ax i := by
        intro i hi
        obtain ⟨k, e, -⟩ := l1 i (hin i (Or.inl hi))
        obtain ⟨d, hd, hd1, hd2⟩ := ha.from_ i hi
        obtain ⟨x, y, hx, -⟩ := ha.right d hd i (by rw [hd1]; exact hi)
        rcases axisStep_spec _ _ _ _ _ _ e with ⟨-, e1, -⟩ | ⟨y', -, -, -, e4⟩ | ⟨x', y', e1, -, e3, -⟩
        · exact e1
        · rcases e4 with e4 | e4
          · rw [hx] at e4; cases e4
          · exact absurd e4.1 hi
        · rw [e3, e1]
      have hright : Right ax c := by
        intro i hi
        obtain ⟨hgt, y, hy, hyn⟩ := hc i hi
        obtain ⟨k, e, -⟩ := l1 i (hin i (Or.inr hi))
        rcases axisStep_spec _ _ _ _ _ _ e with ⟨e1, -, -⟩ | ⟨y', e1, e2, -, -⟩ | ⟨x', y', e1, e2, e3, -, e5⟩
        · rw [hy] at e1; cases e1
        · rw [hy] at e1; cases e1
          exact ⟨y, y, e2, hy, rfl, near_refl _, near_refl _⟩
        · rw [hy] at e2; cases e2
          rcases e5 with e5 | e5 | e5
          · exact absurd hgt e5.2
          · exact absurd e5.2 hi
          · exact ⟨x', y, e3, hy, e5.2.2.1, near_of_not_far _ _ e5.2.2.2.1, near_of_not_far _ _ e5.2.2.2.2⟩
      refine ⟨fun d hd => ?_, fun d hd i hi => ?_, fun i hi => ?_, fun i x hx => ?_, fun k hk => ?_, fun d hd => ?_⟩
      · rcases List.mem_cons.1 hd with rfl | hd
        · exact hright
        · intro i hi
          have := ha.shape d hd i hi
          dsimp only
          rw [hstay i (by rw [this]; exact hi)]
          exact ha.right d hd i hi
      · dsimp only
        rcases List.mem_cons.1 hd with rfl | hd
        · exact (join_some _ _ _ (hj i)).2.1 hi
        · have := ha.shape d hd i hi
          rw [(join_some _ _ _ (hj i)).1 (by rw [this]; exact hi), this]
      · dsimp only at hi ⊢
        by_cases hai : ext a.shape i = 1
        · have hmi := (join_some _ _ _ (hj i)).2.2.1 hai
          have hci : ext c.shape i ≠ 1 := by rw [← hmi]; exact hi
          refine ⟨c, by simp, hmi.symm, ?_⟩
          obtain ⟨hgt, y, hy, hyn⟩ := hc i hci
          obtain ⟨k, e, -⟩ := l1 i (hin i (Or.inr hci))
          rcases axisStep_spec _ _ _ _ _ _ e with ⟨e1, -, -⟩ | ⟨y', e1, e2, -, -⟩ | ⟨x', y', e1, e2, e3, -, e5⟩
          · rw [hy] at e1; cases e1
          · rw [e1, e2]
          · rcases e5 with e5 | e5 | e5
            · exact absurd hgt e5.2
            · exact absurd hai e5.1
            · exact absurd hai e5.1
        · obtain ⟨d, hd, hd1, hd2⟩ := ha.from_ i hai
          refine ⟨d, List.mem_cons_of_mem _ hd, ?_, ?_⟩
          · rw [hd1, (join_some _ _ _ (hj i)).1 hai]
          · rw [hstay i hai, hd2]
      · dsimp only at hx
        by_cases hi : i ∈ List.range (max a.shape.length c.shape.length)
        · obtain ⟨k, e, -⟩ := l1 i hi
          rcases axisStep_spec _ _ _ _ _ _ e with ⟨-, e1, -⟩ | ⟨y', e1, e2, -, -⟩ | ⟨x', y', e1, e2, e3, -⟩
          · rw [hx] at e1
            obtain ⟨d, hd, e3⟩ := ha.axes i x e1.symm
            exact ⟨d, List.mem_cons_of_mem _ hd, e3⟩
          · rw [hx] at e2; cases e2
            exact ⟨c, by simp, e1⟩
          · rw [hx] at e3; cases e3
            obtain ⟨d, hd, e3⟩ := ha.axes i x e1
            exact ⟨d, List.mem_cons_of_mem _ hd, e3⟩
        · rw [l2 i hi] at hx
          obtain ⟨d, hd, e3⟩ := ha.axes i x hx
          exact ⟨d, List.mem_cons_of_mem _ hd, e3⟩
      · cases ch with
        | true => cases hk
        | false =>
          have hk' : a.id = some k := by simpa using hk
          obtain ⟨d, hd, e1, e2⟩ := ha.same k hk'
          refine ⟨d, List.mem_cons_of_mem _ hd, e1, ?_⟩
          rw [← e2]
          funext i
          dsimp only
          by_cases hi : i ∈ List.range (max a.shape.length c.shape.length)
          · obtain ⟨k', e, hk2⟩ := l1 i hi
            have hkf : k' = false := by
              cases k' with
              | false => rfl
              | true => exact absurd (hk2 rfl) (by simp)
            subst hkf
            rcases axisStep_spec _ _ _ _ _ _ e with ⟨-, e1, -⟩ | ⟨y', -, -, e3, -⟩ | ⟨x', y', e1, e2, e3, -⟩
            · exact e1
            · cases e3
            · rw [e3, e1]
          · exact l2 i hi
      · rcases List.mem_cons.1 hd with rfl | hd
        · simp
        · exact List.mem_cons_of_mem _ (ha.sub d hd)

theorem cinv_first (c : Child) (hc : Conforms c) : CInv ⟨some c.id, c.ax, c.shape⟩ [c] [c] := by
  refine ⟨fun d hd => ?_, fun d hd i _ => ?_, fun i _ => ⟨c, by simp, rfl, rfl⟩, fun i x hx => ⟨c, by simp, hx⟩, fun k hk => ⟨c, by simp, by injection hk, rfl⟩, fun d hd => hd⟩
  · rw [List.mem_singleton] at hd; subst hd
    intro i hi
    obtain ⟨-, y, hy, -⟩ := hc i hi
    exact ⟨y, y, hy, hy, rfl, near_refl _, near_refl _⟩
  · rw [List.mem_singleton] at hd; subst hd; rfl

theorem cinv_skip (a : Acc) (done seen : List Child) (c : Child) (ha : CInv a done seen) : CInv a done (c :: seen) :=
  ⟨ha.right, ha.shape, ha.from_, fun i x hx => (ha.axes i x hx).imp fun _ hd => ⟨List.mem_cons_of_mem _ hd.1, hd.2⟩,
    fun k hk => (ha.same k hk).imp fun _ hd => ⟨List.mem_cons_of_mem _ hd.1, hd.2⟩, fun d hd => List.mem_cons_of_mem _ (ha.sub d hd)⟩

/-- The children with cells. -/
def present (l : List (Option Child)) : List Child := l.filterMap id

/-- The loop from some state on. -/
theorem childLoop_from (l : List (Option Child)) (a : Acc) (done seen : List Child) (r : Option Acc) (first : Nat) (hl : ∀ c ∈ present l, Conforms c)
    (ha : CInv a done seen) (hid : ∀ k, a.id = some k → k = first) (h : childLoop (some a) l = some r) :
    ∃ b done' seen', r = some b ∧ CInv b done' seen' ∧ (∀ c ∈ done, c ∈ done') ∧ (∀ c ∈ present l, c.id ≠ first → c ∈ done') ∧ (∀ c ∈ seen', c ∈ seen ∨ c ∈ present l) ∧
      (∀ k, b.id = some k → k = first) ∧ (a.id = some first → (∀ c ∈ present l, c.id = first) → b = a) := by
  induction l generalizing a done seen with
  | nil => cases h; exact ⟨a, done, seen, rfl, ha, fun _ h => h, (fun _ h => by cases h), fun _ h => Or.inl h, hid, fun _ _ => rfl⟩
  | cons c l ih =>
    unfold childLoop at h
    cases c with
    | none =>
      have : childStep (some a) none = some (some a) := rfl
      rw [this] at h
      exact ih a done seen hl ha hid h
    | some c =>
      have hp : present (some c :: l) = c :: present l := rfl
      rw [hp] at hl ⊢
      have hl' : ∀ d ∈ present l, Conforms d := fun d hd => hl d (List.mem_cons_of_mem _ hd)
      by_cases hs : a.id = some c.id
      · have : childStep (some a) (some c) = some (some a) := by unfold childStep; dsimp only; rw [if_pos hs]
        rw [this] at h
        obtain ⟨b, d', s', e1, e2, e3, e4, e5, e6, e7⟩ := ih a done (c :: seen) hl' (cinv_skip a done seen c ha) hid h
        refine ⟨b, d', s', e1, e2, e3, fun d hd hne => ?_, fun d hd => ?_, e6, fun h1 h2 => e7 h1 fun d hd => h2 d (List.mem_cons_of_mem _ hd)⟩
        · rcases List.mem_cons.1 hd with rfl | hd
          · exact absurd (hid _ hs) hne
          · exact e4 d hd hne
        · rcases e5 d hd with h1 | h1
          · rcases List.mem_cons.1 h1 with rfl | h1
            · exact Or.inr (by simp)
            · exact Or.inl h1
          · exact Or.inr (List.mem_cons_of_mem _ h1)
      · cases hst : childStep (some a) (some c) with
        | none => rw [hst] at h; cases h
        | some r1 =>
          rw [hst] at h
          dsimp only at h
          have hsome : ∃ a', r1 = some a' ∧ (∀ k, a'.id = some k → a.id = some k) := by
            unfold childStep at hst
            dsimp only at hst
            rw [if_neg hs] at hst
            split at hst
            · cases hst
            · split at hst
              · cases hst
              · cases hst
                refine ⟨_, rfl, fun k hk => ?_⟩
                dsimp only at hk
                split at hk
                · cases hk
                · exact hk
          obtain ⟨a', rfl, hid'⟩ := hsome
          obtain ⟨b, d', s', e1, e2, e3, e4, e5, e6, e7⟩ := ih a' (c :: done) (c :: seen) hl' (cinv_compare a a' done seen c (hl c (by simp)) ha hs hst) (fun k hk => hid k (hid' k hk)) h
          refine ⟨b, d', s', e1, e2, fun d hd => e3 d (List.mem_cons_of_mem _ hd), fun d hd hne => ?_, fun d hd => ?_, e6, fun h1 h2 => ?_⟩
          · rcases List.mem_cons.1 hd with rfl | hd
            · exact e3 _ (by simp)
            · exact e4 d hd hne
          · rcases e5 d hd with h1 | h1
            · rcases List.mem_cons.1 h1 with rfl | h1
              · exact Or.inr (by simp)
              · exact Or.inl h1
            · exact Or.inr (List.mem_cons_of_mem _ h1)
          · exact absurd (by rw [h1, h2 c (by simp)]) hs

/-- The loop: nothing without cells, otherwise as from the first child that has some. -/
theorem childLoop_spec (l : List (Option Child)) (r : Option Acc) (hl : ∀ c ∈ present l, Conforms c) (h : childLoop none l = some r) :
    (present l = [] ∧ r = none) ∨ ∃ f t b done seen, present l = f :: t ∧ r = some b ∧ CInv b done seen ∧ f ∈ done ∧ (∀ c ∈ t, c.id ≠ f.id → c ∈ done) ∧ (∀ c ∈ seen, c ∈ present l) ∧
      ((∀ c ∈ t, c.id = f.id) → b.ax = f.ax) := by
  induction l with
  | nil => cases h; exact Or.inl ⟨rfl, rfl⟩
  | cons c l ih =>
    unfold childLoop at h
    cases c with
    | none =>
      have : childStep none none = some none := rfl
      rw [this] at h
      exact ih hl h
    | some c =>
      have hp : present (some c :: l) = c :: present l := rfl
      have : childStep none (some c) = some (some ⟨some c.id, c.ax, c.shape⟩) := rfl
      rw [this] at h
      dsimp only at h
      rw [hp] at hl ⊢
      obtain ⟨b, d', s', e1, e2, e3, e4, e5, e6, e7⟩ := childLoop_from l ⟨some c.id, c.ax, c.shape⟩ [c] [c] r c.id (fun d hd => hl d (List.mem_cons_of_mem _ hd)) (cinv_first c (hl c (by simp)))
        (fun k hk => by injection hk with hk; exact hk.symm) h
      refine Or.inr ⟨c, present l, b, d', s', rfl, e1, e2, e3 c (by simp), e4, fun d hd => ?_, fun hall => by rw [e7 rfl hall]⟩
      rcases e5 d hd with h1 | h1
      · rw [List.mem_singleton] at h1; subst h1; simp
      · exact List.mem_cons_of_mem _ h1

/-- If children agree where they vary, a child is not refused. -/
theorem childStep_accepts (a : Acc) (done seen : List Child) (c : Child) (ha : CInv a done seen)
    (hag : ∀ d ∈ done, ∀ i, ext c.shape i ≠ 1 → ext d.shape i ≠ 1 → d.ax i = c.ax i ∧ ext d.shape i = ext c.shape i) : childStep (some a) (some c) ≠ none := by
  unfold childStep
  dsimp only
  split
  · simp
  · have hax : axLoop a.shape c.shape c.ax (List.range (max a.shape.length c.shape.length)) a.ax false ≠ none := by
      refine axLoop_none _ _ _ _ _ _ List.nodup_range fun i _ => ?_
      unfold axisStep
      cases hcc : c.ax i with
      | none => simp
      | some y =>
        cases hax : a.ax i with
        | none => simp
        | some x =>
          dsimp only
          split
          · split <;> simp
          · rename_i hai
            split
            · simp
            · rename_i hci
              obtain ⟨d, hd, e1, e2⟩ := ha.from_ i hai
              have := (hag d hd i hci (by rw [e1]; exact hai)).1
              rw [← e2, hax, hcc] at this
              cases this
              have f : ∀ q : ℚ, far q q = false := by
                intro q
                unfold far
                apply decide_eq_false
                rw [sub_self, abs_zero, max_self, not_lt]
                positivity
              simp [f]
    cases hl : axLoop a.shape c.shape c.ax (List.range (max a.shape.length c.shape.length)) a.ax false with
    | none => exact absurd hl hax
    | some p =>
      obtain ⟨ax, ch⟩ := p
      dsimp only
      cases hm : mergeShape a.shape c.shape with
      | some m => simp
      | none =>
        obtain ⟨i, hi⟩ := (merge_none _ _).1 hm
        exfalso
        unfold join at hi
        split at hi
        · cases hi
        · rename_i hai
          split at hi
          · cases hi
          · rename_i hci
            split at hi
            · cases hi
            · rename_i hne
              obtain ⟨d, hd, e1, e2⟩ := ha.from_ i hai
              have := (hag d hd i hci (by rw [e1]; exact hai)).2
              exact hne (by rw [← e1, this])

theorem childLoop_accepts (l : List (Option Child)) (a : Acc) (done seen : List Child) (hl : ∀ c ∈ present l, Conforms c) (ha : CInv a done seen)
    (hag : ∀ c ∈ present l, ∀ d, (d ∈ done ∨ d ∈ present l) → ∀ i, ext c.shape i ≠ 1 → ext d.shape i ≠ 1 → d.ax i = c.ax i ∧ ext d.shape i = ext c.shape i) :
    childLoop (some a) l ≠ none := by
  induction l generalizing a done seen with
  | nil => simp [childLoop]
  | cons c l ih =>
    unfold childLoop
    cases c with
    | none =>
      have : childStep (some a) none = some (some a) := rfl
      rw [this]
      exact ih a done seen hl ha hag
    | some c =>
      have hp : present (some c :: l) = c :: present l := rfl
      rw [hp] at hl hag
      have hne := childStep_accepts a done seen c ha fun d hd => hag c (by simp) d (Or.inl hd)
      have hl' : ∀ d ∈ present l, Conforms d := fun d hd => hl d (List.mem_cons_of_mem _ hd)
      by_cases hs : a.id = some c.id
      · have : childStep (some a) (some c) = some (some a) := by unfold childStep; dsimp only; rw [if_pos hs]
        rw [this]
        refine ih a done (c :: seen) hl' (cinv_skip a done seen c ha) fun e he d hd => hag e (List.mem_cons_of_mem _ he) d ?_
        rcases hd with hd | hd
        · exact Or.inl hd
        · exact Or.inr (List.mem_cons_of_mem _ hd)
      · cases hst : childStep (some a) (some c) with
        | none => exact absurd hst hne
        | some r1 =>
          dsimp only
          have hsome : ∃ a', r1 = some a' := by
            unfold childStep at hst
            dsimp only at hst
            rw [if_neg hs] at hst
            split at hst
            · cases hst
            · split at hst
              · cases hst
              · cases hst
                exact ⟨_, rfl⟩
          obtain ⟨a', rfl⟩ := hsome
          refine ih a' (c :: done) (c :: seen) hl' (cinv_compare a a' done seen c (hl c (by simp)) ha hs hst) fun e he d hd => hag e (List.mem_cons_of_mem _ he) d ?_
          rcases hd with hd | hd
          · rcases List.mem_cons.1 hd with rfl | hd
            · exact Or.inr (by simp)
            · exact Or.inl hd
          · exact Or.inr (List.mem_cons_of_mem _ hd)

/-- In all cases with the check on, the axes are those the loop finds. -/
theorem check_loop (ch : List (Option Child)) : checkChildCells false ch = (childLoop none ch).map fun a => a.map Acc.ax := by
  unfold checkChildCells
  rw [if_neg (by simp)]
  split <;> rfl

/-! ## Spid maps -/

theorem discover_spec {β V : Type} (l : List (Option (Res β V))) (ref : Option (Res β V)) :
    (discoverSpids ref l = none → ref = none ∧ ∀ c, some c ∈ l → c.map = none) ∧
    (∀ r, ref = some r → ∃ r', discoverSpids ref l = some r' ∧ r'.rest = r.rest ∧
      (r'.map = none → r.map = none ∧ ∀ c, some c ∈ l → c.map = none) ∧
      ∀ m', r'.map = some m' → ∀ k, m' k = (match r.map with | some m => (match m k with | some v => some v | none => firstOf k l) | none => firstOf k l)) := by
  induction l generalizing ref with
  | nil =>
    refine ⟨fun h => ⟨h, by simp⟩, fun r hr => ⟨r, hr, rfl, fun h => ⟨h, by simp⟩, fun m' hm k => ?_⟩⟩
    rw [hm]
    dsimp only [firstOf]
    cases m' k <;> rfl
  | cons c l ih =>
    cases c with
    | none =>
      have e : discoverSpids ref (none :: l) = discoverSpids ref l := by rw [discoverSpids]
      rw [e]
      refine ⟨fun h => ⟨((ih ref).1 h).1, fun c hc => ((ih ref).1 h).2 c (by simpa using hc)⟩, fun r hr => ?_⟩
      obtain ⟨r', h1, h2, h3, h4⟩ := (ih ref).2 r hr
      exact ⟨r', h1, h2, fun h => ⟨(h3 h).1, fun c hc => (h3 h).2 c (by simpa using hc)⟩, h4⟩
    | some c =>
      cases hm : c.map with
      | none =>
        have e : discoverSpids ref (some c :: l) = discoverSpids ref l := by rw [discoverSpids]; rw [hm]
        have hmem : ∀ d, some d ∈ some c :: l → (∀ d, some d ∈ l → d.map = none) → d.map = none := by
          intro d hd hall
          rcases List.mem_cons.1 hd with h | h
          · cases h; exact hm
          · exact hall d h
        have hf : ∀ k, firstOf k (some c :: l) = firstOf k l := by intro k; rw [firstOf]; rw [hm]
        rw [e]
        refine ⟨fun h => ⟨((ih ref).1 h).1, fun d hd => hmem d hd ((ih ref).1 h).2⟩, fun r hr => ?_⟩
        obtain ⟨r', h1, h2, h3, h4⟩ := (ih ref).2 r hr
        refine ⟨r', h1, h2, fun h => ⟨(h3 h).1, fun d hd => hmem d hd (h3 h).2⟩, fun m' hm' k => ?_⟩
        rw [hf]
        exact h4 m' hm' k
      | some m =>
        have hf : ∀ k, firstOf k (some c :: l) = match m k with | some v => some v | none => firstOf k l := by intro k; rw [firstOf]; rw [hm]; dsimp only; cases m k <;> rfl
        cases ref with
        | none =>
          have e : discoverSpids none (some c :: l) = discoverSpids (some c) l := by rw [discoverSpids]; rw [hm]
          rw [e]
          obtain ⟨r', h1, -⟩ := (ih (some c)).2 c rfl
          exact ⟨fun h => by (rw [h1] at h; cases h), fun r hr => by cases hr⟩
        | some r =>
          cases hr : r.map with
          | none =>
            have e : discoverSpids (some r) (some c :: l) = discoverSpids (some ⟨some m, r.rest⟩) l := by rw [discoverSpids]; rw [hm]; dsimp only; rw [hr]
            rw [e]
            obtain ⟨r', h1, h2, h3, h4⟩ := (ih (some ⟨some m, r.rest⟩)).2 _ rfl
            refine ⟨fun h => by (rw [h1] at h; cases h), fun r0 hr0 => ?_⟩
            cases hr0
            refine ⟨r', h1, h2, fun h => absurd (h3 h).1 (by simp), fun m' hm' k => ?_⟩
            rw [hr, hf]
            exact h4 m' hm' k
          | some m0 =>
            have e : discoverSpids (some r) (some c :: l) = discoverSpids (some ⟨some (merge m0 m), r.rest⟩) l := by rw [discoverSpids]; rw [hm]; dsimp only; rw [hr]
            rw [e]
            obtain ⟨r', h1, h2, h3, h4⟩ := (ih (some ⟨some (merge m0 m), r.rest⟩)).2 _ rfl
            refine ⟨fun h => by (rw [h1] at h; cases h), fun r0 hr0 => ?_⟩
            cases hr0
            refine ⟨r', h1, h2, fun h => absurd (h3 h).1 (by simp), fun m' hm' k => ?_⟩
            rw [hr, hf]
            have := h4 m' hm' k
            rw [this]
            dsimp only [merge]
            cases m0 k <;> rfl

end Verif.ChildCells
