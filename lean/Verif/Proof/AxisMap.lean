import Mathlib.Data.List.Basic
import Verif.Spec.AxisMap
/-!
# Proofs about names of axes
-/
namespace Verif.AxisMap

/-- What one definition does. -/
theorem define_spec (m m' : AMap) (i : Nat) (nm : Nm) (h : define m i nm = some m') :
    m'.dflt = m.dflt ∧
      (∀ j, m'.names j = match nm with | .str s => if j = i then .str s else m.names j | _ => m.names j) ∧
      (∀ t, m'.nums t = match nm with | .str s => if t = s then some i else m.nums t | _ => m.nums t) ∧
      (m'.time = if nm = .str "Time" then i else m.time) ∧ (m'.freq = if nm = .str "Freq" then i else m.freq) := by
  cases nm with
  | empty => cases h; simp
  | num k =>
    unfold define at h
    dsimp only at h
    split at h
    · cases h
    · cases h; simp
  | str s =>
    cases h
    refine ⟨rfl, fun _ => rfl, fun _ => rfl, ?_, ?_⟩
    · dsimp only
      by_cases e : s = "Time"
      · subst e; simp
      · simp [e]
    · dsimp only
      by_cases e : s = "Freq"
      · subst e; simp
      · simp [e]

/-- Whether a name may be given to axis `i`. -/
theorem define_ok (m : AMap) (i : Nat) (nm : Nm) : (define m i nm).isSome = true ↔ ∀ k, nm = .num k → k = i := by
  cases nm with
  | empty => simp [define]
  | num k =>
    unfold define
    by_cases e : k = i <;> simp [e]
  | str s => simp [define]

/-- What definitions one after the other do, up to the last for each name. -/
theorem defineFrom_spec (l : List Nm) : ∀ (m m' : AMap) (i : Nat), defineFrom m i l = (m', true) →
    m'.dflt = m.dflt ∧
      (∀ (k : Nat) (s : String), l[k]? = some (Nm.str s) → m'.names (i + k) = .str s) ∧
      (∀ j, (∀ (k : Nat) (s : String), j = i + k → l[k]? ≠ some (Nm.str s)) → m'.names j = m.names j) ∧
      (∀ (k : Nat) (s : String), l[k]? = some (Nm.str s) → (∀ k' : Nat, l[k']? = some (Nm.str s) → k' ≤ k) → m'.nums s = some (i + k)) ∧
      (∀ s, (∀ k : Nat, l[k]? ≠ some (Nm.str s)) → m'.nums s = m.nums s) ∧
      (∀ k : Nat, l[k]? = some (Nm.str "Time") → (∀ k' : Nat, l[k']? = some (Nm.str "Time") → k' ≤ k) → m'.time = i + k) ∧
      (∀ k : Nat, l[k]? = some (Nm.str "Freq") → (∀ k' : Nat, l[k']? = some (Nm.str "Freq") → k' ≤ k) → m'.freq = i + k) ∧
      ((∀ k : Nat, l[k]? ≠ some (Nm.str "Time")) → m'.time = m.time) ∧ ((∀ k : Nat, l[k]? ≠ some (Nm.str "Freq")) → m'.freq = m.freq) := by
  induction l with
  | nil => intro m m' i h; cases h; simp
  | cons nm l ih =>
    intro m m' i h
    unfold defineFrom at h
    split at h
    · rename_i m1 h1
      obtain ⟨a1, a2, a3, a4, a5⟩ := define_spec m m1 i nm h1
      obtain ⟨b1, b2, b3, b4, b5, b6, b7, b8, b9⟩ := ih m1 m' (i + 1) h
      have shift : ∀ k, i + 1 + k = i + (k + 1) := by intro k; omega
      -- names that occur in the tail
      have occ : ∀ s, (∃ k : Nat, l[k]? = some (Nm.str s)) ∨ ∀ k : Nat, l[k]? ≠ some (Nm.str s) := by
        intro s
        by_cases hx : ∃ k : Nat, l[k]? = some (Nm.str s)
        · exact Or.inl hx
        · right; intro k hk; exact hx ⟨k, hk⟩
      refine ⟨b1.trans a1, ?_, ?_, ?_, ?_, ?_, ?_, ?_, ?_⟩
      · intro k s hk
        cases k with
        | zero =>
          simp only [List.getElem?_cons_zero, Option.some.injEq] at hk
          subst hk
          rw [b3 (i + 0) (by intro k s e; omega), a2]
          simp
        | succ k =>
          simp only [List.getElem?_cons_succ] at hk
          have := b2 k s hk
          rw [shift] at this
          exact this
      · intro j hj
        have h3 : m'.names j = m1.names j := by
          apply b3
          intro k s e hk
          exact hj (k + 1) s (by omega) (by simpa using hk)
        rw [h3, a2]
        cases nm with
        | str s =>
          dsimp only
          by_cases e : j = i
          · exact absurd (List.getElem?_cons_zero) (hj 0 s (by omega))
          · rw [if_neg e]
        | _ => rfl
      · intro k s hk hlast
        cases k with
        | zero =>
          simp only [List.getElem?_cons_zero, Option.some.injEq] at hk
          subst hk
          have hno : ∀ k : Nat, l[k]? ≠ some (Nm.str s) := by
            intro k hk
            have := hlast (k + 1) (by simpa using hk)
            omega
          rw [b5 s hno, a3]
          simp
        | succ k =>
          simp only [List.getElem?_cons_succ] at hk
          have := b4 k s hk (by
            intro k' hk'
            have := hlast (k' + 1) (by simpa using hk')
            omega)
          rw [shift] at this
          exact this
      · intro s hs
        rw [b5 s (by intro k hk; exact hs (k + 1) (by simpa using hk)), a3]
        cases nm with
        | str t =>
          dsimp only
          by_cases e : s = t
          · subst e; exact absurd (List.getElem?_cons_zero) (hs 0)
          · rw [if_neg e]
        | _ => rfl
      · intro k hk hlast
        cases k with
        | zero =>
          simp only [List.getElem?_cons_zero, Option.some.injEq] at hk
          subst hk
          rw [b8 (by
            intro k hk
            have := hlast (k + 1) (by simpa using hk)
            omega), a4]
          simp
        | succ k =>
          simp only [List.getElem?_cons_succ] at hk
          have := b6 k hk (by
            intro k' hk'
            have := hlast (k' + 1) (by simpa using hk')
            omega)
          rw [shift] at this
          exact this
      · intro k hk hlast
        cases k with
        | zero =>
          simp only [List.getElem?_cons_zero, Option.some.injEq] at hk
          subst hk
          rw [b9 (by
            intro k hk
            have := hlast (k + 1) (by simpa using hk)
            omega), a5]
          simp
        | succ k =>
          simp only [List.getElem?_cons_succ] at hk
          have := b7 k hk (by
            intro k' hk'
            have := hlast (k' + 1) (by simpa using hk')
            omega)
          rw [shift] at this
          exact this
      · intro hs
        rw [b8 (by intro k hk; exact hs (k + 1) (by simpa using hk)), a4, if_neg (by intro e; exact hs 0 (by simp [e]))]
      · intro hs
        rw [b9 (by intro k hk; exact hs (k + 1) (by simpa using hk)), a5, if_neg (by intro e; exact hs 0 (by simp [e]))]
    · cases h

theorem defineFrom_ok (l : List Nm) : ∀ (m : AMap) (i : Nat), (defineFrom m i l).2 = true ↔ ∀ (k j : Nat), l[k]? = some (Nm.num j) → j = i + k := by
  induction l with
  | nil => intro m i; simp [defineFrom]
  | cons nm l ih =>
    intro m i
    unfold defineFrom
    have hd := define_ok m i nm
    cases h : define m i nm with
    | none =>
      rw [h] at hd
      simp only [Option.isSome_none, Bool.false_eq_true, false_iff, not_forall] at hd
      obtain ⟨k, e, hk⟩ := hd
      dsimp only
      simp only [Bool.false_eq_true, false_iff, not_forall]
      exact ⟨0, k, by simp [e], by omega⟩
    | some m1 =>
      rw [h] at hd
      dsimp only
      rw [ih m1 (i + 1)]
      constructor
      · intro hh k j hk
        cases k with
        | zero => simp only [List.getElem?_cons_zero, Option.some.injEq] at hk; exact hd.mp rfl j hk
        | succ k => simp only [List.getElem?_cons_succ] at hk; have := hh k j hk; omega
      · intro hh k j hk
        have := hh (k + 1) j (by simpa using hk)
        omega

/-- Names are numbers of their own axis or true names, and known names are names of axes that exist. -/
structure Sane (m : AMap) : Prop where
  own : ∀ i < maxAxis, m.names i = .num i ∨ ∃ s, m.names i = .str s
  bnd : ∀ s i, m.nums s = some i → i < maxAxis

theorem sane_define (m m' : AMap) (i : Nat) (nm : Nm) (hi : i < maxAxis) (hm : Sane m) (h : define m i nm = some m') : Sane m' := by
  obtain ⟨_, a2, a3, _, _⟩ := define_spec m m' i nm h
  constructor
  · intro j hj
    rw [a2]
    cases nm with
    | str s =>
      dsimp only
      by_cases e : j = i
      · rw [if_pos e]; exact Or.inr ⟨s, rfl⟩
      · rw [if_neg e]; exact hm.own j hj
    | _ => exact hm.own j hj
  · intro s k hk
    rw [a3] at hk
    cases nm with
    | str t =>
      dsimp only at hk
      by_cases e : s = t
      · rw [if_pos e] at hk; cases hk; exact hi
      · rw [if_neg e] at hk; exact hm.bnd s k hk
    | _ => exact hm.bnd s k hk

theorem sane_defineFrom (l : List Nm) : ∀ (m : AMap) (i : Nat), i + l.length ≤ maxAxis → Sane m → Sane (defineFrom m i l).1 := by
  induction l with
  | nil => intro m i _ hm; exact hm
  | cons nm l ih =>
    intro m i hl hm
    simp only [List.length_cons] at hl
    unfold defineFrom
    cases h : define m i nm with
    | none => exact hm
    | some m1 => exact ih m1 (i + 1) (by omega) (sane_define m m1 i nm (by omega) hm h)

theorem sane_dflt (m : AMap) (b : Bool) (h : Sane m) : Sane { m with dflt := b } := ⟨h.own, h.bnd⟩

theorem sane_notDefault (r : AMap × Bool) (h : Sane r.1) : Sane (notDefault r).1 := by
  unfold notDefault
  split
  · exact sane_dflt _ _ h
  · exact h

theorem sane_setVec (m : AMap) (l : List Nm) (h : Sane m) : Sane (setVec m l).1 := by
  unfold setVec
  split
  · exact h
  · exact sane_notDefault _ (sane_defineFrom l m 0 (by omega) h)

theorem sane_setIter (m : AMap) (l : List Nm) (h : Sane m) : Sane (setIter m l).1 := by
  have h1 : Sane (defineFrom m 0 (l.take maxAxis)).1 := sane_defineFrom _ m 0 (by rw [List.length_take]; omega) h
  unfold setIter
  dsimp only
  split
  · split
    · exact h1
    · refine sane_notDefault _ (sane_defineFrom _ _ _ ?_ h1)
      rw [List.length_map, List.length_range]
      omega
  · exact h1

theorem sane_setRecords (m : AMap) (l : List (Option Nm)) (h : Sane m) : Sane (setRecords m l).1 := by
  unfold setRecords
  split
  · exact h
  · refine sane_notDefault _ (sane_defineFrom _ m 0 ?_ h)
    rw [List.length_map, List.length_range]
    omega

theorem sane_addAxis (m : AMap) (nm : Nm) (h : Sane m) : Sane (addAxis m nm).1 := by
  unfold addAxis
  split
  · exact h
  · split
    · exact h
    · rename_i i hi
      have hi' : i < maxAxis := by
        have := List.mem_of_find?_eq_some hi
        exact List.mem_range.mp this
      split
      · rename_i m' hm'; exact sane_dflt _ _ (sane_define m m' i nm hi' h hm')
      · exact h

theorem sane_reset (m : AMap) : Sane (reset m) := by
  unfold reset
  refine sane_dflt _ _ (sane_setIter _ _ ⟨fun i _ => Or.inl rfl, ?_⟩)
  intro s i h; cases h

theorem sane_after (ops : List Op) : Sane (after ops) := by
  induction ops with
  | nil => exact sane_reset _
  | cons o l ih =>
    cases o with
    | setVec v => exact sane_setVec _ v ih
    | setIter v => exact sane_setIter _ v ih
    | setRecords v => exact sane_setRecords _ v ih
    | addAxis nm => exact sane_addAxis _ nm ih
    | reset => exact sane_reset _

/-! ## Adding axes only -/

structure Good (m : AMap) : Prop where
  own : ∀ i < maxAxis, m.names i = .num i ∨ ∃ s, m.names i = .str s ∧ m.nums s = some i
  inv : ∀ s i, m.nums s = some i → i < maxAxis ∧ m.names i = .str s
  tim : m.nums "Time" = some m.time
  frq : m.nums "Freq" = some m.freq

theorem good_faithful (m : AMap) (h : Good m) : Faithful m := by
  refine ⟨?_, (h.inv _ _ h.tim).2, (h.inv _ _ h.frq).2⟩
  intro n hn
  rcases h.own n hn with e | ⟨s, e1, e2⟩
  · rw [e]; rfl
  · rw [e1]; exact e2

theorem good_addAxis (m : AMap) (nm : Nm) (h : Good m) : Good (addAxis m nm).1 := by
  unfold addAxis
  split
  · exact h
  · rename_i hax
    split
    · exact h
    · rename_i i hi
      have hi' : i < maxAxis := List.mem_range.mp (List.mem_of_find?_eq_some hi)
      have hfree : m.names i = .num i := by simpa using List.find?_some hi
      split
      · rename_i m' hm'
        cases nm with
        | empty => cases hm'; exact ⟨h.own, h.inv, h.tim, h.frq⟩
        | num k => simp [axis] at hax
        | str s =>
          have hs : m.nums s = none := by
            cases e : m.nums s with
            | none => rfl
            | some k => simp [axis, e] at hax
          have ht : s ≠ "Time" := by rintro rfl; rw [h.tim] at hs; cases hs
          have hf : s ≠ "Freq" := by rintro rfl; rw [h.frq] at hs; cases hs
          obtain ⟨_, a2, a3, a4, a5⟩ := define_spec m m' i (.str s) hm'
          dsimp only at a2 a3
          refine ⟨?_, ?_, ?_, ?_⟩
          · intro j hj
            dsimp only
            rw [a2]
            by_cases e : j = i
            · rw [if_pos e]
              exact Or.inr ⟨s, rfl, by rw [a3, if_pos rfl, e]⟩
            · rw [if_neg e]
              rcases h.own j hj with e1 | ⟨t, e1, e2⟩
              · exact Or.inl e1
              · right
                refine ⟨t, e1, ?_⟩
                rw [a3, if_neg]
                · exact e2
                · rintro rfl; rw [hs] at e2; cases e2
          · intro t j hj
            dsimp only at hj ⊢
            rw [a3] at hj
            rw [a2]
            by_cases e : t = s
            · rw [if_pos e] at hj
              cases hj
              exact ⟨hi', by rw [if_pos rfl, e]⟩
            · rw [if_neg e] at hj
              have := h.inv t j hj
              refine ⟨this.1, ?_⟩
              rw [if_neg]
              · exact this.2
              · rintro rfl; rw [hfree] at this; cases this.2
          · dsimp only
            rw [a3, if_neg (Ne.symm ht), a4, if_neg (by simpa using ht)]
            exact h.tim
          · dsimp only
            rw [a3, if_neg (Ne.symm hf), a5, if_neg (by simpa using hf)]
            exact h.frq
      · exact h

theorem reset_eq (m : AMap) : (∀ i, (reset m).names i = if i = 3 then .str "M" else if i = 2 then .str "L" else if i = 1 then .str "Freq" else if i = 0 then .str "Time" else .num i) ∧
    (∀ t, (reset m).nums t = if t = "M" then some 3 else if t = "L" then some 2 else if t = "Freq" then some 1 else if t = "Time" then some 0 else none) ∧
    (reset m).time = 0 ∧ (reset m).freq = 1 ∧ (reset m).dflt = true := by
  refine ⟨fun _ => rfl, fun _ => rfl, rfl, rfl, rfl⟩

theorem good_reset (m : AMap) : Good (reset m) := by
  obtain ⟨h1, h2, h3, h4, _⟩ := reset_eq m
  refine ⟨?_, ?_, by rw [h2, h3]; rfl, by rw [h2, h4]; rfl⟩
  · intro i _
    rw [h1]
    by_cases e3 : i = 3
    · subst e3; right; exact ⟨"M", rfl, by rw [h2]; rfl⟩
    by_cases e2 : i = 2
    · subst e2; right; exact ⟨"L", rfl, by rw [h2]; rfl⟩
    by_cases e1 : i = 1
    · subst e1; right; exact ⟨"Freq", rfl, by rw [h2]; rfl⟩
    by_cases e0 : i = 0
    · subst e0; right; exact ⟨"Time", rfl, by rw [h2]; rfl⟩
    left
    rw [if_neg e3, if_neg e2, if_neg e1, if_neg e0]
  · intro s i h
    rw [h2] at h
    rw [h1]
    split at h
    · cases h; rename_i e; exact ⟨by decide, by rw [e]; rfl⟩
    split at h
    · cases h; rename_i e; exact ⟨by decide, by rw [e]; rfl⟩
    split at h
    · cases h; rename_i e; exact ⟨by decide, by rw [e]; rfl⟩
    split at h
    · cases h; rename_i e; exact ⟨by decide, by rw [e]; rfl⟩
    cases h

theorem good_after (ops : List Op) (h : ∀ o ∈ ops, o = .reset ∨ ∃ nm, o = .addAxis nm) : Good (after ops) := by
  induction ops with
  | nil => exact good_reset _
  | cons o l ih =>
    have hl := ih (fun o ho => h o (by simp [ho]))
    rcases h o (by simp) with e | ⟨nm, e⟩
    · subst e; exact good_reset _
    · subst e; exact good_addAxis _ nm hl

/-! ## Setting a map -/

/-- What is known after a map was set. -/
def SetTo (m m' : AMap) (l : List Nm) : Prop :=
  m'.dflt = false ∧
    (∀ (i : Nat) (s : String), l[i]? = some (Nm.str s) → m'.names i = .str s ∧ axis m' (.str s) = some i) ∧
    (∀ i : Nat, (∀ s, l[i]? ≠ some (Nm.str s)) → m'.names i = m.names i) ∧
    (∀ i : Nat, l[i]? = some (Nm.str "Time") → m'.time = i) ∧ (∀ i : Nat, l[i]? = some (Nm.str "Freq") → m'.freq = i)

theorem notDefault_true (r : AMap × Bool) (m' : AMap) (h : notDefault r = (m', true)) : r.2 = true ∧ m' = { r.1 with dflt := false } := by
  unfold notDefault at h
  split at h
  · rename_i h2; cases h; exact ⟨h2, rfl⟩
  · rename_i h2; rw [h] at h2; simp at h2

theorem setTo_of (m m1 : AMap) (l : List Nm) (hd : Distinct l) (h : defineFrom m 0 l = (m1, true)) : SetTo m { m1 with dflt := false } l := by
  obtain ⟨_, b2, b3, b4, b5, b6, b7, _, _⟩ := defineFrom_spec l m m1 0 h
  refine ⟨rfl, ?_, ?_, ?_, ?_⟩
  · intro i s hi
    have h1 := b2 i s hi
    have h2 := b4 i s hi (fun k' hk' => by rw [hd k' i s hk' hi])
    rw [Nat.zero_add] at h1 h2
    exact ⟨h1, h2⟩
  · intro i hi
    refine b3 i ?_
    intro k s e
    rw [Nat.zero_add] at e
    rw [← e]
    exact hi s
  · intro i hi
    have := b6 i hi (fun k' hk' => by rw [hd k' i _ hk' hi])
    rw [Nat.zero_add] at this
    exact this
  · intro i hi
    have := b7 i hi (fun k' hk' => by rw [hd k' i _ hk' hi])
    rw [Nat.zero_add] at this
    exact this

theorem setVec_spec (m m' : AMap) (l : List Nm) (hd : Distinct l) (h : setVec m l = (m', true)) : SetTo m m' l := by
  unfold setVec at h
  split at h
  · cases h
  · obtain ⟨h1, h2⟩ := notDefault_true _ _ h
    rw [h2]
    exact setTo_of m _ l hd (Prod.ext rfl h1)

theorem setRecords_spec (m m' : AMap) (l : List (Option Nm)) (hd : Distinct ((List.range l.length).map fun i => (l.getD i none).getD (.num i)))
    (h : setRecords m l = (m', true)) : SetTo m m' ((List.range l.length).map fun i => (l.getD i none).getD (.num i)) := by
  unfold setRecords at h
  split at h
  · cases h
  · obtain ⟨h1, h2⟩ := notDefault_true _ _ h
    rw [h2]
    exact setTo_of m _ _ hd (Prod.ext rfl h1)

theorem defineFrom_nums (n : Nat) : ∀ (m : AMap) (i : Nat), defineFrom m i ((List.range n).map fun j => .num (i + j)) = (m, true) := by
  induction n with
  | zero => intro m i; rfl
  | succ n ih =>
    intro m i
    rw [List.range_succ_eq_map, List.map_cons, List.map_map]
    have e : (((fun j => Nm.num (i + j)) ∘ Nat.succ)) = fun j => Nm.num (i + 1 + j) := by
      funext j
      simp only [Function.comp]
      congr 1
      omega
    rw [e]
    have hd : define m i (Nm.num (i + 0)) = some m := by
      unfold define
      dsimp only
      rw [if_neg (by simp)]
    unfold defineFrom
    rw [hd]
    exact ih m (i + 1)

theorem setIter_spec (m m' : AMap) (l : List Nm) (hd : Distinct l) (h : setIter m l = (m', true)) : SetTo m m' l := by
  unfold setIter at h
  dsimp only at h
  split at h
  · rename_i h1
    split at h
    · cases h
    · rename_i h2
      rw [defineFrom_nums] at h
      have ht : l.take maxAxis = l := List.take_of_length_le (by omega)
      rw [ht] at h h1
      obtain ⟨_, h4⟩ := notDefault_true _ _ h
      rw [h4]
      exact setTo_of m _ l hd (Prod.ext rfl h1)
  · rename_i h1
    rw [h] at h1
    simp at h1

/-! ## Domains -/

theorem readFields_spec (m : AMap) (fs : List (Nm × (ℚ × ℚ))) : ∀ d, (∀ f ∈ fs, f.2.1 < f.2.2 ∧ ∃ i < maxAxis, axis m f.1 = some i) →
    ∃ d', readFields m fs d = .ok d' ∧
      (∀ i, (∀ f ∈ fs, axis m f.1 ≠ some i) → d' i = d i) ∧
      (∀ f ∈ fs, ∀ i, axis m f.1 = some i → (∀ g ∈ fs, axis m g.1 = some i → g = f) → d' i = some f.2) := by
  induction fs with
  | nil => intro d _; exact ⟨d, rfl, fun _ _ => rfl, by simp⟩
  | cons f fs ih =>
    intro d hf
    obtain ⟨h1, i, hi, h2⟩ := hf f (by simp)
    obtain ⟨d', e1, e2, e3⟩ := ih (fun j => if j = i then some f.2 else d j) (fun g hg => hf g (by simp [hg]))
    refine ⟨d', ?_, ?_, ?_⟩
    · obtain ⟨nm, r⟩ := f
      unfold readFields
      dsimp only at h2 h1
      rw [h2]
      dsimp only
      rw [if_neg (by exact not_le.mpr h1), if_neg (by omega)]
      exact e1
    · intro j hj
      rw [e2 j (fun g hg => hj g (by simp [hg]))]
      rw [if_neg]
      rintro rfl
      exact hj f (by simp) h2
    · intro g hg j hj huniq
      rcases List.mem_cons.mp hg with e | e
      · subst e
        rw [h2] at hj
        cases hj
        by_cases hx : ∃ g' ∈ fs, axis m g'.1 = some i
        · obtain ⟨g', hg', ha⟩ := hx
          have : g' = g := huniq g' (by simp [hg']) ha
          subst this
          exact e3 g' hg' i ha (fun k hk hka => huniq k (by simp [hk]) hka)
        · rw [e2 i (fun k hk hka => hx ⟨k, hk, hka⟩)]
          rw [if_pos rfl]
      · exact e3 g e j hj (fun k hk hka => huniq k (by simp [hk]) hka)

theorem readFields_no_ub (m : AMap) (hm : Sane m) (fs : List (Nm × (ℚ × ℚ))) : ∀ d, (∀ f ∈ fs, ∀ k, f.1 = .num k → k < maxAxis) → readFields m fs d ≠ .ub := by
  induction fs with
  | nil => intro d _ h; cases h
  | cons f fs ih =>
    intro d hf
    obtain ⟨nm, r⟩ := f
    unfold readFields
    cases ha : axis m nm with
    | none => simp
    | some i =>
      dsimp only
      have hi : i < maxAxis := by
        cases nm with
        | empty => cases ha
        | num k => cases ha; exact hf (Nm.num i, r) (by simp) i rfl
        | str s => exact hm.bnd s i ha
      split
      · simp
      · rw [if_neg (by omega)]
        exact ih _ (fun g hg => hf g (by simp [hg]))

/-- The fields of a domain's record, if names are different. -/
theorem toRec_fields (m : AMap) (d : Dom) (n : Nat) (hd : ∀ i j, i < n → j < n → m.names i = m.names j → i = j) :
    ((List.range n).foldl (fun fs i => match d i with | some r => addField fs (m.names i) r | none => fs) []) =
      (List.range n).filterMap fun i => (d i).map fun r => (m.names i, r) := by
  induction n with
  | zero => rfl
  | succ n ih =>
    rw [List.range_succ, List.foldl_append, List.filterMap_append, ih (fun i j hi hj => hd i j (by omega) (by omega))]
    simp only [List.foldl_cons, List.foldl_nil]
    cases hr : d n with
    | none => simp [hr]
    | some r =>
      dsimp only [addField]
      rw [List.filter_eq_self.mpr]
      · simp [hr]
      · intro f hf
        obtain ⟨i, hi, e⟩ := List.mem_filterMap.mp hf
        cases hdi : d i with
        | none => rw [hdi] at e; cases e
        | some q =>
          rw [hdi] at e
          cases e
          have hin := List.mem_range.mp hi
          simp only [decide_eq_true_eq]
          intro hc
          have := hd i n (by omega) (by omega) hc
          omega

end Verif.AxisMap
