import Verif.Spec.SolveLoop
/-! # Lemmas for C125 - C129 -/
namespace Verif.SolveLoop
variable {S : Type}

/-! ## Equations -/

structure Filled (subs : List (Sub S)) (E : Nat → Prop) (p : List (Sub S) × Nat) : Prop where
  len : p.1.length = subs.length
  sub : ∀ (j : Nat) s, subs[j]? = some s → ∃ s', p.1[j]? = some s' ∧ s'.converged = s.converged ∧ s'.sol = s.sol ∧
    (s'.neq ≠ 0 ↔ s.neq ≠ 0 ∨ (s.converged = false ∧ E j))
  total : p.2 ≠ 0 ↔ ∃ (j : Nat) (s : Sub S), subs[j]? = some s ∧ s.converged = false ∧ E j

theorem filled_nil (subs : List (Sub S)) : Filled subs (fun _ => False) (subs, 0) where
  len := rfl
  sub j s h := ⟨s, h, rfl, rfl, by simp⟩
  total := by simp

theorem Filled.congr {subs : List (Sub S)} {E E' : Nat → Prop} {p} (h : Filled subs E p) (he : ∀ j, E j ↔ E' j) : Filled subs E' p where
  len := h.len
  sub j s hs := by obtain ⟨s', a, b, c, d⟩ := h.sub j s hs; exact ⟨s', a, b, c, by rw [d, he]⟩
  total := by
    rw [h.total]
    constructor <;> rintro ⟨j, s, a, b, c⟩
    · exact ⟨j, s, a, b, (he j).1 c⟩
    · exact ⟨j, s, a, b, (he j).2 c⟩

theorem fill_ok {subs : List (Sub S)} {E : Nat → Prop} {p} (h : Filled subs E p) (j : Nat) : Filled subs (fun i => E i ∨ i = j) (fill p j) := by
  unfold fill
  rcases hj : p.1[j]? with _ | s
  · dsimp only
    have hn : subs[j]? = none := by rw [List.getElem?_eq_none_iff] at hj ⊢; rw [← h.len]; exact hj
    refine ⟨h.len, ?_, ?_⟩
    · intro i a ha
      obtain ⟨s', h1, h2, h3, h4⟩ := h.sub i a ha
      refine ⟨s', h1, h2, h3, ?_⟩
      rw [h4]
      have : i ≠ j := by rintro rfl; rw [hn] at ha; cases ha
      simp [this]
    · rw [h.total]
      constructor
      · rintro ⟨i, a, h1, h2, h3⟩; exact ⟨i, a, h1, h2, .inl h3⟩
      · rintro ⟨i, a, h1, h2, h3⟩
        rcases h3 with h3 | rfl
        · exact ⟨i, a, h1, h2, h3⟩
        · rw [hn] at h1; cases h1
  · dsimp only
    have hlt : j < subs.length := by rw [← h.len]; exact (List.getElem?_eq_some_iff.1 hj).1
    obtain ⟨b, hb⟩ : ∃ b, subs[j]? = some b := ⟨_, List.getElem?_eq_getElem hlt⟩
    obtain ⟨s1, h1, h2, h3, h4⟩ := h.sub j b hb
    rw [hj] at h1; cases h1
    split
    next hc =>
      refine ⟨h.len, ?_, ?_⟩
      · intro i a ha
        obtain ⟨s', g1, g2, g3, g4⟩ := h.sub i a ha
        refine ⟨s', g1, g2, g3, ?_⟩
        rw [g4]
        constructor
        · rintro (g | ⟨g, g'⟩)
          · exact .inl g
          · exact .inr ⟨g, .inl g'⟩
        · rintro (g | ⟨g, g' | rfl⟩)
          · exact .inl g
          · exact .inr ⟨g, g'⟩
          · rw [hb] at ha; cases ha; rw [← h2, hc] at g; cases g
      · rw [h.total]
        constructor
        · rintro ⟨i, a, h1, h2, h3⟩; exact ⟨i, a, h1, h2, .inl h3⟩
        · rintro ⟨i, a, g1, g2, g3⟩
          rcases g3 with g3 | rfl
          · exact ⟨i, a, g1, g2, g3⟩
          · rw [hb] at g1; cases g1; rw [← h2, hc] at g2; cases g2
    next hc =>
      have hc : s.converged = false := by simpa using hc
      refine ⟨by simp [h.len], ?_, ?_⟩
      · intro i a ha
        obtain ⟨s', g1, g2, g3, g4⟩ := h.sub i a ha
        dsimp only
        by_cases hij : i = j
        · subst hij
          rw [hj] at g1; cases g1
          rw [hb] at ha; cases ha
          refine ⟨{ s with neq := s.neq + 1 }, ?_, g2, g3, ?_⟩
          · rw [List.getElem?_set_self]; exact (List.getElem?_eq_some_iff.1 hj).1
          · rw [h2] at hc; simp [hc]
        · refine ⟨s', ?_, g2, g3, ?_⟩
          · rw [List.getElem?_set_ne (Ne.symm hij)]; exact g1
          · rw [g4]; simp [hij]
      · dsimp only
        constructor
        · intro _; exact ⟨j, b, hb, by rw [← h2]; exact hc, .inr rfl⟩
        · intro _; omega

theorem fillVells_ok {subs : List (Sub S)} (l : List Nat) : ∀ {E : Nat → Prop} {p}, Filled subs E p → Filled subs (fun i => E i ∨ i ∈ l) (l.foldl fill p) := by
  induction l with
  | nil => intro E p h; exact h.congr (by simp)
  | cons a l ih =>
    intro E p h
    refine (ih (fill_ok h a)).congr ?_
    intro j; simp only [List.mem_cons]; tauto

theorem fillReply_ok {subs : List (Sub S)} (l : List (Bool × List Nat)) : ∀ {E : Nat → Prop} {p}, Filled subs E p →
    Filled subs (fun i => E i ∨ ∃ v ∈ l, v.1 = false ∧ i ∈ v.2) (l.foldl (fun p v => if v.1 then p else v.2.foldl fill p) p) := by
  induction l with
  | nil => intro E p h; exact h.congr (by simp)
  | cons a l ih =>
    intro E p h
    rw [List.foldl_cons]
    cases ha : a.1
    · rw [if_neg (by simp)]
      refine (ih (fillVells_ok a.2 h)).congr ?_
      intro j; simp [ha]; tauto
    · rw [if_pos rfl]
      refine (ih h).congr ?_
      intro j; simp [ha]

theorem collect_ok {subs : List (Sub S)} (l : List Reply) : ∀ {E : Nat → Prop} {p q}, Filled subs E p → collect p l = some q →
    Filled subs (fun i => E i ∨ ∃ r ∈ l, r.skip = false ∧ ∃ v ∈ r.vells, v.1 = false ∧ i ∈ v.2) q := by
  induction l with
  | nil =>
    intro E p q h e
    simp only [collect, Option.some.injEq] at e; subst e
    exact h.congr (by simp)
  | cons a l ih =>
    intro E p q h e
    rw [collect] at e
    split at e
    · cases e
    · split at e
      next hs =>
        refine (ih h e).congr ?_
        intro j; simp [hs]
      next hs =>
        have hs : a.skip = false := by simpa using hs
        refine (ih (fillReply_ok a.vells h) e).congr ?_
        intro j; simp only [List.mem_cons, exists_eq_or_imp]; rw [or_assoc]; simp [hs]

theorem collect_none (l : List Reply) : ∀ (p : List (Sub S) × Nat), collect p l = none ↔ ∃ r ∈ l, r.abort = true := by
  induction l with
  | nil => intro p; simp [collect]
  | cons a l ih =>
    intro p
    rw [collect]
    cases ha : a.abort
    · rw [if_neg (by simp), ih]; simp [ha]
    · rw [if_pos rfl]; simp [ha]

/-! ## The subsolvers -/

theorem solveAll_length (zero : S) (t : Turn S) : ∀ i l, (solveAll zero t i l).1.length = l.length := by
  intro i l
  induction l generalizing i with
  | nil => rfl
  | cons s l ih => simp [solveAll, ih]

theorem solveAll_get (zero : S) (t : Turn S) : ∀ (l : List (Sub S)) (i j : Nat) s, l[j]? = some s →
    (solveAll zero t i l).1[j]? = some (solve zero t (i + j) s).1 := by
  intro l
  induction l with
  | nil => intro i j s h; simp at h
  | cons a l ih =>
    intro i j s h
    rw [solveAll]
    dsimp only
    cases j with
    | zero => simp at h; subst h; simp
    | succ j => simp at h; simp [ih (i + 1) j s h]; congr 2; omega

theorem solveAll_count (zero : S) (t : Turn S) (P : Nat → Bool) : ∀ (l : List (Sub S)) (i : Nat),
    (∀ (j : Nat) s, l[j]? = some s → (solve zero t (i + j) s).2 = P (i + j)) →
    (solveAll zero t i l).2 = ((List.range' i l.length).countP P) := by
  intro l
  induction l with
  | nil => intro i _; simp [solveAll]
  | cons a l ih =>
    intro i h
    rw [solveAll]
    dsimp only
    have h0 := h 0 a rfl
    rw [ih (i + 1) (by intro j s hj; have := h (j + 1) s (by simpa using hj); rw [show i + 1 + j = i + (j + 1) by omega]; exact this)]
    simp only [Nat.add_zero] at h0
    rw [h0, List.length_cons, List.range'_succ, List.countP_cons]
    split <;> rename_i hp <;> simp

theorem need_le {c : Cfg} (hd : c.den ≠ 0) (n m : Nat) : need c n ≤ m ↔ Enough c n m := by
  unfold need Enough
  have hd' : 0 < c.den := Nat.pos_of_ne_zero hd
  have : (n * c.num + (c.den - 1)) / c.den ≤ m ↔ n * c.num ≤ m * c.den := by
    rw [← Nat.lt_succ_iff, Nat.div_lt_iff_lt_mul hd']
    rw [Nat.succ_mul]; omega
  have h2 : min n ((n * c.num + (c.den - 1)) / c.den) ≤ m ↔ (n * c.num + (c.den - 1)) / c.den ≤ m ∨ n ≤ m := by omega
  rw [h2, this]

/-! ## The loop -/

instance (c : Cfg) (n m : Nat) : Decidable (Enough c n m) := by unfold Enough; infer_instance

def convAt (c : Cfg) (w : World S) (n k : Nat) : Bool := decide (Enough c n (doneAfter w n k))

def riderAt (c : Cfg) (zero : S) (w : World S) (n : Nat) : Nat → Option (Rider S)
  | 0 => none
  | k + 1 => some ⟨rowOf zero w n k, c.save && (convAt c w n k || (w.turn k).intrFill || decide (c.max - 1 ≤ k)), convAt c w n k⟩

def evalReq (c : Cfg) (zero : S) (w : World S) (n k : Nat) : Req S := ⟨k + 1, some (k + 2), .eval, riderAt c zero w n k⟩

structure Inv (c : Cfg) (zero : S) (w : World S) (n : Nat) (s : St S) : Prop where
  len : s.subs.length = n
  sub : ∀ j, j < n → ∃ x, s.subs[j]? = some x ∧ x.converged = decide (Retired w j s.k) ∧ x.neq = 0
  rows : s.rows = (List.range s.k).map (rowOf zero w n)
  next : s.next = s.k + 1
  sent : s.sent = discovery :: (List.range s.k).map (evalReq c zero w n)
  rider : s.rider = riderAt c zero w n s.k
  conv : s.converged = true ↔ ∃ i, s.k = i + 1 ∧ Enough c n (doneAfter w n i)
  before : ∀ i, i + 1 < s.k → ¬ Enough c n (doneAfter w n i)
  intr : ∀ i, i < s.k → (w.turn i).intr = false
  abort : ∀ i, i < s.k → ¬ AbortIn w i
  work : ∀ i, i < s.k → Work w n i
  max : s.k ≤ c.max

theorem inv_start (c : Cfg) (zero : S) (w : World S) (n : Nat) : Inv c zero w n (start zero n) where
  len := by simp [start]
  sub j hj := ⟨⟨false, 0, zero⟩, by simp [start, hj], by simp [start, Retired], rfl⟩
  rows := rfl
  next := rfl
  sent := rfl
  rider := rfl
  conv := by simp [start]
  before := by intro i h; simp [start] at h
  intr := by intro i h; simp [start] at h
  abort := by intro i h; simp [start] at h
  work := by intro i h; simp [start] at h
  max := by simp [start]

/-- The ways out of the loop. -/
inductive Exit (c : Cfg) (zero : S) (w : World S) (n : Nat) : Bool → St S → Prop
  | cond {s} : Inv c zero w n s → (s.k = c.max ∨ s.converged = true ∨ (w.turn s.k).intr = true) → Exit c zero w n true s
  | noEq {s} (subs) : Inv c zero w n s → s.k < c.max → s.converged = false → (w.turn s.k).intr = false → ¬ Work w n s.k → ¬ AbortIn w s.k →
      Exit c zero w n true { s with next := s.next + 1, sent := s.sent ++ [evalReq c zero w n s.k], subs := subs }
  | abort {s} : Inv c zero w n s → s.k < c.max → AbortIn w s.k →
      Exit c zero w n false { s with next := s.next + 1, sent := s.sent ++ [evalReq c zero w n s.k] }

theorem retired_succ (w : World S) (j k : Nat) : Retired w j (k + 1) ↔ Retired w j k ∨ (HasEq w j k ∧ ((w.turn k).fit j).2 = true) := by
  unfold Retired
  constructor
  · rintro ⟨i, h, h'⟩
    rcases Nat.lt_succ_iff_lt_or_eq.1 h with h | rfl
    · exact .inl ⟨i, h, h'⟩
    · exact .inr h'
  · rintro (⟨i, h, h'⟩ | h)
    · exact ⟨i, by omega, h'⟩
    · exact ⟨k, by omega, h⟩

theorem loop_exit (c : Cfg) (hd : c.den ≠ 0) (zero : S) (w : World S) (n : Nat) : ∀ f s, Inv c zero w n s → c.max < s.k + f →
    Exit c zero w n (loop c zero w f s).1 (loop c zero w f s).2 := by
  intro f
  induction f with
  | zero => intro s h hf; have := h.max; omega
  | succ f ih =>
    intro s h hf
    rw [loop]
    dsimp only
    split
    case isFalse hc =>
      refine .cond h ?_
      have := h.max
      cases h1 : s.converged
      · cases h2 : (w.turn s.k).intr
        · have hk : ¬ s.k < c.max := by simpa [h1, h2] using hc
          exact .inl (Nat.le_antisymm this (Nat.le_of_not_lt hk))
        · simp
      · simp
    case isTrue hc =>
      simp only [Bool.and_eq_true, decide_eq_true_eq, Bool.not_eq_true', ] at hc
      obtain ⟨⟨hk, hcv⟩, hi⟩ := hc
      have hreq : (⟨s.next, some (s.next + 1), .eval, s.rider⟩ : Req S) = evalReq c zero w n s.k := by
        rw [h.next, h.rider]; rfl
      rw [hreq]
      split
      · next ha => exact .abort h hk (.inl ha)
      next ha =>
      have ha : (w.turn s.k).abort1 = false := by simpa using ha
      rcases hcol : collect (s.subs, 0) (w.turn s.k).replies with _ | ⟨subs, m⟩
      · exact .abort h hk (.inr (.inr ((collect_none _ _).1 hcol)))
      dsimp only
      have hnr : ¬ ∃ r ∈ (w.turn s.k).replies, r.abort = true := by
        intro hx; rw [(collect_none _ (s.subs, 0)).2 hx] at hcol; cases hcol
      split
      · next ha2 => exact .abort h hk (.inr (.inl ha2))
      next ha2 =>
      have ha2 : (w.turn s.k).abort2 = false := by simpa using ha2
      have hna : ¬ AbortIn w s.k := by
        rintro (x | x | x)
        · rw [ha] at x; cases x
        · rw [ha2] at x; cases x
        · exact hnr x
      have F : Filled s.subs (fun j => HasEq w j s.k) (subs, m) :=
        (collect_ok _ (filled_nil s.subs) hcol).congr (by intro j; simp [HasEq])
      have hwork : m ≠ 0 ↔ Work w n s.k := by
        rw [show (m ≠ 0) = ((subs, m).2 ≠ 0) from rfl, F.total]
        constructor
        · rintro ⟨j, x, h1, h2, h3⟩
          have hj : j < n := by rw [← h.len]; exact (List.getElem?_eq_some_iff.1 h1).1
          obtain ⟨y, g1, g2, _⟩ := h.sub j hj
          rw [h1] at g1; cases g1
          exact ⟨j, hj, h3, by rw [g2] at h2; simpa using h2⟩
        · rintro ⟨j, hj, h3, h4⟩
          obtain ⟨y, g1, g2, _⟩ := h.sub j hj
          exact ⟨j, y, g1, by rw [g2]; simpa using h4, h3⟩
      split
      · next hm =>
        have hm : m = 0 := by simpa using hm
        exact .noEq subs h hk hcv hi (by rw [← hwork]; simp [hm]) hna
      next hm =>
      have hm : m ≠ 0 := by simpa using hm
      have hlen : subs.length = n := by rw [← h.len]; exact F.len
      -- the subsolvers
      have hsub : ∀ j, j < n → ∃ x y, subs[j]? = some x ∧ solve zero (w.turn s.k) j x = (y, decide (Retired w j (s.k + 1) ∨ ¬ HasEq w j s.k)) ∧
          y.converged = decide (Retired w j (s.k + 1)) ∧ y.neq = 0 ∧ y.sol = solOf zero w j s.k := by
        intro j hj
        obtain ⟨x0, g1, g2, g3⟩ := h.sub j hj
        obtain ⟨x, k1, k2, k3, k4⟩ := F.sub j x0 g1
        refine ⟨x, _, k1, Prod.ext rfl ?_, ?_⟩
        · unfold solve
          rw [k2, g2]
          by_cases hr : Retired w j s.k
          · simp [hr, retired_succ]
          · by_cases he : HasEq w j s.k
            · have : x.neq ≠ 0 := k4.2 (.inr ⟨by rw [g2]; simpa using hr, he⟩)
              simp [hr, he, this, retired_succ]
            · have : x.neq = 0 := by
                by_contra hx
                rcases k4.1 hx with y | ⟨_, y⟩
                · exact y g3
                · exact he y
              simp [hr, he, this]
        · unfold solve solOf
          rw [k2, g2]
          by_cases hr : Retired w j s.k
          · have : x.neq = 0 := by
              by_contra hx
              rcases k4.1 hx with y | ⟨y, _⟩
              · exact y g3
              · rw [g2] at y; simp [hr] at y
            simp [hr, retired_succ, this]
          · by_cases he : HasEq w j s.k
            · have : x.neq ≠ 0 := k4.2 (.inr ⟨by rw [g2]; simpa using hr, he⟩)
              simp [hr, he, this, retired_succ]
            · have : x.neq = 0 := by
                by_contra hx
                rcases k4.1 hx with y | ⟨_, y⟩
                · exact y g3
                · exact he y
              simp [hr, he, this, retired_succ]
      have hcount : (solveAll zero (w.turn s.k) 0 subs).2 = doneAfter w n s.k := by
        rw [solveAll_count zero (w.turn s.k) (fun j => decide (Retired w j (s.k + 1) ∨ ¬ HasEq w j s.k)) subs 0, hlen, ← List.range_eq_range']
        · rfl
        · intro j x hx
          have hj : j < n := by rw [← hlen]; exact (List.getElem?_eq_some_iff.1 hx).1
          obtain ⟨x', y, g1, g2, _⟩ := hsub j hj
          rw [hx] at g1; cases g1
          rw [Nat.zero_add, g2]
      have hsols : (solveAll zero (w.turn s.k) 0 subs).1.map (·.sol) = rowOf zero w n s.k := by
        apply List.ext_getElem?
        intro j
        rw [List.getElem?_map, rowOf, List.getElem?_map]
        by_cases hj : j < n
        · obtain ⟨x, y, g1, g2, _, _, g3⟩ := hsub j hj
          rw [solveAll_get _ _ _ _ _ _ g1, Nat.zero_add, g2, List.getElem?_range hj]
          simp [g3]
        · rw [List.getElem?_eq_none (by rw [solveAll_length, hlen]; omega), List.getElem?_eq_none (by simp; omega)]
          rfl
      have hconv : decide (need c subs.length ≤ (solveAll zero (w.turn s.k) 0 subs).2) = convAt c w n s.k := by
        rw [hcount, hlen]; unfold convAt; exact decide_eq_decide.2 (need_le hd _ _)
      rw [hsols, hconv]
      apply ih
      · refine ⟨?_, ?_, ?_, ?_, ?_, ?_, ?_, ?_, ?_, ?_, ?_, ?_⟩
        · dsimp only; rw [solveAll_length]; exact hlen
        · intro j hj
          obtain ⟨x, y, g1, g2, g3, g4, _⟩ := hsub j hj
          refine ⟨y, ?_, g3, g4⟩
          dsimp only; rw [solveAll_get _ _ _ _ _ _ g1, Nat.zero_add, g2]
        · dsimp only; rw [h.rows, List.range_succ, List.map_append]; rfl
        · dsimp only; rw [h.next]
        · dsimp only; rw [h.sent, List.range_succ, List.map_append]; rfl
        · rfl
        · dsimp only; unfold convAt
          constructor
          · intro hx; exact ⟨s.k, rfl, by simpa using hx⟩
          · rintro ⟨i, hi, hx⟩
            have : i = s.k := by omega
            subst this; simpa using hx
        · intro i hi'
          dsimp only at hi'
          by_cases hik : i + 1 < s.k
          · exact h.before i hik
          · intro hx
            have := h.conv.2 ⟨i, by omega, hx⟩
            rw [hcv] at this; cases this
        · intro i hi'
          rcases Nat.lt_succ_iff_lt_or_eq.1 hi' with h1 | h1
          · exact h.intr i h1
          · subst h1; exact hi
        · intro i hi'
          rcases Nat.lt_succ_iff_lt_or_eq.1 hi' with h1 | h1
          · exact h.abort i h1
          · subst h1; exact hna
        · intro i hi'
          rcases Nat.lt_succ_iff_lt_or_eq.1 hi' with h1 | h1
          · exact h.work i h1
          · subst h1; exact hwork.1 hm
        · exact hk
      · dsimp only; omega

end Verif.SolveLoop

namespace Verif.SolveLoop
variable {S : Type}

/-- What `getResult` returns and sends. -/
inductive Ends (c : Cfg) (zero : S) (w : World S) (n : Nat) : Out S → List (Req S) → Prop
  | abort (k) : (∀ i, i < k → (w.turn i).intr = false) → k < c.max → AbortIn w k →
      Ends c zero w n .abort (discovery :: (List.range (k + 1)).map (evalReq c zero w n))
  | after {s m} : Inv c zero w n s →
      ((m = s.k ∧ (s.k = c.max ∨ s.converged = true ∨ (w.turn s.k).intr = true)) ∨
        (m = s.k + 1 ∧ s.k < c.max ∧ s.converged = false ∧ (w.turn s.k).intr = false ∧ ¬ Work w n s.k ∧ ¬ AbortIn w s.k)) →
      w.abortEnd = true → Ends c zero w n .empty (discovery :: (List.range m).map (evalReq c zero w n))
  | done {s m} : Inv c zero w n s →
      ((m = s.k ∧ (s.k = c.max ∨ s.converged = true ∨ (w.turn s.k).intr = true)) ∨
        (m = s.k + 1 ∧ s.k < c.max ∧ s.converged = false ∧ (w.turn s.k).intr = false ∧ ¬ Work w n s.k ∧ ¬ AbortIn w s.k)) →
      w.abortEnd = false →
      Ends c zero w n (if w.abortLast then .abort else .done ⟨s.converged, s.k, s.rows⟩)
        (discovery :: (List.range m).map (evalReq c zero w n) ++
          if c.lastUpdate && (s.k == c.max || w.intrEnd || s.converged) then [⟨m + 1, none, .update, riderAt c zero w n s.k⟩] else [])

theorem getResult_ends {c : Cfg} (hd : c.den ≠ 0) (zero : S) (w : World S) {n : Nat} (hn : w.subs = some n) (h0 : n ≠ 0) :
    Ends c zero w n (getResult c zero w).1 (getResult c zero w).2 := by
  unfold getResult
  rw [hn]
  dsimp only
  rw [if_neg (by simpa using h0)]
  have E := loop_exit c hd zero w n (c.max + 1) (start zero n) (inv_start c zero w n) (by simp [start])
  rcases hl : loop c zero w (c.max + 1) (start zero n) with ⟨b, s⟩
  rw [hl] at E
  dsimp only at E
  rcases E with ⟨hI, hc⟩ | ⟨subs, hI, h1, h2, h3, h4, h5⟩ | ⟨hI, h1, h2⟩
  · dsimp only
    have ht : s.rows.take s.k = s.rows := by rw [List.take_of_length_le]; rw [hI.rows]; simp
    cases ha : w.abortEnd
    · rw [if_neg (by simp), ht]
      have := Ends.done (m := s.k) hI (.inl ⟨rfl, hc⟩) ha
      rw [hI.rider, hI.next, hI.sent]
      generalize (c.lastUpdate && (s.k == c.max || w.intrEnd || s.converged)) = u at this ⊢
      cases hb : w.abortLast <;> rw [hb] at this <;> cases u <;> simpa using this
    · rw [if_pos rfl, hI.sent]; exact .after hI (.inl ⟨rfl, hc⟩) ha
  · rename_i s
    dsimp only
    have hs : s.sent ++ [evalReq c zero w n s.k] = discovery :: (List.range (s.k + 1)).map (evalReq c zero w n) := by
      rw [hI.sent, List.range_succ, List.map_append]; rfl
    have ht : s.rows.take s.k = s.rows := by rw [List.take_of_length_le]; rw [hI.rows]; simp
    cases ha : w.abortEnd
    · rw [if_neg (by simp), ht]
      have := Ends.done (m := s.k + 1) hI (.inr ⟨rfl, h1, h2, h3, h4, h5⟩) ha
      rw [hI.rider, hI.next, hs]
      generalize (c.lastUpdate && (s.k == c.max || w.intrEnd || s.converged)) = u at this ⊢
      cases hb : w.abortLast <;> rw [hb] at this <;> cases u <;> simpa using this
    · rw [if_pos rfl, hs]; exact .after hI (.inr ⟨rfl, h1, h2, h3, h4, h5⟩) ha
  · rename_i s
    dsimp only
    rw [hI.sent]
    have hs : s.sent ++ [evalReq c zero w n s.k] = discovery :: (List.range (s.k + 1)).map (evalReq c zero w n) := by
      rw [hI.sent, List.range_succ, List.map_append]; rfl
    rw [← hI.sent, hs]
    exact .abort s.k hI.intr h1 h2

/-- The requests sent, in one form. -/
theorem Ends.form {c : Cfg} {zero : S} {w : World S} {n : Nat} {o l} (h : Ends c zero w n o l) :
    ∃ m u, m ≤ c.max ∧ l = discovery :: (List.range m).map (evalReq c zero w n) ++ u ∧
      (u = [] ∨ ∃ k, u = [⟨m + 1, none, .update, riderAt c zero w n k⟩] ∧ c.lastUpdate = true ∧ k ≤ m ∧ w.abortEnd = false) := by
  cases h with
  | abort k _ h1 _ => exact ⟨k + 1, [], h1, by simp, .inl rfl⟩
  | after hI h1 ha =>
    rename_i s m
    refine ⟨m, [], ?_, by simp, .inl rfl⟩
    have := hI.max
    rcases h1 with ⟨h, _⟩ | ⟨h, _⟩ <;> omega
  | done hI h1 ha =>
    rename_i s m
    have := hI.max
    refine ⟨m, _, ?_, rfl, ?_⟩
    · rcases h1 with ⟨h, _⟩ | ⟨h, _⟩ <;> omega
    · split
      next hu =>
        right
        refine ⟨s.k, rfl, ?_, ?_, ha⟩
        · simp only [Bool.and_eq_true] at hu; exact hu.1
        · rcases h1 with ⟨h, _⟩ | ⟨h, _⟩ <;> omega
      · exact .inl rfl

theorem form_get {c : Cfg} {zero : S} {w : World S} {n m : Nat} {u : List (Req S)} {i : Nat} {r : Req S}
    (hu : u = [] ∨ ∃ k, u = [⟨m + 1, none, .update, riderAt c zero w n k⟩])
    (h : (discovery :: (List.range m).map (evalReq c zero w n) ++ u)[i]? = some r) :
    (i = 0 ∧ r = discovery) ∨ (∃ k, k < m ∧ i = k + 1 ∧ r = evalReq c zero w n k) ∨ (i = m + 1 ∧ u = [r] ∧ ∃ k, r = ⟨m + 1, none, .update, riderAt c zero w n k⟩) := by
  cases i with
  | zero => left; simp at h; exact ⟨rfl, h.symm⟩
  | succ i =>
    right
    by_cases hi : i < m
    · left
      rw [List.cons_append, List.getElem?_cons_succ, List.getElem?_append_left (by simpa using hi), List.getElem?_map, List.getElem?_range hi] at h
      simp at h
      exact ⟨i, hi, rfl, h.symm⟩
    · right
      rw [List.cons_append, List.getElem?_cons_succ, List.getElem?_append_right (by simpa using Nat.le_of_not_lt hi)] at h
      rcases hu with rfl | ⟨k, rfl⟩
      · simp at h
      · simp only [List.length_map, List.length_range] at h
        have : i - m = 0 := by
          by_contra hx
          rw [List.getElem?_eq_none (by simp; omega)] at h; cases h
        rw [this] at h
        simp at h
        exact ⟨by omega, by rw [h], k, h.symm⟩

theorem form_evals {c : Cfg} {zero : S} {w : World S} {n m : Nat} {u : List (Req S)}
    (hu : u = [] ∨ ∃ k, u = [⟨m + 1, none, .update, riderAt c zero w n k⟩]) :
    evals (discovery :: (List.range m).map (evalReq c zero w n) ++ u) = m := by
  unfold evals
  rw [List.cons_append, List.countP_cons, List.countP_append]
  have h1 : ((List.range m).map (evalReq c zero w n)).countP (fun r => decide (r.kind = .eval)) = m := by
    rw [List.countP_eq_length.2]
    · simp
    · intro a ha
      obtain ⟨k, _, rfl⟩ := List.mem_map.1 ha
      rfl
  rw [h1]
  rcases hu with rfl | ⟨k, rfl⟩ <;> simp [discovery]

theorem form_delivered (c : Cfg) (zero : S) (w : World S) (n m : Nat) (u : List (Req S)) :
    delivered (discovery :: (List.range m).map (evalReq c zero w n) ++ u) = (List.range (m - 1)).map (rowOf zero w n) ++ delivered u := by
  have : ∀ m, ((List.range m).map (evalReq c zero w n)).filterMap (fun r => r.rider.map (·.sols)) = (List.range (m - 1)).map (rowOf zero w n) := by
    intro m
    induction m with
    | zero => rfl
    | succ m ih =>
      rw [List.range_succ, List.map_append, List.filterMap_append, ih]
      cases m with
      | zero => rfl
      | succ m => rw [show m + 1 + 1 - 1 = (m + 1 - 1) + 1 by omega, List.range_succ, List.map_append]; rfl
  unfold delivered
  rw [List.cons_append, List.filterMap_cons]
  simp only [discovery, Option.map_none]
  rw [List.filterMap_append, this]

theorem withoutFailures_collect (l : List Reply) : ∀ (p : List (Sub S) × Nat), collect p (l.filter fun r => !r.skip || r.abort) = collect p l := by
  induction l with
  | nil => intro p; rfl
  | cons a l ih =>
    intro p
    cases hs : a.skip <;> cases ha : a.abort <;> simp [collect, hs, ha, ih]

theorem withoutFailures_loop (c : Cfg) (zero : S) (w : World S) : ∀ f s, loop c zero (withoutFailures w) f s = loop c zero w f s := by
  intro f
  induction f with
  | zero => intro s; rfl
  | succ f ih =>
    intro s
    have hsolve : ∀ i l, solveAll zero { w.turn s.k with replies := (w.turn s.k).replies.filter fun r => !r.skip || r.abort } i l = solveAll zero (w.turn s.k) i l := by
      intro i l
      induction l generalizing i with
      | nil => rfl
      | cons a l ih2 => simp only [solveAll, ih2]; rfl
    rw [loop, loop]
    simp only [ih]
    simp only [withoutFailures, withoutFailures_collect, hsolve]

end Verif.SolveLoop
