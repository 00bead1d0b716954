import Verif.Model.Hiid
import Verif.Spec.Hiid
import Verif.Proof.Bytes
/-! Lemmas about the identifier model. -/
namespace Verif.Hiid
open HiidSpec

theorem isWild_iff (a : Int) : isWild a = true ↔ a = -2 := by simp [isWild, aidWild]
theorem isAny_iff (a : Int) : isAny a = true ↔ a = -1 := by simp [isAny, aidAny]

/-- A concrete member of a pattern's language. -/
def sample : List Int → List Int
  | [] => []
  | a :: p => if a = -2 then [] else if a = -1 then 0 :: sample p else a :: sample p

theorem sample_concrete (p : List Int) : Concrete (sample p) := by
  induction p with
  | nil => simp [sample, Concrete]
  | cons a p ih =>
    unfold sample
    split
    · simp [Concrete]
    · split
      · intro x hx
        rcases List.mem_cons.1 hx with rfl | hx
        · decide
        · exact ih x hx
      · intro x hx
        rcases List.mem_cons.1 hx with rfl | hx
        · exact ⟨by assumption, by assumption⟩
        · exact ih x hx

theorem sample_denotes (p : List Int) : Denotes p (sample p) := by
  induction p with
  | nil => exact .nil
  | cons a p ih =>
    unfold sample
    split
    · subst_vars; exact .star _ _
    · split
      · subst_vars; exact .any _ _ _ ih
      · exact .atom _ _ _ (by assumption) (by assumption) ih

theorem denotes_nil_iff (q : List Int) : Denotes q [] ↔ endOk q = true := by
  cases q with
  | nil => simp [endOk, Denotes.nil]
  | cons b q =>
    simp only [endOk, isWild_iff]
    constructor
    · intro h; cases h; rfl
    · rintro rfl; exact .star _ _

theorem matchLoop_iff (p q : List Int) :
    matchLoop p q = true ↔ ∃ c, Concrete c ∧ Denotes p c ∧ Denotes q c := by
  induction p generalizing q with
  | nil =>
    have : matchLoop [] q = endOk q := by cases q <;> simp [matchLoop, endOk]
    rw [this, ← denotes_nil_iff]
    constructor
    · intro h; exact ⟨[], by simp [Concrete], .nil, h⟩
    · rintro ⟨c, _, h1, h2⟩; cases h1; exact h2
  | cons a p ih =>
    cases q with
    | nil =>
      have : matchLoop (a :: p) [] = endOk (a :: p) := by simp [matchLoop, endOk]
      rw [this, ← denotes_nil_iff]
      constructor
      · intro h; exact ⟨[], by simp [Concrete], h, .nil⟩
      · rintro ⟨c, _, h1, h2⟩; cases h2; exact h1
    | cons b q =>
      unfold matchLoop
      by_cases ha : a = -2
      · subst ha
        simp only [isWild, aidWild]
        simp
        exact ⟨_, sample_concrete _, .star _ _, sample_denotes _⟩
      by_cases hb : b = -2
      · subst hb
        simp [isWild, aidWild]
        exact ⟨_, sample_concrete _, sample_denotes _, .star _ _⟩
      have hw : (isWild a || isWild b) = false := by simp [isWild, aidWild, ha, hb]
      rw [hw]
      simp only [Bool.false_eq_true, ↓reduceIte]
      by_cases hm : aidMatches a b = true
      · simp only [hm, Bool.not_true, Bool.false_eq_true, ↓reduceIte]
        rw [ih]
        constructor
        · rintro ⟨c, hc, h1, h2⟩
          -- choose the head component
          have : ∃ x, (x ≠ -1 ∧ x ≠ -2) ∧ (∀ c, Denotes p c → Denotes (a :: p) (x :: c)) ∧
              (∀ c, Denotes q c → Denotes (b :: q) (x :: c)) := by
            by_cases ha1 : a = -1
            · by_cases hb1 : b = -1
              · subst ha1; subst hb1
                exact ⟨0, by decide, fun c h => .any _ _ _ h, fun c h => .any _ _ _ h⟩
              · subst ha1
                exact ⟨b, ⟨hb1, hb⟩, fun c h => .any _ _ _ h, fun c h => .atom _ _ _ hb1 hb h⟩
            · by_cases hb1 : b = -1
              · subst hb1
                exact ⟨a, ⟨ha1, ha⟩, fun c h => .atom _ _ _ ha1 ha h, fun c h => .any _ _ _ h⟩
              · have : a = b := by
                  simpa [aidMatches, isAny, isWild, aidAny, aidWild, ha, hb, ha1, hb1] using hm
                subst this
                exact ⟨a, ⟨ha1, ha⟩, fun c h => .atom _ _ _ ha1 ha h, fun c h => .atom _ _ _ ha1 ha h⟩
          obtain ⟨x, hx, f1, f2⟩ := this
          refine ⟨x :: c, ?_, f1 c h1, f2 c h2⟩
          intro y hy
          rcases List.mem_cons.1 hy with rfl | hy
          · exact hx
          · exact hc y hy
        · rintro ⟨c, hc, h1, h2⟩
          cases h1 with
          | star => exact absurd rfl ha
          | any x _ c h1 =>
            cases h2 with
            | star => exact absurd rfl hb
            | any _ _ _ h2 => exact ⟨c, fun y hy => hc y (List.mem_cons_of_mem _ hy), h1, h2⟩
            | atom _ _ _ _ _ h2 => exact ⟨c, fun y hy => hc y (List.mem_cons_of_mem _ hy), h1, h2⟩
          | atom x _ c _ _ h1 =>
            cases h2 with
            | star => exact absurd rfl hb
            | any _ _ _ h2 => exact ⟨c, fun y hy => hc y (List.mem_cons_of_mem _ hy), h1, h2⟩
            | atom _ _ _ _ _ h2 => exact ⟨c, fun y hy => hc y (List.mem_cons_of_mem _ hy), h1, h2⟩
      · have hm' : aidMatches a b = false := by simpa using hm
        simp only [hm', Bool.not_false, ↓reduceIte]
        constructor
        · intro h; simp at h
        · rintro ⟨c, hc, h1, h2⟩
          exfalso
          simp only [aidMatches, Bool.or_eq_false_iff] at hm'
          obtain ⟨⟨⟨⟨ha1, _⟩, hb1⟩, _⟩, hne⟩ := hm'
          cases h1 with
          | star => exact ha rfl
          | any x _ c h1 => simp [isAny, aidAny] at ha1
          | atom x _ c _ _ h1 =>
            cases h2 with
            | star => exact hb rfl
            | any _ _ _ h2 => simp [isAny, aidAny] at hb1
            | atom _ _ _ _ _ h2 => simp at hne

theorem matchLoop_self (p : List Int) : matchLoop p p = true := by
  rw [matchLoop_iff]; exact ⟨_, sample_concrete p, sample_denotes p, sample_denotes p⟩

/-- A value distinct from the given one and from the wildcards. -/
def other (b : Int) : Int := if b = 0 then 1 else 0

theorem subsetLoop_iff (p q : List Int) :
    subsetLoop p q = true ↔ ∀ c, Concrete c → Denotes p c → Denotes q c := by
  induction p generalizing q with
  | nil =>
    have : subsetLoop [] q = endOk q := by cases q <;> simp [subsetLoop, endOk]
    rw [this, ← denotes_nil_iff]
    constructor
    · intro h c _ h1; cases h1; exact h
    · intro h; exact h [] (by simp [Concrete]) .nil
  | cons a p ih =>
    cases q with
    | nil =>
      have : subsetLoop (a :: p) [] = false := by simp [subsetLoop]
      rw [this]
      constructor
      · intro h; simp at h
      · intro h
        exfalso
        by_cases ha : a = -2
        · subst ha
          have := h [0] (by simp [Concrete]) (.star _ _)
          cases this
        · have h2 := h _ (sample_concrete (a :: p)) (sample_denotes (a :: p))
          unfold sample at h2
          rw [if_neg ha] at h2
          split at h2 <;> cases h2
    | cons b q =>
      unfold subsetLoop
      by_cases hb : b = -2
      · subst hb
        simp [isWild, aidWild]
        intro c _ _; exact .star _ _
      have hwb : isWild b = false := by simp [isWild, aidWild, hb]
      rw [hwb]
      simp only [Bool.false_eq_true, ↓reduceIte]
      by_cases ha : a = -2
      · subst ha
        simp only [isWild, aidWild]
        simp
        refine ⟨[], by simp [Concrete], .star _ _, ?_⟩
        rw [denotes_nil_iff]; simp [endOk, hwb]
      have hwa : isWild a = false := by simp [isWild, aidWild, ha]
      by_cases ha1 : a = -1
      · subst ha1
        by_cases hb1 : b = -1
        · subst hb1
          have : (isWild (-1) || (isAny (-1) && !isAny (-1)) || !aidMatches (-1) (-1)) = false := by decide
          rw [this]
          simp only [Bool.false_eq_true, ↓reduceIte]
          rw [ih]
          constructor
          · intro h c hc h1
            cases h1 with
            | any x _ c h1 => exact .any _ _ _ (h c (fun y hy => hc y (List.mem_cons_of_mem _ hy)) h1)
            | atom _ _ _ hh _ _ => exact absurd rfl hh
          · intro h c hc h1
            have := h (0 :: c) (by
              intro y hy; rcases List.mem_cons.1 hy with rfl | hy
              · decide
              · exact hc y hy) (.any _ _ _ h1)
            cases this with
            | any _ _ _ h2 => exact h2
        · have hany : isAny b = false := by simp [isAny, aidAny, hb1]
          have : (isWild (-1) || (isAny (-1) && !isAny b) || !aidMatches (-1) b) = true := by
            rw [hany]; simp [isAny, aidAny]
          rw [this]
          simp only [↓reduceIte]
          constructor
          · intro h; simp at h
          · intro h
            exfalso
            have := h (other b :: sample p) (by
              intro y hy; rcases List.mem_cons.1 hy with rfl | hy
              · unfold other; split <;> decide
              · exact sample_concrete p y hy) (.any _ _ _ (sample_denotes p))
            generalize hx : other b = x at this
            cases this with
            | star => exact hb rfl
            | any => exact hb1 rfl
            | atom _ _ _ _ _ _ => revert hx; unfold other; split <;> omega
      · by_cases hb1 : b = -1
        · subst hb1
          have : (isWild a || (isAny a && !isAny (-1)) || !aidMatches a (-1)) = false := by
            simp [hwa, aidMatches, isAny, aidAny]
          rw [this]
          simp only [Bool.false_eq_true, ↓reduceIte]
          rw [ih]
          constructor
          · intro h c hc h1
            cases h1 with
            | star => exact absurd rfl ha
            | any => exact absurd rfl ha1
            | atom _ _ c _ _ h1 => exact .any _ _ _ (h c (fun y hy => hc y (List.mem_cons_of_mem _ hy)) h1)
          · intro h c hc h1
            have := h (a :: c) (by
              intro y hy; rcases List.mem_cons.1 hy with rfl | hy
              · exact ⟨ha1, ha⟩
              · exact hc y hy) (.atom _ _ _ ha1 ha h1)
            cases this with
            | any _ _ _ h2 => exact h2
            | atom _ _ _ hh _ _ => exact absurd rfl hh
        · by_cases hab : a = b
          · subst hab
            have : (isWild a || (isAny a && !isAny a) || !aidMatches a a) = false := by
              simp [hwa, aidMatches]
            rw [this]
            simp only [Bool.false_eq_true, ↓reduceIte]
            rw [ih]
            constructor
            · intro h c hc h1
              cases h1 with
              | star => exact absurd rfl ha
              | any => exact absurd rfl ha1
              | atom _ _ c _ _ h1 => exact .atom _ _ _ ha1 ha (h c (fun y hy => hc y (List.mem_cons_of_mem _ hy)) h1)
            · intro h c hc h1
              have := h (a :: c) (by
                intro y hy; rcases List.mem_cons.1 hy with rfl | hy
                · exact ⟨ha1, ha⟩
                · exact hc y hy) (.atom _ _ _ ha1 ha h1)
              cases this with
              | star => exact absurd rfl ha
              | any _ _ _ h2 => exact absurd rfl ha1
              | atom _ _ _ hh _ h2 => exact h2
          · have : (isWild a || (isAny a && !isAny b) || !aidMatches a b) = true := by
              simp [aidMatches, isAny, isWild, aidAny, aidWild, ha, hb, ha1, hb1, hab]
            rw [this]
            simp only [↓reduceIte]
            constructor
            · intro h; simp at h
            · intro h
              exfalso
              have := h (a :: sample p) (by
                intro y hy; rcases List.mem_cons.1 hy with rfl | hy
                · exact ⟨ha1, ha⟩
                · exact sample_concrete p y hy) (.atom _ _ _ ha1 ha (sample_denotes p))
              cases this with
              | star => exact hb rfl
              | any => exact hb1 rfl
              | atom => exact hab rfl

theorem concrete_denotes_iff (p c : List Int) (hp : Concrete p) : Denotes p c ↔ p = c := by
  induction p generalizing c with
  | nil => constructor
           · intro h; cases h; rfl
           · rintro rfl; exact .nil
  | cons a p ih =>
    have ha := hp a (by simp)
    have hp' : Concrete p := fun y hy => hp y (List.mem_cons_of_mem _ hy)
    constructor
    · intro h
      cases h with
      | star => exact absurd rfl ha.2
      | any => exact absurd rfl ha.1
      | atom _ _ c _ _ h => rw [(ih c hp').1 h]
    · rintro rfl; exact .atom _ _ _ ha.1 ha.2 ((ih p hp').2 rfl)

theorem denotes_append_star (o c : List Int) (ho : Concrete o) : Denotes (o ++ [-2]) c ↔ o <+: c := by
  induction o generalizing c with
  | nil => simp; exact .star _ _
  | cons a o ih =>
    have ha := ho a (by simp)
    have ho' : Concrete o := fun y hy => ho y (List.mem_cons_of_mem _ hy)
    constructor
    · intro h
      cases h with
      | star => exact absurd rfl ha.2
      | any => exact absurd rfl ha.1
      | atom _ _ c _ _ h => exact (List.prefix_cons_inj a).2 ((ih c ho').1 h)
    · intro h
      obtain ⟨t, rfl⟩ := h
      exact .atom _ _ _ ha.1 ha.2 ((ih _ ho').2 ⟨t, rfl⟩)

/-! ### packing -/

theorem flatMap_encInt32_length (p : List Int) : (p.flatMap encInt32).length = 4 * p.length := by
  induction p with
  | nil => rfl
  | cons a p ih => simp [List.flatMap_cons, ih]; omega

theorem words_flatMap (p : List Int) (rest : Bytes) (hp : ∀ a ∈ p, IsInt32 a) :
    words p.length (p.flatMap encInt32 ++ rest) = p := by
  induction p with
  | nil => rfl
  | cons a p ih =>
    have h4 : (encInt32 a).length = 4 := encInt32_length a
    simp only [List.length_cons, List.flatMap_cons, List.append_assoc, words]
    rw [List.take_append_of_le_length (by omega), List.drop_append_of_le_length (by omega)]
    rw [List.take_of_length_le (by omega), List.drop_of_length_le (by omega)]
    rw [decInt32_encInt32 a (hp a (by simp))]
    simp [ih (fun x hx => hp x (List.mem_cons_of_mem _ hx))]

theorem words_length (n : Nat) (bs : Bytes) : (words n bs).length = n := by
  induction n generalizing bs with
  | zero => rfl
  | succ n ih => simp [words, ih]

theorem words_isInt32 (n : Nat) (bs : Bytes) (h : bs.length = 4 * n) : ∀ a ∈ words n bs, IsInt32 a := by
  induction n generalizing bs with
  | zero => simp [words]
  | succ n ih =>
    intro a ha
    simp only [words, List.mem_cons] at ha
    rcases ha with rfl | ha
    · exact decInt32_isInt32 _ (by simp; omega)
    · exact ih (bs.drop 4) (by simp; omega) a ha

theorem flatMap_words (n : Nat) (bs : Bytes) (h : bs.length = 4 * n) :
    (words n bs).flatMap encInt32 = bs := by
  induction n generalizing bs with
  | zero => simp at h; simp [words, h]
  | succ n ih =>
    simp only [words, List.flatMap_cons]
    rw [encInt32_decInt32 _ (by simp; omega), ih _ (by simp; omega)]
    exact List.take_append_drop 4 bs

theorem flatMap_encInt32_inj (p q : List Int) (hp : ∀ a ∈ p, IsInt32 a) (hq : ∀ a ∈ q, IsInt32 a)
    (hl : p.length = q.length) (h : p.flatMap encInt32 = q.flatMap encInt32) : p = q := by
  have h1 := words_flatMap p [] hp
  have h2 := words_flatMap q [] hq
  rw [h, hl, h2] at h1
  exact h1.symm

/-! ### order -/

theorem ltLoop_irrefl (p : List Int) : ltLoop p p = false := by
  induction p with
  | nil => rfl
  | cons a p ih => simp [ltLoop, ih]

theorem ltLoop_trans (p q r : List Int) (h1 : ltLoop p q = true) (h2 : ltLoop q r = true) :
    ltLoop p r = true := by
  induction p generalizing q r with
  | nil =>
    cases q with
    | nil => simp [ltLoop] at h1
    | cons b q => cases r with
      | nil => simp [ltLoop] at h2
      | cons c r => simp [ltLoop]
  | cons a p ih =>
    cases q with
    | nil => simp [ltLoop] at h1
    | cons b q =>
      cases r with
      | nil => simp [ltLoop] at h2
      | cons c r =>
        simp only [ltLoop] at *
        by_cases hab : a < b
        · by_cases hbc : b < c
          · rw [if_pos (by omega)]
          · by_cases hcb : b > c
            · rw [if_neg hbc, if_pos hcb] at h2; simp at h2
            · rw [if_pos (by omega)]
        · by_cases hba : a > b
          · rw [if_neg hab, if_pos hba] at h1; simp at h1
          · have : a = b := by omega
            subst this
            rw [if_neg hab, if_neg hba] at h1
            by_cases hbc : a < c
            · rw [if_pos hbc]
            · by_cases hcb : a > c
              · rw [if_neg hbc, if_pos hcb] at h2; simp at h2
              · rw [if_neg hbc, if_neg hcb] at h2 ⊢
                exact ih q r h1 h2

theorem ltLoop_total (p q : List Int) : ltLoop p q = true ∨ p = q ∨ ltLoop q p = true := by
  induction p generalizing q with
  | nil => cases q <;> simp [ltLoop]
  | cons a p ih =>
    cases q with
    | nil => simp [ltLoop]
    | cons b q =>
      simp only [ltLoop]
      by_cases hab : a < b
      · simp [hab]
      · by_cases hba : b < a
        · simp [hba]
        · have : a = b := by omega
          subst this
          simpa using ih q

theorem ltLoop_iff (p q : List Int) : ltLoop p q = true ↔
    (∃ s, s ≠ [] ∧ q = p ++ s) ∨
    (∃ u a b p' q', p = u ++ a :: p' ∧ q = u ++ b :: q' ∧ a < b) := by
  induction p generalizing q with
  | nil =>
    cases q with
    | nil => simp [ltLoop]
    | cons b q => simp [ltLoop]
  | cons a p ih =>
    cases q with
    | nil => simp [ltLoop]
    | cons b q =>
      simp only [ltLoop]
      by_cases hab : a < b
      · simp only [hab, ↓reduceIte, true_iff]
        exact Or.inr ⟨[], a, b, p, q, rfl, rfl, hab⟩
      · by_cases hba : a > b
        · simp only [hab, hba, ↓reduceIte, Bool.false_eq_true, false_iff, not_or]
          constructor
          · rintro ⟨s, _, h⟩; simp at h; omega
          · rintro ⟨u, x, y, p', q', h1, h2, hxy⟩
            cases u with
            | nil => simp at h1 h2; omega
            | cons z u => simp at h1 h2; omega
        · have : a = b := by omega
          subst this
          simp only [hab, ↓reduceIte]
          rw [ih]
          constructor
          · rintro (⟨s, hs, rfl⟩ | ⟨u, x, y, p', q', rfl, rfl, hxy⟩)
            · exact Or.inl ⟨s, hs, rfl⟩
            · exact Or.inr ⟨a :: u, x, y, p', q', rfl, rfl, hxy⟩
          · rintro (⟨s, hs, h⟩ | ⟨u, x, y, p', q', h1, h2, hxy⟩)
            · simp at h; exact Or.inl ⟨s, hs, h⟩
            · cases u with
              | nil => simp at h1 h2; omega
              | cons z u =>
                simp at h1 h2
                exact Or.inr ⟨u, x, y, p', q', h1.2, h2.2, hxy⟩

/-! ### slashes -/

theorem popFront_eq (n : Nat) (p : List Int) : popFront n p = p.drop n := by
  unfold popFront
  split
  · subst_vars; simp
  · split
    · rw [List.drop_of_length_le]; omega
    · rfl

theorem findFirstSlash_spec (k : Nat) (p : List Int) :
    (findFirstSlash k p = -1 ∧ aidSlash ∉ p) ∨
    ∃ u v, p = u ++ aidSlash :: v ∧ aidSlash ∉ u ∧ findFirstSlash k p = (k + u.length : Nat) := by
  induction p generalizing k with
  | nil => simp [findFirstSlash]
  | cons a p ih =>
    unfold findFirstSlash
    by_cases ha : a = aidSlash
    · subst ha
      right
      exact ⟨[], p, rfl, by simp, by simp⟩
    · simp only [beq_iff_eq, ha, ↓reduceIte]
      rcases ih (k + 1) with ⟨h1, h2⟩ | ⟨u, v, rfl, hu, hf⟩
      · left; exact ⟨h1, by simp [h2]; exact fun h => ha h.symm⟩
      · right
        refine ⟨a :: u, v, rfl, ?_, ?_⟩
        · simp [hu]; exact fun h => ha h.symm
        · rw [hf]; simp; omega

end Verif.Hiid
