import Verif.Spec.RequestId
import Verif.Proof.Assoc
import Mathlib.Tactic.Common
import Mathlib.Data.Nat.Bitwise
/-! Lemmas about request ids. -/
namespace Verif.RequestId

theorem comp_nil (i : Nat) : comp [] i = 0 := by simp [comp]
theorem comp_zero (a : Int) (l : List Int) : comp (a :: l) 0 = a := rfl
theorem comp_succ (l : List Int) (i : Nat) : comp l (i + 1) = comp l.tail i := by
  cases l <;> simp [comp]
theorem headD_eq (l : List Int) : l.headD 0 = comp l 0 := by cases l <;> rfl

theorem comp_resizeUp (id : List Int) (n i : Nat) : comp (resizeUp id n) i = comp id i := by
  unfold comp resizeUp
  simp only [List.getD_eq_getElem?_getD]
  by_cases h : i < id.length
  · rw [List.getElem?_append_left h]
  · rw [List.getElem?_append_right (by omega), List.getElem?_replicate, List.getElem?_eq_none (by omega)]
    split <;> rfl

theorem bit_natCast (m i : Nat) : bit (m : Int) i = m.testBit i := by
  unfold bit
  have : ((m : Int) / 2 ^ i % 2 = 1) ↔ m.testBit i = true := by
    rw [Nat.testBit_eq_decide_div_mod_eq]
    simp only [decide_eq_true_eq]
    have : ((m : Int) / 2 ^ i % 2) = ((m / 2 ^ i % 2 : Nat) : Int) := by
      simp
    omega
  by_cases h : m.testBit i = true
  · rw [h]; exact decide_eq_true (this.2 h)
  · have h' : m.testBit i = false := by simpa using h
    rw [h']
    exact decide_eq_false (fun e => h (this.1 e))

theorem comp_updLoop (f : Int → Int) (mask : Int) (l : List Int) (i k : Nat) (hk : k < l.length) :
    comp (updLoop f mask i l) k = if i + k < nbits ∧ bit mask (i + k) = true then f (comp l k) else comp l k := by
  induction l generalizing i k with
  | nil => simp at hk
  | cons a l ih =>
    simp only [updLoop]
    by_cases hi : i < nbits
    · rw [if_pos hi]
      cases k with
      | zero => simp only [comp_zero, Nat.add_zero, hi, true_and]
      | succ k =>
        simp only [comp_succ, List.tail_cons]
        rw [ih (i + 1) k (by simpa using hk)]
        have : i + 1 + k = i + (k + 1) := by omega
        rw [this]
    · rw [if_neg hi, if_neg (by omega)]

theorem length_updLoop (f : Int → Int) (mask : Int) (l : List Int) (i : Nat) : (updLoop f mask i l).length = l.length := by
  induction l generalizing i with
  | nil => rfl
  | cons a l ih =>
    simp only [updLoop]
    split
    · simp [ih]
    · rfl

theorem comp_ge (l : List Int) (k : Nat) (h : l.length ≤ k) : comp l k = 0 := by
  simp [comp, List.getD_eq_getElem?_getD, List.getElem?_eq_none h]

theorem size_of_bit (fuel m i : Nat) (hf : m ≤ fuel) (h : m.testBit i = true) : i < shiftLoop fuel m := by
  induction fuel generalizing m i with
  | zero =>
    have : m = 0 := by omega
    subst this
    simp at h
  | succ fuel ih =>
    simp only [shiftLoop]
    by_cases h0 : m = 0
    · subst h0; simp at h
    · rw [if_neg h0]
      cases i with
      | zero => omega
      | succ i =>
        have := ih (m / 2) i (by omega) (by rw [← Nat.testBit_succ]; exact h)
        omega

/-- What `incrSubId` and `setSubId` have in common. -/
theorem comp_upd (f : Int → Int) (id : List Int) (m : Nat) (k : Nat) :
    comp (updLoop f m 0 (resizeUp id (shiftLoop m m))) k
      = if k < nbits ∧ m.testBit k = true then f (comp id k) else comp id k := by
  by_cases hk : k < (resizeUp id (shiftLoop m m)).length
  · rw [comp_updLoop f m _ 0 k hk, comp_resizeUp, Nat.zero_add, bit_natCast]
  · rw [comp_ge _ _ (by rw [length_updLoop]; omega)]
    have hl : (resizeUp id (shiftLoop m m)).length = id.length + ((shiftLoop m m) - id.length) := by simp [resizeUp]
    rw [if_neg, comp_ge id k (by omega)]
    rintro ⟨_, hb⟩
    have := size_of_bit m m k (Nat.le_refl _) hb
    omega

theorem length_upd (f : Int → Int) (id : List Int) (m : Nat) :
    (updLoop f m 0 (resizeUp id (shiftLoop m m))).length = max id.length (shiftLoop m m) := by
  rw [length_updLoop]; simp [resizeUp]; omega

theorem cmpLoop_iff (mask : Int) (n i : Nat) (a b : List Int) :
    cmpLoop mask n i a b = true ↔ ∀ k < n, bit mask (i + k) = true → comp a k = comp b k := by
  induction n generalizing i a b with
  | zero => simp [cmpLoop]
  | succ n ih =>
    have step : ∀ a b : List Int, (if bit mask i && a.headD 0 != b.headD 0 then false else cmpLoop mask n (i + 1) a.tail b.tail) = true
        ↔ ∀ k < n + 1, bit mask (i + k) = true → comp a k = comp b k := by
      intro a b
      rw [headD_eq, headD_eq]
      by_cases h : bit mask i = true ∧ comp a 0 ≠ comp b 0
      · have : (bit mask i && comp a 0 != comp b 0) = true := by simp [h.1, h.2]
        rw [if_pos this]
        constructor
        · intro h'; cases h'
        · intro h'; exact absurd (h' 0 (by omega) h.1) h.2
      · have : ¬ (bit mask i && comp a 0 != comp b 0) = true := by
          simp only [Bool.and_eq_true, bne_iff_ne]; exact h
        rw [if_neg this, ih]
        constructor
        · intro h' k hk hb
          cases k with
          | zero => by_contra hc; exact h ⟨hb, hc⟩
          | succ k =>
            rw [comp_succ, comp_succ]
            exact h' k (by omega) (by rw [show i + 1 + k = i + (k + 1) by omega]; exact hb)
        · intro h' k hk hb
          have := h' (k + 1) (by omega) (by rw [show i + (k + 1) = i + 1 + k by omega]; exact hb)
          rwa [comp_succ, comp_succ] at this
    cases a with
    | nil =>
      cases b with
      | nil => simp [cmpLoop]
      | cons b bs => exact step [] (b :: bs)
    | cons a as => exact step (a :: as) b

theorem testBit_diffLoop (n i : Nat) (a b : List Int) (m j : Nat) :
    (diffLoop n i a b m).testBit j = true ↔ m.testBit j = true ∨ (i ≤ j ∧ j < i + n ∧ comp a (j - i) ≠ comp b (j - i)) := by
  induction n generalizing i a b m with
  | zero =>
    simp only [diffLoop]
    constructor
    · exact Or.inl
    · rintro (h | h)
      · exact h
      · omega
  | succ n ih =>
    have step : ∀ a b : List Int,
        (diffLoop n (i + 1) a.tail b.tail (if a.headD 0 ≠ b.headD 0 then m ||| 2 ^ i else m)).testBit j = true
        ↔ m.testBit j = true ∨ (i ≤ j ∧ j < i + (n + 1) ∧ comp a (j - i) ≠ comp b (j - i)) := by
      intro a b
      rw [ih, headD_eq, headD_eq]
      have hb : (if comp a 0 ≠ comp b 0 then m ||| 2 ^ i else m).testBit j = true
          ↔ m.testBit j = true ∨ (i = j ∧ comp a 0 ≠ comp b 0) := by
        split
        · rename_i h
          rw [Nat.testBit_or, Bool.or_eq_true, Nat.testBit_two_pow]
          simp [h]
        · rename_i h
          simp [h]
      rw [hb]
      by_cases hj : i + 1 ≤ j
      · have e : j - i = (j - (i + 1)) + 1 := by omega
        rw [e, comp_succ, comp_succ]
        constructor
        · rintro ((h | h) | h)
          · exact Or.inl h
          · omega
          · exact Or.inr ⟨by omega, by omega, h.2.2⟩
        · rintro (h | h)
          · exact Or.inl (Or.inl h)
          · exact Or.inr ⟨by omega, by omega, h.2.2⟩
      · constructor
        · rintro ((h | h) | h)
          · exact Or.inl h
          · obtain ⟨rfl, h⟩ := h
            exact Or.inr ⟨by omega, by omega, by simpa using h⟩
          · omega
        · rintro (h | h)
          · exact Or.inl (Or.inl h)
          · have : i = j := by omega
            subst this
            exact Or.inl (Or.inr ⟨rfl, by simpa using h.2.2⟩)
    cases a with
    | nil =>
      cases b with
      | nil =>
        have h1 : diffLoop (n + 1) i [] [] m = m := rfl
        rw [h1]
        simp [comp_nil]
      | cons b bs => exact step [] (b :: bs)
    | cons a as => exact step (a :: as) b

theorem comp_maskLoop (mask : Int) (l : List Int) (i k : Nat) :
    comp (maskLoop mask i l) k = if i + k < nbits ∧ bit mask (i + k) = false then 0 else comp l k := by
  induction l generalizing i k with
  | nil => simp [maskLoop, comp_nil]
  | cons a l ih =>
    simp only [maskLoop]
    by_cases hi : i < nbits
    · rw [if_pos hi]
      cases k with
      | zero => simp only [comp_zero, Nat.add_zero, hi, true_and]; cases bit mask i <;> simp
      | succ k =>
        simp only [comp_succ, List.tail_cons]
        rw [ih (i + 1) k]
        have : i + 1 + k = i + (k + 1) := by omega
        rw [this]
    · rw [if_neg hi, if_neg (by omega)]

theorem testBit_getMask (map : List (List Int × Nat)) (deps : List (List Int)) (i : Nat) :
    (getMask map deps).testBit i = true ↔ ∃ d ∈ deps, (maskOf map d).testBit i = true := by
  have h : ∀ (deps : List (List Int)) (m : Nat),
      (deps.foldl (fun m d => match Assoc.find map d with | some x => m ||| x | none => m) m).testBit i = true
      ↔ m.testBit i = true ∨ ∃ d ∈ deps, (maskOf map d).testBit i = true := by
    intro deps
    induction deps with
    | nil => intro m; simp
    | cons d deps ih =>
      intro m
      simp only [List.foldl_cons]
      rw [ih]
      simp only [List.mem_cons, exists_eq_or_imp, maskOf]
      cases Assoc.find map d with
      | none => simp
      | some x => simp [Nat.testBit_or, or_assoc]
  refine Iff.trans ?_ ((h deps 0).trans (by simp))
  unfold getMask
  have e : (fun m d => match Assoc.find map d with | some x => m ||| x | none => m)
      = (fun (m : Nat) (d : List Int) => match Assoc.find map d with | some x => m ||| x | none => m) := rfl
  exact Iff.rfl

end Verif.RequestId
