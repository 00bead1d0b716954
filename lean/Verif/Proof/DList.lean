import Verif.Spec.DList
import Mathlib.Tactic.Common
import Mathlib.Data.List.Basic
/-! Lemmas about lists. -/
namespace Verif.DList
open Spec
variable {V : Type}

theorem backLoop_spec (left : Nat) : ∀ n : Int, n ≤ 0 →
    backLoop n left = if 0 ≤ left + n then (0, (left + n).toNat) else (n + left, 0) := by
  induction left with
  | zero =>
    intro n hn
    simp only [backLoop]
    by_cases h : n = 0
    · simp [h]
    · rw [if_neg (by omega)]; simp
  | succ left ih =>
    intro n hn
    simp only [backLoop]
    by_cases h : n < 0
    · rw [if_pos h, ih _ (by omega)]
      by_cases h2 : 0 ≤ (left : Int) + (n + 1)
      · rw [if_pos h2, if_pos (by omega)]; congr 2; omega
      · rw [if_neg h2, if_neg (by omega)]; congr 1; omega
    · have : n = 0 := by omega
      subst this
      rw [if_neg h, if_pos (by omega)]
      congr 1

theorem fwdLoop_spec (left : Nat) : ∀ (n : Int) (k : Nat), 0 ≤ n →
    fwdLoop n k left = if n ≤ left then (0, k + n.toNat) else (n - left, k + left) := by
  induction left with
  | zero =>
    intro n k hn
    simp only [fwdLoop]
    by_cases h : n = 0
    · simp [h]
    · rw [if_neg (by omega)]; simp
  | succ left ih =>
    intro n k hn
    simp only [fwdLoop]
    by_cases h : n > 0
    · rw [if_pos h, ih _ _ (by omega)]
      by_cases h2 : n - 1 ≤ left
      · rw [if_pos h2, if_pos (by omega)]; congr 1; omega
      · rw [if_neg h2, if_neg (by omega)]; congr 1 <;> omega
    · have : n = 0 := by omega
      subst this
      rw [if_neg h, if_pos (by omega)]; simp

theorem constLoop_spec (size : Nat) : ∀ (n k : Nat), k < size →
    constLoop size n k = if k + n < size then .ok (k + n) else .err := by
  intro n
  induction n with
  | zero => intro k hk; simp [constLoop, hk]
  | succ n ih =>
    intro k hk
    simp only [constLoop]
    rw [if_neg (by omega)]
    by_cases h : k + 1 = size
    · rw [if_pos h, if_neg (by omega)]
    · rw [if_neg h, ih _ (by omega)]
      by_cases h2 : k + 1 + n < size
      · rw [if_pos h2, if_pos (by omega)]; congr 1; omega
      · rw [if_neg h2, if_neg (by omega)]

theorem applyIndex_back (size : Nat) (n : Int) (i : Bool) (h : n < 0) :
    applyIndex size n i = if 0 ≤ size + (if i then n + 1 else n) then .ok (size + (if i then n + 1 else n)).toNat else .err := by
  unfold applyIndex
  rw [if_pos h]
  have hm : (if i then n + 1 else n) ≤ 0 := by cases i <;> simp <;> omega
  generalize (if i then n + 1 else n) = m at hm
  rw [backLoop_spec size m hm]
  by_cases h2 : 0 ≤ (size : Int) + m
  · rw [if_pos h2, if_pos h2]; simp
  · rw [if_neg h2, if_neg h2]
    have : m + (size : Int) ≠ 0 := by omega
    simp [this]

theorem applyIndex_fwd (size : Nat) (n : Int) (i : Bool) (h : 0 ≤ n) :
    applyIndex size n i = if n < size ∨ (i = true ∧ n = size) then .ok n.toNat else .err := by
  unfold applyIndex
  rw [if_neg (by omega), fwdLoop_spec size n 0 h]
  by_cases h2 : n ≤ size
  · rw [if_pos h2]
    by_cases h3 : n < size
    · have : ¬ n.toNat = size := by omega
      simp [h3, this]
    · have h4 : n = size := by omega
      subst h4
      cases i <;> simp
  · rw [if_neg h2, if_neg (by omega)]
    have : n - (size : Int) ≠ 0 := by omega
    simp [this]

theorem applyIndex_pos (size : Nat) (n : Int) :
    applyIndex size n false = match pos size n with | some k => .ok k | none => .err := by
  by_cases h : n < 0
  · rw [applyIndex_back _ _ _ h]
    simp only [Bool.false_eq_true, if_false]
    by_cases h2 : 0 ≤ (size : Int) + n
    · have : pos size n = some (size + n).toNat := by
        unfold pos; rw [if_neg (by omega), if_pos ⟨h, h2⟩]
      rw [this, if_pos h2]
    · have : pos size n = none := by
        unfold pos; rw [if_neg (by omega), if_neg (by omega)]
      rw [this, if_neg h2]
  · rw [applyIndex_fwd _ _ _ (by omega)]
    simp only [Bool.false_eq_true, false_and, or_false]
    by_cases h2 : n < size
    · have : pos size n = some n.toNat := by
        unfold pos; rw [if_pos (by omega)]
      rw [this, if_pos h2]
    · have : pos size n = none := by
        unfold pos; rw [if_neg (by omega), if_neg (by omega)]
      rw [this, if_neg h2]

theorem applyIndex_gap (size : Nat) (n : Int) :
    applyIndex size n true = match gap size n with | some k => .ok k | none => .err := by
  by_cases h : n < 0
  · rw [applyIndex_back _ _ _ h]
    simp only [if_true]
    by_cases h2 : 0 ≤ (size : Int) + (n + 1)
    · have : gap size n = some (size + 1 + n).toNat := by
        unfold gap; rw [if_neg (by omega), if_pos ⟨h, by omega⟩]
      rw [this, if_pos h2]
      simp only
      congr 2; omega
    · have : gap size n = none := by
        unfold gap; rw [if_neg (by omega), if_neg (by omega)]
      rw [this, if_neg h2]
  · rw [applyIndex_fwd _ _ _ (by omega)]
    simp only [true_and]
    by_cases h2 : n ≤ size
    · have : gap size n = some n.toNat := by
        unfold gap; rw [if_pos (by omega)]
      rw [this, if_pos (by omega)]
    · have : gap size n = none := by
        unfold gap; rw [if_neg (by omega), if_neg (by omega)]
      rw [this, if_neg (by omega)]

theorem pos_lt {size : Nat} {n : Int} {k : Nat} (h : pos size n = some k) : k < size := by
  unfold pos at h
  split at h
  · cases h; omega
  · split at h
    · cases h; omega
    · cases h

theorem gap_le {size : Nat} {n : Int} {k : Nat} (h : gap size n = some k) : k ≤ size := by
  unfold gap at h
  split at h
  · cases h; omega
  · split at h
    · cases h; omega
    · cases h

theorem append_eq (l o : List V) : append l o = l ++ o := by
  unfold append
  induction o generalizing l with
  | nil => simp
  | cons v o ih => simp [ih]

theorem insertIdx_eq (l : List V) (k : Nat) (v : V) (h : k ≤ l.length) : l.insertIdx k v = l.take k ++ v :: l.drop k := by
  induction k generalizing l with
  | zero => simp
  | succ k ih =>
    cases l with
    | nil => simp at h
    | cons a l => simp at h; simp [ih l h]

theorem step_eq (l : List V) (o : Op V) : DList.step l o = .ok (Spec.step l o) := by
  cases o with
  | put n v =>
    simp only [DList.step, put, Spec.step, Bool.not_true, applyIndex_pos]
    cases h : pos l.length n with
    | none => simp
    | some k => simp [pos_lt h]
  | insert n v =>
    simp only [DList.step, put, Spec.step, Bool.not_false, applyIndex_gap]
    cases h : gap l.length n with
    | none => simp
    | some k => simp [insertIdx_eq l k v (gap_le h)]
  | append o => simp [DList.step, Spec.step, append_eq]
  | remove n =>
    simp only [DList.step, remove, Spec.step, applyIndex_pos]
    cases h : pos l.length n with
    | none => simp
    | some k =>
      simp only [Res.ok_bind, deref, List.getElem?_eq_getElem (pos_lt h), Res.pure_eq, List.eraseIdx_eq_take_drop_succ]

theorem appendSelf_none (fuel : Nat) : ∀ (l : List V) (k : Nat), k < l.length → appendSelf l k fuel = none := by
  induction fuel with
  | zero => intro l k _; rfl
  | succ fuel ih =>
    intro l k h
    simp only [appendSelf, List.getElem?_eq_getElem h]
    exact ih _ _ (by simp; omega)

end Verif.DList
