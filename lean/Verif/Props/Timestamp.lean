import Verif.Spec.Timestamp
import Mathlib.Tactic.Common
/-!
# Properties of time stamps (C16)
-/
namespace Verif.Timestamp
open TimestampSpec

theorem carry_spec (t : TS) : total (carry t) = total t ∧ (carry t).usec < 1000000 ∧
    (0 ≤ t.usec → 0 ≤ (carry t).usec) := by
  induction t using carry.induct with
  | case1 t h ih =>
    rw [carry, if_pos h]
    obtain ⟨i1, i2, i3⟩ := ih
    refine ⟨?_, i2, fun _ => i3 (by simp; omega)⟩
    rw [i1]; simp [total]; omega
  | case2 t h => rw [carry, if_neg h]; exact ⟨rfl, by omega, fun h => h⟩

theorem borrow_spec (t : TS) (ht : t.usec < 1000000) : total (borrow t) = total t ∧ Normal (borrow t) := by
  induction t using borrow.induct with
  | case1 t h ih =>
    rw [borrow, if_pos h]
    obtain ⟨i1, i2⟩ := ih (by simp; omega)
    refine ⟨?_, i2⟩
    rw [i1]; simp [total]; omega
  | case2 t h => rw [borrow, if_neg h]; exact ⟨rfl, by simp [Normal]; omega⟩

theorem normalize_spec (t : TS) : total (normalize t) = total t ∧ Normal (normalize t) := by
  obtain ⟨h1, h2, _⟩ := carry_spec t
  obtain ⟨h3, h4⟩ := borrow_spec (carry t) h2
  exact ⟨h3.trans h1, h4⟩

/-- **C16.** Sums are exact and normalised, whatever the operands. -/
theorem C16_add (a b : TS) : total (add a b) = total a + total b ∧ Normal (add a b) := by
  obtain ⟨h1, h2⟩ := normalize_spec ⟨a.sec + b.sec, a.usec + b.usec⟩
  refine ⟨?_, h2⟩
  unfold add; rw [h1]; simp [total]; omega

/-- **C16.** Differences are exact and normalised. -/
theorem C16_sub (a b : TS) : total (sub a b) = total a - total b ∧ Normal (sub a b) := by
  obtain ⟨h1, h2⟩ := normalize_spec ⟨a.sec - b.sec, a.usec - b.usec⟩
  refine ⟨?_, h2⟩
  unfold sub; rw [h1]; simp [total]; omega

/-- A normalised stamp is determined by its total. -/
theorem C16_unique (a b : TS) (ha : Normal a) (hb : Normal b) (h : total a = total b) : a = b := by
  obtain ⟨s1, u1⟩ := a
  obtain ⟨s2, u2⟩ := b
  simp [total, Normal] at *
  omega

/-- **C16.** Comparisons of normalised stamps are comparisons of total microseconds. -/
theorem C16_compare (a b : TS) (ha : Normal a) (hb : Normal b) :
    (eq a b = true ↔ total a = total b) ∧ (lt a b = true ↔ total a < total b) ∧
    (gt a b = true ↔ total a > total b) ∧ (le a b = true ↔ total a ≤ total b) ∧
    (ge a b = true ↔ total a ≥ total b) ∧ (nonzero a = true ↔ total a ≠ 0) := by
  obtain ⟨s1, u1⟩ := a
  obtain ⟨s2, u2⟩ := b
  simp only [total, Normal, eq, lt, gt, le, ge, nonzero] at *
  refine ⟨?_, ?_, ?_, ?_, ?_, ?_⟩
  · simp; omega
  · split <;> simp <;> omega
  · split <;> simp <;> omega
  · split <;> simp <;> omega
  · split <;> simp <;> omega
  · simp only [Bool.or_eq_true, bne_iff_ne, ne_eq]; omega

/-- **C16.** Adding and then subtracting gives back a normalised stamp. -/
theorem C16_add_sub_cancel (a b : TS) (ha : Normal a) : sub (add a b) b = a := by
  apply C16_unique _ _ (C16_sub _ _).2 ha
  rw [(C16_sub _ _).1, (C16_add _ _).1]; omega

/-- **C16.** The microsecond and nanosecond renderings print the total. -/
theorem C16_print (a : TS) : printUs a = total a ∧ printNs a = 1000 * total a := by
  simp [printUs, printNs, total]; omega

/-! Non-trivial cases. -/
example : Normal ⟨3, 999999⟩ ∧ Normal ⟨-2, 5⟩ := by simp [Normal]
example : total (add ⟨3, 999999⟩ ⟨-2, 5⟩) = 2000004 := by rw [(C16_add _ _).1]; decide

end Verif.Timestamp
