import Verif.Proof.DList
/-! Properties C14, C63: lists. -/
namespace Verif.DList
open Spec
variable {V : Type}

/-- **C14**, full statement: editing and reading agree with a finite sequence, `-1` being the last item,
and a number that denotes no item is reported as an error. -/
def C14_full : Prop :=
  (∀ (l : List Nat) (o : Op Nat), step l o = .ok (Spec.step l o)) ∧
  (∀ (l : List Nat) (n : Int), get l n = match pos l.length n with
    | some k => (match l[k]? with | some v => .ok v | none => .err)
    | none => .err)

/-- **C14** is false of the read-only lookup: `get(-1)` dereferences `end()`. -/
theorem C14_list_refuted : ¬ C14_full := by
  intro h
  have := h.2 [10, 11, 12] (-1)
  revert this
  decide

/-- What `get` does with negative numbers: `-1` reads past the end, `-2` is the last item, and one number
below the range is accepted. -/
theorem C14_negative_get (l : List V) (h : l ≠ []) :
    get l (-1) = .ub ∧ get l (-2) = deref l (l.length - 1) ∧ get l (-(l.length + 1)) = deref l 0 := by
  have h0 : 0 < l.length := List.length_pos_of_ne_nil h
  have key : ∀ n : Int, n < 0 → 0 ≤ (l.length : Int) + (n + 1) → get l n = deref l ((l.length : Int) + (n + 1)).toNat := by
    intro n h1 h2
    unfold get applyIndexConst
    rw [if_pos h1]
    simp only [backLoop_spec l.length (n + 1) (by omega), if_pos h2]
    rfl
  refine ⟨?_, ?_, ?_⟩
  · rw [key _ (by omega) (by omega)]
    have : ((l.length : Int) + (-1 + 1)).toNat = l.length := by omega
    rw [this]; simp [deref]
  · rw [key _ (by omega) (by omega)]
    congr 1; omega
  · rw [key _ (by omega) (by omega)]
    congr 1; omega

/-- **C14**, proved part: every editing call (replace, insert, append, remove) at any integer position, and
every read at a non-negative position of a non-empty list, agrees with the sequence.  Missing: reads at
negative positions and reads of an empty list, which are wrong (`C14_list_refuted`). -/
theorem C14_list_partial (l : List V) :
    (∀ o, step l o = .ok (Spec.step l o)) ∧
    (∀ n : Int, 0 ≤ n → l ≠ [] → get l n = match pos l.length n with
      | some k => (match l[k]? with | some v => .ok v | none => .err)
      | none => .err) := by
  refine ⟨step_eq l, fun n hn hl => ?_⟩
  have h0 : 0 < l.length := List.length_pos_of_ne_nil hl
  unfold get applyIndexConst pos
  rw [if_neg (by omega), constLoop_spec _ _ _ h0]
  by_cases h : n < l.length
  · rw [if_pos (by omega), if_pos ⟨hn, h⟩]
    have : n.toNat < l.length := by omega
    simp [deref, this]
  · rw [if_neg (by omega), if_neg (by omega), if_neg (by omega)]
    simp

/-- **C14.** For every history of editing calls the list equals the sequence, and no call is undefined. -/
theorem C14_history (l : List V) (ops : List (Op V)) :
    run l ops = .ok (ops.foldl (fun l o => (Spec.step l o).1) l) := by
  induction ops generalizing l with
  | nil => rfl
  | cons o ops ih => simp only [run, step_eq, List.foldl_cons]; exact ih _

/-- **C14.** `remove` returns the item removed. -/
theorem C14_remove_returns (l : List V) (n : Int) :
    remove l n = match pos l.length n with
      | some k => (match l[k]? with | some v => .ok (v, l.take k ++ l.drop (k + 1)) | none => .err)
      | none => .err := by
  simp only [remove, applyIndex_pos]
  cases h : pos l.length n with
  | none => simp
  | some k =>
    simp [deref, List.getElem?_eq_getElem (pos_lt h), List.eraseIdx_eq_take_drop_succ]

/-- A history using negative positions, with a failing call in it. -/
example : run [1, 2, 3] [.insert (-1) 4, .put (-5) 9, .put (-1) 5, .remove (-4), .insert 0 7, .append [8]]
    = .ok [7, 2, 3, 5, 8] := by decide

/-- **C63**, full statement: appending a list to itself doubles it. -/
def C63_append_self_full : Prop := ∀ l : List Nat, ∃ fuel, appendSelf l 0 fuel = some (l ++ l)

/-- **C63** is false: the loop never ends, whatever the number of rounds, unless the list is empty. -/
theorem C63_append_self_diverges (l : List V) (h : l ≠ []) (fuel : Nat) : appendSelf l 0 fuel = none :=
  appendSelf_none fuel l 0 (List.length_pos_of_ne_nil h)

theorem C63_append_self_refuted : ¬ C63_append_self_full := by
  intro h
  obtain ⟨fuel, e⟩ := h [1]
  rw [C63_append_self_diverges [1] (by simp)] at e
  cases e

/-- **C63**, the part that holds: appending another list appends its items in order. -/
theorem C63_append_partial (l o : List V) : append l o = l ++ o := append_eq l o

end Verif.DList
