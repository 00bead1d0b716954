import Verif.Model.Assoc
import Mathlib.Tactic.Common
import Mathlib.Data.List.Basic
/-! Lemmas about association lists. -/
namespace Verif.Assoc
variable {α β : Type} [DecidableEq α]

theorem find_set (m : List (α × β)) (k : α) (v : β) (k' : α) :
    find (set m k v) k' = if k' = k then some v else find m k' := by
  induction m with
  | nil => by_cases h : k' = k <;> simp [set, find, h, Ne.symm]
  | cons p m ih =>
    obtain ⟨a, b⟩ := p
    by_cases h1 : a = k
    · subst h1
      by_cases h2 : k' = a
      · subst h2; simp [set, find]
      · simp [set, find, Ne.symm h2, h2]
    · by_cases h2 : a = k'
      · subst h2; simp [set, find, h1]
      · simp [set, find, h1, h2, ih]

theorem keys_set (m : List (α × β)) (k : α) (v : β) :
    keys (set m k v) = if k ∈ keys m then keys m else keys m ++ [k] := by
  induction m with
  | nil => simp [set, keys]
  | cons p m ih =>
    obtain ⟨a, b⟩ := p
    by_cases h1 : a = k
    · subst h1; simp [set, keys]
    · simp only [set, if_neg h1]
      simp only [keys, List.map_cons, List.mem_cons] at ih ⊢
      rw [ih]
      by_cases h2 : k ∈ List.map (fun x => x.1) m <;> simp [h2, Ne.symm h1]

theorem find_eq_none (m : List (α × β)) (k : α) : find m k = none ↔ k ∉ keys m := by
  induction m with
  | nil => simp [find, keys]
  | cons p m ih =>
    obtain ⟨a, b⟩ := p
    by_cases h1 : a = k
    · simp [find, keys, h1]
    · simp only [find, if_neg h1, ih]
      simp [keys, Ne.symm h1]

theorem nodup_set {m : List (α × β)} (h : (keys m).Nodup) (k : α) (v : β) : (keys (set m k v)).Nodup := by
  rw [keys_set]
  split
  · exact h
  · rename_i hk
    rw [List.nodup_append]
    exact ⟨h, by simp, by intro a ha b hb; simp at hb; subst hb; rintro rfl; exact hk ha⟩

theorem keys_erase (m : List (α × β)) (k : α) : keys (erase m k) = (keys m).erase k := by
  induction m with
  | nil => simp [erase, keys]
  | cons p m ih =>
    obtain ⟨a, b⟩ := p
    by_cases h1 : a = k
    · simp [erase, keys, h1]
    · simp only [erase, if_neg h1]
      simp only [keys, List.map_cons] at ih ⊢
      rw [ih, List.erase_cons_tail (by simpa using h1)]

theorem nodup_erase {m : List (α × β)} (h : (keys m).Nodup) (k : α) : (keys (erase m k)).Nodup := by
  rw [keys_erase]; exact h.erase k

theorem find_erase {m : List (α × β)} (h : (keys m).Nodup) (k k' : α) :
    find (erase m k) k' = if k' = k then none else find m k' := by
  induction m with
  | nil => simp [erase, find]
  | cons p m ih =>
    obtain ⟨a, b⟩ := p
    have hn : (keys m).Nodup := (List.nodup_cons.1 h).2
    have ha : a ∉ keys m := (List.nodup_cons.1 h).1
    by_cases h1 : a = k
    · subst h1
      simp only [erase, if_true]
      by_cases h2 : k' = a
      · subst h2; rw [if_pos rfl]; exact (find_eq_none _ _).2 ha
      · simp [h2, find, Ne.symm h2]
    · simp only [erase, if_neg h1, find, ih hn]
      by_cases h2 : a = k'
      · subst h2; simp [h1]
      · simp [h2]

theorem find_some_mem {m : List (α × β)} {k : α} {v : β} (h : find m k = some v) : (k, v) ∈ m := by
  induction m with
  | nil => simp [find] at h
  | cons p m ih =>
    obtain ⟨a, b⟩ := p
    by_cases h1 : a = k
    · simp [find, h1] at h; simp [h1, h]
    · simp only [find, if_neg h1] at h; exact List.mem_cons_of_mem _ (ih h)

theorem mem_find {m : List (α × β)} (hn : (keys m).Nodup) {k : α} {v : β} (h : (k, v) ∈ m) : find m k = some v := by
  induction m with
  | nil => simp at h
  | cons p m ih =>
    obtain ⟨a, b⟩ := p
    rcases List.mem_cons.1 h with h | h
    · simp at h; simp [find, h]
    · have : a ≠ k := by
        rintro rfl
        exact (List.nodup_cons.1 hn).1 (List.mem_map.2 ⟨_, h, rfl⟩)
      simp only [find, if_neg this]
      exact ih (List.nodup_cons.1 hn).2 h

end Verif.Assoc
