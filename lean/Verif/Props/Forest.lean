import Verif.Proof.Forest
/-! # Properties of the node repository (C32) -/
namespace Verif.Forest

/-- Full statement: every history of creations, removals and lookups, whatever their arguments, is free of undefined behaviour and leaves the
forest in order. -/
def C32_full : Prop := ∀ ops : List Op, ∃ s, run ops = .ok s ∧ Ok s

/-- Asking for the index one beyond the last reads past the end of the repository. -/
theorem C32_refuted : ¬ C32_full := by
  intro h
  obtain ⟨s, hs, _⟩ := h [.get 1]
  revert hs
  simp [run, runFrom, step, get, at_, init, Res.bind]

/-- **C32 (part).** After every history that does not look up or remove the index one beyond the last, the forest is in
order.  Missing: those lookups, which are undefined behaviour. -/
theorem C32_in_order_partial (ops : List Op) (s : Forest) (h : run ops = .ok s) : Ok s :=
  inv_ok (inv_runFrom ops inv_init h)

/-- That lookup is the only one with undefined behaviour. -/
theorem C32_ub_only_beyond (s : Forest) (i : Int) (op : Op) (ho : op = .get i ∨ op = .remove i)
    (h : step s op = .ub) : i = s.nodes.length := by
  have : at_ s i = .ub := by
    rcases ho with rfl | rfl
    · simp only [step] at h
      split at h
      · assumption
      · cases h
    · simp only [step, remove] at h
      cases hat : at_ s i <;> rw [hat] at h <;> simp [Res.bind] at h ⊢
  unfold at_ at this
  split at this
  · cases this
  · split at this
    · rename_i h1 h2
      have := List.getElem?_eq_none_iff.1 h2
      omega
    · cases this
    · cases this

/-- A successful creation adds one node, under an index not in use (the one asked for, if one was asked for), and
changes no other. -/
theorem C32_create (ops : List Op) (s : Forest) (h : run ops = .ok s) (name : String) (idx : Int) (good : Bool) (i : Nat)
    (hc : (create s name idx good).2 = some i) :
    good = true ∧ 0 < i ∧ (0 < idx → idx = i) ∧ (∀ n, ¬ Live s i n) ∧ (name ≠ "" → ∀ j, ¬ Live s j name) ∧
      ∀ j n, Live (create s name idx good).1 j n ↔ (j = i ∧ n = name) ∨ (j ≠ i ∧ Live s j n) := by
  have hinv := inv_runFrom ops inv_init h
  unfold create at hc ⊢
  split at hc
  · cases hc
  · rename_i hn
    split at hc
    · rename_i hg
      cases hp : pickIndex s idx with
      | none => rw [hp] at hc; cases hc
      | some k =>
        rw [hp] at hc
        simp only at hc
        cases hc
        obtain ⟨h1, h2, h3⟩ := pickIndex_free hinv hp
        refine ⟨hg, h1, h3, h2, ?_, ?_⟩
        · intro hne j hl
          apply hn
          refine ⟨hne, ?_⟩
          rw [(hinv.names name j).2 ⟨hne, hl⟩]; rfl
        · intro j n
          rw [if_neg hn, if_pos hg]
          exact live_insert s name i j n
    · cases hc

/-- A failed creation changes nothing but the error count. -/
theorem C32_create_fails (s : Forest) (name : String) (idx : Int) (good : Bool) (h : (create s name idx good).2 = none) :
    (create s name idx good).1 = { s with errs := s.errs + 1 } := by
  unfold create at h ⊢
  split
  · rfl
  · rename_i hn
    rw [if_neg hn] at h
    split
    · rename_i hg
      rw [if_pos hg] at h
      split
      · rfl
      · rename_i i hp
        rw [hp] at h; cases h
    · rfl

/-- A creation is refused only for a bad class or record, a name in use, or an index in use. -/
theorem C32_create_succeeds (ops : List Op) (s : Forest) (h : run ops = .ok s) (name : String) (idx : Int)
    (hn : name = "" ∨ ∀ j, ¬ Live s j name) (hi : ∀ (k : Nat) (n : String), idx = k → ¬ Live s k n) :
    (create s name idx true).2.isSome = true := by
  have hinv := inv_runFrom ops inv_init h
  unfold create
  rw [if_neg, if_pos rfl]
  · have : ∃ i, pickIndex s idx = some i := by
      unfold pickIndex
      split
      · rename_i h0
        rw [if_neg]
        · exact ⟨_, rfl⟩
        · rintro ⟨h1, h2⟩
          obtain ⟨n, hnn⟩ := Option.isSome_iff_exists.1 h2
          apply hi idx.toNat n (by omega)
          unfold Live
          rw [List.getD_eq_getElem?_getD] at hnn
          rw [List.getElem?_eq_getElem (by omega)] at hnn ⊢
          simpa using hnn
      · exact ⟨_, rfl⟩
    obtain ⟨i, hp⟩ := this
    rw [hp]; rfl
  · rintro ⟨h1, h2⟩
    obtain ⟨i, hi2⟩ := Option.isSome_iff_exists.1 h2
    rcases hn with hn | hn
    · exact h1 hn
    · exact hn i ((hinv.names name i).1 hi2).2

/-- Removing a node removes that node only. -/
theorem C32_remove (s s' : Forest) (i : Int) (h : remove s i = .ok s') :
    (∃ k : Nat, i = k ∧ (∃ n, Live s k n) ∧ ∀ j n, Live s' j n ↔ j ≠ k ∧ Live s j n) := by
  unfold remove at h
  cases hat : at_ s i with
  | ok n =>
    rw [hat] at h
    obtain ⟨k, rfl, hk, hl⟩ := at_ok hat
    simp only [Res.bind, Int.toNat_natCast] at h
    cases h
    exact ⟨k, rfl, ⟨n, hl⟩, fun j m => live_erase s k j n m (live_lt hl)⟩
  | err => rw [hat] at h; cases h
  | ub => rw [hat] at h; cases h

/-- A history with a removal in the middle, re-use of a freed name, a refused duplicate and an unnamed node. -/
example : run [.create "a" (-1) true, .create "b" 5 true, .create "a" (-1) true, .create "" (-1) true, .remove 1,
      .create "a" 1 true, .create "c" 5 true] =
    .ok ⟨[none, some "a", none, none, none, some "b", some ""], [("b", 5), ("a", 1)], 3, 2⟩ := by
  decide +kernel

end Verif.Forest
