import Verif.Spec.Symdeps
import Verif.Proof.Symdeps
/-!
# Properties of symbolic dependencies: C208
-/
namespace Verif.Symdeps

/-! ## C208: a node depends on what it was told to depend on -/

/-- The full claim: whatever a node is told, in its definition, by records and from Python, its mask has just the bits of the active dependencies, or
of the mask that was given after or with them; records that are refused have no effect; and the state record shows the mask. -/
def C208_full : Prop :=
  ∀ (cls : List Nat) (map : List (Nat × Nat)) (a : Option (List Nat)) (m : Option Nat) (ops : List Op),
    map.lookup 0 = none → ∃ n, life cls map a m ops = .ok n ∧ n.recMask = some n.mask ∧
      ∀ b, n.mask.testBit b = true ↔ (ops.foldl Want.step ((Want.mk cls none cls).given a m)).On map b

/-- Proved where the definition does not have both dependencies and a mask, lists from Python are not empty, and records are refused only while the
node's dependencies are those in its record and no mask was given. -/
theorem C208_partial (cls : List Nat) (map : List (Nat × Nat)) (a : Option (List Nat)) (m : Option Nat) (ops : List Op)
    (h0 : map.lookup 0 = none) (h : m = none ∨ a = none ∨ a = some [])
    (hf : ((Want.mk cls none cls).given a m).fine ops) :
    ∃ n, life cls map a m ops = .ok n ∧ n.recMask = some n.mask ∧ (∀ d, d ≠ 0 → (d ∈ n.active ↔ d ∈ (ops.foldl Want.step ((Want.mk cls none cls).given a m)).active)) ∧
      ∀ b, n.mask.testBit b = true ↔ (ops.foldl Want.step ((Want.mk cls none cls).given a m)).On map b := by
  obtain ⟨n, e, hn⟩ := as_run h0 ops _ _ (as_init cls map a m h) hf
  refine ⟨n, e, hn.2.2.2.1, fun d hd => ?_, as_on hn⟩
  rcases hn.2.1 with h | ⟨h, h'⟩
  · rw [h]
  · rw [h, h']; simp [hd]

/-- The last mask given for a name counts. -/
theorem C208_map (map : List (Nat × Nat)) (d m e : Nat) : (setDep map d m).lookup e = if e = d then some m else map.lookup e := by
  unfold setDep
  rw [List.lookup_cons]
  by_cases h : e = d
  · subst h; simp
  · rw [beq_false_of_ne h, if_neg h]

/-- A definition with both loses the mask. -/
theorem C208_both (cls map a m) (d : Nat) (h : a = some [d]) :
    ∃ n, life cls map a (some m) [] = .ok n ∧ ∀ b, n.mask.testBit b = true ↔ ∃ k, map.lookup d = some k ∧ k.testBit b = true := by
  subst h
  refine ⟨_, rfl, fun b => ?_⟩
  simp [applyOwn, attach, setActive, Option.filter, getMask_bit]

/-- A mask is lost by a record that is refused. -/
theorem C208_mask_lost : ∃ n, life [1] [(1, 1)] none (some 4) [.state none none .before] = .ok n ∧ n.mask = 1 := ⟨_, rfl, by decide⟩

/-- So are dependencies that were set from Python. -/
theorem C208_python_lost : ∃ n, life [1] [(1, 1), (2, 2)] none none [.python [2], .state none none .before] = .ok n ∧ n.mask = 1 :=
  ⟨_, rfl, by decide⟩

/-- An empty list from Python. -/
theorem C208_python_empty (cls map a m) (r : List Op) : life cls map a m (.python [] :: r) = .ub := rfl

theorem C208_refuted : ¬ C208_full := by
  intro h
  obtain ⟨n, hn, _⟩ := h [] [] none none [.python []] rfl
  rw [C208_python_empty] at hn
  cases hn

example : ((Want.mk [1, 2] none [1, 2]).given none none).fine [.state (some [3]) none .after, .state (some [3]) (some 9) .well, .python [2]] :=
  ⟨⟨rfl, rfl⟩, trivial, by decide, trivial⟩

example : ∃ n, life [1, 2] [(1, 1), (2, 2), (3, 4)] none none [.state (some [3, 1]) none .well] = .ok n ∧ n.mask = 5 := ⟨_, rfl, by decide⟩

end Verif.Symdeps
