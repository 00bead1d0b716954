import Verif.Spec.Symdeps
/-!
# Lemmas on symbolic dependencies
-/
namespace Verif.Symdeps

theorem getMask_bit (map : List (Nat × Nat)) (b : Nat) : ∀ (l : List Nat) (k : Nat),
    (getMask map l k).testBit b = true ↔ k.testBit b = true ∨ ∃ d ∈ l, ∃ m, map.lookup d = some m ∧ m.testBit b = true
  | [], k => by simp [getMask]
  | d :: r, k => by
    unfold getMask
    cases h : map.lookup d with
    | some m =>
      simp only
      rw [getMask_bit map b r, Nat.testBit_or, Bool.or_eq_true]
      constructor
      · rintro ((h' | h') | ⟨e, he, x⟩)
        · exact Or.inl h'
        · exact Or.inr ⟨d, List.mem_cons_self, m, h, h'⟩
        · exact Or.inr ⟨e, List.mem_cons_of_mem _ he, x⟩
      · rintro (h' | ⟨e, he, m', hm, hb⟩)
        · exact Or.inl (Or.inl h')
        · rcases List.mem_cons.mp he with rfl | he
          · rw [h] at hm; cases hm; exact Or.inl (Or.inr hb)
          · exact Or.inr ⟨e, he, m', hm, hb⟩
    | none =>
      simp only
      rw [getMask_bit map b r]
      constructor
      · rintro (h' | ⟨e, he, x⟩)
        · exact Or.inl h'
        · exact Or.inr ⟨e, List.mem_cons_of_mem _ he, x⟩
      · rintro (h' | ⟨e, he, m', hm, hb⟩)
        · exact Or.inl h'
        · rcases List.mem_cons.mp he with rfl | he
          · rw [h] at hm; cases hm
          · exact Or.inr ⟨e, he, m', hm, hb⟩

/-- The same dependencies, where no name may be an empty one. -/
def Alike (l l' : List Nat) : Prop := l = l' ∨ (l = [0] ∧ l' = [])

theorem alike_mask {map : List (Nat × Nat)} (h0 : map.lookup 0 = none) {l l' : List Nat} (h : Alike l l') : getMask map l 0 = getMask map l' 0 := by
  rcases h with rfl | ⟨rfl, rfl⟩
  · rfl
  · simp [getMask, h0]

/-- The node is as asked for. -/
def As (map : List (Nat × Nat)) (w : Want) (n : Node) : Prop :=
  n.map = map ∧ Alike n.active w.active ∧ n.mask = w.fixed.getD (getMask map w.active 0) ∧ n.recMask = some n.mask ∧
    ∃ l, n.recActive = some l ∧ Alike l w.shown

theorem as_on {map : List (Nat × Nat)} {w : Want} {n : Node} (h : As map w n) (b : Nat) : n.mask.testBit b = true ↔ w.On map b := by
  rw [h.2.2.1]
  unfold Want.On
  cases w.fixed with
  | some m => rfl
  | none => simp only [Option.getD_none]; rw [getMask_bit]; simp

theorem alike_default (cls : List Nat) : Alike (if cls = [] then [0] else cls) cls := by
  by_cases h : cls = []
  · exact Or.inr ⟨if_pos h, h⟩
  · exact Or.inl (if_neg h)

theorem as_init (cls : List Nat) (map : List (Nat × Nat)) (a : Option (List Nat)) (m : Option Nat) (h : m = none ∨ a = none ∨ a = some []) :
    As map ((Want.mk cls none cls).given a m) (applyOwn (attach cls map a m)) := by
  have hd := alike_default cls
  cases a with
  | none => cases m <;> simp [As, applyOwn, attach, Want.given] <;> exact ⟨Or.inl rfl, hd⟩
  | some l =>
    cases l with
    | nil => cases m <;> simp [As, applyOwn, attach, Want.given, Option.filter] <;> exact ⟨Or.inl rfl, hd⟩
    | cons d r =>
      have : m = none := by
        rcases h with h | h | h
        · exact h
        · cases h
        · simp at h
      subst this
      simp [As, applyOwn, attach, Want.given, setActive, Option.filter]
      exact Or.inl rfl

theorem as_own {map : List (Nat × Nat)} {w : Want} {n : Node} {l : List Nat} (h0 : map.lookup 0 = none) (hm : n.map = map) (hf : w.fixed = none)
    (hs : w.shown = w.active) (hr : n.recActive = some l) (hl : Alike l w.shown) : As map w (applyOwn n) := by
  subst hm
  simp only [As, applyOwn, hr, setActive, hf, Option.getD_none]
  rw [hs] at hl ⊢
  exact ⟨trivial, hl, alike_mask h0 hl, trivial, l, rfl, hl⟩

theorem as_step {map : List (Nat × Nat)} {w : Want} {n : Node} {o : Op} (h0 : map.lookup 0 = none) (h : As map w n)
    (hf : match o with
      | .state _ _ .well => True
      | .state _ _ .untouched => True
      | .state _ _ _ => w.fixed = none ∧ w.shown = w.active
      | .python deps => deps ≠ []) : ∃ n', step n o = .ok n' ∧ As map (w.step o) n' := by
  obtain ⟨h1, h2, h3, h4, l, h5, h6⟩ := h
  cases o with
  | python deps =>
    simp only at hf
    refine ⟨setActive n deps, by simp only [step, if_neg hf], ?_⟩
    simp only [As, setActive, Want.step, h1, Option.getD_none, true_and]
    exact ⟨Or.inl rfl, l, h5, h6⟩
  | state a m e =>
    refine ⟨_, rfl, ?_⟩
    cases e with
    | untouched => exact ⟨h1, h2, h3, h4, l, h5, h6⟩
    | well =>
      cases a with
      | none => cases m <;> simp_all [As, setState, applyOther, Want.step, Want.given]
      | some l =>
        cases l with
        | nil => cases m <;> simp_all [As, setState, applyOther, Want.step, Want.given]
        | cons d r => cases m <;> simp_all [As, setState, applyOther, Want.step, Want.given, setActive, Alike]
    | before =>
      obtain ⟨f1, f2⟩ := hf
      exact as_own h0 h1 f1 f2 h5 h6
    | after =>
      obtain ⟨f1, f2⟩ := hf
      refine as_own (l := l) h0 ?_ f1 f2 ?_ h6
      · cases a with
        | none => cases m <;> exact h1
        | some l => cases l <;> cases m <;> exact h1
      · have : (applyOther n a m).recActive = n.recActive := by
          cases a with
          | none => cases m <;> rfl
          | some l => cases l <;> cases m <;> rfl
        rw [this, h5]

theorem as_run {map : List (Nat × Nat)} (h0 : map.lookup 0 = none) : ∀ (ops : List Op) (w : Want) (n : Node), As map w n → w.fine ops →
    ∃ n', run n ops = .ok n' ∧ As map (ops.foldl Want.step w) n'
  | [], w, n, h, _ => ⟨n, rfl, h⟩
  | o :: r, w, n, h, hf => by
    obtain ⟨n1, e1, h1⟩ := as_step h0 h hf.1
    obtain ⟨n2, e2, h2⟩ := as_run h0 r _ n1 h1 hf.2
    exact ⟨n2, by simp only [run, e1, Res.ok_bind, e2], h2⟩

end Verif.Symdeps
