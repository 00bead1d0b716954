import Verif.Proof.FlagNodes
import Mathlib.Tactic.FinCases
/-! # Flags of functions, flaggers and reductions (C144-C150) -/
namespace Verif.FlagNodes
open Verif.Vells

/-! ## C144 -/

/-- A function's output has, at each point of the grid, exactly the bits some child has there that are in that child's mask; it
has no flags at all exactly if no child with a mask other than 0 has.  Nothing is thrown. -/
theorem C144_function (G : List Nat) (ch : List (Option (Arr Flag) × Flag)) (h : ∀ c ∈ ch, OnGrid G c.1) :
    ∃ o, functionFlags ch = .ok o ∧ OnGrid G o ∧ (o = none ↔ ∀ c ∈ ch, c.1 = none ∨ c.2 = 0) ∧
      ∀ idx, Inside G idx → ∀ b, Has (flagAt o idx) b ↔ ∃ c ∈ ch, Has (flagAt c.1 idx) b ∧ Has c.2 b := by
  obtain ⟨r, e1, e2, e3, e4⟩ := mergeList_grid ch h none (onGrid_none G)
  refine ⟨r, e1, e2, by rw [e3]; simp, fun idx hi b => ?_⟩
  rw [e4 idx hi]
  have := has_zero b
  simp only [flagAt, this, false_or]
  rfl

/-- Every element of a tensor function's output has, at each point, exactly the bits some element of some child has there that
are in that child's mask. -/
theorem C144_tensor (G : List Nat) (ch : List (List (Option (Arr Flag)) × Flag)) (h : ∀ c ∈ ch, ∀ f ∈ c.1, OnGrid G f) :
    ∃ o, tensorFlags ch = .ok o ∧ OnGrid G o ∧ (o = none ↔ ∀ c ∈ ch, ∀ f ∈ c.1, f = none ∨ c.2 = 0) ∧
      ∀ idx, Inside G idx → ∀ b, Has (flagAt o idx) b ↔ ∃ c ∈ ch, ∃ f ∈ c.1, Has (flagAt f idx) b ∧ Has c.2 b := by
  obtain ⟨r, e1, e2, e3, e4⟩ := tensorLoop_grid ch h none (onGrid_none G)
  refine ⟨r, e1, e2, by rw [e3]; simp, fun idx hi b => ?_⟩
  rw [e4 idx hi]
  have := has_zero b
  simp only [flagAt, this, false_or]
  rfl

example : functionFlags [(some ⟨[2], [1, 0]⟩, fullMask), (none, 1), (some ⟨[1, 2], [3, 8]⟩, 2)] = .ok (some ⟨[2, 2], [3, 1, 2, 0]⟩) := by
  decide +kernel
example : tensorFlags [([some ⟨[2], [1, 0]⟩, none], fullMask), ([some ⟨[1], [6]⟩, some ⟨[2], [4, 16]⟩], 6)] =
    .ok (some ⟨[2], [7, 6]⟩) := by decide +kernel
example : OnGrid [2, 2] (some ⟨[1, 2], [3, 8]⟩) :=
  onGrid_some ⟨by simp [Positive], rfl⟩ ⟨by decide, fun i => by
    match i with
    | 0 => decide
    | 1 => decide
    | i + 2 => exact Or.inl rfl⟩

/-! ## C145 -/

/-- Merging further children's flags into the first child's result.  It fails exactly if a child that counts has dimensions that
differ from the first child's and neither is a scalar.  Otherwise what the elements carry stays, and each element has at
each point its own bits and those, within the mask, of the elements of the children that reach it: the element in the same
place for the same dimensions, all elements if one side is a scalar or everything is to be merged. -/
theorem C145_several {V} (G : List Nat) (mergeAll : Bool) (fm0 : Flag) (c0 : Result V) (others : List (Flag × Result V))
    (hne : others ≠ []) (h0 : ∀ v ∈ c0.vs, OnGrid G v.2) (h1 : ∀ c ∈ others, ∀ v ∈ c.2.vs, OnGrid G v.2)
    (s0 : Shaped c0) (s1 : ∀ c ∈ others, Shaped c.2) :
    ((c0.vs ≠ [] ∧ ∃ c ∈ others, c.1 ≠ 0 ∧ c.2.vs ≠ [] ∧ mergeAll = false ∧ c0.dims ≠ c.2.dims ∧ c0.dims ≠ [] ∧ c.2.dims ≠ []) →
      mergeNode mergeAll fm0 c0 others = .err) ∧
    (¬ (c0.vs ≠ [] ∧ ∃ c ∈ others, c.1 ≠ 0 ∧ c.2.vs ≠ [] ∧ mergeAll = false ∧ c0.dims ≠ c.2.dims ∧ c0.dims ≠ [] ∧ c.2.dims ≠ []) →
      ∃ r, mergeNode mergeAll fm0 c0 others = .ok r ∧ r.dims = c0.dims ∧ r.vs.length = c0.vs.length ∧
        ∀ (k : Nat) (v w : V × Option (Arr Flag)), c0.vs[k]? = some v → r.vs[k]? = some w →
          w.1 = v.1 ∧ ∀ idx, Inside G idx → ∀ b, Has (flagAt w.2 idx) b ↔ Has (flagAt v.2 idx) b ∨
            ∃ c ∈ others, ∃ (j : Nat) (s : V × Option (Arr Flag)), c.2.vs[j]? = some s ∧ Reaches mergeAll c0.dims c.2.dims k j ∧
              Sees s.2 c.1 idx b) := by
  cases others with
  | nil => exact absurd rfl hne
  | cons c others =>
    unfold mergeNode
    dsimp only
    by_cases hn : c0.vs = []
    · rw [if_pos (by rw [hn]; exact Nat.zero_lt_one)]
      refine ⟨fun h => absurd hn h.1, fun _ => ⟨c0, rfl, rfl, rfl, fun k v w h => ?_⟩⟩
      rw [hn] at h
      simp at h
    rw [if_neg (by have : 0 < c0.vs.length := List.length_pos_iff.2 hn; omega)]
    obtain ⟨i1, i2⟩ := mergeChildren_grid (G := G) mergeAll (c :: others) c0 h0 h1 s0 s1 hn
    refine ⟨fun h => i1 h.2, fun h => ?_⟩
    obtain ⟨l, e1, e2⟩ := i2 fun c hc hcl => h ⟨hn, c, hc, hcl⟩
    exact ⟨_, e1, rfl, e2.1, fun k v w hv hw => ⟨(e2.2 k v w hv hw).1, (e2.2 k v w hv hw).2.2⟩⟩

/-- With a single child: a result of at most one element stays; with more, if any has flags and the mask is not 0, every element
gets, at each point, exactly the bits within the mask some element has there; otherwise the result stays. -/
theorem C145_single {V} (G : List Nat) (mergeAll : Bool) (fm : Flag) (c0 : Result V) (h0 : ∀ v ∈ c0.vs, OnGrid G v.2) :
    ((c0.vs.length ≤ 1 ∨ fm = 0 ∨ ∀ v ∈ c0.vs, v.2 = none) → mergeNode mergeAll fm c0 [] = .ok c0) ∧
    (2 ≤ c0.vs.length → fm ≠ 0 → (∃ v ∈ c0.vs, v.2 ≠ none) → ∃ r, mergeNode mergeAll fm c0 [] = .ok r ∧ r.dims = c0.dims ∧
      r.vs.map (·.1) = c0.vs.map (·.1) ∧
      ∀ w ∈ r.vs, ∀ idx, Inside G idx → ∀ b, Has (flagAt w.2 idx) b ↔ ∃ v ∈ c0.vs, Sees v.2 fm idx b) := by
  obtain ⟨r, e1, e2, e3, e4⟩ := mergeList_grid (G := G) (c0.vs.map fun v => (v.2, fm))
    (by simp only [List.mem_map]; rintro _ ⟨v, hv, rfl⟩; exact h0 v hv) none (onGrid_none G)
  unfold mergeNode
  dsimp only
  rw [e1]
  dsimp only [Res.bind]
  constructor
  · intro h
    by_cases h1 : c0.vs.length ≤ 1
    · rw [if_pos h1]
    · rw [if_neg h1]
      have : r = none := by
        rw [e3]
        refine ⟨rfl, fun c hc => ?_⟩
        obtain ⟨v, hv, rfl⟩ := List.mem_map.1 hc
        rcases h with h | h | h
        · exact absurd h h1
        · exact Or.inr h
        · exact Or.inl (h v hv)
      subst this
      rfl
  · intro h1 h2 ⟨v, hv, hvn⟩
    rw [if_neg (by omega)]
    cases r with
    | none =>
      rcases (e3.1 rfl).2 _ (List.mem_map_of_mem hv) with h | h
      · exact absurd h hvn
      · exact absurd h h2
    | some f =>
      refine ⟨_, rfl, rfl, by simp, fun w hw idx hi b => ?_⟩
      dsimp only at hw
      obtain ⟨u, _, rfl⟩ := List.mem_map.1 hw
      dsimp only
      rw [e4 idx hi]
      have := has_zero b
      simp only [flagAt, this, false_or, List.mem_map]
      constructor
      · rintro ⟨_, ⟨v, hv, rfl⟩, h⟩; exact ⟨v, hv, h⟩
      · rintro ⟨v, hv, h⟩; exact ⟨_, ⟨v, hv, rfl⟩, h⟩

/-- What a user expects of merging: an element never loses a bit it has. -/
def C145_full : Prop := ∀ (G : List Nat) (mergeAll : Bool) (fm0 : Flag) (c0 : Result Unit) (others : List (Flag × Result Unit)) (r : Result Unit),
  (∀ v ∈ c0.vs, OnGrid G v.2) → mergeNode mergeAll fm0 c0 others = .ok r →
  ∀ (k : Nat) (v w : Unit × Option (Arr Flag)), c0.vs[k]? = some v → r.vs[k]? = some w →
    ∀ idx, Inside G idx → ∀ b, Has (flagAt v.2 idx) b → Has (flagAt w.2 idx) b

/-- A single child with a mask: the bits outside the mask are gone. -/
theorem C145_refuted : ¬ C145_full := by
  intro h
  have g : OnGrid [1] (some ⟨[1], [2]⟩) := onGrid_some ⟨by simp [Positive], rfl⟩ (broadcasts_refl [1])
  have := h [1] false 1 ⟨[2], [((), some ⟨[1], [2]⟩), ((), some ⟨[1], [2]⟩)]⟩ [] ⟨[2], [((), some ⟨[1], [0]⟩), ((), some ⟨[1], [0]⟩)]⟩
    (by intro v hv; fin_cases hv <;> exact g) (by decide +kernel) 0 _ _ rfl rfl (fun _ => 0)
    (by intro i; cases i <;> simp [ext]) 1 (by decide)
  exact absurd this (by decide)

/-- Bits are kept if there are further children, or if the mask of the only child covers them. -/
theorem C145_partial {V} (G : List Nat) (mergeAll : Bool) (fm0 : Flag) (c0 : Result V) (others : List (Flag × Result V)) (r : Result V)
    (h0 : ∀ v ∈ c0.vs, OnGrid G v.2) (h1 : ∀ c ∈ others, ∀ v ∈ c.2.vs, OnGrid G v.2) (s0 : Shaped c0) (s1 : ∀ c ∈ others, Shaped c.2)
    (hm : others ≠ [] ∨ ∀ b < 32, Has fm0 b) (hr : mergeNode mergeAll fm0 c0 others = .ok r)
    (k : Nat) (v w : V × Option (Arr Flag)) (hv : c0.vs[k]? = some v) (hw : r.vs[k]? = some w) (idx) (hi : Inside G idx) (b : Nat)
    (hb : Has (flagAt v.2 idx) b) : Has (flagAt w.2 idx) b := by
  by_cases hn : others = []
  · subst hn
    have hm' : ∀ b < 32, Has fm0 b := hm.resolve_left fun h => h rfl
    obtain ⟨p1, p2⟩ := C145_single G mergeAll fm0 c0 h0
    have hb32 : b < 32 := by
      by_contra hc
      unfold Has at hb
      rw [BitVec.getLsbD_of_ge _ _ (by omega)] at hb
      cases hb
    have hvn : v.2 ≠ none := by
      intro hvn
      rw [hvn] at hb
      exact has_zero b hb
    by_cases hl : c0.vs.length ≤ 1
    · rw [p1 (Or.inl hl)] at hr
      cases hr
      rw [hv] at hw
      cases hw
      exact hb
    · obtain ⟨r', q1, _, _, q4⟩ := p2 (by omega) (fun hz => has_zero 0 (by rw [← hz]; exact hm' 0 (by decide)))
        ⟨v, List.mem_of_getElem? hv, hvn⟩
      rw [hr] at q1
      cases q1
      exact (q4 w (List.mem_of_getElem? hw) idx hi b).2 ⟨v, List.mem_of_getElem? hv, hb, hm' b hb32⟩
  · obtain ⟨p1, p2⟩ := C145_several G mergeAll fm0 c0 others hn h0 h1 s0 s1
    by_cases hc : c0.vs ≠ [] ∧ ∃ c ∈ others, c.1 ≠ 0 ∧ c.2.vs ≠ [] ∧ mergeAll = false ∧ c0.dims ≠ c.2.dims ∧ c0.dims ≠ [] ∧ c.2.dims ≠ []
    · rw [p1 hc] at hr; cases hr
    · obtain ⟨r', q1, _, _, q4⟩ := p2 hc
      rw [hr] at q1
      cases q1
      exact ((q4 k v w hv hw).2 idx hi b).2 (Or.inl hb)

/-- A scalar source into a tensor, with a mask; then a clash. -/
example : mergeNode false 1 ⟨[2], [((), some ⟨[1], [8]⟩), ((), none)]⟩ [(3, ⟨[], [((), some ⟨[2], [7, 4]⟩)]⟩)] =
    .ok ⟨[2], [((), some ⟨[2], [11, 8]⟩), ((), some ⟨[2], [3, 0]⟩)]⟩ := by decide +kernel
example : (match mergeNode false 1 ⟨[2], [((), none), ((), none)]⟩ [(3, ⟨[3], [((), none), ((), none), ((), none)]⟩)] with
    | .err => true | _ => false) = true := by decide +kernel

/-! ## C146 -/

/-- The flagger of zeros fails exactly if an element with a value has a complex value or the operation is none of the six.
Otherwise values stay, elements without value stay as they are, and the others get flags as specified. -/
theorem C146_node (op : Oper) (bit : Flag) (force : Bool) (l : List (Val × Option (Arr Flag)))
    (h : ∀ a fl, (Val.real a, fl) ∈ l → a.Wf) :
    ((∃ e ∈ l, e.1 = .complex ∨ (e.1 ≠ .missing ∧ op = .other)) → zeroNode op bit force l = .err) ∧
    (¬ (∃ e ∈ l, e.1 = .complex ∨ (e.1 ≠ .missing ∧ op = .other)) → ∃ l', zeroNode op bit force l = .ok l' ∧ l'.length = l.length ∧
      ∀ (k : Nat) (e e' : Val × Option (Arr Flag)), l[k]? = some e → l'[k]? = some e' → e'.1 = e.1 ∧
        (e.1 = .missing → e'.2 = e.2) ∧ ∀ a, e.1 = .real a → ZeroOut op bit force a e.2 e'.2) := by
  induction l with
  | nil => exact ⟨by simp, fun _ => ⟨[], rfl, rfl, fun k e e' h => by simp at h⟩⟩
  | cons e l ih =>
    obtain ⟨i1, i2⟩ := ih fun a fl hm => h a fl (List.mem_cons_of_mem _ hm)
    obtain ⟨v, fl⟩ := e
    have one : ((v = .complex ∨ (v ≠ .missing ∧ op = .other)) → zeroOne op bit force v fl = .err) ∧
        (¬ (v = .complex ∨ (v ≠ .missing ∧ op = .other)) → ∃ f, zeroOne op bit force v fl = .ok f ∧
          (v = .missing → f = fl) ∧ ∀ a, v = .real a → ZeroOut op bit force a fl f) := by
      cases v with
      | missing => exact ⟨by simp, fun _ => ⟨fl, rfl, fun _ => rfl, fun a ha => by cases ha⟩⟩
      | complex => exact ⟨fun _ => rfl, fun hn => absurd (Or.inl rfl) hn⟩
      | real a =>
        have wa := h a fl List.mem_cons_self
        cases ht : op.test with
        | none =>
          have : op = .other := by cases op <;> simp [Oper.test] at ht; rfl
          refine ⟨fun _ => by unfold zeroOne; rw [ht], fun hn => absurd (Or.inr ⟨by simp, this⟩) hn⟩
        | some t =>
          have ho : op ≠ .other := by intro ho; rw [ho] at ht; cases ht
          refine ⟨fun hn => by rcases hn with hn | hn; · cases hn
                               · exact absurd hn.2 ho, fun _ => ?_⟩
          unfold zeroOne
          rw [ht]
          dsimp only
          have hz : (zeroFlags t bit a).2 = 0 ↔ ∀ v ∈ a.data, Holds op v → bit = 0 := by
            unfold zeroFlags
            dsimp only
            rw [foldl_or_zero]
            simp only [List.mem_map, forall_exists_index, and_imp, forall_apply_eq_imp_iff₂]
            constructor
            · intro hh v hv hv'
              have := hh v hv
              rwa [if_pos ((test_holds op t ht v).2 hv')] at this
            · intro hh v hv
              by_cases hv' : t v = true
              · rw [if_pos hv']; exact hh v hv ((test_holds op t ht v).1 hv')
              · rw [if_neg hv']; rfl
          have hz' : (zeroFlags t bit a).2 = 0 ↔ ∀ idx v, Inside a.shape idx → a.at idx = some v → Holds op v → bit = 0 := by
            rw [hz]
            constructor
            · intro hh idx v _ hv hv'
              exact hh v (at_mem a idx v hv) hv'
            · intro hh v hv hv'
              obtain ⟨idx, hi, e⟩ := mem_at a wa v hv
              exact hh idx v hi e hv'
          by_cases ht0 : (zeroFlags t bit a).2 = 0
          · rw [if_neg (by simpa using ht0)]
            have hno := hz'.1 ht0
            cases force with
            | true =>
              rw [if_pos rfl]
              refine ⟨_, rfl, fun hm => (by cases hm), fun a' ha' => ?_⟩
              cases ha'
              refine ⟨?_, fun _ => ⟨fun _ => ⟨by simp, fun idx b hb => ?_⟩, fun hf => (by cases hf)⟩⟩
              · rintro ⟨idx, v, hi, hv, hv', hbit⟩
                exact absurd (hno idx v hi hv hv') hbit
              · have e : flagAt (some ⟨[1], [0#32]⟩) idx = 0 := by
                  show (Option.getD (Arr.at (⟨[1], [0#32]⟩ : Arr Flag) idx) 0) = 0
                  cases hx : Arr.at (⟨[1], [0#32]⟩ : Arr Flag) idx with
                  | none => rfl
                  | some x =>
                    have := at_mem _ _ _ hx
                    rw [List.mem_singleton] at this
                    subst this
                    rfl
                rw [e] at hb
                exact has_zero b hb
            | false =>
              refine ⟨fl, rfl, fun _ => rfl, fun a' ha' => ?_⟩
              cases ha'
              refine ⟨?_, fun _ => ⟨fun hf => (by cases hf), fun _ => rfl⟩⟩
              rintro ⟨idx, v, hi, hv, hv', hbit⟩
              exact absurd (hno idx v hi hv hv') hbit
          · rw [if_pos ht0]
            refine ⟨_, rfl, fun hm => (by cases hm), fun a' ha' => ?_⟩
            cases ha'
            refine ⟨fun _ idx v hi hv b => ?_, fun hh => absurd (hz'.2 hh) ht0⟩
            unfold zeroFlags
            dsimp only [flagAt]
            rw [at_map, hv]
            simp only [Option.map_some, Option.getD_some]
            by_cases hv' : t v = true
            · rw [if_pos hv']
              have := (test_holds op t ht v).1 hv'
              simp [this]
            · rw [if_neg hv']
              have h1 : ¬ Holds op v := fun hh => hv' ((test_holds op t ht v).2 hh)
              exact ⟨fun hb => absurd hb (has_zero b), fun hb => absurd hb.1 h1⟩
    have unf : zeroNode op bit force ((v, fl) :: l) =
        (zeroOne op bit force v fl).bind fun f => (zeroNode op bit force l).bind fun r => .ok ((v, f) :: r) := rfl
    rw [unf]
    by_cases hb : v = .complex ∨ (v ≠ .missing ∧ op = .other)
    · refine ⟨fun _ => by rw [one.1 hb]; rfl, fun hn => absurd ⟨_, List.mem_cons_self, hb⟩ hn⟩
    · obtain ⟨f, e1, e2, e3⟩ := one.2 hb
      rw [e1]
      dsimp only [Res.bind]
      refine ⟨?_, fun hn => ?_⟩
      · rintro ⟨e, he, h'⟩
        rcases List.mem_cons.1 he with rfl | he
        · exact absurd h' hb
        · rw [i1 ⟨e, he, h'⟩]
      · obtain ⟨l', g1, g2, g3⟩ := i2 fun ⟨e, he, h'⟩ => hn ⟨e, List.mem_cons_of_mem _ he, h'⟩
        rw [g1]
        refine ⟨_, rfl, by simp [g2], fun k a a' h1 h2 => ?_⟩
        cases k with
        | zero =>
          simp only [List.getElem?_cons_zero, Option.some.injEq] at h1 h2
          subst h1 h2
          exact ⟨rfl, e2, e3⟩
        | succ k =>
          simp only [List.getElem?_cons_succ] at h1 h2
          exact g3 k a a' h1 h2

/-- What the documentation says: the bit is ORed with the flags at all points where the condition holds. -/
def C146_full : Prop := ∀ (op : Oper) (bit : Flag) (force : Bool) (a : Arr ℚ) (old new : Option (Arr Flag)), a.Wf → OnGrid a.shape old →
  zeroNode op bit force [(.real a, old)] = .ok [(.real a, new)] →
  ∀ idx v, Inside a.shape idx → a.at idx = some v → ∀ b, Has (flagAt new idx) b ↔ Has (flagAt old idx) b ∨ (Holds op v ∧ Has bit b)

/-- Flags set before are lost where a point is flagged. -/
theorem C146_refuted : ¬ C146_full := by
  intro h
  have g : OnGrid [2] (some ⟨[2], [2, 2]⟩) := onGrid_some ⟨by simp [Positive], rfl⟩ (broadcasts_refl [2])
  have := (h .eq 1 false ⟨[2], [0, 5]⟩ (some ⟨[2], [2, 2]⟩) (some ⟨[2], [1, 0]⟩) ⟨by simp [Positive], rfl⟩ g
    (by decide +kernel) (fun _ => 0) 0 (by intro i; cases i <;> simp [ext]) rfl 1).2 (Or.inl (by decide))
  exact absurd this (by decide)

/-- Without flags before, or if no point satisfies the condition and output is not forced, the documentation is right. -/
theorem C146_partial (op : Oper) (bit : Flag) (force : Bool) (a : Arr ℚ) (old new : Option (Arr Flag)) (ha : a.Wf)
    (hc : old = none ∨ (force = false ∧ ∀ idx v, Inside a.shape idx → a.at idx = some v → ¬ Holds op v))
    (hz : zeroNode op bit force [(.real a, old)] = .ok [(.real a, new)])
    (idx v) (hi : Inside a.shape idx) (hv : a.at idx = some v) (b : Nat) :
    Has (flagAt new idx) b ↔ Has (flagAt old idx) b ∨ (Holds op v ∧ Has bit b) := by
  obtain ⟨p1, p2⟩ := C146_node op bit force [(.real a, old)] (by
    intro a' fl hm
    rw [List.mem_singleton] at hm
    cases hm
    exact ha)
  by_cases hb : ∃ e ∈ [(Val.real a, old)], e.1 = .complex ∨ (e.1 ≠ .missing ∧ op = .other)
  · rw [p1 hb] at hz; cases hz
  obtain ⟨l', q1, _, q3⟩ := p2 hb
  rw [hz] at q1
  cases q1
  obtain ⟨z1, z2⟩ := (q3 0 _ _ rfl rfl).2.2 a rfl
  by_cases hh : ∃ idx v, Inside a.shape idx ∧ a.at idx = some v ∧ Holds op v ∧ bit ≠ 0
  · rw [z1 hh idx v hi hv]
    rcases hc with rfl | ⟨_, hc⟩
    · have := has_zero b
      simp only [flagAt, this, false_or]
    · obtain ⟨idx', v', h1, h2, h3, _⟩ := hh
      exact absurd h3 (hc idx' v' h1 h2)
  · have hno : ∀ idx v, Inside a.shape idx → a.at idx = some v → Holds op v → bit = 0 := by
      intro idx v h1 h2 h3
      by_contra h4
      exact hh ⟨idx, v, h1, h2, h3, h4⟩
    obtain ⟨y1, y2⟩ := z2 hno
    have hr : ¬ (Holds op v ∧ Has bit b) := by
      rintro ⟨h3, h4⟩
      rw [hno idx v hi hv h3] at h4
      exact has_zero b h4
    simp only [hr, or_false]
    cases force with
    | false => rw [show new = old from y2 rfl]
    | true =>
      rcases hc with rfl | ⟨hf, _⟩
      · exact ⟨fun h => absurd h ((y1 rfl).2 idx b), fun h => absurd h (has_zero b)⟩
      · cases hf

example : zeroNode .le 4 false [(.real ⟨[3], [-1, 2, 0]⟩, none), (.missing, some ⟨[1], [1]⟩)] =
    .ok [(.real ⟨[3], [-1, 2, 0]⟩, some ⟨[3], [4, 0, 4]⟩), (.missing, some ⟨[1], [1]⟩)] := by decide +kernel

/-! ## C147 -/

/-- Output flags of a reduction to a scalar: all bits of the mask or none; and exactly what decides.  The output is flagged
exactly if the mask is not 0 and, if the mask has bit 0, no word is 0. -/
theorem C147_decision (f : Arr Flag) (mask : Flag) (idx) (hi : Inside [1] idx) (b : Nat) :
    Has (flagAt (scalarFlags (some f) mask) idx) b ↔ Has mask b ∧ ¬ (Has mask 0 ∧ ∃ w ∈ f.data, w = 0) := by
  have hz : isAllFlagged f.data mask = if Has mask 0 ∧ ∃ w ∈ f.data, w = 0 then 0 else mask := by
    rw [allFlagged_spec]
    congr 1
    simp only [looksClear_iff, eq_iff_iff]
    constructor
    · rintro ⟨w, h1, h2, h3⟩; exact ⟨h3, w, h1, h2⟩
    · rintro ⟨h3, w, h1, h2⟩; exact ⟨w, h1, h2, h3⟩
  have hat : ∀ x : Flag, flagAt (some ⟨[1], [x]⟩) idx = x := by
    intro x
    have h0 : idx 0 = 0 := by have := hi 0; simp [ext] at this; exact this
    simp [flagAt, Arr.at, position, ext, List.range_succ]
  unfold scalarFlags
  dsimp only
  rw [hz]
  by_cases hm : mask = 0
  · rw [if_neg (by simpa using hm), hm]
    exact ⟨fun h => absurd h (has_zero b), fun h => absurd h.1 (has_zero b)⟩
  rw [if_pos hm]
  by_cases hc : Has mask 0 ∧ ∃ w ∈ f.data, w = 0
  · rw [if_pos hc, if_neg (by simp)]
    exact ⟨fun h => absurd h (has_zero b), fun h => absurd hc h.2⟩
  · rw [if_neg hc, if_pos hm, hat]
    exact ⟨fun h => ⟨h, hc⟩, fun h => h.1⟩

/-- The same along axes: at each point of the shape left over, by the words of its slice. -/
theorem C147_axes (shape : List Nat) (slices : List (List Flag)) (mask : Flag) (hp : Positive shape) (hl : slices.length = size shape) :
    ∃ o, axesFlags shape slices mask = .ok o ∧ ∀ idx, Inside shape idx → ∃ s, slices[position shape idx]? = some s ∧
      ∀ b, Has (flagAt o idx) b ↔ Has mask b ∧ ¬ (Has mask 0 ∧ ∃ w ∈ s, w = 0) := by
  have hz : ∀ s : List Flag, isAllFlagged s mask = if Has mask 0 ∧ ∃ w ∈ s, w = 0 then 0 else mask := by
    intro s
    rw [allFlagged_spec]
    congr 1
    simp only [looksClear_iff, eq_iff_iff]
    constructor
    · rintro ⟨w, h1, h2, h3⟩; exact ⟨h3, w, h1, h2⟩
    · rintro ⟨h3, w, h1, h2⟩; exact ⟨w, h1, h2, h3⟩
  have hb : ∀ (s : List Flag) b, Has (isAllFlagged s mask) b ↔ Has mask b ∧ ¬ (Has mask 0 ∧ ∃ w ∈ s, w = 0) := by
    intro s b
    rw [hz]
    by_cases hc : Has mask 0 ∧ ∃ w ∈ s, w = 0
    · rw [if_pos hc]
      exact ⟨fun h => absurd h (has_zero b), fun h => absurd hc h.2⟩
    · rw [if_neg hc]
      exact ⟨fun h => ⟨h, hc⟩, fun h => h.1⟩
  have hpos : ∀ idx, Inside shape idx → position shape idx < slices.length := by
    intro idx hi
    rw [hl, ← size_axes shape 0]
    exact pos_lt shape idx hi shape.length
  have hcoll : ∀ idx, Inside shape idx → pos shape.length shape (coll shape idx) = position shape idx := by
    intro idx hi
    apply pos_congr
    intro i _
    unfold coll
    have := hi i
    split
    · omega
    · rfl
  unfold axesFlags
  by_cases hm : mask = 0
  · rw [if_pos hm]
    refine ⟨none, rfl, fun idx hi => ⟨_, List.getElem?_eq_getElem (hpos idx hi), fun b => ?_⟩⟩
    rw [hm]
    exact ⟨fun h => absurd h (has_zero b), fun h => absurd h.1 (has_zero b)⟩
  rw [if_neg hm]
  dsimp only
  by_cases ht : (slices.map fun s => isAllFlagged s mask).foldl (· ||| ·) 0#32 = 0
  · rw [if_neg (by simpa using ht)]
    refine ⟨none, rfl, fun idx hi => ⟨_, List.getElem?_eq_getElem (hpos idx hi), fun b => ?_⟩⟩
    rw [← hb]
    have := (foldl_or_zero _).1 ht _ (List.mem_map_of_mem (f := fun s => isAllFlagged s mask) (List.getElem_mem (hpos idx hi)))
    rw [this]
    rfl
  · rw [if_pos ht]
    have wf : OnGrid shape (some ⟨shape, slices.map fun s => isAllFlagged s mask⟩) :=
      onGrid_some ⟨hp, by simpa using hl⟩ (broadcasts_refl shape)
    obtain ⟨r, e1, _, _, e4⟩ := merge_grid none _ mask (onGrid_none shape) wf
    refine ⟨r, e1, fun idx hi => ⟨_, List.getElem?_eq_getElem (hpos idx hi), fun b => ?_⟩⟩
    rw [e4 idx hi, has_or, has_and]
    have e : flagAt (some ⟨shape, slices.map fun s => isAllFlagged s mask⟩) idx = isAllFlagged (slices[position shape idx]'(hpos idx hi)) mask := by
      simp only [flagAt, at_eq]
      rw [List.getElem?_map, hcoll idx hi, List.getElem?_eq_getElem (hpos idx hi)]
      rfl
    rw [e, hb]
    have := has_zero b
    simp only [flagAt, this, false_or]
    tauto

/-- What the comments say: the output is flagged exactly if all of the input is flagged under the mask. -/
def C147_full : Prop := ∀ (f : Arr Flag) (mask : Flag), f.Wf → mask ≠ 0 →
  ((∃ b, Has (flagAt (scalarFlags (some f) mask) fun _ => 0) b) ↔ ∀ w ∈ f.data, ∃ b, Has w b ∧ Has mask b)

/-- With a mask without bit 0 data that is not flagged at all gives flagged output. -/
theorem C147_refuted : ¬ C147_full := by
  intro h
  have := (h ⟨[2], [0, 0]⟩ 2 ⟨by simp [Positive], rfl⟩ (by decide)).1 ⟨1, by decide⟩ 0 (by simp)
  obtain ⟨b, hb, _⟩ := this
  exact has_zero b hb

/-- Flags outside the mask count as flags. -/
theorem C147_refuted_outside : ¬ C147_full := by
  intro h
  have := (h ⟨[2], [2, 2]⟩ 1 ⟨by simp [Positive], rfl⟩ (by decide)).1 ⟨0, by decide⟩ 2 (by simp)
  obtain ⟨b, h1, h2⟩ := this
  have hb : b = 0 := by
    unfold Has at h2
    rw [show (1 : Flag) = 1#32 from rfl, BitVec.getLsbD_one] at h2
    simpa using h2
  subst hb
  exact absurd h1 (by decide)

/-- With a mask that has bit 0 and flags within the mask the comments are right. -/
theorem C147_partial (f : Arr Flag) (mask : Flag) (h0 : Has mask 0) (hin : ∀ w ∈ f.data, ∀ b, Has w b → Has mask b) :
    (∃ b, Has (flagAt (scalarFlags (some f) mask) fun _ => 0) b) ↔ ∀ w ∈ f.data, ∃ b, Has w b ∧ Has mask b := by
  have hi : Inside [1] fun _ => 0 := by intro i; cases i <;> simp [ext]
  constructor
  · rintro ⟨b, hb⟩ w hw
    obtain ⟨_, h2⟩ := (C147_decision f mask _ hi b).1 hb
    by_contra hn
    refine h2 ⟨h0, w, hw, (zero_iff w).2 fun b hb => hn ⟨b, hb, hin w hw b hb⟩⟩
  · intro h
    refine ⟨0, (C147_decision f mask _ hi 0).2 ⟨h0, ?_⟩⟩
    rintro ⟨_, w, hw, rfl⟩
    obtain ⟨b, hb, _⟩ := h 0 hw
    exact has_zero b hb

example : scalarFlags (some ⟨[2], [3, 1]⟩) fullMask = some ⟨[1], [fullMask]⟩ ∧ scalarFlags (some ⟨[2], [3, 0]⟩) fullMask = none := by
  decide +kernel
example : axesFlags [2] [[1, 2], [0, 3]] 3 = .ok (some ⟨[2], [3, 0]⟩) := by decide +kernel

/-! ## C148 -/

/-- For any number of children: the output is flagged at a point exactly if every child is flagged there under its mask. -/
def C148_full : Prop := ∀ (G : List Nat) (ch : List (Option (Arr Flag) × Flag)), G ≠ [] → (∀ c ∈ ch, OnGrid G c.1) →
  ∃ o, acrossFlags ch = .ok o ∧ ∀ idx, Inside G idx → ∀ b,
    Has (flagAt o idx) b ↔ (∀ c ∈ ch, Flagged c.1 c.2 idx) ∧ ∃ c ∈ ch, Has c.2 b

/-- With 31 children the shift overflows. -/
theorem C148_refuted : ¬ C148_full := by
  intro h
  have g : OnGrid [1] (some ⟨[1], [1]⟩) := onGrid_some ⟨by simp [Positive], rfl⟩ (broadcasts_refl [1])
  obtain ⟨o, e, _⟩ := h [1] (List.replicate 31 (some ⟨[1], [1]⟩, 1)) (by simp)
    (by intro c hc; rw [(List.mem_replicate.1 hc).2]; exact g)
  have : acrossFlags (List.replicate 31 (some ⟨[1], [1]⟩, 1)) = .ub := by decide +kernel
  rw [this] at e
  cases e

/-- Up to 30 children. -/
theorem C148_partial (G : List Nat) (ch : List (Option (Arr Flag) × Flag)) (hG : G ≠ []) (h : ∀ c ∈ ch, OnGrid G c.1)
    (hn : ch.length ≤ 30) :
    ∃ o, acrossFlags ch = .ok o ∧ ∀ idx, Inside G idx → ∀ b,
      Has (flagAt o idx) b ↔ (∀ c ∈ ch, Flagged c.1 c.2 idx) ∧ ∃ c ∈ ch, Has c.2 b := by
  have g0 : OnGrid G (some ⟨[1], [0#32]⟩) := by
    refine onGrid_some ⟨by simp [Positive], rfl⟩ ⟨?_, fun i => Or.inl ?_⟩
    · exact List.length_pos_iff.2 hG
    · cases i <;> simp [ext]
  have z0 : ∀ idx, flagAt (some ⟨[1], [0#32]⟩) idx = 0 := by
    intro idx
    show (Option.getD (Arr.at (⟨[1], [0#32]⟩ : Arr Flag) idx) 0) = 0
    cases hx : Arr.at (⟨[1], [0#32]⟩ : Arr Flag) idx with
    | none => rfl
    | some x =>
      have := at_mem _ _ _ hx
      rw [List.mem_singleton] at this
      subst this
      rfl
  obtain ⟨tot, fl, e1, e2, e3, e4⟩ := childBits_grid ch h 0 0 ⟨[1], [0#32]⟩ (by omega) g0
  have e3' : ∀ b, Has tot b ↔ ∃ c ∈ ch, c.1 ≠ none ∧ Has c.2 b := by
    intro b
    rw [e3]
    have := has_zero b
    simp only [this, false_or]
  have e4' : ∀ idx, Inside G idx → ∀ b, Has (flagAt (some fl) idx) b ↔ ∃ c, ch[b]? = some c ∧ Flagged c.1 c.2 idx := by
    intro idx hi b
    rw [e4 idx hi, z0]
    have := has_zero b
    simp only [this, false_or, Nat.zero_add]
    constructor
    · rintro ⟨j, c, h1, rfl, h3⟩; exact ⟨c, h1, h3⟩
    · rintro ⟨c, h1, h3⟩; exact ⟨b, c, h1, rfl, h3⟩
  have all : ∀ idx, Inside G idx → (flagAt (some fl) idx = (1#32 <<< ch.length) - 1#32 ↔ ∀ c ∈ ch, Flagged c.1 c.2 idx) := by
    intro idx hi
    constructor
    · intro he c hc
      obtain ⟨j, hj⟩ := List.getElem?_of_mem hc
      have hb := (has_ones ch.length (by omega) j).2 (List.getElem?_eq_some_iff.1 hj).1
      rw [← he, e4' idx hi] at hb
      obtain ⟨c', h1, h2⟩ := hb
      rw [hj] at h1
      cases h1
      exact h2
    · intro ha
      apply BitVec.eq_of_getLsbD_eq
      intro b _
      rw [Bool.eq_iff_iff]
      refine (e4' idx hi b).trans (Iff.trans ?_ (has_ones ch.length (by omega) b).symm)
      constructor
      · rintro ⟨c, h1, _⟩; exact (List.getElem?_eq_some_iff.1 h1).1
      · intro hb
        exact ⟨_, List.getElem?_eq_getElem hb, ha _ (List.getElem_mem hb)⟩
  have someOf : ∀ idx, (∀ c ∈ ch, Flagged c.1 c.2 idx) → ∀ c ∈ ch, c.1 ≠ none := by
    intro idx ha c hc hcn
    have := ha c hc
    rw [hcn] at this
    exact not_flagged_none _ _ this
  unfold acrossFlags
  rw [e1]
  dsimp only [Res.bind]
  by_cases ht : tot = 0
  · rw [if_neg (by simpa using ht)]
    refine ⟨none, rfl, fun idx hi b => ⟨fun hb => absurd hb (has_zero b), ?_⟩⟩
    rintro ⟨ha, c, hc, hb⟩
    have := (e3' b).2 ⟨c, hc, someOf idx ha c hc, hb⟩
    rw [ht] at this
    exact absurd this (has_zero b)
  rw [if_pos ht, if_neg (by omega)]
  obtain ⟨w1, w2, _, w4⟩ := whereEq_grid fl ((1#32 <<< ch.length) - 1#32) tot 0 e2
  by_cases hw : 0 ≤ (whereEq fl ((1#32 <<< ch.length) - 1#32) tot 0).2
  · rw [if_pos hw]
    refine ⟨_, rfl, fun idx hi b => ?_⟩
    rw [w2 idx hi]
    by_cases ha : ∀ c ∈ ch, Flagged c.1 c.2 idx
    · rw [if_pos ((all idx hi).2 ha), e3']
      constructor
      · rintro ⟨c, hc, _, hb⟩; exact ⟨ha, c, hc, hb⟩
      · rintro ⟨_, c, hc, hb⟩; exact ⟨c, hc, someOf idx ha c hc, hb⟩
    · rw [if_neg fun he => ha ((all idx hi).1 he)]
      exact ⟨fun hb => absurd hb (has_zero b), fun hb => absurd hb.1 ha⟩
  · rw [if_neg hw]
    refine ⟨none, rfl, fun idx hi b => ⟨fun hb => absurd hb (has_zero b), ?_⟩⟩
    rintro ⟨ha, _⟩
    refine absurd (w4.2 ?_) hw
    obtain ⟨u, hu⟩ := at_inside fl (e2 fl rfl).1 G (e2 fl rfl).2.2 idx hi
    refine ⟨u, at_mem _ _ _ hu, ?_⟩
    have := (all idx hi).2 ha
    simpa only [flagAt, hu, Option.getD_some] using this

example : acrossFlags [(some ⟨[3], [1, 0, 2]⟩, fullMask), (some ⟨[3], [4, 4, 8]⟩, 4)] = .ok (some ⟨[3], [fullMask, 0, 0]⟩) := by decide +kernel
example : acrossFlags [(some ⟨[2], [1, 1]⟩, fullMask), (none, fullMask)] = .ok none := by decide +kernel

/-! ## C149 -/

/-- What a user expects: for a value and flags on a grid, the value with exactly the points replaced where a further child is
flagged under its mask. -/
def C149_full : Prop := ∀ (G : List Nat) (new : ℚ) (value : Arr ℚ) (fl0 : Option (Arr Flag)) (others : List (Option (Arr Flag) × Flag)),
  value.Wf → Broadcasts value.shape G → (∀ c ∈ others, OnGrid G c.1) →
  ∃ z, replaceNode new value fl0 others = .ok (z, fl0) ∧ ∀ idx, Inside G idx → ∃ u, value.at idx = some u ∧
    ((∃ c ∈ others, Flagged c.1 c.2 idx) → z.at idx = some new) ∧ (¬ (∃ c ∈ others, Flagged c.1 c.2 idx) → z.at idx = some u)

/-- A value that is constant along an axis along which the flags vary gives an exception. -/
theorem C149_refuted : ¬ C149_full := by
  intro h
  have g : OnGrid [2] (some ⟨[2], [1, 0]⟩) := onGrid_some ⟨by simp [Positive], rfl⟩ (broadcasts_refl [2])
  obtain ⟨z, e, _⟩ := h [2] 0 ⟨[1], [5]⟩ none [(some ⟨[2], [1, 0]⟩, 1)] ⟨by simp [Positive], rfl⟩
    ⟨by decide, fun i => Or.inl (by cases i <;> simp [ext])⟩
    (by intro c hc; rw [List.mem_singleton] at hc; subst hc; exact g)
  have : replaceNode (0 : ℚ) ⟨[1], [5]⟩ none [(some ⟨[2], [1, 0]⟩, 1)] = .err := by decide +kernel
  rw [this] at e
  cases e

/-- If the flags broadcast to the value.  The flags of the output are those of the first child. -/
theorem C149_partial {α} (new : α) (value : Arr α) (fl0 : Option (Arr Flag)) (others : List (Option (Arr Flag) × Flag))
    (hv : value.Wf) (h : ∀ c ∈ others, OnGrid value.shape c.1) :
    ∃ z, replaceNode new value fl0 others = .ok (z, fl0) ∧ z.shape = value.shape ∧
      ∀ idx, Inside value.shape idx → ∃ u, value.at idx = some u ∧
        ((∃ c ∈ others, Flagged c.1 c.2 idx) → z.at idx = some new) ∧
        (¬ (∃ c ∈ others, Flagged c.1 c.2 idx) → z.at idx = some u) := by
  obtain ⟨r, e1, e2, e3, e4⟩ := mergeList_grid others h none (onGrid_none _)
  have any : ∀ idx, Inside value.shape idx → ((∃ c ∈ others, Flagged c.1 c.2 idx) ↔ ∃ b, Has (flagAt r idx) b) := by
    intro idx hi
    constructor
    · rintro ⟨c, hc, b, hb⟩; exact ⟨b, (e4 idx hi b).2 (Or.inr ⟨c, hc, hb⟩)⟩
    · rintro ⟨b, hb⟩
      rcases (e4 idx hi b).1 hb with hb | ⟨c, hc, hb⟩
      · exact absurd hb (has_zero b)
      · exact ⟨c, hc, b, hb⟩
  unfold replaceNode
  rw [e1]
  dsimp only [Res.bind]
  cases r with
  | none =>
    refine ⟨value, rfl, rfl, fun idx hi => ?_⟩
    obtain ⟨u, hu⟩ := at_inside value hv value.shape (fun i => Or.inr rfl) idx hi
    refine ⟨u, hu, fun hc => ?_, fun _ => hu⟩
    obtain ⟨b, hb⟩ := (any idx hi).1 hc
    exact absurd hb (has_zero b)
  | some f =>
    obtain ⟨wf, bf⟩ := e2 f rfl
    obtain ⟨z, q1, q2, _, q4⟩ := (C38_replace_flagged (fun w : Flag => decide (w &&& fullMask ≠ 0)) new value f hv wf).2 bf
    dsimp only
    rw [q1]
    refine ⟨z, rfl, q2, fun idx hi => ?_⟩
    obtain ⟨u, w, h1, h2, h3⟩ := q4 idx hi
    have hw : (∃ c ∈ others, Flagged c.1 c.2 idx) ↔ decide (w &&& fullMask ≠ 0) = true := by
      rw [any idx hi, decide_eq_true_iff, fullMask_and, ne_eq, zero_iff]
      simp only [flagAt, h2, Option.getD_some]
      push Not
      rfl
    refine ⟨u, h1, fun hc => ?_, fun hc => ?_⟩
    · rw [h3, if_pos (hw.1 hc)]
    · rw [h3, if_neg (fun hd => hc (hw.2 hd))]

example : replaceNode (9 : ℚ) ⟨[3], [1, 2, 3]⟩ (some ⟨[1], [7]⟩) [(some ⟨[3], [1, 4, 0]⟩, 3), (none, 1), (some ⟨[3], [0, 0, 8]⟩, fullMask)] =
    .ok (⟨[3], [9, 2, 9]⟩, some ⟨[1], [7]⟩) := by decide +kernel

/-! ## C150 -/

/-- Stripping drops the derivatives and nothing else. -/
def C150_full : Prop := ∀ e : Elem ℚ, e.value ≠ none → (strip e).value = e.value ∧ (strip e).perturbed = [] ∧ (strip e).flags = e.flags

/-- The flags of an element with derivatives are dropped too. -/
theorem C150_refuted : ¬ C150_full := by
  intro h
  have := (h ⟨some 1, [(1, 2)], some ⟨[1], [1]⟩⟩ (by simp)).2.2
  cases this

/-- The main value stays and no derivatives are left.  An element without derivatives or without value stays as it is; one with
derivatives keeps its flags only if it has none. -/
theorem C150_partial {V} (e : Elem V) : (strip e).value = e.value ∧ (e.value ≠ none → (strip e).perturbed = []) ∧
    ((e.perturbed = [] ∨ e.value = none) → strip e = e) ∧ (e.value ≠ none → e.perturbed ≠ [] → (strip e).flags = none) := by
  obtain ⟨v, p, f⟩ := e
  cases v with
  | none => exact ⟨rfl, fun h => absurd rfl h, fun _ => rfl, fun h => absurd rfl h⟩
  | some v =>
    cases p with
    | nil => exact ⟨rfl, fun _ => rfl, fun _ => rfl, fun _ h => absurd rfl h⟩
    | cons x p => exact ⟨rfl, fun _ => rfl, fun h => (by rcases h with h | h <;> cases h), fun _ _ => rfl⟩

example : (strip (⟨some 1, [(1, 2)], none⟩ : Elem ℚ)).value = some 1 := rfl

end Verif.FlagNodes
