import Verif.Spec.Cells
import Mathlib.Data.List.Chain
import Mathlib.Tactic.Ring
import Mathlib.Tactic.Linarith
import Mathlib.Tactic.NormNum
/-! # Lemmas: domains and cells (C41-C44, C73, C74) -/
namespace Verif.CellGrid

theorem loop_append {σ} (f : Nat → σ → Res σ) (l : List Nat) : ∀ (l' : List Nat) (s : σ),
    loop f (l ++ l') s = (loop f l s).bind (loop f l') := by
  induction l with
  | nil => intro l' s; rfl
  | cons i l ih =>
    intro l' s
    simp only [List.cons_append, loop]
    cases h : f i s with
    | ok a => simp only [Res.bind]; exact ih l' a
    | err => rfl
    | ub => rfl

/-- A loop whose turns set one axis each. -/
theorem loop_axes (f : Nat → Dom → Res Dom) (d0 : Dom) (g : Nat → Option (ℚ × ℚ)) (n : Nat)
    (hf : ∀ i, i < n → ∀ d : Dom, d.axis i = d0.axis i → f i d = .ok ⟨fun k => if k = i then g i else d.axis k⟩) :
    loop f (List.range n) d0 = .ok ⟨fun k => if k < n then g k else d0.axis k⟩ := by
  induction n with
  | zero => simp [loop]
  | succ n ih =>
    rw [List.range_succ, loop_append, ih fun i hi => hf i (by omega)]
    simp only [Res.bind, loop]
    rw [hf n (by omega) _ (by simp)]
    simp only
    congr 2
    funext k
    by_cases h : k = n
    · subst h; simp
    · by_cases h2 : k < n
      · simp [h, h2, show k < n + 1 by omega]
      · simp [h, h2, show ¬ k < n + 1 by omega]

theorem define_ok (d : Dom) (i : Nat) (a1 a2 : ℚ) (hi : i < maxAxis) (h : a1 < a2) :
    defineAxis d i a1 a2 = .ok ⟨fun k => if k = i then some (a1, a2) else d.axis k⟩ := by
  unfold defineAxis
  rw [if_neg (by omega), if_neg (ne_of_lt h), if_neg (not_lt.2 (le_of_lt h))]

/-- The range of one axis of the envelope. -/
def join (r s : Option (ℚ × ℚ)) : Option (ℚ × ℚ) :=
  match r, s with
  | some r, some s => some (min r.1 s.1, max r.2 s.2)
  | some r, none => some r
  | none, s => s

theorem range_some {d : Dom} {i : Nat} {r : ℚ × ℚ} (h : d.axis i = some r) : d.range i = r := by simp [Dom.range, h]

theorem defined_some {d : Dom} {i : Nat} {r : ℚ × ℚ} (h : d.axis i = some r) : d.isDefined i = true := by simp [Dom.isDefined, h]

theorem defined_none {d : Dom} {i : Nat} (h : d.axis i = none) : d.isDefined i = false := by simp [Dom.isDefined, h]

theorem join_lt {r s : ℚ × ℚ} (h1 : r.1 < r.2) : min r.1 s.1 < max r.2 s.2 :=
  lt_of_le_of_lt (min_le_left _ _) (lt_of_lt_of_le h1 (le_max_left _ _))

theorem envelope_eq (a b : Dom) (ha : a.Wf) (hb : b.Wf) : envelope a b = .ok ⟨fun k => join (a.axis k) (b.axis k)⟩ := by
  unfold envelope
  rw [loop_axes (envelopeStep a b) .empty (fun k => join (a.axis k) (b.axis k))]
  · congr 2
    funext k
    by_cases h : k < maxAxis
    · rw [if_pos h]
    · rw [if_neg h, ha.2 k (by omega), hb.2 k (by omega)]
      rfl
  · intro i hi d hd
    unfold envelopeStep
    cases h1 : a.axis i with
    | none =>
      rw [defined_none h1]
      simp only [Bool.false_eq_true, if_false]
      cases h2 : b.axis i with
      | none =>
        rw [defined_none h2]
        simp only [Bool.false_eq_true, if_false, join]
        congr 1
        cases d with
        | mk ax =>
          congr 1
          funext k
          by_cases h : k = i
          · subst h; simp only [if_true]; exact hd
          · rw [if_neg h]
      | some s =>
        rw [defined_some h2, range_some h2]
        simp only [if_true, join]
        exact define_ok _ _ _ _ hi (hb.1 i s h2)
    | some r =>
      rw [defined_some h1]
      simp only [if_true]
      cases h2 : b.axis i with
      | none =>
        rw [defined_none h2, range_some h1]
        simp only [Bool.false_eq_true, if_false, join]
        exact define_ok _ _ _ _ hi (ha.1 i r h1)
      | some s =>
        rw [defined_some h2, range_some h1, range_some h2]
        simp only [if_true, join]
        exact define_ok _ _ _ _ hi (join_lt (ha.1 i r h1))

/-- A domain with one axis. -/
def oneAxis (i : Nat) (a b : ℚ) : Dom := ⟨fun k => if k = i then some (a, b) else none⟩

theorem oneAxis_wf (i : Nat) (a b : ℚ) (hi : i < maxAxis) (h : a < b) : (oneAxis i a b).Wf := by
  constructor
  · intro k r hr
    unfold oneAxis at hr
    simp only at hr
    split at hr
    · injection hr with hr; rw [← hr]; exact h
    · cases hr
  · intro k hk
    unfold oneAxis
    simp only
    rw [if_neg (by omega)]

/-- State of the segment loop: the segments so far, with the current one last. -/
structure SInv (x h : List ℚ) (eps : ℚ) (i : Nat) (s : SegState) : Prop where
  cover : (s.done ++ [((s.start : Int), (s.stop : Int))]).flatMap cellsOf = List.range i
  le : s.start ≤ s.stop
  last : s.stop + 1 = i
  proper : ∀ p ∈ s.done, 0 ≤ p.1 ∧ p.1 ≤ p.2
  regular : ∀ p ∈ s.done ++ [((s.start : Int), (s.stop : Int))], Regular x h eps p
  chain : (s.done ++ [((s.start : Int), (s.stop : Int))]).IsChain (Break x h eps)
  prev : s.prev = at' x s.stop
  h0 : s.h0 = at' h s.start
  ins : s.inSegment = decide (s.start < s.stop)
  dx0 : s.start < s.stop → s.dx0 = at' x s.stop - at' x (s.stop - 1)

theorem cellsOf_nat (a b : Nat) (h : a ≤ b) : cellsOf ((a : Int), (b : Int)) = List.range' a (b + 1 - a) := by
  unfold cellsOf
  simp only [Int.toNat_natCast]
  congr 1
  omega

theorem seg_loop (x h : List ℚ) (eps : ℚ) (he : 0 ≤ eps) : ∀ (l : List (ℚ × ℚ)) (i : Nat) (s : SegState),
    l = (x.zip h).drop i → i ≤ x.length → x.length = h.length → SInv x h eps i s → ∃ segs, segLoop eps l i s = segs ∧
      segs.flatMap cellsOf = List.range x.length ∧ (∀ p ∈ segs, 0 ≤ p.1 ∧ p.1 ≤ p.2) ∧ (∀ p ∈ segs, Regular x h eps p) ∧
      segs.IsChain (Break x h eps) := by
  intro l
  induction l with
  | nil =>
    intro i s hl hi hxh inv
    refine ⟨_, rfl, ?_, ?_, inv.regular, inv.chain⟩
    all_goals unfold segLoop
    · rw [inv.cover]
      congr 1
      have := congrArg List.length hl
      simp at this
      omega
    · intro p hp
      rw [List.mem_append, List.mem_singleton] at hp
      rcases hp with hp | rfl
      · exact inv.proper p hp
      · have := inv.le
        simp only
        omega
  | cons c l ih =>
    obtain ⟨xi, hi'⟩ := c
    intro i s hl hi hxh inv
    have hlt : i < x.length := by
      have := congrArg List.length hl
      simp at this
      omega
    have hlen : i < (x.zip h).length := by simp; omega
    rw [List.drop_eq_getElem_cons hlen] at hl
    injection hl with hc hl
    have hx : at' x i = xi := by
      simp [at', List.getD_eq_getElem?_getD, List.getElem?_eq_getElem hlt]
      have := congrArg Prod.fst hc
      simpa using this.symm
    have hh : at' h i = hi' := by
      simp [at', List.getD_eq_getElem?_getD, List.getElem?_eq_getElem (show i < h.length by omega)]
      have := congrArg Prod.snd hc
      simpa using this.symm
    have hlast := inv.last
    have hle := inv.le
    unfold segLoop
    simp only
    split
    · rename_i hb
      apply ih (i + 1) _ hl (by omega) hxh
      refine ⟨?_, Nat.le_refl _, rfl, ?_, ?_, ?_, hx.symm, hh.symm, by simp, fun h => absurd h (Nat.lt_irrefl _)⟩
      · simp only
        rw [List.flatMap_append, inv.cover]
        simp only [List.flatMap_cons, List.flatMap_nil, List.append_nil]
        rw [cellsOf_nat i i (Nat.le_refl _), List.range_succ]
        simp
      · intro p hp
        rw [List.mem_append, List.mem_singleton] at hp
        rcases hp with hp | rfl
        · exact inv.proper p hp
        · simp only; omega
      · intro p hp
        rw [List.mem_append, List.mem_singleton] at hp
        rcases hp with hp | rfl
        · exact inv.regular p hp
        · constructor
          · intro k h1 h2; simp only at h1 h2; omega
          · intro k h1 h2
            simp only at h1 h2
            have : k = i := by omega
            subst this
            simpa using he
      · simp only
        rw [List.isChain_append]
        refine ⟨inv.chain, by simp, ?_⟩
        intro p hp q hq
        rw [List.getLast?_concat, Option.mem_some_iff] at hp
        simp only [List.head?_cons, Option.mem_some_iff] at hq
        subst hp hq
        unfold Break
        simp only [Int.toNat_natCast]
        rw [inv.ins, inv.prev, inv.h0] at hb
        simp only [decide_eq_true_eq] at hb
        rw [hh, hx]
        rcases hb with ⟨h1, h2⟩ | h1
        · right
          rw [inv.dx0 h1] at h2
          exact ⟨by omega, h2⟩
        · left; exact h1
    · rename_i hb
      rw [inv.ins, inv.prev, inv.h0] at hb
      simp only [decide_eq_true_eq, not_or, not_and, not_lt] at hb
      apply ih (i + 1) _ hl (by omega) hxh
      refine ⟨?_, by simp only; omega, rfl, inv.proper, ?_, ?_, hx.symm, inv.h0, ?_, ?_⟩
      · simp only
        have := inv.cover
        rw [List.flatMap_append] at this ⊢
        simp only [List.flatMap_cons, List.flatMap_nil, List.append_nil] at this ⊢
        rw [cellsOf_nat _ _ hle] at this
        rw [cellsOf_nat _ _ (by omega), List.range_succ, ← this, List.append_assoc]
        congr 1
        rw [show i + 1 - s.start = (s.stop + 1 - s.start) + 1 by omega, List.range'_1_concat]
        congr 2
        omega
      · intro p hp
        rw [List.mem_append, List.mem_singleton] at hp
        rcases hp with hp | rfl
        · exact inv.regular p (List.mem_append_left _ hp)
        · have hr := inv.regular _ (List.mem_append_right _ (List.mem_singleton_self _))
          constructor
          · intro k h1 h2
            simp only at h1 h2
            by_cases hk : k < s.stop
            · exact hr.1 k h1 (by simp only; omega)
            · have : k = s.stop := by omega
              subst this
              have h3 := hb.1 (by omega)
              rw [inv.dx0 (by omega)] at h3
              rw [show s.stop + 1 = i by omega, hx]
              exact h3
          · intro k h1 h2
            simp only at h1 h2
            by_cases hk : k ≤ s.stop
            · exact hr.2 k h1 (by simp only; omega)
            · have : k = i := by omega
              subst this
              simp only [Int.toNat_natCast]
              rw [hh]
              exact hb.2
      · have := inv.chain
        rw [List.isChain_append] at this ⊢
        refine ⟨this.1, by simp, ?_⟩
        intro p hp q hq
        have := this.2.2 p hp _ (by simp; rfl)
        simp only [List.head?_cons, Option.mem_some_iff] at hq
        subst hq
        exact this
      · simp only
        rw [eq_comm, decide_eq_true_iff]
        omega
      · intro _
        simp only
        rw [hx, inv.prev]
        congr 2
        omega

theorem epsilon_nonneg (x : List ℚ) : 0 ≤ epsilon x := mul_nonneg (abs_nonneg _) (by norm_num)

end Verif.CellGrid
