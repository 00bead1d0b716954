import Verif.Spec.ReqNodes
import Verif.Props.RequestId
import Verif.Props.Nursery
/-! # Lemmas on request multiplexers and sequencers -/
namespace Verif.ReqNodes

open Verif.RequestId Verif.Nursery

/-- The id in use before child `i` is handled. -/
def pre (mask : Nat) (id : List Int) : Nat → List Int
  | 0 => id
  | i + 1 => nextId mask i (pre mask id i)

theorem comp_nextId (mask i : Nat) (id : List Int) (k : Nat) :
    comp (nextId mask i id) k = if i ≠ 0 ∧ k < 16 ∧ mask.testBit k = true then comp id k + 1 else comp id k := by
  unfold nextId
  by_cases hi : i ≠ 0
  · by_cases hm : mask ≠ 0
    · rw [if_pos ⟨hi, hm⟩]
      obtain ⟨x, hx, hc⟩ := C29_incrSubId id mask
      rw [hx]
      simp only [Option.getD_some, hc]
      by_cases h : k < 16 ∧ mask.testBit k = true
      · rw [if_pos h, if_pos ⟨hi, h⟩]
      · rw [if_neg h, if_neg fun h' => h h'.2]
    · rw [if_neg fun h => hm h.2]
      have : mask = 0 := by omega
      subst this
      simp
  · rw [if_neg fun h => hi h.1, if_neg fun h => hi h.1]

theorem idAt_pre (mask : Nat) (id : List Int) (i : Nat) : IdAt mask id i (pre mask id (i + 1)) := by
  intro k
  induction i with
  | zero =>
    show comp (nextId mask 0 id) k = _
    rw [comp_nextId, if_neg (by simp)]
    split <;> simp
  | succ i ih =>
    show comp (nextId mask (i + 1) (pre mask id (i + 1))) k = _
    rw [comp_nextId, ih]
    by_cases h : k < 16 ∧ mask.testBit k = true
    · rw [if_pos h, if_pos h, if_pos ⟨by omega, h⟩]
      omega
    · rw [if_neg h, if_neg h, if_neg fun h' => h h'.2]

/-- The code of child `i` as merged under the default policies. -/
def kept (c : Cfg) (i : Nat) (k : Code) : Code := dropMissing c i (dropFail c i k)

theorem kept_bits (c : Cfg) (i : Nat) (k : Code) : (kept c i k).deps = k.deps ∧
    (kept c i k).fail = (k.fail && decide (i = c.which)) ∧ (kept c i k).missing = (k.missing && decide (i = c.which)) ∧
    (kept c i k).abort = k.abort := by
  obtain ⟨d, f, m, a⟩ := k
  unfold kept dropMissing dropFail
  by_cases h : i = c.which <;> cases f <;> cases m <;> simp [h]

theorem seqLoop_default {R} (c : Cfg) (hc : Default c) (mask : Nat) (cells : Bool) (exe : Nat → List Int → Reply R)
    (id : List Int) (m : Nat) : ∀ (s : Nat) (a : Seq R), a.id = pre mask id s → a.stop = none →
    seqLoop c mask cells exe (List.range' s m) a =
      ⟨pre mask id (s + m),
       (List.range' s m).foldl (fun k i => k.or (kept c i (exe i (pre mask id (i + 1))).code)) a.code,
       if s ≤ c.which ∧ c.which < s + m ∧ cells = true then some (exe c.which (pre mask id (c.which + 1))).res else a.kept,
       none,
       a.calls ++ (List.range' s m).map fun i => (i, pre mask id (i + 1))⟩ := by
  induction m with
  | zero =>
    intro s a ha hs
    obtain ⟨aid, acode, akept, astop, acalls⟩ := a
    cases ha
    cases hs
    have : ¬ (s ≤ c.which ∧ c.which < s + 0 ∧ cells = true) := by omega
    simp only [List.range'_zero, seqLoop, List.foldl_nil, List.map_nil, List.append_nil, if_neg this]
    rfl
  | succ m ih =>
    intro s a ha hs
    rw [List.range'_succ]
    unfold seqLoop
    simp only [hc.1, hc.2, ne_eq, not_true_eq_false, decide_false, Bool.and_false, Bool.false_eq_true, if_false]
    rw [ih (s + 1) _ (by show nextId mask s a.id = _; rw [ha]; rfl) rfl]
    have hid : nextId mask s a.id = pre mask id (s + 1) := by rw [ha]; rfl
    simp only [hid, List.foldl_cons, List.map_cons, List.append_assoc, List.singleton_append]
    have e1 : s + 1 + m = s + (m + 1) := by omega
    rw [e1]
    congr 1
    cases cells
    · simp
    · by_cases hw : s = c.which
      · simp [hw]
      · have h1 : (s + 1 ≤ c.which) ↔ s ≤ c.which := by omega
        simp [h1, hw]

theorem seqPoll_default {R} (c : Cfg) (hc : Default c) (n mask : Nat) (cells : Bool) (exe : Nat → List Int → Reply R)
    (id : List Int) : seqPoll c n mask cells exe id =
      ⟨pre mask id n, (List.range n).foldl (fun k i => k.or (kept c i (exe i (pre mask id (i + 1))).code)) Code.zero,
       if c.which < n ∧ cells = true then some (exe c.which (pre mask id (c.which + 1))).res else none, none,
       (List.range n).map fun i => (i, pre mask id (i + 1))⟩ := by
  unfold seqPoll
  rw [List.range_eq_range']
  rw [seqLoop_default c hc mask cells exe id n 0 _ rfl rfl]
  simp

theorem foldl_or (f : Nat → Code) (l : List Nat) : ∀ k : Code,
    (∀ j, (l.foldl (fun k i => k.or (f i)) k).deps.testBit j = true ↔ k.deps.testBit j = true ∨ ∃ i ∈ l, (f i).deps.testBit j = true) ∧
    ((l.foldl (fun k i => k.or (f i)) k).fail = true ↔ k.fail = true ∨ ∃ i ∈ l, (f i).fail = true) ∧
    ((l.foldl (fun k i => k.or (f i)) k).missing = true ↔ k.missing = true ∨ ∃ i ∈ l, (f i).missing = true) := by
  induction l with
  | nil => intro k; simp
  | cons i l ih =>
    intro k
    obtain ⟨h1, h2, h3⟩ := ih (k.or (f i))
    refine ⟨fun j => ?_, ?_, ?_⟩
    · rw [List.foldl_cons, h1]
      simp only [Code.or, Nat.testBit_or, Bool.or_eq_true, List.mem_cons, or_and_right, exists_or, exists_eq_left, or_assoc]
    · rw [List.foldl_cons, h2]
      simp only [Code.or, Bool.or_eq_true, List.mem_cons, or_and_right, exists_or, exists_eq_left, or_assoc]
    · rw [List.foldl_cons, h3]
      simp only [Code.or, Bool.or_eq_true, List.mem_cons, or_and_right, exists_or, exists_eq_left, or_assoc]

theorem foldl_kept {R} (c : Cfg) (n : Nat) (hw : c.which < n) (f : Nat → Reply R) :
    (∀ j, ((List.range n).foldl (fun k i => k.or (kept c i (f i).code)) Code.zero).deps.testBit j = true ↔
      ∃ i, i < n ∧ (f i).code.deps.testBit j = true) ∧
    ((List.range n).foldl (fun k i => k.or (kept c i (f i).code)) Code.zero).fail = (f c.which).code.fail ∧
    ((List.range n).foldl (fun k i => k.or (kept c i (f i).code)) Code.zero).missing = (f c.which).code.missing := by
  obtain ⟨h1, h2, h3⟩ := foldl_or (fun i => kept c i (f i).code) (List.range n) Code.zero
  refine ⟨fun j => ?_, ?_, ?_⟩
  · rw [h1]
    simp [Code.zero, (kept_bits c _ _).1]
  · rw [Bool.eq_iff_iff, h2]
    simp only [Code.zero, Bool.false_eq_true, false_or, List.mem_range, (kept_bits c _ _).2.1, Bool.and_eq_true, decide_eq_true_eq]
    constructor
    · rintro ⟨i, _, h, rfl⟩; exact h
    · intro h; exact ⟨_, hw, h, rfl⟩
  · rw [Bool.eq_iff_iff, h3]
    simp only [Code.zero, Bool.false_eq_true, false_or, List.mem_range, (kept_bits c _ _).2.2.1, Bool.and_eq_true,
      decide_eq_true_eq]
    constructor
    · rintro ⟨i, _, h, rfl⟩; exact h
    · intro h; exact ⟨_, hw, h, rfl⟩

/-- The children asked under any policies. -/
theorem seqLoop_calls {R} (c : Cfg) (mask : Nat) (cells : Bool) (exe : Nat → List Int → Reply R)
    (id : List Int) (m : Nat) : ∀ (s : Nat) (a : Seq R), a.id = pre mask id s →
    (seqLoop c mask cells exe (List.range' s m) a).calls =
      a.calls ++ (through (fun i => ends c.fp c.mp (exe i (pre mask id (i + 1))).code)
        (List.range' s m)).map fun i => (i, pre mask id (i + 1)) := by
  induction m with
  | zero => intro s a _; simp [seqLoop, through]
  | succ m ih =>
    intro s a ha
    have hid : nextId mask s a.id = pre mask id (s + 1) := by rw [ha]; rfl
    rw [List.range'_succ]
    unfold seqLoop through
    simp only [hid]
    generalize hk : (exe s (pre mask id (s + 1))) = k
    have hmiss : (dropFail c s k.code).missing = k.code.missing := by unfold dropFail; split <;> rfl
    simp only [hmiss]
    by_cases h1 : (k.code.fail && decide (c.fp ≠ .ignore)) = true
    · have he : ends c.fp c.mp k.code = true := by unfold ends; rw [h1]; rfl
      rw [if_pos h1, if_pos he]
      rfl
    · rw [if_neg h1]
      by_cases h2 : (k.code.missing && decide (c.mp ≠ .ignore)) = true
      · have he : ends c.fp c.mp k.code = true := by unfold ends; rw [h2]; simp
        rw [if_pos h2, if_pos he]
        rfl
      · have he : ¬ (ends c.fp c.mp k.code = true) := by
          unfold ends
          rw [Bool.or_eq_true]; rintro (h | h)
          · exact h1 h
          · exact h2 h
        rw [if_neg h2, ih (s + 1) _ rfl, if_neg he]
        simp

/-- Where the sequence stops. -/
theorem seqLoop_stop {R} (c : Cfg) (mask : Nat) (cells : Bool) (exe : Nat → List Int → Reply R)
    (id : List Int) (j m : Nat) : ∀ (s : Nat) (a : Seq R), a.id = pre mask id s → s ≤ j → j < s + m →
    (∀ i, s ≤ i → i < j → ends c.fp c.mp (exe i (pre mask id (i + 1))).code = false) →
    ends c.fp c.mp (exe j (pre mask id (j + 1))).code = true →
    ∃ k : Code, (seqLoop c mask cells exe (List.range' s m) a).stop =
      some (k.or (if (exe j (pre mask id (j + 1))).code.fail && decide (c.fp ≠ .ignore) then (exe j (pre mask id (j + 1))).code
        else dropFail c j (exe j (pre mask id (j + 1))).code), (exe j (pre mask id (j + 1))).res) := by
  induction m with
  | zero => intro s a _ h1 h2; omega
  | succ m ih =>
    intro s a ha h1 h2 hb hj
    have hid : nextId mask s a.id = pre mask id (s + 1) := by rw [ha]; rfl
    rw [List.range'_succ]
    unfold seqLoop
    simp only [hid]
    by_cases hs : s = j
    · subst hs
      generalize exe s (pre mask id (s + 1)) = k at hj ⊢
      have hmiss : (dropFail c s k.code).missing = k.code.missing := by unfold dropFail; split <;> rfl
      by_cases h : (k.code.fail && decide (c.fp ≠ .ignore)) = true
      · rw [if_pos h, if_pos h]
        exact ⟨_, rfl⟩
      · rw [if_neg h, if_neg h, hmiss]
        have h3 : (k.code.missing && decide (c.mp ≠ .ignore)) = true := by
          unfold ends at hj
          rw [Bool.or_eq_true] at hj
          exact hj.resolve_left h
        rw [if_pos h3]
        exact ⟨_, rfl⟩
    · have he := hb s (Nat.le_refl _) (by omega)
      have hmiss : (dropFail c s (exe s (pre mask id (s + 1))).code).missing = (exe s (pre mask id (s + 1))).code.missing := by
        unfold dropFail; split <;> rfl
      unfold ends at he
      rw [Bool.or_eq_false_iff] at he
      rw [if_neg (by rw [he.1]; simp), hmiss, if_neg (by rw [he.2]; simp)]
      exact ih (s + 1) _ rfl (by omega) (by omega) (fun i h3 h4 => hb i (by omega) h4) hj

end Verif.ReqNodes
