import Verif.Spec.Collect
import Mathlib.Data.List.Forall2

namespace Verif.Collect

variable {α ρ ν : Type}

theorem trim_eq : ∀ n (l : List α), trim n l = l.drop n := by
  intro n
  induction n with
  | zero => intro l; rfl
  | succ n ih => intro l; unfold trim; rw [ih, List.drop_tail]

theorem hstep_list (s : Hist α) (x : α) :
    (hstep s (.result (some x))).list = (if s.max > 0 then (s.list ++ [x]).drop ((s.list.length + 1 : Int) - s.max).toNat
      else s.list ++ [x]) ∧ (hstep s (.result (some x))).max = s.max := by
  unfold hstep
  dsimp only
  split
  · simp [trim_eq]
  · simp

theorem history_last (m : Int) : ∀ (ops : List (HOp α)), (∀ m', HOp.setMax m' ∉ ops) → ∀ (acc : List α) (s : Hist α),
    s.max = m → s.list = (if 0 < m then acc.drop (acc.length - m.toNat) else acc) →
    (ops.foldl hstep s).list = (if 0 < m then (found acc ops).drop ((found acc ops).length - m.toNat) else found acc ops) := by
  intro ops
  induction ops with
  | nil => intro _ acc s _ h; exact h
  | cons o os ih =>
    intro hn acc s hm hl
    have hn' : ∀ m', HOp.setMax m' ∉ os := fun m' h => hn m' (by simp [h])
    rw [List.foldl_cons]
    cases o with
    | result i =>
      cases i with
      | none => exact ih hn' acc s hm hl
      | some x =>
        obtain ⟨h1, h2⟩ := hstep_list s x
        refine ih hn' (acc ++ [x]) _ (by rw [h2, hm]) ?_
        rw [h1, hm, hl]
        by_cases hp : 0 < m
        · rw [if_pos hp, if_pos hp, if_pos hp]
          rw [List.length_drop, List.length_append, List.length_singleton]
          by_cases hc : acc.length ≤ m.toNat
          · rw [show acc.length - m.toNat = 0 by omega, List.drop_zero]
            congr 1
            omega
          · have e1 : (((acc.length - (acc.length - m.toNat) : Nat) + 1 : Int) - m).toNat = 1 := by omega
            rw [e1]
            rw [show acc.drop (acc.length - m.toNat) ++ [x] = (acc ++ [x]).drop (acc.length - m.toNat) by
              rw [List.drop_append_of_le_length (by omega)], List.drop_drop]
            congr 1
            omega
        · rw [if_neg hp, if_neg (show ¬ m > 0 from hp), if_neg hp]
    | clear => refine ih hn' [] _ hm ?_; simp [hstep]
    | setMax m' => exact absurd (by simp) (hn m')
    | reset => refine ih hn' [] _ hm ?_; simp [hstep]

theorem history_suffix : ∀ (ops : List (HOp α)) (acc : List α) (s : Hist α), s.list <:+ acc → (acc ≠ [] → s.list ≠ []) →
    (ops.foldl hstep s).list <:+ found acc ops ∧ (found acc ops ≠ [] → (ops.foldl hstep s).list ≠ []) := by
  intro ops
  induction ops with
  | nil => intro acc s h1 h2; exact ⟨h1, h2⟩
  | cons o os ih =>
    intro acc s h1 h2
    rw [List.foldl_cons]
    cases o with
    | result i =>
      cases i with
      | none => exact ih acc s h1 h2
      | some x =>
        obtain ⟨g1, g2⟩ := hstep_list s x
        refine ih (acc ++ [x]) _ ?_ (fun _ => ?_)
        · obtain ⟨t, ht⟩ := h1
          have hs : s.list ++ [x] <:+ acc ++ [x] := ⟨t, by rw [← ht]; simp⟩
          rw [g1]
          split
          · exact (List.drop_suffix _ _).trans hs
          · exact hs
        · rw [g1]
          split
          · rename_i hm
            intro hc
            have := congrArg List.length hc
            simp at this
            omega
          · simp
    | clear => exact ih [] _ (by simp [hstep]) (fun h => absurd rfl h)
    | setMax m' => exact ih acc _ h1 h2
    | reset => exact ih [] _ (by simp [hstep]) (fun h => absurd rfl h)

/-! ### DataCollect -/

theorem values_map (l : List (Option ν)) :
    (l.filterMap (fun v => v.map (Item.value (ρ := ρ)))).filterMap Item.val = l.filterMap id := by
  induction l with
  | nil => rfl
  | cons a l ih => cases a <;> simp [ih, Item.val]

theorem values_length (l : List (Option ν)) :
    (l.filterMap (fun v => v.map (Item.value (ρ := ρ)))).length = (l.filterMap id).length := by
  induction l with
  | nil => rfl
  | cons a l ih => cases a <;> simp [ih]

theorem countP_length (l : List (Option ν)) : l.countP Option.isSome = (l.filterMap id).length := by
  induction l with
  | nil => rfl
  | cons a l ih => cases a <;> simp [ih]

theorem items_length (c : ChildRes ρ ν) : (items c).length = count c := by
  unfold items count
  rw [List.length_append, values_length, countP_length]
  cases c.plot <;> simp

theorem items_shown (c : ChildRes ρ ν) (e : Entry ρ ν)
    (h : (∃ x, items c = [x] ∧ e = .one x) ∨ ((items c).length ≠ 1 ∧ e = .list (items c))) : Shown c e := by
  refine ⟨items c, ?_, ?_, ?_, ?_, h⟩
  · intro p
    unfold items
    cases hp : c.plot with
    | none => simp
    | some q =>
      simp only [List.mem_append, List.mem_singleton, Item.plot.injEq, Option.some.injEq, List.mem_filterMap]
      constructor
      · rintro (h | ⟨v, _, h⟩)
        · exact h.symm
        · cases v <;> cases h
      · intro h; exact .inl h.symm
  · unfold items
    rw [List.filterMap_append, values_map]
    cases c.plot <;> simp [Item.val]
  · unfold items
    rw [List.length_append, values_length]
    cases c.plot <;> simp
  · intro p hp
    unfold items
    rw [hp]
    rfl

theorem collect_eq : ∀ (cs : List (ChildRes ρ ν)) (l : List (Entry ρ ν)),
    ∃ es, collect l cs = l ++ es ∧ List.Forall₂ Shown cs es := by
  intro cs
  induction cs with
  | nil => intro l; exact ⟨[], by simp [collect], .nil⟩
  | cons c cs ih =>
    intro l
    unfold collect
    by_cases h : count c = 1
    · rw [if_pos h]
      have hl := items_length c
      rw [h] at hl
      obtain ⟨x, hx⟩ := List.length_eq_one_iff.1 hl
      obtain ⟨es, h1, h2⟩ := ih (l ++ (items c).map .one)
      refine ⟨.one x :: es, by rw [h1, hx]; simp, .cons (items_shown c _ (.inl ⟨x, hx, rfl⟩)) h2⟩
    · rw [if_neg h]
      obtain ⟨es, h1, h2⟩ := ih (l ++ [.list (items c)])
      refine ⟨.list (items c) :: es, by rw [h1]; simp, .cons (items_shown c _ (.inr ⟨by rw [items_length]; exact h, rfl⟩)) h2⟩

/-! ### DataConcat -/

theorem gather_eq : ∀ (cs : List (Option (Plot α ν))) vs has (at' : Option α),
    (gather vs has at' cs).1 = vs ++ (cs.filterMap id).flatMap Plot.values ∧
    ((gather vs has at' cs).2.1 = true ↔ has = true ∨ ∃ p, some p ∈ cs ∧ HasLabels p) ∧
    (gather vs has at' cs).2.2 = at'.or ((cs.filterMap id).findSome? Plot.attrib) := by
  intro cs
  induction cs with
  | nil => intro vs has at'; simp [gather]
  | cons c cs ih =>
    intro vs has at'
    cases c with
    | none =>
      unfold gather
      obtain ⟨h1, h2, h3⟩ := ih vs has at'
      refine ⟨by rw [h1]; simp, by rw [h2]; simp, by rw [h3]; simp⟩
    | some p =>
      unfold gather
      obtain ⟨h1, h2, h3⟩ := ih (vs ++ p.values) (has || !(p.labels.getD []).isEmpty)
        (if at'.isSome then at' else p.attrib)
      refine ⟨by rw [h1]; simp, ?_, ?_⟩
      · rw [h2]
        have hp : (!(p.labels.getD []).isEmpty) = true ↔ HasLabels p := by
          unfold HasLabels
          cases p.labels with
          | none => simp
          | some l => cases l <;> simp
        rw [Bool.or_eq_true, hp]
        constructor
        · rintro ((h | h) | ⟨q, hq, h⟩)
          · exact .inl h
          · exact .inr ⟨p, by simp, h⟩
          · exact .inr ⟨q, by simp [hq], h⟩
        · rintro (h | ⟨q, hq, h⟩)
          · exact .inl (.inl h)
          · rcases List.mem_cons.1 hq with hq | hq
            · cases hq; exact .inl (.inr h)
            · exact .inr ⟨q, hq, h⟩
      · rw [h3]
        cases at' with
        | some a => simp
        | none =>
          simp only [Option.isSome_none, Bool.false_eq_true, if_false, Option.none_or, List.filterMap_cons, id_eq,
            List.findSome?_cons]
          cases p.attrib <;> simp

theorem label_eq : ∀ (cs : List (Option (Plot α ν))) ls,
    (∃ parts, List.Forall₂ LabelsOf (cs.filterMap id) parts ∧ label ls cs = .ok (ls ++ parts.flatten)) ∨
    ((∃ p, some p ∈ cs ∧ ∃ s l, p.labels = some (s :: l) ∧ (s :: l).length ≠ p.values.length) ∧ label ls cs = .err) := by
  intro cs
  induction cs with
  | nil => intro ls; exact .inl ⟨[], .nil, by simp [label]⟩
  | cons c cs ih =>
    intro ls
    cases c with
    | none =>
      unfold label
      rcases ih ls with ⟨ps, h1, h2⟩ | ⟨⟨p, hp, h⟩, h2⟩
      · exact .inl ⟨ps, by simpa using h1, h2⟩
      · exact .inr ⟨⟨p, by simp [hp], h⟩, h2⟩
    | some p =>
      have join : ∀ part, LabelsOf p part → 
          ((∃ parts, List.Forall₂ LabelsOf ((some p :: cs).filterMap id) parts ∧
            label (ls ++ part) cs = .ok (ls ++ parts.flatten)) ∨
          ((∃ q, some q ∈ some p :: cs ∧ ∃ s l, q.labels = some (s :: l) ∧ (s :: l).length ≠ q.values.length) ∧
            label (ls ++ part) cs = .err)) := by
        intro part hpart
        rcases ih (ls ++ part) with ⟨ps, h1, h2⟩ | ⟨⟨q, hq, h⟩, h2⟩
        · exact .inl ⟨part :: ps, by simpa using List.Forall₂.cons hpart h1, by rw [h2]; simp⟩
        · exact .inr ⟨⟨q, by simp [hq], h⟩, h2⟩
      have empty : p.labels = none ∨ p.labels = some [] → LabelsOf p (List.replicate p.values.length "") := by
        intro h
        exact ⟨by simp, .inr ⟨h, fun s hs => (List.mem_replicate.1 hs).2⟩⟩
      unfold label
      cases hl : p.labels with
      | none => exact join _ (empty (.inl hl))
      | some l =>
        cases l with
        | nil => exact join _ (empty (.inr hl))
        | cons s l =>
          dsimp only
          rw [if_neg (by simp)]
          by_cases hne : (s :: l).length ≠ p.values.length
          · rw [if_pos hne]
            exact .inr ⟨⟨p, by simp, s, l, hl, hne⟩, rfl⟩
          · rw [if_neg hne]
            exact join _ ⟨by omega, .inl ⟨s, l, hl, rfl⟩⟩

/-! ### EventFlag -/

theorem bit_get (s i : Nat) (hs : s < 32) (hi : i < 64) :
    (bit s).getLsbD i = decide (i = s ∨ (s = 31 ∧ 31 ≤ i)) ∧
    (nbit s).getLsbD i = !decide (i = s ∨ (s = 31 ∧ 31 ≤ i)) := by
  have : ∀ s : Fin 32, ∀ i : Fin 64, (bit s).getLsbD i = decide (i.val = s.val ∨ (s.val = 31 ∧ 31 ≤ i.val)) ∧
      (nbit s).getLsbD i = !decide (i.val = s.val ∨ (s.val = 31 ∧ 31 ≤ i.val)) := by decide +kernel
  exact this ⟨s, hs⟩ ⟨i, hi⟩

/-- The bits: each source below 32 its own; those above are as that of the last one. -/
structure FInv (n : Nat) (b : Nat → Bool) (s : Flag) : Prop where
  num : s.nsources = n
  le : n ≤ 32
  bits : ∀ i, i < 64 → s.word.getLsbD i = b (min i 31)

theorem frun_inv : ∀ (ops : List FOp) (n : Nat) (b : Nat → Bool) (s : Flag), FInv n b s →
    ∃ n', FInv n' (fun k => raised n k (b k) ops) (frun s ops) := by
  intro ops
  induction ops with
  | nil => intro n b s h; exact ⟨n, h⟩
  | cons o os ih =>
    intro n b s h
    unfold frun
    cases o with
    | add =>
      unfold fstep
      dsimp only
      rw [h.num]
      by_cases hn : n ≥ 32
      · rw [if_pos hn]
        dsimp only [raised]
        rw [if_neg (by omega)]
        exact ih n b s h
      · rw [if_neg hn]
        dsimp only [raised]
        rw [if_pos (by omega)]
        exact ih (n + 1) b _ ⟨rfl, by omega, h.bits⟩
    | raise m =>
      unfold fstep
      dsimp only
      rw [h.num]
      by_cases hm : m < 0 ∨ m ≥ n
      · rw [if_pos hm]
        dsimp only [raised]
        have : ∀ k : Nat, (b k || decide (m = k ∧ k < n)) = b k := by
          intro k
          rw [decide_eq_false (by omega), Bool.or_false]
        simp only [this]
        exact ih n b s h
      · rw [if_neg hm]
        dsimp only [raised]
        refine ih n (fun k => b k || decide (m = k ∧ k < n)) _ ⟨rfl, h.le, fun i hi => ?_⟩
        have hle := h.le
        show (s.word ||| bit m.toNat).getLsbD i = _
        rw [BitVec.getLsbD_or, h.bits i hi, (bit_get m.toNat i (by omega) hi).1]
        congr 1
        rw [decide_eq_decide]
        omega
    | clear m =>
      unfold fstep
      dsimp only
      rw [h.num]
      by_cases hm : m < 0 ∨ m ≥ n
      · rw [if_pos hm]
        dsimp only [raised]
        have : ∀ k : Nat, (b k && !decide (m = k ∧ k < n)) = b k := by
          intro k
          rw [decide_eq_false (by omega), Bool.not_false, Bool.and_true]
        simp only [this]
        exact ih n b s h
      · rw [if_neg hm]
        dsimp only [raised]
        refine ih n (fun k => b k && !decide (m = k ∧ k < n)) _ ⟨rfl, h.le, fun i hi => ?_⟩
        have hle := h.le
        show (s.word &&& nbit m.toNat).getLsbD i = _
        rw [BitVec.getLsbD_and, h.bits i hi, (bit_get m.toNat i (by omega) hi).2]
        congr 2
        rw [decide_eq_decide]
        omega

theorem new_inv : FInv 0 (fun _ => false) ⟨0, 0⟩ := ⟨rfl, by omega, fun i _ => by simp⟩

theorem word_ne (w : BitVec 64) : (w != 0) = true ↔ ∃ i, i < 64 ∧ w.getLsbD i = true := by
  constructor
  · intro h
    by_contra hc
    have : w = 0 := by
      apply BitVec.eq_of_getLsbD_eq
      intro i hi
      have : ¬ w.getLsbD i = true := fun e => hc ⟨i, hi, e⟩
      simpa using this
    rw [this] at h
    revert h; decide
  · rintro ⟨i, _, h⟩
    rw [bne_iff_ne]
    intro e
    rw [e] at h
    simp at h

theorem mask_get (i : Nat) (hi : i < 64) : (0xFFFFFFFF#64).getLsbD i = decide (i < 32) := by
  have : ∀ i : Fin 64, (0xFFFFFFFF#64).getLsbD i = decide (i.val < 32) := by decide +kernel
  exact this ⟨i, hi⟩

end Verif.Collect
