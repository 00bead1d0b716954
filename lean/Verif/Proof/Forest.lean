import Verif.Spec.Forest
import Verif.Proof.Assoc
/-! # Lemmas on the node repository -/
namespace Verif.Forest

/-- Inductive invariant. -/
structure Inv (s : Forest) : Prop where
  zero : s.nodes[0]? = some none
  nodup : (Assoc.keys s.names).Nodup
  names : ∀ n i, Assoc.find s.names n = some i ↔ n ≠ "" ∧ Live s i n
  count : s.num = liveCount s

theorem inv_init : Inv init := by
  refine ⟨rfl, by simp [init, Assoc.keys], ?_, rfl⟩
  intro n i
  unfold Live
  constructor
  · intro h; cases h
  · rintro ⟨_, h⟩
    cases i <;> simp [init] at h

theorem live_lt {s : Forest} {i : Nat} {n : String} (h : Live s i n) : i < s.nodes.length := by
  unfold Live at h
  exact (List.getElem?_eq_some_iff.1 h).1

theorem at_live {s : Forest} (h : Inv s) {i : Nat} {n : String} (hl : Live s i n) : at_ s i = .ok n := by
  have h1 := live_lt hl
  have h2 : i ≠ 0 := by rintro rfl; unfold Live at hl; rw [h.zero] at hl; cases hl
  unfold at_
  rw [if_neg (by omega)]
  simp only [Int.toNat_natCast]
  unfold Live at hl
  rw [hl]

theorem inv_ok {s : Forest} (h : Inv s) : Ok s := by
  have hpos : ∀ i name, Live s i name → 0 < i := by
    intro i n hl
    rcases Nat.eq_zero_or_pos i with rfl | h0
    · unfold Live at hl; rw [h.zero] at hl; cases hl
    · exact h0
  refine ⟨fun i n hl => at_live h hl, ?_, ?_, h.count, ?_, ?_, hpos⟩
  · intro i n hl hn
    have := (h.names n i).2 ⟨hn, hl⟩
    unfold findIndex findNode
    rw [this]
    exact ⟨rfl, at_live h hl⟩
  · intro i j n hi hj hn
    have h1 := (h.names n i).2 ⟨hn, hi⟩
    have h2 := (h.names n j).2 ⟨hn, hj⟩
    rw [h1] at h2
    exact Option.some.inj h2
  · intro n hn
    unfold findIndex at hn ⊢
    cases hf : Assoc.find s.names n with
    | none => rw [hf] at hn; simp at hn
    | some i => exact ⟨i, rfl, ((h.names n i).1 hf).2⟩
  · intro i
    unfold valid Live
    constructor
    · intro hv
      simp only [Bool.and_eq_true, decide_eq_true_eq] at hv
      obtain ⟨⟨h1, h2⟩, h3⟩ := hv
      obtain ⟨k, rfl⟩ : ∃ k : Nat, i = k := ⟨i.toNat, by omega⟩
      simp only [Int.toNat_natCast] at h3
      rw [List.getD_eq_getElem?_getD] at h3
      have hk : k < s.nodes.length := by omega
      rw [List.getElem?_eq_getElem hk] at h3
      obtain ⟨n, hn⟩ := Option.isSome_iff_exists.1 h3
      exact ⟨k, n, rfl, by rw [List.getElem?_eq_getElem hk]; simpa using hn⟩
    · rintro ⟨k, n, rfl, hl⟩
      have h1 := hpos k n hl
      have h2 := live_lt (s := s) hl
      simp only [Bool.and_eq_true, decide_eq_true_eq, Int.toNat_natCast, List.getD_eq_getElem?_getD, hl]
      exact ⟨⟨by omega, by omega⟩, rfl⟩

theorem live_insert (s : Forest) (name : String) (i j : Nat) (n : String) :
    Live (insert s name i) j n ↔ (j = i ∧ n = name) ∨ (j ≠ i ∧ Live s j n) := by
  unfold Live insert
  simp only
  by_cases hi : s.nodes.length ≤ i
  · rw [if_pos hi]
    unfold resize
    by_cases hj : j = i
    · subst hj
      rw [List.getElem?_set_self (by simp; omega)]
      constructor
      · intro h; exact Or.inl ⟨rfl, by injection h with h; injection h with h; exact h.symm⟩
      · rintro (h | h)
        · rw [h.2]
        · exact absurd rfl h.1
    · rw [List.getElem?_set_ne (Ne.symm hj), List.take_of_length_le (by omega), List.getElem?_append]
      simp only [hj, false_and, false_or, ne_eq, not_false_iff, true_and]
      split
      · rfl
      · rename_i hlt
        rw [List.getElem?_replicate, List.getElem?_eq_none (by omega)]
        split <;> simp
  · rw [if_neg hi]
    by_cases hj : j = i
    · subst hj
      rw [List.getElem?_set_self (by omega)]
      constructor
      · intro h; exact Or.inl ⟨rfl, by injection h with h; injection h with h; exact h.symm⟩
      · rintro (h | h)
        · rw [h.2]
        · exact absurd rfl h.1
    · rw [List.getElem?_set_ne (Ne.symm hj)]
      simp [hj]

theorem count_set (l : List (Option String)) (i : Nat) (h : i < l.length) (a : Option String) :
    ((l.set i a).countP (·.isSome) : Int) =
      l.countP (·.isSome) - (if l[i].isSome then 1 else 0) + if a.isSome then 1 else 0 := by
  have := List.countP_set (p := fun x : Option String => x.isSome) (a := a) h
  have h2 : (if l[i].isSome then 1 else 0) ≤ l.countP (·.isSome) := by
    split
    · rename_i hs
      exact List.countP_pos_iff.2 ⟨l[i], List.getElem_mem h, hs⟩
    · exact Nat.zero_le _
  rw [this]
  clear this
  revert h2
  generalize l[i] = x
  generalize l.countP (fun x => x.isSome) = c
  intro h2
  cases x <;> cases a <;> simp at h2 ⊢ <;> omega

theorem inv_insert {s : Forest} (h : Inv s) {name : String} {i : Nat} (hi : 0 < i) (hfree : ∀ n, ¬ Live s i n)
    (hname : name ≠ "" → Assoc.find s.names name = none) : Inv (insert s name i) := by
  refine ⟨?_, ?_, ?_, ?_⟩
  · have hz := h.zero
    have h0 : 0 < s.nodes.length := by
      by_contra hc
      rw [List.getElem?_eq_none (by omega)] at hz; cases hz
    show ((if s.nodes.length ≤ i then resize s.nodes (i + 1) else s.nodes).set i (some name))[0]? = some none
    rw [List.getElem?_set_ne (by omega)]
    split
    · unfold resize
      rw [List.getElem?_append_left (by simp; omega), List.getElem?_take_of_lt (by omega)]
      exact hz
    · exact hz
  · show (Assoc.keys (if name = "" then s.names else Assoc.set s.names name i)).Nodup
    split
    · exact h.nodup
    · exact Assoc.nodup_set h.nodup _ _
  · intro n j
    rw [live_insert]
    show Assoc.find (if name = "" then s.names else Assoc.set s.names name i) n = some j ↔ _
    split
    · rename_i hn
      rw [h.names]
      constructor
      · rintro ⟨h1, h2⟩
        refine ⟨h1, Or.inr ⟨?_, h2⟩⟩
        rintro rfl
        exact hfree n h2
      · rintro ⟨h1, h2 | h2⟩
        · exact absurd (h2.2.trans hn) h1
        · exact ⟨h1, h2.2⟩
    · rename_i hn
      rw [Assoc.find_set]
      split
      · rename_i he
        subst he
        constructor
        · intro hh; injection hh with hh; exact ⟨hn, Or.inl ⟨hh.symm, rfl⟩⟩
        · rintro ⟨_, h2 | h2⟩
          · rw [h2.1]
          · exact absurd ((h.names n j).2 ⟨hn, h2.2⟩) (by rw [hname hn]; simp)
      · rename_i he
        rw [h.names]
        constructor
        · rintro ⟨h1, h2⟩
          refine ⟨h1, Or.inr ⟨?_, h2⟩⟩
          rintro rfl
          exact hfree n h2
        · rintro ⟨h1, h2 | h2⟩
          · exact absurd h2.2 he
          · exact ⟨h1, h2.2⟩
  · show s.num + 1 = (((if s.nodes.length ≤ i then resize s.nodes (i + 1) else s.nodes).set i (some name)).countP (·.isSome) : Nat)
    have hc := h.count
    unfold liveCount at hc
    by_cases hl : s.nodes.length ≤ i
    · rw [if_pos hl, count_set _ _ (by simp [resize]; omega)]
      have e1 : (resize s.nodes (i + 1)).countP (·.isSome) = s.nodes.countP (·.isSome) := by
        unfold resize
        rw [List.take_of_length_le (by omega), List.countP_append]
        simp
      have e2 : (resize s.nodes (i + 1))[i]'(by simp [resize]; omega) = none := by
        have hlen : s.nodes.length ≤ i + 1 := by omega
        simp only [resize, List.take_of_length_le hlen]
        rw [List.getElem_append_right (by omega)]
        simp
      rw [e1, e2, hc]
      simp
    · rw [if_neg hl, count_set _ _ (by omega)]
      have e2 : s.nodes[i]'(by omega) = none := by
        cases hn : s.nodes[i]'(by omega) with
        | none => rfl
        | some n => exact absurd (by unfold Live; rw [List.getElem?_eq_getElem (by omega), hn]) (hfree n)
      rw [e2, hc]
      simp

theorem pickIndex_free {s : Forest} (h : Inv s) {idx : Int} {i : Nat} (hp : pickIndex s idx = some i) :
    0 < i ∧ (∀ n, ¬ Live s i n) ∧ (0 < idx → idx = i) := by
  have h0 : 0 < s.nodes.length := by
    have hz := h.zero
    by_contra hc
    rw [List.getElem?_eq_none (by omega)] at hz; cases hz
  unfold pickIndex at hp
  split at hp
  · split at hp
    · cases hp
    · rename_i h1 h2
      cases hp
      refine ⟨by omega, ?_, by omega⟩
      intro n hl
      apply h2
      have := live_lt hl
      refine ⟨by omega, ?_⟩
      unfold Live at hl
      rw [List.getD_eq_getElem?_getD, hl]; rfl
  · rename_i h1
    cases hp
    refine ⟨h0, ?_, fun hc => absurd hc h1⟩
    intro n hl
    have := live_lt hl
    omega

theorem inv_create {s : Forest} (h : Inv s) (name : String) (idx : Int) (good : Bool) : Inv (create s name idx good).1 := by
  have he : Inv { s with errs := s.errs + 1 } := ⟨h.zero, h.nodup, h.names, h.count⟩
  unfold create
  split
  · exact he
  · rename_i hn
    split
    · split
      · exact he
      · rename_i i hp
        obtain ⟨h1, h2, _⟩ := pickIndex_free h hp
        apply inv_insert h h1 h2
        intro hne
        cases hf : Assoc.find s.names name with
        | none => rfl
        | some x => exact absurd ⟨hne, by rw [hf]; rfl⟩ hn
    · exact he

theorem erase_nodes (s : Forest) (i : Nat) (name : String) (hi : i < s.nodes.length) :
    ∃ k, s.nodes.set i none = (erase s i name).nodes ++ List.replicate k none ∧ (k = 0 ∨ (k = 1 ∧ (erase s i name).nodes.length = i)) := by
  show ∃ k, s.nodes.set i none = (if i = (s.nodes.set i none).length - 1 then resize (s.nodes.set i none) i else s.nodes.set i none) ++ _ ∧ _
  unfold erase
  simp only
  by_cases hl : i = (s.nodes.set i none).length - 1
  · rw [if_pos hl]
    refine ⟨1, ?_, Or.inr ⟨rfl, ?_⟩⟩
    · unfold resize
      have hlen : (s.nodes.set i none).length = s.nodes.length := by simp
      have : i - (s.nodes.set i none).length = 0 := by omega
      rw [this]
      simp only [List.replicate_zero, List.append_nil]
      have hlt : i < (s.nodes.set i none).length := by omega
      have e := List.take_append_drop i (s.nodes.set i none)
      have : (s.nodes.set i none).drop i = [none] := by
        rw [List.drop_eq_getElem_cons hlt, List.drop_of_length_le (by omega)]
        simp
      rw [this] at e
      exact e.symm
    · unfold resize
      simp
      omega
  · rw [if_neg hl]
    exact ⟨0, by simp, Or.inl rfl⟩

theorem live_erase (s : Forest) (i j : Nat) (name n : String) (hi : i < s.nodes.length) :
    Live (erase s i name) j n ↔ j ≠ i ∧ Live s j n := by
  obtain ⟨k, hk, _⟩ := erase_nodes s i name hi
  have h1 : Live (erase s i name) j n ↔ (s.nodes.set i none)[j]? = some (some n) := by
    unfold Live
    rw [hk, List.getElem?_append]
    split
    · rfl
    · rename_i hlt
      rw [List.getElem?_eq_none (by omega), List.getElem?_replicate]
      split <;> simp
  rw [h1]
  by_cases hj : j = i
  · subst hj
    rw [List.getElem?_set_self hi]
    simp
  · rw [List.getElem?_set_ne (Ne.symm hj)]
    simp [hj, Live]

theorem inv_erase {s : Forest} (h : Inv s) {i : Nat} {name : String} (hl : Live s i name) (hi0 : 0 < i) : Inv (erase s i name) := by
  have hi := live_lt hl
  obtain ⟨k, hk, hk2⟩ := erase_nodes s i name hi
  refine ⟨?_, ?_, ?_, ?_⟩
  · have hz : (s.nodes.set i none)[0]? = some none := by
      rw [List.getElem?_set_ne (by omega)]; exact h.zero
    rw [hk, List.getElem?_append] at hz
    split at hz
    · exact hz
    · rename_i hlt
      have hlen : (s.nodes.set i none).length = s.nodes.length := by simp
      rw [hk] at hlen
      simp at hlen
      rcases hk2 with hk2 | ⟨_, hk3⟩ <;> omega
  · show (Assoc.keys (if name = "" then s.names else Assoc.erase s.names name)).Nodup
    split
    · exact h.nodup
    · exact Assoc.nodup_erase h.nodup _
  · intro n j
    rw [live_erase _ _ _ _ _ hi]
    show Assoc.find (if name = "" then s.names else Assoc.erase s.names name) n = some j ↔ _
    split
    · rename_i hn
      rw [h.names]
      constructor
      · rintro ⟨h1, h2⟩
        refine ⟨h1, ?_, h2⟩
        rintro rfl
        unfold Live at h2 hl
        rw [hl] at h2
        injection h2 with h2; injection h2 with h2
        exact h1 (h2.symm.trans hn)
      · exact fun h => ⟨h.1, h.2.2⟩
    · rename_i hn
      rw [Assoc.find_erase h.nodup]
      split
      · rename_i he
        subst he
        constructor
        · intro hh; cases hh
        · rintro ⟨_, h2, h3⟩
          exact absurd ((inv_ok h).unique j i n h3 hl hn) h2
      · rename_i he
        rw [h.names]
        constructor
        · rintro ⟨h1, h2⟩
          refine ⟨h1, ?_, h2⟩
          rintro rfl
          unfold Live at h2 hl
          rw [hl] at h2
          injection h2 with h2; injection h2 with h2
          exact he h2.symm
        · exact fun h => ⟨h.1, h.2.2⟩
  · show s.num - 1 = (((erase s i name).nodes).countP (·.isSome) : Nat)
    have e1 : (s.nodes.set i none).countP (·.isSome) = (erase s i name).nodes.countP (·.isSome) := by
      rw [hk, List.countP_append]; simp
    rw [← e1, count_set _ _ hi]
    have : s.nodes[i] = some name := by
      unfold Live at hl
      rw [List.getElem?_eq_getElem hi] at hl
      exact Option.some.inj hl
    rw [this, h.count]
    simp [liveCount]

theorem at_ok {s : Forest} {i : Int} {n : String} (h : at_ s i = .ok n) : ∃ k : Nat, i = k ∧ 0 < k ∧ Live s k n := by
  unfold at_ at h
  split at h
  · cases h
  · rename_i hc
    refine ⟨i.toNat, by omega, by omega, ?_⟩
    unfold Live
    split at h
    · cases h
    · cases h
    · rename_i m hm; cases h; exact hm

theorem inv_step {s s' : Forest} (h : Inv s) (op : Op) (he : step s op = .ok s') : Inv s' := by
  cases op with
  | create name idx good =>
    simp only [step] at he
    cases he
    exact inv_create h _ _ _
  | remove i =>
    simp only [step, remove] at he
    cases hat : at_ s i with
    | ok n =>
      rw [hat] at he
      obtain ⟨k, rfl, hk, hl⟩ := at_ok hat
      simp only [Res.bind, Int.toNat_natCast] at he
      cases he
      exact inv_erase h hl hk
    | err => rw [hat] at he; simp only [Res.bind] at he; cases he; exact h
    | ub => rw [hat] at he; simp only [Res.bind] at he; cases he
  | get i =>
    simp only [step] at he
    split at he
    · cases he
    · cases he; exact h
  | clear =>
    simp only [step] at he
    cases he
    have hz := h.zero
    obtain ⟨l, hl⟩ : ∃ l, s.nodes = none :: l := by
      cases hs : s.nodes with
      | nil => rw [hs] at hz; cases hz
      | cons a l => rw [hs] at hz; simp at hz; exact ⟨l, by rw [hz]⟩
    unfold clear
    rw [hl]
    refine ⟨rfl, by simp [Assoc.keys], ?_, rfl⟩
    intro n i
    unfold Live
    constructor
    · intro h; cases h
    · rintro ⟨_, h⟩
      cases i <;> simp at h

theorem inv_runFrom (ops : List Op) : ∀ {s s' : Forest}, Inv s → runFrom s ops = .ok s' → Inv s' := by
  induction ops with
  | nil => intro s s' h he; cases he; exact h
  | cons op l ih =>
    intro s s' h he
    unfold runFrom at he
    cases hs : step s op with
    | ok s1 => rw [hs] at he; exact ih (inv_step h op hs) he
    | err => rw [hs] at he; cases he
    | ub => rw [hs] at he; cases he

end Verif.Forest
