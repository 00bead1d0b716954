import Verif.Spec.Boio
import Verif.Proof.Bytes
import Mathlib.Tactic.Common
import Mathlib.Data.List.Basic
/-! Lemmas about object files. -/
namespace Verif.Boio
variable {O : Type}

/-- Size table of an object. -/
def tab (bl : List Bytes) : Bytes := bl.flatMap fun b => encSize b.length

/-- The bytes of one stored object. -/
def recB (C : Codec O) (o : O) : Bytes :=
  encInt32 (C.tid o) ++ encInt32 (C.toB o).length ++ tab (C.toB o) ++ (C.toB o).flatten

theorem writeBlocks_eq (bl : List Bytes) (h : ∀ b ∈ bl, b ≠ []) : writeBlocks bl = (bl.flatten, true) := by
  induction bl with
  | nil => rfl
  | cons b bl ih => simp [writeBlocks, ih (fun x hx => h x (by simp [hx])), h b (by simp)]

theorem write_eq (C : Codec O) (f : Bytes) (o : O) (h : Storable C o) : write C f o = (f ++ recB C o, true) := by
  unfold write
  rw [if_neg h.some_block, writeBlocks_eq _ fun b hb => (h.nonempty b hb).1]
  rfl

theorem writeAll_eq (C : Codec O) (os : List O) : ∀ f, (∀ o ∈ os, Storable C o) →
    writeAll C f os = (f ++ os.flatMap (recB C), true) := by
  induction os with
  | nil => intro f _; simp [writeAll]
  | cons o os ih =>
    intro f h
    simp only [writeAll, write_eq C f o (h o (by simp))]
    rw [ih _ fun x hx => h x (by simp [hx])]
    simp

theorem tab_length (bl : List Bytes) : (tab bl).length = 8 * bl.length := by
  induction bl with
  | nil => rfl
  | cons b bl ih => simp [tab] at ih ⊢; omega

theorem sizes_tab (bl : List Bytes) (r : Bytes) (h : ∀ b ∈ bl, b.length < 2 ^ 64) :
    sizes bl.length (tab bl ++ r) = bl.map List.length := by
  induction bl with
  | nil => rfl
  | cons b bl ih =>
    have e : tab (b :: bl) ++ r = encSize b.length ++ (tab bl ++ r) := by simp [tab]
    simp only [List.length_cons, sizes, e, List.map_cons]
    rw [List.take_left' (encSize_length _), List.drop_left' (encSize_length _), ih fun x hx => h x (by simp [hx]),
      leDec_encSize _ (h b (by simp))]

theorem readBlocks_full (bl : List Bytes) (r : Bytes) (h : ∀ b ∈ bl, b ≠ []) :
    readBlocks (bl.map List.length) (bl.flatten ++ r) = some (bl, r) := by
  induction bl with
  | nil => rfl
  | cons b bl ih =>
    have hb := List.length_pos_of_ne_nil (h b (by simp))
    simp only [List.map_cons, readBlocks, List.flatten_cons, List.append_assoc, List.length_append]
    rw [if_neg (by omega), List.drop_left, List.take_left, ih fun x hx => h x (by simp [hx])]

theorem readBlocks_short (bl : List Bytes) (r : Bytes) (h : r.length < bl.flatten.length) :
    readBlocks (bl.map List.length) r = none := by
  induction bl generalizing r with
  | nil => simp at h
  | cons b bl ih =>
    simp only [List.map_cons, readBlocks]
    split
    · rfl
    · rename_i hc
      rw [ih (r.drop b.length) (by simp at h ⊢; omega)]

/-- Reading where one whole stored object lies ahead. -/
theorem readAny_full (C : Codec O) (o : O) (h : Storable C o) (f r : Bytes) (s : Rd)
    (hs : s = ⟨f, recB C o ++ r, false, false, s.tid, s.nbl⟩) :
    ∃ s', readAny C s = (.obj o, s') ∧ s' = ⟨f, r, false, false, s'.tid, s'.nbl⟩ := by
  obtain ⟨ht, hr, hne, hcnt, hbl⟩ := h
  have hlen : (recB C o ++ r).length = 8 + 8 * (C.toB o).length + (C.toB o).flatten.length + r.length := by
    simp only [recB, List.length_append, encInt32_length, tab_length]
  have e : recB C o ++ r = encInt32 (C.tid o) ++ (encInt32 (C.toB o).length ++ (tab (C.toB o) ++ ((C.toB o).flatten ++ r))) := by
    simp [recB]
  have t4 : decInt32 ((recB C o ++ r).take 4) = C.tid o := by
    rw [e, List.take_left' (encInt32_length _), decInt32_encInt32 _ ht.1]
  have n4 : decInt32 (((recB C o ++ r).drop 4).take 4) = (C.toB o).length := by
    rw [e, List.drop_left' (encInt32_length _), List.take_left' (encInt32_length _),
      decInt32_encInt32 _ ⟨by omega, by omega⟩]
  have d8 : (recB C o ++ r).drop 8 = tab (C.toB o) ++ ((C.toB o).flatten ++ r) := by
    have : 8 = 4 + 4 := rfl
    rw [this, ← List.drop_drop, e, List.drop_left' (encInt32_length _), List.drop_left' (encInt32_length _)]
  have hpos : 0 < (C.toB o).length := List.length_pos_of_ne_nil hne
  have hnt : nextType s = (C.tid o, ⟨f, tab (C.toB o) ++ ((C.toB o).flatten ++ r), false, true, C.tid o, (C.toB o).length⟩) := by
    rw [hs]
    unfold nextType
    simp only [Bool.false_eq_true, if_false]
    rw [if_neg (by omega), t4, n4, d8]
  unfold readAny
  rw [hnt]
  simp only
  rw [if_neg ht.2, if_neg (by omega)]
  have hto : ((C.toB o).length : Int).toNat = (C.toB o).length := by omega
  rw [hto, if_neg (by simp only [List.length_append, tab_length]; omega),
    sizes_tab _ _ fun b hb => (hbl b hb).2]
  have hd : (tab (C.toB o) ++ ((C.toB o).flatten ++ r)).drop (8 * (C.toB o).length) = (C.toB o).flatten ++ r :=
    List.drop_left' (tab_length _)
  rw [hd, readBlocks_full _ _ fun b hb => (hbl b hb).1]
  simp only [hr]
  exact ⟨_, rfl, rfl⟩

/-- Reading where only a proper prefix of a stored object is left. -/
theorem readAny_short (C : Codec O) (o : O) (h : Storable C o) (f : Bytes) (s : Rd) (k : Nat) (hk : k < (recB C o).length)
    (hs : s = ⟨f, (recB C o).take k, false, false, s.tid, s.nbl⟩) :
    (readAny C s).1 = .eof ∨ (readAny C s).1 = .err := by
  obtain ⟨ht, hr, hne, hcnt, hbl⟩ := h
  have hlen : (recB C o).length = 8 + 8 * (C.toB o).length + (C.toB o).flatten.length := by
    simp only [recB, List.length_append, encInt32_length, tab_length]
  have hpos : 0 < (C.toB o).length := List.length_pos_of_ne_nil hne
  by_cases h8 : k < 8
  · left
    rw [hs]
    have hl : min k (recB C o).length < 8 := by omega
    simp [readAny, nextType, hl]
  · right
    have hl : ¬ ((recB C o).take k).length < 8 := by simp; omega
    have e : recB C o = encInt32 (C.tid o) ++ (encInt32 (C.toB o).length ++ (tab (C.toB o) ++ (C.toB o).flatten)) := by
      simp [recB]
    have t4 : decInt32 (((recB C o).take k).take 4) = C.tid o := by
      rw [List.take_take, Nat.min_eq_left (by omega), e, List.take_left' (encInt32_length _), decInt32_encInt32 _ ht.1]
    have n4 : decInt32 ((((recB C o).take k).drop 4).take 4) = (C.toB o).length := by
      rw [List.drop_take, List.take_take, Nat.min_eq_left (by omega), e, List.drop_left' (encInt32_length _),
        List.take_left' (encInt32_length _), decInt32_encInt32 _ ⟨by omega, by omega⟩]
    have d8 : ((recB C o).take k).drop 8 = (tab (C.toB o) ++ (C.toB o).flatten).take (k - 8) := by
      rw [List.drop_take]
      have : 8 = 4 + 4 := rfl
      conv_lhs => rw [this, ← List.drop_drop, e, List.drop_left' (encInt32_length _), List.drop_left' (encInt32_length _)]
    have hnt : nextType s = (C.tid o, ⟨f, (tab (C.toB o) ++ (C.toB o).flatten).take (k - 8), false, true, C.tid o,
        (C.toB o).length⟩) := by
      rw [hs]
      unfold nextType
      simp only [Bool.false_eq_true, if_false]
      rw [if_neg hl, t4, n4, d8]
    unfold readAny
    rw [hnt]
    simp only
    rw [if_neg ht.2, if_neg (by omega)]
    have hto : ((C.toB o).length : Int).toNat = (C.toB o).length := by omega
    rw [hto]
    by_cases h2 : (C.toB o).length = 0 ∨ ((tab (C.toB o) ++ (C.toB o).flatten).take (k - 8)).length < 8 * (C.toB o).length
    · rw [if_pos h2]
    · rw [if_neg h2]
      have hk8 : 8 * (C.toB o).length ≤ k - 8 := by
        simp only [List.length_take, List.length_append, tab_length] at h2
        omega
      have et : (tab (C.toB o) ++ (C.toB o).flatten).take (k - 8)
          = tab (C.toB o) ++ (C.toB o).flatten.take (k - 8 - 8 * (C.toB o).length) := by
        rw [List.take_append, tab_length, List.take_of_length_le (by rw [tab_length]; omega)]
      rw [et, sizes_tab _ _ fun b hb => (hbl b hb).2, List.drop_left' (tab_length _),
        readBlocks_short _ _ (by simp only [List.length_take]; omega)]

/-- Reading at the end of the file. -/
theorem readAny_end (C : Codec O) (f : Bytes) (s : Rd) (hs : s = ⟨f, [], false, false, s.tid, s.nbl⟩) :
    (readAny C s).1 = .eof := by
  rw [hs]; simp [readAny, nextType]

theorem readAll_prefix (C : Codec O) : ∀ (os : List O) (k fuel : Nat) (f : Bytes) (s : Rd), (∀ o ∈ os, Storable C o) →
    os.length < fuel → s = ⟨f, (os.flatMap (recB C)).take k, false, false, s.tid, s.nbl⟩ →
    ∃ j x, readAll C fuel s = (os.take j, x) ∧ (x = .eof ∨ x = .err) ∧
      ((os.flatMap (recB C)).length ≤ k → j = os.length ∧ x = .eof) := by
  intro os
  induction os with
  | nil =>
    intro k fuel f s _ hfuel hs
    obtain ⟨fuel, rfl⟩ : ∃ m, fuel = m + 1 := ⟨fuel - 1, by omega⟩
    have h := readAny_end C f s (by simpa using hs)
    refine ⟨0, .eof, ?_, Or.inl rfl, fun _ => ⟨rfl, rfl⟩⟩
    simp only [readAll]
    generalize readAny C s = p at h
    obtain ⟨x, s'⟩ := p
    simp only at h
    subst h
    simp
  | cons o os ih =>
    intro k fuel f s hok hfuel hs
    obtain ⟨fuel, rfl⟩ : ∃ m, fuel = m + 1 := ⟨fuel - 1, by omega⟩
    simp only [List.flatMap_cons] at hs
    by_cases hk : k < (recB C o).length
    · have e : (recB C o ++ os.flatMap (recB C)).take k = (recB C o).take k := List.take_append_of_le_length (by omega)
      rw [e] at hs
      have h := readAny_short C o (hok o (by simp)) f s k hk hs
      refine ⟨0, (readAny C s).1, ?_, h, fun hlen => ?_⟩
      · simp only [readAll]
        generalize readAny C s = p at h
        obtain ⟨x, s'⟩ := p
        rcases h with h | h <;> simp only at h <;> subst h <;> simp
      · simp only [List.flatMap_cons, List.length_append] at hlen; omega
    · have e : (recB C o ++ os.flatMap (recB C)).take k
          = recB C o ++ (os.flatMap (recB C)).take (k - (recB C o).length) := by
        rw [List.take_append, List.take_of_length_le (by omega)]
      rw [e] at hs
      obtain ⟨s', h1, h2⟩ := readAny_full C o (hok o (by simp)) f _ s hs
      obtain ⟨j, x, hr, hx, hfull⟩ := ih (k - (recB C o).length) fuel f s' (fun o' ho' => hok o' (by simp [ho']))
        (by simp at hfuel; omega) h2
      refine ⟨j + 1, x, ?_, hx, fun hlen => ?_⟩
      · simp only [readAll, h1, hr, List.take_succ_cons]
      · simp only [List.flatMap_cons, List.length_append] at hlen
        have := hfull (by omega)
        simp [this]

theorem readAll_then (C : Codec O) : ∀ (os : List O) (fuel : Nat) (f r : Bytes) (s : Rd) (x : Out O),
    (∀ o ∈ os, Storable C o) → os.length < fuel → s = ⟨f, os.flatMap (recB C) ++ r, false, false, s.tid, s.nbl⟩ →
    (∀ s' : Rd, s' = ⟨f, r, false, false, s'.tid, s'.nbl⟩ → (readAny C s').1 = x ∧ ∀ o, x ≠ .obj o) →
    readAll C fuel s = (os, x) := by
  intro os
  induction os with
  | nil =>
    intro fuel f r s x _ hfuel hs hx
    obtain ⟨fuel, rfl⟩ : ∃ m, fuel = m + 1 := ⟨fuel - 1, by omega⟩
    obtain ⟨h, hn⟩ := hx s (by simpa using hs)
    simp only [readAll]
    generalize readAny C s = p at h
    obtain ⟨y, s'⟩ := p
    simp only at h
    subst h
    cases y with
    | obj o => exact absurd rfl (hn o)
    | _ => rfl
  | cons o os ih =>
    intro fuel f r s x hok hfuel hs hx
    obtain ⟨fuel, rfl⟩ : ∃ m, fuel = m + 1 := ⟨fuel - 1, by omega⟩
    simp only [List.flatMap_cons, List.append_assoc] at hs
    obtain ⟨s', h1, h2⟩ := readAny_full C o (hok o (by simp)) f _ s hs
    have := ih fuel f r s' x (fun o' ho' => hok o' (by simp [ho'])) (by simp at hfuel; omega) h2 hx
    simp only [readAll, h1, this]

theorem writeBlocks_false (bl : List Bytes) (h : (writeBlocks bl).2 = false) :
    ∃ r', (writeBlocks bl).1 = r' ∧ readBlocks (bl.map List.length) (r') = none := by
  induction bl with
  | nil => simp [writeBlocks] at h
  | cons b bl ih =>
    simp only [writeBlocks] at h ⊢
    by_cases hb : b = []
    · simp [hb, readBlocks]
    · have hp := List.length_pos_of_ne_nil hb
      simp only [hb, if_false] at h ⊢
      obtain ⟨r', h1, h2⟩ := ih h
      refine ⟨_, rfl, ?_⟩
      simp only [List.map_cons, readBlocks, List.length_append]
      rw [if_neg (by omega), List.drop_left, h1, h2]

/-- Reading what a failed write left behind. -/
theorem readAny_failed (C : Codec O) (o : O) (ht : IsInt32 (C.tid o) ∧ C.tid o ≠ 0) (hcnt : (C.toB o).length < 2 ^ 31)
    (hbl : ∀ b ∈ C.toB o, b.length < 2 ^ 64) (g : Bytes) (hf : (write C [] o) = (g, false)) (f : Bytes) (s : Rd)
    (hs : s = ⟨f, g, false, false, s.tid, s.nbl⟩) : (readAny C s).1 = .err := by
  obtain ⟨d, hg, hd⟩ : ∃ d, g = encInt32 (C.tid o) ++ (encInt32 (C.toB o).length ++ d) ∧
      (C.toB o = [] ∨ (d = tab (C.toB o) ++ (writeBlocks (C.toB o)).1 ∧ (writeBlocks (C.toB o)).2 = false)) := by
    unfold write at hf
    simp only [List.nil_append] at hf
    split at hf
    · exact ⟨[], by simp at hf ⊢; exact hf.symm, Or.inl (by assumption)⟩
    · simp only [Prod.mk.injEq] at hf
      exact ⟨tab (C.toB o) ++ (writeBlocks (C.toB o)).1, by rw [← hf.1]; simp [tab], Or.inr ⟨rfl, hf.2⟩⟩
  have t4 : decInt32 (g.take 4) = C.tid o := by
    rw [hg, List.take_left' (encInt32_length _), decInt32_encInt32 _ ht.1]
  have n4 : decInt32 ((g.drop 4).take 4) = (C.toB o).length := by
    rw [hg, List.drop_left' (encInt32_length _), List.take_left' (encInt32_length _),
      decInt32_encInt32 _ ⟨by omega, by omega⟩]
  have d8 : g.drop 8 = d := by
    have : 8 = 4 + 4 := rfl
    rw [this, ← List.drop_drop, hg, List.drop_left' (encInt32_length _), List.drop_left' (encInt32_length _)]
  have hl : g.length = 8 + d.length := by
    rw [hg]; simp only [List.length_append, encInt32_length]; omega
  have hnt : nextType s = (C.tid o, ⟨f, d, false, true, C.tid o, (C.toB o).length⟩) := by
    rw [hs]
    unfold nextType
    simp only [Bool.false_eq_true, if_false]
    rw [if_neg (by omega), t4, n4, d8]
  unfold readAny
  rw [hnt]
  simp only
  rw [if_neg ht.2, if_neg (by omega)]
  have hto : ((C.toB o).length : Int).toNat = (C.toB o).length := by omega
  rw [hto]
  rcases hd with hd | ⟨hd, hw⟩
  · simp [hd]
  · by_cases h2 : (C.toB o).length = 0 ∨ d.length < 8 * (C.toB o).length
    · rw [if_pos h2]
    · rw [if_neg h2]
      obtain ⟨r', e1, e2⟩ := writeBlocks_false _ hw
      rw [hd, sizes_tab _ _ hbl, List.drop_left' (tab_length _), e1, e2]

end Verif.Boio
