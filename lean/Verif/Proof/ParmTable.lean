import Verif.Spec.ParmTable
import Mathlib.Data.List.Induction
import Verif.Proof.Bytes
import Verif.Proof.Assoc
import Mathlib.Data.Nat.Init
import Mathlib.Tactic.Linarith
import Mathlib.Tactic.NormNum
/-! # Lemmas on parameter tables -/
namespace Verif.ParmTable
open Verif

/-! ## Keys -/

theorem encInt32_nat (i : Nat) (h : i < 2 ^ 31) : leDec (encInt32 i) = i := by
  unfold encInt32
  have : ((i : Int) % (2 ^ 32 : Int)).toNat = i := by
    rw [Int.emod_eq_of_lt (by omega) (by omega)]; simp
  rw [this]
  exact leDec_leEnc 4 i (by norm_num; omega)

theorem makeKey_inj {n m : Bytes} {i j : Nat} (hi : i < 2 ^ 31) (hj : j < 2 ^ 31) (h : makeKey n i = makeKey m j) : n = m ∧ i = j := by
  unfold makeKey at h
  rw [List.append_assoc, List.append_assoc] at h
  obtain ⟨h1, h2⟩ := List.append_inj h (by simp)
  refine ⟨List.append_cancel_right h2, ?_⟩
  have := congrArg leDec h1
  rwa [encInt32_nat i hi, encInt32_nat j hj] at this

/-! ## Invariant -/

/-- Every stored funklet is for a domain in the list. -/
def Inv (t : Table) : Prop :=
  (Assoc.keys t.db).Nodup ∧ ∀ name i x, i < 2 ^ 31 → Assoc.find t.db (makeKey name i) = some x → i < t.doms.length

theorem lastMatch_some {doms : List Dom} {d : Dom} : ∀ {n i : Nat}, lastMatch doms d n = some i → ∃ e, doms[i]? = some e ∧ e.matches d = true := by
  intro n
  induction n with
  | zero => intro i h; simp [lastMatch] at h
  | succ n ih =>
    intro i h
    simp only [lastMatch] at h
    split at h
    · exact ih h
    · rename_i e he
      split at h
      · rename_i hm
        injection h with h
        subst h
        exact ⟨e, he, hm⟩
      · exact ih h

theorem lastMatch_none {doms : List Dom} {d : Dom} : ∀ {n : Nat}, lastMatch doms d n = none → ∀ (i : Nat) (e : Dom), i < n → doms[i]? = some e → e.matches d = false := by
  intro n
  induction n with
  | zero => intro _ i e h; omega
  | succ n ih =>
    intro h i e hi he
    simp only [lastMatch] at h
    by_cases hin : i = n
    · subst hin
      rw [he] at h
      simp only at h
      split at h
      · cases h
      · rename_i hm; simpa using hm
    · split at h
      · exact ih h i e (by omega) he
      · split at h
        · cases h
        · exact ih h i e (by omega) he

theorem findDom_some {doms : List Dom} {f : Funk} {i : Nat} (h : findDom doms f = some i) : ∃ e, doms[i]? = some e ∧ e.matches f.dom = true := by
  unfold findDom at h
  split at h
  · rename_i e he
    split at h
    · rename_i hm
      injection h with h
      subst h
      split at he
      · exact ⟨e, he, hm⟩
      · cases he
    · exact lastMatch_some h
  · exact lastMatch_some h

theorem findDom_none {doms : List Dom} {f : Funk} (h : findDom doms f = none) : ∀ (i : Nat) (e : Dom), doms[i]? = some e → e.matches f.dom = false := by
  intro i e he
  have hi : i < doms.length := (List.getElem?_eq_some_iff.1 he).1
  unfold findDom at h
  split at h
  · split at h
    · cases h
    · exact lastMatch_none h i e hi he
  · exact lastMatch_none h i e hi he

/-- Domains are only added. -/
theorem put_doms (t : Table) (name : Bytes) (f : Funk) : ∃ l, (put t name f).1.doms = t.doms ++ l := by
  unfold put
  split
  · exact ⟨[], by simp⟩
  · exact ⟨[_], rfl⟩

theorem put_lt (t : Table) (name : Bytes) (f : Funk) : (put t name f).2 < (put t name f).1.doms.length := by
  unfold put
  split
  · rename_i i h
    obtain ⟨e, he, -⟩ := findDom_some h
    exact (List.getElem?_eq_some_iff.1 he).1
  · simp

theorem put_db (t : Table) (name : Bytes) (f : Funk) : (put t name f).1.db = Assoc.set t.db (makeKey name (put t name f).2) (dataOf f) := by
  unfold put
  split <;> rfl

theorem step_doms (t : Table) (op : Op) : ∃ l, (step t op).doms = t.doms ++ l := by
  cases op with
  | put n f => exact put_doms t n f
  | del n i =>
    refine ⟨[], ?_⟩
    simp only [step, delete, List.append_nil]
    cases Assoc.find t.db (makeKey n i) <;> rfl
  | delAll n => exact ⟨[], by simp [step, deleteAll]⟩

theorem run_doms (ops : List Op) : ∀ t : Table, ∃ l, (run t ops).doms = t.doms ++ l := by
  induction ops with
  | nil => intro t; exact ⟨[], by simp [run]⟩
  | cons op ops ih =>
    intro t
    obtain ⟨l, hl⟩ := step_doms t op
    obtain ⟨m, hm⟩ := ih (step t op)
    exact ⟨l ++ m, by rw [show run t (op :: ops) = run (step t op) ops from rfl, hm, hl, List.append_assoc]⟩

theorem foldl_erase {l : List Nat} {name : Bytes} : ∀ {db : List (Bytes × Data)}, (Assoc.keys db).Nodup →
    (Assoc.keys (l.foldl (fun db i => Assoc.erase db (makeKey name i)) db)).Nodup ∧
    ∀ k, Assoc.find (l.foldl (fun db i => Assoc.erase db (makeKey name i)) db) k =
      if ∃ i ∈ l, k = makeKey name i then none else Assoc.find db k := by
  induction l with
  | nil => intro db h; exact ⟨h, by simp⟩
  | cons i l ih =>
    intro db h
    obtain ⟨h1, h2⟩ := ih (Assoc.nodup_erase h (makeKey name i))
    refine ⟨h1, fun k => ?_⟩
    rw [List.foldl_cons, h2 k, Assoc.find_erase h]
    by_cases h3 : ∃ j ∈ l, k = makeKey name j
    · rw [if_pos h3, if_pos]
      obtain ⟨j, hj, hk⟩ := h3
      exact ⟨j, List.mem_cons_of_mem _ hj, hk⟩
    · rw [if_neg h3]
      by_cases h4 : k = makeKey name i
      · rw [if_pos h4, if_pos ⟨i, List.mem_cons_self, h4⟩]
      · rw [if_neg h4, if_neg]
        rintro ⟨j, hj, hk⟩
        rcases List.mem_cons.1 hj with rfl | hj
        · exact h4 hk
        · exact h3 ⟨j, hj, hk⟩

/-- The database after a call. -/
theorem step_find {t : Table} (hn : (Assoc.keys t.db).Nodup) (op : Op) : (Assoc.keys (step t op).db).Nodup ∧
    (∀ n f, op = .put n f → ∀ k, Assoc.find (step t op).db k = if k = makeKey n (put t n f).2 then some (dataOf f) else Assoc.find t.db k) ∧
    (∀ n i, op = .del n i → ∀ k, Assoc.find (step t op).db k = if k = makeKey n i then none else Assoc.find t.db k) ∧
    (∀ n, op = .delAll n → ∀ k, Assoc.find (step t op).db k = if ∃ i ∈ List.range t.doms.length, k = makeKey n i then none else Assoc.find t.db k) := by
  cases op with
  | put n f =>
    refine ⟨?_, ?_, (fun _ _ h => by cases h), (fun _ h => by cases h)⟩
    · simp only [step]; rw [put_db]; exact Assoc.nodup_set hn _ _
    · intro n' f' h k
      injection h with h1 h2
      subst h1 h2
      simp only [step]
      rw [put_db, Assoc.find_set]
  | del n i =>
    refine ⟨?_, (fun _ _ h => by cases h), ?_, (fun _ h => by cases h)⟩
    · simp only [step, delete]
      cases Assoc.find t.db (makeKey n i) with
      | none => exact hn
      | some _ => exact Assoc.nodup_erase hn _
    · intro n' i' h k
      injection h with h1 h2
      subst h1 h2
      simp only [step, delete]
      cases hf : Assoc.find t.db (makeKey n i) with
      | none =>
        simp only
        split
        · rename_i hk; rw [hk, hf]
        · rfl
      | some _ =>
        simp only
        rw [Assoc.find_erase hn]
  | delAll n =>
    refine ⟨(foldl_erase hn).1, (fun _ _ h => by cases h), (fun _ _ h => by cases h), ?_⟩
    intro n' h k
    injection h with h1
    subst h1
    exact (foldl_erase hn).2 k

theorem step_inv {t : Table} (h : Inv t) (op : Op) (hl : (step t op).doms.length < 2 ^ 31) : Inv (step t op) := by
  obtain ⟨hn, hi⟩ := h
  obtain ⟨h1, h2, h3, h4⟩ := step_find hn op
  refine ⟨h1, fun name i x hlt hf => ?_⟩
  obtain ⟨l, hd⟩ := step_doms t op
  have hmono : t.doms.length ≤ (step t op).doms.length := by rw [hd]; simp
  cases op with
  | put n f =>
    rw [h2 n f rfl] at hf
    split at hf
    · rename_i hk
      have hp := put_lt t n f
      have hl' : (put t n f).1.doms.length < 2 ^ 31 := hl
      obtain ⟨-, e⟩ := makeKey_inj hlt (by omega) hk
      rw [e]; exact hp
    · exact Nat.lt_of_lt_of_le (hi name i x hlt hf) hmono
  | del n j =>
    rw [h3 n j rfl] at hf
    split at hf
    · cases hf
    · exact Nat.lt_of_lt_of_le (hi name i x hlt hf) hmono
  | delAll n =>
    rw [h4 n rfl] at hf
    split at hf
    · cases hf
    · exact Nat.lt_of_lt_of_le (hi name i x hlt hf) hmono

theorem run_inv (ops : List Op) : ∀ {t : Table}, Inv t → (run t ops).doms.length < 2 ^ 31 → Inv (run t ops) := by
  induction ops with
  | nil => intro t h _; exact h
  | cons op ops ih =>
    intro t h hl
    have e : run t (op :: ops) = run (step t op) ops := rfl
    rw [e] at hl ⊢
    obtain ⟨l, hd⟩ := run_doms ops (step t op)
    have : (step t op).doms.length ≤ (run (step t op) ops).doms.length := by rw [hd]; simp
    exact ih (step_inv h op (by omega)) hl

theorem empty_inv : Inv ⟨[], []⟩ := ⟨List.nodup_nil, fun _ _ _ _ h => by simp [Assoc.find] at h⟩

theorem reachable_inv {t : Table} (h : Reachable t) : Inv t := by
  obtain ⟨hl, ops, rfl⟩ := h
  exact run_inv ops empty_inv hl

/-! ## Domains -/

theorem matches_iff (d e : Dom) : d.matches e = true ↔ ∀ i, i < maxAxis →
    (d.axis i = none ∧ e.axis i = none) ∨ ∃ r s, d.axis i = some r ∧ e.axis i = some s ∧ |r.1 - s.1| ≤ 1 / 10 ^ 16 ∧ |r.2 - s.2| ≤ 1 / 10 ^ 16 := by
  unfold Dom.matches
  rw [List.all_eq_true]
  constructor
  · intro h i hi
    have := h i (by simpa using hi)
    cases hd : d.axis i <;> cases he : e.axis i <;> simp only [hd, he] at this
    · exact Or.inl ⟨rfl, rfl⟩
    · cases this
    · cases this
    · rename_i r s
      right
      refine ⟨r, s, rfl, rfl, ?_⟩
      simpa using this
  · intro h i hi
    rcases h i (by simpa using hi) with ⟨h1, h2⟩ | ⟨r, s, h1, h2, h3, h4⟩
    · simp only [h1, h2]
    · simp only [h1, h2]
      simp only [Bool.not_eq_true', Bool.or_eq_false_iff, decide_eq_false_iff_not, not_lt, gt_iff_lt]
      exact ⟨h3, h4⟩

theorem overlaps_iff (d e : Dom) : d.overlaps e = true ↔ Overlap d e := by
  unfold Dom.overlaps Overlap
  rw [List.all_eq_true]
  constructor
  · intro h i r s hi h1 h2
    have := h i (by simpa using hi)
    simp only [h1, h2] at this
    simpa using this
  · intro h i hi
    cases hd : d.axis i <;> cases he : e.axis i <;> simp only
    rename_i r s
    have := h i r s (by simpa using hi) hd he
    simpa using this

theorem entry_axis (d : Dom) {i : Nat} (h : i < maxAxis) : d.entry.axis i = d.axis i := by
  simp [Dom.entry, Dom.axis, List.getD_eq_getElem?_getD, h]

theorem matches_refl {d e : Dom} (h : SameDom d e) : d.matches e = true := by
  rw [matches_iff]
  intro i hi
  cases hd : d.axis i with
  | none => left; exact ⟨rfl, by rw [← h i hi, hd]⟩
  | some r =>
    right
    exact ⟨r, r, rfl, by rw [← h i hi, hd], by norm_num, by norm_num⟩

/-! ## Records -/

theorem decode_sizes (bs : List Bytes) (x : Bytes) (hs : ∀ b ∈ bs, b.length < 2 ^ 64) :
    (List.range bs.length).map (fun i => leDec ((((bs.map fun b => encSize b.length).flatten ++ x).drop (8 * i)).take 8)) = bs.map List.length := by
  induction bs generalizing x with
  | nil => rfl
  | cons b bs ih =>
    rw [List.length_cons, List.range_succ_eq_map, List.map_cons, List.map_map]
    simp only [List.map_cons, List.flatten_cons]
    congr 1
    · simp only [Nat.mul_zero, List.drop_zero, List.append_assoc]
      rw [List.take_append_of_le_length (by simp), List.take_of_length_le (by simp)]
      exact leDec_encSize _ (hs b List.mem_cons_self)
    · rw [← ih x (fun c hc => hs c (List.mem_cons_of_mem _ hc))]
      refine List.map_congr_left fun i _ => ?_
      simp only [Function.comp]
      rw [show 8 * Nat.succ i = (encSize b.length).length + 8 * i by rw [encSize_length]; omega, List.append_assoc, List.drop_append,
        List.drop_eq_nil_of_le (by omega), Nat.add_sub_cancel_left, List.nil_append]

theorem cut_flatten (bs : List Bytes) : cut (bs.map List.length) bs.flatten = bs := by
  induction bs with
  | nil => rfl
  | cons b bs ih => simp [cut, ih]

theorem sizes_length (bs : List Bytes) : ((bs.map fun b => encSize b.length).flatten).length = 8 * bs.length := by
  induction bs with
  | nil => rfl
  | cons b bs ih => simp [ih]; omega

theorem encode_length (bs : List Bytes) : (encode bs).length = 8 * (bs.length + 1) + (bs.map List.length).sum := by
  unfold encode
  rw [List.length_append, List.length_append, sizes_length, encSize_length, List.length_flatten]
  omega

/-! ## The file of domains -/

theorem entryBytes_length (d : Dom) : (entryBytes d).length = entrySize := by simp [entryBytes]

theorem readEntry_entry (d : Dom) : readEntry (entryBytes d) = some d := by
  have h : entryBytes d = (d, 0) :: (List.range 135).map (fun i => (d, i + 1)) := by
    unfold entryBytes entrySize
    rw [List.range_succ_eq_map]
    simp [Function.comp_def]
  unfold readEntry
  rw [h]
  simp only
  rw [← h, if_pos rfl]

theorem flatten_length (l : List Dom) : ((l.map entryBytes).flatten).length = l.length * entrySize := by
  induction l with
  | nil => simp
  | cons d l ih => simp only [List.map_cons, List.flatten_cons, List.length_append, entryBytes_length, ih, List.length_cons, Nat.succ_mul]; omega

/-- Reading a file of whole entries, and perhaps part of another. -/
theorem open_entries (l : List Dom) (tail : List (Dom × Nat)) (ht : tail.length < entrySize) :
    (Disk.open ((l.map entryBytes).flatten ++ tail)).doms = l.map some := by
  have hlen : ((l.map entryBytes).flatten ++ tail).length / entrySize = l.length := by
    rw [List.length_append, flatten_length, Nat.add_comm, Nat.add_mul_div_right _ _ (by decide), Nat.div_eq_of_lt ht, Nat.zero_add]
  simp only [Disk.open, hlen]
  clear hlen
  induction l with
  | nil => rfl
  | cons d l ih =>
    rw [List.length_cons, List.range_succ_eq_map, List.map_cons, List.map_map, List.map_cons]
    congr 1
    · simp only [Nat.zero_mul, List.drop_zero, List.flatten_cons, List.append_assoc]
      rw [List.take_append_of_le_length (by rw [entryBytes_length]), List.take_of_length_le (by rw [entryBytes_length]), readEntry_entry]
    · rw [← ih]
      refine List.map_congr_left fun i _ => ?_
      simp only [Function.comp, List.flatten_cons, List.append_assoc]
      rw [show Nat.succ i * entrySize = (entryBytes d).length + i * entrySize by rw [entryBytes_length, Nat.succ_mul]; omega,
        List.drop_append, List.drop_eq_nil_of_le (by omega), Nat.add_sub_cancel_left, List.nil_append]

/-- Invariant for C48_replaced_partial. -/
theorem run_apart {S : Dom → Prop} (ops : List Op) (hin : OpsIn S ops) :
    ((run ⟨[], []⟩ ops).doms.Pairwise fun d e => ¬ SameDom d e) ∧ ∀ e ∈ (run ⟨[], []⟩ ops).doms, ∃ d, S d ∧ e = d.entry := by
  induction ops using List.reverseRecOn with
  | nil => exact ⟨List.Pairwise.nil, by simp [run]⟩
  | append_singleton ops op ih =>
    obtain ⟨h1, h2⟩ := ih (fun n f h => hin n f (by simp [h]))
    have e : run ⟨[], []⟩ (ops ++ [op]) = step (run ⟨[], []⟩ ops) op := by simp [run]
    rw [e]
    generalize run ⟨[], []⟩ ops = t at *
    cases op with
    | put n f =>
      simp only [step, put]
      split
      · exact ⟨h1, h2⟩
      · rename_i hnone
        have hno := findDom_none hnone
        refine ⟨?_, ?_⟩
        · rw [List.pairwise_append]
          refine ⟨h1, by simp, ?_⟩
          intro d hd e he hs
          rw [List.mem_singleton] at he
          subst he
          obtain ⟨i, hi⟩ := List.mem_iff_getElem?.1 hd
          have := hno i d hi
          rw [matches_refl (fun j hj => by rw [hs j hj, entry_axis _ hj])] at this
          cases this
        · intro e he
          rcases List.mem_append.1 he with he | he
          · exact h2 e he
          · rw [List.mem_singleton] at he
            exact ⟨f.dom, hin n f (by simp), he⟩
    | del n i =>
      have : (step t (.del n i)).doms = t.doms := by
        simp only [step, delete]
        cases Assoc.find t.db (makeKey n i) <;> rfl
      rw [this]; exact ⟨h1, h2⟩
    | delAll n => exact ⟨h1, h2⟩

/-- The file after adding domains. -/
theorem add_file (es : List Dom) : ∀ s : Disk, (es.foldl Disk.add s).file = s.file ++ (es.map fun d => entryBytes d.entry).flatten ∧
    (es.foldl Disk.add s).doms = s.doms ++ es.map fun d => some d.entry := by
  induction es with
  | nil => intro s; simp
  | cons d es ih =>
    intro s
    obtain ⟨h1, h2⟩ := ih (s.add d)
    rw [List.foldl_cons, h1, h2]
    simp [Disk.add]

theorem take_entries (l : List Dom) : ∀ n, ∃ tail : List (Dom × Nat), tail.length < entrySize ∧
    ((l.map entryBytes).flatten).take n = ((l.take (n / entrySize)).map entryBytes).flatten ++ tail ∧ (n % entrySize = 0 → tail = []) := by
  induction l with
  | nil => intro n; exact ⟨[], by decide, by simp, fun _ => rfl⟩
  | cons d l ih =>
    intro n
    by_cases hn : n < entrySize
    · refine ⟨(entryBytes d).take n, by simp [entryBytes_length]; omega, ?_, ?_⟩
      · rw [Nat.div_eq_of_lt hn, List.map_cons, List.flatten_cons, List.take_append_of_le_length (by rw [entryBytes_length]; omega)]
        simp
      · intro h0
        rw [Nat.mod_eq_of_lt hn] at h0
        rw [h0]; simp
    · obtain ⟨tail, h1, h2, h3⟩ := ih (n - entrySize)
      have hpos : 0 < entrySize := by decide
      refine ⟨tail, h1, ?_, ?_⟩
      · have hd : n / entrySize = (n - entrySize) / entrySize + 1 := by
          rw [← Nat.add_div_right _ hpos, Nat.sub_add_cancel (by omega)]
        rw [hd, List.take_succ_cons, List.map_cons, List.flatten_cons, List.map_cons, List.flatten_cons, List.append_assoc, ← h2,
          List.take_append, entryBytes_length, List.take_of_length_le (by rw [entryBytes_length]; omega)]
      · intro h0
        apply h3
        rw [← Nat.add_mod_right, Nat.sub_add_cancel (by omega)]
        exact h0

end Verif.ParmTable
