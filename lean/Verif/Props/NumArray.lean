import Verif.Proof.NumArray
/-!
# Properties of arrays

C87 (access by identifier), C88 (blocks), C89 (arrays are values).
-/
namespace Verif.NumArray

open Verif Verif.Hiid

/-! ## C87 -/

/-- C87: an index on every axis gives that element, or an error if one is out of range. -/
theorem C87_element (shape idx : List Nat) (hne : shape ≠ []) (hl : idx.length = shape.length) (hint : Bool) :
    (picks shape (idx.map .one) = none → get shape (idOf (idx.map .one)) hint = .err) ∧
    ∀ ps, picks shape (idx.map .one) = some ps →
      ∃ off, get shape (idOf (idx.map .one)) hint = .ok (.elem off) ∧ places shape ps = [off] := by
  have hid : idOf (idx.map .one) = idx.map fun i : Nat => (i : Int) := by
    simp only [idOf, List.map_map]
    induction idx generalizing shape with
    | nil => rfl
    | cons i idx ih =>
      cases shape with
      | nil => simp at hl
      | cons n shape =>
        simp only [List.map_cons, Function.comp, Sel.ids, List.flatten_cons, List.cons_append, List.nil_append]
        cases shape with
        | nil =>
          have : idx = [] := List.eq_nil_of_length_eq_zero (by simpa using hl)
          subst this; rfl
        | cons m shape =>
          have := ih (m :: shape) (by simp) (by simpa using hl)
          simpa [Function.comp_def, Sel.ids] using this
  have hcond : (idOf (idx.map .one)).length = shape.length ∧ idOf (idx.map .one) ≠ [] ∧ (idOf (idx.map .one)).all (fun a => decide (0 ≤ a)) = true := by
    rw [hid]
    refine ⟨by simpa using hl, ?_, by simp⟩
    intro h
    have : idx = [] := by simpa using h
    subst this
    exact hne (List.eq_nil_of_length_eq_zero (by simpa using hl.symm))
  have key : ∀ (shape idx : List Nat), idx.length = shape.length →
      (picks shape (idx.map .one) = none ∧ ∃ i, i < shape.length ∧ ¬ (idx.getD i 0 < shape.getD i 0)) ∨
      (picks shape (idx.map .one) = some (idx.map fun i => [i]) ∧ (∀ i, i < shape.length → idx.getD i 0 < shape.getD i 0) ∧
        places shape (idx.map fun i => [i]) = [offset shape idx]) := by
    intro shape
    induction shape with
    | nil =>
      intro idx hl
      have : idx = [] := List.eq_nil_of_length_eq_zero (by simpa using hl)
      subst this
      right
      exact ⟨rfl, by simp, rfl⟩
    | cons n shape ih =>
      intro idx hl
      cases idx with
      | nil => simp at hl
      | cons i idx =>
        have hl' : idx.length = shape.length := by simpa using hl
        simp only [List.map_cons, picks, Sel.picks]
        by_cases hin : i < n
        · rw [if_pos hin]
          rcases ih idx hl' with ⟨h1, k, hk, hk'⟩ | ⟨h1, h2, h3⟩
          · left
            exact ⟨by simp [h1], k + 1, by simp; omega, by simpa using hk'⟩
          · right
            refine ⟨by simp [h1], ?_, ?_⟩
            · intro j hj
              cases j with
              | zero => simpa using hin
              | succ j => simpa using h2 j (by simpa using hj)
            · simp only [places, List.flatMap_cons, List.flatMap_nil, List.append_nil, h3, List.map_cons, List.map_nil, offset, prod]
              rw [Nat.add_comm]
        · left
          rw [if_neg hin]
          exact ⟨rfl, 0, by simp, by simpa using hin⟩
  have hmap : (idx.map fun i : Nat => (i : Int)).map Int.toNat = idx := by simp [Function.comp_def]
  have hall : ∀ i, ((idx.map fun i : Nat => (i : Int)).getD i 0).toNat = idx.getD i 0 := by
    intro i
    simp only [List.getD_eq_getElem?_getD, List.getElem?_map]
    cases idx[i]? <;> simp
  unfold get
  rw [if_pos hcond, hid, hmap]
  simp only [hall]
  rcases key shape idx hl with ⟨h1, k, hk, hk'⟩ | ⟨h1, h2, h3⟩
  · refine ⟨fun _ => ?_, fun ps h => by rw [h1] at h; cases h⟩
    rw [if_neg]
    intro h
    have := List.all_eq_true.1 h k (by simpa using hk)
    simp only [decide_eq_true_eq] at this
    exact hk' this
  · refine ⟨(fun h => by rw [h1] at h; cases h), fun ps h => ?_⟩
    rw [h1] at h
    injection h with h
    subst h
    rw [if_pos]
    · exact ⟨_, rfl, h3⟩
    · rw [List.all_eq_true]
      intro j hj
      simpa using h2 j (by simpa using hj)

example : get [3, 4] (idOf [.one 2, .one 1]) false = .ok (.elem 9) ∧ get [3, 4] (idOf [.one 3, .one 1]) false = .err := by decide

/-- C87: too many selections, and selections that cannot be satisfied, are errors. -/
theorem C87_rejects (shape : List Nat) (sels : List Sel) (hint : Bool) (hne : shape ≠ []) (hk : ∃ s ∈ sels, s.kept = true)
    (h : shape.length < sels.length ∨ ∃ (k n : Nat) (s : Sel), shape[k]? = some n ∧ sels[k]? = some s ∧ s.Impossible n) :
    get shape (idOf sels) hint = .err := by
  have hs : sels ≠ [] := by
    obtain ⟨s, hs, _⟩ := hk
    exact List.ne_nil_of_mem hs
  have hidne : idOf sels ≠ [] := by
    cases sels with
    | nil => exact (hs rfl).elim
    | cons s sels =>
      obtain ⟨a, l, hids, _⟩ := ids_cons s
      simp [idOf, hids]
  unfold get
  rw [if_neg (fun hc => by rw [id_neg hk] at hc; cases hc.2.2), if_neg hidne, parse_id shape sels hne hs, (axes_none sels shape).2 h]
  rfl

/-- C87 in full: an identifier selects what it says, on as many of the first axes as it names, or is rejected. -/
def C87_full : Prop := ∀ (shape : List Nat) (sels : List Sel), shape ≠ [] → (∀ n ∈ shape, 0 < n) → sels ≠ [] →
  match picks shape sels with
  | none => get shape (idOf sels) false = .err
  | some ps => ∃ v, get shape (idOf sels) false = .ok v ∧ v.elements shape = (extents sels ps, places shape ps)

/-- C87 for selections on all axes that are plain: an end that is given with the start and lies on the axis, and a step that
divides the number of positions. -/
theorem C87_slice_partial (shape : List Nat) (sels : List Sel) (hne : shape ≠ []) (hpos : ∀ n ∈ shape, 0 < n)
    (hl : sels.length = shape.length) (hk : ∃ s ∈ sels, s.kept = true)
    (hp : ∀ (k n : Nat) (s : Sel), shape[k]? = some n → sels[k]? = some s → s.Plain n) :
    match picks shape sels with
    | none => get shape (idOf sels) false = .err
    | some ps => ∃ v, get shape (idOf sels) false = .ok v ∧ v.elements shape = (extents sels ps, places shape ps) := by
  have hs : sels ≠ [] := by
    obtain ⟨s, hs, _⟩ := hk
    exact List.ne_nil_of_mem hs
  have hidne : idOf sels ≠ [] := by
    cases sels with
    | nil => exact (hs rfl).elim
    | cons s sels =>
      obtain ⟨a, l, hids, _⟩ := ids_cons s
      simp [idOf, hids]
  obtain ⟨h1, h2⟩ := axes_plain sels shape hpos hl hp
  have hget : get shape (idOf sels) false = (parse shape (idOf sels)).bind fun axs =>
      if (slice shape axs).2.1 = [] then .ub else .ok (.sub (slice shape axs).1 (slice shape axs).2.1 (slice shape axs).2.2) := by
    unfold get
    rw [if_neg (fun hc => by rw [id_neg hk] at hc; cases hc.2.2), if_neg hidne]
    simp
  rw [hget, parse_id shape sels hne hs]
  cases ha : axes shape sels with
  | none => simp only [h1 ha]; rfl
  | some a =>
    obtain ⟨e1, e2⟩ := h2 a ha
    obtain ⟨w1, w2⟩ := slice_walk shape a (axes_length sels shape a ha)
    simp only [e1, Res.bind]
    have hnil : (slice shape a).2.1 ≠ [] := by
      rw [w2]
      have : ∀ (sels : List Sel) (shape : List Nat) (a : List Ax), sels.length = shape.length → axes shape sels = some a →
          (∃ s ∈ sels, s.kept = true) → ∃ x ∈ a, x.keep = true := by
        intro sels
        induction sels with
        | nil => rintro _ _ _ _ ⟨s, hs, _⟩; cases hs
        | cons s sels ih =>
          intro shape a hl ha hk
          cases shape with
          | nil => simp at hl
          | cons n shape =>
            simp only [axes] at ha
            split at ha
            · cases ha
            · obtain ⟨b, hb, rfl⟩ := Option.map_eq_some_iff.1 ha
              obtain ⟨t, ht, hkt⟩ := hk
              rcases List.mem_cons.1 ht with rfl | ht
              · exact ⟨_, List.mem_cons_self, by cases t <;> first | rfl | cases hkt⟩
              · obtain ⟨x, hx, hxk⟩ := ih shape b (by simpa using hl) hb ⟨t, ht, hkt⟩
                exact ⟨x, List.mem_cons_of_mem _ hx, hxk⟩
      obtain ⟨x, hx, hxk⟩ := this sels shape a hl ha hk
      intro h
      have := List.map_eq_nil_iff.1 h
      rw [List.filter_eq_nil_iff] at this
      exact this x hx hxk
    rw [if_neg hnil]
    refine ⟨_, rfl, ?_⟩
    simp only [View.elements]
    rw [w1, e2, w2]

example : get [10, 12] (idOf [.range (some 1) (some 3), .step none none (some 2)]) false = .ok (.sub 12 [3, 6] [12, 2]) := by decide

/-- C87 fails in four ways: an end past the axis is not noticed; an open end after a start selects one position; the last
position is lost if the step does not divide; axes that are not named make the call undefined. -/
theorem C87_witnesses :
    (picks [3] [.range (some 0) (some 9)] = none ∧ get [3] (idOf [.range (some 0) (some 9)]) false = .ok (.sub 0 [10] [1])) ∧
    (picks [3] [.range (some 1) none] = some [[1, 2]] ∧ get [3] (idOf [.range (some 1) none]) false = .ok (.sub 1 [1] [1])) ∧
    (picks [3] [.step none none (some 2)] = some [[0, 2]] ∧ get [3] (idOf [.step none none (some 2)]) false = .ok (.sub 0 [1] [2])) ∧
    (picks [2, 2] [.one 1] = some [[1], [0, 1]] ∧ get [2, 2] (idOf [.one 1]) false = .ub) := by decide

/-- C87 fails. -/
theorem C87_refuted : ¬ C87_full := by
  intro h
  have := h [2, 2] [.one 1] (by decide) (by decide) (by decide)
  obtain ⟨v, hv, _⟩ := this
  revert hv
  have : get [2, 2] (idOf [.one 1]) false = .ub := by decide
  rw [this]
  intro h; cases h

/-! ## C88 -/

/-- C88: an array is read back from its block as it was written. -/
theorem C88_roundtrip (tid tpstring : Int) (es : Int → Option Nat) (ht : IsInt32 tid) (hs : IsInt32 tpstring) (hs0 : tpstring ≠ 0)
    (a : Arr) (hw : a.Wf tpstring es) : fromBlock tid tpstring es (toBlock tid tpstring a) = .ok a := by
  cases a with
  | empty =>
    have hb : header tid 0 0 = (([tid, 1, 0, 0] : List Int).map encInt32).flatten ++ [] := by simp [header]
    have hword : ∀ (i : Nat) (w : Int), ([tid, 1, 0, 0] : List Int)[i]? = some w → IsInt32 w → word (header tid 0 0) i = w := by
      intro i w hi hw
      unfold word
      rw [hb, word_bytes _ _ _ _ hi, decInt32_encInt32 _ hw]
    have w0 := hword 0 tid rfl ht
    have w1 := hword 1 1 rfl ⟨by decide, by decide⟩
    have w2 := hword 2 0 rfl ⟨by decide, by decide⟩
    have w3 := hword 3 0 rfl ⟨by decide, by decide⟩
    have hl : (header tid 0 0).length = 16 := by simp [header]
    simp only [toBlock, fromBlock, w0, w1, w2, w3, hl]
    simp
  | num sca shape data =>
    obtain ⟨h1, h2, h3, h4, k, h5, h6, h7, h8⟩ := hw
    have hoff : 16 + 4 * shape.length ≤ dataOffset shape.length ∧ dataOffset shape.length ≤ 56 := by
      have := h4.2.1
      unfold dataOffset; omega
    simp only [toBlock]
    rw [List.append_assoc _ _ data, fromBlock_words tid tpstring es sca shape _ ht h1 h2 (fun h => by rw [h5] at h; cases h) h4, if_neg h3,
      sizeOf64_eq shape (fun x hx => (h4.2.2 x hx).1) h7, h5, if_neg]
    · rw [List.drop_append, List.drop_eq_nil_of_le (by simp)]
      simp
    · simp only [List.length_append, List.length_replicate, Option.getD_some, h6]
      rw [Nat.mod_eq_of_lt (by omega)]
      omega
  | str shape strs =>
    obtain ⟨h1, h2, h3, h4⟩ := hw
    have hsz : sizeOf64 shape = count shape := sizeOf64_eq shape (fun x hx => (h1.2.2 x hx).1) (by omega)
    simp only [toBlock]
    rw [List.append_assoc _ _ strs.flatten, fromBlock_words tid tpstring es tpstring shape _ ht hs hs0 (fun _ => rfl) h1, if_pos rfl, hsz,
      if_neg (by omega)]
    have hm : (strs.map fun s => encInt32 s.length).flatten = ((strs.map fun s => (s.length : Int)).map encInt32).flatten := by
      simp [Function.comp_def]
    have hml : ((strs.map fun s => encInt32 s.length).flatten).length = 4 * count shape := by
      rw [hm, words_length]; simp [h2]
    rw [if_neg (by rw [List.length_append, hml]; omega), List.drop_append, List.drop_eq_nil_of_le (by omega), hml, Nat.sub_self,
      List.drop_zero, List.nil_append]
    have hlens : (List.range (count shape)).map (fun i => uword ((strs.map fun s => encInt32 s.length).flatten ++ strs.flatten) i) =
        strs.map List.length := by
      apply List.ext_getElem
      · simp [h2]
      · intro i a b
        have hi : i < strs.length := by simpa using b
        simp only [List.getElem_map, List.getElem_range]
        unfold uword
        rw [hm, word_bytes _ _ i (strs[i].length : Int) (by simp [List.getElem?_eq_getElem hi]),
          leDec_encInt32 _ (h4 _ (List.getElem_mem hi))]
    rw [hlens, readStrs_flatten]
    rfl

/-- C88: a block with something after its end is rejected. -/
theorem C88_longer (tid tpstring : Int) (es : Int → Option Nat) (ht : IsInt32 tid) (hs : IsInt32 tpstring) (hs0 : tpstring ≠ 0)
    (a : Arr) (hw : a.Wf tpstring es) (x : Bytes) (hx : x ≠ []) : fromBlock tid tpstring es (toBlock tid tpstring a ++ x) = .err := by
  have hxl : 0 < x.length := List.length_pos_of_ne_nil hx
  cases a with
  | empty =>
    have hb : header tid 0 0 ++ x = (([tid, 1, 0, 0] : List Int).map encInt32).flatten ++ x := by simp [header]
    have hword : ∀ (i : Nat) (w : Int), ([tid, 1, 0, 0] : List Int)[i]? = some w → IsInt32 w → word (header tid 0 0 ++ x) i = w := by
      intro i w hi hw
      unfold word
      rw [hb, word_bytes _ _ _ _ hi, decInt32_encInt32 _ hw]
    have w0 := hword 0 tid rfl ht
    have w1 := hword 1 1 rfl ⟨by decide, by decide⟩
    have w2 := hword 2 0 rfl ⟨by decide, by decide⟩
    have w3 := hword 3 0 rfl ⟨by decide, by decide⟩
    have hl : (header tid 0 0 ++ x).length = 16 + x.length := by simp [header]; omega
    simp only [toBlock, fromBlock, w0, w1, w2, w3, hl]
    rw [if_neg (by omega)]
    simp [hx]
  | num sca shape data =>
    obtain ⟨h1, h2, h3, h4, k, h5, h6, h7, h8⟩ := hw
    have hoff : 16 + 4 * shape.length ≤ dataOffset shape.length ∧ dataOffset shape.length ≤ 56 := by
      have := h4.2.1
      unfold dataOffset; omega
    simp only [toBlock]
    rw [List.append_assoc _ _ data, List.append_assoc _ _ x,
      fromBlock_words tid tpstring es sca shape _ ht h1 h2 (fun h => by rw [h5] at h; cases h) h4, if_neg h3,
      sizeOf64_eq shape (fun x hx => (h4.2.2 x hx).1) h7, h5, if_pos]
    simp only [List.length_append, List.length_replicate, Option.getD_some, h6]
    rw [Nat.mod_eq_of_lt (by omega)]
    omega
  | str shape strs =>
    obtain ⟨h1, h2, h3, h4⟩ := hw
    have hsz : sizeOf64 shape = count shape := sizeOf64_eq shape (fun x hx => (h1.2.2 x hx).1) (by omega)
    simp only [toBlock]
    rw [List.append_assoc _ _ strs.flatten, List.append_assoc _ _ x,
      fromBlock_words tid tpstring es tpstring shape _ ht hs hs0 (fun _ => rfl) h1, if_pos rfl, hsz, if_neg (by omega)]
    have hm : (strs.map fun s => encInt32 s.length).flatten = ((strs.map fun s => (s.length : Int)).map encInt32).flatten := by
      simp [Function.comp_def]
    have hml : ((strs.map fun s => encInt32 s.length).flatten).length = 4 * count shape := by
      rw [hm, words_length]; simp [h2]
    rw [List.append_assoc, if_neg (by rw [List.length_append, hml]; omega), List.drop_append, List.drop_eq_nil_of_le (by omega), hml, Nat.sub_self,
      List.drop_zero, List.nil_append]
    have hlens : (List.range (count shape)).map (fun i => uword ((strs.map fun s => encInt32 s.length).flatten ++ (strs.flatten ++ x)) i) =
        strs.map List.length := by
      apply List.ext_getElem
      · simp [h2]
      · intro i a b
        have hi : i < strs.length := by simpa using b
        simp only [List.getElem_map, List.getElem_range]
        unfold uword
        rw [hm, word_bytes _ _ i (strs[i].length : Int) (by simp [List.getElem?_eq_getElem hi]),
          leDec_encInt32 _ (h4 _ (List.getElem_mem hi))]
    rw [hlens, readStrs_long _ _ hx]
    rfl

/-- C88 in full for damaged blocks: a block that has lost its end is rejected. -/
def C88_full : Prop := ∀ (tid tpstring : Int) (es : Int → Option Nat) (a : Arr) (n : Nat), IsInt32 tid → IsInt32 tpstring → tpstring ≠ 0 →
  a.Wf tpstring es → n < (toBlock tid tpstring a).length → fromBlock tid tpstring es ((toBlock tid tpstring a).take n) = .err

/-- C88 for blocks of which at least the header is there, or less than 16 bytes. -/
theorem C88_truncated_partial (tid tpstring : Int) (es : Int → Option Nat) (ht : IsInt32 tid) (hs : IsInt32 tpstring) (hs0 : tpstring ≠ 0)
    (a : Arr) (hw : a.Wf tpstring es) (n : Nat) (hn : n < (toBlock tid tpstring a).length)
    (hh : n < 16 ∨ match a with | .empty => True | .num _ shape _ => 16 + 4 * shape.length ≤ n | .str shape _ => 16 + 4 * shape.length ≤ n) :
    fromBlock tid tpstring es ((toBlock tid tpstring a).take n) = .err := by
  by_cases h16 : n < 16
  · unfold fromBlock
    rw [if_pos (by rw [List.length_take]; omega)]
  · have hh := hh.resolve_left h16
    have hhdr : ∀ (sca : Int) (shape : List Int), (header tid sca shape.length ++ encShape shape).length = 16 + 4 * shape.length := by
      intro sca shape
      unfold encShape
      rw [List.length_append, words_length]
      simp [header]
    cases a with
    | empty =>
      have : (toBlock tid tpstring .empty).length = 16 := by simp [toBlock, header]
      omega
    | num sca shape data =>
      obtain ⟨h1, h2, h3, h4, k, h5, h6, h7, h8⟩ := hw
      have hoff : 16 + 4 * shape.length ≤ dataOffset shape.length ∧ dataOffset shape.length ≤ 56 := by
        have := h4.2.1
        unfold dataOffset; omega
      simp only [toBlock] at hn hh ⊢
      rw [List.append_assoc _ _ data] at hn ⊢
      rw [List.length_append, hhdr] at hn
      rw [List.take_append, List.take_of_length_le (by rw [hhdr]; omega), hhdr,
        fromBlock_words tid tpstring es sca shape _ ht h1 h2 (fun h => by rw [h5] at h; cases h) h4, if_neg h3,
        sizeOf64_eq shape (fun x hx => (h4.2.2 x hx).1) h7, h5, if_pos]
      simp only [List.length_append, List.length_replicate, List.length_take, Option.getD_some] at hn ⊢
      rw [Nat.mod_eq_of_lt (by omega)]
      omega
    | str shape strs =>
      obtain ⟨h1, h2, h3, h4⟩ := hw
      have hsz : sizeOf64 shape = count shape := sizeOf64_eq shape (fun x hx => (h1.2.2 x hx).1) (by omega)
      simp only [toBlock] at hn hh ⊢
      rw [List.append_assoc _ _ strs.flatten] at hn ⊢
      rw [List.length_append, hhdr] at hn
      have hm : (strs.map fun s => encInt32 s.length).flatten = ((strs.map fun s => (s.length : Int)).map encInt32).flatten := by
        simp [Function.comp_def]
      have hml : ((strs.map fun s => encInt32 s.length).flatten).length = 4 * count shape := by
        rw [hm, words_length]; simp [h2]
      rw [List.take_append, List.take_of_length_le (by rw [hhdr]; omega), hhdr,
        fromBlock_words tid tpstring es tpstring shape _ ht hs hs0 (fun _ => rfl) h1, if_pos rfl, hsz, if_neg (by omega)]
      split
      · rfl
      · rename_i hlong
        rw [List.length_append, hml] at hn
        rw [List.length_take, List.length_append, hml] at hlong
        have hlens : (List.range (count shape)).map (fun i => uword (((strs.map fun s => encInt32 s.length).flatten ++ strs.flatten).take
            (n - (16 + 4 * shape.length))) i) = strs.map List.length := by
          apply List.ext_getElem
          · simp [h2]
          · intro i a b
            have hi : i < strs.length := by simpa using b
            simp only [List.getElem_map, List.getElem_range]
            unfold uword
            rw [List.drop_take, List.take_take, Nat.min_eq_left (by omega), hm,
              word_bytes _ _ i (strs[i].length : Int) (by simp [List.getElem?_eq_getElem hi]), leDec_encInt32 _ (h4 _ (List.getElem_mem hi))]
        rw [hlens, readStrs_short]
        · rfl
        · rw [List.length_drop, List.length_take, List.length_append, hml]
          rw [List.length_flatten] at hn ⊢
          omega

/-- C88 fails for a block that ends within the extents: they are read from beyond it. -/
theorem C88_refuted : ¬ C88_full := by
  intro h
  have hw : Arr.Wf (-33) (fun _ => some 4) (.num (-37) [1, 1, 1] [1, 2, 3, 4]) := by
    refine ⟨⟨by decide, by decide⟩, by decide, by decide, ⟨by decide, by decide, by decide⟩, 4, rfl, by decide, by decide, by decide⟩
  have := h (-1) (-33) (fun _ => some 4) (.num (-37) [1, 1, 1] [1, 2, 3, 4]) 20 ⟨by decide, by decide⟩ ⟨by decide, by decide⟩ (by decide) hw (by decide)
  revert this
  decide +kernel

/-- C88, in full, for blocks that are accepted: their extents are not negative. -/
def C88_sound_full : Prop := ∀ (tid tpstring : Int) (es : Int → Option Nat) (b : Bytes) (sca : Int) (shape : List Int) (data : Bytes),
  fromBlock tid tpstring es b = .ok (.num sca shape data) → ∀ x ∈ shape, 0 ≤ x

/-- C88 fails for negative extents. -/
theorem C88_sound_refuted : ¬ C88_sound_full := by
  intro h
  have := h (-1) (-33) (fun _ => some 8) (header (-1) (-37) 2 ++ encShape [-1, -1] ++ [1, 2, 3, 4, 5, 6, 7, 8]) (-37) [-1, -1]
    [1, 2, 3, 4, 5, 6, 7, 8] (by decide +kernel) (-1) (by decide)
  revert this
  decide

example : fromBlock (-1) (-33) (fun _ => none) (toBlock (-1) (-33) (.str [2, 1] [[65, 66], []])) = .ok (.str [2, 1] [[65, 66], []]) := by
  decide +kernel

/-! ## C89 -/

/-- C89: arrays behave as values: after any history of making, copying, sending, changing and clearing arrays, each holds what it
would hold if every copy had been made at once. -/
theorem C89_values (n : Nat) (ops : List Op) (hw : ∀ op ∈ ops, op.Wf) (hin : ∀ op ∈ ops, op.In n) (i : Nat) (hi : i < n) :
    (ops.foldl Op.step (start n)).read i = ops.foldl Op.eval (fun _ => none) i := by
  have key : Inv (ops.foldl Op.step (start n)) ∧ (ops.foldl Op.step (start n)).objs.length = n ∧
      ∀ i, i < n → (ops.foldl Op.step (start n)).read i = ops.foldl Op.eval (fun _ => none) i := by
    induction ops using List.reverseRecOn with
    | nil =>
      refine ⟨?_, by simp [start], fun i hi => ?_⟩
      · intro i o h
        simp only [List.foldl_nil, start, List.getElem?_replicate] at h
        split at h <;> simp at h
      · apply read_none
        simp [start, hi]
    | append_singleton ops op ih =>
      obtain ⟨h1, h2, h3⟩ := ih (fun o h => hw o (by simp [h])) (fun o h => hin o (by simp [h]))
      simp only [List.foldl_append, List.foldl_cons, List.foldl_nil]
      obtain ⟨g1, g2, g3⟩ := step_refines h1 h2 op (hw op (by simp)) (hin op (by simp)) h3
      have he : List.foldl Op.eval (fun _ => none) (ops ++ [op]) = op.eval (List.foldl Op.eval (fun _ => none) ops) :=
        List.foldl_append
      exact ⟨g1, g2, fun i hi => (g3 i hi).trans (congrFun he i).symm⟩
  exact key.2.2 i hi

example : ([Op.init 0 [2] [1, 2], .copy 0 1, .write 1 0 9].foldl Op.step (start 2)).read 0 = some ([2], [1, 2]) ∧
    ([Op.init 0 [2] [1, 2], .copy 0 1, .write 1 0 9].foldl Op.step (start 2)).read 1 = some ([2], [9, 2]) := by decide

/-- C89, in full, for arrays that are part of another one: a copy has the same contents, and so has the array received when it is
sent; changing an element changes that element. -/
def C89_slice_full : Prop := ∀ (h : Heap) (j k : Nat) (x : List Nat × List Int), j ≠ k → k < h.objs.length → h.read j = some x →
  (h.copy j k).read k = some x ∧ (h.send j k).read k = some x ∧ ∀ (e : Nat) (v : Int), e < x.2.length → (h.write j e v).read j = some (x.1, x.2.set e v)

/-- An array of 4 elements, and one which is its last two. -/
def demo : Heap := (((start 3).init 0 [4] [10, 20, 30, 40]).refer 0 1 2 [2] [1] false)

/-- C89 fails for parts of arrays: the copy has the first elements of the other array, the array received is the whole other
array, and changing an element replaces the contents. -/
theorem C89_slice_witnesses : demo.read 1 = some ([2], [30, 40]) ∧ (demo.copy 1 2).read 2 = some ([2], [10, 20]) ∧
    (demo.send 1 2).read 2 = some ([4], [10, 20, 30, 40]) ∧ (demo.write 1 0 5).read 1 = some ([2], [5, 20]) := by decide

/-- C89 fails for parts of arrays. -/
theorem C89_refuted : ¬ C89_slice_full := by
  intro h
  have := (h demo 1 2 ([2], [30, 40]) (by decide) (by decide) (by decide)).1
  revert this
  decide

end Verif.NumArray
