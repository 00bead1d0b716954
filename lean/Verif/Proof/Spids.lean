import Verif.Spec.Function
import Mathlib.Order.Basic
/-! # Lemmas: merging lists of ids -/
namespace Verif.Func

/-- The merge on lists: `o` is what has been written, `p` what is still to be read. -/
structure Rep (st N last : Nat) (s : MSt) (o p : List Int) : Prop where
  len : s.arr.length = N
  inx : s.inx + p.length = last
  lastle : last ≤ N
  out : s.inxout = st + o.length
  rdp : ∀ k, k < p.length → s.arr[s.inx + k]? = p[k]?
  wrt : ∀ k, k < o.length → s.arr[st + k]? = o[k]?

theorem rep_write {st N last : Nat} {s : MSt} {o p : List Int} (h : Rep st N last s o p) (v : Int) (hroom : s.inxout < s.inx) :
    ∃ a, wr s.arr s.inxout v = .ok a ∧ Rep st N last { s with arr := a, inxout := s.inxout + 1 } (o ++ [v]) p := by
  have hb : s.inxout < s.arr.length := by have := h.len; have := h.inx; have := h.lastle; omega
  refine ⟨s.arr.set s.inxout v, by rw [wr, if_pos hb], ⟨by simp [h.len], h.inx, h.lastle, by simp [h.out]; omega, fun k hk => ?_, fun k hk => ?_⟩⟩
  · simp only
    rw [List.getElem?_set, if_neg (by omega)]
    exact h.rdp k hk
  · simp only
    rw [List.getElem?_set]
    simp only [List.length_append, List.length_cons, List.length_nil] at hk
    by_cases he : k = o.length
    · rw [if_pos (by rw [h.out, he]), if_pos hb, he]
      simp
    · rw [if_neg (by rw [h.out]; omega), h.wrt k (by omega), List.getElem?_append_left (by omega)]

theorem rep_read {st N last : Nat} {s : MSt} {o p : List Int} {v : Int} (h : Rep st N last s o (v :: p)) : rd s.arr s.inx = .ok v := by
  have := h.rdp 0 (by simp)
  rw [Nat.add_zero] at this
  unfold rd
  rw [this]
  rfl

theorem rep_next {st N last : Nat} {s : MSt} {o p : List Int} {v : Int} (h : Rep st N last s o (v :: p)) (w : Int) :
    Rep st N last { s with inx := s.inx + 1, lastspid := w } o p := by
  refine ⟨h.len, by have := h.inx; simp at this ⊢; omega, h.lastle, h.out, fun k hk => ?_, h.wrt⟩
  have := h.rdp (k + 1) (by simp; omega)
  simp only
  rw [show s.inx + 1 + k = s.inx + (k + 1) by omega, this]
  rfl

/-- What the copying loop does. -/
theorem copyWhile_spec (spid : Int) (st N last : Nat) : ∀ (p o : List Int) (s : MSt) (room : Nat), Rep st N last s o p → 0 < room → s.inxout + room ≤ s.inx →
    ∃ s', copyWhile spid p.length s = .ok s' ∧ Rep st N last s' (o ++ p.takeWhile (· ≤ spid)) (p.dropWhile (· ≤ spid)) ∧
      s'.inxout + room ≤ s'.inx ∧ s'.lastspid = (p.takeWhile (· ≤ spid)).getLastD s.lastspid := by
  intro p
  induction p with
  | nil => intro o s room h _ hr; exact ⟨s, rfl, by simpa using h, hr, rfl⟩
  | cons v p ih =>
    intro o s room h h0 hr
    rw [List.length_cons, copyWhile, rep_read h]
    simp only [Res.bind]
    by_cases hv : v ≤ spid
    · rw [if_pos hv]
      obtain ⟨a, e, h1⟩ := rep_write h v (by omega)
      rw [e]
      have h2 := rep_next h1 v
      obtain ⟨s', e', r', room', l'⟩ := ih (o ++ [v]) _ room h2 h0 (by simp only; omega)
      refine ⟨s', e', ?_, room', ?_⟩
      · rw [List.takeWhile_cons_of_pos (by simpa using hv), List.dropWhile_cons_of_pos (by simpa using hv)]
        simpa using r'
      · rw [l', List.takeWhile_cons_of_pos (by simpa using hv), List.getLastD_cons]
    · rw [if_neg hv]
      refine ⟨s, rfl, ?_, hr, ?_⟩
      · rw [List.takeWhile_cons_of_neg (by simpa using hv), List.dropWhile_cons_of_neg (by simpa using hv)]
        simpa using h
      · rw [List.takeWhile_cons_of_neg (by simpa using hv)]
        rfl

theorem copyRest_spec (st N last : Nat) : ∀ (p o : List Int) (s : MSt), Rep st N last s o p → s.inxout ≤ s.inx → 
    ∃ s', copyRest p.length s = .ok s' ∧ Rep st N last s' (o ++ p) [] := by
  intro p
  induction p with
  | nil => intro o s h _; exact ⟨s, rfl, by simpa using h⟩
  | cons v p ih =>
    intro o s h hr
    rw [List.length_cons, copyRest, rep_read h]
    simp only [Res.bind]
    by_cases hlt : s.inxout < s.inx
    · obtain ⟨a, e, h1⟩ := rep_write h v hlt
      rw [e]
      have h2 := rep_next h1 s.lastspid
      obtain ⟨s', e', r'⟩ := ih (o ++ [v]) _ h2 (by simp only; omega)
      exact ⟨s', e', by simpa using r'⟩
    · have heq : s.inxout = s.inx := by omega
      have hb : s.inxout < s.arr.length := by
        have h1 := h.len; have h2 := h.inx; have h3 := h.lastle; rw [List.length_cons] at h2; omega
      have h0 := h.rdp 0 (by simp)
      simp only [Nat.add_zero, List.getElem?_cons_zero] at h0
      have hset : s.arr.set s.inxout v = s.arr := by
        apply List.ext_getElem?
        intro i
        rw [List.getElem?_set]
        split
        · rename_i hi
          rw [← hi, heq, h0]
        · rfl
      rw [wr, if_pos hb, hset]
      simp only
      have h2 : Rep st N last ⟨s.arr, s.inx + 1, s.inxout + 1, s.lastspid⟩ (o ++ [v]) p := by
        have h1 := rep_next h s.lastspid
        refine ⟨h1.len, h1.inx, h1.lastle, by simp [h.out]; omega, h1.rdp, fun k hk => ?_⟩
        simp only [List.length_append, List.length_cons, List.length_nil] at hk
        by_cases he : k = o.length
        · simp only
          rw [he, ← h.out, heq, h0]
          simp
        · simp only
          rw [h.wrt k (by omega), List.getElem?_append_left (by omega)]
      obtain ⟨s', e', r'⟩ := ih (o ++ [v]) _ h2 (by simp only; omega)
      exact ⟨s', e', by simpa using r'⟩

/-- The merge of one child's ids on lists. -/
def merged : List Int → List Int → Int → List Int
  | [], p, _ => p
  | c :: cs, p, last =>
    let last' := (p.takeWhile (· ≤ c)).getLastD last
    p.takeWhile (· ≤ c) ++ (if c ≠ last' then [c] else []) ++ merged cs (p.dropWhile (· ≤ c)) last'

theorem mergeLoop_spec (st N last : Nat) : ∀ (cs p o : List Int) (s : MSt), Rep st N last s o p → s.inxout + cs.length ≤ s.inx →
    ∃ s' o' p', mergeLoop last cs s = .ok s' ∧ Rep st N last s' o' p' ∧ s'.inxout ≤ s'.inx ∧ o' ++ p' = o ++ merged cs p s.lastspid := by
  intro cs
  induction cs with
  | nil => intro p o s h hr; exact ⟨s, o, p, rfl, h, by simpa using hr, rfl⟩
  | cons c cs ih =>
    intro p o s h hr
    rw [List.length_cons] at hr
    obtain ⟨s1, e1, r1, room1, l1⟩ := copyWhile_spec c st N last p o s (cs.length + 1) h (by omega) (by omega)
    rw [mergeLoop, show last - s.inx = p.length by have := h.inx; omega, e1]
    simp only [Res.bind]
    by_cases hc : c ≠ s1.lastspid
    · rw [if_pos hc]
      obtain ⟨a, e2, r2⟩ := rep_write r1 c (by omega)
      rw [e2]
      obtain ⟨s', o', p', e3, r3, room3, eq3⟩ := ih _ _ _ r2 (by simp only; omega)
      refine ⟨s', o', p', e3, r3, room3, ?_⟩
      rw [eq3, merged, ← l1, if_pos hc]
      simp
    · rw [if_neg hc]
      obtain ⟨s', o', p', e3, r3, room3, eq3⟩ := ih _ _ _ r1 (by omega)
      refine ⟨s', o', p', e3, r3, room3, ?_⟩
      rw [eq3, merged, ← l1, if_neg hc]
      simp

theorem mem_takeDrop (p : List Int) (c x : Int) : x ∈ p ↔ x ∈ p.takeWhile (· ≤ c) ∨ x ∈ p.dropWhile (· ≤ c) := by
  conv_lhs => rw [← List.takeWhile_append_dropWhile (p := (· ≤ c)) (l := p)]
  rw [List.mem_append]

theorem take_le (p : List Int) (c x : Int) (h : x ∈ p.takeWhile (· ≤ c)) : x ≤ c := by
  induction p with
  | nil => simp at h
  | cons v p ih =>
    rw [List.takeWhile_cons] at h
    split at h
    · rename_i hv
      rcases List.mem_cons.1 h with rfl | h
      · simpa using hv
      · exact ih h
    · cases h

theorem drop_gt (p : List Int) (hp : Increasing p) (c x : Int) (h : x ∈ p.dropWhile (· ≤ c)) : c < x := by
  induction p with
  | nil => simp at h
  | cons v p ih =>
    by_cases hv : v ≤ c
    · rw [List.dropWhile_cons_of_pos (by simpa using hv)] at h
      exact ih (List.Pairwise.of_cons hp) h
    · rw [List.dropWhile_cons_of_neg (by simpa using hv)] at h
      rcases List.mem_cons.1 h with rfl | h
      · omega
      · have := List.rel_of_pairwise_cons hp h
        omega

theorem getLastD_mem_or {α} (l : List α) (d : α) : l.getLastD d = d ∧ l = [] ∨ l.getLastD d ∈ l := by
  cases l with
  | nil => exact Or.inl ⟨rfl, rfl⟩
  | cons a l => right; rw [List.getLastD_cons]; exact List.getLastD_mem_cons

/-- Last element of an increasing list bounded by `c` that contains `c` is `c`. -/
theorem last_eq (t : List Int) (ht : Increasing t) (c d : Int) (hb : ∀ x ∈ t, x ≤ c) (hc : c ∈ t) : t.getLastD d = c := by
  rw [List.getLastD_eq_getLast?]
  have hne : t ≠ [] := by rintro rfl; cases hc
  rw [List.getLast?_eq_some_getLast hne]
  simp only [Option.getD_some]
  have h1 := hb _ (List.getLast_mem hne)
  by_contra hne'
  have : t = t.dropLast ++ [t.getLast hne] := (List.dropLast_concat_getLast hne).symm
  rw [this] at hc ht
  rcases List.mem_append.1 hc with h | h
  · have := (List.pairwise_append.1 ht).2.2 c h (t.getLast hne) (by simp)
    omega
  · simp at h
    exact hne' h.symm

/-- The merge is the increasing union. -/
theorem merged_spec : ∀ (cs p : List Int) (last : Int), Increasing cs → Increasing p → (∀ x ∈ p, last < x) → (∀ c ∈ cs, last < c) →
    Increasing (merged cs p last) ∧ ∀ x, x ∈ merged cs p last ↔ x ∈ cs ∨ x ∈ p := by
  intro cs
  induction cs with
  | nil => intro p last _ hp _ _; exact ⟨hp, fun x => by simp [merged]⟩
  | cons c cs ih =>
    intro p last hcs hp hlp hlc
    have hcl := hlc c (by simp)
    have htake : Increasing (p.takeWhile (· ≤ c)) := List.Pairwise.sublist (List.takeWhile_sublist _) hp
    have hdrop : Increasing (p.dropWhile (· ≤ c)) := List.Pairwise.sublist (List.dropWhile_sublist _) hp
    have hcs' : ∀ x ∈ cs, c < x := fun x hx => List.rel_of_pairwise_cons hcs hx
    generalize hl : (p.takeWhile (· ≤ c)).getLastD last = last'
    have hl1 : last' ≤ c := by
      rcases getLastD_mem_or (p.takeWhile (· ≤ c)) last with ⟨h, _⟩ | h
      · rw [← hl, h]; omega
      · rw [← hl]; exact take_le p c _ h
    obtain ⟨i1, i2⟩ := ih (p.dropWhile (· ≤ c)) last' (List.Pairwise.of_cons hcs) hdrop
      (fun x hx => by have := drop_gt p hp c x hx; omega) (fun x hx => by have := hcs' x hx; omega)
    have hgt : ∀ x ∈ merged cs (p.dropWhile (· ≤ c)) last', c < x := by
      intro x hx
      rcases (i2 x).1 hx with h | h
      · exact hcs' x h
      · exact drop_gt p hp c x h
    have hin : c ∈ p.takeWhile (· ≤ c) ↔ c = last' := by
      constructor
      · intro h
        rw [← hl]
        exact (last_eq _ htake c last (fun x hx => take_le p c x hx) h).symm
      · intro h
        rcases getLastD_mem_or (p.takeWhile (· ≤ c)) last with ⟨h', _⟩ | h'
        · rw [hl] at h'; omega
        · rw [hl, ← h] at h'; exact h'
    rw [merged, hl]
    constructor
    · unfold Increasing
      rw [List.pairwise_append, List.pairwise_append]
      refine ⟨⟨htake, by split <;> simp, fun a ha b hb => ?_⟩, i1, fun a ha b hb => ?_⟩
      · split at hb
        · rename_i hne
          simp at hb
          subst hb
          have h1 := take_le p b a ha
          have h2 : a ≠ b := by
            rintro rfl
            exact hne (hin.1 ha)
          omega
        · cases hb
      · have h1 := hgt b hb
        rcases List.mem_append.1 ha with h | h
        · have := take_le p c a h; omega
        · split at h
          · simp at h; omega
          · cases h
    · intro x
      rw [List.mem_append, List.mem_append, i2, mem_takeDrop p c x, List.mem_cons]
      constructor
      · rintro ((h | h) | h | h)
        · exact Or.inr (Or.inl h)
        · split at h
          · simp at h; exact Or.inl (Or.inl h)
          · cases h
        · exact Or.inl (Or.inr h)
        · exact Or.inr (Or.inr h)
      · rintro ((h | h) | h | h)
        · by_cases hc : c = last'
          · exact Or.inl (Or.inl (by rw [h]; exact hin.2 hc))
          · exact Or.inl (Or.inr (by rw [if_pos hc]; simp [h]))
        · exact Or.inr (Or.inl h)
        · exact Or.inl (Or.inl h)
        · exact Or.inr (Or.inr h)

/-- The array holds the list `u` from `st` on. -/
def Holds (arr : List Int) (st : Nat) (u : List Int) : Prop := st + u.length ≤ arr.length ∧ ∀ k, k < u.length → arr[st + k]? = u[k]?

theorem mergeChild_spec (ids u : List Int) (arr : List Int) (st : Nat) (hi : IdsWf ids) (hu : IdsWf u) (hst : ids.length ≤ st) (h : Holds arr st u) :
    ∃ arr' u', mergeChild ids arr st u.length = .ok (arr', st - ids.length, u'.length) ∧ arr'.length = arr.length ∧
      Holds arr' (st - ids.length) u' ∧ IdsWf u' ∧ ∀ x, x ∈ u' ↔ x ∈ ids ∨ x ∈ u := by
  by_cases h0 : ids.length = 0
  · rw [mergeChild, if_pos h0]
    have : ids = [] := List.length_eq_zero_iff.1 h0
    subst this
    exact ⟨arr, u, rfl, rfl, h, hu, fun x => by simp⟩
  · have hrep : Rep (st - ids.length) arr.length (st + u.length) ⟨arr, st, st - ids.length, -1⟩ [] u :=
      ⟨rfl, rfl, h.1, by simp, h.2, fun k hk => by cases hk⟩
    obtain ⟨s1, o1, p1, e1, r1, room1, eq1⟩ := mergeLoop_spec _ _ _ ids u [] _ hrep (by simp only; omega)
    obtain ⟨s2, e2, r2⟩ := copyRest_spec _ _ _ p1 o1 s1 r1 room1
    obtain ⟨m1, m2⟩ := merged_spec ids u (-1) hi.1 hu.1 (fun x hx => by have := hu.2 x hx; omega) (fun x hx => by have := hi.2 x hx; omega)
    have heq : o1 ++ p1 = merged ids u (-1) := by simpa using eq1
    rw [heq] at r2
    refine ⟨s2.arr, merged ids u (-1), ?_, r2.len, ⟨?_, r2.wrt⟩, ⟨m1, fun x hx => ?_⟩, m2⟩
    · rw [mergeChild, if_neg h0]
      simp only
      rw [e1]
      simp only [Res.bind]
      rw [show st + u.length - s1.inx = p1.length by have := r1.inx; omega, e2]
      simp only
      rw [r2.out]
      congr 3
      omega
    · by_cases hm : (merged ids u (-1)).length = 0
      · rw [hm, r2.len]; have := h.1; omega
      · have := r2.wrt ((merged ids u (-1)).length - 1) (by omega)
        rw [List.getElem?_eq_getElem (by omega : (merged ids u (-1)).length - 1 < _)] at this
        obtain ⟨hlt, _⟩ := List.getElem?_eq_some_iff.1 this
        omega
    · rcases (m2 x).1 hx with h | h
      · exact hi.2 x h
      · exact hu.2 x h

theorem mergeAll_spec : ∀ (ids : List (List Int)) (arr : List Int) (st : Nat) (u : List Int), (∀ l ∈ ids, IdsWf l) → IdsWf u →
    (ids.map List.length).sum = st → Holds arr st u →
    ∃ arr' u', mergeAll ids (arr, st, u.length) = .ok (arr', 0, u'.length) ∧ Holds arr' 0 u' ∧ IdsWf u' ∧
      ∀ x, x ∈ u' ↔ (∃ l ∈ ids, x ∈ l) ∨ x ∈ u := by
  intro ids
  induction ids with
  | nil =>
    intro arr st u _ hu hs h
    simp at hs
    subst hs
    exact ⟨arr, u, rfl, h, hu, fun x => by simp⟩
  | cons l ids ih =>
    intro arr st u hw hu hs h
    rw [List.map_cons, List.sum_cons] at hs
    obtain ⟨arr1, u1, e1, l1, h1, w1, m1⟩ := mergeChild_spec l u arr st (hw l (by simp)) hu (by omega) h
    obtain ⟨arr2, u2, e2, h2, w2, m2⟩ := ih arr1 (st - l.length) u1 (fun x hx => hw x (by simp [hx])) w1 (by omega) h1
    refine ⟨arr2, u2, ?_, h2, w2, fun x => ?_⟩
    · rw [mergeAll]
      simp only
      rw [e1]
      exact e2
    · rw [m2, m1]
      simp only [List.mem_cons, exists_eq_or_imp]
      constructor
      · rintro (h | h | h)
        · exact Or.inl (Or.inr h)
        · exact Or.inl (Or.inl h)
        · exact Or.inr h
      · rintro ((h | h) | h)
        · exact Or.inr (Or.inl h)
        · exact Or.inl h
        · exact Or.inr (Or.inr h)

theorem len_le_sum (ids : List (List Int)) (l : List Int) (h : l ∈ ids) : l.length ≤ (ids.map List.length).sum := by
  induction ids with
  | nil => cases h
  | cons a ids ih =>
    rw [List.map_cons, List.sum_cons]
    rcases List.mem_cons.1 h with rfl | h
    · omega
    · have := ih h; omega

theorem findSpids_spec (ids : List (List Int)) (h : ∀ l ∈ ids, IdsWf l) :
    ∃ u, findSpids ids = .ok u ∧ IdsWf u ∧ ∀ x, x ∈ u ↔ ∃ l ∈ ids, x ∈ l := by
  unfold findSpids
  simp only
  by_cases h0 : (ids.map List.length).sum = 0
  · rw [if_pos h0]
    refine ⟨[], rfl, ⟨List.Pairwise.nil, fun s hs => by cases hs⟩, fun x => ?_⟩
    simp only [List.not_mem_nil, false_iff]
    rintro ⟨l, hl, hx⟩
    have h1 : l.length ≤ (ids.map List.length).sum := len_le_sum ids l hl
    have h2 : 0 < l.length := List.length_pos_of_mem hx
    omega
  · rw [if_neg h0]
    obtain ⟨arr, u, e, hh, w, m⟩ := mergeAll_spec ids (List.replicate (ids.map List.length).sum 0) (ids.map List.length).sum []
      h ⟨List.Pairwise.nil, fun s hs => by cases hs⟩ rfl ⟨by simp, fun k hk => by cases hk⟩
    refine ⟨u, ?_, w, fun x => by rw [m]; simp⟩
    rw [List.length_nil] at e
    rw [e]
    simp only [Res.bind]
    congr 1
    obtain ⟨h1, h2⟩ := hh
    apply List.ext_getElem?
    intro i
    by_cases hi : i < u.length
    · rw [List.getElem?_take_of_lt hi]
      have := h2 i hi
      rw [Nat.zero_add] at this
      exact this
    · rw [List.getElem?_eq_none (by simp; omega), List.getElem?_eq_none (by omega)]

end Verif.Func
