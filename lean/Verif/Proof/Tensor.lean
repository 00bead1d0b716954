import Verif.Spec.Tensor
import Verif.Proof.Function
import Mathlib.Tactic.Ring
import Mathlib.Tactic.Linarith
namespace Verif.Tensor
open Verif.Func (mapRes Plane ChildRes Code failPlane addFails evalPlane)

/-! ## Reading lists -/

theorem mapRes_ok {α β : Type} (f : α → Res β) : ∀ (l : List α) (r : List β), mapRes f l = .ok r ↔ r.length = l.length ∧ ∀ (i : Nat) (a : α), l[i]? = some a → ∃ b, r[i]? = some b ∧ f a = .ok b := by
  intro l
  induction l with
  | nil =>
    intro r
    simp only [mapRes, Res.ok.injEq]
    constructor
    · rintro rfl; simp
    · rintro ⟨h, _⟩; exact (List.eq_nil_of_length_eq_zero h).symm
  | cons x l ih =>
    intro r
    simp only [mapRes]
    constructor
    · intro h
      cases hx : f x with
      | err => rw [hx] at h; cases h
      | ub => rw [hx] at h; cases h
      | ok b =>
        rw [hx] at h
        simp only [Res.bind] at h
        cases hl : mapRes f l with
        | err => rw [hl] at h; cases h
        | ub => rw [hl] at h; cases h
        | ok r' =>
          rw [hl] at h
          simp only [Res.ok.injEq] at h
          subst h
          obtain ⟨h1, h2⟩ := (ih r').1 hl
          refine ⟨by simp [h1], ?_⟩
          intro i a hi
          cases i with
          | zero => simp only [List.getElem?_cons_zero, Option.some.injEq] at hi; subst hi; exact ⟨b, by simp, hx⟩
          | succ i => simp only [List.getElem?_cons_succ] at hi ⊢; exact h2 i a hi
    · rintro ⟨h1, h2⟩
      cases r with
      | nil => simp at h1
      | cons b r =>
        obtain ⟨b', hb, hx⟩ := h2 0 x (by simp)
        simp only [List.getElem?_cons_zero, Option.some.injEq] at hb
        subst hb
        have := (ih r).2 ⟨by simpa using h1, fun i a hi => by simpa using h2 (i + 1) a (by simpa using hi)⟩
        rw [hx, this]; rfl

theorem mapRes_getPlane (c : TRes P) (l : List Nat) (h : ∀ i ∈ l, i < c.planes.length) :
    ∃ ps, mapRes (getPlane c) l = .ok ps ∧ ps.length = l.length ∧ ∀ i k : Nat, l[i]? = some k → ps[i]? = c.planes[k]? := by
  induction l with
  | nil => exact ⟨[], rfl, rfl, by simp⟩
  | cons x l ih =>
    obtain ⟨ps, h1, h2, h3⟩ := ih (fun i hi => h i (by simp [hi]))
    have hx := h x (by simp)
    refine ⟨c.planes[x] :: ps, ?_, by simp [h2], ?_⟩
    · simp only [mapRes, getPlane, List.getElem?_eq_getElem hx, Res.bind]
      rw [show (mapRes (getPlane c) l) = .ok ps from h1]
    · intro i k hi
      cases i with
      | zero => simp only [List.getElem?_cons_zero, Option.some.injEq] at hi; subst hi; simp [hx]
      | succ i => simp only [List.getElem?_cons_succ] at hi ⊢; exact h3 i k hi

/-! ## Row-major order -/

theorem rowMajor_lt : ∀ (dims idx : List Nat), ValidIdx dims idx → rowMajor dims idx < prod dims := by
  intro dims idx h
  unfold ValidIdx at h
  induction h with
  | nil => simp [rowMajor, prod]
  | @cons i d is ds hid _ ih =>
    simp only [rowMajor, prod, List.foldr_cons] at ih ⊢
    have : (i + 1) * ds.foldr (· * ·) 1 ≤ d * ds.foldr (· * ·) 1 := Nat.mul_le_mul_right _ hid
    rw [Nat.add_mul] at this
    omega

theorem rowMajor_inj : ∀ (dims idx idx' : List Nat), ValidIdx dims idx → ValidIdx dims idx' → rowMajor dims idx = rowMajor dims idx' → idx = idx' := by
  intro dims
  induction dims with
  | nil => intro idx idx' h h' _; cases h; cases h'; rfl
  | cons d ds ih =>
    intro idx idx' h h' he
    cases h with
    | @cons i _ is _ hi his =>
      cases h' with
      | @cons i' _ is' _ hi' his' =>
        simp only [rowMajor] at he
        have h1 := rowMajor_lt ds is his
        have h2 := rowMajor_lt ds is' his'
        have hp : 0 < prod ds := by omega
        have e1 : (i * prod ds + rowMajor ds is) / prod ds = i := by
          rw [Nat.mul_comm, Nat.mul_add_div hp, Nat.div_eq_of_lt h1]; omega
        have e2 : (i' * prod ds + rowMajor ds is') / prod ds = i' := by
          rw [Nat.mul_comm, Nat.mul_add_div hp, Nat.div_eq_of_lt h2]; omega
        have : i = i' := by rw [← e1, ← e2, he]
        subst this
        rw [ih is is' his his' (by omega)]

theorem rowMajor_surj : ∀ (dims : List Nat) (k : Nat), k < prod dims → ∃ idx, ValidIdx dims idx ∧ rowMajor dims idx = k := by
  intro dims
  induction dims with
  | nil => intro k hk; simp [prod] at hk; exact ⟨[], List.Forall₂.nil, by simp [rowMajor, hk]⟩
  | cons d ds ih =>
    intro k hk
    simp only [prod, List.foldr_cons] at hk
    have hp : 0 < prod ds := by
      rcases Nat.eq_zero_or_pos (prod ds) with h | h
      · unfold prod at h; rw [h] at hk; omega
      · exact h
    obtain ⟨idx, h1, h2⟩ := ih (k % prod ds) (Nat.mod_lt _ hp)
    refine ⟨(k / prod ds) :: idx, List.Forall₂.cons ?_ h1, ?_⟩
    · exact Nat.div_lt_of_lt_mul (by rw [Nat.mul_comm]; exact hk)
    · simp only [rowMajor, h2]; rw [Nat.mul_comm]; exact Nat.div_add_mod k (prod ds)

theorem offsetLoop_spec : ∀ (dims : List Nat) (ind : List Int), ind.length = dims.length →
    ((∃ idx : List Nat, ValidIdx dims idx ∧ ind = idx.map Int.ofNat ∧ offsetLoop dims ind = .ok ((rowMajor dims idx : Nat), prod dims)) ∨
     ((¬ ∃ idx : List Nat, ValidIdx dims idx ∧ ind = idx.map Int.ofNat) ∧ offsetLoop dims ind = .err)) := by
  intro dims
  induction dims with
  | nil =>
    intro ind h
    have : ind = [] := List.eq_nil_of_length_eq_zero h
    subst this
    exact Or.inl ⟨[], List.Forall₂.nil, rfl, by simp [offsetLoop, rowMajor, prod]⟩
  | cons d ds ih =>
    intro ind h
    cases ind with
    | nil => simp at h
    | cons i is =>
      simp only [offsetLoop]
      rcases ih is (by simpa using h) with ⟨idx, h1, h2, h3⟩ | ⟨h1, h2⟩
      · rw [h3]
        simp only [Res.bind]
        by_cases hi : i < 0 ∨ (d : Int) ≤ i
        · rw [if_pos hi]
          right
          refine ⟨?_, rfl⟩
          rintro ⟨idx', hv, he⟩
          cases hv with
          | @cons a _ as _ ha has =>
            simp only [List.map_cons, List.cons.injEq] at he
            have : i = (a : Int) := he.1
            omega
        · rw [if_neg hi]
          left
          refine ⟨i.toNat :: idx, List.Forall₂.cons (by omega) h1, ?_, ?_⟩
          · simp only [List.map_cons, List.cons.injEq]
            exact ⟨(Int.toNat_of_nonneg (by omega)).symm, h2⟩
          · simp only [rowMajor, prod, List.foldr_cons]
            congr 1
            refine Prod.ext ?_ ?_
            · simp only
              push_cast
              rw [Int.toNat_of_nonneg (by omega)]; ring
            · simp only; ring
      · rw [h2]
        right
        refine ⟨?_, rfl⟩
        rintro ⟨idx', hv, he⟩
        cases hv with
        | @cons a _ as _ ha has =>
          simp only [List.map_cons, List.cons.injEq] at he
          exact h1 ⟨as, has, he.2⟩

/-! ## Selections -/

/-- Stride, extent and remainder of each axis of the selection. -/
def axesOf : List (Int × Nat) → List (Nat × Nat × Nat)
  | [] => []
  | (s, d) :: l =>
    if s < 0 then (prod (l.map (·.2)), d, d) :: axesOf l else if axesOf l = [] then [] else (prod (l.map (·.2)), 1, 0) :: axesOf l

/-- Offset of the first element. -/
def startOf : List (Int × Nat) → Nat
  | [] => 0
  | (s, _) :: l => (if s < 0 then 0 else s.toNat * prod (l.map (·.2))) + startOf l

theorem axesOf_shape : ∀ l : List (Int × Nat), (axesOf l).map (fun a => a.2.1) = selShape (l.map (·.1)) (l.map (·.2)) := by
  intro l
  induction l with
  | nil => rfl
  | cons x l ih =>
    obtain ⟨s, d⟩ := x
    simp only [axesOf, List.map_cons, selShape]
    by_cases hs : s < 0
    · rw [if_pos hs, if_pos hs]; simp [ih]
    · rw [if_neg hs, if_neg hs]
      by_cases he : axesOf l = []
      · rw [if_pos he, if_pos (by rw [← ih, he]; rfl)]; rfl
      · rw [if_neg he, if_neg (by rw [← ih]; simpa using he)]; simp [ih]

theorem setup_spec : ∀ (l : List (Int × Nat)) (i : Nat),
    ((∀ x ∈ l, x.1 < (x.2 : Int)) → ∃ s, setup i l = .ok s ∧ s.strd = prod (l.map (·.2)) ∧ s.offset = startOf l ∧
      s.rank = i + (axesOf l).length ∧ (s.slice = false ↔ axesOf l = []) ∧
      s.strides.length = l.length ∧ s.shp.length = l.length ∧ s.shp0.length = l.length ∧
      (s.strides.take (axesOf l).length).zip ((s.shp.take (axesOf l).length).zip (s.shp0.take (axesOf l).length)) = axesOf l ∧
      s.shp.take (axesOf l).length = (axesOf l).map (fun a => a.2.1)) ∧
    ((∃ x ∈ l, (x.2 : Int) ≤ x.1) → setup i l = .err) := by
  intro l
  induction l with
  | nil => intro i; exact ⟨fun _ => ⟨_, rfl, rfl, rfl, rfl, by simp [axesOf], rfl, rfl, rfl, rfl, rfl⟩, fun ⟨x, hx, _⟩ => absurd hx (by simp)⟩
  | cons x l ih =>
    obtain ⟨s, d⟩ := x
    intro i
    obtain ⟨ih1, ih2⟩ := ih (i + 1)
    constructor
    · intro hv
      obtain ⟨r, e, h1, h2, h3, h4, h5, h6, h7, h8, h9⟩ := ih1 (fun x hx => hv x (by simp [hx]))
      have hd : s < (d : Int) := hv (s, d) (by simp)
      simp only [setup, e, Res.bind]
      rw [if_neg (by omega)]
      by_cases hs : s < 0
      · rw [if_pos hs]
        refine ⟨_, rfl, ?_, ?_, ?_, ?_, ?_, ?_, ?_, ?_, ?_⟩
        · simp only [List.map_cons, prod, List.foldr_cons] at h1 ⊢; rw [h1, Nat.mul_comm]
        · simp [startOf, hs, h2]
        · simp only [axesOf, if_pos hs, List.length_cons, h3]; omega
        · simp [axesOf, hs]
        · simp [h5]
        · simp [h6]
        · simp [h7]
        · simp only [axesOf, if_pos hs, List.length_cons, List.take_succ_cons, List.zip_cons_cons, h8]; rw [h1]
        · simp only [axesOf, if_pos hs, List.length_cons, List.take_succ_cons, List.map_cons, h9]
      · rw [if_neg hs]
        refine ⟨_, rfl, ?_, ?_, ?_, ?_, ?_, ?_, ?_, ?_, ?_⟩
        · simp only [List.map_cons, prod, List.foldr_cons] at h1 ⊢; rw [h1, Nat.mul_comm]
        · simp only [startOf, if_neg hs, h2, h1]; omega
        · by_cases ha : axesOf l = []
          · have := h4.2 ha
            simp [axesOf, hs, ha, this]
          · have : r.slice = true := by
              cases hsl : r.slice with
              | false => exact absurd (h4.1 hsl) ha
              | true => rfl
            simp only [axesOf, if_neg hs, if_neg ha, List.length_cons, this, if_true, h3]; omega
        · by_cases ha : axesOf l = []
          · simp [axesOf, hs, ha, h4]
          · simp [axesOf, hs, ha, h4]
        · simp [h5]
        · simp [h6]
        · simp [h7]
        · by_cases ha : axesOf l = []
          · simp [axesOf, hs, ha]
          · simp only [axesOf, if_neg hs, if_neg ha, List.length_cons, List.take_succ_cons, List.zip_cons_cons, h8]; rw [h1]
        · by_cases ha : axesOf l = []
          · simp [axesOf, hs, ha]
          · simp only [axesOf, if_neg hs, if_neg ha, List.length_cons, List.take_succ_cons, List.map_cons, h9]
    · rintro ⟨x, hx, hle⟩
      simp only [setup]
      by_cases hl : ∃ x ∈ l, (x.2 : Int) ≤ x.1
      · rw [ih2 hl]; rfl
      · have hall : ∀ x ∈ l, x.1 < (x.2 : Int) := fun x hx => by
          by_contra hc; exact hl ⟨x, hx, by omega⟩
        obtain ⟨r, e, _⟩ := ih1 hall
        rw [e]
        simp only [Res.bind]
        rcases List.mem_cons.1 hx with rfl | hx'
        · rw [if_pos hle]
        · exact absurd ⟨x, hx', hle⟩ hl

/-- The loop goes along the last axis. -/
theorem advance_last (pre : List (Nat × Nat × Nat)) (st sh k off : Nat) :
    advance (pre ++ [(st, sh, k + 2)]) off = (pre ++ [(st, sh, k + 1)], off + st, false) := by
  induction pre with
  | nil => simp [advance]
  | cons x pre ih =>
    obtain ⟨a, b, c⟩ := x
    simp only [List.cons_append, advance, ih]
    rfl

theorem walk_last : ∀ (n k off : Nat) (pre : List (Nat × Nat × Nat)) (st sh : Nat), n ≤ k →
    walk n (pre ++ [(st, sh, k)]) off = (List.range n).map (fun j => off + j * st) := by
  intro n
  induction n with
  | zero => intros; rfl
  | succ n ih =>
    intro k off pre st sh hk
    simp only [walk]
    rw [List.range_succ_eq_map]
    simp only [List.map_cons, Nat.zero_mul, Nat.add_zero, List.map_map, List.cons.injEq, true_and]
    cases n with
    | zero => rfl
    | succ n =>
      obtain ⟨k', rfl⟩ : ∃ k', k = k' + 2 := ⟨k - 2, by omega⟩
      rw [advance_last]
      simp only
      rw [ih (k' + 1) (off + st) pre st sh (by omega)]
      apply List.map_congr_left
      intro j _
      simp only [Function.comp_apply]
      rw [Nat.succ_mul]; omega

/-- The last axis of a selection is a sliced one. -/
theorem axesOf_last : ∀ (l : List (Int × Nat)), axesOf l ≠ [] → ∃ pre st e, axesOf l = pre ++ [(st, e, e)] := by
  intro l
  induction l with
  | nil => intro h; exact absurd rfl h
  | cons x l ih =>
    obtain ⟨s, d⟩ := x
    intro h
    simp only [axesOf] at h ⊢
    by_cases ha : axesOf l = []
    · by_cases hs : s < 0
      · rw [if_pos hs, ha]; exact ⟨[], _, _, rfl⟩
      · rw [if_neg hs, if_pos ha] at h; exact absurd rfl h
    · obtain ⟨pre, st, e, he⟩ := ih ha
      by_cases hs : s < 0
      · rw [if_pos hs, he]; exact ⟨_ :: pre, st, e, rfl⟩
      · rw [if_neg hs, if_neg ha, he]; exact ⟨_ :: pre, st, e, rfl⟩

/-- Sum of indices times strides. -/
def dot : List Nat → List (Nat × Nat × Nat) → Nat
  | i :: is, a :: as => i * a.1 + dot is as
  | _, _ => 0

/-- Where an element of the selection is. -/
theorem place_offset : ∀ (l : List (Int × Nat)) (t : List Nat), ValidIdx ((axesOf l).map fun a => a.2.1) t →
    rowMajor (l.map (·.2)) (place (l.map (·.1)) t) = startOf l + dot t (axesOf l) := by
  intro l
  induction l with
  | nil => intro t _; simp [rowMajor, startOf, dot, axesOf]
  | cons x l ih =>
    obtain ⟨s, d⟩ := x
    intro t ht
    simp only [axesOf] at ht ⊢
    simp only [List.map_cons, startOf]
    by_cases hs : s < 0
    · rw [if_pos hs] at ht ⊢
      cases ht with
      | @cons i _ is _ hi his =>
        simp only [place, if_pos hs, rowMajor, dot]
        rw [ih is his]; omega
    · rw [if_neg hs] at ht ⊢
      by_cases ha : axesOf l = []
      · rw [if_pos ha] at ht ⊢
        cases ht
        simp only [place, rowMajor, if_neg hs]
        rw [ih [] (by rw [ha]; exact List.Forall₂.nil), ha]
        simp only [dot]; omega
      · rw [if_neg ha] at ht ⊢
        cases ht with
        | @cons i _ is _ hi his =>
          simp only at hi
          have : i = 0 := by omega
          subst this
          simp only [place, if_neg hs, rowMajor, dot]
          rw [ih is his]; omega

theorem place_valid : ∀ (l : List (Int × Nat)) (t : List Nat), (∀ x ∈ l, x.1 < (x.2 : Int)) → ValidIdx ((axesOf l).map fun a => a.2.1) t →
    ValidIdx (l.map (·.2)) (place (l.map (·.1)) t) := by
  intro l
  induction l with
  | nil => intro t _ _; exact List.Forall₂.nil
  | cons x l ih =>
    obtain ⟨s, d⟩ := x
    intro t hv ht
    have hd : s < (d : Int) := hv (s, d) (by simp)
    have hv' := fun x hx => hv x (List.mem_cons_of_mem _ hx)
    simp only [axesOf] at ht
    by_cases hs : s < 0
    · rw [if_pos hs] at ht
      cases ht with
      | @cons i _ is _ hi his =>
        simp only [List.map_cons, place, if_pos hs]
        exact List.Forall₂.cons hi (ih is hv' his)
    · rw [if_neg hs] at ht
      by_cases ha : axesOf l = []
      · rw [if_pos ha] at ht
        cases ht
        simp only [List.map_cons, place]
        exact List.Forall₂.cons (by omega) (ih [] hv' (by rw [ha]; exact List.Forall₂.nil))
      · rw [if_neg ha] at ht
        cases ht with
        | @cons i _ is _ hi his =>
          simp only [List.map_cons, place, if_neg hs]
          exact List.Forall₂.cons (by omega) (ih is hv' his)

theorem place_inj : ∀ (l : List (Int × Nat)) (t t' : List Nat), ValidIdx ((axesOf l).map fun a => a.2.1) t →
    ValidIdx ((axesOf l).map fun a => a.2.1) t' → place (l.map (·.1)) t = place (l.map (·.1)) t' → t = t' := by
  intro l
  induction l with
  | nil => intro t t' h h' _; cases h; cases h'; rfl
  | cons x l ih =>
    obtain ⟨s, d⟩ := x
    intro t t' ht ht' he
    simp only [axesOf] at ht ht'
    by_cases hs : s < 0
    · rw [if_pos hs] at ht ht'
      cases ht with
      | @cons i _ is _ hi his =>
        cases ht' with
        | @cons i' _ is' _ hi' his' =>
          simp only [List.map_cons, place, if_pos hs, List.cons.injEq] at he
          rw [he.1, ih is is' his his' he.2]
    · rw [if_neg hs] at ht ht'
      by_cases ha : axesOf l = []
      · rw [if_pos ha] at ht ht'
        cases ht; cases ht'; rfl
      · rw [if_neg ha] at ht ht'
        cases ht with
        | @cons i _ is _ hi his =>
          cases ht' with
          | @cons i' _ is' _ hi' his' =>
            simp only [List.map_cons, place, List.cons.injEq] at he hi hi'
            rw [ih is is' his his' he.2, show i = i' by omega]

theorem prod_append (a b : List Nat) : prod (a ++ b) = prod a * prod b := by
  induction a with
  | nil => simp [prod]
  | cons x a ih => simp only [prod, List.cons_append, List.foldr_cons] at ih ⊢; rw [ih]; ring

/-- Indices into a shape of extents 1 but for the last one. -/
theorem ones_index : ∀ (pre : List Nat) (e : Nat) (t : List Nat), prod pre = 1 → ValidIdx (pre ++ [e]) t →
    ∃ j, j < e ∧ t = List.replicate pre.length 0 ++ [j] ∧ rowMajor (pre ++ [e]) t = j := by
  intro pre
  induction pre with
  | nil =>
    intro e t _ ht
    cases ht with
    | @cons i _ is _ hi his => cases his; exact ⟨i, hi, rfl, by simp [rowMajor, prod]⟩
  | cons d pre ih =>
    intro e t hp ht
    simp only [prod, List.foldr_cons] at hp
    have hd : d = 1 := Nat.eq_one_of_mul_eq_one_right hp
    cases ht with
    | @cons i _ is _ hi his =>
      obtain ⟨j, h1, h2, h3⟩ := ih e is (by rw [hd, Nat.one_mul] at hp; exact hp) his
      have : i = 0 := by omega
      subst this
      exact ⟨j, h1, by rw [h2]; rfl, by simp only [List.cons_append, rowMajor, h3]; omega⟩

theorem ones_index_mk : ∀ (pre : List Nat) (e j : Nat), prod pre = 1 → j < e → ValidIdx (pre ++ [e]) (List.replicate pre.length 0 ++ [j]) := by
  intro pre
  induction pre with
  | nil => intro e j _ hj; exact List.Forall₂.cons hj List.Forall₂.nil
  | cons d pre ih =>
    intro e j hp hj
    simp only [prod, List.foldr_cons] at hp
    have hd : d = 1 := Nat.eq_one_of_mul_eq_one_right hp
    exact List.Forall₂.cons (by omega) (ih e j (by rw [hd, Nat.one_mul] at hp; exact hp) hj)

theorem dot_ones (pre : List (Nat × Nat × Nat)) (a : Nat × Nat × Nat) (j : Nat) :
    dot (List.replicate pre.length 0 ++ [j]) (pre ++ [a]) = j * a.1 := by
  induction pre with
  | nil => simp [dot]
  | cons x pre ih => simp only [List.length_cons, List.replicate_succ, List.cons_append, dot, ih]; omega

theorem zip_fst_snd (sel : List Int) (dims : List Nat) (h : dims.length = sel.length) :
    (sel.zip dims).map (·.1) = sel ∧ (sel.zip dims).map (·.2) = dims := by
  constructor
  · rw [show (fun x : Int × Nat => x.1) = Prod.fst from rfl, List.map_fst_zip (Nat.le_of_eq h.symm)]
  · rw [show (fun x : Int × Nat => x.2) = Prod.snd from rfl, List.map_snd_zip (Nat.le_of_eq h)]

theorem selOk_zip {sel : List Int} {dims : List Nat} (h : List.Forall₂ (fun (s : Int) (d : Nat) => s < d) sel dims) :
    dims.length = sel.length ∧ ∀ x ∈ sel.zip dims, x.1 < (x.2 : Int) := by
  induction h with
  | nil => simp
  | cons h1 _ ih =>
    refine ⟨by simp [ih.1], ?_⟩
    intro x hx
    simp only [List.zip_cons_cons, List.mem_cons] at hx
    rcases hx with rfl | hx
    · exact h1
    · exact ih.2 x hx

/-- The offsets of a selection with one slice. -/
theorem selOffsets_one (dims : List Nat) (sel : List Int) (hok : SelOk sel dims) (h1 : OneSlice sel dims) :
    ∃ shape offs, selOffsets dims sel = .ok (shape, offs) ∧ (shape = none → selShape sel dims = []) ∧ (∀ s, shape = some s → s = selShape sel dims) ∧
      offs.length = prod (selShape sel dims) ∧ (∀ t, ValidIdx (selShape sel dims) t → offs[rowMajor (selShape sel dims) t]? = some (rowMajor dims (place sel t))) ∧
      (∀ o ∈ offs, o < prod dims ∧ ∃ t, ValidIdx (selShape sel dims) t ∧ rowMajor dims (place sel t) = o) ∧
      offs.Nodup := by
  obtain ⟨hlen, hall⟩ := selOk_zip hok.2
  obtain ⟨hz1, hz2⟩ := zip_fst_snd sel dims hlen
  obtain ⟨s, e, e1, e2, e3, e4, e5, e6, e7, e8, e9⟩ := (setup_spec (sel.zip dims) 0).1 hall
  have hshape := axesOf_shape (sel.zip dims)
  rw [hz1, hz2] at hshape
  have hpl := place_offset (sel.zip dims)
  rw [hz1, hz2, hshape] at hpl
  have hpv := fun t => place_valid (sel.zip dims) t hall
  rw [hz1, hz2, hshape] at hpv
  have key : ∀ offs : List Nat, offs.length = prod (selShape sel dims) →
      (∀ t, ValidIdx (selShape sel dims) t → offs[rowMajor (selShape sel dims) t]? = some (rowMajor dims (place sel t))) →
      (∀ o ∈ offs, o < prod dims ∧ ∃ t, ValidIdx (selShape sel dims) t ∧ rowMajor dims (place sel t) = o) := by
    intro offs hl hg o ho
    obtain ⟨i, hi, he⟩ := List.mem_iff_getElem.1 ho
    obtain ⟨t, ht, hti⟩ := rowMajor_surj (selShape sel dims) i (by omega)
    have := hg t ht
    rw [hti, List.getElem?_eq_getElem hi, he] at this
    injection this with this
    exact ⟨by rw [this]; exact rowMajor_lt _ _ (hpv t ht), t, ht, this.symm⟩
  simp only [selOffsets, if_neg (not_not.2 hlen), e, Res.bind]
  by_cases ha : axesOf (sel.zip dims) = []
  · rw [if_pos (by rw [e3, ha]; rfl)]
    have hnil : selShape sel dims = [] := by rw [← hshape, ha]; rfl
    have hg : ∀ t, ValidIdx (selShape sel dims) t → [s.offset][rowMajor (selShape sel dims) t]? = some (rowMajor dims (place sel t)) := by
      intro t ht
      rw [hpl t ht, ha, e2]
      rw [hnil] at ht ⊢
      cases ht
      simp [rowMajor, dot]
    refine ⟨none, [s.offset], rfl, fun _ => hnil, by simp, by rw [hnil]; rfl, hg, key _ (by rw [hnil]; rfl) hg, by simp⟩
  · have hr : s.rank ≠ 0 := by
      rw [e3]
      have : (axesOf (sel.zip dims)).length ≠ 0 := fun h => ha (List.eq_nil_of_length_eq_zero h)
      omega
    rw [if_neg hr]
    have er : s.rank = (axesOf (sel.zip dims)).length := by rw [e3]; omega
    rw [er, e8, e9, hshape, e2]
    obtain ⟨pre, st, ext, hax⟩ := axesOf_last _ ha
    have hsh : selShape sel dims = pre.map (fun a => a.2.1) ++ [ext] := by rw [← hshape, hax]; simp
    have hp1 : prod (pre.map (fun a => a.2.1)) = 1 := by
      have := h1
      unfold OneSlice at this
      rw [hsh, List.dropLast_concat] at this
      exact this
    have hprod : prod (selShape sel dims) = ext := by rw [hsh, prod_append, hp1]; simp [prod]
    have hwalk : walk (prod (selShape sel dims)) (axesOf (sel.zip dims)) (startOf (sel.zip dims)) =
        (List.range ext).map (fun j => startOf (sel.zip dims) + j * st) := by
      rw [hax, hprod, walk_last ext ext _ pre st ext (Nat.le_refl _)]
    rw [hwalk]
    have hg : ∀ t, ValidIdx (selShape sel dims) t →
        ((List.range ext).map (fun j => startOf (sel.zip dims) + j * st))[rowMajor (selShape sel dims) t]? = some (rowMajor dims (place sel t)) := by
      intro t ht
      rw [hpl t ht, hax]
      rw [hsh] at ht ⊢
      obtain ⟨j, hj, htj, hrj⟩ := ones_index _ ext t hp1 ht
      rw [hrj, htj]
      rw [show (pre.map (fun a : Nat × Nat × Nat => a.2.1)).length = pre.length by simp, dot_ones]
      simp [hj]
    have hl : ((List.range ext).map (fun j => startOf (sel.zip dims) + j * st)).length = prod (selShape sel dims) := by simp [hprod]
    refine ⟨some (selShape sel dims), _, rfl, by simp, by simp, hl, hg, key _ hl hg, ?_⟩
    rw [List.nodup_iff_injective_getElem]
    rintro ⟨a, ha'⟩ ⟨b, hb'⟩ hab
    simp only at hab
    rw [hl] at ha' hb'
    obtain ⟨ta, hta, hra⟩ := rowMajor_surj (selShape sel dims) a ha'
    obtain ⟨tb, htb, hrb⟩ := rowMajor_surj (selShape sel dims) b hb'
    have ga := hg ta hta
    have gb := hg tb htb
    rw [hra, List.getElem?_eq_getElem (by rw [hl]; exact ha')] at ga
    rw [hrb, List.getElem?_eq_getElem (by rw [hl]; exact hb')] at gb
    injection ga with ga
    injection gb with gb
    have heq : rowMajor dims (place sel ta) = rowMajor dims (place sel tb) := by rw [← ga, ← gb]; exact hab
    have hpp := rowMajor_inj dims _ _ (hpv ta hta) (hpv tb htb) heq
    have hpi := place_inj (sel.zip dims) ta tb
    rw [hz1, hshape] at hpi
    have := hpi hta htb hpp
    subst this
    simp only [Fin.mk.injEq]
    omega

/-! ## More than one slice -/

theorem advance_append : ∀ (l suf : List (Nat × Nat × Nat)) (off : Nat),
    advance (l ++ suf) off = if (advance suf off).2.2 then ((advance l (advance suf off).2.1).1 ++ (advance suf off).1, (advance l (advance suf off).2.1).2)
      else (l ++ (advance suf off).1, (advance suf off).2.1, false) := by
  intro l
  induction l with
  | nil =>
    intro suf off
    cases h : (advance suf off).2.2 with
    | true => simp only [List.nil_append, advance, if_true]; rw [← h]
    | false => simp only [List.nil_append, Bool.false_eq_true, if_false]; rw [← h]
  | cons x l ih =>
    obtain ⟨st, sh, s0⟩ := x
    intro suf off
    simp only [List.cons_append, advance, ih suf off]
    cases h : (advance suf off).2.2 with
    | false => simp
    | true =>
      simp only [if_true]
      generalize advance l (advance suf off).2.1 = r
      cases hr : r.2.2 with
      | false => simp
      | true =>
        simp only [Bool.not_true, Bool.false_eq_true, if_false]
        by_cases h0 : s0 ≠ 0
        · rw [if_pos h0, if_pos h0]
          by_cases h1 : s0 - 1 ≠ 0
          · rw [if_pos h1, if_pos h1]; rfl
          · rw [if_neg h1, if_neg h1]; rfl
        · rw [if_neg h0, if_neg h0]; rfl

/-- An axis: sliced or not. -/
def AxOk (a : Nat × Nat × Nat) : Prop := (a.2.2 = a.2.1 ∧ 0 < a.2.1) ∨ (a.2.1 = 1 ∧ a.2.2 = 0)

theorem advance_ones : ∀ (l : List (Nat × Nat × Nat)) (off : Nat), (∀ a ∈ l, AxOk a ∧ a.2.1 = 1) →
    (advance l off).2.2 = true ∧ off ≤ (advance l off).2.1 := by
  intro l
  induction l with
  | nil => intro off _; exact ⟨rfl, Nat.le_refl _⟩
  | cons x l ih =>
    obtain ⟨st, sh, s0⟩ := x
    intro off h
    obtain ⟨h1, h2⟩ := ih off (fun a ha => h a (by simp [ha]))
    obtain ⟨hx, hs⟩ := h (st, sh, s0) (by simp)
    simp only [advance, h1, Bool.not_true, Bool.false_eq_true, if_false]
    unfold AxOk at hx
    simp only at hx hs
    by_cases h0 : s0 ≠ 0
    · rw [if_pos h0, if_neg (by omega)]; exact ⟨rfl, by simp only; omega⟩
    · rw [if_neg h0]; exact ⟨rfl, h2⟩

theorem prod_ones : ∀ (l : List (Nat × Nat × Nat)), (∀ a ∈ l, a.2.1 = 1) → prod (l.map fun a => a.2.1) = 1 := by
  intro l
  induction l with
  | nil => intro _; rfl
  | cons x l ih =>
    intro h
    simp only [List.map_cons, prod, List.foldr_cons] at ih ⊢
    rw [ih (fun a ha => h a (by simp [ha])), h x (by simp)]

theorem last_wide : ∀ (l : List (Nat × Nat × Nat)), (∀ a ∈ l, AxOk a) → prod (l.map fun a => a.2.1) ≠ 1 →
    ∃ p1 sa ea p2, l = p1 ++ (sa, ea, ea) :: p2 ∧ 2 ≤ ea ∧ ∀ a ∈ p2, AxOk a ∧ a.2.1 = 1 := by
  intro l
  induction l with
  | nil => intro _ h; exact absurd rfl h
  | cons x l ih =>
    intro hok hne
    by_cases hl : prod (l.map fun a => a.2.1) = 1
    · have hall : ∀ a ∈ l, a.2.1 = 1 := by
        clear ih hne hok
        induction l with
        | nil => intro a ha; cases ha
        | cons y l ih2 =>
          simp only [List.map_cons, prod, List.foldr_cons] at hl ih2
          have h1 : y.2.1 = 1 := Nat.eq_one_of_mul_eq_one_right hl
          intro a ha
          rcases List.mem_cons.1 ha with rfl | ha
          · exact h1
          · exact ih2 (by rw [h1, Nat.one_mul] at hl; exact hl) a ha
      obtain ⟨st, sh, s0⟩ := x
      have hx : AxOk (st, sh, s0) := hok _ (by simp)
      have hsh : sh ≠ 1 := by
        intro h
        apply hne
        apply prod_ones
        intro a ha
        rcases List.mem_cons.1 ha with rfl | ha
        · exact h
        · exact hall a ha
      unfold AxOk at hx
      simp only at hx
      rcases hx with ⟨h1, h2⟩ | ⟨h1, _⟩
      · subst h1
        exact ⟨[], st, s0, l, rfl, by omega, fun a ha => ⟨hok a (by simp [ha]), hall a ha⟩⟩
      · exact absurd h1 hsh
    · obtain ⟨p1, sa, ea, p2, h1, h2, h3⟩ := ih (fun a ha => hok a (by simp [ha])) hl
      exact ⟨x :: p1, sa, ea, p2, by rw [h1]; rfl, h2, h3⟩

theorem walk_wrap : ∀ (k n off : Nat) (pre : List (Nat × Nat × Nat)) (st sh : Nat), k + 1 < n →
    (walk n (pre ++ [(st, sh, k + 1)]) off)[k + 1]? = some (advance (pre ++ [(st, sh, 1)]) (off + k * st)).2.1 := by
  intro k
  induction k with
  | zero =>
    intro n off pre st sh hn
    obtain ⟨n', rfl⟩ : ∃ n', n = n' + 2 := ⟨n - 2, by omega⟩
    simp only [walk, List.getElem?_cons_succ, List.getElem?_cons_zero, Nat.zero_add, Nat.zero_mul, Nat.add_zero]
  | succ k ih =>
    intro n off pre st sh hn
    obtain ⟨n', rfl⟩ : ∃ n', n = n' + 1 := ⟨n - 1, by omega⟩
    simp only [walk, List.getElem?_cons_succ]
    rw [advance_last]
    simp only
    rw [ih n' (off + st) pre st sh (by omega)]
    rw [Nat.succ_mul, show off + st + k * st = off + (k * st + st) by omega]

theorem axesOf_ok : ∀ (l : List (Int × Nat)), (∀ x ∈ axesOf l, 0 < x.2.1) → ∀ a ∈ axesOf l, AxOk a := by
  intro l
  induction l with
  | nil => intro _ a ha; cases ha
  | cons x l ih =>
    obtain ⟨s, d⟩ := x
    intro hp a ha
    simp only [axesOf] at ha hp
    by_cases hs : s < 0
    · rw [if_pos hs] at ha hp
      rcases List.mem_cons.1 ha with rfl | ha
      · exact Or.inl ⟨rfl, hp _ (by simp)⟩
      · exact ih (fun x hx => hp x (by simp [hx])) a ha
    · rw [if_neg hs] at ha hp
      by_cases h0 : axesOf l = []
      · rw [if_pos h0] at ha; cases ha
      · rw [if_neg h0] at ha hp
        rcases List.mem_cons.1 ha with rfl | ha
        · exact Or.inr ⟨rfl, rfl⟩
        · exact ih (fun x hx => hp x (by simp [hx])) a ha

theorem prod_pos_iff : ∀ (l : List Nat), prod l ≠ 0 ↔ ∀ x ∈ l, 0 < x := by
  intro l
  induction l with
  | nil => simp [prod]
  | cons x l ih =>
    simp only [prod, List.foldr_cons, List.mem_cons, forall_eq_or_imp] at ih ⊢
    rw [← ih]
    constructor
    · intro h; exact ⟨Nat.pos_of_ne_zero fun h0 => h (by rw [h0, Nat.zero_mul]), fun h0 => h (by rw [h0, Nat.mul_zero])⟩
    · rintro ⟨h1, h2⟩; exact Nat.mul_ne_zero (by omega) h2

theorem strides_pos : ∀ (l : List (Int × Nat)), (∀ x ∈ l, 0 < x.2) → ∀ a ∈ axesOf l, 0 < a.1 := by
  intro l
  induction l with
  | nil => intro _ a ha; cases ha
  | cons x l ih =>
    obtain ⟨s, d⟩ := x
    intro hp a ha
    have hpr : 0 < prod (l.map (·.2)) := Nat.pos_of_ne_zero ((prod_pos_iff _).2 (by
      intro y hy
      obtain ⟨z, hz, rfl⟩ := List.mem_map.1 hy
      exact hp z (by simp [hz])))
    simp only [axesOf] at ha
    by_cases hs : s < 0
    · rw [if_pos hs] at ha
      rcases List.mem_cons.1 ha with rfl | ha
      · exact hpr
      · exact ih (fun x hx => hp x (by simp [hx])) a ha
    · rw [if_neg hs] at ha
      by_cases h0 : axesOf l = []
      · rw [if_pos h0] at ha; cases ha
      · rw [if_neg h0] at ha
        rcases List.mem_cons.1 ha with rfl | ha
        · exact hpr
        · exact ih (fun x hx => hp x (by simp [hx])) a ha

theorem zeros_valid : ∀ (l : List Nat), (∀ x ∈ l, 0 < x) → ValidIdx l (List.replicate l.length 0) := by
  intro l
  induction l with
  | nil => intro _; exact List.Forall₂.nil
  | cons x l ih => intro h; exact List.Forall₂.cons (h x (by simp)) (ih fun y hy => h y (by simp [hy]))

theorem validIdx_append {d d' t t' : List Nat} (h : ValidIdx d t) (h' : ValidIdx d' t') : ValidIdx (d ++ d') (t ++ t') := by
  unfold ValidIdx at h
  induction h with
  | nil => exact h'
  | cons h1 _ ih => exact List.Forall₂.cons h1 ih

theorem rowMajor_zeros : ∀ (l : List Nat), rowMajor l (List.replicate l.length 0) = 0 := by
  intro l
  induction l with
  | nil => rfl
  | cons x l ih => simp only [List.length_cons, List.replicate_succ, rowMajor, ih]; omega

theorem rowMajor_zeros_append : ∀ (l d t : List Nat), rowMajor (l ++ d) (List.replicate l.length 0 ++ t) = rowMajor d t := by
  intro l
  induction l with
  | nil => intro d t; rfl
  | cons x l ih => intro d t; simp only [List.length_cons, List.replicate_succ, List.cons_append, rowMajor, ih]; omega

theorem dot_zeros_append : ∀ (l d : List (Nat × Nat × Nat)) (t : List Nat), dot (List.replicate l.length 0 ++ t) (l ++ d) = dot t d := by
  intro l
  induction l with
  | nil => intro d t; rfl
  | cons x l ih => intro d t; simp only [List.length_cons, List.replicate_succ, List.cons_append, dot, ih]; omega

theorem dot_zeros : ∀ (l : List (Nat × Nat × Nat)), dot (List.replicate l.length 0) l = 0 := by
  intro l
  induction l with
  | nil => rfl
  | cons x l ih => simp only [List.length_cons, List.replicate_succ, dot, ih]; omega

/-- With more than one slice some element is looked for in a wrong place. -/
theorem selOffsets_wrong (dims : List Nat) (sel : List Int) (hok : SelOk sel dims) (hpos : prod dims ≠ 0) (h1 : ¬ OneSlice sel dims) :
    ∃ shape offs t, selOffsets dims sel = .ok (shape, offs) ∧ ValidIdx (selShape sel dims) t ∧
      ∃ k, offs[rowMajor (selShape sel dims) t]? = some k ∧ k ≠ rowMajor dims (place sel t) := by
  obtain ⟨hlen, hall⟩ := selOk_zip hok.2
  obtain ⟨hz1, hz2⟩ := zip_fst_snd sel dims hlen
  obtain ⟨s, e, e1, e2, e3, e4, e5, e6, e7, e8, e9⟩ := (setup_spec (sel.zip dims) 0).1 hall
  have hshape := axesOf_shape (sel.zip dims)
  rw [hz1, hz2] at hshape
  have hpl := place_offset (sel.zip dims)
  rw [hz1, hz2, hshape] at hpl
  have hdpos : ∀ x ∈ sel.zip dims, 0 < x.2 := by
    intro x hx
    exact (prod_pos_iff dims).1 hpos x.2 (by rw [← hz2]; exact List.mem_map.2 ⟨x, hx, rfl⟩)
  have hst := strides_pos _ hdpos
  have hshpos : ∀ (l : List (Int × Nat)), (∀ x ∈ l, 0 < x.2) → ∀ a ∈ axesOf l, 0 < a.2.1 := by
    intro l
    induction l with
    | nil => intro _ a ha; cases ha
    | cons x l ih =>
      obtain ⟨s, d⟩ := x
      intro hp a ha
      simp only [axesOf] at ha
      by_cases hs : s < 0
      · rw [if_pos hs] at ha
        rcases List.mem_cons.1 ha with rfl | ha
        · exact hp (s, d) (by simp)
        · exact ih (fun x hx => hp x (by simp [hx])) a ha
      · rw [if_neg hs] at ha
        by_cases h0 : axesOf l = []
        · rw [if_pos h0] at ha; cases ha
        · rw [if_neg h0] at ha
          rcases List.mem_cons.1 ha with rfl | ha
          · exact Nat.one_pos
          · exact ih (fun x hx => hp x (by simp [hx])) a ha
  have hax := hshpos _ hdpos
  have hokA := axesOf_ok _ hax
  simp only [selOffsets, if_neg (not_not.2 hlen), e, Res.bind]
  have ha : axesOf (sel.zip dims) ≠ [] := by
    intro ha
    apply h1
    unfold OneSlice
    rw [← hshape, ha]; rfl
  have hr : s.rank ≠ 0 := by
    rw [e3]
    have : (axesOf (sel.zip dims)).length ≠ 0 := fun h => ha (List.eq_nil_of_length_eq_zero h)
    omega
  rw [if_neg hr]
  have er : s.rank = (axesOf (sel.zip dims)).length := by rw [e3]; omega
  rw [er, e8, e9, hshape, e2]
  obtain ⟨pre, st, ext, hx⟩ := axesOf_last _ ha
  have hsh : selShape sel dims = pre.map (fun a => a.2.1) ++ [ext] := by rw [← hshape, hx]; simp
  have hp1 : prod (pre.map (fun a => a.2.1)) ≠ 1 := by
    intro h; apply h1; unfold OneSlice; rw [hsh, List.dropLast_concat]; exact h
  obtain ⟨p1, sa, ea, p2, hpre, hea, hp2⟩ := last_wide pre (fun a ha' => hokA a (by rw [hx]; simp [ha'])) hp1
  have hext : 0 < ext := hax (st, ext, ext) (by rw [hx]; simp)
  have hstp : 0 < st := hst (st, ext, ext) (by rw [hx]; simp)
  have hones := prod_ones p2 (fun a ha' => (hp2 a ha').2)
  -- the index
  have hposI : ∀ x ∈ p1.map (fun a => a.2.1), 0 < x := by
    intro x hxm
    obtain ⟨a, ha', rfl⟩ := List.mem_map.1 hxm
    exact hax a (by rw [hx, hpre]; simp [ha'])
  have hposI2 : ∀ x ∈ p2.map (fun a => a.2.1) ++ [ext], 0 < x := by
    intro x hxm
    rcases List.mem_append.1 hxm with hxm | hxm
    · obtain ⟨a, ha', rfl⟩ := List.mem_map.1 hxm
      exact hax a (by rw [hx, hpre]; simp [ha'])
    · simp only [List.mem_singleton] at hxm; subst hxm; exact hext
  have hsh2 : selShape sel dims = p1.map (fun a => a.2.1) ++ (ea :: (p2.map (fun a => a.2.1) ++ [ext])) := by rw [hsh, hpre]; simp
  refine ⟨_, _, List.replicate (p1.map (fun a => a.2.1)).length 0 ++ (1 :: List.replicate (p2.map (fun a => a.2.1) ++ [ext]).length 0), rfl, ?_, ?_⟩
  · rw [hsh2]
    exact validIdx_append (zeros_valid _ hposI) (List.Forall₂.cons (by omega) (zeros_valid _ hposI2))
  · have hv : ValidIdx (selShape sel dims) (List.replicate (p1.map (fun a => a.2.1)).length 0 ++ (1 :: List.replicate (p2.map (fun a => a.2.1) ++ [ext]).length 0)) := by
      rw [hsh2]
      exact validIdx_append (zeros_valid _ hposI) (List.Forall₂.cons (by omega) (zeros_valid _ hposI2))
    rw [hpl _ hv]
    have hrm : rowMajor (selShape sel dims) (List.replicate (p1.map (fun a => a.2.1)).length 0 ++ (1 :: List.replicate (p2.map (fun a => a.2.1) ++ [ext]).length 0)) = ext := by
      rw [hsh2, rowMajor_zeros_append]
      simp only [rowMajor]
      rw [rowMajor_zeros, prod_append, hones]; simp [prod]
    have hdot : dot (List.replicate (p1.map (fun a => a.2.1)).length 0 ++ (1 :: List.replicate (p2.map (fun a => a.2.1) ++ [ext]).length 0)) (axesOf (sel.zip dims)) = sa := by
      rw [hx, hpre]
      rw [show (p1.map (fun a : Nat × Nat × Nat => a.2.1)).length = p1.length by simp]
      rw [List.append_assoc, dot_zeros_append]
      simp only [List.cons_append, dot]
      rw [show (p2.map (fun a : Nat × Nat × Nat => a.2.1) ++ [ext]).length = (p2 ++ [(st, ext, ext)]).length by simp, dot_zeros]
      omega
    rw [hrm, hdot]
    obtain ⟨k, rfl⟩ : ∃ k, ext = k + 1 := ⟨ext - 1, by omega⟩
    have hlt : k + 1 < prod (selShape sel dims) := by
      have := rowMajor_lt _ _ hv
      omega
    rw [show axesOf (sel.zip dims) = pre ++ [(st, k + 1, k + 1)] from hx]
    rw [walk_wrap k _ _ pre st (k + 1) hlt]
    refine ⟨_, rfl, ?_⟩
    rw [advance_append pre [(st, k + 1, 1)]]
    have hs1 : advance [(st, k + 1, 1)] (startOf (sel.zip dims) + k * st) = ([(st, k + 1, k + 1)], startOf (sel.zip dims) + k * st + st, true) := by
      simp [advance]
    rw [hs1]
    simp only [if_true]
    rw [hpre, advance_append p1 ((sa, ea, ea) :: p2)]
    obtain ⟨q1, q2⟩ := advance_ones p2 (startOf (sel.zip dims) + k * st + st) hp2
    have hs2 : advance ((sa, ea, ea) :: p2) (startOf (sel.zip dims) + k * st + st) =
        ((sa, ea, ea - 1) :: (advance p2 (startOf (sel.zip dims) + k * st + st)).1, (advance p2 (startOf (sel.zip dims) + k * st + st)).2.1 + sa, false) := by
      simp only [advance, q1, Bool.not_true, Bool.false_eq_true, if_false]
      rw [if_pos (by omega), if_pos (by omega)]
    rw [hs2]
    simp only [Bool.false_eq_true, if_false]
    omega

/-! ## Pasting -/

theorem putAll_spec : ∀ (l : List (Nat × P)) (r : TRes P), (∀ x ∈ l, x.1 < r.planes.length) →
    ∃ r', putAll l r = .ok r' ∧ r'.dims = r.dims ∧ r'.stored = r.stored ∧ r'.planes.length = r.planes.length ∧
      (∀ (i k : Nat) (p : P), l[i]? = some (k, p) → (∀ (j : Nat) (q : P), i < j → l[j]? ≠ some (k, q)) → r'.planes[k]? = some p) ∧
      ∀ k : Nat, (∀ p, (k, p) ∉ l) → r'.planes[k]? = r.planes[k]? := by
  intro l
  induction l with
  | nil => intro r _; exact ⟨r, rfl, rfl, rfl, rfl, by simp, by simp⟩
  | cons x l ih =>
    obtain ⟨i, p⟩ := x
    intro r h
    have hi : i < r.planes.length := h (i, p) (by simp)
    obtain ⟨r', h1, h2, h3, h4, h5, h6⟩ := ih { r with planes := r.planes.set i p } (by
      intro x hx; simp only [List.length_set]; exact h x (by simp [hx]))
    refine ⟨r', ?_, h2, h3, by rw [h4]; simp, ?_, ?_⟩
    · simp only [putAll, putPlane]
      rw [if_neg (by omega), if_neg (by omega)]
      exact h1
    · intro a k q ha hlast
      cases a with
      | zero =>
        simp only [List.getElem?_cons_zero, Option.some.injEq, Prod.mk.injEq] at ha
        obtain ⟨rfl, rfl⟩ := ha
        rw [h6 i (by
          intro q hq
          obtain ⟨j, hj, he⟩ := List.mem_iff_getElem.1 hq
          exact hlast (j + 1) q (by omega) (by rw [List.getElem?_cons_succ, List.getElem?_eq_getElem hj, he]))]
        simp [hi]
      | succ a =>
        rw [List.getElem?_cons_succ] at ha
        exact h5 a k q ha (fun j q' hj hq => hlast (j + 1) q' (by omega) (by rw [List.getElem?_cons_succ]; exact hq))
    · intro k hk
      rw [h6 k (fun q hq => hk q (by simp [hq]))]
      have : k ≠ i := fun hc => hk p (by simp [hc])
      simp [this.symm]

/-- Places without repetition. -/
theorem putAll_nodup (ks : List Nat) (ps : List P) (r : TRes P) (hl : ks.length = ps.length) (hnd : ks.Nodup) (hk : ∀ k ∈ ks, k < r.planes.length) :
    ∃ r', putAll (ks.zip ps) r = .ok r' ∧ r'.dims = r.dims ∧ r'.stored = r.stored ∧ r'.planes.length = r.planes.length ∧
      (∀ (i k : Nat), ks[i]? = some k → r'.planes[k]? = ps[i]?) ∧ ∀ k, k ∉ ks → r'.planes[k]? = r.planes[k]? := by
  obtain ⟨r', h1, h2, h3, h4, h5, h6⟩ := putAll_spec (ks.zip ps) r (fun x hx => hk x.1 (List.of_mem_zip hx).1)
  refine ⟨r', h1, h2, h3, h4, ?_, fun k hk' => h6 k (fun p hp => hk' (List.of_mem_zip hp).1)⟩
  intro i k hi
  have hi' : i < ks.length := by
    by_contra hc
    rw [List.getElem?_eq_none (by omega)] at hi; cases hi
  have hp : ps[i]? = some (ps[i]'(by omega)) := List.getElem?_eq_getElem _
  rw [hp]
  refine h5 i k _ (by rw [List.getElem?_zip_eq_some]; exact ⟨hi, hp⟩) ?_
  intro j q hij hq
  rw [List.getElem?_zip_eq_some] at hq
  have hj := hq.1
  rw [List.getElem?_eq_getElem hi'] at hi
  have hj' : j < ks.length := by
    by_contra hc
    rw [List.getElem?_eq_none (by omega)] at hj; cases hj
  rw [List.getElem?_eq_getElem hj'] at hj
  injection hi with hi
  injection hj with hj
  have := (List.Nodup.getElem_inj_iff hnd).1 (hi.trans hj.symm)
  omega

/-! ## Composing -/

theorem copyPlanes_spec (o : Ops P) : ∀ (ps : List P) (s : CSt P) (pre rest : List P), s.res.planes = pre ++ rest → s.ires = pre.length →
    copyPlanes o ps s = .ok ⟨{ s.res with planes := pre ++ ps ++ rest.drop ps.length }, s.ires + ps.length, s.nfails + ps.countP o.isFail,
      s.nmissing + ps.countP (fun p => !o.isFail p && o.isEmpty p)⟩ := by
  intro ps
  induction ps with
  | nil => intro s pre rest h1 h2; simp [copyPlanes, ← h1]
  | cons p ps ih =>
    intro s pre rest h1 h2
    have hput : putPlane s.res s.ires p = .ok { s.res with planes := (pre ++ [p]) ++ rest.drop 1 } := by
      unfold putPlane
      rw [h1, h2]
      by_cases hr : rest = []
      · subst hr; simp
      · have : rest.length ≠ 0 := fun h => hr (List.eq_nil_of_length_eq_zero h)
        rw [if_neg (by simp; omega), if_neg (by simp; omega)]
        cases rest with
        | nil => exact absurd rfl hr
        | cons x rest => simp
    simp only [copyPlanes, hput, Res.bind]
    rw [ih _ (pre ++ [p]) (rest.drop 1) rfl (by simp [h2])]
    simp only [List.countP_cons, List.length_cons, List.drop_drop, List.append_assoc, List.cons_append, List.nil_append]
    congr 1
    cases hf : o.isFail p <;> cases he : o.isEmpty p <;> simp <;> refine ⟨?_, ?_⟩ <;> omega

theorem repeatPlane_spec (p : P) : ∀ (n : Nat) (s : CSt P) (pre rest : List P), s.res.planes = pre ++ rest → s.ires = pre.length →
    repeatPlane p n s = .ok ⟨{ s.res with planes := pre ++ List.replicate n p ++ rest.drop n }, s.ires + n, s.nfails, s.nmissing⟩ := by
  intro n
  induction n with
  | zero => intro s pre rest h1 h2; simp [repeatPlane, ← h1]
  | succ n ih =>
    intro s pre rest h1 h2
    have hput : putPlane s.res s.ires p = .ok { s.res with planes := (pre ++ [p]) ++ rest.drop 1 } := by
      unfold putPlane
      rw [h1, h2]
      by_cases hr : rest = []
      · subst hr; simp
      · have : rest.length ≠ 0 := fun h => hr (List.eq_nil_of_length_eq_zero h)
        rw [if_neg (by simp; omega), if_neg (by simp; omega)]
        cases rest with
        | nil => exact absurd rfl hr
        | cons x rest => simp
    simp only [repeatPlane, hput, Res.bind]
    rw [ih _ (pre ++ [p]) (rest.drop 1) rfl (by simp [h2])]
    simp only [List.drop_drop, List.append_assoc, List.cons_append, List.nil_append, List.replicate_succ]
    congr 1
    simp only [CSt.mk.injEq, and_true]
    refine ⟨?_, by omega⟩
    rw [Nat.add_comm 1]

theorem appendLoop_spec (o : Ops P) : ∀ (ch : List (TRes P)) (s : CSt P) (pre rest : List P), s.res.planes = pre ++ rest → s.ires = pre.length →
    childLoop (fun c s => copyPlanes o c.planes s) ch s = .ok ⟨{ s.res with planes := pre ++ ch.flatMap (·.planes) ++ rest.drop (ch.flatMap (·.planes)).length },
      s.ires + (ch.flatMap (·.planes)).length, s.nfails + (ch.flatMap (·.planes)).countP o.isFail,
      s.nmissing + (ch.flatMap (·.planes)).countP (fun p => !o.isFail p && o.isEmpty p)⟩ := by
  intro ch
  induction ch with
  | nil => intro s pre rest h1 h2; simp [childLoop, ← h1]
  | cons c ch ih =>
    intro s pre rest h1 h2
    simp only [childLoop, copyPlanes_spec o c.planes s pre rest h1 h2, Res.bind]
    rw [ih _ (pre ++ c.planes) (rest.drop c.planes.length) rfl (by simp [h2])]
    simp only [List.flatMap_cons, List.countP_append, List.length_append, List.drop_drop, List.append_assoc]
    congr 1
    simp only [CSt.mk.injEq, true_and]
    omega

/-- Number of failures and of empty planes a child counts for in tensor mode. -/
def tally (o : Ops P) (n : Nat) (c : TRes P) : Nat × Nat :=
  if c.planes.length = n then (c.planes.countP o.isFail, c.planes.countP (fun p => !o.isFail p && o.isEmpty p))
  else match c.planes with
    | [] => (0, n)
    | p :: _ => (if o.isFail p then n else 0, 0)

theorem tensorChild_spec (o : Ops P) (n : Nat) (c : TRes P) (hc : c.planes.length = n ∨ c.planes.length < 2) (s : CSt P) (pre rest : List P)
    (h1 : s.res.planes = pre ++ rest) (h2 : s.ires = pre.length) :
    tensorChild o n c s = .ok ⟨{ s.res with planes := pre ++ spread o n c ++ rest.drop n }, s.ires + n, s.nfails + (tally o n c).1, s.nmissing + (tally o n c).2⟩ := by
  unfold tensorChild spread tally
  by_cases hn : c.planes.length = n
  · rw [if_pos hn, if_pos hn, if_pos hn, copyPlanes_spec o c.planes s pre rest h1 h2, hn]
  · rw [if_neg hn, if_neg hn, if_neg hn]
    rcases hc with hc | hc
    · exact absurd hc hn
    · cases hp : c.planes with
      | nil =>
        simp only
        rw [repeatPlane_spec o.new n { s with nmissing := s.nmissing + n } pre rest h1 h2]
        rfl
      | cons p l =>
        cases l with
        | cons q l => rw [hp] at hc; simp only [List.length_cons] at hc; omega
        | nil =>
          simp only
          rw [repeatPlane_spec p n { s with nfails := if o.isFail p then s.nfails + n else s.nfails } pre rest h1 h2]
          cases hf : o.isFail p <;> rfl

theorem tensorLoop_spec (o : Ops P) (n : Nat) : ∀ (ch : List (TRes P)), (∀ c ∈ ch, c.planes.length = n ∨ c.planes.length < 2) →
    ∀ (s : CSt P) (pre rest : List P), s.res.planes = pre ++ rest → s.ires = pre.length →
    childLoop (tensorChild o n) ch s = .ok ⟨{ s.res with planes := pre ++ ch.flatMap (spread o n) ++ rest.drop (ch.length * n) },
      s.ires + ch.length * n, s.nfails + (ch.map fun c => (tally o n c).1).sum, s.nmissing + (ch.map fun c => (tally o n c).2).sum⟩ := by
  intro ch
  induction ch with
  | nil => intro _ s pre rest h1 h2; simp [childLoop, ← h1]
  | cons c ch ih =>
    intro hc s pre rest h1 h2
    have hl : (spread o n c).length = n := by
      unfold spread; split
      · assumption
      · simp
    simp only [childLoop, tensorChild_spec o n c (hc c (by simp)) s pre rest h1 h2, Res.bind]
    rw [ih (fun c' h' => hc c' (by simp [h'])) _ (pre ++ spread o n c) (rest.drop n) rfl (by simp [h2, hl])]
    simp only [List.flatMap_cons, List.length_cons, List.map_cons, List.sum_cons, List.drop_drop, List.append_assoc, Nat.succ_mul]
    congr 1
    simp only [CSt.mk.injEq]
    refine ⟨?_, by omega, by omega, by omega⟩
    rw [Nat.add_comm n]

theorem commonDims_spec : ∀ (ch : List (TRes P)) (d : List Nat) (n : Nat), (∀ c ∈ ch, 2 ≤ c.planes.length → c.dims ≠ []) →
    (d ≠ [] → (∀ c ∈ ch, 2 ≤ c.planes.length → c.dims = d) → commonDims ch d n = .ok (d, n)) ∧
    (d ≠ [] → (∃ c ∈ ch, 2 ≤ c.planes.length ∧ c.dims ≠ d) → commonDims ch d n = .err) ∧
    (d = [] → (∀ c ∈ ch, c.planes.length < 2) → commonDims ch d n = .ok ([], if ch = [] then n else 1)) ∧
    (d = [] → ∀ d', (∀ c ∈ ch, 2 ≤ c.planes.length → c.dims = d') → (∃ c ∈ ch, 2 ≤ c.planes.length) → commonDims ch d n = .ok (d', prod d')) ∧
    (d = [] → (∃ c ∈ ch, ∃ c' ∈ ch, 2 ≤ c.planes.length ∧ 2 ≤ c'.planes.length ∧ c.dims ≠ c'.dims) → commonDims ch d n = .err) := by
  intro ch
  induction ch with
  | nil =>
    intro d n _
    refine ⟨fun _ _ => rfl, fun _ ⟨c, hc, _⟩ => (by cases hc), fun h _ => (by rw [h]; rfl), fun _ d' _ ⟨c, hc, _⟩ => (by cases hc), fun _ ⟨c, hc, _⟩ => (by cases hc)⟩
  | cons c ch ih =>
    intro d n hw
    have hw' := fun c' h' => hw c' (List.mem_cons_of_mem _ h')
    simp only [commonDims]
    by_cases hc : c.planes.length < 2
    · simp only [if_pos hc]
      refine ⟨?_, ?_, ?_, ?_, ?_⟩
      · intro hd h
        rw [if_neg hd]
        exact (ih d n hw').1 hd (fun c' h' => h c' (List.mem_cons_of_mem _ h'))
      · rintro hd ⟨c', h', h2, h3⟩
        rw [if_neg hd]
        rcases List.mem_cons.1 h' with rfl | h'
        · omega
        · exact (ih d n hw').2.1 hd ⟨c', h', h2, h3⟩
      · intro hd h
        rw [if_pos hd, (ih d 1 hw').2.2.1 hd (fun c' h' => h c' (List.mem_cons_of_mem _ h'))]
        simp
      · rintro hd d' h ⟨c', h', h2⟩
        rw [if_pos hd]
        rcases List.mem_cons.1 h' with rfl | h'
        · omega
        · exact (ih d 1 hw').2.2.2.1 hd d' (fun c'' h'' => h c'' (List.mem_cons_of_mem _ h'')) ⟨c', h', h2⟩
      · rintro hd ⟨a, ha, b, hb, h2, h3, h4⟩
        rw [if_pos hd]
        rcases List.mem_cons.1 ha with rfl | ha
        · omega
        · rcases List.mem_cons.1 hb with rfl | hb
          · omega
          · exact (ih d 1 hw').2.2.2.2 hd ⟨a, ha, b, hb, h2, h3, h4⟩
    · simp only [if_neg hc]
      have hcd : c.dims ≠ [] := hw c (by simp) (by omega)
      refine ⟨?_, ?_, ?_, ?_, ?_⟩
      · intro hd h
        rw [if_neg hd, if_neg (not_not.2 (h c (by simp) (by omega)).symm)]
        exact (ih d n hw').1 hd (fun c' h' => h c' (List.mem_cons_of_mem _ h'))
      · rintro hd ⟨c', h', h2, h3⟩
        rw [if_neg hd]
        by_cases he : d ≠ c.dims
        · rw [if_pos he]
        · rw [if_neg he]
          rcases List.mem_cons.1 h' with rfl | h'
          · exact absurd (not_not.1 he).symm h3
          · exact (ih d n hw').2.1 hd ⟨c', h', h2, h3⟩
      · intro _ h
        exact absurd (h c (by simp)) hc
      · rintro hd d' h _
        rw [if_pos hd]
        have := h c (by simp) (by omega)
        rw [this] at hcd ⊢
        exact (ih d' (prod d') hw').1 hcd (fun c' h' => h c' (List.mem_cons_of_mem _ h'))
      · rintro hd ⟨a, ha, b, hb, h2, h3, h4⟩
        rw [if_pos hd]
        apply (ih c.dims (prod c.dims) hw').2.1 hcd
        by_cases hac : a.dims = c.dims
        · have hbc : b.dims ≠ c.dims := fun h => h4 (hac.trans h.symm)
          rcases List.mem_cons.1 hb with rfl | hb
          · exact absurd rfl hbc
          · exact ⟨b, hb, h3, hbc⟩
        · rcases List.mem_cons.1 ha with rfl | ha
          · exact absurd rfl hac
          · exact ⟨a, ha, h2, hac⟩

theorem flatMap_length_const (f : α → List β) (n : Nat) : ∀ l : List α, (∀ a ∈ l, (f a).length = n) → (l.flatMap f).length = l.length * n := by
  intro l
  induction l with
  | nil => intro _; simp
  | cons a l ih =>
    intro h
    rw [List.flatMap_cons, List.length_append, ih (fun b hb => h b (by simp [hb])), h a (by simp), List.length_cons, Nat.succ_mul]; omega

theorem flatMap_get (f : α → List β) (n : Nat) : ∀ (l : List α), (∀ a ∈ l, (f a).length = n) → ∀ (i j : Nat) (a : α), l[i]? = some a → j < n →
    (l.flatMap f)[i * n + j]? = (f a)[j]? := by
  intro l
  induction l with
  | nil => intro _ i j a h; simp at h
  | cons x l ih =>
    intro h i j a hi hj
    rw [List.flatMap_cons]
    have hx := h x (by simp)
    cases i with
    | zero =>
      simp only [List.getElem?_cons_zero, Option.some.injEq] at hi
      subst hi
      rw [List.getElem?_append_left (by omega)]
      simp
    | succ i =>
      rw [List.getElem?_cons_succ] at hi
      rw [List.getElem?_append_right (by rw [hx, Nat.succ_mul]; omega), hx]
      rw [show (i + 1) * n + j - n = i * n + j by rw [Nat.succ_mul]; omega]
      exact ih (fun b hb => h b (by simp [hb])) i j a hi hj

theorem codeFor_count (o : Ops P) (ps : List P) (s : CSt P) (h1 : s.nfails = ps.countP o.isFail) (h2 : s.nmissing = ps.countP (fun p => !o.isFail p && o.isEmpty p)) :
    composeCode ps.length s = codeFor o ps := by
  unfold composeCode codeFor
  by_cases hn : ps = []
  · subst hn; simp
  · have hl : ps.length ≠ 0 := fun h => hn (List.eq_nil_of_length_eq_zero h)
    rw [if_neg hl, h1, h2]
    have e1 : (ps.countP o.isFail = ps.length) ↔ (ps ≠ [] ∧ ∀ p ∈ ps, o.isFail p = true) := by
      rw [List.countP_eq_length]; exact ⟨fun h => ⟨hn, h⟩, fun h => h.2⟩
    have e2 : (ps.countP (fun p => !o.isFail p && o.isEmpty p) = ps.length) ↔ (ps ≠ [] ∧ ∀ p ∈ ps, o.isFail p = false ∧ o.isEmpty p = true) := by
      rw [List.countP_eq_length]
      constructor
      · intro h; exact ⟨hn, fun p hp => by simpa using h p hp⟩
      · intro h p hp; simpa using h.2 p hp
    by_cases a1 : ps.countP o.isFail = ps.length
    · rw [if_pos a1, if_pos (e1.1 a1)]
    · rw [if_neg a1, if_neg (fun h => a1 (e1.2 h))]
      by_cases a2 : ps.countP (fun p => !o.isFail p && o.isEmpty p) = ps.length
      · rw [if_pos a2, if_pos (e2.1 a2)]
      · rw [if_neg a2, if_neg (fun h => a2 (e2.2 h))]

/-- A shape is only given for a slice. -/
theorem shape_some_ne (sel : List Int) (dims : List Nat) (hok : SelOk sel dims) (shp : List Nat) (offs : List Nat)
    (e : selOffsets dims sel = .ok (some shp, offs)) : selShape sel dims ≠ [] := by
  intro h0
  unfold selOffsets at e
  obtain ⟨hlen, hall⟩ := selOk_zip hok.2
  obtain ⟨hz1, hz2⟩ := zip_fst_snd sel dims hlen
  obtain ⟨st, e0, _, _, e3, _⟩ := (setup_spec (sel.zip dims) 0).1 hall
  have hshape := axesOf_shape (sel.zip dims)
  rw [hz1, hz2, h0] at hshape
  rw [if_neg (not_not.2 hlen), e0] at e
  simp only [Res.bind] at e
  rw [if_pos (by rw [e3]; have := congrArg List.length hshape; simpa using this)] at e
  simp at e

end Verif.Tensor
