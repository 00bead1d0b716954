import Verif.Model.Subscriptions
import Verif.Spec.Subscriptions
import Verif.Props.Hiid
/-! Lemmas about the subscription model. -/
namespace Verif.Subs
open Hiid HiidSpec SubsSpec

theorem sub_iff (p q : List Int) : subsetOf false p q = true ↔ Included p q :=
  C02_subsetOf_iff_inclusion false p q (by simp)

theorem ovl_iff (p q : List Int) : Hiid.matches_ false p q = true ↔ Overlap p q :=
  C01_matches_iff_overlap false p q (by simp)

theorem _root_.Verif.SubsSpec.Included.refl (p : List Int) : Included p p := fun _ _ h => h
theorem _root_.Verif.SubsSpec.Included.trans {p q r : List Int} (h1 : Included p q) (h2 : Included q r) : Included p r :=
  fun c hc h => h2 c hc (h1 c hc h)

/-- Element `e` covers the pair `(m, s)`. -/
def Cov (e : Elem) (m s : List Int) : Prop := Included m e.mask ∧ Included s e.scope

/-- The list stands for the set of pairs. -/
structure Rep (l : List Elem) (P : List Int → List Int → Prop) : Prop where
  sound : ∀ e ∈ l, P e.mask e.scope
  cover : ∀ m s, P m s → ∃ e ∈ l, Cov e m s

theorem addLoop_none {id scope : List Int} {l : List Elem} {P : List Int → List Int → Prop}
    (hr : Rep l P) : Rep (l ++ [⟨id, scope⟩]) (fun m s => (m = id ∧ s = scope) ∨ P m s) := by
  constructor
  · intro e he
    rcases List.mem_append.1 he with he | he
    · exact Or.inr (hr.sound e he)
    · simp at he; subst he; exact Or.inl ⟨rfl, rfl⟩
  · rintro m s (⟨rfl, rfl⟩ | h)
    · exact ⟨⟨m, s⟩, by simp, Included.refl _, Included.refl _⟩
    · obtain ⟨e, he, hc⟩ := hr.cover m s h
      exact ⟨e, by simp [he], hc⟩

theorem addLoop_some {id scope : List Int} {l l' : List Elem} {d : Int} {b : Bool}
    (h : addLoop id scope l = some (l', d, b)) :
    (∀ e ∈ l', e ∈ l ∨ e = ⟨id, scope⟩) ∧
    (∀ e ∈ l, ∃ e' ∈ l', Cov e' e.mask e.scope) ∧
    (∃ e' ∈ l', Cov e' id scope) := by
  induction l generalizing l' d b with
  | nil => simp [addLoop] at h
  | cons e rest ih =>
    simp only [addLoop] at h
    split at h
    · rename_i hc
      simp only [Bool.and_eq_true, sub_iff] at hc
      simp at h
      obtain ⟨rfl, _, _⟩ := h
      refine ⟨fun x hx => Or.inl hx, fun x hx => ⟨x, hx, Included.refl _, Included.refl _⟩, ⟨e, by simp, hc⟩⟩
    · split at h
      · rename_i hc
        simp only [Bool.and_eq_true, sub_iff] at hc
        simp at h
        obtain ⟨rfl, _, _⟩ := h
        refine ⟨?_, ?_, ⟨_, List.mem_cons_self .., Included.refl _, Included.refl _⟩⟩
        · intro x hx
          rcases List.mem_cons.1 hx with rfl | hx
          · exact Or.inr rfl
          · exact Or.inl (List.mem_cons_of_mem _ hx)
        · intro x hx
          rcases List.mem_cons.1 hx with rfl | hx
          · exact ⟨_, List.mem_cons_self .., hc⟩
          · exact ⟨x, List.mem_cons_of_mem _ hx, Included.refl _, Included.refl _⟩
      · cases hrec : addLoop id scope rest with
        | none => rw [hrec] at h; simp at h
        | some r =>
          obtain ⟨l1, d1, b1⟩ := r
          rw [hrec] at h
          simp at h
          obtain ⟨rfl, _, _⟩ := h
          obtain ⟨i1, i2, e', he', i3⟩ := ih hrec
          refine ⟨?_, ?_, ⟨e', List.mem_cons_of_mem _ he', i3⟩⟩
          · intro x hx
            rcases List.mem_cons.1 hx with rfl | hx
            · exact Or.inl (List.mem_cons_self ..)
            · rcases i1 x hx with h | h
              · exact Or.inl (List.mem_cons_of_mem _ h)
              · exact Or.inr h
          · intro x hx
            rcases List.mem_cons.1 hx with rfl | hx
            · exact ⟨x, List.mem_cons_self .., Included.refl _, Included.refl _⟩
            · obtain ⟨y, hy, hc⟩ := i2 x hx
              exact ⟨y, List.mem_cons_of_mem _ hy, hc⟩

theorem add_rep {st : State} {P : List Int → List Int → Prop} (hr : Rep st.subs P)
    (id scope : List Int) :
    Rep (add st id scope).1.subs (fun m s => (m = id ∧ s = scope) ∨ P m s) := by
  unfold add
  cases h : addLoop id scope st.subs with
  | none => exact addLoop_none hr
  | some r =>
    obtain ⟨l, d, b⟩ := r
    obtain ⟨h1, h2, e', he', h3⟩ := addLoop_some h
    constructor
    · intro e he
      rcases h1 e he with h | rfl
      · exact Or.inr (hr.sound e h)
      · exact Or.inl ⟨rfl, rfl⟩
    · rintro m s (⟨rfl, rfl⟩ | hp)
      · exact ⟨e', he', h3⟩
      · obtain ⟨e, he, hc⟩ := hr.cover m s hp
        obtain ⟨y, hy, hc'⟩ := h2 e he
        exact ⟨y, hy, Included.trans hc.1 hc'.1, Included.trans hc.2 hc'.2⟩

theorem removeLoop_subs (id : List Int) (l : List Elem) (pk : Int) (ret : Bool) :
    (removeLoop id l pk ret).1 = l.filter (fun e => !subsetOf false e.mask id) := by
  induction l generalizing pk ret with
  | nil => rfl
  | cons e rest ih =>
    simp only [removeLoop]
    split
    · rename_i h; rw [ih]; simp [h]
    · rename_i h; simp [h, ih]

theorem remove_rep {st : State} {P : List Int → List Int → Prop} (hr : Rep st.subs P)
    (id : List Int) :
    Rep (remove st id).1.subs (fun m s => P m s ∧ ¬ Included m id) := by
  unfold remove
  simp only [removeLoop_subs]
  constructor
  · intro e he
    rw [List.mem_filter] at he
    refine ⟨hr.sound e he.1, ?_⟩
    intro h
    have := (sub_iff e.mask id).2 h
    simp [this] at he
  · rintro m s ⟨hp, hn⟩
    obtain ⟨e, he, hc⟩ := hr.cover m s hp
    refine ⟨e, ?_, hc⟩
    rw [List.mem_filter]
    refine ⟨he, ?_⟩
    cases h : subsetOf false e.mask id with
    | false => rfl
    | true => exact absurd (Included.trans hc.1 ((sub_iff _ _).1 h)) hn

theorem mergeLoop_rep {l : List Elem} {Q : List Int → List Int → Prop} (hq : Rep l Q)
    {st : State} {P : List Int → List Int → Prop} (hr : Rep st.subs P) (ret : Bool) :
    Rep (mergeLoop st ret l).1.subs (fun m s => P m s ∨ Q m s) := by
  -- generalise to the elements only, then widen by coverage
  have key : ∀ (l : List Elem) (st : State) (P : List Int → List Int → Prop) (ret : Bool),
      Rep st.subs P → Rep (mergeLoop st ret l).1.subs
        (fun m s => P m s ∨ ∃ e ∈ l, m = e.mask ∧ s = e.scope) := by
    intro l
    induction l with
    | nil =>
      intro st P ret hr
      constructor
      · intro e he; exact Or.inl (hr.sound e he)
      · rintro m s (h | ⟨e, he, _⟩)
        · exact hr.cover m s h
        · simp at he
    | cons e rest ih =>
      intro st P ret hr
      have h1 := add_rep hr e.mask e.scope
      have h2 := ih _ _ (ret || (add st e.mask e.scope).2) h1
      simp only [mergeLoop]
      constructor
      · intro x hx
        rcases h2.sound x hx with (⟨h, h'⟩ | h) | ⟨y, hy, h⟩
        · exact Or.inr ⟨e, by simp, h, h'⟩
        · exact Or.inl h
        · exact Or.inr ⟨y, List.mem_cons_of_mem _ hy, h⟩
      · rintro m s (h | ⟨y, hy, rfl, rfl⟩)
        · exact h2.cover m s (Or.inl (Or.inr h))
        · rcases List.mem_cons.1 hy with rfl | hy
          · exact h2.cover _ _ (Or.inl (Or.inl ⟨rfl, rfl⟩))
          · exact h2.cover _ _ (Or.inr ⟨y, hy, rfl, rfl⟩)
  have h := key l st P ret hr
  constructor
  · intro e he
    rcases h.sound e he with h | ⟨y, hy, h1, h2⟩
    · exact Or.inl h
    · rw [h1, h2]; exact Or.inr (hq.sound y hy)
  · rintro m s (hp | hqq)
    · exact h.cover m s (Or.inl hp)
    · obtain ⟨y, hy, hc⟩ := hq.cover m s hqq
      obtain ⟨z, hz, hc'⟩ := h.cover y.mask y.scope (Or.inr ⟨y, hy, rfl, rfl⟩)
      exact ⟨z, hz, Included.trans hc.1 hc'.1, Included.trans hc.2 hc'.2⟩

theorem run_rep (h : History) : Rep (run h).subs (InForce h) := by
  induction h with
  | new => exact ⟨by simp [run, init], by intro m s h; exact h.elim⟩
  | subscribe h id scope ih => exact add_rep ih id scope
  | unsubscribe h id ih => exact remove_rep ih id
  | clear h ih => exact ⟨by simp [run, clear], by intro m s h; exact h.elim⟩
  | merge h o ih1 ih2 => exact mergeLoop_rep ih2 ih1 false

/-! ### Size accounting -/

/-- The bytes needed for a list of elements. -/
def need (l : List Elem) : Nat := 8 + (l.map fun e => 16 + elemSize e).sum

theorem addLoop_size {id scope : List Int} {l l' : List Elem} {d : Int} {b : Bool}
    (h : addLoop id scope l = some (l', d, b)) : (need l' : Int) = need l + d := by
  induction l generalizing l' d b with
  | nil => simp [addLoop] at h
  | cons e rest ih =>
    simp only [addLoop] at h
    split at h
    · simp at h; obtain ⟨rfl, rfl, _⟩ := h; simp
    · split at h
      · simp at h; obtain ⟨rfl, rfl, _⟩ := h
        simp [need, elemSize]; omega
      · cases hrec : addLoop id scope rest with
        | none => rw [hrec] at h; simp at h
        | some r =>
          obtain ⟨l1, d1, b1⟩ := r
          rw [hrec] at h
          simp at h
          obtain ⟨rfl, rfl, _⟩ := h
          have := ih hrec
          simp [need] at *; omega

theorem add_size (st : State) (hs : st.pksize = need st.subs) (id scope : List Int) :
    (add st id scope).1.pksize = need (add st id scope).1.subs := by
  unfold add
  cases h : addLoop id scope st.subs with
  | none => simp [need, elemSize] at *; omega
  | some r =>
    obtain ⟨l, d, b⟩ := r
    have := addLoop_size h
    simp; omega

theorem removeLoop_size (id : List Int) (l : List Elem) (pk : Int) (ret : Bool) :
    (removeLoop id l pk ret).2.1 = pk - need l + need (removeLoop id l pk ret).1 := by
  induction l generalizing pk ret with
  | nil => simp [removeLoop]
  | cons e rest ih =>
    simp only [removeLoop]
    split
    · rw [ih]; simp [need, elemSize]; omega
    · simp only [ih, need, elemSize, List.map_cons, List.sum_cons]; omega

theorem mergeLoop_size (l : List Elem) (st : State) (ret : Bool) (hs : st.pksize = need st.subs) :
    (mergeLoop st ret l).1.pksize = need (mergeLoop st ret l).1.subs := by
  induction l generalizing st ret with
  | nil => simpa [mergeLoop] using hs
  | cons e rest ih => simp only [mergeLoop]; exact ih _ _ (add_size st hs _ _)

theorem run_size (h : History) : (run h).pksize = need (run h).subs := by
  induction h with
  | new => rfl
  | subscribe h id scope ih => exact add_size _ ih _ _
  | unsubscribe h id ih =>
    simp only [run, remove]
    rw [removeLoop_size, ih]; omega
  | clear h ih => rfl
  | merge h o ih1 ih2 => exact mergeLoop_size _ _ _ ih1

theorem need_eq (l : List Elem) :
    need l = 8 * (1 + 2 * l.length) + (l.map elemSize).sum := by
  induction l with
  | nil => rfl
  | cons e l ih => simp [need] at *; omega

/-! ### Packing -/

theorem packLoop_ok (l : List Elem) (nleft : Nat) (h : (l.map elemSize).sum ≤ nleft) :
    packLoop l nleft = .ok
      (l.flatMap (fun e => encSize (4 * e.mask.length) ++ encSize (4 * e.scope.length)),
       l.flatMap (fun e => e.mask.flatMap encInt32 ++ e.scope.flatMap encInt32),
       nleft - (l.map elemSize).sum) := by
  induction l generalizing nleft with
  | nil => simp [packLoop]
  | cons e rest ih =>
    simp only [List.map_cons, List.sum_cons, elemSize, packSize] at h
    simp only [packLoop, Hiid.pack]
    rw [if_neg (by omega)]
    simp only
    rw [if_neg (by omega)]
    simp only
    rw [ih _ (by omega)]
    simp only [List.flatMap_cons, List.map_cons, List.sum_cons, List.append_assoc, elemSize, packSize,
      flatMap_encInt32_length]
    have : nleft - 4 * e.mask.length - 4 * e.scope.length - (List.map elemSize rest).sum =
      nleft - (4 * e.mask.length + 4 * e.scope.length + (List.map elemSize rest).sum) := by omega
    simp only [Nat.mul_comm _ 4]
    rw [this]

theorem data_length (l : List Elem) :
    (l.flatMap (fun e => e.mask.flatMap encInt32 ++ e.scope.flatMap encInt32)).length =
      (l.map elemSize).sum := by
  induction l with
  | nil => rfl
  | cons e l ih =>
    simp only [List.flatMap_cons, List.length_append, List.map_cons, List.sum_cons, ih,
      flatMap_encInt32_length, elemSize, packSize]; omega

theorem hdr_length (l : List Elem) :
    (l.flatMap (fun e => encSize (4 * e.mask.length) ++ encSize (4 * e.scope.length))).length =
      16 * l.length := by
  induction l with
  | nil => rfl
  | cons e l ih => simp only [List.flatMap_cons, List.length_append, ih, encSize_length, List.length_cons]; omega

/-- Elements made of 32-bit components. -/
def ElemInt (e : Elem) : Prop := (∀ a ∈ e.mask, IsInt32 a) ∧ (∀ a ∈ e.scope, IsInt32 a)

theorem unpack_flatMap (p : List Int) (hp : ∀ a ∈ p, IsInt32 a) :
    Hiid.unpack (p.flatMap encInt32) = some p := by
  have hl := flatMap_encInt32_length p
  unfold Hiid.unpack
  rw [if_neg (by omega), hl]
  have : 4 * p.length / 4 = p.length := by omega
  rw [this]
  simpa using words_flatMap p [] hp

theorem unpackLoop_ok (sz : Nat) (l : List Elem) (hdrRest dataRest : Bytes) (chk : Nat)
    (hi : ∀ e ∈ l, ElemInt e) (hsz : chk + (l.map elemSize).sum ≤ sz) (h64 : sz < 2 ^ 64) :
    unpackLoop sz l.length
      (l.flatMap (fun e => encSize (4 * e.mask.length) ++ encSize (4 * e.scope.length)) ++ hdrRest)
      (l.flatMap (fun e => e.mask.flatMap encInt32 ++ e.scope.flatMap encInt32) ++ dataRest) chk
      = .ok (l, chk + (l.map elemSize).sum) := by
  induction l generalizing chk with
  | nil => simp [unpackLoop]
  | cons e rest ih =>
    simp only [List.map_cons, List.sum_cons] at hsz
    have he : elemSize e = 4 * e.mask.length + 4 * e.scope.length := by
      simp [elemSize, packSize]; omega
    have hm := flatMap_encInt32_length e.mask
    have hs := flatMap_encInt32_length e.scope
    obtain ⟨hi1, hi2⟩ := hi e (by simp)
    simp only [List.length_cons, List.flatMap_cons, List.append_assoc, unpackLoop]
    have e1 : ∀ (a b : Bytes) , a.length = 8 → (a ++ b).take 8 = a := by
      intro a b h; rw [List.take_append_of_le_length (by omega), List.take_of_length_le (by omega)]
    have e2 : ∀ (a b : Bytes) , a.length = 8 → (a ++ b).drop 8 = b := by
      intro a b h; rw [List.drop_append_of_le_length (by omega), List.drop_of_length_le (by omega)]; rfl
    have e3 : ∀ (a b c : Bytes) , a.length = 8 → b.length = 8 → (a ++ (b ++ c)).drop 16 = c := by
      intro a b c h1 h2
      have : (16 : Nat) = 8 + 8 := rfl
      rw [this, ← List.drop_drop, e2 _ _ h1, e2 _ _ h2]
    rw [e1 _ _ (encSize_length _), e2 _ _ (encSize_length _), e1 _ _ (encSize_length _),
      e3 _ _ _ (encSize_length _) (encSize_length _)]
    rw [leDec_encSize _ (by omega), leDec_encSize _ (by omega)]
    have hmod : (chk + 4 * e.mask.length + 4 * e.scope.length) % 2 ^ 64 =
        chk + 4 * e.mask.length + 4 * e.scope.length := Nat.mod_eq_of_lt (by omega)
    rw [hmod, if_neg (by omega), if_neg (by omega),
      if_neg (by rw [List.length_append, hm]; omega), if_neg (by omega)]
    have d1 : ∀ (a b : Bytes) (k : Nat), a.length = k → (a ++ b).drop k = b := by
      rintro a b k rfl; simp
    have t1 : ∀ (a b : Bytes) (k : Nat), a.length = k → (a ++ b).take k = a := by
      rintro a b k rfl; simp
    rw [d1 _ _ _ hm, t1 _ _ _ hm, if_neg (by rw [List.length_append, hs]; omega), t1 _ _ _ hs, d1 _ _ _ hs,
      unpack_flatMap _ hi1, unpack_flatMap _ hi2]
    simp only
    rw [ih _ (fun x hx => hi x (List.mem_cons_of_mem _ hx)) (by omega)]
    simp [he]; omega

theorem add_ints (st : State) (hs : ∀ e ∈ st.subs, ElemInt e) (id scope : List Int)
    (h1 : ∀ a ∈ id, IsInt32 a) (h2 : ∀ a ∈ scope, IsInt32 a) :
    ∀ e ∈ (add st id scope).1.subs, ElemInt e := by
  unfold add
  cases h : addLoop id scope st.subs with
  | none =>
    intro e he
    simp at he
    rcases he with he | rfl
    · exact hs e he
    · exact ⟨h1, h2⟩
  | some r =>
    obtain ⟨l, d, b⟩ := r
    intro e he
    rcases (addLoop_some h).1 e he with h | rfl
    · exact hs e h
    · exact ⟨h1, h2⟩

theorem mergeLoop_ints (l : List Elem) (st : State) (ret : Bool) (hs : ∀ e ∈ st.subs, ElemInt e)
    (hl : ∀ e ∈ l, ElemInt e) : ∀ e ∈ (mergeLoop st ret l).1.subs, ElemInt e := by
  induction l generalizing st ret with
  | nil => simpa [mergeLoop] using hs
  | cons e rest ih =>
    simp only [mergeLoop]
    have he := hl e (by simp)
    exact ih _ _ (add_ints st hs _ _ he.1 he.2) (fun x hx => hl x (List.mem_cons_of_mem _ hx))

theorem run_ints (h : History) (hi : Ints h) : ∀ e ∈ (run h).subs, ElemInt e := by
  induction h with
  | new => simp [run, init]
  | subscribe h id scope ih => exact add_ints _ (ih hi.1) _ _ hi.2.1 hi.2.2
  | unsubscribe h id ih =>
    intro e he
    simp only [run, remove, removeLoop_subs] at he
    exact ih hi e (List.mem_filter.1 he).1
  | clear h ih => simp [run, clear]
  | merge h o ih1 ih2 => exact mergeLoop_ints _ _ _ (ih1 hi.1) (ih2 hi.2)

/-! ### Unpacking arbitrary blocks -/

theorem unpack_some {bs : Bytes} {p : List Int} (h : Hiid.unpack bs = some p) :
    p.flatMap encInt32 = bs ∧ 4 * p.length = bs.length := by
  unfold Hiid.unpack at h
  split at h
  · simp at h
  · simp only [Option.some.injEq] at h
    subst h
    exact ⟨flatMap_words _ _ (by omega), by rw [words_length]; omega⟩

/-- The `k`-th size word of a header. -/
def sizeWord (hdr : Bytes) (k : Nat) : Nat := leDec ((hdr.drop (8 * k)).take 8)

theorem unpackLoop_sound (sz n : Nat) (hdr data : Bytes) (chk : Nat) (hh : 16 * n ≤ hdr.length)
    (hd : chk + data.length = sz) (hsz : sz < 2 ^ 62) (hw : ∀ k < 2 * n, sizeWord hdr k < 2 ^ 62) :
    unpackLoop sz n hdr data chk ≠ .ub ∧
    ∀ l c, unpackLoop sz n hdr data chk = .ok (l, c) →
      l.length = n ∧
      hdr.take (16 * n) =
        l.flatMap (fun e => encSize (4 * e.mask.length) ++ encSize (4 * e.scope.length)) ∧
      ∃ rest, data = l.flatMap (fun e => e.mask.flatMap encInt32 ++ e.scope.flatMap encInt32) ++ rest ∧
        c + rest.length = sz := by
  induction n generalizing hdr data chk with
  | zero => simp [unpackLoop]; omega
  | succ n ih =>
    have hw0 : leDec (hdr.take 8) < 2 ^ 62 := by simpa [sizeWord] using hw 0 (by omega)
    have hw1 : leDec ((hdr.drop 8).take 8) < 2 ^ 62 := by simpa [sizeWord] using hw 1 (by omega)
    simp only [unpackLoop]
    rw [Nat.mod_eq_of_lt (by omega)]
    split
    · simp
    · rename_i hc1
      split
      · simp
      · rename_i hm1
        rw [if_neg (by omega)]
        split
        · simp
        · rename_i hm2
          rw [if_neg (by rw [List.length_drop]; omega)]
          have hu1 : Hiid.unpack (data.take (leDec (hdr.take 8))) ≠ none := by
            unfold Hiid.unpack; rw [if_neg (by rw [List.length_take, Nat.min_eq_left (by omega)]; omega)]; simp
          have hu2 : Hiid.unpack ((data.drop (leDec (hdr.take 8))).take (leDec ((hdr.drop 8).take 8))) ≠ none := by
            unfold Hiid.unpack
            rw [if_neg (by rw [List.length_take, List.length_drop, Nat.min_eq_left (by omega)]; omega)]; simp
          obtain ⟨m, hm⟩ := Option.ne_none_iff_exists'.1 hu1
          obtain ⟨sc, hs⟩ := Option.ne_none_iff_exists'.1 hu2
          simp only [hm, hs]
          have key := ih (hdr.drop 16)
            ((data.drop (leDec (hdr.take 8))).drop (leDec ((hdr.drop 8).take 8)))
            (chk + leDec (hdr.take 8) + leDec ((hdr.drop 8).take 8))
            (by rw [List.length_drop]; omega) (by simp only [List.length_drop]; omega)
            (by
              intro k hk
              have := hw (k + 2) (by omega)
              simp only [sizeWord, List.drop_drop] at this ⊢
              rw [show 16 + 8 * k = 8 * (k + 2) by omega]; exact this)
          obtain ⟨k1, k2⟩ := key
          generalize hr : unpackLoop sz n (hdr.drop 16)
            ((data.drop (leDec (hdr.take 8))).drop (leDec ((hdr.drop 8).take 8)))
            (chk + leDec (hdr.take 8) + leDec ((hdr.drop 8).take 8)) = r at k1 k2
          cases r with
          | ub => exact absurd rfl k1
          | err => simp
          | ok lc =>
            obtain ⟨l, c⟩ := lc
            refine ⟨by simp, ?_⟩
            intro l' c' he
            simp only [Res.ok.injEq, Prod.mk.injEq] at he
            obtain ⟨rfl, rfl⟩ := he
            obtain ⟨j1, j2, rest, j3, j4⟩ := k2 l c rfl
            obtain ⟨p1, p2⟩ := unpack_some hm
            obtain ⟨q1, q2⟩ := unpack_some hs
            have hlen1 : 4 * m.length = leDec (hdr.take 8) := by
              rw [p2, List.length_take, Nat.min_eq_left (by omega)]
            have hlen2 : 4 * sc.length = leDec ((hdr.drop 8).take 8) := by
              rw [q2, List.length_take, List.length_drop, Nat.min_eq_left (by omega)]
            have e8 : ∀ b : Bytes, 8 ≤ b.length → encSize (leDec (b.take 8)) = b.take 8 := by
              intro b hb
              have h8 : (b.take 8).length = 8 := by rw [List.length_take]; omega
              have := leEnc_leDec (b.take 8)
              rw [h8] at this; exact this
            refine ⟨by simp [j1], ?_, rest, ?_, j4⟩
            · rw [List.flatMap_cons, ← j2, hlen1, hlen2, e8 _ (by omega),
                e8 _ (by rw [List.length_drop]; omega), show 16 * (n + 1) = 8 + (8 + 16 * n) by omega,
                List.take_add, List.take_add, List.drop_drop, List.append_assoc]
            · rw [List.flatMap_cons, p1, q1, List.append_assoc, List.append_assoc, ← j3,
                List.take_append_drop, List.take_append_drop]

end Verif.Subs
