import Verif.Spec.CRef
import Mathlib.Tactic.Common
import Mathlib.Data.List.Basic
/-! Lemmas about counted references. -/
namespace Verif.CRef
open CRefSpec

/-- Counts are exact, references point at live targets, deletions happen once. -/
structure Inv (s : State) : Prop where
  cnt : ∀ t o, s.objs[t]? = some o → o.count = (pointing s t : Int)
  tgt : ∀ (r : Nat) x t, s.refs[r]? = some x → x.tgt = some t → ∃ o, s.objs[t]? = some o ∧ o.alive = true
  dead : ∀ (t : Nat) o, s.objs[t]? = some o →
    (o.alive = true → o.frees = 0) ∧ (o.alive = false → o.frees = 1 ∧ o.anon = true)

/-- Existing targets keep their contents. -/
def Vals (s s' : State) : Prop :=
  ∀ (t : Nat) o, s.objs[t]? = some o → ∃ o', s'.objs[t]? = some o' ∧ o'.val = o.val

theorem Vals.refl (s : State) : Vals s s := fun _ o h => ⟨o, h, rfl⟩
theorem Vals.trans {a b c : State} (h1 : Vals a b) (h2 : Vals b c) : Vals a c := by
  intro t o h
  obtain ⟨o1, h3, h4⟩ := h1 t o h
  obtain ⟨o2, h5, h6⟩ := h2 t o1 h3
  exact ⟨o2, h5, h6.trans h4⟩

/-- All references other than `r` are untouched, and existing targets keep their contents. -/
structure Frame (s s' : State) (P : Nat → Prop) : Prop where
  refs : ∀ q, ¬ P q → s'.refs[q]? = s.refs[q]?
  len : s'.refs.length = s.refs.length
  vals : Vals s s'

theorem Frame.refl (s : State) (P : Nat → Prop) : Frame s s P := ⟨fun _ _ => rfl, rfl, Vals.refl s⟩
theorem Frame.trans {a b c : State} {P : Nat → Prop} (h1 : Frame a b P) (h2 : Frame b c P) : Frame a c P :=
  ⟨fun q h => (h2.refs q h).trans (h1.refs q h), h2.len.trans h1.len, h1.vals.trans h2.vals⟩
theorem Frame.mono {a b : State} {P Q : Nat → Prop} (h : Frame a b P) (hpq : ∀ q, P q → Q q) : Frame a b Q :=
  ⟨fun q hq => h.refs q (fun hp => hq (hpq q hp)), h.len, h.vals⟩

/-- Untouched valid references read the same. -/
theorem Frame.read {s s' : State} {P : Nat → Prop} (h : Frame s s' P) (hi : Inv s) {q : Nat} (hq : ¬ P q) :
    read s' q = read s q := by
  unfold CRef.read
  rw [h.refs q hq]
  cases hx : s.refs[q]? with
  | none => rfl
  | some x =>
    simp only
    cases ht : x.tgt with
    | none => rfl
    | some t =>
      obtain ⟨o, ho, _⟩ := hi.tgt q x t hx ht
      obtain ⟨o', ho', hv⟩ := h.vals t o ho
      simp [ho, ho', hv]

theorem pointing_set (s : State) (r : Nat) (x y : Ref) (objs : List Obj) (h : s.refs[r]? = some x) (t : Nat) :
    (pointing ⟨s.refs.set r y, objs⟩ t : Int) =
      pointing s t - (if x.tgt = some t then 1 else 0) + (if y.tgt = some t then 1 else 0) := by
  unfold pointing
  obtain ⟨hr, hx⟩ := List.getElem?_eq_some_iff.1 h
  simp only
  rw [List.countP_set (h := hr), hx]
  have hpos : x.tgt = some t → 0 < s.refs.countP (fun x => x.tgt = some t) := by
    intro he
    rw [List.countP_pos_iff]
    exact ⟨x, List.mem_of_getElem? h, by simpa using he⟩
  by_cases h1 : x.tgt = some t <;> by_cases h2 : y.tgt = some t <;> simp [h1, h2]
  · have := hpos h1; omega
  · have := hpos h1; omega

theorem pointing_pos {s : State} {r : Nat} {x : Ref} {t : Nat} (h : s.refs[r]? = some x) (ht : x.tgt = some t) :
    0 < pointing s t := by
  unfold pointing
  rw [List.countP_pos_iff]
  exact ⟨x, List.mem_of_getElem? h, by simpa using ht⟩

/-- If a target has one pointing reference it is the only one. -/
theorem pointing_one {s : State} {r q : Nat} {x y : Ref} {t : Nat} (h : s.refs[r]? = some x)
    (ht : x.tgt = some t) (h' : s.refs[q]? = some y) (ht' : y.tgt = some t) (h1 : pointing s t = 1) : q = r := by
  by_contra hne
  have := pointing_set s r x empty s.objs h t
  rw [if_pos ht, if_neg (by simp [empty]), h1] at this
  have hq : (⟨s.refs.set r empty, s.objs⟩ : State).refs[q]? = some y := by
    simp [List.getElem?_set, Ne.symm hne, h']
  have := pointing_pos hq ht'
  omega

/-- Changing only flags of a reference. -/
theorem setRef_flags_inv {s : State} (hi : Inv s) {r : Nat} {x : Ref} (h : s.refs[r]? = some x) (y : Ref)
    (hy : y.tgt = x.tgt) : Inv (setRef s r y) := by
  refine ⟨?_, ?_, hi.dead⟩
  · intro t o ho
    have := pointing_set s r x y s.objs h t
    rw [hy] at this
    rw [show setRef s r y = ⟨s.refs.set r y, s.objs⟩ from rfl, this, hi.cnt t o ho]; omega
  · intro q z t hz ht
    simp only [setRef, List.getElem?_set] at hz
    split at hz
    · split at hz
      · simp at hz; subst hz; rename_i e _; exact hi.tgt r x t h (hy ▸ ht)
      · simp at hz
    · exact hi.tgt q z t hz ht

theorem setRef_frame {s : State} {r : Nat} (y : Ref) : Frame s (setRef s r y) (· = r) :=
  ⟨fun q hq => by simp [setRef, List.getElem?_set, Ne.symm hq], by simp [setRef], Vals.refl _⟩

theorem setObj_vals {s : State} {t : Nat} {o o' : Obj} (h : s.objs[t]? = some o) (hv : o'.val = o.val) :
    Vals s (setObj s t o') := by
  intro t1 o1 h1
  simp only [setObj, List.getElem?_set]
  split
  · rename_i e
    subst e
    have : t < s.objs.length := (List.getElem?_eq_some_iff.1 h).1
    rw [h] at h1
    simp only [Option.some.injEq] at h1
    subst h1
    exact ⟨o', by simp [this], hv⟩
  · exact ⟨o1, h1, rfl⟩

theorem get_set_obj {s : State} {t t1 : Nat} {o o' o1 : Obj} (h : s.objs[t]? = some o)
    (h1 : (s.objs.set t o')[t1]? = some o1) : (t1 = t ∧ o1 = o') ∨ (t1 ≠ t ∧ s.objs[t1]? = some o1) := by
  have : t < s.objs.length := (List.getElem?_eq_some_iff.1 h).1
  rw [List.getElem?_set] at h1
  split at h1
  · rename_i e; subst e; simp [this] at h1; exact Or.inl ⟨rfl, h1.symm⟩
  · rename_i e; exact Or.inr ⟨fun h => e h.symm, h1⟩

theorem get_set_ref {s : State} {r q : Nat} {x y z : Ref} (h : s.refs[r]? = some x)
    (h1 : (s.refs.set r y)[q]? = some z) : (q = r ∧ z = y) ∨ (q ≠ r ∧ s.refs[q]? = some z) := by
  have : r < s.refs.length := (List.getElem?_eq_some_iff.1 h).1
  rw [List.getElem?_set] at h1
  split at h1
  · rename_i e; subst e; simp [this] at h1; exact Or.inl ⟨rfl, h1.symm⟩
  · rename_i e; exact Or.inr ⟨fun h => e h.symm, h1⟩

/-- Dropping a reference. -/
theorem drop_spec {s : State} (hi : Inv s) {r : Nat} {x : Ref} (h : s.refs[r]? = some x) :
    ∃ s', drop s r = some s' ∧ Inv s' ∧ Frame s s' (· = r) ∧
      (∃ y, s'.refs[r]? = some y ∧ y.tgt = none) ∧ s'.objs.length = s.objs.length ∧
      (∀ t, x.tgt ≠ some t → s'.objs[t]? = s.objs[t]?) ∧
      (∀ t o, x.tgt = some t → s.objs[t]? = some o →
        s'.objs[t]? = some (if o.count = 1 ∧ o.anon = true
          then ⟨0, true, false, o.frees + 1, o.val⟩ else ⟨o.count - 1, o.anon, true, o.frees, o.val⟩)) ∧
      (x.tgt ≠ none → s'.refs = s.refs.set r empty) := by
  have hr : r < s.refs.length := (List.getElem?_eq_some_iff.1 h).1
  unfold drop
  rw [h]
  simp only
  cases ht : x.tgt with
  | none =>
    exact ⟨s, rfl, hi, Frame.refl _ _, ⟨x, h, ht⟩, rfl, fun _ _ => rfl, by simp, by simp⟩
  | some t =>
    obtain ⟨o, ho, hal⟩ := hi.tgt r x t h ht
    have htl : t < s.objs.length := (List.getElem?_eq_some_iff.1 ho).1
    simp only [ho, hal, if_true]
    have hcnt := hi.cnt t o ho
    have hpos := pointing_pos h ht
    have hdead := hi.dead t o ho
    have key : ∀ o' : Obj, o'.count = o.count - 1 → o'.val = o.val → o'.anon = o.anon →
        (o'.alive = true ∧ o'.frees = o.frees ∨ (o'.alive = false ∧ o'.frees = o.frees + 1 ∧ o.anon = true ∧ o.count = 1)) →
        Inv (setRef (setObj s t o') r empty) ∧ Frame s (setRef (setObj s t o') r empty) (· = r) := by
      intro o' hc hv han hal'
      refine ⟨⟨?_, ?_, ?_⟩, ?_⟩
      · intro t1 o1 h1
        have hp := pointing_set s r x empty (s.objs.set t o') h t1
        rw [if_neg (show ¬ empty.tgt = some t1 by simp [empty])] at hp
        rw [show setRef (setObj s t o') r empty = ⟨s.refs.set r empty, s.objs.set t o'⟩ from rfl, hp]
        rcases get_set_obj ho h1 with ⟨rfl, rfl⟩ | ⟨hne, h1⟩
        · rw [if_pos ht, hc, hcnt]; omega
        · rw [if_neg (by rw [ht]; simp; exact fun e => hne e.symm), hi.cnt t1 o1 h1]; omega
      · intro q z t1 hz ht1
        rcases get_set_ref h hz with ⟨rfl, rfl⟩ | ⟨hne, hz'⟩
        · simp [empty] at ht1
        · obtain ⟨o1, h1, h2⟩ := hi.tgt q z t1 hz' ht1
          by_cases e : t1 = t
          · subst e
            refine ⟨o', by simp [setRef, setObj, htl], ?_⟩
            rcases hal' with hal' | hal'
            · exact hal'.1
            · exact absurd (pointing_one h ht hz' ht1 (by omega)) hne
          · exact ⟨o1, by simp [setRef, setObj, List.getElem?_set, Ne.symm e, h1], h2⟩
      · intro t1 o1 h1
        rcases get_set_obj ho h1 with ⟨rfl, rfl⟩ | ⟨hne, h1⟩
        · rcases hal' with ⟨ha, hf⟩ | ⟨ha, hf, hb, _⟩
          · rw [ha, hf]; simp [hdead.1 hal]
          · rw [ha, hf, han]; simp [hdead.1 hal, hb]
        · exact hi.dead t1 o1 h1
      · refine ⟨fun q hq => by simp [setRef, setObj, List.getElem?_set, Ne.symm hq], by simp [setRef, setObj], ?_⟩
        exact setObj_vals ho hv
    by_cases hc : o.count - 1 = 0 ∧ o.anon = true
    · rw [if_pos hc]
      obtain ⟨k1, k2⟩ := key ⟨o.count - 1, o.anon, false, o.frees + 1, o.val⟩ rfl rfl rfl
        (Or.inr ⟨rfl, rfl, hc.2, by omega⟩)
      refine ⟨_, rfl, k1, k2, ⟨empty, by simp [setRef, setObj, hr], rfl⟩, by simp [setRef, setObj], ?_, ?_, ?_⟩
      · intro t1 h1; simp at h1; simp [setRef, setObj, List.getElem?_set, h1]
      · intro t1 o1 h1 h2
        simp at h1; subst h1
        rw [ho] at h2; simp at h2; subst h2
        rw [if_pos ⟨by omega, hc.2⟩]
        simp [setRef, setObj, htl, hc]
      · intro _; rfl
    · rw [if_neg hc]
      obtain ⟨k1, k2⟩ := key ⟨o.count - 1, o.anon, o.alive, o.frees, o.val⟩ rfl rfl rfl (Or.inl ⟨hal, rfl⟩)
      refine ⟨_, rfl, by rw [hal] at k1; exact k1, by rw [hal] at k2; exact k2,
        ⟨empty, by simp [setRef, setObj, hr], rfl⟩, by simp [setRef, setObj], ?_, ?_, ?_⟩
      · intro t1 h1; simp at h1; simp [setRef, setObj, List.getElem?_set, h1]
      · intro t1 o1 h1 h2
        simp at h1; subst h1
        rw [ho] at h2; simp at h2; subst h2
        rw [if_neg (fun e => hc ⟨by omega, e.2⟩)]
        simp [setRef, setObj, htl]
      · intro _; rfl

theorem detach_spec {s : State} (hi : Inv s) {r : Nat} {x : Ref} (h : s.refs[r]? = some x) :
    (x.locked = true ∧ x.tgt ≠ none ∧ detach s r = some (s, false)) ∨
    ∃ s', drop s r = some s' ∧ detach s r = some (s', true) := by
  unfold detach
  rw [h]
  simp only
  by_cases ht : x.tgt = none
  · right; exact ⟨s, by simp [drop, h, ht], by simp [ht]⟩
  · rw [if_neg ht]
    by_cases hl : x.locked = true
    · left; exact ⟨hl, ht, by simp [hl]⟩
    · right
      obtain ⟨s', hs, _⟩ := drop_spec hi h
      exact ⟨s', hs, by simp [hl, hs]⟩

/-- Pointing an empty reference at a live target. -/
theorem link_spec {s : State} (hi : Inv s) {r t : Nat} {x : Ref} {o : Obj} (h : s.refs[r]? = some x)
    (hx : x.tgt = none) (ho : s.objs[t]? = some o) (hal : o.alive = true) (a : Bool) (y : Ref)
    (hy : y.tgt = some t) :
    Inv (setRef (setObj s t ⟨o.count + 1, a, o.alive, o.frees, o.val⟩) r y) ∧
    Frame s (setRef (setObj s t ⟨o.count + 1, a, o.alive, o.frees, o.val⟩) r y) (· = r) := by
  have htl : t < s.objs.length := (List.getElem?_eq_some_iff.1 ho).1
  refine ⟨⟨?_, ?_, ?_⟩, ?_⟩
  · intro t1 o1 h1
    have hp := pointing_set s r x y (s.objs.set t ⟨o.count + 1, a, o.alive, o.frees, o.val⟩) h t1
    rw [if_neg (show ¬ x.tgt = some t1 by simp [hx])] at hp
    rw [show setRef (setObj s t ⟨o.count + 1, a, o.alive, o.frees, o.val⟩) r y =
      ⟨s.refs.set r y, s.objs.set t ⟨o.count + 1, a, o.alive, o.frees, o.val⟩⟩ from rfl, hp]
    rcases get_set_obj ho h1 with ⟨rfl, rfl⟩ | ⟨hne, h1⟩
    · rw [if_pos hy]; simp only [hi.cnt _ o ho]; omega
    · rw [if_neg (by rw [hy]; simp; exact fun e => hne e.symm), hi.cnt t1 o1 h1]; omega
  · intro q z t1 hz ht1
    have hold : ∀ o1, s.objs[t1]? = some o1 → o1.alive = true →
        ∃ o', (s.objs.set t ⟨o.count + 1, a, o.alive, o.frees, o.val⟩)[t1]? = some o' ∧ o'.alive = true := by
      intro o1 h1 h2
      by_cases e : t1 = t
      · subst e; exact ⟨⟨o.count + 1, a, o.alive, o.frees, o.val⟩, by simp [htl], hal⟩
      · exact ⟨o1, by simp [List.getElem?_set, Ne.symm e, h1], h2⟩
    rcases get_set_ref h hz with ⟨rfl, rfl⟩ | ⟨hne, hz'⟩
    · rw [hy] at ht1; simp at ht1; subst ht1; exact hold o ho hal
    · obtain ⟨o1, h1, h2⟩ := hi.tgt q z t1 hz' ht1
      exact hold o1 h1 h2
  · intro t1 o1 h1
    rcases get_set_obj ho h1 with ⟨rfl, rfl⟩ | ⟨hne, h1⟩
    · exact ⟨fun _ => (hi.dead _ o ho).1 hal, fun h => by simp [hal] at h⟩
    · exact hi.dead t1 o1 h1
  · refine ⟨fun q hq => by simp [setRef, setObj, List.getElem?_set, Ne.symm hq], by simp [setRef, setObj], ?_⟩
    exact setObj_vals ho rfl

/-- Pointing an empty reference at a fresh clone. -/
theorem linkNew_spec {s : State} (hi : Inv s) {r : Nat} {x : Ref} (h : s.refs[r]? = some x)
    (hx : x.tgt = none) (v : Nat) (y : Ref) (hy : y.tgt = some s.objs.length) :
    Inv ⟨s.refs.set r y, s.objs ++ [⟨1, true, true, 0, v⟩]⟩ ∧
    Frame s ⟨s.refs.set r y, s.objs ++ [⟨1, true, true, 0, v⟩]⟩ (· = r) := by
  have hnone : pointing s s.objs.length = 0 := by
    by_contra hne
    have : 0 < pointing s s.objs.length := by omega
    unfold pointing at this
    rw [List.countP_pos_iff] at this
    obtain ⟨z, hz, hzt⟩ := this
    obtain ⟨q, hq⟩ := List.getElem?_of_mem hz
    obtain ⟨o, ho, _⟩ := hi.tgt q z _ hq (by simpa using hzt)
    rw [List.getElem?_eq_none (by omega)] at ho; simp at ho
  have happ : ∀ (t1 : Nat) o1, (s.objs ++ [(⟨1, true, true, 0, v⟩ : Obj)])[t1]? = some o1 →
      (t1 = s.objs.length ∧ o1 = ⟨1, true, true, 0, v⟩) ∨ s.objs[t1]? = some o1 := by
    intro t1 o1 h1
    rw [List.getElem?_append] at h1
    split at h1
    · exact Or.inr h1
    · rename_i hlt
      left
      have : t1 = s.objs.length := by
        by_contra hne
        rw [List.getElem?_eq_none (by simp; omega)] at h1; simp at h1
      subst this
      simp at h1
      exact ⟨rfl, h1.symm⟩
  have hext : ∀ (t1 : Nat) o1, s.objs[t1]? = some o1 → (s.objs ++ [(⟨1, true, true, 0, v⟩ : Obj)])[t1]? = some o1 := by
    intro t1 o1 h1
    rw [List.getElem?_append_left (List.getElem?_eq_some_iff.1 h1).1]; exact h1
  refine ⟨⟨?_, ?_, ?_⟩, ?_⟩
  · intro t1 o1 h1
    have hp := pointing_set s r x y (s.objs ++ [⟨1, true, true, 0, v⟩]) h t1
    rw [if_neg (show ¬ x.tgt = some t1 by simp [hx])] at hp
    rw [hp]
    rcases happ t1 o1 h1 with ⟨rfl, rfl⟩ | h1
    · rw [if_pos hy, hnone]; rfl
    · have : t1 < s.objs.length := (List.getElem?_eq_some_iff.1 h1).1
      rw [if_neg (by rw [hy]; simp; omega), hi.cnt t1 o1 h1]; omega
  · intro q z t1 hz ht1
    rcases get_set_ref h hz with ⟨rfl, rfl⟩ | ⟨hne, hz'⟩
    · rw [hy] at ht1; simp at ht1; subst ht1; exact ⟨⟨1, true, true, 0, v⟩, by simp, rfl⟩
    · obtain ⟨o1, h1, h2⟩ := hi.tgt q z t1 hz' ht1
      exact ⟨o1, hext t1 o1 h1, h2⟩
  · intro t1 o1 h1
    rcases happ t1 o1 h1 with ⟨rfl, rfl⟩ | h1
    · simp
    · exact hi.dead t1 o1 h1
  · exact ⟨fun q hq => by simp [List.getElem?_set, Ne.symm hq], by simp, fun t1 o1 h1 => ⟨o1, hext t1 o1 h1, rfl⟩⟩

/-- Decrementing without deleting (as `cloneTarget` does) while emptying the reference. -/
theorem unlink_spec {s : State} (hi : Inv s) {r t : Nat} {x : Ref} {o : Obj} (h : s.refs[r]? = some x)
    (ht : x.tgt = some t) (ho : s.objs[t]? = some o) (hal : o.alive = true) :
    Inv (setRef (setObj s t ⟨o.count - 1, o.anon, o.alive, o.frees, o.val⟩) r empty) := by
  have htl : t < s.objs.length := (List.getElem?_eq_some_iff.1 ho).1
  refine ⟨?_, ?_, ?_⟩
  · intro t1 o1 h1
    have hp := pointing_set s r x empty (s.objs.set t ⟨o.count - 1, o.anon, o.alive, o.frees, o.val⟩) h t1
    rw [if_neg (show ¬ empty.tgt = some t1 by simp [empty])] at hp
    rw [show setRef (setObj s t ⟨o.count - 1, o.anon, o.alive, o.frees, o.val⟩) r empty =
      ⟨s.refs.set r empty, s.objs.set t ⟨o.count - 1, o.anon, o.alive, o.frees, o.val⟩⟩ from rfl, hp]
    rcases get_set_obj ho h1 with ⟨rfl, rfl⟩ | ⟨hne, h1⟩
    · rw [if_pos ht]; simp only [hi.cnt _ o ho]; omega
    · rw [if_neg (by rw [ht]; simp; exact fun e => hne e.symm), hi.cnt t1 o1 h1]; omega
  · intro q z t1 hz ht1
    rcases get_set_ref h hz with ⟨rfl, rfl⟩ | ⟨hne, hz'⟩
    · simp [empty] at ht1
    · obtain ⟨o1, h1, h2⟩ := hi.tgt q z t1 hz' ht1
      by_cases e : t1 = t
      · subst e; exact ⟨⟨o.count - 1, o.anon, o.alive, o.frees, o.val⟩, by simp [setRef, setObj, htl], hal⟩
      · exact ⟨o1, by simp [setRef, setObj, List.getElem?_set, Ne.symm e, h1], h2⟩
  · intro t1 o1 h1
    rcases get_set_obj ho h1 with ⟨rfl, rfl⟩ | ⟨hne, h1⟩
    · exact ⟨fun _ => (hi.dead _ o ho).1 hal, fun h => by simp [hal] at h⟩
    · exact hi.dead t1 o1 h1

theorem cloneTarget_spec {s : State} (hi : Inv s) {r t : Nat} {x : Ref} {o : Obj} (h : s.refs[r]? = some x)
    (ht : x.tgt = some t) (ho : s.objs[t]? = some o) (hal : o.alive = true) (ro : Bool) :
    ∃ s', cloneTarget s r ro = some s' ∧ Inv s' ∧ Frame s s' (· = r) ∧
      s'.refs = s.refs.set r ⟨some s.objs.length, false, !ro, false⟩ ∧
      s'.objs = s.objs.set t ⟨o.count - 1, o.anon, true, o.frees, o.val⟩ ++ [⟨1, true, true, 0, o.val⟩] := by
  have hr : r < s.refs.length := (List.getElem?_eq_some_iff.1 h).1
  have hu := unlink_spec hi h ht ho hal
  have h1 : (setRef (setObj s t ⟨o.count - 1, o.anon, o.alive, o.frees, o.val⟩) r empty).refs[r]? = some empty := by
    simp [setRef, setObj, hr]
  have hl := linkNew_spec hu h1 rfl o.val ⟨some s.objs.length, false, !ro, false⟩ (by simp [setRef, setObj])
  refine ⟨⟨s.refs.set r ⟨some s.objs.length, false, !ro, false⟩,
    s.objs.set t ⟨o.count - 1, o.anon, true, o.frees, o.val⟩ ++ [⟨1, true, true, 0, o.val⟩]⟩, ?_, ?_, ?_, rfl, rfl⟩
  · simp [cloneTarget, h, ht, ho, hal, setObj]
  · have := hl.1
    simp only [setRef, setObj, List.set_set, hal] at this
    exact this
  · have h2 : Frame s (setRef (setObj s t ⟨o.count - 1, o.anon, o.alive, o.frees, o.val⟩) r empty) (· = r) :=
      ⟨fun q hq => by simp [setRef, setObj, List.getElem?_set, Ne.symm hq], by simp [setRef, setObj],
        setObj_vals ho rfl⟩
    have := h2.trans hl.2
    simp only [setRef, setObj, List.set_set, hal] at this
    exact this

theorem privatize_spec {s : State} (hi : Inv s) {r t : Nat} {x : Ref} {o : Obj} (h : s.refs[r]? = some x)
    (ht : x.tgt = some t) (ho : s.objs[t]? = some o) (hal : o.alive = true) (f : Flags) :
    ∃ s', privatize s r f = some (s', true) ∧ Inv s' ∧ Frame s s' (· = r) ∧
      (if !o.anon || !onlyRef o || !x.writable || f.deep then
        s'.refs = s.refs.set r ⟨some s.objs.length, lockedBy f false, true, sharedBy f false⟩ ∧
        s'.objs = s.objs.set t ⟨o.count - 1, o.anon, true, o.frees, o.val⟩ ++ [⟨1, true, true, 0, o.val⟩]
       else s'.refs = s.refs.set r ⟨some t, lockedBy f x.locked, true, sharedBy f x.shared⟩ ∧ s'.objs = s.objs) := by
  have hr : r < s.refs.length := (List.getElem?_eq_some_iff.1 h).1
  unfold privatize
  rw [h]
  simp only [ht, ho, hal, if_true]
  by_cases hc : (!o.anon || !onlyRef o || !x.writable || f.deep) = true
  · rw [if_pos hc]
    obtain ⟨s1, e1, i1, f1, r1, o1⟩ := cloneTarget_spec hi h ht ho hal f.readonly
    have hg : s1.refs[r]? = some ⟨some s.objs.length, false, !f.readonly, false⟩ := by rw [r1]; simp [hr]
    simp only [e1, hg]
    refine ⟨_, rfl, setRef_flags_inv i1 hg _ rfl, f1.trans (setRef_frame _), ?_⟩
    rw [if_pos hc]
    exact ⟨by simp [setRef, r1], o1⟩
  · rw [if_neg hc]
    simp only [h]
    refine ⟨_, rfl, setRef_flags_inv hi h _ rfl, setRef_frame _, ?_⟩
    rw [if_neg hc]
    exact ⟨by simp [setRef, ht], rfl⟩

/-! ### Whole calls -/

/-- No leaks: owned live targets are referenced, and references to owned targets are writable. -/
structure NL (s : State) : Prop where
  own : ∀ (t : Nat) o, s.objs[t]? = some o → o.alive = true → o.anon = true → 1 ≤ o.count
  wr : ∀ (r : Nat) x t o, s.refs[r]? = some x → x.tgt = some t → s.objs[t]? = some o → o.anon = true →
    x.writable = true

/-- What every completed call guarantees. -/
def Post (s s' : State) (P : Nat → Prop) (plain : Prop) : Prop :=
  Inv s' ∧ Frame s s' P ∧ (plain → NL s → NL s')

theorem Post.trans {a b c : State} {P : Nat → Prop} {q : Prop} (h1 : Post a b P q) (h2 : Post b c P q) :
    Post a c P q := ⟨h2.1, h1.2.1.trans h2.2.1, fun hq hn => h2.2.2 hq (h1.2.2 hq hn)⟩

theorem Post.mono {a b : State} {P Q : Nat → Prop} {p q : Prop} (h : Post a b P p) (h1 : ∀ x, P x → Q x)
    (h2 : q → p) : Post a b Q q := ⟨h.1, h.2.1.mono h1, fun hq hn => h.2.2 (h2 hq) hn⟩

theorem Post.same {s : State} (hi : Inv s) (P : Nat → Prop) (q : Prop) : Post s s P q :=
  ⟨hi, Frame.refl _ _, fun _ h => h⟩

theorem drop_post {s : State} (hi : Inv s) {r : Nat} {x : Ref} (h : s.refs[r]? = some x) :
    ∃ s', drop s r = some s' ∧ Post s s' (· = r) True ∧ (∃ y, s'.refs[r]? = some y ∧ y.tgt = none) ∧
      (∀ t, x.tgt ≠ some t → s'.objs[t]? = s.objs[t]?) := by
  obtain ⟨s', e, i', f', y', l', n', d', r'⟩ := drop_spec hi h
  refine ⟨s', e, ⟨i', f', ?_⟩, y', n'⟩
  intro _ hn
  cases ht : x.tgt with
  | none =>
    have : s' = s := by simp [drop, h, ht] at e; exact e.symm
    subst this; exact hn
  | some t =>
    obtain ⟨o, ho, hal⟩ := hi.tgt r x t h ht
    have hd := d' t o ht ho
    have hrefs := r' (by simp [ht])
    refine ⟨?_, ?_⟩
    · intro t1 o1 h1 ha hb
      by_cases et : t1 = t
      · subst et
        rw [hd] at h1
        simp only [Option.some.injEq] at h1
        subst h1
        have := hn.own _ o ho hal
        split at ha
        · simp at ha
        · rename_i hc
          simp only [hc] at hb ⊢
          have hb' : o.anon = true := hb
          have := this hb'
          have : o.count ≠ 1 := fun e => hc ⟨e, hb'⟩
          simp; omega
      · rw [n' t1 (by rw [ht]; simp; exact fun e => et e.symm)] at h1
        exact hn.own t1 o1 h1 ha hb
    · intro q z t1 o1 hz hzt h1 hb
      rw [hrefs] at hz
      rcases get_set_ref h hz with ⟨rfl, rfl⟩ | ⟨hne, hz'⟩
      · simp [empty] at hzt
      · by_cases et : t1 = t
        · subst et
          rw [hd] at h1
          simp only [Option.some.injEq] at h1
          refine hn.wr q z t1 o hz' hzt ho ?_
          subst h1
          split at hb
          · rename_i hc; exact hc.2
          · exact hb
        · rw [n' t1 (by rw [ht]; simp; exact fun e => et e.symm)] at h1
          exact hn.wr q z t1 o1 hz' hzt h1 hb

theorem detach_post {s : State} (hi : Inv s) {r : Nat} {x : Ref} (h : s.refs[r]? = some x) :
    (x.locked = true ∧ x.tgt ≠ none ∧ detach s r = some (s, false)) ∨
    ∃ s', detach s r = some (s', true) ∧ Post s s' (· = r) True ∧ (∃ y, s'.refs[r]? = some y ∧ y.tgt = none) ∧
      (∀ t, x.tgt ≠ some t → s'.objs[t]? = s.objs[t]?) := by
  obtain ⟨s', e, rest⟩ := drop_post hi h
  rcases detach_spec hi h with h' | ⟨s'', e1, e2⟩
  · exact Or.inl h'
  · rw [e] at e1; simp at e1; subst e1
    exact Or.inr ⟨s', e2, rest⟩

theorem privatize_post {s : State} (hi : Inv s) {r : Nat} {x : Ref} (h : s.refs[r]? = some x) (f : Flags) :
    ∃ s' ok, privatize s r f = some (s', ok) ∧ Post s s' (· = r) (f.deep = false) := by
  have hr : r < s.refs.length := (List.getElem?_eq_some_iff.1 h).1
  cases ht : x.tgt with
  | none => exact ⟨s, false, by simp [privatize, h, ht], Post.same hi _ _⟩
  | some t =>
    obtain ⟨o, ho, hal⟩ := hi.tgt r x t h ht
    have htl : t < s.objs.length := (List.getElem?_eq_some_iff.1 ho).1
    obtain ⟨s', e, i', f', d⟩ := privatize_spec hi h ht ho hal f
    refine ⟨s', true, e, i', f', ?_⟩
    intro hdeep hn
    split at d
    · rename_i hc
      obtain ⟨d1, d2⟩ := d
      have hcases : ∀ (t1 : Nat) o1, s'.objs[t1]? = some o1 →
          (t1 = s.objs.length ∧ o1 = ⟨1, true, true, 0, o.val⟩) ∨
          (t1 = t ∧ o1 = ⟨o.count - 1, o.anon, true, o.frees, o.val⟩) ∨ (t1 ≠ t ∧ s.objs[t1]? = some o1) := by
        intro t1 o1 h1
        rw [d2, List.getElem?_append] at h1
        split at h1
        · rcases get_set_obj ho h1 with h | h
          · exact Or.inr (Or.inl h)
          · exact Or.inr (Or.inr h)
        · rename_i hlt
          simp only [List.length_set] at hlt h1
          left
          have : t1 = s.objs.length := by
            by_contra hne
            rw [List.getElem?_eq_none (by simp; omega)] at h1; simp at h1
          subst this
          simp at h1
          exact ⟨rfl, h1.symm⟩
      refine ⟨?_, ?_⟩
      · intro t1 o1 h1 ha hb
        rcases hcases t1 o1 h1 with ⟨rfl, rfl⟩ | ⟨rfl, rfl⟩ | ⟨_, h1⟩
        · simp
        · simp only at hb ⊢
          have hw := hn.wr r x t1 o h ht ho hb
          have := hn.own t1 o ho hal hb
          simp [hb, hw, hdeep, onlyRef] at hc
          omega
        · exact hn.own t1 o1 h1 ha hb
      · intro q z t1 o1 hz hzt h1 hb
        rw [d1] at hz
        rcases get_set_ref h hz with ⟨rfl, rfl⟩ | ⟨hne, hz'⟩
        · rfl
        · obtain ⟨o2, h2, _⟩ := hi.tgt q z t1 hz' hzt
          rcases hcases t1 o1 h1 with ⟨rfl, rfl⟩ | ⟨rfl, rfl⟩ | ⟨_, h1⟩
          · rw [List.getElem?_eq_none (by omega)] at h2; simp at h2
          · exact hn.wr q z t1 o hz' hzt ho hb
          · exact hn.wr q z t1 o1 hz' hzt h1 hb
    · obtain ⟨d1, d2⟩ := d
      refine ⟨by rw [d2]; exact hn.own, ?_⟩
      intro q z t1 o1 hz hzt h1 hb
      rw [d1] at hz
      rw [d2] at h1
      rcases get_set_ref h hz with ⟨rfl, rfl⟩ | ⟨hne, hz'⟩
      · rfl
      · exact hn.wr q z t1 o1 hz' hzt h1 hb

theorem link_post {s : State} (hi : Inv s) {r t : Nat} {x : Ref} {o : Obj} (h : s.refs[r]? = some x)
    (hx : x.tgt = none) (ho : s.objs[t]? = some o) (hal : o.alive = true) (a : Bool) (y : Ref)
    (hy : y.tgt = some t) (q : Prop) (hw : q → NL s → a = true → y.writable = true)
    (ha : a = true → o.count ≠ 0 → o.anon = true) :
    Post s (setRef (setObj s t ⟨o.count + 1, a, o.alive, o.frees, o.val⟩) r y) (· = r) q := by
  obtain ⟨i', f'⟩ := link_spec hi h hx ho hal a y hy
  refine ⟨i', f', ?_⟩
  intro hq hn
  refine ⟨?_, ?_⟩
  · intro t1 o1 h1 hal1 hb
    rcases get_set_obj ho h1 with ⟨rfl, rfl⟩ | ⟨hne, h1⟩
    · have := hi.cnt _ o ho
      simp only; omega
    · exact hn.own t1 o1 h1 hal1 hb
  · intro q z t1 o1 hz hzt h1 hb
    rcases get_set_ref h hz with ⟨rfl, rfl⟩ | ⟨hne, hz'⟩
    · rw [hy] at hzt; simp at hzt; subst hzt
      rcases get_set_obj ho h1 with ⟨_, rfl⟩ | ⟨hne, _⟩
      · exact hw hq hn hb
      · exact absurd rfl hne
    · rcases get_set_obj ho h1 with ⟨rfl, rfl⟩ | ⟨hne, h1⟩
      · refine hn.wr q z t1 o hz' hzt ho (ha hb ?_)
        have := pointing_pos hz' hzt
        have := hi.cnt _ o ho
        omega
      · exact hn.wr q z t1 o1 hz' hzt h1 hb

theorem linkNew_post {s : State} (hi : Inv s) {r : Nat} {x : Ref} (h : s.refs[r]? = some x)
    (hx : x.tgt = none) (v : Nat) (y : Ref) (hy : y.tgt = some s.objs.length) (hw : y.writable = true) (q : Prop) :
    Post s ⟨s.refs.set r y, s.objs ++ [⟨1, true, true, 0, v⟩]⟩ (· = r) q := by
  obtain ⟨i', f'⟩ := linkNew_spec hi h hx v y hy
  refine ⟨i', f', ?_⟩
  intro _ hn
  have happ : ∀ (t1 : Nat) o1, (s.objs ++ [(⟨1, true, true, 0, v⟩ : Obj)])[t1]? = some o1 →
      (t1 = s.objs.length ∧ o1 = ⟨1, true, true, 0, v⟩) ∨ s.objs[t1]? = some o1 := by
    intro t1 o1 h1
    rw [List.getElem?_append] at h1
    split at h1
    · exact Or.inr h1
    · left
      have : t1 = s.objs.length := by
        by_contra hne
        rw [List.getElem?_eq_none (by simp; omega)] at h1; simp at h1
      subst this
      simp at h1
      exact ⟨rfl, h1.symm⟩
  refine ⟨?_, ?_⟩
  · intro t1 o1 h1 hal1 hb
    rcases happ t1 o1 h1 with ⟨rfl, rfl⟩ | h1
    · simp
    · exact hn.own t1 o1 h1 hal1 hb
  · intro q z t1 o1 hz hzt h1 hb
    rcases get_set_ref h hz with ⟨rfl, rfl⟩ | ⟨hne, hz'⟩
    · exact hw
    · obtain ⟨o2, h2, _⟩ := hi.tgt q z t1 hz' hzt
      rcases happ t1 o1 h1 with ⟨rfl, rfl⟩ | h1
      · rw [List.getElem?_eq_none (by omega)] at h2; simp at h2
      · exact hn.wr q z t1 o1 hz' hzt h1 hb

theorem flags_post {s : State} (hi : Inv s) {r : Nat} {x : Ref} (h : s.refs[r]? = some x) (y : Ref)
    (hy : y.tgt = x.tgt) (q : Prop) (hw : q → y.tgt ≠ none → x.writable = true → y.writable = true) :
    Post s (setRef s r y) (· = r) q := by
  refine ⟨setRef_flags_inv hi h y hy, setRef_frame y, ?_⟩
  intro hq hn
  refine ⟨hn.own, ?_⟩
  intro q z t1 o1 hz hzt h1 hb
  rcases get_set_ref h hz with ⟨rfl, rfl⟩ | ⟨hne, hz'⟩
  · exact hw hq (by rw [hzt]; simp) (hn.wr q x t1 o1 h (hy ▸ hzt) h1 hb)
  · exact hn.wr q z t1 o1 hz' hzt h1 hb

/-- Moving a target from one reference to another. -/
theorem move_post {s : State} (hi : Inv s) {r other t : Nat} {x y z : Ref} (hne : other ≠ r)
    (h : s.refs[r]? = some x) (hx : x.tgt = none) (h' : s.refs[other]? = some y) (hy : y.tgt = some t)
    (hz : z.tgt = some t) (hw : z.writable = y.writable) (q : Prop) :
    Post s (setRef (setRef s r z) other empty) (fun k => k = r ∨ k = other) q := by
  have h2 : (setRef s r z).refs[other]? = some y := by simp [setRef, Ne.symm hne, h']
  have hget : ∀ (k : Nat) w, (setRef (setRef s r z) other empty).refs[k]? = some w →
      (w = empty) ∨ (k = r ∧ w = z) ∨ (k ≠ r ∧ k ≠ other ∧ s.refs[k]? = some w) := by
    intro k w hk
    rcases get_set_ref (s := setRef s r z) h2 hk with ⟨_, rfl⟩ | ⟨h3, hk⟩
    · exact Or.inl rfl
    · rcases get_set_ref h hk with ⟨rfl, rfl⟩ | ⟨h4, hk⟩
      · exact Or.inr (Or.inl ⟨rfl, rfl⟩)
      · exact Or.inr (Or.inr ⟨h4, h3, hk⟩)
  refine ⟨⟨?_, ?_, hi.dead⟩, ⟨?_, by simp [setRef], Vals.refl _⟩, ?_⟩
  · intro t1 o1 h1
    have p1 := pointing_set s r x z s.objs h t1
    have p2 := pointing_set (setRef s r z) other y empty s.objs h2 t1
    rw [show setRef (setRef s r z) other empty = ⟨(setRef s r z).refs.set other empty, s.objs⟩ from rfl, p2,
      show setRef s r z = ⟨s.refs.set r z, s.objs⟩ from rfl, p1, hx, hz, hy, hi.cnt t1 o1 h1]
    simp [empty]
  · intro k w t1 hk hkt
    rcases hget k w hk with rfl | ⟨rfl, rfl⟩ | ⟨_, _, hk⟩
    · simp [empty] at hkt
    · rw [hz] at hkt; exact hi.tgt other y t1 h' (hy.trans hkt)
    · exact hi.tgt k w t1 hk hkt
  · intro k hk
    simp only [not_or] at hk
    simp [setRef, Ne.symm hk.1, Ne.symm hk.2]
  · intro _ hn
    refine ⟨hn.own, ?_⟩
    intro k w t1 o1 hk hkt h1 hb
    rcases hget k w hk with rfl | ⟨rfl, rfl⟩ | ⟨_, _, hk⟩
    · simp [empty] at hkt
    · rw [hz] at hkt; rw [hw]; exact hn.wr other y t1 o1 h' (hy.trans hkt) h1 hb
    · exact hn.wr k w t1 o1 hk hkt h1 hb

theorem copy_post {s : State} (hi : Inv s) {r other : Nat} {x y : Ref} (h : s.refs[r]? = some x)
    (h' : s.refs[other]? = some y) (f : Flags) :
    ∃ s' ok, copy s r other f = some (s', ok) ∧ Post s s' (· = r) (f.deep = false) := by
  unfold copy
  by_cases he : other = r
  · rw [if_pos he]; exact ⟨s, true, rfl, Post.same hi _ _⟩
  rw [if_neg he]
  rcases detach_post hi h with ⟨_, _, hd⟩ | ⟨s1, hd, p1, ⟨x1, hx1, hx1t⟩, _⟩
  · rw [hd]; exact ⟨s, false, rfl, Post.same hi _ _⟩
  rw [hd]
  have h1 : s1.refs[other]? = some y := by rw [p1.2.1.refs other he]; exact h'
  have hr1 : r < s1.refs.length := (List.getElem?_eq_some_iff.1 hx1).1
  simp only [h1]
  cases ht : y.tgt with
  | none =>
    refine ⟨_, true, rfl, ?_⟩
    exact (p1.mono (fun _ h => h) (fun _ => trivial)).trans
      (flags_post p1.1 hx1 empty (by simp [empty, hx1t]) _ (fun _ hh => by simp [empty] at hh))
  | some t =>
    obtain ⟨o, ho, hal⟩ := p1.1.tgt other y t h1 ht
    simp only [ho, hal, if_true]
    by_cases hdp : f.deep = true
    · rw [if_pos hdp]
      have p2 := link_post p1.1 hx1 hx1t ho hal o.anon ⟨some t, false, false, false⟩ rfl (f.deep = false)
        (fun hq => by rw [hdp] at hq; simp at hq) (fun e _ => e)
      rw [hal] at p2
      have hg : (setRef (setObj s1 t ⟨o.count + 1, o.anon, true, o.frees, o.val⟩) r ⟨some t, false, false, false⟩).refs[r]?
          = some ⟨some t, false, false, false⟩ := by simp [setRef, setObj, hr1]
      obtain ⟨s3, ok, e3, p3⟩ := privatize_post p2.1 hg f
      exact ⟨s3, ok, e3, (p1.mono (fun _ h => h) (fun _ => trivial)).trans (p2.trans p3)⟩
    · rw [if_neg hdp]
      have p2 := link_post p1.1 hx1 hx1t ho hal o.anon ⟨some t, f.locked, y.writable, sharedBy f y.shared⟩ rfl
        (f.deep = false) (fun _ hn ha => hn.wr other y t o h1 ht ho ha) (fun e _ => e)
      rw [hal] at p2
      exact ⟨_, true, rfl, (p1.mono (fun _ h => h) (fun _ => trivial)).trans p2⟩

theorem xfer_post {s : State} (hi : Inv s) {r other : Nat} {x y : Ref} (h : s.refs[r]? = some x)
    (h' : s.refs[other]? = some y) (f : Flags) :
    ∃ s' ok, xfer s r other f = some (s', ok) ∧ Post s s' (fun q => q = r ∨ q = other) (f.deep = false) := by
  unfold xfer
  by_cases he : other = r
  · rw [if_pos he]; exact ⟨s, true, rfl, Post.same hi _ _⟩
  rw [if_neg he]
  rcases detach_post hi h with ⟨_, _, hd⟩ | ⟨s1, hd, p1, ⟨x1, hx1, hx1t⟩, _⟩
  · rw [hd]; exact ⟨s, false, rfl, Post.same hi _ _⟩
  rw [hd]
  have h1 : s1.refs[other]? = some y := by rw [p1.2.1.refs other he]; exact h'
  have hr1 : r < s1.refs.length := (List.getElem?_eq_some_iff.1 hx1).1
  have p1' : Post s s1 (fun q => q = r ∨ q = other) (f.deep = false) := p1.mono (fun _ h => Or.inl h) (fun _ => trivial)
  simp only [h1]
  cases ht : y.tgt with
  | none =>
    exact ⟨_, true, rfl, p1'.trans ((flags_post p1.1 hx1 empty (by simp [empty, hx1t]) (f.deep = false)
      (fun _ hh => by simp [empty] at hh)).mono (fun _ h => Or.inl h) (fun h => h))⟩
  | some t =>
    obtain ⟨o, ho, hal⟩ := p1.1.tgt other y t h1 ht
    simp only [ho, hal, if_true]
    by_cases hl : y.locked = true
    · rw [if_pos hl]; exact ⟨s1, false, rfl, p1'⟩
    rw [if_neg hl]
    have p2 := move_post p1.1 he hx1 hx1t h1 ht (z := ⟨some t, f.locked, y.writable, sharedBy f y.shared⟩) rfl rfl
      (f.deep = false)
    by_cases hdp : f.deep = true
    · rw [if_pos hdp]
      have hg : (setRef (setRef s1 r ⟨some t, f.locked, y.writable, sharedBy f y.shared⟩) other empty).refs[r]? =
          some ⟨some t, f.locked, y.writable, sharedBy f y.shared⟩ := by
        simp [setRef, hr1, he]
      have p3 := flags_post p2.1 hg ⟨some t, false, y.writable, sharedBy f y.shared⟩ rfl (f.deep = false) (fun _ _ h => h)
      have hg3 : (setRef (setRef (setRef s1 r ⟨some t, f.locked, y.writable, sharedBy f y.shared⟩) other empty) r
          ⟨some t, false, y.writable, sharedBy f y.shared⟩).refs[r]? =
          some ⟨some t, false, y.writable, sharedBy f y.shared⟩ := by simp [setRef, hr1]
      obtain ⟨s4, ok, e4, p4⟩ := privatize_post p3.1 hg3 f
      exact ⟨s4, ok, e4, p1'.trans (p2.trans ((p3.trans p4).mono (fun _ h => Or.inl h) (fun h => h)))⟩
    · rw [if_neg hdp]
      exact ⟨_, true, rfl, p1'.trans p2⟩

theorem attach_post {s : State} (hi : Inv s) {r t : Nat} {x : Ref} {o : Obj} (h : s.refs[r]? = some x)
    (ho : s.objs[t]? = some o) (hal : o.alive = true) (f : Flags) :
    ∃ s' ok, attach s r t f = some (s', ok) ∧ Post s s' (· = r) True := by
  unfold attach
  rw [h]
  simp only
  by_cases he : x.tgt = some t
  · rw [if_pos he]; exact ⟨s, true, rfl, Post.same hi _ _⟩
  rw [if_neg he]
  simp only [ho, hal, if_true]
  rcases detach_post hi h with ⟨_, _, hd⟩ | ⟨s1, hd, p1, ⟨x1, hx1, hx1t⟩, hsame⟩
  · rw [hd]; exact ⟨s, false, rfl, Post.same hi _ _⟩
  rw [hd]
  have ho1 : s1.objs[t]? = some o := by rw [hsame t he]; exact ho
  simp only [ho1]
  by_cases hc : o.count = 0 ∧ f.autoclone = true
  · rw [if_pos hc]
    exact ⟨_, true, rfl, p1.trans (linkNew_post p1.1 hx1 hx1t o.val _ rfl rfl _)⟩
  · rw [if_neg hc]
    have p2 := link_post p1.1 hx1 hx1t ho1 hal (if o.count = 0 then !f.external else o.anon)
      ⟨some t, f.locked, (if o.count = 0 then !f.external else o.anon) || !f.readonly, f.shared⟩ rfl True
      (fun _ _ ha => by simp only at ha ⊢; rw [ha]; rfl) (fun ha hc0 => by rw [if_neg hc0] at ha; exact ha)
    exact ⟨_, true, rfl, p1.trans p2⟩

/-- Changing only the contents of a target. -/
theorem setVal_inv {s : State} (hi : Inv s) {t : Nat} {o : Obj} (ho : s.objs[t]? = some o) (v : Nat) :
    Inv (setObj s t ⟨o.count, o.anon, o.alive, o.frees, v⟩) ∧
    (NL s → NL (setObj s t ⟨o.count, o.anon, o.alive, o.frees, v⟩)) := by
  have htl : t < s.objs.length := (List.getElem?_eq_some_iff.1 ho).1
  refine ⟨⟨?_, ?_, ?_⟩, ?_⟩
  · intro t1 o1 h1
    rcases get_set_obj ho h1 with ⟨rfl, rfl⟩ | ⟨hne, h1⟩
    · exact hi.cnt _ o ho
    · exact hi.cnt t1 o1 h1
  · intro q z t1 hz ht1
    obtain ⟨o1, h1, h2⟩ := hi.tgt q z t1 hz ht1
    by_cases e : t1 = t
    · subst e
      rw [ho] at h1; simp at h1; subst h1
      exact ⟨⟨o.count, o.anon, o.alive, o.frees, v⟩, by simp [setObj, htl], h2⟩
    · exact ⟨o1, by simp [setObj, Ne.symm e, h1], h2⟩
  · intro t1 o1 h1
    rcases get_set_obj ho h1 with ⟨rfl, rfl⟩ | ⟨hne, h1⟩
    · exact hi.dead _ o ho
    · exact hi.dead t1 o1 h1
  · intro hn
    refine ⟨?_, ?_⟩
    · intro t1 o1 h1 ha hb
      rcases get_set_obj ho h1 with ⟨rfl, rfl⟩ | ⟨hne, h1⟩
      · exact hn.own _ o ho ha hb
      · exact hn.own t1 o1 h1 ha hb
    · intro q z t1 o1 hz hzt h1 hb
      rcases get_set_obj ho h1 with ⟨rfl, rfl⟩ | ⟨hne, h1⟩
      · exact hn.wr q z _ o hz hzt ho hb
      · exact hn.wr q z t1 o1 hz hzt h1 hb

theorem setVal_read {s : State} {t q : Nat} {o : Obj} (v : Nat)
    (hq : ∀ z, s.refs[q]? = some z → z.tgt ≠ some t) :
    read (setObj s t ⟨o.count, o.anon, o.alive, o.frees, v⟩) q = read s q := by
  unfold read
  simp only [setObj]
  cases hz : s.refs[q]? with
  | none => rfl
  | some z =>
    simp only
    cases ht : z.tgt with
    | none => rfl
    | some t1 =>
      have : t ≠ t1 := fun e => hq z hz (by rw [ht, e])
      simp [this]

theorem write_spec {s : State} (hi : Inv s) {r : Nat} {x : Ref} (h : s.refs[r]? = some x) (v : Nat) :
    ∃ s' ok, write s r v = some (s', ok) ∧ Inv s' ∧ (NL s → NL s') ∧
      (x.tgt = none → s' = s ∧ ok = false) ∧
      (x.tgt ≠ none → ok = true ∧ read s' r = some v) ∧
      (∀ q z, q ≠ r → s.refs[q]? = some z → (x.shared = true → z.tgt ≠ x.tgt) → read s' q = read s q) := by
  have hr : r < s.refs.length := (List.getElem?_eq_some_iff.1 h).1
  unfold write
  rw [h]
  simp only
  cases ht : x.tgt with
  | none => exact ⟨s, false, rfl, hi, fun h => h, by simp, by simp, by simp⟩
  | some t =>
    obtain ⟨o, ho, hal⟩ := hi.tgt r x t h ht
    have htl : t < s.objs.length := (List.getElem?_eq_some_iff.1 ho).1
    simp only [ho, hal, if_true]
    by_cases hc : ((x.writable && onlyRef o) || x.shared) = true
    · rw [if_pos hc]
      simp only [h, ht, ho]
      obtain ⟨i1, n1⟩ := setVal_inv hi ho v
      rw [hal] at i1 n1
      refine ⟨_, true, rfl, by rw [hal]; exact i1, by rw [hal]; exact n1, by simp, ?_, ?_⟩
      · intro _; exact ⟨rfl, by simp [read, setObj, h, ht, htl]⟩
      · intro q z hq hz hs
        apply setVal_read
        intro z' hz' ht'
        rw [hz] at hz'; simp at hz'; subst hz'
        by_cases hsh : x.shared = true
        · exact hs hsh ht'
        · simp [hsh, onlyRef] at hc
          exact hq (pointing_one h ht hz ht' (by have := hi.cnt t o ho; omega))
    · rw [if_neg hc]
      obtain ⟨s1, e1, i1, f1, d1⟩ := privatize_spec hi h ht ho hal {}
      obtain ⟨s1', ok', e1', p1'⟩ := privatize_post hi h {}
      rw [e1] at e1'; simp at e1'; obtain ⟨rfl, rfl⟩ := e1'
      have hcl : (!o.anon || !onlyRef o || !x.writable || false) = true := by
        simp only [Bool.or_eq_true, not_or, Bool.and_eq_true] at hc
        by_cases hw : x.writable = true
        · have : onlyRef o = false := by
            by_contra hh; exact hc.1 ⟨hw, by simpa using hh⟩
          simp [this]
        · simp [hw]
      rw [if_pos hcl] at d1
      obtain ⟨d1, d2⟩ := d1
      have hg : s1.refs[r]? = some ⟨some s.objs.length, lockedBy {} false, true, sharedBy {} false⟩ := by
        rw [d1]; simp [hr]
      have hgo : s1.objs[s.objs.length]? = some ⟨1, true, true, 0, o.val⟩ := by rw [d2]; simp
      simp only [e1, hg, hgo]
      obtain ⟨i2, n2⟩ := setVal_inv i1 hgo v
      have hnl : s.objs.length < s1.objs.length := (List.getElem?_eq_some_iff.1 hgo).1
      refine ⟨_, true, rfl, i2, fun hn => n2 (p1'.2.2 rfl hn), by simp, ?_, ?_⟩
      · intro _; exact ⟨rfl, by simp [read, setObj, hg, hnl]⟩
      · intro q z hq hz _
        rw [← f1.read hi (q := q) hq]
        refine setVal_read (o := ⟨1, true, true, 0, o.val⟩) v ?_
        intro z' hz' ht'
        rw [f1.refs q hq, hz] at hz'; simp at hz'; subst hz'
        obtain ⟨o2, h2, _⟩ := hi.tgt q z _ hz ht'
        rw [List.getElem?_eq_none (by omega)] at h2; simp at h2

theorem step_spec {s : State} (hi : Inv s) (op : Op) (hv : Valid s op) :
    ∃ s' ok, step s op = some (s', ok) ∧ Inv s' ∧ (Plain op → NL s → NL s') ∧
      ∀ q, q < s.refs.length → ¬ About op q →
        (∀ r v x z, op = .write r v → s.refs[r]? = some x → x.shared = true →
          s.refs[q]? = some z → z.tgt ≠ x.tgt) →
        read s' q = read s q := by
  have getr : ∀ {r}, r < s.refs.length → ∃ x, s.refs[r]? = some x := fun h => ⟨_, List.getElem?_eq_getElem h⟩
  have ofPost : ∀ {s' P pl}, Post s s' P pl → (∀ q, ¬ About op q → ¬ P q) → (Plain op → pl) →
      Inv s' ∧ (Plain op → NL s → NL s') ∧
      ∀ q, q < s.refs.length → ¬ About op q →
        (∀ r v x z, op = .write r v → s.refs[r]? = some x → x.shared = true →
          s.refs[q]? = some z → z.tgt ≠ x.tgt) →
        read s' q = read s q :=
    fun p hP hpl => ⟨p.1, fun hq hn => p.2.2 (hpl hq) hn, fun q _ hq _ => p.2.1.read hi (hP q hq)⟩
  cases op with
  | newObj v =>
    refine ⟨_, true, rfl, ?_, ?_, ?_⟩
    · have happ : ∀ (t1 : Nat) o1, (s.objs ++ [fresh v])[t1]? = some o1 →
          (t1 = s.objs.length ∧ o1 = fresh v) ∨ s.objs[t1]? = some o1 := by
        intro t1 o1 h1
        rw [List.getElem?_append] at h1
        split at h1
        · exact Or.inr h1
        · left
          have : t1 = s.objs.length := by
            by_contra hne
            rw [List.getElem?_eq_none (by simp; omega)] at h1; simp at h1
          subst this
          simp at h1
          exact ⟨rfl, h1.symm⟩
      have hnone : pointing s s.objs.length = 0 := by
        by_contra hne
        have : 0 < pointing s s.objs.length := by omega
        unfold pointing at this
        rw [List.countP_pos_iff] at this
        obtain ⟨z, hz, hzt⟩ := this
        obtain ⟨q, hq⟩ := List.getElem?_of_mem hz
        obtain ⟨o, ho, _⟩ := hi.tgt q z _ hq (by simpa using hzt)
        rw [List.getElem?_eq_none (by omega)] at ho; simp at ho
      refine ⟨?_, ?_, ?_⟩
      · intro t1 o1 h1
        rcases happ t1 o1 h1 with ⟨rfl, rfl⟩ | h1
        · show (0 : Int) = _
          have : pointing ⟨s.refs, s.objs ++ [fresh v]⟩ s.objs.length = 0 := hnone
          omega
        · exact hi.cnt t1 o1 h1
      · intro q z t1 hz hzt
        obtain ⟨o1, h1, h2⟩ := hi.tgt q z t1 hz hzt
        exact ⟨o1, by simp only; rw [List.getElem?_append_left (List.getElem?_eq_some_iff.1 h1).1]; exact h1, h2⟩
      · intro t1 o1 h1
        rcases happ t1 o1 h1 with ⟨rfl, rfl⟩ | h1
        · simp [fresh]
        · exact hi.dead t1 o1 h1
    · intro _ hn
      have happ : ∀ (t1 : Nat) o1, (s.objs ++ [fresh v])[t1]? = some o1 → o1.anon = true →
          s.objs[t1]? = some o1 := by
        intro t1 o1 h1 ha
        rw [List.getElem?_append] at h1
        split at h1
        · exact h1
        · have : o1 = fresh v := by
            have := List.mem_of_getElem? h1
            simpa using this
          subst this; simp [fresh] at ha
      exact ⟨fun t1 o1 h1 ha hb => hn.own t1 o1 (happ t1 o1 h1 hb) ha hb,
        fun q z t1 o1 hz hzt h1 hb => hn.wr q z t1 o1 hz hzt (happ t1 o1 h1 hb) hb⟩
    · intro q hq _ _
      unfold read
      simp only
      cases hz : s.refs[q]? with
      | none => rfl
      | some z =>
        simp only
        cases ht : z.tgt with
        | none => rfl
        | some t =>
          obtain ⟨o, ho, _⟩ := hi.tgt q z t hz ht
          simp [List.getElem?_append_left (List.getElem?_eq_some_iff.1 ho).1]
  | newRef =>
    have happ : ∀ (k : Nat) z, (s.refs ++ [empty])[k]? = some z → z = empty ∨ s.refs[k]? = some z := by
      intro k z hk
      rw [List.getElem?_append] at hk
      split at hk
      · exact Or.inr hk
      · left; have := List.mem_of_getElem? hk; simpa using this
    refine ⟨_, true, rfl, ⟨?_, ?_, hi.dead⟩, ?_, ?_⟩
    · intro t o ho
      have : pointing ⟨s.refs ++ [empty], s.objs⟩ t = pointing s t := by
        simp [pointing, List.countP_append, empty]
      rw [this]; exact hi.cnt t o ho
    · intro q z t hz hzt
      rcases happ q z hz with rfl | hz
      · simp [empty] at hzt
      · exact hi.tgt q z t hz hzt
    · intro _ hn
      refine ⟨hn.own, ?_⟩
      intro q z t o hz hzt ho hb
      rcases happ q z hz with rfl | hz
      · simp [empty] at hzt
      · exact hn.wr q z t o hz hzt ho hb
    · intro q hq _ _
      unfold read
      simp only
      rw [List.getElem?_append_left hq]
  | attach r t f =>
    obtain ⟨hr, o, ho, hal⟩ := hv
    obtain ⟨x, hx⟩ := getr hr
    obtain ⟨s', ok, e, p⟩ := attach_post hi hx ho hal f
    exact ⟨s', ok, e, ofPost p (fun q hq => hq) (fun _ => trivial)⟩
  | copy r o f =>
    obtain ⟨hr, ho⟩ := hv
    obtain ⟨x, hx⟩ := getr hr
    obtain ⟨y, hy⟩ := getr ho
    obtain ⟨s', ok, e, p⟩ := copy_post hi hx hy f
    exact ⟨s', ok, e, ofPost p (fun q hq => hq) (fun h => h)⟩
  | xfer r o f =>
    obtain ⟨hr, ho⟩ := hv
    obtain ⟨x, hx⟩ := getr hr
    obtain ⟨y, hy⟩ := getr ho
    obtain ⟨s', ok, e, p⟩ := xfer_post hi hx hy f
    exact ⟨s', ok, e, ofPost p (fun q hq => hq) (fun h => h)⟩
  | privatize r f =>
    obtain ⟨x, hx⟩ := getr hv
    obtain ⟨s', ok, e, p⟩ := privatize_post hi hx f
    exact ⟨s', ok, e, ofPost p (fun q hq => hq) (fun h => h)⟩
  | change r f =>
    obtain ⟨x, hx⟩ := getr hv
    simp only [step, change, hx]
    by_cases ht : x.tgt = none
    · rw [if_pos ht]
      exact ⟨s, false, rfl, ofPost (Post.same hi (· = r) True) (fun q hq => hq) (fun _ => trivial)⟩
    · rw [if_neg ht]
      exact ⟨_, true, rfl, ofPost (flags_post hi hx ⟨x.tgt, lockedBy f x.locked, (if f.readonly = true then false else x.writable), sharedBy f x.shared⟩ rfl (f.readonly = false)
        (fun hf _ hw => by simp only [hf]; simpa using hw)) (fun q hq => hq) (fun h => h)⟩
  | lock r l =>
    obtain ⟨x, hx⟩ := getr hv
    simp only [step, setLock, hx]
    exact ⟨_, true, rfl, ofPost (flags_post hi hx ⟨x.tgt, l, x.writable, x.shared⟩ rfl True (fun _ _ hw => hw)) (fun q hq => hq) (fun _ => trivial)⟩
  | detach r =>
    obtain ⟨x, hx⟩ := getr hv
    rcases detach_post hi hx with ⟨_, _, hd⟩ | ⟨s', hd, p, _⟩
    · exact ⟨s, false, hd, ofPost (Post.same hi (· = r) True) (fun q hq => hq) (fun _ => trivial)⟩
    · exact ⟨s', true, hd, ofPost p (fun q hq => hq) (fun _ => trivial)⟩
  | destroy r =>
    obtain ⟨x, hx⟩ := getr hv
    obtain ⟨s', e, p, _⟩ := drop_post hi hx
    exact ⟨s', true, by simp [step, e], ofPost p (fun q hq => hq) (fun _ => trivial)⟩
  | write r v =>
    obtain ⟨x, hx⟩ := getr hv
    obtain ⟨s', ok, e, i', n', _, _, rd⟩ := write_spec hi hx v
    refine ⟨s', ok, e, i', fun _ => n', ?_⟩
    intro q hq hab hsh
    obtain ⟨z, hz⟩ := getr hq
    exact rd q z hab hz (fun hs => hsh r v x z rfl hx hs hz)

theorem init_inv : Inv ⟨[], []⟩ := ⟨by simp, by simp, by simp⟩

theorem reach_inv {s : State} (h : Reach s) : Inv s := by
  induction h with
  | init => exact init_inv
  | step _ hv he ih =>
    obtain ⟨s', ok, e, i', _⟩ := step_spec ih _ hv
    rw [he] at e; simp at e; obtain ⟨rfl, _⟩ := e; exact i'

theorem reachPlain_inv {s : State} (h : ReachPlain s) : Inv s ∧ NL s := by
  induction h with
  | init => exact ⟨init_inv, ⟨by simp, by simp⟩⟩
  | step _ hv hp he ih =>
    obtain ⟨s', ok, e, i', n', _⟩ := step_spec ih.1 _ hv
    rw [he] at e; simp at e; obtain ⟨rfl, _⟩ := e; exact ⟨i', n' hp ih.2⟩

theorem getR {l : List Ref} {r q : Nat} {x y : Ref} (h : (l.set r x)[q]? = some y) :
    (q = r ∧ y = x ∧ r < l.length) ∨ (q ≠ r ∧ l[q]? = some y) := by
  rw [List.getElem?_set] at h
  split at h
  · rename_i e
    split at h
    · rename_i hl; simp at h; exact Or.inl ⟨e.symm, h.symm, hl⟩
    · simp at h
  · rename_i e; exact Or.inr ⟨fun h => e h.symm, h⟩

/-- A reference's `shared_` after `drop`. -/
theorem drop_refs {s s' : State} {r q : Nat} {x' : Ref} (he : drop s r = some s') (h : s'.refs[q]? = some x') :
    s.refs[q]? = some x' ∨ (q = r ∧ x' = empty) := by
  unfold drop at he
  split at he
  · simp at he
  · rename_i x hx
    split at he
    · simp at he; subst he; exact Or.inl h
    · split at he
      · simp at he
      · split at he
        · split at he <;>
          · simp at he; subst he
            rcases getR h with ⟨e1, e2, _⟩ | ⟨_, h⟩
            · exact Or.inr ⟨e1, e2⟩
            · exact Or.inl h
        · simp at he

theorem detach_refs {s s' : State} {r q : Nat} {x' : Ref} {ok : Bool} (he : detach s r = some (s', ok))
    (h : s'.refs[q]? = some x') : s.refs[q]? = some x' ∨ (q = r ∧ x' = empty) := by
  unfold detach at he
  split at he
  · simp at he
  · split at he
    · simp at he; obtain ⟨rfl, _⟩ := he; exact Or.inl h
    · split at he
      · simp at he; obtain ⟨rfl, _⟩ := he; exact Or.inl h
      · simp only [Option.map_eq_some_iff] at he
        obtain ⟨s1, h1, h2⟩ := he
        simp at h2; obtain ⟨rfl, _⟩ := h2
        exact drop_refs h1 h

theorem cloneTarget_refs {s s' : State} {r q : Nat} {x' : Ref} {ro : Bool}
    (he : cloneTarget s r ro = some s') (h : s'.refs[q]? = some x') :
    s.refs[q]? = some x' ∨ (q = r ∧ x'.shared = false ∧ x'.locked = false) := by
  unfold cloneTarget at he
  split at he
  · simp at he
  · split at he
    · simp at he; subst he; exact Or.inl h
    · split at he
      · simp at he
      · split at he
        · simp at he; subst he
          rcases getR h with ⟨e1, e2, _⟩ | ⟨_, h⟩
          · exact Or.inr ⟨e1, by simp [e2], by simp [e2]⟩
          · exact Or.inl h
        · simp at he

theorem sharedBy_true {f : Flags} {b : Bool} (h : sharedBy f b = true) : f.shared = true ∨ b = true := by
  unfold sharedBy at h
  split at h
  · exact Or.inl ‹_›
  · split at h
    · simp at h
    · exact Or.inr h

theorem privatize_refs {s s' : State} {r q : Nat} {x' : Ref} {f : Flags} {ok : Bool}
    (he : privatize s r f = some (s', ok)) (h : s'.refs[q]? = some x') (hs : x'.shared = true) :
    (∃ x, s.refs[q]? = some x ∧ x.shared = true) ∨ (q = r ∧ f.shared = true) := by
  unfold privatize at he
  split at he
  · simp at he
  · rename_i x hx
    split at he
    · simp at he; obtain ⟨rfl, _⟩ := he; exact Or.inl ⟨x', h, hs⟩
    · split at he
      · simp at he
      · split at he
        · simp only at he
          split at he
          · simp at he
          · rename_i s1 hs1
            split at he
            · simp at he
            · rename_i y hy
              simp at he
              obtain ⟨rfl, _⟩ := he
              have back : ∀ q z, s1.refs[q]? = some z → s.refs[q]? = some z ∨ (q = r ∧ z.shared = false ∧ z.locked = false) := by
                intro q z hz
                split at hs1
                · exact cloneTarget_refs hs1 hz
                · simp at hs1; subst hs1; exact Or.inl hz
              rcases getR h with ⟨e1, e2, _⟩ | ⟨hne, h⟩
              · subst e1 e2
                rcases sharedBy_true hs with h1 | h1
                · exact Or.inr ⟨rfl, h1⟩
                · rcases back q y hy with h2 | ⟨_, h2, _⟩
                  · exact Or.inl ⟨y, h2, h1⟩
                  · simp [h2] at h1
              · rcases back q x' h with h2 | ⟨h2, _, _⟩
                · exact Or.inl ⟨x', h2, hs⟩
                · exact absurd h2 hne
        · simp at he

theorem shared_prov {s s' : State} {op : Op} {ok : Bool} (he : step s op = some (s', ok))
    (q : Nat) (x' : Ref) (hx' : s'.refs[q]? = some x') (hs : x'.shared = true) :
    (∃ x, s.refs[q]? = some x ∧ x.shared = true) ∨ (∃ f, FlagsFor op q f ∧ f.shared = true) ∨
    (∃ o y, SourceFor op q o ∧ s.refs[o]? = some y ∧ y.shared = true) := by
  have hkeep : ∀ {s1 ok r}, detach s r = some (s1, ok) → ∀ {q : Nat} {z : Ref}, s1.refs[q]? = some z → z.shared = true →
      s.refs[q]? = some z := by
    intro s1 ok r h q z hz hs
    rcases detach_refs h hz with h1 | ⟨_, h1⟩
    · exact h1
    · subst h1; simp [empty] at hs
  cases op with
  | newObj v => simp [step] at he; obtain ⟨rfl, _⟩ := he; exact Or.inl ⟨x', hx', hs⟩
  | newRef =>
    simp [step] at he; obtain ⟨rfl, _⟩ := he
    simp only at hx'
    rw [List.getElem?_append] at hx'
    split at hx'
    · exact Or.inl ⟨x', hx', hs⟩
    · have := List.mem_of_getElem? hx'
      simp at this; subst this; simp [empty] at hs
  | attach r t f =>
    simp only [step, attach] at he
    split at he
    · simp at he
    · split at he
      · simp at he; obtain ⟨rfl, _⟩ := he; exact Or.inl ⟨x', hx', hs⟩
      · split at he
        · simp at he
        · split at he
          · split at he
            · simp at he
            · rename_i hd; simp at he; obtain ⟨rfl, _⟩ := he; exact Or.inl ⟨x', hkeep hd hx' hs, hs⟩
            · rename_i s1 hd
              split at he
              · simp at he
              · split at he
                · simp at he; obtain ⟨rfl, _⟩ := he
                  rcases getR hx' with ⟨e1, e2, _⟩ | ⟨_, h⟩
                  · subst e1 e2; exact Or.inr (Or.inl ⟨f, ⟨rfl, rfl⟩, hs⟩)
                  · exact Or.inl ⟨x', hkeep hd h hs, hs⟩
                · simp at he; obtain ⟨rfl, _⟩ := he
                  rcases getR hx' with ⟨e1, e2, _⟩ | ⟨_, h⟩
                  · subst e1 e2; exact Or.inr (Or.inl ⟨f, ⟨rfl, rfl⟩, hs⟩)
                  · exact Or.inl ⟨x', hkeep hd h hs, hs⟩
          · simp at he
  | copy r o f =>
    simp only [step, copy] at he
    split at he
    · simp at he; obtain ⟨rfl, _⟩ := he; exact Or.inl ⟨x', hx', hs⟩
    · split at he
      · simp at he
      · rename_i hd; simp at he; obtain ⟨rfl, _⟩ := he; exact Or.inl ⟨x', hkeep hd hx' hs, hs⟩
      · rename_i s1 hd
        split at he
        · simp at he
        · rename_i y hy
          split at he
          · simp at he; obtain ⟨rfl, _⟩ := he
            rcases getR hx' with ⟨e1, e2, _⟩ | ⟨_, h⟩
            · subst e2; simp [empty] at hs
            · exact Or.inl ⟨x', hkeep hd h hs, hs⟩
          · split at he
            · simp at he
            · split at he
              · split at he
                · rcases privatize_refs he hx' hs with ⟨z, hz, hzs⟩ | ⟨h1, h2⟩
                  · rcases getR hz with ⟨e1, e2, _⟩ | ⟨_, h⟩
                    · subst e2; simp at hzs
                    · exact Or.inl ⟨z, hkeep hd h hzs, hzs⟩
                  · exact Or.inr (Or.inl ⟨f, ⟨h1, rfl⟩, h2⟩)
                · simp at he; obtain ⟨rfl, _⟩ := he
                  rcases getR hx' with ⟨e1, e2, _⟩ | ⟨_, h⟩
                  · subst e1 e2
                    rcases sharedBy_true hs with h1 | h1
                    · exact Or.inr (Or.inl ⟨f, ⟨rfl, rfl⟩, h1⟩)
                    · exact Or.inr (Or.inr ⟨o, y, ⟨rfl, rfl⟩, hkeep hd hy h1, h1⟩)
                  · exact Or.inl ⟨x', hkeep hd h hs, hs⟩
              · simp at he
  | xfer r o f =>
    simp only [step, xfer] at he
    split at he
    · simp at he; obtain ⟨rfl, _⟩ := he; exact Or.inl ⟨x', hx', hs⟩
    · split at he
      · simp at he
      · rename_i hd; simp at he; obtain ⟨rfl, _⟩ := he; exact Or.inl ⟨x', hkeep hd hx' hs, hs⟩
      · rename_i s1 hd
        split at he
        · simp at he
        · rename_i y hy
          split at he
          · simp at he; obtain ⟨rfl, _⟩ := he
            rcases getR hx' with ⟨e1, e2, _⟩ | ⟨_, h⟩
            · subst e2; simp [empty] at hs
            · exact Or.inl ⟨x', hkeep hd h hs, hs⟩
          · split at he
            · simp at he
            · split at he
              · have main : ∀ (w : Ref), w.shared = sharedBy f y.shared → ∀ (q : Nat) z,
                    ((s1.refs.set r w).set o empty)[q]? = some z → z.shared = true →
                    (∃ x, s.refs[q]? = some x ∧ x.shared = true) ∨
                    (∃ g, FlagsFor (.xfer r o f) q g ∧ g.shared = true) ∨
                    (∃ p y, SourceFor (.xfer r o f) q p ∧ s.refs[p]? = some y ∧ y.shared = true) := by
                  intro w hw q z hz hzs
                  rcases getR hz with ⟨_, e2, _⟩ | ⟨_, hz⟩
                  · subst e2; simp [empty] at hzs
                  · rcases getR hz with ⟨e1, e2, _⟩ | ⟨_, h⟩
                    · subst e1 e2
                      rw [hw] at hzs
                      rcases sharedBy_true hzs with h1 | h1
                      · exact Or.inr (Or.inl ⟨f, ⟨rfl, rfl⟩, h1⟩)
                      · exact Or.inr (Or.inr ⟨o, y, ⟨rfl, rfl⟩, hkeep hd hy h1, h1⟩)
                    · exact Or.inl ⟨z, hkeep hd h hzs, hzs⟩
                split at he
                · simp at he; obtain ⟨rfl, _⟩ := he; exact Or.inl ⟨x', hkeep hd hx' hs, hs⟩
                · split at he
                  · rcases privatize_refs he hx' hs with ⟨z, hz, hzs⟩ | ⟨h1, h2⟩
                    · rcases getR hz with ⟨e1, e2, _⟩ | ⟨_, h⟩
                      · subst e1 e2
                        simp only at hzs
                        rcases sharedBy_true hzs with h1 | h1
                        · exact Or.inr (Or.inl ⟨f, ⟨rfl, rfl⟩, h1⟩)
                        · exact Or.inr (Or.inr ⟨o, y, ⟨rfl, rfl⟩, hkeep hd hy h1, h1⟩)
                      · exact main _ rfl _ z h hzs
                    · exact Or.inr (Or.inl ⟨f, ⟨h1, rfl⟩, h2⟩)
                  · simp at he; obtain ⟨rfl, _⟩ := he
                    exact main _ rfl _ x' hx' hs
              · simp at he
  | privatize r f =>
    rcases privatize_refs he hx' hs with h | ⟨h1, h2⟩
    · exact Or.inl h
    · exact Or.inr (Or.inl ⟨f, ⟨h1, rfl⟩, h2⟩)
  | change r f =>
    simp only [step, change] at he
    split at he
    · simp at he
    · rename_i x hx
      split at he
      · simp at he; obtain ⟨rfl, _⟩ := he; exact Or.inl ⟨x', hx', hs⟩
      · simp at he; obtain ⟨rfl, _⟩ := he
        rcases getR hx' with ⟨e1, e2, _⟩ | ⟨_, h⟩
        · subst e1 e2
          rcases sharedBy_true hs with h1 | h1
          · exact Or.inr (Or.inl ⟨f, ⟨rfl, rfl⟩, h1⟩)
          · exact Or.inl ⟨x, hx, h1⟩
        · exact Or.inl ⟨x', h, hs⟩
  | lock r l =>
    simp only [step, setLock] at he
    split at he
    · simp at he
    · rename_i x hx
      simp at he; obtain ⟨rfl, _⟩ := he
      rcases getR hx' with ⟨e1, e2, _⟩ | ⟨_, h⟩
      · subst e1 e2; exact Or.inl ⟨x, hx, hs⟩
      · exact Or.inl ⟨x', h, hs⟩
  | detach r => exact Or.inl ⟨x', hkeep he hx' hs, hs⟩
  | destroy r =>
    simp only [step, Option.map_eq_some_iff] at he
    obtain ⟨s1, h1, h2⟩ := he
    simp at h2; obtain ⟨rfl, _⟩ := h2
    rcases drop_refs h1 hx' with h3 | ⟨_, h3⟩
    · exact Or.inl ⟨x', h3, hs⟩
    · subst h3; simp [empty] at hs
  | write r v =>
    simp only [step, write] at he
    split at he
    · simp at he
    · split at he
      · simp at he; obtain ⟨rfl, _⟩ := he; exact Or.inl ⟨x', hx', hs⟩
      · split at he
        · simp at he
        · split at he
          · split at he
            · simp at he
            · rename_i s1 ok1 hs1
              split at he
              · simp at he
              · split at he
                · simp at he
                · split at he
                  · simp at he
                  · simp at he; obtain ⟨rfl, _⟩ := he
                    split at hs1
                    · simp at hs1; obtain ⟨rfl, _⟩ := hs1; exact Or.inl ⟨x', hx', hs⟩
                    · rcases privatize_refs hs1 hx' hs with h | ⟨_, h2⟩
                      · exact Or.inl h
                      · simp at h2
          · simp at he

theorem detach_len {s s' : State} {r : Nat} {ok : Bool} (he : detach s r = some (s', ok)) :
    s'.refs.length = s.refs.length := by
  unfold detach at he
  split at he
  · simp at he
  · split at he
    · simp at he; obtain ⟨rfl, _⟩ := he; rfl
    · split at he
      · simp at he; obtain ⟨rfl, _⟩ := he; rfl
      · simp only [Option.map_eq_some_iff] at he
        obtain ⟨s1, h1, h2⟩ := he
        simp at h2; obtain ⟨rfl, _⟩ := h2
        unfold drop at h1
        split at h1
        · simp at h1
        · split at h1
          · simp at h1; subst h1; rfl
          · split at h1
            · simp at h1
            · split at h1
              · split at h1 <;> (simp at h1; subst h1; simp [setRef, setObj])
              · simp at h1

theorem lock_flag {s s' : State} {op : Op} (he : step s op = some (s', true)) :
    (∀ r l, op = .lock r l → ∃ x, s'.refs[r]? = some x ∧ x.locked = l) ∧
    (∀ r t f x, op = .attach r t f → s.refs[r]? = some x → x.tgt ≠ some t →
      ∃ x', s'.refs[r]? = some x' ∧ x'.locked = f.locked) ∧
    (∀ r o f y t, (op = .copy r o f ∨ op = .xfer r o f) → o ≠ r → s.refs[o]? = some y → y.tgt = some t →
      f.deep = false → r < s.refs.length → ∃ x', s'.refs[r]? = some x' ∧ x'.locked = f.locked) ∧
    (∀ r f, (op = .change r f ∨ op = .privatize r f) → ∃ x', s'.refs[r]? = some x' ∧
      (f.locked = true → x'.locked = true) ∧
      (f.locked = false → f.unlocked = true → x'.locked = false)) := by
  refine ⟨?_, ?_, ?_, ?_⟩
  · rintro r l rfl
    simp only [step, setLock] at he
    split at he
    · simp at he
    · rename_i x hx
      simp at he; subst he
      exact ⟨_, by simp [setRef, (List.getElem?_eq_some_iff.1 hx).1]; rfl, rfl⟩
  · rintro r t f x rfl hx ht
    have hr := (List.getElem?_eq_some_iff.1 hx).1
    simp only [step, attach, hx, if_neg ht] at he
    split at he
    · simp at he
    · split at he
      · split at he
        · simp at he
        · simp at he
        · rename_i s1 hd
          have hr1 : r < s1.refs.length := by rw [detach_len hd]; exact hr
          split at he
          · simp at he
          · split at he
            · simp at he; subst he
              exact ⟨_, by simp [hr1]; rfl, rfl⟩
            · simp at he; subst he
              exact ⟨_, by simp [setRef, setObj, hr1]; rfl, rfl⟩
      · simp at he
  · rintro r o f y t hop hne hy ht hd hr
    rcases hop with rfl | rfl
    · simp only [step, copy, if_neg hne] at he
      split at he
      · simp at he
      · simp at he
      · rename_i s1 hdt
        have hr1 : r < s1.refs.length := by rw [detach_len hdt]; exact hr
        have hy1 : s1.refs[o]? = some y := by
          cases hz : s1.refs[o]? with
          | none =>
            rw [List.getElem?_eq_none_iff, detach_len hdt, ← List.getElem?_eq_none_iff, hy] at hz; simp at hz
          | some z =>
            rcases detach_refs hdt hz with h | ⟨h, _⟩
            · rw [← hy, h]
            · exact absurd h hne
        simp only [hy1, ht, hd] at he
        split at he
        · simp at he
        · split at he
          · simp at he; subst he
            exact ⟨_, by simp [setRef, setObj, hr1]; rfl, rfl⟩
          · simp at he
    · simp only [step, xfer, if_neg hne] at he
      split at he
      · simp at he
      · simp at he
      · rename_i s1 hdt
        have hr1 : r < s1.refs.length := by rw [detach_len hdt]; exact hr
        have hy1 : s1.refs[o]? = some y := by
          cases hz : s1.refs[o]? with
          | none =>
            rw [List.getElem?_eq_none_iff, detach_len hdt, ← List.getElem?_eq_none_iff, hy] at hz; simp at hz
          | some z =>
            rcases detach_refs hdt hz with h | ⟨h, _⟩
            · rw [← hy, h]
            · exact absurd h hne
        simp only [hy1, ht, hd] at he
        split at he
        · simp at he
        · split at he
          · split at he
            · simp at he
            · simp at he; subst he
              exact ⟨_, by simp [setRef, hr1, hne]; rfl, rfl⟩
          · simp at he
  · rintro r f hop
    have hb : ∀ b, (f.locked = true → lockedBy f b = true) ∧
        (f.locked = false → f.unlocked = true → lockedBy f b = false) := by
      intro b; exact ⟨fun h => by simp [lockedBy, h], fun h h' => by simp [lockedBy, h, h']⟩
    rcases hop with rfl | rfl
    · simp only [step, change] at he
      split at he
      · simp at he
      · rename_i x hx
        split at he
        · simp at he
        · simp at he; subst he
          exact ⟨_, by simp [setRef, (List.getElem?_eq_some_iff.1 hx).1]; rfl, hb _⟩
    · simp only [step, privatize] at he
      split at he
      · simp at he
      · split at he
        · simp at he
        · split at he
          · simp at he
          · split at he
            · split at he
              · simp at he
              · split at he
                · simp at he
                · rename_i y hy
                  simp at he; subst he
                  exact ⟨_, by simp [setRef, (List.getElem?_eq_some_iff.1 hy).1]; rfl, hb _⟩
            · simp at he

end Verif.CRef
