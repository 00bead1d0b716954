import Verif.Spec.FlagNodes
import Verif.Props.Vells
/-! # Lemmas on flags -/
namespace Verif.FlagNodes
open Verif.Vells

theorem onGrid_none (G) : OnGrid G none := fun _ h => by cases h

theorem onGrid_some {G} {a : Arr Flag} (h : a.Wf) (hb : Broadcasts a.shape G) : OnGrid G (some a) := by
  intro x hx
  cases hx
  exact ⟨h, hb⟩

/-- Reading at a point of the grid is reading at the point with the constant axes of a shape in between dropped. -/
theorem at_coll {α} (a : Arr α) (m : List Nat) (hb : Broadcasts a.shape m) (idx : Nat → Nat) : a.at (coll m idx) = a.at idx := by
  rw [at_eq, at_eq]
  congr 1
  apply pos_congr
  intro i _
  unfold coll
  have := hb.2 i
  by_cases h1 : ext a.shape i = 1
  · simp [h1]
  · rw [if_neg h1, if_neg h1, if_neg (by omega)]

theorem coll_inside {m G : List Nat} (hb : Broadcasts m G) {idx : Nat → Nat} (hi : Inside G idx) : Inside m (coll m idx) := by
  intro i
  unfold coll
  have := hb.2 i
  have := hi i
  split <;> omega

theorem broadcasts_refl (s : List Nat) : Broadcasts s s := ⟨Nat.le_refl _, fun _ => Or.inr rfl⟩

theorem or_grid {G} {a b : Arr Flag} (ha : OnGrid G (some a)) (hb : OnGrid G (some b)) :
    ∃ r, orInto a b = .ok r ∧ OnGrid G (some r) ∧
      ∀ idx, Inside G idx → flagAt (some r) idx = flagAt (some a) idx ||| flagAt (some b) idx := by
  obtain ⟨wa, ba⟩ := ha a rfl
  obtain ⟨wb, bb⟩ := hb b rfl
  obtain ⟨m, hm, bm⟩ := (C37_least a.shape b.shape).2 G ba bb
  obtain ⟨y, e1, e2, e3, e4⟩ := (C38_binary (fun x y : Flag => x ||| y) a b wa wb).2 m hm
  refine ⟨y, by unfold orInto; rw [C38_in_place _ _ _ wa wb, e1], onGrid_some e3 (by rw [e2]; exact bm), fun idx hi => ?_⟩
  obtain ⟨u, v, h1, h2, h3⟩ := e4 _ (coll_inside bm hi)
  obtain ⟨b1, b2⟩ := merge_bounds hm
  rw [at_coll a m b1] at h1
  rw [at_coll b m b2] at h2
  rw [at_coll y m (by rw [e2]; exact broadcasts_refl m)] at h3
  simp only [flagAt, h1, h2, h3, Option.getD_some]

theorem mask_grid {G} {a : Arr Flag} (ha : OnGrid G (some a)) (m : Flag) :
    OnGrid G (some (maskArr a m)) ∧ ∀ idx, flagAt (some (maskArr a m)) idx = flagAt (some a) idx &&& m := by
  obtain ⟨wa, ba⟩ := ha a rfl
  refine ⟨onGrid_some ⟨wa.1, by simp [maskArr, wa.2]⟩ ba, fun idx => ?_⟩
  show ((maskArr a m).at idx).getD 0 = (a.at idx).getD 0 &&& m
  rw [at_eq, at_eq]
  show (List.map _ a.data)[pos a.shape.length a.shape (coll a.shape idx)]?.getD 0 = _
  rw [List.getElem?_map]
  cases a.data[pos a.shape.length a.shape (coll a.shape idx)]? with
  | none => show (0#32 : BitVec 32) = 0#32 &&& m; simp
  | some v => rfl

theorem fullMask_and (f : Flag) : f &&& fullMask = f := by
  have : fullMask = BitVec.allOnes 32 := by decide
  rw [this, BitVec.and_allOnes]

theorem merge_grid {G} (f0 : Option (Arr Flag)) (f1 : Arr Flag) (fm : Flag) (h0 : OnGrid G f0) (h1 : OnGrid G (some f1)) :
    ∃ r, mergeFlags f0 f1 fm = .ok r ∧ OnGrid G r ∧ (r = none ↔ f0 = none ∧ fm = 0) ∧
      ∀ idx, Inside G idx → flagAt r idx = flagAt f0 idx ||| (flagAt (some f1) idx &&& fm) := by
  unfold mergeFlags
  by_cases hz : fm = 0
  · rw [if_pos hz]
    refine ⟨f0, rfl, h0, by simp [hz], fun idx _ => ?_⟩
    rw [hz]; simp
  rw [if_neg hz]
  cases f0 with
  | none =>
    dsimp only
    by_cases hf : fm = fullMask
    · rw [if_neg (by simp [hf])]
      refine ⟨_, rfl, h1, by simp; exact hz, fun idx _ => ?_⟩
      rw [hf, fullMask_and]
      show _ = 0#32 ||| _
      simp
    · rw [if_pos hf]
      obtain ⟨g, e⟩ := mask_grid h1 fm
      refine ⟨_, rfl, g, by simp; exact hz, fun idx _ => ?_⟩
      rw [e]
      show _ = 0#32 ||| _
      simp
  | some a =>
    dsimp only
    by_cases hf : fm = fullMask
    · rw [if_pos hf]
      obtain ⟨r, e1, e2, e3⟩ := or_grid h0 h1
      rw [e1]
      refine ⟨some r, rfl, e2, by simp, fun idx hi => ?_⟩
      rw [e3 idx hi, hf, fullMask_and]
    · rw [if_neg hf]
      obtain ⟨g, e⟩ := mask_grid h1 fm
      obtain ⟨r, e1, e2, e3⟩ := or_grid h0 g
      rw [e1]
      refine ⟨some r, rfl, e2, by simp, fun idx hi => ?_⟩
      rw [e3 idx hi, e]

theorem has_or (f g : Flag) (b : Nat) : Has (f ||| g) b ↔ Has f b ∨ Has g b := by
  unfold Has
  rw [BitVec.getLsbD_or, Bool.or_eq_true]

theorem has_and (f g : Flag) (b : Nat) : Has (f &&& g) b ↔ Has f b ∧ Has g b := by
  unfold Has
  rw [BitVec.getLsbD_and, Bool.and_eq_true]

theorem has_zero (b : Nat) : ¬ Has 0 b := by simp [Has]

theorem zero_iff (f : Flag) : f = 0 ↔ ∀ b, ¬ Has f b := by
  constructor
  · rintro rfl b; exact has_zero b
  · intro h
    apply BitVec.eq_of_getLsbD_eq
    intro i _
    have := h i
    unfold Has at this
    simp [Bool.not_eq_true] at this
    simpa using this

theorem mergeOpt_grid {G} (f0 f1 : Option (Arr Flag)) (fm : Flag) (h0 : OnGrid G f0) (h1 : OnGrid G f1) :
    ∃ r, mergeOpt f0 f1 fm = .ok r ∧ OnGrid G r ∧ (r = none ↔ f0 = none ∧ (f1 = none ∨ fm = 0)) ∧
      ∀ idx, Inside G idx → ∀ b, Has (flagAt r idx) b ↔ Has (flagAt f0 idx) b ∨ Sees f1 fm idx b := by
  unfold mergeOpt
  cases f1 with
  | none =>
    refine ⟨f0, rfl, h0, by simp, fun idx _ b => ?_⟩
    have : ¬ Sees none fm idx b := fun h => has_zero b h.1
    simp [this]
  | some f =>
    obtain ⟨r, e1, e2, e3, e4⟩ := merge_grid f0 f fm h0 h1
    refine ⟨r, e1, e2, by rw [e3]; simp, fun idx hi b => ?_⟩
    rw [e4 idx hi, has_or, has_and]
    rfl

theorem mergeList_grid {G} (l : List (Option (Arr Flag) × Flag)) (hl : ∀ c ∈ l, OnGrid G c.1) :
    ∀ f0, OnGrid G f0 → ∃ r, mergeList f0 l = .ok r ∧ OnGrid G r ∧
      (r = none ↔ f0 = none ∧ ∀ c ∈ l, c.1 = none ∨ c.2 = 0) ∧
      ∀ idx, Inside G idx → ∀ b, Has (flagAt r idx) b ↔ Has (flagAt f0 idx) b ∨ ∃ c ∈ l, Sees c.1 c.2 idx b := by
  induction l with
  | nil => exact fun f0 h0 => ⟨f0, rfl, h0, by simp, fun idx _ b => by simp⟩
  | cons c l ih =>
    intro f0 h0
    obtain ⟨r, e1, e2, e3, e4⟩ := mergeOpt_grid f0 c.1 c.2 h0 (hl c List.mem_cons_self)
    obtain ⟨s, g1, g2, g3, g4⟩ := ih (fun c hc => hl c (List.mem_cons_of_mem _ hc)) r e2
    refine ⟨s, ?_, g2, ?_, fun idx hi b => ?_⟩
    · show (mergeOpt f0 c.1 c.2).bind _ = _
      rw [e1]; exact g1
    · rw [g3, e3]
      simp only [List.forall_mem_cons]
      tauto
    · rw [g4 idx hi, e4 idx hi]
      simp only [List.mem_cons, or_and_right, exists_or, exists_eq_left]
      tauto

theorem tensorLoop_grid {G} (l : List (List (Option (Arr Flag)) × Flag)) (hl : ∀ c ∈ l, ∀ f ∈ c.1, OnGrid G f) :
    ∀ f0, OnGrid G f0 → ∃ r, tensorLoop f0 l = .ok r ∧ OnGrid G r ∧
      (r = none ↔ f0 = none ∧ ∀ c ∈ l, ∀ f ∈ c.1, f = none ∨ c.2 = 0) ∧
      ∀ idx, Inside G idx → ∀ b, Has (flagAt r idx) b ↔ Has (flagAt f0 idx) b ∨ ∃ c ∈ l, ∃ f ∈ c.1, Sees f c.2 idx b := by
  induction l with
  | nil => exact fun f0 h0 => ⟨f0, rfl, h0, by simp, fun idx _ b => by simp⟩
  | cons c l ih =>
    intro f0 h0
    obtain ⟨fs, m⟩ := c
    have ih' := ih fun c hc => hl c (List.mem_cons_of_mem _ hc)
    have hc : ∃ cf, (if m ≠ 0 then mergeList none (fs.map fun f => (f, m)) else .ok none) = .ok cf ∧ OnGrid G cf ∧
        (cf = none ↔ ∀ f ∈ fs, f = none ∨ m = 0) ∧
        ∀ idx, Inside G idx → ∀ b, Has (flagAt cf idx) b ↔ ∃ f ∈ fs, Sees f m idx b := by
      by_cases hm : m = 0
      · rw [if_neg (by simpa using hm)]
        refine ⟨none, rfl, onGrid_none G, by simp [hm], fun idx _ b => ?_⟩
        refine ⟨fun h => absurd h (has_zero b), ?_⟩
        rintro ⟨f, _, h⟩
        rw [hm] at h
        exact absurd h.2 (has_zero b)
      · rw [if_pos hm]
        obtain ⟨r, e1, e2, e3, e4⟩ := mergeList_grid (G := G) (fs.map fun f => (f, m))
          (by simp only [List.mem_map]; rintro _ ⟨f, hf, rfl⟩; exact hl _ List.mem_cons_self f hf) none (onGrid_none G)
        refine ⟨r, e1, e2, by rw [e3]; simp, fun idx hi b => ?_⟩
        rw [e4 idx hi]
        have := has_zero b
        simp only [flagAt, this, false_or, List.mem_map]
        constructor
        · rintro ⟨_, ⟨f, hf, rfl⟩, h⟩; exact ⟨f, hf, h⟩
        · rintro ⟨f, hf, h⟩; exact ⟨_, ⟨f, hf, rfl⟩, h⟩
    obtain ⟨cf, e1, e2, e3, e4⟩ := hc
    unfold tensorLoop
    rw [e1]
    dsimp only [Res.bind]
    have q1 : (∀ c ∈ (fs, m) :: l, ∀ f ∈ c.1, f = none ∨ c.2 = 0) ↔
        (∀ f ∈ fs, f = none ∨ m = 0) ∧ ∀ c ∈ l, ∀ f ∈ c.1, f = none ∨ c.2 = 0 := List.forall_mem_cons
    have q2 : ∀ idx b, (∃ c ∈ (fs, m) :: l, ∃ f ∈ c.1, Sees f c.2 idx b) ↔
        (∃ f ∈ fs, Sees f m idx b) ∨ ∃ c ∈ l, ∃ f ∈ c.1, Sees f c.2 idx b := by
      intro idx b
      simp only [List.mem_cons, or_and_right, exists_or, exists_eq_left]
    rw [q1]
    simp only [q2]
    cases cf with
    | none =>
      obtain ⟨r, g1, g2, g3, g4⟩ := ih' f0 h0
      refine ⟨r, g1, g2, ?_, fun idx hi b => ?_⟩
      · rw [g3]; have := e3.1 rfl; tauto
      · rw [g4 idx hi]
        rw [eq_false ((e4 idx hi b).not.1 (has_zero b)), false_or]
    | some a =>
      have hn : ¬ ∀ f ∈ fs, f = none ∨ m = 0 := fun h => by cases e3.2 h
      cases f0 with
      | none =>
        obtain ⟨r, g1, g2, g3, g4⟩ := ih' (some a) e2
        refine ⟨r, g1, g2, ?_, fun idx hi b => ?_⟩
        · rw [g3]; simp only [reduceCtorEq, false_and, true_and]; tauto
        · rw [g4 idx hi, e4 idx hi]
          have := has_zero b
          simp only [flagAt, this, false_or]
      | some a0 =>
        obtain ⟨o, o1, o2, o3⟩ := or_grid h0 e2
        obtain ⟨r, g1, g2, g3, g4⟩ := ih' (some o) o2
        refine ⟨r, ?_, g2, ?_, fun idx hi b => ?_⟩
        · dsimp only
          rw [o1]; exact g1
        · rw [g3]; simp
        · rw [g4 idx hi, o3 idx hi, has_or, e4 idx hi, or_assoc]

/-! ## MergeFlags -/

/-- What one element becomes: what it carries stays, and it gets the bits of the sources given. -/
def Gets {V} (G : List Nat) (v w : V × Option (Arr Flag)) (src : (Nat → Nat) → Nat → Prop) : Prop :=
  w.1 = v.1 ∧ OnGrid G w.2 ∧ ∀ idx, Inside G idx → ∀ b, Has (flagAt w.2 idx) b ↔ Has (flagAt v.2 idx) b ∨ src idx b

theorem mergeChild_grid {V G} (v : V × Option (Arr Flag)) (f : Option (Arr Flag)) (fm : Flag) (h0 : OnGrid G v.2) (h1 : OnGrid G f) :
    ∃ w, mergeChild v f fm = .ok w ∧ Gets G v w fun idx b => Sees f fm idx b := by
  obtain ⟨r, e1, e2, _, e4⟩ := mergeOpt_grid v.2 f fm h0 h1
  exact ⟨(v.1, r), by unfold mergeChild; rw [e1]; rfl, rfl, e2, e4⟩

theorem mergeAllInto_grid {V G} (v : V × Option (Arr Flag)) (src : List (Option (Arr Flag))) (fm : Flag) (h0 : OnGrid G v.2)
    (h1 : ∀ f ∈ src, OnGrid G f) :
    ∃ w, mergeAllInto v src fm = .ok w ∧ Gets G v w fun idx b => ∃ f ∈ src, Sees f fm idx b := by
  obtain ⟨r, e1, e2, _, e4⟩ := mergeList_grid (G := G) (src.map fun f => (f, fm))
    (by simp only [List.mem_map]; rintro _ ⟨f, hf, rfl⟩; exact h1 f hf) v.2 h0
  refine ⟨(v.1, r), by unfold mergeAllInto; rw [e1]; rfl, rfl, e2, fun idx hi b => ?_⟩
  rw [e4 idx hi]
  simp only [List.mem_map]
  constructor
  · rintro (h | ⟨_, ⟨f, hf, rfl⟩, h⟩)
    · exact Or.inl h
    · exact Or.inr ⟨f, hf, h⟩
  · rintro (h | ⟨f, hf, h⟩)
    · exact Or.inl h
    · exact Or.inr ⟨_, ⟨f, hf, rfl⟩, h⟩

/-- Element by element. -/
def GetsAll {V} (G : List Nat) (l l' : List (V × Option (Arr Flag))) (src : Nat → (Nat → Nat) → Nat → Prop) : Prop :=
  l'.length = l.length ∧ ∀ k v w, l[k]? = some v → l'[k]? = some w → Gets G v w (src k)

theorem getsAll_nil {V G} (src) : GetsAll (V := V) G [] [] src := ⟨rfl, fun k v w h => by simp at h⟩

theorem getsAll_cons {V G} {v w : V × Option (Arr Flag)} {l l'} {src : Nat → (Nat → Nat) → Nat → Prop} (h : Gets G v w (src 0))
    (hl : GetsAll G l l' fun k => src (k + 1)) : GetsAll G (v :: l) (w :: l') src := by
  refine ⟨by simp [hl.1], fun k v' w' h1 h2 => ?_⟩
  cases k with
  | zero =>
    simp only [List.getElem?_cons_zero, Option.some.injEq] at h1 h2
    subst h1 h2; exact h
  | succ k =>
    simp only [List.getElem?_cons_succ] at h1 h2
    exact hl.2 k v' w' h1 h2

theorem eachElement_grid {V G} (g : V × Option (Arr Flag) → Res (V × Option (Arr Flag))) (src : (Nat → Nat) → Nat → Prop)
    (l : List (V × Option (Arr Flag))) (hg : ∀ v ∈ l, ∃ w, g v = .ok w ∧ Gets G v w src) :
    ∃ l', eachElement g l = .ok l' ∧ GetsAll G l l' fun _ => src := by
  induction l with
  | nil => exact ⟨[], rfl, getsAll_nil _⟩
  | cons v l ih =>
    obtain ⟨w, e1, e2⟩ := hg v List.mem_cons_self
    obtain ⟨l', g1, g2⟩ := ih fun v hv => hg v (List.mem_cons_of_mem _ hv)
    refine ⟨w :: l', ?_, getsAll_cons e2 g2⟩
    unfold eachElement
    rw [e1]
    dsimp only [Res.bind]
    rw [g1]

theorem eachPair_grid {V G} (fm : Flag) (l : List (V × Option (Arr Flag))) : ∀ (fs : List (Option (Arr Flag))), fs.length = l.length →
    (∀ v ∈ l, OnGrid G v.2) → (∀ f ∈ fs, OnGrid G f) →
    ∃ l', eachPair fm l fs = .ok l' ∧ GetsAll G l l' fun k idx b => ∃ f, fs[k]? = some f ∧ Sees f fm idx b := by
  induction l with
  | nil => exact fun fs _ _ _ => ⟨[], rfl, getsAll_nil _⟩
  | cons v l ih =>
    intro fs hl h0 h1
    cases fs with
    | nil => simp at hl
    | cons f fs =>
      obtain ⟨w, e1, e2⟩ := mergeChild_grid (G := G) v f fm (h0 v List.mem_cons_self) (h1 f List.mem_cons_self)
      obtain ⟨l', g1, g2⟩ := ih fs (by simpa using hl) (fun v hv => h0 v (List.mem_cons_of_mem _ hv))
        (fun v hv => h1 v (List.mem_cons_of_mem _ hv))
      refine ⟨w :: l', ?_, getsAll_cons ?_ g2⟩
      · unfold eachPair
        rw [e1]
        dsimp only [Res.bind]
        rw [g1]
      · refine ⟨e2.1, e2.2.1, fun idx hi b => ?_⟩
        rw [e2.2.2 idx hi b]
        simp

theorem gets_mono {V G} {v w : V × Option (Arr Flag)} {s t : (Nat → Nat) → Nat → Prop} (h : Gets G v w s)
    (hst : ∀ idx b, s idx b ↔ t idx b) : Gets G v w t :=
  ⟨h.1, h.2.1, fun idx hi b => by rw [h.2.2 idx hi b, hst]⟩

/-- A child with which the dimensions clash. -/
def Clash {V} (mergeAll : Bool) (dims0 : List Nat) (c : Flag × Result V) : Prop :=
  c.1 ≠ 0 ∧ c.2.vs ≠ [] ∧ mergeAll = false ∧ dims0 ≠ c.2.dims ∧ dims0 ≠ [] ∧ c.2.dims ≠ []

/-- The bits one child brings to element `k`. -/
def Brings {V} (mergeAll : Bool) (dims0 : List Nat) (c : Flag × Result V) (k : Nat) (idx : Nat → Nat) (b : Nat) : Prop :=
  ∃ j s, c.2.vs[j]? = some s ∧ Reaches mergeAll dims0 c.2.dims k j ∧ Sees s.2 c.1 idx b

theorem exists_src {V} (l : List (V × Option (Arr Flag))) (P : Option (Arr Flag) → Prop) :
    (∃ f ∈ l.map (·.2), P f) ↔ ∃ (j : Nat) (s : V × Option (Arr Flag)), l[j]? = some s ∧ P s.2 := by
  constructor
  · rintro ⟨f, hf, h⟩
    obtain ⟨s, hs, rfl⟩ := List.mem_map.1 hf
    obtain ⟨j, hj⟩ := List.getElem?_of_mem hs
    exact ⟨j, s, hj, h⟩
  · rintro ⟨j, s, hj, h⟩
    exact ⟨s.2, List.mem_map_of_mem (List.mem_of_getElem? hj), h⟩

theorem mergeOne_clash {V} (mergeAll : Bool) (r : Result V) (c : Flag × Result V) (h : Clash mergeAll r.dims c) :
    mergeOneChild mergeAll r c.1 c.2 = .err := by
  obtain ⟨h1, h2, h3, h4, h5, h6⟩ := h
  unfold mergeOneChild
  rw [if_neg h1, if_neg (by simpa using h2), h3]
  simp only [Bool.false_eq_true, if_false]
  rw [if_neg h4, if_neg h6, if_neg h5]

theorem mergeOne_grid {V G} (mergeAll : Bool) (r : Result V) (c : Flag × Result V) (hr : ∀ v ∈ r.vs, OnGrid G v.2)
    (hc : ∀ v ∈ c.2.vs, OnGrid G v.2) (sr : Shaped r) (sc : Shaped c.2) (hn : r.vs ≠ []) (h : ¬ Clash mergeAll r.dims c) :
    ∃ l, mergeOneChild mergeAll r c.1 c.2 = .ok ⟨r.dims, l⟩ ∧ GetsAll G r.vs l (Brings mergeAll r.dims c) := by
  obtain ⟨dims, vs⟩ := r
  obtain ⟨fm, cd, cv⟩ := c
  dsimp only at hr hc hn
  have same : ∀ (P : Nat → (Nat → Nat) → Nat → Prop), (∀ k idx b, ¬ P k idx b) → GetsAll G vs vs P := by
    intro P hP
    refine ⟨rfl, fun k v w h1 h2 => ?_⟩
    rw [h1] at h2
    cases h2
    refine ⟨rfl, hr v (List.mem_of_getElem? h1), fun idx _ b => ?_⟩
    simp [hP k idx b]
  have mono : ∀ {l l' : List (V × Option (Arr Flag))} {P Q : Nat → (Nat → Nat) → Nat → Prop}, GetsAll G l l' P →
      (∀ k, k < l.length → ∀ idx b, P k idx b ↔ Q k idx b) → GetsAll G l l' Q := by
    intro l l' P Q hg hpq
    refine ⟨hg.1, fun k v w h1 h2 => gets_mono (hg.2 k v w h1 h2) (hpq k ?_)⟩
    exact (List.getElem?_eq_some_iff.1 h1).1
  have hsrc : ∀ f ∈ cv.map (·.2), OnGrid G f := by
    intro f hf
    obtain ⟨s, hs, rfl⟩ := List.mem_map.1 hf
    exact hc s hs
  unfold mergeOneChild
  dsimp only
  by_cases h1 : fm = 0
  · rw [if_pos h1]
    refine ⟨vs, rfl, same _ ?_⟩
    rintro k idx b ⟨j, s, _, _, hs⟩
    dsimp only at hs
    rw [h1] at hs
    exact has_zero b hs.2
  rw [if_neg h1]
  by_cases h2 : cv.length = 0
  · rw [if_pos h2]
    have : cv = [] := List.eq_nil_of_length_eq_zero h2
    subst this
    refine ⟨vs, rfl, same _ ?_⟩
    rintro k idx b ⟨j, s, hs, _⟩
    simp at hs
  rw [if_neg h2]
  have hcv : cv ≠ [] := by simpa using h2
  by_cases h3 : mergeAll = true
  · rw [if_pos h3]
    obtain ⟨l', e1, e2⟩ := eachElement_grid (G := G) (fun v => mergeAllInto v (cv.map (·.2)) fm)
      (fun idx b => ∃ f ∈ cv.map (·.2), Sees f fm idx b) vs (fun v hv => mergeAllInto_grid v _ fm (hr v hv) hsrc)
    rw [e1]
    refine ⟨l', rfl, mono e2 fun k _ idx b => ?_⟩
    rw [exists_src cv fun f => Sees f fm idx b]
    unfold Brings Reaches
    simp only [h3, true_or, true_and]
  rw [if_neg h3]
  have h3' : mergeAll = false := by simpa using h3
  by_cases h4 : dims = cd
  · rw [if_pos h4]
    subst h4
    have hlen : (cv.map (·.2)).length = vs.length := by
      rw [List.length_map]
      rcases sr with h | h
      · exact absurd h hn
      rcases sc with h' | h'
      · exact absurd h' hcv
      dsimp only at h h'
      rw [h, h']
    obtain ⟨l', e1, e2⟩ := eachPair_grid (G := G) fm vs (cv.map (·.2)) hlen hr hsrc
    rw [e1]
    refine ⟨l', rfl, mono e2 fun k _ idx b => ?_⟩
    unfold Brings Reaches
    simp only [List.getElem?_map, Option.map_eq_some_iff, h3', Bool.false_eq_true, false_or, ne_eq, not_true, false_and, or_false,
      true_and]
    constructor
    · rintro ⟨f, ⟨s, hs, rfl⟩, h⟩; exact ⟨k, s, hs, rfl, h⟩
    · rintro ⟨j, s, hs, rfl, h⟩; exact ⟨s.2, ⟨s, hs, rfl⟩, h⟩
  rw [if_neg h4]
  by_cases h5 : cd = []
  · rw [if_pos h5]
    cases cv with
    | nil => exact absurd rfl hcv
    | cons s cv' =>
      have h1l : cv' = [] := by
        rcases sc with h' | h'
        · simp at h'
        · subst h5
          simpa using h'
      subst h1l
      dsimp only
      obtain ⟨l', e1, e2⟩ := eachElement_grid (G := G) (fun v => mergeChild v s.2 fm)
        (fun idx b => Sees s.2 fm idx b) vs (fun v hv => mergeChild_grid v _ fm (hr v hv) (hc s List.mem_cons_self))
      rw [e1]
      refine ⟨l', rfl, mono e2 fun k _ idx b => ?_⟩
      unfold Brings Reaches
      constructor
      · intro h; exact ⟨0, s, rfl, Or.inr (Or.inr ⟨h4, Or.inr h5⟩), h⟩
      · rintro ⟨j, t, ht, _, h⟩
        have : t ∈ [s] := List.mem_of_getElem? ht
        rw [List.mem_singleton] at this
        rw [← this]; exact h
  rw [if_neg h5]
  by_cases h6 : dims = []
  · rw [if_pos h6]
    cases vs with
    | nil => exact absurd rfl hn
    | cons v vs' =>
      have h1l : vs' = [] := by
        rcases sr with h' | h'
        · simp at h'
        · subst h6
          simpa using h'
      subst h1l
      dsimp only
      obtain ⟨w, e1, e2⟩ := mergeAllInto_grid (G := G) v (cv.map (·.2)) fm (hr v List.mem_cons_self) hsrc
      rw [e1]
      refine ⟨[w], rfl, getsAll_cons (gets_mono e2 fun idx b => ?_) (getsAll_nil _)⟩
      rw [exists_src cv fun f => Sees f fm idx b]
      unfold Brings Reaches
      constructor
      · rintro ⟨j, s, hs, h⟩; exact ⟨j, s, hs, Or.inr (Or.inr ⟨h4, Or.inl h6⟩), h⟩
      · rintro ⟨j, s, hs, _, h⟩; exact ⟨j, s, hs, h⟩
  · exact absurd ⟨h1, hcv, h3', h4, h6, h5⟩ h

theorem mergeChildren_grid {V G} (mergeAll : Bool) (others : List (Flag × Result V)) : ∀ (r : Result V), (∀ v ∈ r.vs, OnGrid G v.2) →
    (∀ c ∈ others, ∀ v ∈ c.2.vs, OnGrid G v.2) → Shaped r → (∀ c ∈ others, Shaped c.2) → r.vs ≠ [] →
    ((∃ c ∈ others, Clash mergeAll r.dims c) → mergeChildren mergeAll r others = .err) ∧
    ((∀ c ∈ others, ¬ Clash mergeAll r.dims c) → ∃ l, mergeChildren mergeAll r others = .ok ⟨r.dims, l⟩ ∧
      GetsAll G r.vs l fun k idx b => ∃ c ∈ others, Brings mergeAll r.dims c k idx b) := by
  induction others with
  | nil =>
    intro r hr _ _ _ _
    refine ⟨by simp, fun _ => ⟨r.vs, rfl, rfl, fun k v w h1 h2 => ?_⟩⟩
    rw [h1] at h2
    cases h2
    exact ⟨rfl, hr v (List.mem_of_getElem? h1), fun idx _ b => by simp⟩
  | cons c others ih =>
    intro r hr hc sr sc hn
    by_cases hcl : Clash mergeAll r.dims c
    · refine ⟨fun _ => ?_, fun h => absurd hcl (h c List.mem_cons_self)⟩
      show (mergeOneChild mergeAll r c.1 c.2).bind _ = _
      rw [mergeOne_clash mergeAll r c hcl]
      rfl
    obtain ⟨l, e1, e2⟩ := mergeOne_grid (G := G) mergeAll r c hr (hc c List.mem_cons_self) sr (sc c List.mem_cons_self) hn hcl
    have step : mergeChildren mergeAll r (c :: others) = mergeChildren mergeAll ⟨r.dims, l⟩ others := by
      show (mergeOneChild mergeAll r c.1 c.2).bind _ = _
      rw [e1]
      rfl
    have hl : ∀ v ∈ l, OnGrid G v.2 := by
      intro w hw
      obtain ⟨k, hk⟩ := List.getElem?_of_mem hw
      have hkl : k < r.vs.length := by rw [← e2.1]; exact (List.getElem?_eq_some_iff.1 hk).1
      exact (e2.2 k _ w (List.getElem?_eq_getElem hkl) hk).2.1
    have hsl : Shaped (⟨r.dims, l⟩ : Result V) := by
      rcases sr with h | h
      · exact absurd h hn
      · exact Or.inr (by rw [e2.1]; exact h)
    have hln : l ≠ [] := by
      intro h
      have := e2.1
      rw [h] at this
      exact hn (List.eq_nil_of_length_eq_zero this.symm)
    obtain ⟨i1, i2⟩ := ih ⟨r.dims, l⟩ hl (fun c hc' => hc c (List.mem_cons_of_mem _ hc')) hsl
      (fun c hc' => sc c (List.mem_cons_of_mem _ hc')) hln
    rw [step]
    refine ⟨?_, fun h => ?_⟩
    · rintro ⟨c', hc', h⟩
      rcases List.mem_cons.1 hc' with rfl | hc'
      · exact absurd h hcl
      · exact i1 ⟨c', hc', h⟩
    · obtain ⟨l', g1, g2⟩ := i2 fun c hc' => h c (List.mem_cons_of_mem _ hc')
      refine ⟨l', g1, by rw [g2.1]; exact e2.1, fun k v w h1 h2 => ?_⟩
      have hkl : k < l.length := by rw [e2.1]; exact (List.getElem?_eq_some_iff.1 h1).1
      have a1 := e2.2 k v _ h1 (List.getElem?_eq_getElem hkl)
      have a2 := g2.2 k _ w (List.getElem?_eq_getElem hkl) h2
      refine ⟨a2.1.trans a1.1, a2.2.1, fun idx hi b => ?_⟩
      rw [a2.2.2 idx hi b, a1.2.2 idx hi b]
      dsimp only
      rw [or_assoc]
      simp only [List.mem_cons, or_and_right, exists_or, exists_eq_left]

/-! ## ZeroFlagger -/

theorem foldl_or_has (l : List Flag) (b : Nat) : ∀ acc : Flag, Has (l.foldl (· ||| ·) acc) b ↔ Has acc b ∨ ∃ f ∈ l, Has f b := by
  induction l with
  | nil => intro acc; simp
  | cons f l ih =>
    intro acc
    rw [List.foldl_cons, ih, has_or]
    simp only [List.mem_cons, or_and_right, exists_or, exists_eq_left, or_assoc]

theorem foldl_or_zero (l : List Flag) : l.foldl (· ||| ·) 0#32 = 0 ↔ ∀ f ∈ l, f = 0 := by
  rw [zero_iff]
  constructor
  · intro h f hf
    rw [zero_iff]
    intro b hb
    exact h b ((foldl_or_has l b 0#32).2 (Or.inr ⟨f, hf, hb⟩))
  · intro h b hb
    rcases (foldl_or_has l b 0#32).1 hb with h' | ⟨f, hf, h'⟩
    · exact has_zero b h'
    · rw [h f hf] at h'; exact has_zero b h'

theorem mem_at {α} (a : Arr α) (ha : a.Wf) (x : α) (hx : x ∈ a.data) : ∃ idx, Inside a.shape idx ∧ a.at idx = some x := by
  obtain ⟨k, hk⟩ := List.getElem?_of_mem hx
  have hkl : k < size a.shape := by rw [← ha.2]; exact (List.getElem?_eq_some_iff.1 hk).1
  obtain ⟨idx, hi, rfl⟩ := pos_surj_inside a.shape ha.1 k hkl
  refine ⟨idx, hi, ?_⟩
  rw [at_eq]
  have e : pos a.shape.length a.shape (coll a.shape idx) = position a.shape idx := by
    apply pos_congr
    intro i _
    unfold coll
    have := hi i
    split
    · omega
    · rfl
  rw [e, hk]

theorem at_mem {α} (a : Arr α) (idx : Nat → Nat) (x : α) (h : a.at idx = some x) : x ∈ a.data := by
  rw [at_eq] at h
  exact List.mem_of_getElem? h

theorem at_map {α β} (a : Arr α) (f : α → β) (idx : Nat → Nat) : (⟨a.shape, a.data.map f⟩ : Arr β).at idx = (a.at idx).map f := by
  rw [at_eq, at_eq]
  exact List.getElem?_map ..

theorem test_holds (op : Oper) (t : ℚ → Bool) (h : op.test = some t) (v : ℚ) : t v = true ↔ Holds op v := by
  cases op <;> simp only [Oper.test, Option.some.injEq, reduceCtorEq] at h <;> subst h <;> simp [Holds]

/-! ## Reductions -/

theorem allFlagged_spec (l : List Flag) (mask : Flag) :
    isAllFlagged l mask = if ∃ f ∈ l, looksClear f mask = true then 0 else mask := by
  induction l with
  | nil => simp [isAllFlagged]
  | cons f l ih =>
    unfold isAllFlagged
    by_cases h : looksClear f mask = true
    · rw [if_pos h, if_pos ⟨f, List.mem_cons_self, h⟩]
    · rw [if_neg h, ih]
      congr 1
      simp only [List.mem_cons, or_and_right, exists_or, exists_eq_left, h, Bool.false_eq_true, false_or]

theorem looksClear_iff (f mask : Flag) : looksClear f mask = true ↔ f = 0 ∧ Has mask 0 := by
  unfold looksClear
  rw [decide_eq_true_iff]
  by_cases h : f = 0#32
  · rw [if_pos h]
    constructor
    · intro hn
      refine ⟨h, ?_⟩
      by_contra h0
      refine hn ((zero_iff _).2 fun b hb => ?_)
      rw [has_and] at hb
      have hb1 : b = 0 := by
        have := hb.1
        unfold Has at this
        rw [BitVec.getLsbD_one] at this
        simpa using this
      rw [hb1] at hb
      exact h0 hb.2
    · rintro ⟨_, h0⟩ hz
      exact (zero_iff _).1 hz 0 ((has_and _ _ _).2 ⟨by decide, h0⟩)
  · rw [if_neg h]
    constructor
    · intro hn
      exact absurd (by simp) hn
    · rintro ⟨h', _⟩
      exact absurd h' h

theorem whereEq_grid {G} (a : Arr Flag) (value eq ne : Flag) (ha : OnGrid G (some a)) :
    OnGrid G (some (whereEq a value eq ne).1) ∧
    (∀ idx, Inside G idx → flagAt (some (whereEq a value eq ne).1) idx = if flagAt (some a) idx = value then eq else ne) ∧
    ((whereEq a value eq ne).2 = 1 ↔ ∀ f ∈ a.data, f = value) ∧
    (0 ≤ (whereEq a value eq ne).2 ↔ ∃ f ∈ a.data, f = value) := by
  obtain ⟨wa, ba⟩ := ha a rfl
  have hne : ∃ f, f ∈ a.data := by
    have : 0 < a.data.length := by rw [wa.2]; exact size_pos wa.1
    exact ⟨_, List.getElem_mem this⟩
  refine ⟨onGrid_some ⟨wa.1, by simp [whereEq, wa.2]⟩ ba, fun idx hi => ?_, ?_, ?_⟩
  · obtain ⟨u, hu⟩ := at_inside a wa G ba.2 idx hi
    simp only [flagAt, whereEq, at_map, hu, Option.map_some, Option.getD_some]
  · unfold whereEq
    dsimp only
    by_cases h1 : ∃ f ∈ a.data, f = value
    · by_cases h2 : ∃ f ∈ a.data, f ≠ value
      · have e1 : a.data.any (fun f => decide (f = value)) = true := by simpa using h1
        have e2 : a.data.any (fun f => decide (f ≠ value)) = true := by simpa using h2
        simp only [e1, e2]
        obtain ⟨f, hf, hn⟩ := h2
        constructor
        · intro h; simp at h
        · intro h; exact absurd (h f hf) hn
      · have e1 : a.data.any (fun f => decide (f = value)) = true := by simpa using h1
        have e2 : a.data.any (fun f => decide (f ≠ value)) = false := by
          rw [Bool.eq_false_iff]; intro h; exact h2 (by simpa using h)
        simp only [e1, e2]
        refine ⟨fun _ f hf => ?_, fun _ => rfl⟩
        by_contra hn
        exact h2 ⟨f, hf, hn⟩
    · obtain ⟨f, hf⟩ := hne
      have e1 : a.data.any (fun f => decide (f = value)) = false := by
        rw [Bool.eq_false_iff]; intro h; exact h1 (by simpa using h)
      simp only [e1]
      constructor
      · intro h
        split at h
        · simp at *
        · split at h <;> simp at h
      · intro h; exact absurd ⟨f, hf, h f hf⟩ h1
  · unfold whereEq
    dsimp only
    by_cases h1 : ∃ f ∈ a.data, f = value
    · have e1 : a.data.any (fun f => decide (f = value)) = true := by simpa using h1
      simp only [e1]
      refine ⟨fun _ => h1, fun _ => ?_⟩
      split
      · decide
      · simp
    · obtain ⟨f, hf⟩ := hne
      have e1 : a.data.any (fun f => decide (f = value)) = false := by
        rw [Bool.eq_false_iff]; intro h; exact h1 (by simpa using h)
      have e2 : a.data.any (fun f => decide (f ≠ value)) = true := by
        simp only [List.any_eq_true, decide_eq_true_eq]
        exact ⟨f, hf, fun h => h1 ⟨f, hf, h⟩⟩
      simp only [e1, e2]
      refine ⟨fun h => ?_, fun h => absurd h h1⟩
      simp at h

theorem has_shift : ∀ i < 31, ∀ b, Has (1#32 <<< i) b ↔ b = i := by
  intro i hi b
  unfold Has
  rw [BitVec.getLsbD_shiftLeft]
  simp only [BitVec.getLsbD_one]
  constructor
  · intro h; simp at h; omega
  · rintro rfl; simp; omega

theorem has_ones : ∀ n < 31, ∀ b, Has ((1#32 <<< n) - 1#32) b ↔ b < n := by
  intro n hn b
  have key : ∀ n < 31, ∀ b < 32, ((1#32 <<< n) - 1#32).getLsbD b = decide (b < n) := by decide +kernel
  by_cases hb : b < 32
  · unfold Has
    rw [key n hn b hb, decide_eq_true_iff]
  · unfold Has
    rw [BitVec.getLsbD_of_ge _ _ (by omega)]
    constructor
    · intro h; cases h
    · intro h; omega

theorem flagged_iff (a : Arr Flag) (m : Flag) (idx : Nat → Nat) : Flagged (some a) m idx ↔ flagAt (some a) idx &&& m ≠ 0 := by
  rw [ne_eq, zero_iff]
  unfold Flagged Sees
  simp only [has_and]
  push Not
  rfl

theorem not_flagged_none (m : Flag) (idx) : ¬ Flagged none m idx := fun ⟨b, h⟩ => has_zero b h.1

theorem not_flagged_zero (o) (idx) : ¬ Flagged o 0 idx := fun ⟨b, h⟩ => has_zero b h.2

theorem childBits_grid {G} (l : List (Option (Arr Flag) × Flag)) (hl : ∀ c ∈ l, OnGrid G c.1) : ∀ (i : Nat) (tot : Flag) (fl : Arr Flag),
    i + l.length ≤ 31 → OnGrid G (some fl) → ∃ tot' fl', childBits i tot fl l = .ok (tot', fl') ∧ OnGrid G (some fl') ∧
      (∀ b, Has tot' b ↔ Has tot b ∨ ∃ c ∈ l, c.1 ≠ none ∧ Has c.2 b) ∧
      ∀ idx, Inside G idx → ∀ b, Has (flagAt (some fl') idx) b ↔ Has (flagAt (some fl) idx) b ∨
        ∃ j c, l[j]? = some c ∧ b = i + j ∧ Flagged c.1 c.2 idx := by
  induction l with
  | nil => exact fun i tot fl _ hf => ⟨tot, fl, rfl, hf, fun b => by simp, fun idx _ b => by simp⟩
  | cons c l ih =>
    intro i tot fl hi hf
    have ih' := ih fun c hc => hl c (List.mem_cons_of_mem _ hc)
    have hlen : i + 1 + l.length ≤ 31 := by simp at hi; omega
    have hi31 : i < 31 := by simp at hi; omega
    -- how a bit set by the rest is one of the whole list
    have conv : ∀ (idx : Nat → Nat) (b : Nat), (∃ j c', (c :: l)[j]? = some c' ∧ b = i + j ∧ Flagged c'.1 c'.2 idx) ↔
        (b = i ∧ Flagged c.1 c.2 idx) ∨ ∃ j c', l[j]? = some c' ∧ b = i + 1 + j ∧ Flagged c'.1 c'.2 idx := by
      intro idx b
      constructor
      · rintro ⟨j, c', h1, h2, h3⟩
        cases j with
        | zero => simp at h1; subst h1; exact Or.inl ⟨h2, h3⟩
        | succ j => exact Or.inr ⟨j, c', by simpa using h1, by omega, h3⟩
      · rintro (⟨h1, h2⟩ | ⟨j, c', h1, h2, h3⟩)
        · exact ⟨0, c, rfl, h1, h2⟩
        · exact ⟨j + 1, c', by simpa using h1, by omega, h3⟩
    simp only [conv]
    obtain ⟨f, m⟩ := c
    cases f with
    | none =>
      obtain ⟨t, g, e1, e2, e3, e4⟩ := ih' (i + 1) tot fl hlen hf
      refine ⟨t, g, e1, e2, fun b => ?_, fun idx hidx b => ?_⟩
      · rw [e3]; simp
      · rw [e4 idx hidx]
        simp [not_flagged_none]
    | some a =>
      unfold childBits
      dsimp only
      by_cases hm : m = 0
      · rw [if_pos hm]
        obtain ⟨t, g, e1, e2, e3, e4⟩ := ih' (i + 1) tot fl hlen hf
        refine ⟨t, g, e1, e2, fun b => ?_, fun idx hidx b => ?_⟩
        · rw [e3, hm]
          have := has_zero b
          simp only [List.mem_cons, or_and_right, exists_or, exists_eq_left, this, and_false, false_or]
        · rw [e4 idx hidx, hm]
          have := not_flagged_zero (some a) idx
          simp only [this, and_false, false_or]
      rw [if_neg hm, if_neg (by omega)]
      have ga := hl _ List.mem_cons_self
      obtain ⟨gm, em⟩ := mask_grid ga m
      obtain ⟨w1, w2, w3, _⟩ := whereEq_grid (maskArr a m) 0 0 (1#32 <<< i) gm
      have totb : ∀ t : Flag, (∀ b, Has t b ↔ Has (tot ||| m) b ∨ ∃ c ∈ l, c.1 ≠ none ∧ Has c.2 b) →
          ∀ b, Has t b ↔ Has tot b ∨ ∃ c ∈ ((some a, m) :: l : List (Option (Arr Flag) × Flag)), c.1 ≠ none ∧ Has c.2 b := by
        intro t ht b
        rw [ht, has_or]
        simp only [List.mem_cons, or_and_right, exists_or, exists_eq_left, ne_eq, reduceCtorEq, not_false_iff, true_and, or_assoc]
      by_cases hw : (whereEq (maskArr a m) 0 0 (1#32 <<< i)).2 = 1
      · rw [if_neg (by simpa using hw)]
        obtain ⟨t, g, e1, e2, e3, e4⟩ := ih' (i + 1) (tot ||| m) fl hlen hf
        refine ⟨t, g, e1, e2, totb t e3, fun idx hidx b => ?_⟩
        rw [e4 idx hidx]
        have nf : ¬ Flagged (some a) m idx := by
          rw [flagged_iff, ← em, not_not]
          obtain ⟨u, hu⟩ := at_inside (maskArr a m) (gm _ rfl).1 G (gm _ rfl).2.2 idx hidx
          simp only [flagAt, hu, Option.getD_some]
          exact w3.1 hw u (at_mem _ _ _ hu)
        simp [nf]
      · rw [if_pos hw]
        obtain ⟨r, o1, o2, o3⟩ := or_grid hf w1
        rw [o1]
        dsimp only [Res.bind]
        obtain ⟨t, g, e1, e2, e3, e4⟩ := ih' (i + 1) (tot ||| m) r hlen o2
        refine ⟨t, g, e1, e2, totb t e3, fun idx hidx b => ?_⟩
        rw [e4 idx hidx, o3 idx hidx, has_or, w2 idx hidx, em]
        have hb : Has (if flagAt (some a) idx &&& m = 0 then 0 else 1#32 <<< i) b ↔ b = i ∧ Flagged (some a) m idx := by
          rw [flagged_iff]
          by_cases hz : flagAt (some a) idx &&& m = 0
          · rw [if_pos hz]
            exact ⟨fun h => absurd h (has_zero b), fun h => absurd hz h.2⟩
          · rw [if_neg hz, has_shift i hi31]
            simp only [ne_eq, hz, not_false_iff, and_true]
        rw [hb, or_assoc]

end Verif.FlagNodes
