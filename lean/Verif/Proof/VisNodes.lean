import Verif.Spec.VisNodes
import Mathlib.Data.List.Induction
/-! # Spigots and sinks: lemmas -/
namespace Verif.VisNodes

set_option linter.unusedSectionVars false

theorem count_pos {r : Range} {n : Nat} (h : r.within n) : 0 < r.count := by unfold Range.within at h; unfold Range.count; omega

theorem get_full {α : Type} (f : Nat → Nat → α) (n m j k : Nat) (hj : j < n) (hk : k < m) : (Arr.mk [n, m] f).get j k = f j k := by
  unfold Arr.get
  have h1 : (if extent [n, m] 0 = 1 then 0 else j) = j := by
    show (if n = 1 then 0 else j) = j
    split <;> omega
  have h2 : (if extent [n, m] 1 = 1 then 0 else k) = k := by
    show (if m = 1 then 0 else k) = k
    split <;> omega
  show f (if extent [n, m] 0 = 1 then 0 else j) (if extent [n, m] 1 = 1 then 0 else k) = _
  rw [h1, h2]

theorem any_false {a : Arr Flag} (h : anyFlag a = false) (j k : Nat) (hj : j < extent a.shape 0) (hk : k < extent a.shape 1) : a.val j k = 0 := by
  unfold anyFlag at h
  rw [List.any_eq_false] at h
  have := h j (List.mem_range.mpr hj)
  rw [Bool.not_eq_true, List.any_eq_false] at this
  simpa using this k (List.mem_range.mpr hk)

theorem override_get (bit : Flag) (a : Arr Flag) (j k : Nat) : (override bit a).get j k = withBit bit (a.get j k) := by
  unfold override withBit
  by_cases h : bit = 0
  · rw [if_pos h, if_pos h]
  · rw [if_neg h, if_neg h]; rfl

/-- Attached or not, the flags are what they are. -/
theorem flag_attached (bit : Flag) (a : Arr Flag) (v : Option (Arr α)) (b : Bool) (n m j k : Nat) (hs : a.shape = [n, m] ∨ a.shape = [n, 1])
    (hj : j < n) (hk : k < m) :
    (VS.mk v b (if anyFlag a then some (override bit a) else none)).flag j k = withBit bit (a.get j k) := by
  unfold VS.flag
  cases hf : anyFlag a with
  | true => rw [if_pos rfl]; exact override_get bit a j k
  | false =>
    rw [if_neg (by simp)]
    have h0 : a.get j k = 0 := by
      unfold Arr.get
      apply any_false hf
      · rcases hs with e | e <;> rw [e] <;> show (if n = 1 then 0 else j) < n <;> split <;> omega
      · rcases hs with e | e <;> rw [e]
        · show (if m = 1 then 0 else k) < m
          split <;> omega
        · simp [extent]
    rw [h0]
    show (0 : Flag) = withBit bit 0
    unfold withBit
    simp

theorem prod_one {l : List Nat} (h : l.prod = 1) (i : Nat) : extent l i = 1 := by
  unfold extent
  induction l generalizing i with
  | nil => simp
  | cons a l ih =>
    rw [List.prod_cons] at h
    cases i with
    | zero => simpa using Nat.eq_one_of_mul_eq_one_right h
    | succ i => simpa using ih (Nat.eq_one_of_mul_eq_one_left h) i

theorem get_scalar {a : Arr α} (h : a.isScalar = true) (j k : Nat) : a.get j k = a.val 0 0 := by
  unfold Arr.isScalar at h
  rw [decide_eq_true_eq] at h
  unfold Arr.get
  rw [if_pos (prod_one h 0), if_pos (prod_one h 1)]

theorem or_zero (a b : Flag) : (a ||| b) = (0 : Flag) ↔ a = 0 ∧ b = 0 := BitVec.or_eq_zero_iff

theorem withBit_ne (bit x : Flag) : withBit bit x ≠ 0 ↔ x ≠ 0 := by
  unfold withBit
  by_cases hb : bit = 0
  · rw [if_pos hb]
  · rw [if_neg hb]
    by_cases hx : x = 0
    · rw [if_pos hx]; simp [hx]
    · rw [if_neg hx]; exact ⟨fun _ => hx, fun _ => hb⟩

theorem rowBits_ne (c : SpigotConf) (rf : Flag) : rowBits c rf ≠ 0 ↔ rf &&& c.rowMask ≠ 0 ∨ rf = missing := by
  unfold rowBits
  rw [ne_eq, or_zero]
  by_cases h : rf = missing
  · rw [if_pos h]
    refine ⟨fun _ => .inr h, fun _ hc => ?_⟩
    exact absurd hc.2 (by decide)
  · rw [if_neg h]
    simp [h]

theorem bits (c : SpigotConf) (flag rf : Flag) (b : Nat) : ((flag &&& c.flagMask) ||| rowBits c rf).getLsbD b = wantedBit c flag rf b := by
  unfold rowBits wantedBit
  by_cases h : rf = missing
  · simp only [BitVec.getLsbD_or, BitVec.getLsbD_and, h, decide_true, Bool.true_and, Bool.or_assoc]
    congr 2
    by_cases hb : b = 0 <;> simp [hb]
  · simp [h, BitVec.getLsbD_or, BitVec.getLsbD_and]

/-- A plane of a spigot with a flag mask. -/
theorem plane_shows (c : SpigotConf) (t : Tile α) (r : Range) (i : Int) (hi : 0 ≤ i) (hm : c.flagMask ≠ 0) :
    Shows (plane c t r i) r.count t.nfreq (fun j k => t.col c.col i.toNat k (r.first + j)) c.flagBit
      (fun j k w => ∀ b, w.getLsbD b = wantedBit c (t.flags i.toNat k (r.first + j)) (t.rowflag (r.first + j)) b) := by
  unfold plane
  rw [if_neg (by omega)]
  dsimp only
  refine ⟨_, rfl, rfl, fun j k hj hk => get_full _ _ _ j k hj hk, fun j k hj hk => ?_⟩
  unfold planeFlags
  rw [if_neg hm]
  refine ⟨_, fun b => ?_, flag_attached c.flagBit _ _ _ r.count t.nfreq j k (.inl rfl) hj hk⟩
  rw [get_full _ _ _ j k hj hk]
  exact bits c _ _ b

/-- Without one. -/
theorem plane_noMask (c : SpigotConf) (t : Tile α) (r : Range) (i : Int) (hi : 0 ≤ i) (hm : c.flagMask = 0) :
    Shows (plane c t r i) r.count t.nfreq (fun j k => t.col c.col i.toNat k (r.first + j)) c.flagBit
      (fun j _ w => w = if j = 0 then rowBits c (t.rowflag r.first) else 0) := by
  unfold plane
  rw [if_neg (by omega)]
  dsimp only
  refine ⟨_, rfl, rfl, fun j k hj hk => get_full _ _ _ j k hj hk, fun j k hj hk => ?_⟩
  unfold planeFlags
  rw [if_pos hm]
  refine ⟨_, ?_, flag_attached c.flagBit _ _ _ r.count t.nfreq j k (.inr rfl) hj hk⟩
  unfold Arr.get
  show (if (if r.count = 1 then 0 else j) = 0 then _ else _) = _
  by_cases h1 : r.count = 1
  · rw [if_pos h1, if_pos rfl, if_pos (by omega)]
  · rw [if_neg h1]

/-! ## The queue -/

section
variable {R ρ K : Type} [DecidableEq R] [DecidableEq K] (key : R → K)

theorem qrun_append (q : Queue R ρ) (a b : List (QOp R ρ)) :
    qrun key q (a ++ b) = ((qrun key (qrun key q a).1 b).1, (qrun key q a).2 ++ (qrun key (qrun key q a).1 b).2) := by
  induction a generalizing q with
  | nil => rfl
  | cons o a ih => simp only [List.cons_append, qrun, ih, List.append_assoc]

/-- Delivering tiles for one request that is not being executed. -/
theorem deliver_all (q : Queue R ρ) (rq : R) (l : List ρ) (h : q.cur ≠ some rq) :
    qrun key q (l.map (.deliver rq)) = (⟨q.items ++ l.map fun x => (rq, x), q.cur⟩, []) := by
  induction l generalizing q with
  | nil => simp [qrun]
  | cons x l ih =>
    have e : deliver q rq x = (⟨q.items ++ [(rq, x)], q.cur⟩, true) := by unfold deliver; rw [if_neg h]
    have h' : (Queue.mk (q.items ++ [(rq, x)]) q.cur).cur ≠ some rq := h
    simp only [List.map_cons, qrun, qstep, e, ih _ h']
    simp

/-- Requests that match the first result. -/
theorem get_head (q : Queue R ρ) (p : R × ρ) (l : List (R × ρ)) (hq : q.items = p :: l) (as : List R) (h : ∀ a ∈ as, key a = key p.1) :
    (qrun key q (as.map .get)).1.items = p :: l ∧ (qrun key q (as.map .get)).2 = as.map fun _ => some p.2 := by
  induction as generalizing q with
  | nil => exact ⟨hq, rfl⟩
  | cons a as ih =>
    have e : get key q a = (⟨p :: l, some a⟩, some p.2) := by
      unfold get
      rw [hq]
      simp [h a (by simp)]
    obtain ⟨h1, h2⟩ := ih ⟨p :: l, some a⟩ rfl (fun x hx => h x (by simp [hx]))
    simp only [List.map_cons, qrun, qstep, e]
    exact ⟨h1, by rw [h2]; rfl⟩

theorem get_cur (q : Queue R ρ) (as : List R) : (qrun key q (as.map .get)).1.cur = (as.getLast?).or q.cur := by
  induction as using List.reverseRecOn generalizing q with
  | nil => simp [qrun]
  | append_singleton as a ih =>
    rw [List.map_append, qrun_append]
    simp [qrun, qstep, get]

/-- All results in the queue were delivered, and a request gets one of a matching request. -/
theorem queue_sound (l : List (QOp R ρ)) (q : Queue R ρ) :
    (∀ p ∈ (qrun key q l).1.items, p ∈ q.items ∨ .deliver p.1 p.2 ∈ l) := by
  induction l generalizing q with
  | nil => intro p hp; exact .inl hp
  | cons o l ih =>
    intro p hp
    rcases ih (qstep key q o).1 p hp with h | h
    · cases o with
      | deliver rq res =>
        have h' : p ∈ (deliver q rq res).1.items := h
        unfold deliver at h'
        split at h'
        · exact .inl h'
        · rw [List.mem_append, List.mem_singleton] at h'
          rcases h' with h' | rfl
          · exact .inl h'
          · exact .inr (by simp)
      | get rq =>
        have h' : p ∈ (get key q rq).1.items := h
        unfold get at h'
        exact .inl ((List.dropWhile_suffix _).subset h')
    · exact .inr (List.mem_cons_of_mem _ h)

theorem get_matches (q : Queue R ρ) (rq : R) (x : ρ) (h : (get key q rq).2 = some x) : ∃ p ∈ q.items, key p.1 = key rq ∧ p.2 = x := by
  unfold get at h
  dsimp only at h
  cases hd : q.items.dropWhile (fun p => !decide (key rq = key p.1)) with
  | nil => rw [hd] at h; cases h
  | cons p l =>
    rw [hd] at h
    injection h with h
    refine ⟨p, (List.dropWhile_suffix _).subset (by rw [hd]; simp), ?_, h⟩
    have := List.head?_dropWhile_not (fun p => !decide (key rq = key p.1)) q.items
    rw [hd] at this
    simp at this
    exact this.symm

end

/-! ## Sinks -/

theorem has_iff {r : Range} {j : Nat} : r.has j = true ↔ r.In j := by unfold Range.has Range.In; simp

theorem maps_iff {c : SinkConf} {i corr : Nat} : mapCorr c i = (corr : Int) ↔ Maps c i corr := by
  unfold mapCorr Maps
  cases hc : c.corrs with
  | nil => simp; omega
  | cons a l =>
    rw [if_neg (by simp), List.getD_eq_getElem?_getD]
    cases h : (a :: l)[i]? with
    | none => simp
    | some x => simp

theorem spans_iff {shape : List Nat} {t : Tile α} : compatible shape t = true ↔ Spans shape t := by unfold compatible Spans extent; simp

theorem zero_iff [Zero α] [DecidableEq α] {v : VS α} : v.isNull = true ↔ v.IsZero := by
  unfold VS.isNull VS.IsZero Arr.isScalar
  cases v.value with
  | none => simp
  | some a => simp

theorem fits_iff {b : Bool} {ty : ColType} : fits b ty = true ↔ ty = .cplx ∨ (ty = .dbl ∧ b = true) := by
  cases ty <;> simp [fits]

section
variable {α : Type} [Zero α] [DecidableEq α]

theorem writeFlags_same (c : SinkConf) (t : Tile α) (corr : Nat) (r : Range) (f : Option (Arr Flag)) :
    SameShape t (writeFlags c t corr r f) ∧ (writeFlags c t corr r f).col = t.col := by
  unfold writeFlags
  split
  · exact ⟨⟨rfl, rfl, rfl, rfl, rfl⟩, rfl⟩
  · split
    · exact ⟨⟨rfl, rfl, rfl, rfl, rfl⟩, rfl⟩
    · split <;> exact ⟨⟨rfl, rfl, rfl, rfl, rfl⟩, rfl⟩

theorem writeFlags_else (c : SinkConf) (t : Tile α) (corr : Nat) (r : Range) (f : Option (Arr Flag)) (cc k j : Nat) (h : ¬ (cc = corr ∧ r.has j = true)) :
    (writeFlags c t corr r f).flags cc k j = t.flags cc k j := by
  unfold writeFlags
  split
  · rfl
  · split
    · exact if_neg h
    · split
      · exact if_neg h
      · rfl

theorem writeFlags_here (c : SinkConf) (t : Tile α) (corr : Nat) (r : Range) (v : VS α) (k j : Nat) (hj : r.has j = true) (hm : c.flagMask ≠ 0)
    (hc : ∀ f, v.flags = some f → compatible f.shape t = true) :
    (writeFlags c t corr r v.flags).flags corr k j = withBit c.flagBit (v.flag (j - r.first) k &&& c.flagMask) := by
  unfold writeFlags VS.flag
  rw [if_neg hm]
  cases hf : v.flags with
  | none =>
    show (if corr = corr ∧ r.has j = true then (0 : Flag) else _) = _
    rw [if_pos ⟨rfl, hj⟩]
    unfold withBit
    simp
  | some f =>
    dsimp only
    rw [if_pos (hc f hf)]
    show (if corr = corr ∧ r.has j = true then _ else _) = _
    rw [if_pos ⟨rfl, hj⟩]
    rfl

theorem sameShape_trans {a b c : Tile α} (h : SameShape a b) (g : SameShape b c) : SameShape a c :=
  ⟨g.1.trans h.1, g.2.1.trans h.2.1, g.2.2.1.trans h.2.2.1, g.2.2.2.1.trans h.2.2.2.1, g.2.2.2.2.trans h.2.2.2.2⟩

/-- The row's place in the range. -/
theorem has_sub {r : Range} {j : Nat} (h : r.has j = true) : j - r.first < r.count ∧ r.first + (j - r.first) = j := by
  unfold Range.has at h
  rw [Bool.and_eq_true, decide_eq_true_eq, decide_eq_true_eq] at h
  unfold Range.count
  omega

/-- `Fits` in the model's words. -/
def Fits' (t : Tile α) (col : Nat) (r : Range) (v : Option (VS α)) : Prop :=
  ∀ w, v = some w → w.isNull = false → fits w.real (t.type col) = true ∧
    ∀ a, w.value = some a → a.isScalar = true ∨ a.shape = [r.count, t.nfreq]

theorem fits'_iff {t : Tile α} {col : Nat} {r : Range} {v : Option (VS α)} : Fits' t col r v ↔ Fits t col r v := by
  unfold Fits' Fits
  have h : ∀ w : VS α, w.isNull = false ↔ ¬ w.IsZero := by intro w; rw [← zero_iff, Bool.not_eq_true]
  simp only [h, fits_iff, Arr.isScalar, decide_eq_true_eq, Range.count]

/-- What writing a plane does. -/
def Done (c : SinkConf) (t t' : Tile α) (col corr : Nat) (r : Range) (v : Option (VS α)) : Prop :=
    r.within t.nrow ∧ SameShape t t' ∧
    (∀ q cc k j, ¬ (q = col ∧ cc = corr ∧ r.has j = true) → t'.col q cc k j = t.col q cc k j) ∧
    (∀ k j, k < t.nfreq → r.has j = true → t'.col col corr k j = sample v (j - r.first) k) ∧
    (∀ cc k j, ¬ (cc = corr ∧ r.has j = true) → t'.flags cc k j = t.flags cc k j) ∧
    (∀ w k j, v = some w → w.isNull = false → r.has j = true → c.flagMask ≠ 0 → (∀ f, w.flags = some f → compatible f.shape t = true) →
      t'.flags corr k j = withBit c.flagBit (w.flag (j - r.first) k &&& c.flagMask)) ∧
    (∀ k j, (v = none ∨ (∃ w, v = some w ∧ w.isNull = true) ∨ c.flagMask = 0 ∨ (∃ w f, v = some w ∧ w.flags = some f ∧ compatible f.shape t = false)) →
      t'.flags corr k j = t.flags corr k j)

/-- Writing one plane. -/
theorem writePlane_spec (c : SinkConf) (t t' : Tile α) (col corr : Nat) (r : Range) (v : Option (VS α)) (h : writePlane c t col corr r v = .ok t') :
    Done c t t' col corr r v := by
  unfold writePlane at h
  split at h
  · cases h
  rename_i hr
  have hw : r.within t.nrow := by unfold Range.within; omega
  have hset : ∀ (f : Nat → Nat → α) q cc k j, ¬ (q = col ∧ cc = corr ∧ r.has j = true) → (setCol t col corr r f).col q cc k j = t.col q cc k j := by
    intro f q cc k j hn; exact if_neg hn
  have hset' : ∀ (f : Nat → Nat → α) k j, r.has j = true → (setCol t col corr r f).col col corr k j = f (j - r.first) k := by
    intro f k j hj; exact if_pos ⟨rfl, rfl, hj⟩
  have hcase : (v.bind (fun v => if v.isNull then none else v.value.map fun a => (v, a)) = none ∧ (v = none ∨ ∃ w, v = some w ∧ w.isNull = true)) ∨
      (∃ w a, v = some w ∧ w.isNull = false ∧ w.value = some a ∧ v.bind (fun v => if v.isNull then none else v.value.map fun a => (v, a)) = some (w, a)) := by
    cases v with
    | none => exact .inl ⟨rfl, .inl rfl⟩
    | some w =>
      cases hn : w.isNull with
      | true => exact .inl ⟨by simp [hn], .inr ⟨w, rfl, hn⟩⟩
      | false =>
        cases ha : w.value with
        | none => unfold VS.isNull at hn; rw [ha] at hn; cases hn
        | some a => exact .inr ⟨w, a, rfl, hn, ha, by simp [hn, ha]⟩
  rcases hcase with ⟨e, hv⟩ | ⟨w, a, hv, hn, ha, e⟩
  · rw [e] at h
    dsimp only at h
    split at h
    · cases h
    injection h with h
    subst h
    refine ⟨hw, ⟨rfl, rfl, rfl, rfl, rfl⟩, hset _, ?_, fun _ _ _ _ => rfl, ?_, fun _ _ _ => rfl⟩
    · intro k j hk hj
      rw [hset' _ k j hj]
      rcases hv with rfl | ⟨w, rfl, hw⟩
      · rfl
      · unfold sample
        unfold VS.isNull at hw
        cases hval : w.value with
        | none => simp [hval]
        | some a =>
          rw [hval] at hw
          simp only [Bool.and_eq_true, decide_eq_true_eq] at hw
          simp only [Option.bind_some, hval]
          rw [get_scalar hw.1, hw.2]
    · intro w' k j hv'
      rcases hv with hv | ⟨w, hv, hw⟩
      · rw [hv] at hv'; cases hv'
      · rw [hv] at hv'
        injection hv' with hv'
        subst hv'
        intro hn; rw [hw] at hn; cases hn
  · rw [e] at h
    dsimp only at h
    have fin : ∀ f : Nat → Nat → α, (∀ j k, j < r.count → k < t.nfreq → f j k = a.get j k) →
        t' = writeFlags c (setCol t col corr r f) corr r w.flags → Done c t t' col corr r v := by
      intro f hf ht
      obtain ⟨hs, hc⟩ := writeFlags_same c (setCol t col corr r f) corr r w.flags
      rw [← ht] at hs hc
      have hs' : SameShape t t' := sameShape_trans (b := setCol t col corr r f) ⟨rfl, rfl, rfl, rfl, rfl⟩ hs
      refine ⟨hw, hs', ?_, ?_, ?_, ?_, ?_⟩
      · intro q cc k j hn'
        rw [hc]; exact hset f q cc k j hn'
      · intro k j hk hj
        rw [hc, hset' f k j hj, hf _ k (has_sub hj).1 hk]
        unfold sample
        rw [hv]
        simp [ha]
      · intro cc k j hn'
        rw [ht, writeFlags_else _ _ _ _ _ _ _ _ hn']
        rfl
      · intro w' k j hv' _ hj hm hcomp
        rw [hv] at hv'
        injection hv' with hv'
        subst hv'
        rw [ht]
        exact writeFlags_here c (setCol t col corr r f) corr r w k j hj hm hcomp
      · intro k j hor
        rw [ht]
        rcases hor with h1 | ⟨w', h1, h2⟩ | h1 | ⟨w', f', h1, h2, h3⟩
        · rw [hv] at h1; cases h1
        · rw [hv] at h1
          injection h1 with h1
          subst h1
          rw [hn] at h2; cases h2
        · unfold writeFlags; rw [if_pos h1]; rfl
        · rw [hv] at h1
          injection h1 with h1
          subst h1
          unfold writeFlags
          split
          · rfl
          · rw [h2]
            have h3' : compatible f'.shape (setCol t col corr r f) = false := h3
            simp only [h3']
            rfl
    split at h
    · rename_i hsc
      split at h
      · injection h with h
        exact fin _ (fun j k _ _ => (get_scalar hsc j k).symm) h.symm
      · cases h
    · split at h
      · cases h
      split at h
      · cases h
      split at h
      · cases h
      rename_i hsh
      injection h with h
      refine fin _ (fun j k hj hk => ?_) h.symm
      rw [ne_eq, Decidable.not_not] at hsh
      have := get_full a.val r.count t.nfreq j k hj hk
      rw [← hsh] at this
      exact this.symm

/-- A plane that fits is written. -/
theorem writePlane_ok (c : SinkConf) (t : Tile α) (col corr : Nat) (r : Range) (v : Option (VS α)) (hr : r.within t.nrow) (ht : t.type col ≠ .other)
    (hf : Fits' t col r v) : ∃ t', writePlane c t col corr r v = .ok t' := by
  unfold writePlane
  unfold Range.within at hr
  rw [if_neg (by omega)]
  cases v with
  | none => exact ⟨_, by simp only [Option.bind_none]; rw [if_neg ht]⟩
  | some w =>
    cases hn : w.isNull with
    | true => exact ⟨_, by simp only [Option.bind_some, hn, if_true]; rw [if_neg ht]⟩
    | false =>
      cases ha : w.value with
      | none => unfold VS.isNull at hn; rw [ha] at hn; cases hn
      | some a =>
        obtain ⟨h1, h2⟩ := hf w rfl hn
        simp only [Option.bind_some, hn, ha, Option.map_some, h1, Bool.false_eq_true, if_false, if_true, Bool.not_true]
        cases hs : a.isScalar with
        | true => exact ⟨_, by rw [if_pos rfl]⟩
        | false =>
          have h3 : a.shape = [r.count, t.nfreq] := by
            rcases h2 a ha with h | h
            · rw [hs] at h; cases h
            · exact h
          rw [if_neg (by simp)]
          simp [h3]

/-- One that does not stops the sink. -/
theorem writePlane_not (c : SinkConf) (t t' : Tile α) (col corr : Nat) (r : Range) (v : Option (VS α)) (h : writePlane c t col corr r v = .ok t') :
    Fits' t col r v ∧ t.type col ≠ .other := by
  unfold writePlane at h
  split at h
  · cases h
  cases v with
  | none =>
    simp only [Option.bind_none] at h
    split at h
    · cases h
    · rename_i ht
      exact ⟨fun w hw => (nomatch hw), ht⟩
  | some w =>
    cases hn : w.isNull with
    | true =>
      simp only [Option.bind_some, hn, if_true] at h
      split at h
      · cases h
      · rename_i ht
        refine ⟨fun w' hw hn' => ?_, ht⟩
        injection hw with hw
        subst hw
        rw [hn] at hn'; cases hn'
    | false =>
      cases ha : w.value with
      | none => unfold VS.isNull at hn; rw [ha] at hn; cases hn
      | some a =>
        simp only [Option.bind_some, hn, ha, Option.map_some, Bool.false_eq_true, if_false] at h
        have key : fits w.real (t.type col) = true ∧ (a.isScalar = true ∨ a.shape = [r.count, t.nfreq]) := by
          split at h
          · rename_i hs
            split at h
            · rename_i hf; exact ⟨hf, .inl hs⟩
            · cases h
          · split at h
            · cases h
            split at h
            · cases h
            rename_i hf
            split at h
            · cases h
            rename_i hsh
            refine ⟨by simpa using hf, .inr (by simpa using hsh)⟩
        refine ⟨fun w' hw _ => ?_, fun ht => ?_⟩
        · injection hw with hw
          subst hw
          refine ⟨key.1, fun a' ha' => ?_⟩
          rw [ha] at ha'
          injection ha' with ha'
          subst ha'
          exact key.2
        · rw [ht] at key
          exact absurd key.1 (by simp [fits])

/-- What the loop does: to the planes from `i` on. -/
theorem writeAll_spec (c : SinkConf) (col : Nat) (r : Range) (l : List (Option (VS α))) (i : Nat) (t t' : Tile α) (b b' : Bool)
    (h : writeAll c col r i t b l = .ok (t', b')) :
    SameShape t t' ∧
    (b' = true ↔ b = true ∨ ∃ p, p < l.length ∧ 0 ≤ mapCorr c (i + p) ∧ mapCorr c (i + p) < t.ncorr) ∧
    (∀ q cc k j, (¬ (q = col ∧ r.has j = true) ∨ t.ncorr ≤ cc ∨ ∀ p, p < l.length → mapCorr c (i + p) ≠ (cc : Int)) → t'.col q cc k j = t.col q cc k j) ∧
    (∀ cc k j, (¬ r.has j = true ∨ t.ncorr ≤ cc ∨ ∀ p, p < l.length → mapCorr c (i + p) ≠ (cc : Int)) → t'.flags cc k j = t.flags cc k j) ∧
    (∀ (p : Nat) (v : Option (VS α)) (cc : Nat), l[p]? = some v → mapCorr c (i + p) = (cc : Int) → cc < t.ncorr → (∀ p', p' < l.length → mapCorr c (i + p') = (cc : Int) → p' = p) →
      r.within t.nrow ∧ Fits' t col r v ∧ t.type col ≠ .other ∧
      (∀ k j, k < t.nfreq → r.has j = true → t'.col col cc k j = sample v (j - r.first) k) ∧
      (∀ w k j, v = some w → w.isNull = false → r.has j = true → c.flagMask ≠ 0 → (∀ f, w.flags = some f → compatible f.shape t = true) →
        t'.flags cc k j = withBit c.flagBit (w.flag (j - r.first) k &&& c.flagMask)) ∧
      (∀ k j, (v = none ∨ (∃ w, v = some w ∧ w.isNull = true) ∨ c.flagMask = 0 ∨ (∃ w f, v = some w ∧ w.flags = some f ∧ compatible f.shape t = false)) →
        t'.flags cc k j = t.flags cc k j)) := by
  induction l generalizing i t b with
  | nil =>
    simp only [writeAll] at h
    injection h with h
    injection h with h1 h2
    subst h1 h2
    refine ⟨⟨rfl, rfl, rfl, rfl, rfl⟩, ⟨.inl, ?_⟩, fun _ _ _ _ _ => rfl, fun _ _ _ _ => rfl, ?_⟩
    · rintro (h | ⟨p, hp, _⟩)
      · exact h
      · simp at hp
    · intro p v cc hp; simp at hp
  | cons v l ih =>
    have shift : ∀ p, i + (p + 1) = i + 1 + p := by intro p; omega
    simp only [writeAll] at h
    split at h
    · rename_i hout
      obtain ⟨g1, g2, g3, g4, g5⟩ := ih (i + 1) t b h
      have hne : ∀ cc : Nat, cc < t.ncorr → mapCorr c i ≠ (cc : Int) := by intro cc hcc; omega
      refine ⟨g1, ?_, ?_, ?_, ?_⟩
      · rw [g2]
        constructor
        · rintro (h | ⟨p, hp, h1, h2⟩)
          · exact .inl h
          · exact .inr ⟨p + 1, by simpa using hp, by rw [shift]; exact h1, by rw [shift]; exact h2⟩
        · rintro (h | ⟨p, hp, h1, h2⟩)
          · exact .inl h
          · cases p with
            | zero => simp only [Nat.add_zero] at h1 h2; omega
            | succ p => exact .inr ⟨p, by simpa using hp, by rw [← shift]; exact h1, by rw [← shift]; exact h2⟩
      · rintro q cc k j (hq | hq | hq)
        · exact g3 q cc k j (.inl hq)
        · exact g3 q cc k j (.inr (.inl hq))
        · exact g3 q cc k j (.inr (.inr fun p hp => by rw [← shift]; exact hq (p + 1) (by simpa using hp)))
      · rintro cc k j (hq | hq | hq)
        · exact g4 cc k j (.inl hq)
        · exact g4 cc k j (.inr (.inl hq))
        · exact g4 cc k j (.inr (.inr fun p hp => by rw [← shift]; exact hq (p + 1) (by simpa using hp)))
      · intro p v' cc hp hm hcc honly
        cases p with
        | zero => exact absurd hm (hne cc hcc)
        | succ p =>
          refine g5 p v' cc (by simpa using hp) (by rw [← shift]; exact hm) hcc fun p' hp' hm' => ?_
          have := honly (p' + 1) (by simpa using hp') (by rw [shift]; exact hm')
          omega
    · rename_i hin
      have hcn : ((mapCorr c i).toNat : Int) = mapCorr c i := by omega
      generalize hcr : (mapCorr c i).toNat = corr at h hcn
      cases hw : writePlane c t col corr r v with
      | throws => rw [hw] at h; cases h
      | ub => rw [hw] at h; cases h
      | ok t1 =>
        rw [hw] at h
        dsimp only at h
        obtain ⟨w0, w1, w2, w3, w4, w5, w6⟩ := writePlane_spec c t t1 col corr r v hw
        obtain ⟨wf, wt⟩ := writePlane_not c t t1 col corr r v hw
        obtain ⟨g1, g2, g3, g4, g5⟩ := ih (i + 1) t1 true h
        obtain ⟨e1, e2, e3, e4, e5⟩ := w1
        have hcomp : ∀ sh, compatible sh t1 = compatible sh t := by intro sh; unfold compatible; rw [e2, e3]
        have hfits : ∀ v, Fits' t1 col r v ↔ Fits' t col r v := by intro v; unfold Fits'; rw [e2, e4]
        refine ⟨sameShape_trans ⟨e1, e2, e3, e4, e5⟩ g1, ?_, ?_, ?_, ?_⟩
        · exact ⟨fun _ => .inr ⟨0, by simp, by simp; omega, by simp; omega⟩, fun _ => g2.mpr (.inl rfl)⟩
        · rintro q cc k j hq
          rw [g3 q cc k j, w2 q cc k j]
          · rintro ⟨h1, h2, h3⟩
            subst h2
            rcases hq with hq | hq | hq
            · exact hq ⟨h1, h3⟩
            · omega
            · exact hq 0 (by simp) (by simp [hcn])
          · rw [e1]
            rcases hq with hq | hq | hq
            · exact .inl hq
            · exact .inr (.inl hq)
            · exact .inr (.inr fun p hp => by rw [← shift]; exact hq (p + 1) (by simpa using hp))
        · rintro cc k j hq
          rw [g4 cc k j, w4 cc k j]
          · rintro ⟨h2, h3⟩
            subst h2
            rcases hq with hq | hq | hq
            · exact hq h3
            · omega
            · exact hq 0 (by simp) (by simp [hcn])
          · rw [e1]
            rcases hq with hq | hq | hq
            · exact .inl hq
            · exact .inr (.inl hq)
            · exact .inr (.inr fun p hp => by rw [← shift]; exact hq (p + 1) (by simpa using hp))
        · intro p v' cc hp hm hcc honly
          cases p with
          | zero =>
            simp only [Nat.add_zero] at hm
            have hcc' : cc = corr := by omega
            subst hcc'
            have hlast : ∀ p', p' < l.length → mapCorr c (i + 1 + p') ≠ (cc : Int) := by
              intro p' hp' hm'
              have := honly (p' + 1) (by simpa using hp') (by rw [shift]; exact hm')
              omega
            have hv : v' = v := by simpa using hp.symm
            subst hv
            refine ⟨w0, wf, wt, ?_, ?_, ?_⟩
            · intro k j hk hj
              rw [g3 col cc k j (.inr (.inr hlast))]
              exact w3 k j hk hj
            · intro w k j hv hn hj hm hc
              rw [g4 cc k j (.inr (.inr hlast))]
              exact w5 w k j hv hn hj hm hc
            · intro k j ho
              rw [g4 cc k j (.inr (.inr hlast))]
              exact w6 k j ho
          | succ p =>
            have hne : ¬ cc = corr := by
              intro hc
              have := honly 0 (by simp) (by simp; omega)
              omega
            obtain ⟨k0, k1, k2, k3, k4, k5⟩ := g5 p v' cc (by simpa using hp) (by rw [← shift]; exact hm) (by rw [e1]; exact hcc) (fun p' hp' hm' => by
              have := honly (p' + 1) (by simpa using hp') (by rw [shift]; exact hm')
              omega)
            rw [e3] at k0
            rw [hfits] at k1
            rw [e4] at k2
            rw [e2] at k3
            refine ⟨k0, k1, k2, k3, fun w k j hv hn hj hm' hcp => k4 w k j hv hn hj hm' (fun f hf => by rw [hcomp]; exact hcp f hf), fun k j ho => ?_⟩
            rw [k5 k j, w4 cc k j (fun h => hne h.1)]
            rcases ho with h1 | h1 | h1 | ⟨w, f, h1, h2, h3⟩
            · exact .inl h1
            · exact .inr (.inl h1)
            · exact .inr (.inr (.inl h1))
            · exact .inr (.inr (.inr ⟨w, f, h1, h2, by rw [hcomp]; exact h3⟩))

/-- It goes through if the planes that are written fit. -/
theorem writeAll_ok (c : SinkConf) (col : Nat) (r : Range) (l : List (Option (VS α))) (i : Nat) (t : Tile α) (b : Bool) (hr : r.within t.nrow)
    (ht : t.type col ≠ .other) (hf : ∀ p v, l[p]? = some v → 0 ≤ mapCorr c (i + p) → mapCorr c (i + p) < t.ncorr → Fits' t col r v) :
    ∃ x, writeAll c col r i t b l = .ok x := by
  induction l generalizing i t b with
  | nil => exact ⟨_, rfl⟩
  | cons v l ih =>
    have shift : ∀ p, i + (p + 1) = i + 1 + p := by intro p; omega
    simp only [writeAll]
    split
    · exact ih (i + 1) t b hr ht fun p v hp h1 h2 => hf (p + 1) v (by simpa using hp) (by rw [shift]; exact h1) (by rw [shift]; exact h2)
    · rename_i hin
      obtain ⟨t1, h1⟩ := writePlane_ok c t col (mapCorr c i).toNat r v hr ht (hf 0 v (by simp) (by simp; omega) (by simp; omega))
      rw [h1]
      obtain ⟨_, ⟨e1, e2, e3, e4, e5⟩, _⟩ := writePlane_spec c t t1 col _ r v h1
      have hfits : ∀ v, Fits' t1 col r v ↔ Fits' t col r v := by intro v; unfold Fits'; rw [e2, e4]
      refine ih (i + 1) t1 true (by rw [e3]; exact hr) (by rw [e4]; exact ht) fun p v hp h1 h2 => ?_
      rw [hfits]
      rw [e1] at h2
      exact hf (p + 1) v (by simpa using hp) (by rw [shift]; exact h1) (by rw [shift]; exact h2)

/-- A plane alone on its correlation. -/
theorem sink_plane {c : SinkConf} {t t' : Tile α} {r : Range} {l : List (VS α)} (h : sink c t r l = .ok (some t')) {i corr : Nat} {v : Option (VS α)}
    (hv : (planes l)[i]? = some v) (hi : OnlyPlane c (planes l).length i corr) (hcorr : corr < t.ncorr) :
    ∃ col, c.col = some col ∧
      (∀ k j, k < t.nfreq → r.In j → t'.col col corr k j = sample v (j - r.first) k) ∧
      (∀ w k j, v = some w → ¬ w.IsZero → r.In j → c.flagMask ≠ 0 → (∀ f, w.flags = some f → Spans f.shape t) →
        t'.flags corr k j = withBit c.flagBit (w.flag (j - r.first) k &&& c.flagMask)) ∧
      (∀ k j, (v = none ∨ (∃ w, v = some w ∧ w.IsZero) ∨ c.flagMask = 0 ∨ (∃ w f, v = some w ∧ w.flags = some f ∧ ¬ Spans f.shape t)) →
        t'.flags corr k j = t.flags corr k j) := by
  unfold sink at h
  cases hc : c.col with
  | none => rw [hc] at h; cases h
  | some col =>
    rw [hc] at h
    dsimp only at h
    cases hw : writeAll c col r 0 t false (planes l) with
    | throws => rw [hw] at h; cases h
    | ub => rw [hw] at h; cases h
    | ok x =>
      obtain ⟨t1, b⟩ := x
      rw [hw] at h
      have ht : t1 = t' := by
        cases b with
        | true => injection h with h; injection h with h
        | false => injection h with h; cases h
      subst ht
      obtain ⟨_, _, _, _, g5⟩ := writeAll_spec c col r (planes l) 0 t t1 false b hw
      obtain ⟨_, _, _, g1, g2, g3⟩ := g5 i v corr hv (by rw [Nat.zero_add]; exact maps_iff.mpr hi.2.1) hcorr
        (fun p' hp' hm => hi.2.2 p' hp' (by rw [← maps_iff, ← hm, Nat.zero_add]))
      refine ⟨col, rfl, fun k j hk hj => g1 k j hk (has_iff.mpr hj), fun w k j hv hn hj hm hf => ?_, fun k j ho => g3 k j ?_⟩
      · exact g2 w k j hv (by rw [← Bool.not_eq_true, zero_iff]; exact hn) (has_iff.mpr hj) hm (fun f h => spans_iff.mpr (hf f h))
      · rcases ho with h1 | ⟨w, h1, h2⟩ | h1 | ⟨w, f, h1, h2, h3⟩
        · exact .inl h1
        · exact .inr (.inl ⟨w, h1, zero_iff.mpr h2⟩)
        · exact .inr (.inr (.inl h1))
        · exact .inr (.inr (.inr ⟨w, f, h1, h2, by rw [← Bool.not_eq_true, spans_iff]; exact h3⟩))

end

end Verif.VisNodes
