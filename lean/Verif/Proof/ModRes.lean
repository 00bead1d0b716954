import Verif.Spec.ModRes
import Mathlib.Tactic.Ring
import Mathlib.Tactic.FieldSimp
import Mathlib.Data.List.Induction
/-!
# Proofs on the change of resolution
-/
namespace Verif.ModRes

/-! Grids. -/

theorem cellsFrom_length (x h : ℚ) (n : Nat) : (cellsFrom x h n).length = n := by
  induction n generalizing x with
  | zero => rfl
  | succ n ih => simp [cellsFrom, ih]

theorem cellsFrom_get (x h : ℚ) (n j : Nat) (hj : j < n) : (cellsFrom x h n)[j]? = some (x + h * j, h) := by
  induction n generalizing x j with
  | zero => omega
  | succ n ih =>
    cases j with
    | zero => simp [cellsFrom]
    | succ j =>
      simp only [cellsFrom, List.getElem?_cons_succ]
      rw [ih (x + h) j (by omega)]
      congr 2
      push_cast
      ring

theorem divide_length (k : Nat) (c : ℚ × ℚ) : (divide k c).length = k := by simp [divide, cellsFrom_length]

theorem upAxis_spec (k : Nat) (l : List (ℚ × ℚ)) : Divided k l (upAxis k l) := by
  constructor
  · induction l with
    | nil => simp [upAxis]
    | cons c l ih =>
      simp only [upAxis, List.flatMap_cons, List.length_append, divide_length, List.length_cons] at *
      rw [ih]
      ring
  · intro i j c hc hj
    have key : (upAxis k l)[i * k + j]? = (divide k c)[j]? := by
      induction l generalizing i with
      | nil => simp at hc
      | cons d l ih =>
        simp only [upAxis, List.flatMap_cons]
        cases i with
        | zero =>
          simp at hc
          subst hc
          rw [Nat.zero_mul, Nat.zero_add, List.getElem?_append_left (by rw [divide_length]; exact hj)]
        | succ i =>
          have e1 : (i + 1) * k + j = i * k + j + k := by ring
          rw [List.getElem?_append_right (by rw [divide_length, e1]; omega), divide_length, e1, Nat.add_sub_cancel]
          exact ih i (by simpa using hc)
    rw [key]
    refine ⟨_, cellsFrom_get _ _ _ _ hj, ?_, ?_⟩
    · simp only [lo, hi]
      ring
    · simp only [lo, hi]
      ring

theorem merge_spec {l : List (ℚ × ℚ)} {a b : Nat} {p q : ℚ × ℚ} (ha : l[a]? = some p) (hb : l[b]? = some q) : lo (merge l a b) = lo p ∧ hi (merge l a b) = hi q := by
  simp only [merge, ha, hb, Option.getD_some, lo, hi]
  constructor <;> ring

theorem downAxis_spec (k : Nat) (hk : 0 < k) (l : List (ℚ × ℚ)) (hl : l ≠ []) : Joined k l (downAxis k l) := by
  have hn : 0 < l.length := List.length_pos_iff.2 hl
  set n := (l.length + k - 1) / k with hdef
  have hn1 : l.length ≤ n * k := by
    have := Nat.div_add_mod (l.length + k - 1) k
    have h2 := Nat.mod_lt (l.length + k - 1) hk
    rw [← hdef, Nat.mul_comm k n] at this
    omega
  have hn2 : (n - 1) * k < l.length := by
    have := Nat.div_mul_le_self (l.length + k - 1) k
    rw [← hdef] at this
    rw [Nat.sub_mul]
    omega
  have hn3 : 0 < n := by
    rcases Nat.eq_zero_or_pos n with h | h
    · rw [h] at hn1
      omega
    · exact h
  have hlen : (downAxis k l).length = n := by
    simp only [downAxis, List.length_append, List.length_map, List.length_range, List.length_cons, List.length_nil, ← hdef]
    omega
  refine ⟨by rw [hlen]; exact hn1, ?_⟩
  intro i hi'
  rw [hlen] at hi'
  have hik : i * k ≤ (n - 1) * k := Nat.mul_le_mul_right k (by omega)
  have h1 : i * k < l.length := by omega
  refine ⟨h1, ?_⟩
  have get : ∀ m, m < l.length → ∃ c, l[m]? = some c := fun m hm => ⟨_, List.getElem?_eq_getElem hm⟩
  obtain ⟨a, ha⟩ := get (i * k) h1
  have h2 : min ((i + 1) * k) l.length - 1 < l.length := by omega
  obtain ⟨b, hb⟩ := get _ h2
  by_cases hlast : i = n - 1
  · have e1 : min ((i + 1) * k) l.length - 1 = l.length - 1 := by
      have : i + 1 = n := by omega
      rw [this]
      omega
    have hm : (downAxis k l)[i]? = some (merge l (i * k) (l.length - 1)) := by
      simp only [downAxis, ← hdef]
      rw [List.getElem?_append_right (by simp [hlast])]
      simp [hlast]
    rw [e1] at hb
    have := merge_spec ha hb
    exact ⟨_, a, b, hm, ha, by rw [e1]; exact hb, this.1, this.2⟩
  · have h3 : (i + 1) * k ≤ (n - 1) * k := Nat.mul_le_mul_right k (by omega)
    have e1 : min ((i + 1) * k) l.length - 1 = (i + 1) * k - 1 := by omega
    have hm : (downAxis k l)[i]? = some (merge l (i * k) ((i + 1) * k - 1)) := by
      simp only [downAxis, ← hdef]
      rw [List.getElem?_append_left (by simp; omega)]
      have : i < n - 1 := by omega
      simp [this]
    rw [e1] at hb
    have := merge_spec ha hb
    exact ⟨_, a, b, hm, ha, by rw [e1]; exact hb, this.1, this.2⟩

theorem joined_min {k : Nat} {l l' : List (ℚ × ℚ)} (h : Joined l.length l l') (hl : l.length < k) (hne : l ≠ []) : Joined k l l' := by
  have hn : 0 < l.length := List.length_pos_iff.2 hne
  obtain ⟨h1, h2⟩ := h
  have hlen : l'.length = 1 := by
    rcases Nat.lt_trichotomy l'.length 1 with h | h | h
    · have : l'.length = 0 := by omega
      rw [this] at h1
      omega
    · exact h
    · have := (h2 1 h).1
      omega
  refine ⟨by rw [hlen]; omega, ?_⟩
  intro i hi
  have hi0 : i = 0 := by omega
  subst hi0
  obtain ⟨h3, c, a, b, e1, e2, e3, e4, e5⟩ := h2 0 hi
  refine ⟨by omega, c, a, b, e1, by simpa using e2, ?_, e4, e5⟩
  have : min ((0 + 1) * k) l.length = min ((0 + 1) * l.length) l.length := by omega
  rw [this]
  exact e3

theorem uniform_spec (d : ℚ × ℚ) (n : Nat) : Even d n (uniform d n) := by
  refine ⟨by simp [uniform], ?_⟩
  intro i hi'
  refine ⟨(d.1 + (d.2 - d.1) / n / 2 + (d.2 - d.1) / n * (i : Nat), (d.2 - d.1) / n), by simp [uniform, hi'], ?_, ?_⟩
  · simp only [lo]
    ring
  · simp only [hi]
    ring

/-! Settings. -/

theorem lastGiven_set (field : Rec → Option (List Int)) (evs : List Event) (r : Rec) :
    lastGiven field (evs ++ [.set r]) = match field r with
      | some l => some l
      | none => lastGiven field evs := by
  simp only [lastGiven, List.filterMap_append]
  cases h : field r <;> simp [h]

theorem lastGiven_ask (field : Rec → Option (List Int)) (evs : List Event) (r : Req) : lastGiven field (evs ++ [.ask r]) = lastGiven field evs := by
  simp [lastGiven, List.filterMap_append]

theorem lastGiven_mem {field : Rec → Option (List Int)} {evs : List Event} {l : List Int} (h : lastGiven field evs = some l) : ∃ r, Event.set r ∈ evs ∧ field r = some l := by
  have := List.mem_of_getLast? h
  obtain ⟨ev, h1, h2⟩ := List.mem_filterMap.1 this
  cases ev with
  | set r => exact ⟨r, h1, h2⟩
  | ask r => simp at h2

structure Inv (evs : List Event) (s : St) : Prop where
  nx : s.nx = at_ (lastGiven Rec.num evs) 0
  ny : s.ny = at_ (lastGiven Rec.num evs) 1
  doUp : s.doUp = (lastGiven Rec.up evs).isSome
  up : s.up = (lastGiven Rec.up evs).getD []
  doDown : s.doDown = (lastGiven Rec.down evs).isSome
  down : s.down = (lastGiven Rec.down evs).getD []
  resample : s.resample = ((lastGiven Rec.num evs).isSome || (lastGiven Rec.up evs).isSome || (lastGiven Rec.down evs).isSome)

theorem init_inv : Inv [] init := by constructor <;> rfl

theorem set_inv {evs : List Event} {s : St} (h : Inv evs s) (r : Rec) (hp : ∀ f, (f = r.num ∨ f = r.up ∨ f = r.down) → ∀ l, f = some l → l.length = 2) :
    Inv (evs ++ [.set r]) (setState s r) := by
  obtain ⟨num, up, down⟩ := r
  have h1 : num = none ∨ ∃ a b, num = some [a, b] := by
    cases hn : num with
    | none => exact Or.inl rfl
    | some l =>
      have := hp num (Or.inl rfl) l hn
      match l, this with
      | [a, b], _ => exact Or.inr ⟨a, b, rfl⟩
  have h2 : up = none ∨ ∃ a b, up = some [a, b] := by
    cases hn : up with
    | none => exact Or.inl rfl
    | some l =>
      have := hp up (Or.inr (Or.inl rfl)) l hn
      match l, this with
      | [a, b], _ => exact Or.inr ⟨a, b, rfl⟩
  have h3 : down = none ∨ ∃ a b, down = some [a, b] := by
    cases hn : down with
    | none => exact Or.inl rfl
    | some l =>
      have := hp down (Or.inr (Or.inr rfl)) l hn
      match l, this with
      | [a, b], _ => exact Or.inr ⟨a, b, rfl⟩
  obtain ⟨i1, i2, i3, i4, i5, i6, i7⟩ := h
  rcases h1 with rfl | ⟨a, b, rfl⟩ <;> rcases h2 with rfl | ⟨a', b', rfl⟩ <;> rcases h3 with rfl | ⟨a'', b'', rfl⟩ <;>
    constructor <;> simp [setState, setNum, setUp, setDown, lastGiven_set, at_, i1, i2, i3, i4, i5, i6, i7]

/-- With enough cells, factors stay. -/
theorem axis_spec {evs : List Event} {s : St} (h : Inv evs s) (hp : Proper evs) (i : Nat) (hi : i < 2) (num : Option Int) (d : ℚ × ℚ) {l : List (ℚ × ℚ)} (hl : l ≠ [])
    (hg : (lastGiven Rec.up evs).isSome || (lastGiven Rec.down evs).isSome) (down : List Int) (hd : down[i]? = s.down[i]?) :
    ∃ down' l', axis s i down l = .ok (down', l') ∧ Right num (at_ (lastGiven Rec.up evs) i) (at_ (lastGiven Rec.down evs) i) d l l' ∧
      (∀ j, j ≠ i → down'[j]? = down[j]?) ∧ down'.length = down.length ∧
      ((∀ f, at_ (lastGiven Rec.down evs) i = some f → f ≤ l.length) → down' = down) := by
  have len : ∀ (f : Rec → Option (List Int)), (f = Rec.num ∨ f = Rec.up ∨ f = Rec.down) → ∀ q, lastGiven f evs = some q → ∃ x, q[i]? = some x := by
    intro f hf q hq
    obtain ⟨r, h1, h2⟩ := lastGiven_mem hq
    have : q.length = 2 := by
      rcases hf with rfl | rfl | rfl
      · exact hp r h1 _ (Or.inl rfl) q h2
      · exact hp r h1 _ (Or.inr (Or.inl rfl)) q h2
      · exact hp r h1 _ (Or.inr (Or.inr rfl)) q h2
    exact ⟨_, List.getElem?_eq_getElem (by omega)⟩
  have fu : factor s.doUp s.up i = .ok ((at_ (lastGiven Rec.up evs) i).bind (fun f => if 1 < f then some f.toNat else none)) := by
    unfold factor
    rw [h.doUp, h.up]
    cases hu : lastGiven Rec.up evs with
    | none => rfl
    | some q =>
      obtain ⟨x, hx⟩ := len Rec.up (Or.inr (Or.inl rfl)) q hu
      simp [at_, hx]
  have fd : factor s.doDown down i = .ok ((at_ (lastGiven Rec.down evs) i).bind (fun f => if 1 < f then some f.toNat else none)) := by
    unfold factor
    rw [h.doDown, hd, h.down]
    cases hu : lastGiven Rec.down evs with
    | none => rfl
    | some q =>
      obtain ⟨x, hx⟩ := len Rec.down (Or.inr (Or.inr rfl)) q hu
      simp [at_, hx]
  have hg' : at_ (lastGiven Rec.up evs) i = none → at_ (lastGiven Rec.down evs) i ≠ none := by
    intro h0 h1
    cases hu : lastGiven Rec.up evs with
    | some q =>
      obtain ⟨x, hx⟩ := len Rec.up (Or.inr (Or.inl rfl)) q hu
      simp [at_, hu, hx] at h0
    | none =>
      cases hw : lastGiven Rec.down evs with
      | some q =>
        obtain ⟨x, hx⟩ := len Rec.down (Or.inr (Or.inr rfl)) q hw
        simp [at_, hw, hx] at h1
      | none => simp [hu, hw] at hg
  unfold axis
  rw [fu, fd]
  generalize at_ (lastGiven Rec.up evs) i = u at *
  generalize at_ (lastGiven Rec.down evs) i = w at *
  clear fu fd len
  by_cases hu : ∃ f, u = some f ∧ 1 < f
  · obtain ⟨f, rfl, hf⟩ := hu
    refine ⟨down, upAxis f.toNat l, by simp [hf], ?_, fun _ _ => rfl, rfl, fun _ => rfl⟩
    refine ⟨?_, ?_, ?_, by simp, by simp⟩
    · intro k hk hkf
      cases hkf
      exact upAxis_spec k l
    · intro k _ hle _
      have := hle f rfl
      omega
    · intro _ hle _
      have := hle f rfl
      omega
  · have eu : u.bind (fun f => if 1 < f then some f.toNat else none) = none := by
      cases u with
      | none => rfl
      | some f =>
        have : ¬ 1 < f := fun hf => hu ⟨f, rfl, hf⟩
        simp [this]
    have ule : ∀ f, u = some f → f ≤ 1 := by
      intro f hf
      have : ¬ 1 < f := fun h => hu ⟨f, hf, h⟩
      omega
    rw [eu]
    by_cases hw : ∃ f, w = some f ∧ 1 < f
    · obtain ⟨f, rfl, hf⟩ := hw
      by_cases hc : l.length < f.toNat
      · refine ⟨down.set i l.length, downAxis l.length l, by simp [hf, hl, hc], ?_, ?_, by simp, ?_⟩
        · refine ⟨?_, ?_, ?_, by simp, by simp⟩
          · intro k hk hkf
            have := ule _ hkf
            omega
          · intro k hk _ hkf
            cases hkf
            exact joined_min (downAxis_spec l.length (List.length_pos_iff.2 hl) l hl) (by simpa using hc) hl
          · intro _ _ hle
            have := hle f rfl
            omega
        · intro j hj
          simp [Ne.symm hj]
        · intro hle
          have := hle f rfl
          omega
      · refine ⟨down, downAxis f.toNat l, by simp [hf, hl, hc], ?_, fun _ _ => rfl, rfl, fun _ => rfl⟩
        refine ⟨?_, ?_, ?_, by simp, by simp⟩
        · intro k hk hkf
          have := ule _ hkf
          omega
        · intro k hk _ hkf
          cases hkf
          exact downAxis_spec k (by omega) l hl
        · intro _ _ hle
          have := hle f rfl
          omega
    · have ew : w.bind (fun f => if 1 < f then some f.toNat else none) = none := by
        cases w with
        | none => rfl
        | some f =>
          have : ¬ 1 < f := fun hf => hw ⟨f, rfl, hf⟩
          simp [this]
      rw [ew]
      refine ⟨down, l, rfl, ?_, fun _ _ => rfl, rfl, fun _ => rfl⟩
      refine ⟨?_, ?_, fun _ _ _ => rfl, fun hu0 hw0 => absurd hw0 (hg' hu0), fun hu0 hw0 => absurd hw0 (hg' hu0)⟩
      · intro k hk hkf
        have := ule _ hkf
        omega
      · intro k hk _ hkf
        have : ¬ 1 < (k : Int) := fun hf => hw ⟨k, hkf, hf⟩
        omega

theorem ask_spec {evs : List Event} {s : St} (h : Inv evs s) (hp : Proper evs) (r : Req) (hx : r.x ≠ []) (hy : r.y ≠ []) :
    ∃ s' r', ask s r = .ok (s', r') ∧ Good evs r r' ∧
      ((∀ f, at_ (lastGiven Rec.down evs) 0 = some f → f ≤ r.x.length) → (∀ f, at_ (lastGiven Rec.down evs) 1 = some f → f ≤ r.y.length) → s' = s) := by
  unfold ask
  rw [h.resample, h.doUp, h.doDown]
  by_cases hg : ((lastGiven Rec.up evs).isSome || (lastGiven Rec.down evs).isSome) = true
  · obtain ⟨d1, x', e1, e2, e3, e4, e5⟩ := axis_spec h hp 0 (by omega) (at_ (lastGiven Rec.num evs) 0) r.d0 hx hg s.down rfl
    obtain ⟨d2, y', f1, f2, f3, f4, f5⟩ := axis_spec h hp 1 (by omega) (at_ (lastGiven Rec.num evs) 1) r.d1 hy hg d1 (e3 1 (by omega))
    have hr : ((lastGiven Rec.num evs).isSome || (lastGiven Rec.up evs).isSome || (lastGiven Rec.down evs).isSome) = true := by
      rw [Bool.or_assoc, hg, Bool.or_true]
    simp only [hr, hg, Bool.not_true, Bool.false_eq_true, if_false, e1, f1, Res.ok_bind]
    refine ⟨_, _, rfl, ⟨rfl, rfl, e2, f2⟩, ?_⟩
    intro g1 g2
    rw [f5 g2, e5 g1, ← h.doUp, ← h.doDown, ← h.resample.trans hr]
  · have hg1 : lastGiven Rec.up evs = none := by
      cases hq : lastGiven Rec.up evs <;> simp_all
    have hg2 : lastGiven Rec.down evs = none := by
      cases hq : lastGiven Rec.down evs <;> simp_all
    simp only [hg1, hg2, Option.isSome_none, Bool.or_false]
    cases hn : lastGiven Rec.num evs with
    | none =>
      refine ⟨s, r, by simp, ⟨rfl, rfl, ?_, ?_⟩, fun _ _ => rfl⟩
      · rw [hn, hg1, hg2]
        refine ⟨by simp [at_], by simp [at_], by simp, by simp [at_], by simp⟩
      · rw [hn, hg1, hg2]
        refine ⟨by simp [at_], by simp [at_], by simp, by simp [at_], by simp⟩
    | some q =>
      obtain ⟨rc, h1, h2⟩ := lastGiven_mem hn
      have hq := hp rc h1 _ (Or.inl rfl) q h2
      match q, hq with
      | [a, b], _ =>
        have n1 : s.nx = some a := by rw [h.nx, hn]; rfl
        have n2 : s.ny = some b := by rw [h.ny, hn]; rfl
        have ev : ∀ (d : ℚ × ℚ) (l : List (ℚ × ℚ)) (c : Int),
            Right (some c) none none d l (uniform d (if c < 1 then l.length else c.toNat)) := by
          intro d l c
          refine ⟨by simp, by simp, by simp, ?_, by simp⟩
          intro _ _ n hn
          cases hn
          have e : (if c < 1 then l.length else c.toNat) = if 0 < c then c.toNat else l.length := by
            split <;> split <;> omega
          rw [e]
          exact uniform_spec d _
        refine ⟨s, { r with
            x := uniform r.d0 (if a < 1 then r.x.length else a.toNat)
            y := uniform r.d1 (if b < 1 then r.y.length else b.toNat)
            rest := [] }, by simp [n1, n2], ⟨rfl, rfl, ?_, ?_⟩, fun _ _ => rfl⟩
        · rw [hn, hg1, hg2]
          exact ev r.d0 r.x a
        · rw [hn, hg1, hg2]
          exact ev r.d1 r.y b

theorem run_append (s : St) (l : List Event) (m : List Event) : run s (l ++ m) = (run s l).bind (fun s => run s m) := by
  induction l generalizing s with
  | nil => rfl
  | cons ev l ih =>
    cases ev with
    | set r => exact ih _
    | ask r =>
      simp only [List.cons_append, run]
      cases ask s r with
      | ok p => exact ih _
      | err => rfl
      | ub => rfl

/-- Requests have as many cells as are to be joined. -/
def Big (evs : List Event) : Prop :=
  ∀ r, Event.ask r ∈ evs → r.x ≠ [] ∧ r.y ≠ [] ∧ ∀ q, Event.set q ∈ evs → ∀ f, (at_ q.down 0 = some f → f ≤ r.x.length) ∧ (at_ q.down 1 = some f → f ≤ r.y.length)

theorem run_inv (evs : List Event) (hp : Proper evs) (hb : Big evs) : ∃ s, run init evs = .ok s ∧ Inv evs s := by
  induction evs using List.reverseRecOn with
  | nil => exact ⟨init, rfl, init_inv⟩
  | append_singleton evs ev ih =>
    obtain ⟨s, h1, h2⟩ := ih (fun r hr => hp r (List.mem_append_left _ hr)) (fun r hr => by
      obtain ⟨a, b, c⟩ := hb r (List.mem_append_left _ hr)
      exact ⟨a, b, fun q hq => c q (List.mem_append_left _ hq)⟩)
    rw [run_append, h1]
    cases ev with
    | set r => exact ⟨_, rfl, set_inv h2 r (hp r (by simp))⟩
    | ask r =>
      obtain ⟨a, b, c⟩ := hb r (by simp)
      obtain ⟨s', r', e1, e2, e3⟩ := ask_spec h2 (fun r hr => hp r (List.mem_append_left _ hr)) r a b
      have hs : s' = s := by
        apply e3
        · intro f hf
          cases hq : lastGiven Rec.down evs with
          | none => simp [at_, hq] at hf
          | some l =>
            obtain ⟨q, q1, q2⟩ := lastGiven_mem hq
            exact (c q (List.mem_append_left _ q1) f).1 (by rw [q2, ← hq]; exact hf)
        · intro f hf
          cases hq : lastGiven Rec.down evs with
          | none => simp [at_, hq] at hf
          | some l =>
            obtain ⟨q, q1, q2⟩ := lastGiven_mem hq
            exact (c q (List.mem_append_left _ q1) f).2 (by rw [q2, ← hq]; exact hf)
      refine ⟨s, ?_, ?_⟩
      · show run s [.ask r] = _
        simp only [run, e1, Res.ok_bind, hs]
      · obtain ⟨i1, i2, i3, i4, i5, i6, i7⟩ := h2
        constructor <;> simp only [lastGiven_ask] <;> assumption

end Verif.ModRes
