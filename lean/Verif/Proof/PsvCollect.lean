import Verif.Spec.Psv
import Verif.Proof.Spids
import Mathlib.Algebra.Order.Ring.Rat
import Mathlib.Data.List.Basic
import Mathlib.Tactic.Ring
/-!
# Lemmas on the collection of perturbed values
-/
namespace Verif.Psv
open Func (Increasing IdsWf findSpids)

theorem iptr_lt {nch nsp mx c p e : Nat} (hc : c < nch) (hp : p ≤ nsp) (he : e < mx) : iptr nsp mx c p e < nch * mx * (1 + nsp) := by
  have h1 : c * (nsp + 1) + p + 1 ≤ nch * (nsp + 1) := by
    have : (c + 1) * (nsp + 1) ≤ nch * (nsp + 1) := Nat.mul_le_mul_right _ hc
    have e : (c + 1) * (nsp + 1) = c * (nsp + 1) + (nsp + 1) := by ring
    omega
  have h2 : (c * (nsp + 1) + p + 1) * mx ≤ nch * (nsp + 1) * mx := Nat.mul_le_mul_right _ h1
  have h3 : (c * (nsp + 1) + p + 1) * mx = (c * (nsp + 1) + p) * mx + mx := by ring
  have h4 : nch * (nsp + 1) * mx = nch * mx * (1 + nsp) := by ring
  unfold iptr
  omega

theorem iptr_inj {nsp mx c p e c' p' e' : Nat} (hp : p ≤ nsp) (he : e < mx) (hp' : p' ≤ nsp) (he' : e' < mx)
    (h : iptr nsp mx c p e = iptr nsp mx c' p' e') : c = c' ∧ p = p' ∧ e = e' := by
  unfold iptr at h
  have hm : 0 < mx := by omega
  have h1 : ((c * (nsp + 1) + p) * mx + e) % mx = e := by rw [Nat.mul_comm, Nat.mul_add_mod]; exact Nat.mod_eq_of_lt he
  have h2 : ((c' * (nsp + 1) + p') * mx + e') % mx = e' := by rw [Nat.mul_comm, Nat.mul_add_mod]; exact Nat.mod_eq_of_lt he'
  rw [h] at h1
  have ee : e = e' := h1.symm.trans h2
  subst ee
  have h3 : c * (nsp + 1) + p = c' * (nsp + 1) + p' := Nat.eq_of_mul_eq_mul_right hm (by omega)
  have h4 : (c * (nsp + 1) + p) % (nsp + 1) = p := by rw [Nat.mul_comm, Nat.mul_add_mod]; exact Nat.mod_eq_of_lt (by omega)
  have h5 : (c' * (nsp + 1) + p') % (nsp + 1) = p' := by rw [Nat.mul_comm, Nat.mul_add_mod]; exact Nat.mod_eq_of_lt (by omega)
  rw [h3] at h4
  have pp : p = p' := h4.symm.trans h5
  subst pp
  exact ⟨Nat.eq_of_mul_eq_mul_right (show 0 < nsp + 1 by omega) (by omega), rfl, rfl⟩

theorem inc_lt {all : List Int} (h : Increasing all) {i j : Nat} {a b : Int} (hij : i < j) (ha : all[i]? = some a) (hb : all[j]? = some b) : a < b := by
  obtain ⟨h1, e1⟩ := List.getElem?_eq_some_iff.mp ha
  obtain ⟨h2, e2⟩ := List.getElem?_eq_some_iff.mp hb
  have := List.pairwise_iff_getElem.mp h i j h1 h2 hij
  rw [e1, e2] at this
  exact this

theorem inc_inj {all : List Int} (h : Increasing all) {i j : Nat} {a : Int} (ha : all[i]? = some a) (hb : all[j]? = some a) : i = j := by
  rcases Nat.lt_trichotomy i j with c | c | c
  · exact absurd (inc_lt h c ha hb) (by omega)
  · exact c
  · exact absurd (inc_lt h c hb ha) (by omega)

theorem skip_spec {all : List Int} (h : Increasing all) {spid : Int} {k : Nat} (hk : all[k]? = some spid) : ∀ (f i : Nat), i ≤ k → k - i < f →
    skip all spid f i = .ok k := by
  intro f
  induction f with
  | zero => intro i _ h; omega
  | succ f ih =>
    intro i hik hf
    have hkl : k < all.length := (List.getElem?_eq_some_iff.mp hk).1
    obtain ⟨a, ha⟩ : ∃ a, all[i]? = some a := ⟨_, List.getElem?_eq_getElem (by omega)⟩
    unfold skip
    rw [ha]
    simp only
    by_cases he : i = k
    · subst he
      rw [hk] at ha
      cases ha
      rw [if_neg (by omega)]
    · have := inc_lt h (show i < k by omega) ha hk
      rw [if_pos ⟨this, by omega⟩]
      exact ih (i + 1) (by omega) (by omega)

theorem put_ok {R : Type} {vp : List (Option R)} {i : Nat} (v : R) (h : i < vp.length) : put vp i v = .ok (vp.set i (some v)) := by
  simp [put, h]

/-- The perturbations found agree with `H`. -/
def Cons (all : List Int) (H : Int → ℚ) (hs : List (Option ℚ)) : Prop :=
  hs.length = all.length ∧ ∀ (k : Nat) s h, all[k]? = some s → hs[k]? = some (some h) → h = H s

theorem perts_spec {R : Type} {all : List Int} (hall : Increasing all) (pos : Nat → Nat) (H : Int → ℚ)
    (hinj : ∀ i j, i < all.length → j < all.length → pos i = pos j → i = j) : ∀ (r : List (Int × ℚ × R)) (i : Nat) (vp : List (Option R)) (hs : List (Option ℚ)),
    (r.map (fun p => p.1)).Pairwise (· < ·) → (∀ x ∈ r, ∃ k, i ≤ k ∧ all[k]? = some x.1) → (∀ x ∈ r, x.2.1 = H x.1) →
    (∀ k, k < all.length → pos k < vp.length) → Cons all H hs →
    ∃ vp' hs', perts all pos r i (vp, hs) = .ok (vp', hs') ∧ vp'.length = vp.length ∧
      (∀ m, (∀ k, k < all.length → pos k ≠ m) → vp'[m]? = vp[m]?) ∧
      (∀ (k : Nat) s, all[k]? = some s → vp'[pos k]? =
        match r.find? (fun p => decide (p.1 = s)) with | some p => some (some p.2.2) | none => vp[pos k]?) ∧
      Cons all H hs' ∧ (∀ k : Nat, hs[k]? ≠ some none → hs'[k]? = hs[k]?) ∧
      (∀ x ∈ r, ∀ k : Nat, all[k]? = some x.1 → hs'[k]? = some (some x.2.1)) := by
  intro r
  induction r with
  | nil => intro i vp hs _ _ _ _ hc; exact ⟨vp, hs, rfl, rfl, by simp, by simp, hc, by simp, by simp⟩
  | cons x r ih =>
    intro i vp hs hpw hin hH hpos hc
    obtain ⟨spid, h, v⟩ := x
    obtain ⟨k, hik, hk⟩ := hin _ (List.mem_cons_self ..)
    simp only at hk
    have hkl : k < all.length := (List.getElem?_eq_some_iff.mp hk).1
    rw [List.map_cons, List.pairwise_cons] at hpw
    have hh : h = H spid := hH _ (List.mem_cons_self ..)
    have hlt : ∀ x ∈ r, spid < x.1 := fun x hx => hpw.1 _ (List.mem_map_of_mem hx)
    have hin' : ∀ x ∈ r, ∃ k', k ≤ k' ∧ all[k']? = some x.1 := by
      intro x hx
      obtain ⟨k', _, hk'⟩ := hin x (List.mem_cons_of_mem _ hx)
      refine ⟨k', ?_, hk'⟩
      by_contra hc
      have := inc_lt hall (show k' < k by omega) hk' hk
      have := hlt x hx
      omega
    have hkh : k < hs.length := by rw [hc.1]; exact hkl
    -- the state after this value
    have step : ∃ hs1, perts all pos ((spid, h, v) :: r) i (vp, hs) = perts all pos r k (vp.set (pos k) (some v), hs1) ∧ Cons all H hs1 ∧
        (∀ k : Nat, hs[k]? ≠ some none → hs1[k]? = hs[k]?) ∧ hs1[k]? = some (some h) := by
      simp only [perts]
      rw [skip_spec hall hk _ _ hik (by omega)]
      simp only [Res.ok_bind]
      rw [if_pos ⟨hkl, hk⟩, put_ok v (hpos k hkl)]
      simp only [Res.ok_bind]
      cases hg : hs[k]? with
      | none => rw [List.getElem?_eq_none_iff] at hg; omega
      | some g =>
        cases g with
        | none =>
          refine ⟨hs.set k (some h), rfl, ⟨by simp [hc.1], ?_⟩, ?_, by simp [hkh]⟩
          · intro k' s h' hs' hg'
            by_cases e : k' = k
            · subst e
              rw [List.getElem?_set_self hkh] at hg'
              rw [hk] at hs'
              cases hs'
              cases hg'
              exact hh
            · rw [List.getElem?_set_ne (by omega)] at hg'
              exact hc.2 k' s h' hs' hg'
          · intro k' hk'
            by_cases e : k' = k
            · subst e; exact absurd hg hk'
            · rw [List.getElem?_set_ne (by omega)]
        | some h' =>
          have e : h' = h := (hc.2 k spid h' hk hg).trans hh.symm
          subst e
          refine ⟨hs, by simp, hc, fun _ _ => rfl, hg⟩
    obtain ⟨hs1, e1, c1, m1, g1⟩ := step
    obtain ⟨vp', hs', e2, hl, hout, hval, hcons, hmono, hfound⟩ := ih k (vp.set (pos k) (some v)) hs1 hpw.2 hin'
      (fun x hx => hH x (List.mem_cons_of_mem _ hx)) (by simpa using hpos) c1
    refine ⟨vp', hs', by rw [e1, e2], by simpa using hl, ?_, ?_, hcons, ?_, ?_⟩
    · intro m hm
      rw [hout m hm, List.getElem?_set_ne (hm k hkl)]
    · intro k' s hs0
      rw [hval k' s hs0]
      have hk'l : k' < all.length := (List.getElem?_eq_some_iff.mp hs0).1
      by_cases e : spid = s
      · subst e
        have : k' = k := inc_inj hall hs0 hk
        subst this
        have : r.find? (fun p => decide (p.1 = spid)) = none := by
          rw [List.find?_eq_none]
          intro x hx
          have := hlt x hx
          simp only [decide_eq_true_eq]
          omega
        rw [this]
        simp [hpos k' hkl]
      · rw [List.find?_cons_of_neg (by simpa using e)]
        have : pos k ≠ pos k' := by
          intro hp
          have := hinj k k' hkl hk'l hp
          subst this
          rw [hk] at hs0
          cases hs0
          exact e rfl
        rw [List.getElem?_set_ne this]
    · intro k' hk'
      rw [hmono k' (by rw [m1 k' hk']; exact hk'), m1 k' hk']
    · intro x hx k' hk'
      rcases List.mem_cons.mp hx with rfl | hx
      · simp only at hk' ⊢
        have : k' = k := inc_inj hall hk' hk
        subst this
        rw [hmono k' (by rw [g1]; simp), g1]
      · exact hfound x hx k' hk'

/-- What a plane puts into the table. -/
def entry {R : Type} (all : List Int) (v : VS R) : Nat → Option R
  | 0 => some v.main
  | i + 1 => match all[i]? with | none => none | some s => (v.perts.find? (fun p => decide (p.1 = s))).map (fun p => p.2.2)

/-- The planes' ids are increasing and among all, and the perturbations are those of `H`. -/
def PlaneOk {R : Type} (all : List Int) (H : Int → ℚ) (v : VS R) : Prop :=
  (v.perts.map (fun p => p.1)).Pairwise (· < ·) ∧ (∀ x ∈ v.perts, x.1 ∈ all) ∧ ∀ x ∈ v.perts, x.2.1 = H x.1

theorem planesLoop_spec {R : Type} {all : List Int} (hall : Increasing all) (H : Int → ℚ) (nch mx c : Nat) (hc : c < nch) :
    ∀ (l : List (VS R)) (e0 : Nat) (vp : List (Option R)) (hs : List (Option ℚ)), (∀ v ∈ l, PlaneOk all H v) → e0 + l.length ≤ mx →
    vp.length = nch * mx * (1 + all.length) → Cons all H hs →
    (∀ p e, p ≤ all.length → e0 ≤ e → e < mx → vp[iptr all.length mx c p e]? = some none) →
    ∃ vp' hs', planesLoop all mx c l e0 (vp, hs) = .ok (vp', hs') ∧ vp'.length = vp.length ∧
      (∀ c' p e, p ≤ all.length → e < mx → (c' ≠ c ∨ e < e0) → vp'[iptr all.length mx c' p e]? = vp[iptr all.length mx c' p e]?) ∧
      (∀ (e : Nat) v p, l[e]? = some v → p ≤ all.length → vp'[iptr all.length mx c p (e0 + e)]? = some (entry all v p)) ∧
      Cons all H hs' ∧ (∀ k : Nat, hs[k]? ≠ some none → hs'[k]? = hs[k]?) ∧
      (∀ v ∈ l, ∀ x ∈ v.perts, ∀ k : Nat, all[k]? = some x.1 → hs'[k]? = some (some x.2.1)) := by
  intro l
  induction l with
  | nil => intro e0 vp hs _ _ _ hc _; exact ⟨vp, hs, rfl, rfl, fun _ _ _ _ _ _ => rfl, by simp, hc, fun _ _ => rfl, by simp⟩
  | cons v l ih =>
    intro e0 vp hs hok hlen hvp hcons hnone
    simp only [List.length_cons] at hlen
    obtain ⟨ok1, ok2, ok3⟩ := hok v (List.mem_cons_self ..)
    have hi0 : iptr all.length mx c 0 e0 < vp.length := by rw [hvp]; exact iptr_lt hc (by omega) (by omega)
    obtain ⟨vp1, hs1, e1, l1, o1, v1, c1, m1, f1⟩ := perts_spec hall (fun i => iptr all.length mx c (i + 1) e0) H
      (by
        intro i j hi hj h
        have := (iptr_inj (by omega) (by omega) (by omega) (by omega) h).2.1
        omega) v.perts 0 (vp.set (iptr all.length mx c 0 e0) (some v.main)) hs ok1
      (by
        intro x hx
        obtain ⟨k, hk⟩ := List.getElem?_of_mem (ok2 x hx)
        exact ⟨k, by omega, hk⟩) ok3
      (by
        intro k hk
        rw [List.length_set, hvp]
        exact iptr_lt hc (by omega) (by omega)) hcons
    simp only [List.length_set] at l1
    have hentry : ∀ p, p ≤ all.length → vp1[iptr all.length mx c p e0]? = some (entry all v p) := by
      intro p hp
      cases p with
      | zero =>
        rw [o1 _ (by
          intro k hk h
          have := (iptr_inj (by omega) (by omega) (by omega) (by omega) h).2.1
          omega), List.getElem?_set_self hi0]
        rfl
      | succ i =>
        obtain ⟨s, hs⟩ : ∃ s, all[i]? = some s := ⟨_, List.getElem?_eq_getElem (by omega)⟩
        rw [v1 i s hs]
        simp only [entry, hs]
        cases hf : v.perts.find? (fun p => decide (p.1 = s)) with
        | some x => rfl
        | none =>
          simp only [Option.map_none]
          rw [List.getElem?_set_ne, hnone (i + 1) e0 hp (le_refl _) (by omega)]
          intro h
          have := (iptr_inj (by omega) (by omega) (by omega) (by omega) h).2.1
          omega
    have hother : ∀ c' p e, p ≤ all.length → e < mx → (c' ≠ c ∨ e ≠ e0) → vp1[iptr all.length mx c' p e]? = vp[iptr all.length mx c' p e]? := by
      intro c' p e hp he hne
      rw [o1 _ (by
        intro k hk h
        have := iptr_inj (by omega) (by omega) hp he h
        omega), List.getElem?_set_ne]
      intro h
      have := iptr_inj (by omega) (by omega) hp he h
      omega
    obtain ⟨vp', hs', e2, l2, o2, v2, c2, m2, f2⟩ := ih (e0 + 1) vp1 hs1 (fun w hw => hok w (List.mem_cons_of_mem _ hw)) (by omega) (by rw [l1, hvp]) c1
      (by
        intro p e hp he1 he2
        rw [hother c p e hp he2 (Or.inr (by omega))]
        exact hnone p e hp (by omega) he2)
    refine ⟨vp', hs', ?_, by rw [l2, l1], ?_, ?_, c2, ?_, ?_⟩
    · simp only [planesLoop]
      rw [put_ok _ hi0]
      simp only [Res.ok_bind]
      rw [e1]
      simp only [Res.ok_bind]
      exact e2
    · intro c' p e hp he hne
      rw [o2 c' p e hp he (by omega), hother c' p e hp he (by omega)]
    · intro e w p hw hp
      cases e with
      | zero =>
        simp only [List.getElem?_cons_zero, Option.some.injEq] at hw
        subst hw
        rw [Nat.add_zero, o2 c p e0 hp (by omega) (by omega)]
        exact hentry p hp
      | succ e =>
        rw [List.getElem?_cons_succ] at hw
        have := v2 e w p hw hp
        rw [show e0 + (e + 1) = e0 + 1 + e by omega]
        exact this
    · intro k hk
      rw [m2 k (by rw [m1 k hk]; exact hk), m1 k hk]
    · intro w hw x hx k hk
      rcases List.mem_cons.mp hw with rfl | hw
      · have := f1 x hx k hk
        rw [m2 k (by rw [this]; simp), this]
      · exact f2 w hw x hx k hk

theorem childLoop_spec {R : Type} {all : List Int} (hall : Increasing all) (H : Int → ℚ) (nch mx : Nat) :
    ∀ (l : List (Child R)) (c0 : Nat) (vp : List (Option R)) (hs : List (Option ℚ)), (∀ ch ∈ l, ∀ v ∈ ch.planes, PlaneOk all H v) →
    (∀ ch ∈ l, ch.planes.length ≤ mx) → c0 + l.length ≤ nch → vp.length = nch * mx * (1 + all.length) → Cons all H hs →
    (∀ c p e, c0 ≤ c → c < nch → p ≤ all.length → e < mx → vp[iptr all.length mx c p e]? = some none) →
    ∃ vp' hs', childLoop all mx l c0 (vp, hs) = .ok (vp', hs') ∧
      (∀ c' p e, p ≤ all.length → e < mx → c' < c0 → vp'[iptr all.length mx c' p e]? = vp[iptr all.length mx c' p e]?) ∧
      (∀ (c e : Nat) ch v p, l[c]? = some ch → ch.planes[e]? = some v → p ≤ all.length → vp'[iptr all.length mx (c0 + c) p e]? = some (entry all v p)) ∧
      Cons all H hs' ∧ (∀ k : Nat, hs[k]? ≠ some none → hs'[k]? = hs[k]?) ∧
      (∀ ch ∈ l, ∀ v ∈ ch.planes, ∀ x ∈ v.perts, ∀ k : Nat, all[k]? = some x.1 → hs'[k]? = some (some x.2.1)) := by
  intro l
  induction l with
  | nil => intro c0 vp hs _ _ _ _ hc _; exact ⟨vp, hs, rfl, fun _ _ _ _ _ _ => rfl, by simp, hc, fun _ _ => rfl, by simp⟩
  | cons ch l ih =>
    intro c0 vp hs hok hmx hlen hvp hcons hnone
    simp only [List.length_cons] at hlen
    obtain ⟨vp1, hs1, e1, l1, o1, v1, c1, m1, f1⟩ := planesLoop_spec hall H nch mx c0 (by omega) ch.planes 0 vp hs
      (hok ch (List.mem_cons_self ..)) (by have := hmx ch (List.mem_cons_self ..); omega) hvp hcons
      (fun p e hp _ he => hnone c0 p e (le_refl _) (by omega) hp he)
    obtain ⟨vp', hs', e2, o2, v2, c2, m2, f2⟩ := ih (c0 + 1) vp1 hs1 (fun w hw => hok w (List.mem_cons_of_mem _ hw))
      (fun w hw => hmx w (List.mem_cons_of_mem _ hw)) (by omega) (by rw [l1, hvp]) c1
      (by
        intro c p e h1 h2 hp he
        rw [o1 c p e hp he (by omega)]
        exact hnone c p e (by omega) h2 hp he)
    refine ⟨vp', hs', ?_, ?_, ?_, c2, ?_, ?_⟩
    · simp only [childLoop]
      rw [e1]
      simp only [Res.ok_bind]
      exact e2
    · intro c' p e hp he hne
      rw [o2 c' p e hp he (by omega), o1 c' p e hp he (by omega)]
    · intro c e ch' v p hch hv hp
      have hmxe : ∀ ch', ch' ∈ ch :: l → ch'.planes[e]? = some v → e < mx := by
        intro ch' h1 h2
        have := hmx ch' h1
        have := (List.getElem?_eq_some_iff.mp h2).1
        omega
      cases c with
      | zero =>
        simp only [List.getElem?_cons_zero, Option.some.injEq] at hch
        subst hch
        rw [Nat.add_zero, o2 c0 p e hp (hmxe ch (List.mem_cons_self ..) hv) (by omega)]
        have := v1 e v p hv hp
        rw [Nat.zero_add] at this
        exact this
      | succ c =>
        rw [List.getElem?_cons_succ] at hch
        have := v2 c e ch' v p hch hv hp
        rw [show c0 + (c + 1) = c0 + 1 + c by omega]
        exact this
    · intro k hk
      rw [m2 k (by rw [m1 k hk]; exact hk), m1 k hk]
    · intro w hw v hv x hx k hk
      rcases List.mem_cons.mp hw with rfl | hw
      · have := f1 v hv x hx k hk
        rw [m2 k (by rw [this]; simp), this]
      · exact f2 w hw v hv x hx k hk

theorem foldl_max : ∀ (l : List Nat) (a : Nat), a ≤ l.foldl max a ∧ ∀ x ∈ l, x ≤ l.foldl max a := by
  intro l
  induction l with
  | nil => intro a; simp
  | cons y l ih =>
    intro a
    obtain ⟨h1, h2⟩ := ih (max a y)
    simp only [List.foldl_cons]
    refine ⟨by omega, ?_⟩
    intro x hx
    rcases List.mem_cons.mp hx with rfl | hx
    · omega
    · exact h2 x hx

theorem collect_spec {R : Type} (cs : List (Child R)) (hids : ∀ ch ∈ cs, ∀ v ∈ ch.planes, IdsWf (v.perts.map (fun p => p.1))) (hag : Agree cs) :
    ∃ t all hs, collect cs = .ok (t, all, hs) ∧ IdsWf all ∧ (∀ s, s ∈ all ↔ ∃ c e, Depends s cs c e) ∧
      t.nsp = all.length ∧ t.nvs = cs.map (fun c => c.planes.length) ∧ hs.length = all.length ∧
      (∀ (c e : Nat) ch v p, cs[c]? = some ch → ch.planes[e]? = some v → p ≤ all.length → t.vp[iptr t.nsp t.planes c p e]? = some (entry all v p)) ∧
      (∀ ch ∈ cs, ∀ v ∈ ch.planes, ∀ x ∈ v.perts, ∀ k : Nat, all[k]? = some x.1 → hs[k]? = some x.2.1) := by
  classical
  obtain ⟨all, ea, hall, hmem⟩ := Func.findSpids_spec (cs.flatMap (fun c => c.planes.map (fun v => v.perts.map (fun p => p.1)))) (by
    intro l hl
    simp only [List.mem_flatMap, List.mem_map] at hl
    obtain ⟨ch, hch, v, hv, rfl⟩ := hl
    exact hids ch hch v hv)
  let H : Int → ℚ := fun s => if h : ∃ q : ℚ, ∃ ch ∈ cs, ∃ v ∈ ch.planes, ∃ x ∈ v.perts, x.1 = s ∧ x.2.1 = q then h.choose else 0
  have hH : ∀ ch ∈ cs, ∀ v ∈ ch.planes, ∀ x ∈ v.perts, x.2.1 = H x.1 := by
    intro ch hch v hv x hx
    have hex : ∃ q : ℚ, ∃ ch ∈ cs, ∃ v ∈ ch.planes, ∃ y ∈ v.perts, y.1 = x.1 ∧ y.2.1 = q := ⟨_, ch, hch, v, hv, x, hx, rfl, rfl⟩
    obtain ⟨ch', hch', v', hv', x', hx', e1, e2⟩ := hex.choose_spec
    have : H x.1 = hex.choose := by simp only [H]; rw [dif_pos hex]
    rw [this, ← e2]
    exact hag ch hch v hv x hx ch' hch' v' hv' x' hx' e1.symm
  have hmemall : ∀ ch ∈ cs, ∀ v ∈ ch.planes, ∀ x ∈ v.perts, x.1 ∈ all := by
    intro ch hch v hv x hx
    rw [hmem]
    exact ⟨v.perts.map (fun p => p.1), by simp only [List.mem_flatMap, List.mem_map]; exact ⟨ch, hch, v, hv, rfl⟩, List.mem_map_of_mem hx⟩
  let mx := (cs.map (fun c => c.planes.length)).foldl max 0
  have hmx : ∀ ch ∈ cs, ch.planes.length ≤ mx := fun ch hch => (foldl_max _ 0).2 _ (List.mem_map_of_mem hch)
  obtain ⟨vp, hs, e1, _, v1, c1, _, f1⟩ := childLoop_spec hall.1 H cs.length mx cs 0 (List.replicate (cs.length * mx * (1 + all.length)) none)
    (List.replicate all.length none) (fun ch hch v hv => ⟨(hids ch hch v hv).1, hmemall ch hch v hv, hH ch hch v hv⟩) hmx (by omega) (by simp)
    ⟨by simp, by
      intro k s h _ hk
      rw [List.getElem?_replicate] at hk
      split at hk <;> simp at hk⟩
    (by
      intro c p e _ hc hp he
      rw [List.getElem?_replicate, if_pos (iptr_lt hc hp he)])
  refine ⟨⟨cs.map (fun c => c.planes.length), all.length, mx, vp⟩, all, hs.map (fun h => h.getD 0), ?_, hall, ?_, rfl, rfl, by simp [c1.1], ?_, ?_⟩
  · simp only [collect]
    rw [ea]
    simp only [Res.ok_bind]
    have e1' := e1
    simp only [mx] at e1'
    rw [e1']
    simp only [Res.ok_bind]
    rfl
  · intro s
    rw [hmem]
    simp only [List.mem_flatMap, List.mem_map, Depends]
    constructor
    · rintro ⟨l, ⟨ch, hch, v, hv, rfl⟩, hx⟩
      obtain ⟨x, hy, rfl⟩ := List.mem_map.mp hx
      obtain ⟨c, hc⟩ := List.getElem?_of_mem hch
      obtain ⟨e, he⟩ := List.getElem?_of_mem hv
      exact ⟨c, e, ch, v, x, hc, he, hy, rfl⟩
    · rintro ⟨c, e, ch, v, x, hc, he, hx, rfl⟩
      exact ⟨_, ⟨ch, List.mem_of_getElem? hc, v, List.mem_of_getElem? he, rfl⟩, List.mem_map_of_mem hx⟩
  · intro c e ch v p hch hv hp
    have := v1 c e ch v p hch hv hp
    rw [Nat.zero_add] at this
    exact this
  · intro ch hch v hv x hx k hk
    rw [List.getElem?_map, f1 ch hch v hv x hx k hk]
    rfl

/-! ### Perturbations that disagree -/

theorem perts_found {R : Type} {all : List Int} (hall : Increasing all) (pos : Nat → Nat) : ∀ (r : List (Int × ℚ × R)) (i : Nat) (vp : List (Option R))
    (hs : List (Option ℚ)) vp' hs', (r.map (fun p => p.1)).Pairwise (· < ·) → (∀ x ∈ r, ∃ k, i ≤ k ∧ all[k]? = some x.1) →
    perts all pos r i (vp, hs) = .ok (vp', hs') →
    (∀ (k : Nat) h, hs[k]? = some (some h) → hs'[k]? = some (some h)) ∧ (∀ x ∈ r, ∀ k : Nat, all[k]? = some x.1 → hs'[k]? = some (some x.2.1)) := by
  intro r
  induction r with
  | nil =>
    intro i vp hs vp' hs' _ _ h
    simp only [perts] at h
    cases h
    exact ⟨fun _ _ h => h, by simp⟩
  | cons x r ih =>
    intro i vp hs vp' hs' hpw hin hok
    obtain ⟨spid, h, v⟩ := x
    obtain ⟨k, hik, hk⟩ := hin _ (List.mem_cons_self ..)
    simp only at hk
    have hkl : k < all.length := (List.getElem?_eq_some_iff.mp hk).1
    rw [List.map_cons, List.pairwise_cons] at hpw
    have hlt : ∀ x ∈ r, spid < x.1 := fun x hx => hpw.1 _ (List.mem_map_of_mem hx)
    have hin' : ∀ x ∈ r, ∃ k', k ≤ k' ∧ all[k']? = some x.1 := by
      intro x hx
      obtain ⟨k', _, hk'⟩ := hin x (List.mem_cons_of_mem _ hx)
      refine ⟨k', ?_, hk'⟩
      by_contra hc
      have := inc_lt hall (show k' < k by omega) hk' hk
      have := hlt x hx
      omega
    simp only [perts] at hok
    rw [skip_spec hall hk _ _ hik (by omega)] at hok
    simp only [Res.ok_bind] at hok
    rw [if_pos ⟨hkl, hk⟩] at hok
    rw [Res.bind_eq_ok] at hok
    obtain ⟨vp1, _, hok⟩ := hok
    have fin : ∀ hs1, perts all pos r k (vp1, hs1) = .ok (vp', hs') → (∀ (j : Nat) g, hs[j]? = some (some g) → hs1[j]? = some (some g)) → hs1[k]? = some (some h) →
        (∀ (k : Nat) h, hs[k]? = some (some h) → hs'[k]? = some (some h)) ∧
        (∀ x ∈ (spid, h, v) :: r, ∀ k : Nat, all[k]? = some x.1 → hs'[k]? = some (some x.2.1)) := by
      intro hs1 hok h1 h2
      obtain ⟨a, b⟩ := ih k vp1 hs1 vp' hs' hpw.2 hin' hok
      refine ⟨fun j g hg => a j g (h1 j g hg), ?_⟩
      intro x hx k' hk'
      rcases List.mem_cons.mp hx with rfl | hx
      · have : k' = k := inc_inj hall hk' hk
        subst this
        exact a _ _ h2
      · exact b x hx k' hk'
    cases hg : hs[k]? with
    | none => rw [hg] at hok; cases hok
    | some g =>
      cases g with
      | none =>
        rw [hg] at hok
        have hkh : k < hs.length := (List.getElem?_eq_some_iff.mp hg).1
        refine fin _ hok ?_ (by simp [hkh])
        intro j g hj
        have : j ≠ k := by rintro rfl; rw [hg] at hj; cases hj
        rw [List.getElem?_set_ne (Ne.symm this)]
        exact hj
      | some h' =>
        rw [hg] at hok
        simp only at hok
        by_cases he : h' ≠ h
        · rw [if_pos he] at hok; cases hok
        · rw [if_neg he] at hok
          have : h' = h := by simpa using he
          subst this
          exact fin _ hok (fun _ _ h => h) hg

theorem planesLoop_found {R : Type} {all : List Int} (hall : Increasing all) (mx c : Nat) : ∀ (l : List (VS R)) (e0 : Nat) (vp : List (Option R))
    (hs : List (Option ℚ)) vp' hs', (∀ v ∈ l, (v.perts.map (fun p => p.1)).Pairwise (· < ·) ∧ ∀ x ∈ v.perts, x.1 ∈ all) →
    planesLoop all mx c l e0 (vp, hs) = .ok (vp', hs') →
    (∀ (k : Nat) h, hs[k]? = some (some h) → hs'[k]? = some (some h)) ∧
    (∀ v ∈ l, ∀ x ∈ v.perts, ∀ k : Nat, all[k]? = some x.1 → hs'[k]? = some (some x.2.1)) := by
  intro l
  induction l with
  | nil =>
    intro e0 vp hs vp' hs' _ h
    simp only [planesLoop] at h
    cases h
    exact ⟨fun _ _ h => h, by simp⟩
  | cons v l ih =>
    intro e0 vp hs vp' hs' hv hok
    simp only [planesLoop] at hok
    rw [Res.bind_eq_ok] at hok
    obtain ⟨vp1, _, hok⟩ := hok
    rw [Res.bind_eq_ok] at hok
    obtain ⟨⟨vp2, hs2⟩, h2, hok⟩ := hok
    obtain ⟨v1, v2⟩ := hv v (List.mem_cons_self ..)
    obtain ⟨a1, b1⟩ := perts_found hall _ _ _ _ _ _ _ v1 (by
      intro x hx
      obtain ⟨k, hk⟩ := List.getElem?_of_mem (v2 x hx)
      exact ⟨k, by omega, hk⟩) h2
    obtain ⟨a2, b2⟩ := ih (e0 + 1) vp2 hs2 vp' hs' (fun w hw => hv w (List.mem_cons_of_mem _ hw)) hok
    refine ⟨fun k h hk => a2 k h (a1 k h hk), ?_⟩
    intro w hw x hx k hk
    rcases List.mem_cons.mp hw with rfl | hw
    · exact a2 _ _ (b1 x hx k hk)
    · exact b2 w hw x hx k hk

theorem childLoop_found {R : Type} {all : List Int} (hall : Increasing all) (mx : Nat) : ∀ (l : List (Child R)) (c0 : Nat) (vp : List (Option R))
    (hs : List (Option ℚ)) vp' hs', (∀ ch ∈ l, ∀ v ∈ ch.planes, (v.perts.map (fun p => p.1)).Pairwise (· < ·) ∧ ∀ x ∈ v.perts, x.1 ∈ all) →
    childLoop all mx l c0 (vp, hs) = .ok (vp', hs') →
    (∀ (k : Nat) h, hs[k]? = some (some h) → hs'[k]? = some (some h)) ∧
    (∀ ch ∈ l, ∀ v ∈ ch.planes, ∀ x ∈ v.perts, ∀ k : Nat, all[k]? = some x.1 → hs'[k]? = some (some x.2.1)) := by
  intro l
  induction l with
  | nil =>
    intro e0 vp hs vp' hs' _ h
    simp only [childLoop] at h
    cases h
    exact ⟨fun _ _ h => h, by simp⟩
  | cons ch l ih =>
    intro c0 vp hs vp' hs' hv hok
    simp only [childLoop] at hok
    rw [Res.bind_eq_ok] at hok
    obtain ⟨⟨vp2, hs2⟩, h2, hok⟩ := hok
    obtain ⟨a1, b1⟩ := planesLoop_found hall _ _ _ _ _ _ _ _ (hv ch (List.mem_cons_self ..)) h2
    obtain ⟨a2, b2⟩ := ih (c0 + 1) vp2 hs2 vp' hs' (fun w hw => hv w (List.mem_cons_of_mem _ hw)) hok
    refine ⟨fun k h hk => a2 k h (a1 k h hk), ?_⟩
    intro w hw v hvw x hx k hk
    rcases List.mem_cons.mp hw with rfl | hw
    · exact a2 _ _ (b1 v hvw x hx k hk)
    · exact b2 w hw v hvw x hx k hk

theorem collect_agree {R : Type} {cs : List (Child R)} (hids : ∀ ch ∈ cs, ∀ v ∈ ch.planes, IdsWf (v.perts.map (fun p => p.1))) {r}
    (hok : collect cs = .ok r) : Agree cs := by
  obtain ⟨all, ea, hall, hmem⟩ := Func.findSpids_spec (cs.flatMap (fun c => c.planes.map (fun v => v.perts.map (fun p => p.1)))) (by
    intro l hl
    simp only [List.mem_flatMap, List.mem_map] at hl
    obtain ⟨ch, hch, v, hv, rfl⟩ := hl
    exact hids ch hch v hv)
  have hmemall : ∀ ch ∈ cs, ∀ v ∈ ch.planes, ∀ x ∈ v.perts, x.1 ∈ all := by
    intro ch hch v hv x hx
    rw [hmem]
    exact ⟨v.perts.map (fun p => p.1), by simp only [List.mem_flatMap, List.mem_map]; exact ⟨ch, hch, v, hv, rfl⟩, List.mem_map_of_mem hx⟩
  simp only [collect] at hok
  rw [ea] at hok
  simp only [Res.ok_bind] at hok
  rw [Res.bind_eq_ok] at hok
  obtain ⟨⟨vp, hs⟩, h1, _⟩ := hok
  obtain ⟨_, b⟩ := childLoop_found hall.1 _ _ _ _ _ _ _ (fun ch hch v hv => ⟨(hids ch hch v hv).1, hmemall ch hch v hv⟩) h1
  intro ch hch v hv p hp ch' hch' v' hv' p' hp' e
  obtain ⟨k, hk⟩ := List.getElem?_of_mem (hmemall ch hch v hv p hp)
  have h1 := b ch hch v hv p hp k hk
  rw [e] at hk
  have h2 := b ch' hch' v' hv' p' hp' k hk
  rw [h1] at h2
  simpa using h2

end Verif.Psv
