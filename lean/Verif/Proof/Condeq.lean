import Verif.Spec.Condeq
import Verif.Proof.Function
import Mathlib.Tactic.Linarith
import Mathlib.Tactic.Ring
import Mathlib.Tactic.FieldSimp
import Mathlib.Algebra.BigOperators.Group.Finset.Basic
/-! # Conditional equations: proofs -/
namespace Verif.Condeq

open Verif.Func (IdsWf Increasing findSpids isDefined below below_next isDefined_spec)

theorem nearest_spec (q : ℚ) : |q - nearest q| ≤ 1 / 2 := by
  have h1 := Int.floor_le q
  have h2 := Int.lt_floor_add_one q
  unfold nearest
  dsimp only
  rw [abs_le]
  split
  · constructor <;> linarith
  · split
    · push_cast; constructor <;> linarith
    · split
      · constructor <;> linarith
      · push_cast; constructor <;> linarith

theorem remQ_brought (x m : ℚ) (h : m ≠ 0) : Brought m x (remQ x m) := by
  unfold Brought
  rw [if_neg h]
  refine ⟨⟨-nearest (x / m), by unfold remQ; push_cast; ring⟩, ?_⟩
  have e : remQ x m = (x / m - nearest (x / m)) * m := by
    unfold remQ
    rw [sub_mul, div_mul_cancel₀ _ h]
  rw [e, abs_mul]
  have := mul_le_mul_of_nonneg_right (nearest_spec (x / m)) (abs_nonneg m)
  linarith

theorem brought_neg (m x y : ℚ) (h : Brought m x y) : Brought m (-x) (-y) := by
  unfold Brought at *
  split
  · rw [if_pos (by assumption)] at h; rw [h]
  · rw [if_neg (by assumption)] at h
    obtain ⟨⟨k, e⟩, h2⟩ := h
    refine ⟨⟨-k, by rw [e]; push_cast; ring⟩, by rw [abs_neg]; exact h2⟩

theorem brought_zero (m : ℚ) : Brought m 0 0 := by
  unfold Brought
  split
  · rfl
  · refine ⟨⟨0, by simp⟩, by rw [abs_zero]; have := abs_nonneg m; linarith⟩

/-- What `brought` means if it can be only one value. -/
theorem brought_eq (m x y : ℚ) (h : Brought m x y) (hx : m = 0 ∨ |x| < |m| / 2) : y = x := by
  unfold Brought at h
  by_cases hm : m = 0
  · rw [if_pos hm] at h; exact h
  · rw [if_neg hm] at h
    obtain ⟨⟨k, e⟩, h2⟩ := h
    have hx := hx.resolve_left hm
    have hk : k = 0 := by
      by_contra hk
      have h1 : (1 : ℚ) ≤ |(k : ℚ)| := by
        have : (1 : ℤ) ≤ |k| := Int.one_le_abs hk
        have h' : ((1 : ℤ) : ℚ) ≤ ((|k| : ℤ) : ℚ) := by exact_mod_cast this
        rw [Int.cast_abs] at h'
        simpa using h'
      have h3 : |(k : ℚ) * m| < |m| := by
        have : (k : ℚ) * m = y - x := by rw [e]; ring
        rw [this]
        have := abs_sub y x
        linarith
      rw [abs_mul] at h3
      have := mul_le_mul_of_nonneg_right h1 (abs_nonneg m)
      linarith
    rw [e, hk]; simp

/-- Where a parameter is in a list. -/
theorem idx_lt {l : List Int} {s : Int} (h : s ∈ l) : l.idxOf s < l.length := List.idxOf_lt_length_iff.2 h

theorem calcDerivative_spec (m : ℚ) (c : Plane) (v : Num) (s : Int) (minus : Bool) (hw : PlaneWf c v) (hm : m ≠ 0 → RealPlane c v)
    (hs : s ∈ c.spids) :
    ∃ x, calcDerivative m c v (c.spids.idxOf s) minus = .ok (x, run c s) ∧ NumWf x ∧
      (RealPlane c v → x.cplx = false) ∧
      (x.cplx = false → ∀ k < c.npert, (c.pval (c.spids.idxOf s) k).cplx = false) ∧
      (∃ e, Brought m (rise Num.re c v s) e ∧ x.re = (if minus then -e else e) / run c s) ∧
      x.im = (if minus then -(rise Num.im c v s) else rise Num.im c v s) / run c s := by
  have hi := idx_lt hs
  have hne : c.spids ≠ [] := fun h => by rw [h] at hs; cases hs
  have key : ∃ x : Num, diff c v (c.spids.idxOf s) minus = .ok (x, run c s) ∧ NumWf x ∧ (RealPlane c v → x.cplx = false) ∧
      (x.cplx = false → ∀ k < c.npert, (c.pval (c.spids.idxOf s) k).cplx = false) ∧
      x.re = (if minus then -(rise Num.re c v s) else rise Num.re c v s) ∧
      x.im = (if minus then -(rise Num.im c v s) else rise Num.im c v s) := by
    have sub : ∀ a b : Num, NumWf a → NumWf b → NumWf (a.sub b) := by
      intro a b ha hb h
      have h : (a.cplx || b.cplx) = false := h
      rw [Bool.or_eq_false_iff] at h
      change a.im - b.im = 0
      rw [ha h.1, hb h.2]; simp
    have subr : ∀ a b : Num, a.cplx = false → b.cplx = false → (a.sub b).cplx = false := by
      intro a b ha hb
      change (a.cplx || b.cplx) = false
      rw [ha, hb]; rfl
    have subc : ∀ a b : Num, (a.sub b).cplx = false → a.cplx = false ∧ b.cplx = false := by
      intro a b h
      have h : (a.cplx || b.cplx) = false := h
      rwa [Bool.or_eq_false_iff] at h
    unfold diff run rise
    rw [if_pos hs, if_pos hs, if_pos hs]
    rcases hw.sets hne with h1 | h2
    · have hp := hw.pwf _ hi 0 (by omega)
      rw [if_pos h1, if_pos h1, if_pos h1, if_pos h1]
      refine ⟨_, rfl, ?_, fun hr => ?_, fun hx k hk => ?_, ?_, ?_⟩
      · cases minus
        · exact sub _ _ hp hw.wf
        · exact sub _ _ hw.wf hp
      · cases minus
        · exact subr _ _ (hr.2 _ hi 0 (by omega)) hr.1
        · exact subr _ _ hr.1 (hr.2 _ hi 0 (by omega))
      · obtain rfl : k = 0 := by omega
        cases minus
        · exact (subc _ _ hx).1
        · exact (subc _ _ hx).2
      · cases minus
        · rfl
        · change v.re - (c.pval _ 0).re = -((c.pval _ 0).re - v.re); ring
      · cases minus
        · rfl
        · change v.im - (c.pval _ 0).im = -((c.pval _ 0).im - v.im); ring
    · have hp := hw.pwf _ hi 0 (by omega)
      have hp1 := hw.pwf _ hi 1 (by omega)
      have h1 : ¬ c.npert = 1 := by omega
      rw [if_neg h1, if_neg h1, if_neg h1, if_neg h1, if_pos h2]
      refine ⟨_, rfl, ?_, fun hr => ?_, fun hx k hk => ?_, ?_, ?_⟩
      · cases minus
        · exact sub _ _ hp hp1
        · exact sub _ _ hp1 hp
      · cases minus
        · exact subr _ _ (hr.2 _ hi 0 (by omega)) (hr.2 _ hi 1 (by omega))
        · exact subr _ _ (hr.2 _ hi 1 (by omega)) (hr.2 _ hi 0 (by omega))
      · have hx : (c.pval (c.spids.idxOf s) 0).cplx = false ∧ (c.pval (c.spids.idxOf s) 1).cplx = false := by
          cases minus
          · exact subc _ _ hx
          · exact (subc _ _ hx).symm
        rcases (show k = 0 ∨ k = 1 by omega) with rfl | rfl
        · exact hx.1
        · exact hx.2
      · cases minus
        · rfl
        · change (c.pval _ 1).re - (c.pval _ 0).re = -((c.pval _ 0).re - (c.pval _ 1).re); ring
      · cases minus
        · rfl
        · change (c.pval _ 1).im - (c.pval _ 0).im = -((c.pval _ 0).im - (c.pval _ 1).im); ring
  obtain ⟨x, e1, e2, e3, e3', e4, e5⟩ := key
  unfold calcDerivative
  rw [e1]
  dsimp only [Res.bind]
  by_cases h0 : m = 0
  · rw [if_neg (by simpa using h0)]
    dsimp only
    refine ⟨_, rfl, fun h => ?_, e3, e3', ⟨rise Num.re c v s, ?_, ?_⟩, ?_⟩
    · have := e2 h
      change x.im / _ = 0
      rw [this]; simp
    · unfold Brought; rw [if_pos h0]
    · change x.re / _ = _; rw [e4]
    · change x.im / _ = _; rw [e5]
  · have hr := hm h0
    have hx := e3 hr
    rw [if_pos h0]
    have er : remainder x m = .ok ⟨false, remQ x.re m, 0⟩ := by
      unfold remainder; rw [hx]; rfl
    rw [er]
    dsimp only
    have hb := remQ_brought x.re m h0
    refine ⟨_, rfl, fun h => ?_, fun _ => rfl, fun _ k hk => hr.2 _ hi k hk, ?_, ?_⟩
    · change (0 : ℚ) / _ = 0; simp
    · rw [e4] at hb
      cases minus with
      | false => exact ⟨_, hb, by change remQ x.re m / _ = _; rw [e4]; rfl⟩
      | true =>
        refine ⟨-remQ (-(rise Num.re c v s)) m, ?_, ?_⟩
        · have := brought_neg _ _ _ hb
          simpa using this
        · change remQ x.re m / _ = _; rw [e4]; simp
    · have := e2 hx
      rw [e5] at this
      change (0 : ℚ) / _ = _
      rw [this]

/-- Position of a parameter in a child's list. -/
def at? (l : List Int) (s : Int) : Option Nat := if s ∈ l then some (l.idxOf s) else none

theorem derivative_spec (m : ℚ) (c0 c1 : Plane) (v0 v1 : Num) (s : Int) (h0 : PlaneWf c0 v0) (h1 : PlaneWf c1 v1)
    (hm : m ≠ 0 → RealPlane c0 v0 ∧ RealPlane c1 v1) (hs : s ∈ c0.spids ∨ s ∈ c1.spids) :
    ∃ x, derivative m c0 c1 v0 v1 (at? c0.spids s) (at? c1.spids s) = .ok (x, if s ∈ c1.spids then run c1 s else run c0 s) ∧
      NumWf x ∧ (RealPlane c0 v0 → RealPlane c1 v1 → x.cplx = false) ∧
      (x.cplx = false → (s ∈ c0.spids → ∀ k < c0.npert, (c0.pval (c0.spids.idxOf s) k).cplx = false) ∧
        (s ∈ c1.spids → ∀ k < c1.npert, (c1.pval (c1.spids.idxOf s) k).cplx = false)) ∧
      (∃ e0 e1, Brought m (rise Num.re c0 v0 s) e0 ∧ Brought m (rise Num.re c1 v1 s) e1 ∧ x.re = e0 / run c0 s - e1 / run c1 s) ∧
      x.im = rise Num.im c0 v0 s / run c0 s - rise Num.im c1 v1 s / run c1 s := by
  have rz : ∀ (f : Num → ℚ) c v, s ∉ c.spids → rise f c v s = 0 := fun f c v h => by unfold rise; rw [if_neg h]
  unfold at?
  by_cases i1 : s ∈ c1.spids
  · obtain ⟨x, a1, a2, a3, a3', ⟨e1, a4, a5⟩, a6⟩ := calcDerivative_spec m c1 v1 s true h1 (fun h => (hm h).2) i1
    rw [if_pos i1, if_pos i1]
    by_cases i0 : s ∈ c0.spids
    · obtain ⟨y, b1, b2, b3, b3', ⟨e0, b4, b5⟩, b6⟩ := calcDerivative_spec m c0 v0 s true h0 (fun h => (hm h).1) i0
      rw [if_pos i0]
      unfold derivative
      dsimp only
      rw [a1]
      dsimp only [Res.bind]
      rw [b1]
      dsimp only
      refine ⟨_, rfl, ?_, ?_, ?_, ⟨e0, e1, b4, a4, ?_⟩, ?_⟩
      · intro h
        have h : (x.cplx || y.cplx) = false := h
        rw [Bool.or_eq_false_iff] at h
        change x.im - y.im = 0
        rw [a2 h.1, b2 h.2]; simp
      · intro r0 r1
        change (x.cplx || y.cplx) = false
        rw [a3 r1, b3 r0]; rfl
      · intro h
        have h : (x.cplx || y.cplx) = false := h
        rw [Bool.or_eq_false_iff] at h
        exact ⟨fun _ => b3' h.2, fun _ => a3' h.1⟩
      · change x.re - y.re = _
        rw [a5, b5]; simp only [if_true]; ring
      · change x.im - y.im = _
        rw [a6, b6]; simp only [if_true]; ring
    · rw [if_neg i0]
      refine ⟨x, a1, a2, fun _ => a3, fun h => ⟨fun hh => absurd hh i0, fun _ => a3' h⟩, ⟨0, e1, ?_, a4, ?_⟩, ?_⟩
      · rw [rz _ _ _ i0]; exact brought_zero m
      · rw [a5]; simp only [if_true]; ring
      · rw [a6, rz _ _ _ i0]; simp only [if_true]; ring
  · have i0 := hs.resolve_right i1
    obtain ⟨y, b1, b2, b3, b3', ⟨e0, b4, b5⟩, b6⟩ := calcDerivative_spec m c0 v0 s false h0 (fun h => (hm h).1) i0
    rw [if_neg i1, if_neg i1, if_pos i0]
    refine ⟨y, b1, b2, fun r _ => b3 r, fun h => ⟨fun _ => b3' h, fun hh => absurd hh i1⟩, ⟨e0, 0, b4, ?_, ?_⟩, ?_⟩
    · rw [rz _ _ _ i1]; exact brought_zero m
    · rw [b5]; simp
    · rw [b6, rz _ _ _ i1]; simp

/-- The loop, given the derivatives. -/
theorem spidLoop_spec (m : ℚ) (c0 c1 : Plane) (v0 v1 : Num) (D : Int → Num) (P : Int → ℚ)
    (w0 : Increasing c0.spids) (w1 : Increasing c1.spids) : ∀ (l : List Int) (a : Acc), Increasing l →
    (∀ s ∈ l, derivative m c0 c1 v0 v1 (at? c0.spids s) (at? c1.spids s) = .ok (D s, P s)) →
    (∀ s l', l = s :: l' → a.i0 = below c0.spids s ∧ a.i1 = below c1.spids s) →
    (∀ x, x ∈ c0.spids ∨ x ∈ c1.spids → (∃ s l', l = s :: l' ∧ x < s) ∨ x ∈ l ∨ l = []) →
    ∃ a', spidLoop m c0 c1 v0 v1 l a = .ok a' ∧ a'.force = (a.force || l.any fun s => (D s).cplx) ∧
      a'.value = (if a.force = false ∧ a'.force = true then a.value.toC else a.value) ∧
      a'.perts = a.perts ++ l.map P ∧
      a'.derivs = (if a.force = false ∧ a'.force = true then a.derivs.map Num.toC else a.derivs) ++
        l.map fun s => if a'.force = true ∧ (D s).cplx = false then (D s).toC else D s := by
  intro l
  induction l with
  | nil =>
    intro a _ _ _ _
    have hn : ¬ (a.force = false ∧ a.force = true) := by rintro ⟨h, h'⟩; rw [h] at h'; cases h'
    refine ⟨a, rfl, ?_, ?_, ?_, ?_⟩
    · simp
    · rw [if_neg hn]
    · simp
    · rw [if_neg hn]; simp
  | cons s l ih =>
    intro a hinc hD hi hcov
    have hinc' := List.pairwise_cons.1 hinc
    obtain ⟨e0, e1⟩ := hi s l rfl
    have next : ∀ c : Plane, Increasing c.spids → (∀ x ∈ c.spids, x ∈ c0.spids ∨ x ∈ c1.spids) → ∀ t l', l = t :: l' →
        below c.spids t = if s ∈ c.spids then below c.spids s + 1 else below c.spids s := by
      intro c hc hsub t l' hl
      refine below_next c.spids s t hc (hinc'.1 t (by rw [hl]; simp)) fun x hx => ?_
      rcases hcov x (hsub x hx) with ⟨s', l'', e, hlt⟩ | hmem | hnil
      · injection e with e _; rw [← e] at hlt; exact Or.inl (by omega)
      · rcases List.mem_cons.1 hmem with h | h
        · exact Or.inl (by omega)
        · rw [hl] at h hinc'
          rcases List.mem_cons.1 h with h | h
          · exact Or.inr (by omega)
          · have := (List.pairwise_cons.1 hinc'.2).1 x h
            exact Or.inr (by omega)
      · cases hnil
    unfold spidLoop
    dsimp only
    rw [e0, e1, isDefined_spec c0.spids s w0, isDefined_spec c1.spids s w1]
    dsimp only
    have hd := hD s (by simp)
    unfold at? at hd
    rw [hd]
    dsimp only [Res.bind]
    generalize hst : store a (D s) (P s) _ _ = b
    have hb0 : b.i0 = if s ∈ c0.spids then below c0.spids s + 1 else below c0.spids s := by
      rw [← hst]; unfold store; split
      · rfl
      · split <;> rfl
    have hb1 : b.i1 = if s ∈ c1.spids then below c1.spids s + 1 else below c1.spids s := by
      rw [← hst]; unfold store; split
      · rfl
      · split <;> rfl
    obtain ⟨a', r1, r2, r3, r4, r5⟩ := ih b hinc'.2 (fun t ht => hD t (by simp [ht])) (by
      intro t l' hl
      rw [hb0, hb1]
      exact ⟨(next c0 w0 (fun x hx => Or.inl hx) t l' hl).symm, (next c1 w1 (fun x hx => Or.inr hx) t l' hl).symm⟩) (by
      intro x hx
      cases l with
      | nil => exact Or.inr (Or.inr rfl)
      | cons t l' =>
        rcases hcov x hx with ⟨s', l'', e, hlt⟩ | hmem | hnil
        · injection e with e _
          rw [← e] at hlt
          have := hinc'.1 t (by simp)
          exact Or.inl ⟨t, l', rfl, by omega⟩
        · rcases List.mem_cons.1 hmem with h | h
          · have := hinc'.1 t (by simp)
            exact Or.inl ⟨t, l', rfl, by omega⟩
          · exact Or.inr (Or.inl h)
        · cases hnil)
    refine ⟨a', r1, ?_⟩
    cases hf : a.force with
    | true =>
      have hb : b = ⟨true, a.value, a.derivs ++ [if (D s).cplx then D s else (D s).toC], a.perts ++ [P s], b.i0, b.i1⟩ := by
        rw [hb0, hb1, ← hst]; unfold store; rw [if_pos hf]
      rw [hb] at r2 r3 r4 r5
      dsimp only at r2 r3 r4 r5
      have hf' : a'.force = true := by rw [r2]; simp
      rw [if_neg (by simp)] at r3 r5
      refine ⟨by rw [r2]; simp, by rw [if_neg (by simp)]; exact r3, by rw [r4]; simp, ?_⟩
      rw [r5, if_neg (show ¬ (true = false ∧ a'.force = true) by simp), List.map_cons, List.append_assoc, List.singleton_append, hf']
      cases (D s).cplx <;> simp
    | false =>
      cases hc : (D s).cplx with
      | true =>
        have hb : b = ⟨true, a.value.toC, a.derivs.map Num.toC ++ [D s], a.perts ++ [P s], b.i0, b.i1⟩ := by
          rw [hb0, hb1, ← hst]; unfold store; rw [if_neg (by rw [hf]; simp), if_pos hc]
        rw [hb] at r2 r3 r4 r5
        dsimp only at r2 r3 r4 r5
        have hf' : a'.force = true := by rw [r2]; simp
        rw [if_neg (by simp)] at r3 r5
        refine ⟨by rw [r2]; simp [hc], by rw [if_pos ⟨rfl, hf'⟩]; exact r3, by rw [r4]; simp, ?_⟩
        rw [r5, if_pos ⟨rfl, hf'⟩, List.map_cons, List.append_assoc, List.singleton_append, hc]
        simp
      | false =>
        have hb : b = ⟨false, a.value, a.derivs ++ [D s], a.perts ++ [P s], b.i0, b.i1⟩ := by
          rw [hb0, hb1, ← hst]; unfold store; rw [if_neg (by rw [hf]; simp), if_neg (by rw [hc]; simp)]
        rw [hb] at r2 r3 r4 r5
        dsimp only at r2 r3 r4 r5
        refine ⟨by rw [r2]; simp [hc], r3, by rw [r4]; simp, ?_⟩
        rw [r5, List.map_cons, hc]
        by_cases hf' : a'.force = true
        · rw [if_pos ⟨rfl, hf'⟩, if_pos ⟨rfl, hf'⟩, if_pos ⟨hf', rfl⟩, List.map_append, List.append_assoc]
          rfl
        · rw [if_neg (fun h => hf' h.2), if_neg (fun h => hf' h.2), if_neg (fun h => hf' h.1), List.append_assoc]
          rfl

theorem plane_spec (m : ℚ) (c0 c1 : Plane) (v0 v1 : Num) (w : Option Num) (h0 : PlaneWf c0 v0) (h1 : PlaneWf c1 v1)
    (hm : m ≠ 0 → RealPlane c0 v0 ∧ RealPlane c1 v1) (hw : ∀ x, w = some x → x.cplx = false) :
    ∃ o, plane m c0 c1 w = .ok (some o) ∧ OutOk m c0 c1 v0 v1 w o := by
  obtain ⟨u, hu, hu1, hu2⟩ := Func.findSpids_spec [c0.spids, c1.spids] (by
    intro l hl
    rcases List.mem_cons.1 hl with rfl | hl
    · exact h0.ids
    · rw [List.mem_singleton.1 hl]; exact h1.ids)
  have hu3 : ∀ s, s ∈ u ↔ s ∈ c0.spids ∨ s ∈ c1.spids := by intro s; rw [hu2]; simp
  have hD : ∀ s, ∃ x : Num, s ∈ u → _ := fun s => by
    by_cases hs : s ∈ u
    · exact (derivative_spec m c0 c1 v0 v1 s h0 h1 hm ((hu3 s).1 hs)).imp fun x h _ => h
    · exact ⟨⟨false, 0, 0⟩, fun h => absurd h hs⟩
  choose D hD using hD
  have hmain : ∃ x, mainValue m v0 v1 = .ok x ∧ Brought m (v1.re - v0.re) x.re ∧ x.im = v1.im - v0.im ∧ NumWf x ∧
      x.cplx = (v1.cplx || v0.cplx) := by
    unfold mainValue
    by_cases hz : m = 0
    · rw [if_neg (by simpa using hz)]
      refine ⟨_, rfl, ?_, rfl, ?_, rfl⟩
      · unfold Brought; rw [if_pos hz]; rfl
      · intro h
        have h : (v1.cplx || v0.cplx) = false := h
        rw [Bool.or_eq_false_iff] at h
        change v1.im - v0.im = 0
        rw [h1.wf h.1, h0.wf h.2]; simp
    · obtain ⟨r0, r1⟩ := hm hz
      have hx : (v1.sub v0).cplx = false := by
        change (v1.cplx || v0.cplx) = false
        rw [r0.1, r1.1]; rfl
      rw [if_pos hz]
      unfold remainder
      rw [hx]
      refine ⟨_, rfl, remQ_brought _ _ hz, ?_, fun _ => rfl, ?_⟩
      · rw [h1.wf r1.1, h0.wf r0.1]; simp
      · rw [r0.1, r1.1]; rfl
  obtain ⟨x, x1, x2, x3, x4, x5⟩ := hmain
  obtain ⟨a', r1, r2, r3, r4, r5⟩ := spidLoop_spec m c0 c1 v0 v1 D (fun s => if s ∈ c1.spids then run c1 s else run c0 s)
    h0.ids.1 h1.ids.1 u ⟨x.cplx, x, [], [], 0, 0⟩ hu1.1 (fun s hs => (hD s hs).1) (by
      intro s l' hl
      have hz : ∀ c : Plane, (∀ y ∈ c.spids, y ∈ u) → 0 = below c.spids s := by
        intro c hc
        unfold below
        symm
        rw [List.length_eq_zero_iff, List.filter_eq_nil_iff]
        intro y hy
        have := hc y hy
        have hi := hu1.1
        rw [hl] at this hi
        rcases List.mem_cons.1 this with h | h
        · simp [h]
        · have := (List.pairwise_cons.1 hi).1 y h
          simp; omega
      exact ⟨hz c0 fun y hy => (hu3 y).2 (Or.inl hy), hz c1 fun y hy => (hu3 y).2 (Or.inr hy)⟩)
    (fun y hy => Or.inr (Or.inl ((hu3 y).2 hy)))
  dsimp only at r2 r3 r4 r5
  have hsw : setWeight w = .ok (w.map Num.re) := by
    unfold setWeight
    cases w with
    | none => rfl
    | some y => dsimp only; rw [hw y rfl]; rfl
  unfold plane
  rw [h0.value, h1.value]
  dsimp only
  rw [hu]
  dsimp only [Res.bind]
  rw [x1]
  dsimp only
  rw [r1]
  dsimp only
  rw [hsw]
  dsimp only
  have hv : a'.value.re = x.re ∧ a'.value.im = x.im ∧ a'.value.cplx = a'.force := by
    rw [r3]
    split
    · rename_i h
      exact ⟨rfl, (x4 h.1).symm, h.2.symm⟩
    · rename_i h
      refine ⟨rfl, rfl, ?_⟩
      cases hx : x.cplx with
      | true => rw [r2, hx]; rfl
      | false =>
        cases ha : a'.force with
        | true => exact absurd ⟨hx, ha⟩ h
        | false => rfl
  have hd : a'.derivs = u.map fun s => if a'.force = true ∧ (D s).cplx = false then (D s).toC else D s := by
    rw [r5]; split <;> rfl
  refine ⟨_, rfl, ⟨?_, ?_, ?_, hu1, hu3, ?_, ?_, ?_, ?_, ?_, rfl⟩⟩
  · dsimp only; rw [hv.1]; exact x2
  · dsimp only; rw [hv.2.1]; exact x3
  · dsimp only
    intro h
    rw [hv.2.1]
    apply x4
    rw [hv.2.2, r2, Bool.or_eq_false_iff] at h
    exact h.1
  · dsimp only; rw [hd]; simp
  · dsimp only; rw [r4]; simp
  · dsimp only
    intro j s hj
    have hs := List.mem_of_getElem? hj
    obtain ⟨d1, d2, d3, _, d4, d5⟩ := hD s hs
    refine ⟨if a'.force = true ∧ (D s).cplx = false then (D s).toC else D s, _, ?_, ?_, ⟨?_, ?_, rfl⟩, ?_⟩
    · rw [hd, List.getElem?_map, hj]; rfl
    · rw [r4, List.nil_append, List.getElem?_map, hj]; rfl
    · have : (if a'.force = true ∧ (D s).cplx = false then (D s).toC else D s).re = (D s).re := by split <;> rfl
      rw [this]; exact d4
    · have : (if a'.force = true ∧ (D s).cplx = false then (D s).toC else D s).im = (D s).im := by
        split
        · rename_i h; exact (d2 h.2).symm
        · rfl
      rw [this]; exact d5
    · rw [hv.2.2]
      split
      · rename_i h; exact h.1.symm
      · rename_i h
        cases hc : (D s).cplx with
        | true =>
          symm
          rw [r2, Bool.or_eq_true]
          exact Or.inr (List.any_eq_true.2 ⟨s, hs, hc⟩)
        | false =>
          cases ha : a'.force with
          | true => exact absurd ⟨ha, hc⟩ h
          | false => rfl
  · dsimp only
    rw [hv.2.2, r2, x5, Bool.or_eq_false_iff, Bool.or_eq_false_iff]
    constructor
    · rintro ⟨⟨q1, q0⟩, h⟩
      rw [List.any_eq_false] at h
      have at' : ∀ (c : Plane) (i : Nat), Increasing c.spids → (hi : i < c.spids.length) → c.spids.idxOf c.spids[i] = i := by
        intro c i hc hi
        have hn : c.spids.Nodup := hc.imp (fun h => by omega)
        exact hn.idxOf_getElem i hi
      refine ⟨⟨q0, fun i hi k hk => ?_⟩, ⟨q1, fun i hi k hk => ?_⟩⟩
      · have hin : c0.spids[i] ∈ c0.spids := List.getElem_mem hi
        have hu' := (hu3 _).2 (Or.inl hin)
        have := ((hD _ hu').2.2.2.1 (by simpa using h _ hu')).1 hin k hk
        rwa [at' c0 i h0.ids.1 hi] at this
      · have hin : c1.spids[i] ∈ c1.spids := List.getElem_mem hi
        have hu' := (hu3 _).2 (Or.inr hin)
        have := ((hD _ hu').2.2.2.1 (by simpa using h _ hu')).2 hin k hk
        rwa [at' c1 i h1.ids.1 hi] at this
    · rintro ⟨q0, q1⟩
      refine ⟨⟨q1.1, q0.1⟩, ?_⟩
      rw [List.any_eq_false]
      intro s hs
      rw [(hD s hs).2.2.1 q0 q1]; simp
  · dsimp only
    unfold orFlags flagBit
    cases c0.flags <;> cases c1.flags <;> simp

/-! ## All elements -/

theorem pick_spec (c : CRes) (i : Nat) (p : Plane) (h : elem c i = some p) : pick c i = .ok p := by
  unfold elem at h
  have : (if 0 < c.dims.length then i else 0) = if c.dims = [] then 0 else i := by
    cases c.dims <;> simp
  unfold pick
  rw [this, h]

theorem elem_some (c : CRes) (d : List Nat) (i : Nat) (hw : CResWf c) (hf : Fits d c) (hi : i < d.foldr (· * ·) 1) : ∃ p, elem c i = some p := by
  obtain ⟨h1, h2⟩ := hw
  have hpos := List.length_pos_iff.2 h2
  unfold elem
  by_cases hd : c.dims = []
  · rw [if_pos hd]; exact ⟨_, List.getElem?_eq_getElem hpos⟩
  · rw [if_neg hd]
    have := hf.resolve_left hd
    rw [this] at h1
    exact ⟨_, List.getElem?_eq_getElem (by omega)⟩

theorem pickWeight_spec (c2 : Option CRes) (d : List Nat) (i : Nat) (hw : ∀ c, c2 = some c → CResWf c ∧ Fits d c)
    (hi : i < d.foldr (· * ·) 1) : pickWeight c2 i = .ok (weightOf c2 i) := by
  unfold pickWeight weightOf
  cases c2 with
  | none => rfl
  | some c =>
    obtain ⟨h1, h2⟩ := hw c rfl
    obtain ⟨p, hp⟩ := elem_some c d i h1 h2 hi
    dsimp only [Option.bind]
    rw [pick_spec c i p hp, hp]
    rfl

theorem plane_elem (m : ℚ) (p0 p1 : Plane) (w : Option Num) (h : ElemGood m p0 p1 w) :
    ∃ o, plane m p0 p1 w = .ok o ∧ ElemOk m p0 p1 w o := by
  cases h0 : p0.value with
  | none =>
    refine ⟨none, by unfold plane; rw [h0], fun _ => rfl, fun v0 v1 e => ?_⟩
    rw [h0] at e; cases e
  | some v0 =>
    cases h1 : p1.value with
    | none =>
      refine ⟨none, by unfold plane; rw [h0, h1], fun _ => rfl, fun v0 v1 _ e => ?_⟩
      rw [h1] at e; cases e
    | some v1 =>
      obtain ⟨g0, g1, g2, g3⟩ := h v0 v1 h0 h1
      obtain ⟨o, e, ho⟩ := plane_spec m p0 p1 v0 v1 w g0 g1 g2 g3
      refine ⟨some o, e, ?_, ?_⟩
      · rintro (e | e)
        · rw [h0] at e; cases e
        · rw [h1] at e; cases e
      · intro u0 u1 e0 e1
        rw [h0] at e0; rw [h1] at e1
        injection e0 with e0; injection e1 with e1
        subst e0 e1
        exact ⟨o, rfl, ho⟩

theorem planes_spec (m : ℚ) (a b : CRes) (c2 : Option CRes) (d : List Nat) (ha : CResWf a ∧ Fits d a) (hb : CResWf b ∧ Fits d b)
    (hc : ∀ c, c2 = some c → CResWf c ∧ Fits d c)
    (hg : ∀ i < d.foldr (· * ·) 1, ∀ p0 p1, elem a i = some p0 → elem b i = some p1 → ElemGood m p0 p1 (weightOf c2 i)) :
    ∀ l : List Nat, (∀ i ∈ l, i < d.foldr (· * ·) 1) → ∃ r, planes m a b c2 l = .ok r ∧ r.length = l.length ∧
      ∀ (j i : Nat), l[j]? = some i → ∀ p0 p1, elem a i = some p0 → elem b i = some p1 →
        ∃ o, r[j]? = some o ∧ ElemOk m p0 p1 (weightOf c2 i) o := by
  intro l
  induction l with
  | nil => intro _; exact ⟨[], rfl, rfl, fun j i h => by simp at h⟩
  | cons i l ih =>
    intro hl
    obtain ⟨r, r1, r2, r3⟩ := ih fun x hx => hl x (by simp [hx])
    have hi := hl i (by simp)
    obtain ⟨p0, e0⟩ := elem_some a d i ha.1 ha.2 hi
    obtain ⟨p1, e1⟩ := elem_some b d i hb.1 hb.2 hi
    obtain ⟨o, o1, o2⟩ := plane_elem m p0 p1 (weightOf c2 i) (hg i hi p0 p1 e0 e1)
    refine ⟨o :: r, ?_, by simp [r2], ?_⟩
    · unfold planes
      rw [pick_spec a i p0 e0]
      dsimp only [Res.bind]
      rw [pick_spec b i p1 e1]
      dsimp only
      rw [pickWeight_spec c2 d i hc hi]
      dsimp only
      rw [o1]
      dsimp only
      rw [r1]
    · intro j k hj q0 q1 f0 f1
      cases j with
      | zero =>
        obtain rfl : i = k := by simpa using hj
        rw [e0] at f0; rw [e1] at f1
        injection f0 with f0; injection f1 with f1
        subst f0 f1
        exact ⟨o, rfl, o2⟩
      | succ j => exact r3 j k (by simpa using hj) q0 q1 f0 f1

theorem joinDims_fit (d d' : List Nat) (c : CRes) (hw : CResWf c) (hd : d' = [] ∨ d' = d) (hf : Fits d c) :
    joinDims d' c = .ok (if d' = [] then c.dims else d') := by
  have hne : ¬ c.planes.length = 0 := by have := List.length_pos_iff.2 hw.2; omega
  unfold joinDims
  rw [if_neg hne]
  by_cases hc : c.dims = []
  · rw [if_neg (by simpa using hc)]
    by_cases h : d' = []
    · rw [if_pos h, h, hc]
    · rw [if_neg h]
  · have := hf.resolve_left hc
    rw [if_pos hc]
    by_cases h : d' = []
    · rw [if_pos h, if_pos h]
    · rw [if_neg h, if_neg h, if_neg]
      rw [hd.resolve_left h, this]; simp

theorem getResult_spec (m : ℚ) (a b : CRes) (c2 : Option CRes) (d : List Nat) (ha : CResWf a ∧ Fits d a) (hb : CResWf b ∧ Fits d b)
    (hc : ∀ c, c2 = some c → CResWf c ∧ Fits d c) (hd : d = [] ∨ a.dims = d ∨ b.dims = d ∨ ∃ c, c2 = some c ∧ c.dims = d)
    (hg : ∀ i < d.foldr (· * ·) 1, ∀ p0 p1, elem a i = some p0 → elem b i = some p1 → ElemGood m p0 p1 (weightOf c2 i)) :
    ∃ r, getResult m (some a) (some b) c2 = .ok (.result d r) ∧ r.length = d.foldr (· * ·) 1 ∧
      ∀ i < d.foldr (· * ·) 1, ∀ p0 p1, elem a i = some p0 → elem b i = some p1 →
        ∃ o, r[i]? = some o ∧ ElemOk m p0 p1 (weightOf c2 i) o := by
  obtain ⟨r, r1, r2, r3⟩ := planes_spec m a b c2 d ha hb hc hg (List.range (d.foldr (· * ·) 1)) (fun i hi => List.mem_range.1 hi)
  refine ⟨r, ?_, by rw [r2, List.length_range], fun i hi p0 p1 => r3 i i (by rw [List.getElem?_range hi]) p0 p1⟩
  have hne : ¬ a.planes.length = 0 := by have := List.length_pos_iff.2 ha.1.2; omega
  unfold getResult
  dsimp only
  rw [if_neg hne, joinDims_fit d a.dims b hb.1 ha.2 hb.2]
  dsimp only [Res.bind]
  have hj : joinOpt (if a.dims = [] then b.dims else a.dims) c2 = .ok d := by
    have h1 : (if a.dims = [] then b.dims else a.dims) = [] ∨ (if a.dims = [] then b.dims else a.dims) = d := by
      split
      · exact hb.2
      · exact ha.2
    unfold joinOpt
    cases c2 with
    | none =>
      dsimp only
      congr 1
      rcases h1 with h | h
      · rw [h]
        rcases hd with hd | hd | hd | ⟨c, e, _⟩
        · exact hd.symm
        · by_cases h2 : a.dims = []
          · rw [← hd, h2]
          · rw [if_neg h2] at h; exact absurd h h2
        · by_cases h2 : a.dims = []
          · rw [if_pos h2] at h; rw [← hd, h]
          · rw [if_neg h2] at h; exact absurd h h2
        · cases e
      · exact h
    | some c =>
      obtain ⟨c1, c3⟩ := hc c rfl
      dsimp only
      rw [joinDims_fit d _ c c1 h1 c3]
      congr 1
      by_cases h : (if a.dims = [] then b.dims else a.dims) = []
      · rw [if_pos h]
        have hab : a.dims = [] ∧ b.dims = [] := by
          by_cases h2 : a.dims = []
          · rw [if_pos h2] at h; exact ⟨h2, h⟩
          · rw [if_neg h2] at h; exact absurd h h2
        rcases hd with hd | hd | hd | ⟨c', e, h3⟩
        · rcases c3 with h4 | h4
          · rw [h4, hd]
          · exact h4
        · rw [hab.1] at hd
          rcases c3 with h4 | h4
          · rw [h4, hd]
          · exact h4
        · rw [hab.2] at hd
          rcases c3 with h4 | h4
          · rw [h4, hd]
          · exact h4
        · injection e with e; rw [e]; exact h3
      · rw [if_neg h]; exact h1.resolve_left h
  rw [hj]
  dsimp only
  rw [r1]

theorem sum_union (f : Int → ℚ) (l u : List Int) (hl : l.Nodup) (hu : u.Nodup) (hsub : ∀ s ∈ l, s ∈ u) (hz : ∀ s, s ∉ l → f s = 0) :
    (l.map f).sum = (u.map f).sum := by
  rw [← List.sum_toFinset f hl, ← List.sum_toFinset f hu]
  apply Finset.sum_subset
  · intro s hs
    rw [List.mem_toFinset] at *
    exact hsub s hs
  · intro s _ hs
    rw [List.mem_toFinset] at hs
    exact hz s hs

/-- The rise of an affine child. -/
theorem affine_rise (m : ℚ) (f : Num → ℚ) (c : Plane) (v : Num) (a : Int → ℚ) (s : Int) (hw : PlaneWf c v) (ha : Affine m f c v a) :
    ∃ z : ℤ, rise f c v s = a s * run c s + z * m := by
  unfold rise run
  by_cases hs : s ∈ c.spids
  · have hi := idx_lt hs
    have hg : c.spids[c.spids.idxOf s]? = some s := by rw [List.getElem?_eq_getElem hi]; simp
    have hne : c.spids ≠ [] := fun h => by rw [h] at hs; cases hs
    rw [if_pos hs, if_pos hs]
    rcases hw.sets hne with h1 | h2
    · obtain ⟨z, e⟩ := ha.2 _ _ hg 0 (by omega)
      rw [if_pos h1, if_pos h1, e]; exact ⟨z, by ring⟩
    · obtain ⟨z, e⟩ := ha.2 _ _ hg 0 (by omega)
      obtain ⟨z', e'⟩ := ha.2 _ _ hg 1 (by omega)
      rw [if_neg (by omega), if_neg (by omega), e, e']; exact ⟨z - z', by push_cast; ring⟩
  · rw [if_neg hs, if_neg hs, ha.1 s hs]; exact ⟨0, by simp⟩

theorem brought_shift (m x y : ℚ) (z : ℤ) (h : Brought m (x + z * m) y) : Brought m x y := by
  unfold Brought at *
  by_cases hm : m = 0
  · rw [if_pos hm] at *; rw [h, hm]; simp
  · rw [if_neg hm] at *
    obtain ⟨⟨k, e⟩, h2⟩ := h
    exact ⟨⟨z + k, by rw [e]; push_cast; ring⟩, h2⟩

theorem affine_quot (m : ℚ) (c : Plane) (v : Num) (a : Int → ℚ) (s : Int) (e : ℚ) (hw : PlaneWf c v) (ha : Affine m Num.re c v a)
    (hst : Steps m c a) (he : Brought m (rise Num.re c v s) e) : e / run c s = a s := by
  obtain ⟨z, hr⟩ := affine_rise m Num.re c v a s hw ha
  rw [hr] at he
  have he := brought_shift _ _ _ _ he
  by_cases hs : s ∈ c.spids
  · obtain ⟨h1, h2⟩ := hst s hs
    rw [brought_eq _ _ _ he h2]
    field_simp
  · rw [ha.1 s hs, zero_mul] at he
    have : e = 0 := brought_eq _ _ _ he (by
      by_cases hm : m = 0
      · exact Or.inl hm
      · right; rw [abs_zero]; have := abs_pos.2 hm; linarith)
    rw [this, ha.1 s hs]; simp

theorem affine_deriv (m : ℚ) (c0 c1 : Plane) (v0 v1 : Num) (w : Option Num) (o : Out) (a0 a1 : Int → ℚ) (h0 : PlaneWf c0 v0) (h1 : PlaneWf c1 v1)
    (ho : OutOk m c0 c1 v0 v1 w o) (f0 : Affine m Num.re c0 v0 a0) (f1 : Affine m Num.re c1 v1 a1) (s0 : Steps m c0 a0) (s1 : Steps m c1 a1)
    (j : Nat) (s : Int) (hj : o.spids[j]? = some s) : ∃ d, o.derivs[j]? = some d ∧ d.re = a0 s - a1 s := by
  obtain ⟨d, p, h1', _, ⟨⟨e0, e1, b0, b1, e⟩, _⟩, _⟩ := ho.deriv j s hj
  refine ⟨d, h1', ?_⟩
  rw [e, affine_quot m c0 v0 a0 s e0 h0 f0 s0 b0, affine_quot m c1 v1 a1 s e1 h1 f1 s1 b1]

theorem brought_congr (m x y : ℚ) (h : Brought m x y) : ∃ k : ℤ, x = y + k * m := by
  unfold Brought at h
  split at h
  · exact ⟨0, by rw [h]; simp⟩
  · obtain ⟨⟨k, e⟩, _⟩ := h
    exact ⟨-k, by rw [e]; push_cast; ring⟩

theorem affine_moved (m : ℚ) (c0 c1 : Plane) (v0 v1 : Num) (w : Option Num) (o : Out) (a0 a1 δ : Int → ℚ) (h0 : PlaneWf c0 v0) (h1 : PlaneWf c1 v1)
    (ho : OutOk m c0 c1 v0 v1 w o) (f0 : Affine m Num.re c0 v0 a0) (f1 : Affine m Num.re c1 v1 a1) (s0 : Steps m c0 a0) (s1 : Steps m c1 a1) :
    ∃ k : ℤ, moved Num.re c1 v1 a1 δ - moved Num.re c0 v0 a0 δ =
      o.value.re - ((o.spids.zip o.derivs).map fun x => x.2.re * δ x.1).sum + k * m := by
  have nd : ∀ l, IdsWf l → l.Nodup := fun l h => h.1.imp (fun h => by omega)
  have key : (o.spids.zip o.derivs).map (fun x => x.2.re * δ x.1) = o.spids.map fun s => a0 s * δ s - a1 s * δ s := by
    apply List.ext_getElem?
    intro j
    rw [List.getElem?_map, List.getElem?_map]
    cases hj : o.spids[j]? with
    | none =>
      rw [List.getElem?_eq_none]
      · rfl
      · rw [List.length_zip, ho.nderivs, min_self]; exact List.getElem?_eq_none_iff.1 hj
    | some s =>
      obtain ⟨d, e1, e2⟩ := affine_deriv m c0 c1 v0 v1 w o a0 a1 h0 h1 ho f0 f1 s0 s1 j s hj
      rw [(List.getElem?_zip_eq_some (z := (s, d))).2 ⟨hj, e1⟩]
      simp only [Option.map_some]
      rw [e2]; congr 1; ring
  obtain ⟨k, hk⟩ := brought_congr _ _ _ ho.re
  refine ⟨k, ?_⟩
  rw [key]
  unfold moved
  rw [sum_union (fun s => a1 s * δ s) c1.spids o.spids (nd _ h1.ids) (nd _ ho.ids) (fun s hs => (ho.mem s).2 (Or.inr hs))
      (fun s hs => by rw [f1.1 s hs]; simp),
    sum_union (fun s => a0 s * δ s) c0.spids o.spids (nd _ h0.ids) (nd _ ho.ids) (fun s hs => (ho.mem s).2 (Or.inl hs))
      (fun s hs => by rw [f0.1 s hs]; simp)]
  have hs : (o.spids.map fun s => a0 s * δ s - a1 s * δ s).sum = (o.spids.map fun s => a0 s * δ s).sum - (o.spids.map fun s => a1 s * δ s).sum := by
    generalize o.spids = l
    induction l with
    | nil => simp
    | cons x l ih => simp only [List.map_cons, List.sum_cons]; rw [ih]; ring
  rw [hs]
  linarith

end Verif.Condeq
