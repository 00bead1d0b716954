import Verif.Proof.PsvPert
import Verif.Proof.PsvDims
import Mathlib.Algebra.BigOperators.Group.Finset.Basic
/-!
# All sources and perturbations
-/
namespace Verif.Psv
open Func (Increasing IdsWf)

section
variable {R : Type} [CommRing R]

theorem is_add {x y : R × R × R × R} {m k : Matrix (Fin 2) (Fin 2) R} (hx : Is x m) (hy : Is y k) : Is (add4 x y) (m + k) := by
  obtain ⟨a1, a2, a3, a4⟩ := hx
  obtain ⟨b1, b2, b3, b4⟩ := hy
  refine ⟨?_, ?_, ?_, ?_⟩ <;> simp [add4, *]

/-- The perturbations from `p` on. -/
theorem pertLoop_spec {cs : List (Child R)} {all : List Int} {t : Tab R} {cfg : Cfg} {n pairs : Nat} (S : Setup cs all t cfg n pairs) (o : Ops R) {s : Nat}
    (hs : s < n) : ∀ (k p : Nat) (st : St R), 0 < p → p + k ≤ all.length + 1 → Base cs n pairs st → Inv o cs all n pairs s p st →
    ∃ (st' : St R) (ws : Nat → R × R × R × R), pertLoop o t cfg s k p st = .ok st' ∧ Base cs n pairs st' ∧ st'.out.length = st.out.length ∧
      (∀ q : Nat, q < p → st'.out[q]? = st.out[q]?) ∧
      (∀ q : Nat, p ≤ q → q < p + k → st'.out[q]? = (st.out[q]?).map (add4 · (ws q))) ∧
      (∀ q, p ≤ q → q < p + k → Good cs all n pairs s q → Is (ws q) (vis o cs n pairs (val cs all 0) (val cs all q) s)) := by
  intro k
  induction k with
  | zero => intro p st _ _ hb _; exact ⟨st, fun _ => (0, 0, 0, 0), rfl, hb, rfl, fun _ _ => rfl, fun q h1 h2 => by omega, fun q h1 h2 => by omega⟩
  | succ k ih =>
    intro p st hp hk hb hi
    obtain ⟨st1, w, e1, b1, o1, i1, g1⟩ := step_pert S o hs (by omega) hp st hb
    obtain ⟨st', ws, e2, b2, l2, same, ok, good⟩ := ih (p + 1) st1 (by omega) (by omega) b1 (i1 hi)
    refine ⟨st', fun q => if q = p then w else ws q, ?_, b2, by rw [l2, o1]; simp, ?_, ?_, ?_⟩
    · simp only [pertLoop]
      rw [e1]
      simp only [Res.ok_bind]
      exact e2
    · intro q hq
      rw [same q (by omega), o1, List.getElem?_modify]
      simp [show ¬ p = q by omega]
    · intro q h1 h2
      by_cases hqp : q = p
      · subst hqp
        rw [same q (by omega), o1, List.getElem?_modify]
        simp
      · rw [ok q (by omega) (by omega), o1, List.getElem?_modify]
        simp [show ¬ p = q by omega, hqp]
    · intro q h1 h2 hg
      by_cases hqp : q = p
      · subst hqp
        simp only [if_true]
        exact g1 hi hg
      · simp only [hqp, if_false]
        exact good q (by omega) (by omega) hg

/-- A source. -/
theorem source_spec {cs : List (Child R)} {all : List Int} {t : Tab R} {cfg : Cfg} {n pairs : Nat} (S : Setup cs all t cfg n pairs) (o : Ops R) {s : Nat}
    (hs : s < n) (st : St R) (hb : Base cs n pairs st) :
    ∃ (st' : St R) (ws : Nat → R × R × R × R), pertLoop o t cfg s (t.nsp + 1) 0 st = .ok st' ∧ Base cs n pairs st' ∧ st'.out.length = st.out.length ∧
      (∀ q : Nat, q ≤ all.length → st'.out[q]? = (st.out[q]?).map (add4 · (ws q))) ∧
      (∀ q, q ≤ all.length → q = 0 ∨ Good cs all n pairs s q → Is (ws q) (vis o cs n pairs (val cs all 0) (val cs all q) s)) := by
  obtain ⟨st1, w, e1, b1, o1, h1, i1⟩ := step_main S o hs st hb
  obtain ⟨st', ws, e2, b2, l2, same, ok, good⟩ := pertLoop_spec S o hs all.length 1 st1 (by omega) (by omega) b1 i1
  refine ⟨st', fun q => if q = 0 then w else ws q, ?_, b2, by rw [l2, o1]; simp, ?_, ?_⟩
  · simp only [pertLoop]
    rw [e1]
    simp only [Res.ok_bind]
    rw [S.filled.1]
    exact e2
  · intro q hq
    by_cases h0 : q = 0
    · subst h0
      rw [same 0 (by omega), o1, List.getElem?_modify]
      simp
    · rw [ok q (by omega) (by omega), o1, List.getElem?_modify]
      simp [show ¬ 0 = q by omega, h0]
  · intro q hq hg
    by_cases h0 : q = 0
    · subst h0
      simp only [if_true]
      exact h1
    · simp only [h0, if_false]
      exact good q (by omega) (by omega) (by rcases hg with h | h; exact absurd h h0; exact h)

theorem srcLoop_spec {cs : List (Child R)} {all : List Int} {t : Tab R} {cfg : Cfg} {n pairs : Nat} (S : Setup cs all t cfg n pairs) (o : Ops R) :
    ∀ (k s : Nat) (st : St R), s + k = n → Base cs n pairs st →
    ∃ st', srcLoop o t cfg k s st = .ok st' ∧ st'.out.length = st.out.length ∧
      ∀ q, q ≤ all.length → (q = 0 ∨ ∀ s', s' < n → Good cs all n pairs s' q) → ∀ x m, st.out[q]? = some x → Is x m →
        ∃ y, st'.out[q]? = some y ∧ Is y (m + ∑ i ∈ Finset.range k, vis o cs n pairs (val cs all 0) (val cs all q) (s + i)) := by
  intro k
  induction k with
  | zero => intro s st _ _; exact ⟨st, rfl, rfl, fun q _ _ x m hx hm => ⟨x, hx, by simpa using hm⟩⟩
  | succ k ih =>
    intro s st hsk hb
    obtain ⟨st1, ws, e1, b1, l1, o1, g1⟩ := source_spec S o (show s < n by omega) st hb
    obtain ⟨st', e2, l2, h2⟩ := ih (s + 1) st1 (by omega) b1
    refine ⟨st', ?_, by rw [l2, l1], ?_⟩
    · simp only [srcLoop]
      rw [e1]
      simp only [Res.ok_bind]
      exact e2
    · intro q hq hg x m hx hm
      obtain ⟨y, hy, iy⟩ := h2 q hq hg (add4 x (ws q)) (m + vis o cs n pairs (val cs all 0) (val cs all q) s) (by rw [o1 q hq, hx]; rfl)
        (is_add hm (g1 q hq (by rcases hg with h | h; exact Or.inl h; exact Or.inr (h s (by omega)))))
      refine ⟨y, hy, ?_⟩
      rw [Finset.sum_range_succ', add_comm (∑ i ∈ Finset.range k, _), ← add_assoc]
      have : (fun i => vis o cs n pairs (val cs all 0) (val cs all q) (s + 1 + i)) = fun i => vis o cs n pairs (val cs all 0) (val cs all q) (s + (i + 1)) := by
        funext i; rw [show s + 1 + i = s + (i + 1) by omega]
      rw [← this]
      exact iy

theorem psv_spec {cs : List (Child R)} {n pairs : Nat} (o : Ops R) (hf : Fits cs n pairs) (hag : Agree cs) :
    ∃ r, psv o cs = .ok r ∧ IdsWf r.spids ∧ (∀ s, s ∈ r.spids ↔ ∃ c e, Depends s cs c e) ∧ r.perts.length = r.spids.length ∧
      r.vals.length = r.spids.length + 1 ∧
      (∀ ch ∈ cs, ∀ v ∈ ch.planes, ∀ x ∈ v.perts, ∀ k : Nat, r.spids[k]? = some x.1 → r.perts[k]? = some x.2.1) ∧
      ∀ q, q ≤ r.spids.length → (q = 0 ∨ ∀ s, s < n → Good cs r.spids n pairs s q) →
        ∃ y, r.vals[q]? = some y ∧ Is y (total o cs n pairs (val cs r.spids 0) (val cs r.spids q)) := by
  obtain ⟨t, all, hs, e1, w, mem, nsp, nvs, hl, tab, hp⟩ := collect_spec cs hf.ids hag
  obtain ⟨cfg, e2, c1, c2, c3⟩ := resultDims_spec hf
  have S : Setup cs all t cfg n pairs := ⟨hf, ⟨nsp, nvs, tab⟩, c1, c2, c3⟩
  obtain ⟨st', e3, l3, h3⟩ := srcLoop_spec S o n 0
    ⟨List.replicate (cfg.njones + 1) ⟨0, 0, 0, 0, false⟩, 0, 0, 1, 1, (0, 0, 0, 0), List.replicate (t.nsp + 1) (0, 0, 0, 0)⟩ (by omega)
    ⟨by simp [c2], by
      intro x hx
      rw [List.eq_of_mem_replicate hx]
      exact (fun h => by cases h), fun _ => rfl, fun _ => rfl⟩
  refine ⟨⟨all, hs, st'.out⟩, ?_, w, mem, hl, by simp [l3, nsp], hp, ?_⟩
  · unfold psv
    rw [e1]
    simp only [Res.ok_bind]
    rw [e2]
    simp only [Res.ok_bind]
    rw [c1, e3]
    simp only [Res.ok_bind]
  · intro q hq hg
    obtain ⟨y, hy, iy⟩ := h3 q hq hg (0, 0, 0, 0) 0 (by rw [List.getElem?_replicate, if_pos (by rw [nsp]; exact Nat.lt_succ_of_le hq)]) ⟨rfl, rfl, rfl, rfl⟩
    refine ⟨y, hy, ?_⟩
    simpa [total] using iy

end

end Verif.Psv
