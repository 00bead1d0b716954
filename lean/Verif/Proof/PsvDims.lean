import Verif.Spec.Psv
import Mathlib.Tactic.NormNum
/-!
# Lemmas on the dimensions of children
-/
namespace Verif.Psv

section
variable {R : Type}

theorem minus4_spec {n : Nat} (h : 4 ≤ n) (h2 : n < 2 ^ 64) : minus4 n = n - 4 := by
  unfold minus4
  omega

theorem perSource_spec {n : Nat} {d : List Nat} (h : PerSource n d) : perSource d n = true := by
  rcases h with rfl | rfl | rfl | rfl | ⟨rfl, rfl⟩ <;> simp [perSource]

theorem list4 {α : Type} {l : List α} (h : 4 ≤ l.length) : ∃ a b c d r, l = a :: b :: c :: d :: r := by
  match l, h with
  | a :: b :: c :: d :: r, _ => exact ⟨a, b, c, d, r, rfl⟩

theorem resultDims_spec {cs : List (Child R)} {n pairs : Nat} (hf : Fits cs n pairs) :
    ∃ cfg, resultDims (cs.map (fun c => c.dims)) = .ok cfg ∧ cfg.nsrc = n ∧ cfg.njones = pairs ∧
      (cfg.haveShape = true ↔ (cs[3]?).map (fun ch => ch.dims) = some [n, 3]) := by
  obtain ⟨c0, c1, c2, c3, r, rfl⟩ := list4 (show 4 ≤ cs.length by have := hf.number; omega)
  have h0 := hf.lmn c0 rfl
  have h2 := hf.uvw c2 rfl
  have h3 := hf.shape c3 rfl
  have h1 := perSource_spec (hf.rest 1 c1 rfl (Or.inl rfl))
  have hr : (r.map (fun c => c.dims)).all (fun d => perSource d n) = true := by
    rw [List.all_eq_true]
    intro d hd
    obtain ⟨ch, hch, rfl⟩ := List.mem_map.mp hd
    obtain ⟨k, hk⟩ := List.getElem?_of_mem hch
    exact perSource_spec (hf.rest (k + 4) ch (by simpa using hk) (by omega))
  have hnum := hf.number
  have hsm := hf.small
  simp only [List.length_cons] at hnum hsm
  have hpar : minus4 (r.length + 1 + 1 + 1 + 1) % 2 = 0 := by rw [minus4_spec (by omega) (by omega)]; omega
  have hj : (r.length + 1 + 1 + 1 + 1 - 4) / 2 = pairs := by omega
  refine ⟨⟨n, decide (c3.dims = [n, 3]), pairs⟩, ?_, rfl, rfl, by simp⟩
  unfold resultDims
  simp only [List.map_cons, h0, ne_eq, h1, not_true, if_false, List.drop_one, List.tail_cons, hr, List.length_cons, List.length_map]
  rw [if_neg (by rintro ⟨a, b⟩; rcases h2 with h | h; exact a h; exact b h)]
  generalize minus4 (r.length + 1 + 1 + 1 + 1) = k at hpar ⊢
  have hprod : c3.dims.foldr (· * ·) 1 = c3.dims.prod := rfl
  rcases h3 with h3 | h3
  · rw [if_pos (Or.inr (hprod.trans h3))]
    have : ¬ c3.dims = [n, 3] := by
      intro h
      rw [h] at h3
      simp at h3
    rw [Res.ok_bind, if_neg (not_not.mpr hpar), hj, decide_eq_false this]
  · rw [if_neg (by
      rintro (h | h)
      · rw [h3] at h; simp at h
      · rw [hprod, h3] at h; simp at h)]
    rw [if_neg (not_not.mpr h3), Res.ok_bind, if_neg (not_not.mpr hpar), hj, decide_eq_true h3]

/-- With three children the node fails. -/
theorem resultDims_three (a b c : List Nat) : resultDims [a, b, c] = .err := by
  have h : minus4 [a, b, c].length % 2 = 1 := by unfold minus4; norm_num
  unfold resultDims
  rw [h]
  dsimp only
  split
  · split
    · rfl
    · split
      · rfl
      · simp
  · rfl

end

end Verif.Psv
