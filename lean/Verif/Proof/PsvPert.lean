import Verif.Proof.PsvStep
/-!
# A source and a perturbation
-/
namespace Verif.Psv
open Func (Increasing IdsWf)

section
variable {R : Type} [CommRing R]

/-- The position or the shape has a value of its own. -/
def KCh (cs : List (Child R)) (all : List Int) (p s : Nat) : Prop := ∃ i, i < 3 ∧ (Ch cs all p 0 (3 * s + i) ∨ Ch cs all p 3 (3 * s + i))

/-- Perturbations for which the value is right. -/
def Good (cs : List (Child R)) (all : List Int) (n pairs s p : Nat) : Prop :=
  (0 < pairs ∨ ¬ ChM cs all n p 1 s) ∧ (∀ e, e < 3 → ¬ Ch cs all p 2 e) ∧
    (KCh cs all p s ∨ UpTo cs all n s p pairs → ∀ p', 1 ≤ p' → p' < p → ∀ j, 0 < j → j ≤ pairs → UpTo cs all n s p' j → UpTo cs all n s p j)

theorem phase_same {o : Ops R} {cs : List (Child R)} {all : List Int} {s p : Nat} (hu : ∀ e, e < 3 → ¬ Ch cs all p 2 e)
    (hl : ∀ i, i < 3 → ¬ Ch cs all p 0 (3 * s + i)) : phase o (val cs all p) s = phase o (val cs all 0) s := by
  have h0 : val cs all p 0 (3 * s) = val cs all 0 0 (3 * s) := val_same (hl 0 (by omega))
  simp only [phase]
  rw [val_same (hu 0 (by omega)), val_same (hu 1 (by omega)), val_same (hu 2 (by omega)), h0, val_same (hl 1 (by omega)), val_same (hl 2 (by omega))]

theorem shaping_same {o : Ops R} {cs : List (Child R)} {all : List Int} {n s p : Nat} (hu : ∀ e, e < 3 → ¬ Ch cs all p 2 e)
    (hl : (cs[3]?).map (fun ch => ch.dims) = some [n, 3] → ∀ i, i < 3 → ¬ Ch cs all p 3 (3 * s + i)) :
    shaping o cs n (val cs all p) s = shaping o cs n (val cs all 0) s := by
  simp only [shaping]
  split
  · rename_i hd
    have hl := hl hd
    have h0 : val cs all p 3 (3 * s) = val cs all 0 3 (3 * s) := val_same (hl 0 (by omega))
    rw [val_same (hu 0 (by omega)), val_same (hu 1 (by omega)), h0, val_same (hl 1 (by omega)), val_same (hl 2 (by omega))]
  · rfl

theorem step_pert {cs : List (Child R)} {all : List Int} {t : Tab R} {cfg : Cfg} {n pairs : Nat} (S : Setup cs all t cfg n pairs) (o : Ops R) {s p : Nat}
    (hs : s < n) (hp : p ≤ all.length) (hp0 : 0 < p) (st : St R) (hb : Base cs n pairs st) :
    ∃ st' w, step o t cfg s p st = .ok st' ∧ Base cs n pairs st' ∧ st'.out = st.out.modify p (add4 · w) ∧
      (Inv o cs all n pairs s p st → Inv o cs all n pairs s (p + 1) st') ∧
      (Inv o cs all n pairs s p st → Good cs all n pairs s p → Is w (vis o cs n pairs (val cs all 0) (val cs all p) s)) := by
  have hne : ¬ p = 0 := by omega
  have hnum := S.fits.number
  obtain ⟨c1, h1⟩ : ∃ ch, cs[1]? = some ch := ⟨_, List.getElem?_eq_getElem (by omega)⟩
  obtain ⟨bu0, eu0, iu0⟩ := look_spec S.filled false hp (S.uvw (e := 0) (by omega))
  obtain ⟨bu1, eu1, iu1⟩ := look_spec S.filled bu0 hp (S.uvw (e := 1) (by omega))
  obtain ⟨bu2, eu2, iu2⟩ := look_spec S.filled bu1 hp (S.uvw (e := 2) (by omega))
  obtain ⟨bl0, el0, il0⟩ := look_spec S.filled false hp (S.lmn (e := s * 3) (by omega))
  obtain ⟨bl1, el1, il1⟩ := look_spec S.filled bl0 hp (S.lmn (e := s * 3 + 1) (by omega))
  obtain ⟨bl2, el2, il2⟩ := look_spec S.filled bl1 hp (S.lmn (e := s * 3 + 2) (by omega))
  obtain ⟨x, bs, es, vs, is⟩ := shapeTerm_spec S o bu2 (val cs all p 2 0) (val cs all p 2 1) hs hp
  obtain ⟨js, ej, lj, sj⟩ := jones_spec S.filled S.fits hp hs pairs 0 (by omega)
  obtain ⟨m, bb, em, tm, wm, im⟩ := fromChild_spec S.filled hp hs h1 (S.fits.rest _ _ h1 (by omega)) (S.fits.planes _ (List.mem_of_getElem? h1))
  have hX0 : (st.X.set 0 m).length = pairs + 1 := by simpa using hb.len
  have hX00 : (st.X.set 0 m)[0]? = some m := by rw [List.getElem?_set_self (by rw [hb.len]; omega)]
  have hwf0 : ∀ y ∈ st.X.set 0 m, Wf y := by
    intro y hy
    rcases List.mem_or_eq_of_mem_set hy with hy | rfl
    · exact hb.wf y hy
    · exact wm
  have iu : bu2 = true ↔ ∃ e, e < 3 ∧ Ch cs all p 2 e := by
    rw [iu2, iu1, iu0]
    simp only [Bool.false_eq_true, false_or]
    constructor
    · rintro ((h | h) | h)
      · exact ⟨0, by omega, h⟩
      · exact ⟨1, by omega, h⟩
      · exact ⟨2, by omega, h⟩
    · rintro ⟨e, he, h⟩
      have : e = 0 ∨ e = 1 ∨ e = 2 := by omega
      rcases this with rfl | rfl | rfl
      · exact Or.inl (Or.inl h)
      · exact Or.inl (Or.inr h)
      · exact Or.inr h
  have il : bl2 = true ↔ ∃ e, e < 3 ∧ Ch cs all p 0 (3 * s + e) := by
    rw [il2, il1, il0, Nat.mul_comm s 3]
    simp only [Bool.false_eq_true, false_or]
    constructor
    · rintro ((h | h) | h)
      · exact ⟨0, by omega, h⟩
      · exact ⟨1, by omega, h⟩
      · exact ⟨2, by omega, h⟩
    · rintro ⟨e, he, h⟩
      have : e = 0 ∨ e = 1 ∨ e = 2 := by omega
      rcases this with rfl | rfl | rfl
      · exact Or.inl (Or.inl h)
      · exact Or.inl (Or.inr h)
      · exact Or.inr h
  -- the first product to compute again
  obtain ⟨r, hr⟩ : ∃ r, r = if bb = true then 0 else (js.findIdx? (fun q => q.2.2)).getD (pairs + 1) := ⟨_, rfl⟩
  have hjch : ∀ j q, js[j]? = some q → (q.2.2 = true ↔ ChM cs all n p (4 + 2 * j) s ∨ ChM cs all n p (5 + 2 * j) s) := by
    intro j q hq
    have := (sj j q hq).2.2.2.2
    rw [Nat.zero_add] at this
    exact this
  have F : (∀ j, 0 < j → j ≤ r → j ≤ pairs → ¬ UpTo cs all n s p j) ∧ (∀ j, r < j → j ≤ pairs → UpTo cs all n s p j) ∧
      (r < pairs ∨ (r = pairs + 1 ∧ bb = false) ∨ (r = 0 ∧ pairs = 0 ∧ bb = true)) := by
    cases hbb : bb with
    | true =>
      rw [hbb, if_pos rfl] at hr
      refine ⟨fun j h1 h2 _ => by omega, fun j _ _ => Or.inl (im.mp hbb), ?_⟩
      by_cases h : pairs = 0
      · exact Or.inr (Or.inr ⟨hr, h, rfl⟩)
      · exact Or.inl (by omega)
    | false =>
      have hB : ¬ ChM cs all n p 1 s := fun h => by rw [im.mpr h] at hbb; cases hbb
      rw [hbb, if_neg (by simp)] at hr
      cases hf : js.findIdx? (fun q => q.2.2) with
      | none =>
        rw [hf, Option.getD_none] at hr
        rw [List.findIdx?_eq_none_iff] at hf
        refine ⟨?_, fun j h1 h2 => by omega, Or.inr (Or.inl ⟨hr, rfl⟩)⟩
        rintro j _ _ hj (h | ⟨i, hi, h⟩)
        · exact hB h
        · obtain ⟨q, hq⟩ : ∃ q, js[i]? = some q := ⟨_, List.getElem?_eq_getElem (by omega)⟩
          have h2 := (hjch i q hq).mpr h
          rw [hf q (List.mem_of_getElem? hq)] at h2
          cases h2
      | some k =>
        rw [hf, Option.getD_some] at hr
        rw [List.findIdx?_eq_some_iff_getElem] at hf
        obtain ⟨hk, hk1, hk2⟩ := hf
        subst hr
        refine ⟨?_, ?_, Or.inl (by omega)⟩
        · rintro j _ hjr hj (h | ⟨i, hi, h⟩)
          · exact hB h
          · have h3 := (hjch i _ (List.getElem?_eq_getElem (by omega))).mpr h
            exact hk2 i (by omega) h3
        · intro j h1 h2
          exact Or.inr ⟨r, h1, (hjch r _ (List.getElem?_eq_getElem hk)).mp hk1⟩
  obtain ⟨F1, F2, F3⟩ := F
  -- the products
  obtain ⟨X', eX, lX, wX, same, cX⟩ : ∃ X', products js (pairs - r) r (st.X.set 0 m) = .ok X' ∧ X'.length = pairs + 1 ∧ (∀ x ∈ X', Wf x) ∧
      (∀ j : Nat, 0 < j → j ≤ r → X'[j]? = st.X[j]?) ∧
      (r ≤ pairs → (∃ x, (st.X.set 0 m)[r]? = some x ∧ toMat x = core cs n (val cs all p) s r) →
        ∃ x, X'[pairs]? = some x ∧ toMat x = core cs n (val cs all p) s pairs) ∧ (pairs = 0 → X'[0]? = some m) := by
    by_cases hrp : r ≤ pairs
    · obtain ⟨X', eX, lX, wX, same, cX⟩ := products_spec (cs := cs) (n := n) (s := s) (v := val cs all p) lj
        (fun j q hq => by have := sj j q hq; rw [Nat.zero_add] at this; exact ⟨this.1, this.2.1, this.2.2.1, this.2.2.2.1⟩) (pairs - r) r (st.X.set 0 m)
        (by omega) hX0 hwf0
      refine ⟨X', eX, lX, wX, ?_, fun _ h => cX h pairs hrp (by omega), ?_⟩
      · intro j h1 h2
        rw [same j h2, List.getElem?_set_ne (by omega)]
      · intro h
        rw [same 0 (by omega), hX00]
    · refine ⟨st.X.set 0 m, ?_, hX0, hwf0, ?_, fun h => absurd h hrp, fun _ => hX00⟩
      · rw [show pairs - r = 0 by omega]; rfl
      · intro j h1 _
        rw [List.getElem?_set_ne (by omega)]
  obtain ⟨z, hz⟩ : ∃ z, X'[pairs]? = some z := ⟨_, List.getElem?_eq_getElem (by omega)⟩
  obtain ⟨pK, hpK⟩ : ∃ pK, pK = if bl2 = true then o.expo (phase o (val cs all p) s) * (st.smear0 * (if bs = true then x else st.shape0))
      else if bs = true then st.k0sm * x else st.k0smsh := ⟨_, rfl⟩
  obtain ⟨w, hw⟩ : ∃ w, w = if bl2 = true ∨ bs = true ∨ r < pairs then (pK * z.a, pK * z.b, pK * z.c, pK * z.d) else st.vis0 := ⟨_, rfl⟩
  refine ⟨{ st with X := X', out := st.out.modify p (add4 · w) }, w, ?_, ⟨lX, wX, hb.smear, hb.shape⟩, rfl, ?_, ?_⟩
  · unfold step
    simp only [hne, decide_false, if_false]
    rw [eu0]
    simp only [Res.ok_bind]
    rw [eu1]
    simp only [Res.ok_bind]
    rw [eu2]
    simp only [Res.ok_bind]
    rw [el0]
    simp only [Res.ok_bind]
    rw [el1]
    simp only [Res.ok_bind]
    rw [el2]
    simp only [Res.ok_bind]
    rw [es]
    simp only [Res.ok_bind]
    rw [S.nsrc, S.njones, ej, em]
    simp only [Res.ok_bind]
    rw [← hr, eX]
    simp only [Res.ok_bind]
    rw [hz]
    simp only
    have e1 : o.expo ((val cs all p 2 0 * val cs all p 0 (s * 3) + val cs all p 2 1 * val cs all p 0 (s * 3 + 1) +
        val cs all p 2 2 * (val cs all p 0 (s * 3 + 2) - o.nminus)) * o.k) = o.expo (phase o (val cs all p) s) := by rw [Nat.mul_comm s 3]; rfl
    rw [e1, ← hpK]
    by_cases hc : bl2 = true ∨ bs = true ∨ r < pairs
    · rw [if_pos hc] at hw
      rw [if_pos hc, hw]
    · rw [if_neg hc] at hw
      rw [if_neg hc, hw]
  · intro I
    refine ⟨I.smear, I.shape, I.k0sm, I.k0smsh, I.vis0, ?_⟩
    intro j hj0 hj hcl
    have hjr : j ≤ r := by
      by_contra hc
      exact hcl p (by omega) (by omega) (F2 j (by omega) hj)
    obtain ⟨y, hy, ty⟩ := I.prod j hj0 hj (fun p' h1 h2 => hcl p' h1 (by omega))
    exact ⟨y, by rw [← hy]; exact same j hj0 hjr, ty⟩
  · intro I ⟨G1, G2, G3⟩
    have hbu : ¬ bu2 = true := by rw [iu]; rintro ⟨e, he, h⟩; exact G2 e he h
    have is' : bs = true ↔ (cs[3]?).map (fun ch => ch.dims) = some [n, 3] ∧ ∃ i, i < 3 ∧ Ch cs all p 3 (3 * s + i) := by
      rw [is, S.shape]
      simp [hbu]
    have hphase : ¬ bl2 = true → phase o (val cs all p) s = phase o (val cs all 0) s := by
      intro h
      apply phase_same G2
      intro i hi hc
      exact h (il.mpr ⟨i, hi, hc⟩)
    have hshape : (if bs = true then x else st.shape0) = shaping o cs n (val cs all p) s := by
      by_cases hbs : bs = true
      · rw [if_pos hbs, vs (is.mp hbs).1]
        unfold shaping
        rw [if_pos (is'.mp hbs).1]
      · rw [if_neg hbs, I.shape, shaping_same G2]
        intro hd i hi hc
        exact hbs (is'.mpr ⟨hd, i, hi, hc⟩)
    have hKK : pK = o.expo (phase o (val cs all p) s) * smearing o cs (val cs all 0) s * shaping o cs n (val cs all p) s := by
      rw [hpK]
      by_cases hl : bl2 = true
      · rw [if_pos hl, hshape, I.smear, mul_assoc]
      · rw [if_neg hl]
        by_cases hbs : bs = true
        · rw [if_pos hbs] at hshape ⊢
          rw [hshape, I.k0sm, hphase hl]
        · rw [if_neg hbs] at hshape ⊢
          rw [I.k0smsh, hphase hl, ← hshape, I.shape]
    by_cases hc : bl2 = true ∨ bs = true ∨ r < pairs
    · rw [if_pos hc] at hw
      have hch : KCh cs all p s ∨ UpTo cs all n s p pairs := by
        rcases hc with h | h | h
        · obtain ⟨i, hi, h⟩ := il.mp h
          exact Or.inl ⟨i, hi, Or.inl h⟩
        · obtain ⟨i, hi, h⟩ := (is'.mp h).2
          exact Or.inl ⟨i, hi, Or.inr h⟩
        · exact Or.inr (F2 pairs h (le_refl _))
      have hclean : ∀ j, 0 < j → j ≤ r → j ≤ pairs → ∃ y, X'[j]? = some y ∧ toMat y = core cs n (val cs all p) s j := by
        intro j h0 h1 h2
        obtain ⟨y, hy, ty⟩ := I.prod j h0 h2 (fun p' a b h => F1 j h0 h1 h2 (G3 hch p' a b j h0 h2 h))
        refine ⟨y, by rw [same j h0 h1, hy], ?_⟩
        rw [ty, core_same j (F1 j h0 h1 h2)]
      have hz' : toMat z = core cs n (val cs all p) s pairs := by
        rcases F3 with h | ⟨h, _⟩ | ⟨_, h, _⟩
        · obtain ⟨y, hy, ty⟩ := cX.1 (by omega) (by
            by_cases hr0 : r = 0
            · subst hr0
              exact ⟨m, hX00, tm⟩
            · obtain ⟨y, hy, ty⟩ := hclean r (by omega) (le_refl _) (by omega)
              refine ⟨y, ?_, ty⟩
              rw [List.getElem?_set_ne (by omega), ← same r (by omega) (le_refl _), hy])
          rw [hz] at hy; cases hy; exact ty
        · by_cases hp0 : pairs = 0
          · have := cX.2 hp0
            rw [hp0] at hz
            rw [hz] at this; cases this
            rw [hp0]; exact tm
          · obtain ⟨y, hy, ty⟩ := hclean pairs (by omega) (by omega) (le_refl _)
            rw [hz] at hy; cases hy; exact ty
        · have := cX.2 h
          rw [h] at hz
          rw [hz] at this; cases this
          rw [h]; exact tm
      rw [hw]
      have := is_smul pK z _ hz'
      rw [hKK] at this ⊢
      exact this
    · rw [if_neg hc] at hw
      rw [hw]
      have hrp : r = pairs + 1 ∧ bb = false := by
        rcases F3 with h | h | ⟨_, h, h'⟩
        · exact absurd (Or.inr (Or.inr h)) hc
        · exact h
        · rcases G1 with g | g
          · omega
          · exact absurd (im.mp h') g
      have hup : ¬ UpTo cs all n s p pairs := by
        by_cases hp0 : pairs = 0
        · rintro (h | ⟨i, hi, _⟩)
          · rw [im.mpr h] at hrp; cases hrp.2
          · omega
        · exact F1 pairs (by omega) (by omega) (le_refl _)
      have hl : ¬ bl2 = true := fun h => hc (Or.inl h)
      have hbs : ¬ bs = true := fun h => hc (Or.inr (Or.inl h))
      rw [if_neg hbs] at hshape
      have : vis o cs n pairs (val cs all 0) (val cs all p) s = vis o cs n pairs (val cs all 0) (val cs all 0) s := by
        unfold vis
        rw [hphase hl, core_same _ hup, ← hshape, I.shape]
      rw [this]
      exact I.vis0

end

end Verif.Psv
