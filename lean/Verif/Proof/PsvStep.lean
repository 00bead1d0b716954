import Verif.Proof.Psv
/-!
# A source and a perturbation
-/
namespace Verif.Psv
open Func (Increasing IdsWf)

section
variable {R : Type} [CommRing R]

/-- What is known of the children. -/
structure Setup (cs : List (Child R)) (all : List Int) (t : Tab R) (cfg : Cfg) (n pairs : Nat) : Prop where
  fits : Fits cs n pairs
  filled : Filled cs all t
  nsrc : cfg.nsrc = n
  njones : cfg.njones = pairs
  shape : cfg.haveShape = true ↔ (cs[3]?).map (fun ch => ch.dims) = some [n, 3]

omit [CommRing R] in
theorem Setup.lmn {cs : List (Child R)} {all : List Int} {t : Tab R} {cfg : Cfg} {n pairs : Nat} (S : Setup cs all t cfg n pairs) {e : Nat} (he : e < 3 * n) :
    There cs 0 e := by
  have hnum := S.fits.number
  obtain ⟨ch, h⟩ : ∃ ch, cs[0]? = some ch := ⟨_, List.getElem?_eq_getElem (by omega)⟩
  apply there_of h
  rw [S.fits.planes _ (List.mem_of_getElem? h), S.fits.lmn _ h]
  simp
  omega

omit [CommRing R] in
theorem Setup.nvs2 {cs : List (Child R)} {all : List Int} {t : Tab R} {cfg : Cfg} {n pairs : Nat} (S : Setup cs all t cfg n pairs) :
    t.nvs[2]? = some 6 ↔ (cs[2]?).map (fun ch => ch.dims) = some [2, 3] := by
  have hnum := S.fits.number
  obtain ⟨ch, h⟩ : ∃ ch, cs[2]? = some ch := ⟨_, List.getElem?_eq_getElem (by omega)⟩
  rw [S.filled.2.1, List.getElem?_map, h, Option.map_some, Option.map_some, S.fits.planes _ (List.mem_of_getElem? h)]
  rcases S.fits.uvw _ h with hd | hd <;> simp [hd]

omit [CommRing R] in
theorem Setup.uvw {cs : List (Child R)} {all : List Int} {t : Tab R} {cfg : Cfg} {n pairs : Nat} (S : Setup cs all t cfg n pairs) {e : Nat}
    (he : e < 3 ∨ (t.nvs[2]? = some 6 ∧ e < 6)) : There cs 2 e := by
  have hnum := S.fits.number
  obtain ⟨ch, h⟩ : ∃ ch, cs[2]? = some ch := ⟨_, List.getElem?_eq_getElem (by omega)⟩
  have hn := S.nvs2
  rw [h, Option.map_some] at hn
  apply there_of h
  rw [S.fits.planes _ (List.mem_of_getElem? h)]
  rcases S.fits.uvw _ h with hd | hd
  · rcases he with he | ⟨he, _⟩
    · simp [hd]; exact he
    · rw [hn, hd] at he; simp at he
  · simp [hd]; omega

theorem shapeTerm_spec {cs : List (Child R)} {all : List Int} {t : Tab R} {cfg : Cfg} {n pairs : Nat} (S : Setup cs all t cfg n pairs) (o : Ops R) (rec : Bool)
    (u v : R) {s p : Nat} (hs : s < n) (hp : p ≤ all.length) :
    ∃ x b, shapeTerm o t cfg rec u v s p = .ok (x, b) ∧
      (cfg.haveShape = true → x = o.shape u v (val cs all p 3 (3 * s)) (val cs all p 3 (3 * s + 1)) (val cs all p 3 (3 * s + 2))) ∧
      (b = true ↔ cfg.haveShape = true ∧ (rec = true ∨ ∃ i, i < 3 ∧ Ch cs all p 3 (3 * s + i))) := by
  unfold shapeTerm
  cases hh : cfg.haveShape with
  | false => exact ⟨0, false, by simp, by simp, by simp⟩
  | true =>
    have hd := S.shape.mp hh
    rw [Option.map_eq_some_iff] at hd
    obtain ⟨ch, h, hd⟩ := hd
    have hth : ∀ k, k < 3 → There cs 3 (s * 3 + k) := by
      intro k hk
      apply there_of h
      rw [S.fits.planes _ (List.mem_of_getElem? h), hd]
      simp
      omega
    obtain ⟨b0, e0, i0⟩ := look_spec S.filled rec hp (hth 0 (by omega))
    obtain ⟨b1, e1, i1⟩ := look_spec S.filled b0 hp (hth 1 (by omega))
    obtain ⟨b2, e2, i2⟩ := look_spec S.filled b1 hp (hth 2 (by omega))
    rw [Nat.add_zero] at e0 i0
    refine ⟨_, b2, ?_, fun _ => rfl, ?_⟩
    · simp only [Bool.not_true, Bool.false_eq_true, if_false]
      rw [e0]
      simp only [Res.ok_bind]
      rw [e1]
      simp only [Res.ok_bind]
      rw [e2]
      simp only [Res.ok_bind]
      rw [Nat.mul_comm s 3]
    · rw [i2, i1, i0, Nat.mul_comm s 3]
      simp only [true_and]
      constructor
      · rintro (((h1 | h1) | h1) | h1)
        · exact Or.inl h1
        · exact Or.inr ⟨0, by omega, h1⟩
        · exact Or.inr ⟨1, by omega, h1⟩
        · exact Or.inr ⟨2, by omega, h1⟩
      · rintro (h1 | ⟨k, hk, h1⟩)
        · exact Or.inl (Or.inl (Or.inl h1))
        · have : k = 0 ∨ k = 1 ∨ k = 2 := by omega
          rcases this with rfl | rfl | rfl
          · exact Or.inl (Or.inl (Or.inr h1))
          · exact Or.inl (Or.inr h1)
          · exact Or.inr h1

/-- What holds of the variables all the time. -/
structure Base (cs : List (Child R)) (n pairs : Nat) (st : St R) : Prop where
  len : st.X.length = pairs + 1
  wf : ∀ x ∈ st.X, Wf x
  smear : ¬ (cs[2]?).map (fun ch => ch.dims) = some [2, 3] → st.smear0 = 1
  shape : ¬ (cs[3]?).map (fun ch => ch.dims) = some [n, 3] → st.shape0 = 1

/-- The main values of a source, and the products that were not overwritten by perturbations before `p`. -/
structure Inv (o : Ops R) (cs : List (Child R)) (all : List Int) (n pairs s p : Nat) (st : St R) : Prop where
  smear : st.smear0 = smearing o cs (val cs all 0) s
  shape : st.shape0 = shaping o cs n (val cs all 0) s
  k0sm : st.k0sm = o.expo (phase o (val cs all 0) s) * smearing o cs (val cs all 0) s
  k0smsh : st.k0smsh = o.expo (phase o (val cs all 0) s) * smearing o cs (val cs all 0) s * shaping o cs n (val cs all 0) s
  vis0 : Is st.vis0 (vis o cs n pairs (val cs all 0) (val cs all 0) s)
  prod : ∀ j, 0 < j → j ≤ pairs → (∀ p', 1 ≤ p' → p' < p → ¬ UpTo cs all n s p' j) →
    ∃ x, st.X[j]? = some x ∧ toMat x = core cs n (val cs all 0) s j

theorem is_smul (k : R) (x : M R) (m : Matrix (Fin 2) (Fin 2) R) (h : toMat x = m) : Is (k * x.a, k * x.b, k * x.c, k * x.d) (k • m) := by
  subst h
  refine ⟨?_, ?_, ?_, ?_⟩ <;> simp [toMat]

theorem step_main {cs : List (Child R)} {all : List Int} {t : Tab R} {cfg : Cfg} {n pairs : Nat} (S : Setup cs all t cfg n pairs) (o : Ops R) {s : Nat}
    (hs : s < n) (st : St R) (hb : Base cs n pairs st) :
    ∃ st' w, step o t cfg s 0 st = .ok st' ∧ Base cs n pairs st' ∧ st'.out = st.out.modify 0 (add4 · w) ∧
      Is w (vis o cs n pairs (val cs all 0) (val cs all 0) s) ∧ Inv o cs all n pairs s 1 st' := by
  have hp : 0 ≤ all.length := by omega
  have hnum := S.fits.number
  obtain ⟨c1, h1⟩ : ∃ ch, cs[1]? = some ch := ⟨_, List.getElem?_eq_getElem (by omega)⟩
  obtain ⟨bu0, eu0, iu0⟩ := look_spec S.filled true hp (S.uvw (e := 0) (by omega))
  obtain ⟨bu1, eu1, iu1⟩ := look_spec S.filled bu0 hp (S.uvw (e := 1) (by omega))
  obtain ⟨bu2, eu2, iu2⟩ := look_spec S.filled bu1 hp (S.uvw (e := 2) (by omega))
  obtain ⟨bl0, el0, il0⟩ := look_spec S.filled true hp (S.lmn (e := s * 3) (by omega))
  obtain ⟨bl1, el1, il1⟩ := look_spec S.filled bl0 hp (S.lmn (e := s * 3 + 1) (by omega))
  obtain ⟨bl2, el2, il2⟩ := look_spec S.filled bl1 hp (S.lmn (e := s * 3 + 2) (by omega))
  obtain ⟨x, bs, es, vs, is⟩ := shapeTerm_spec S o bu2 (val cs all 0 2 0) (val cs all 0 2 1) hs hp
  obtain ⟨js, ej, lj, sj⟩ := jones_spec S.filled S.fits hp hs pairs 0 (by omega)
  obtain ⟨m, bb, em, tm, wm, im⟩ := fromChild_spec S.filled hp hs h1 (S.fits.rest _ _ h1 (by omega)) (S.fits.planes _ (List.mem_of_getElem? h1))
  have hbb : bb = true := im.mpr trivial
  have hX0 : (st.X.set 0 m).length = pairs + 1 := by simpa using hb.len
  obtain ⟨X', eX, lX, wX, _, cX⟩ := products_spec (cs := cs) (n := n) (s := s) (v := val cs all 0) lj
    (fun j q hq => by have := sj j q hq; rw [Nat.zero_add] at this; exact ⟨this.1, this.2.1, this.2.2.1, this.2.2.2.1⟩) pairs 0 (st.X.set 0 m) (by omega) hX0 (by
      intro y hy
      rcases List.mem_or_eq_of_mem_set hy with hy | rfl
      · exact hb.wf y hy
      · exact wm)
  have hcore := cX ⟨m, by rw [List.getElem?_set_self (by rw [hb.len]; omega)], tm⟩
  obtain ⟨z, hz, tz⟩ := hcore pairs (by omega) (by omega)
  have hsh : (if bs then x else st.shape0) = shaping o cs n (val cs all 0) s := by
    unfold shaping
    by_cases hd : (cs[3]?).map (fun ch => ch.dims) = some [n, 3]
    · have hh := S.shape.mpr hd
      have : bs = true := is.mpr ⟨hh, Or.inl (iu2.mpr (Or.inr trivial))⟩
      rw [this, if_pos hd, if_pos rfl, vs hh]
    · have : bs = false := by
        cases hbs : bs with
        | false => rfl
        | true => exact absurd (S.shape.mp (is.mp hbs).1) hd
      rw [this, if_neg hd, if_neg (by simp), hb.shape hd]
  let K := o.expo (phase o (val cs all 0) s)
  let kk := K * smearing o cs (val cs all 0) s * shaping o cs n (val cs all 0) s
  have hw : Is (kk * z.a, kk * z.b, kk * z.c, kk * z.d) (vis o cs n pairs (val cs all 0) (val cs all 0) s) := is_smul _ _ _ tz
  refine ⟨⟨X', K * smearing o cs (val cs all 0) s, kk, shaping o cs n (val cs all 0) s, smearing o cs (val cs all 0) s, (kk * z.a, kk * z.b, kk * z.c, kk * z.d),
    st.out.modify 0 (add4 · (kk * z.a, kk * z.b, kk * z.c, kk * z.d))⟩, (kk * z.a, kk * z.b, kk * z.c, kk * z.d), ?_, ⟨lX, wX, ?_, ?_⟩, rfl, hw,
    ⟨rfl, rfl, rfl, rfl, hw, ?_⟩⟩
  · unfold step
    simp only [decide_true, if_true]
    rw [eu0]
    simp only [Res.ok_bind]
    rw [eu1]
    simp only [Res.ok_bind]
    rw [eu2]
    simp only [Res.ok_bind]
    rw [el0]
    simp only [Res.ok_bind]
    rw [el1]
    simp only [Res.ok_bind]
    rw [el2]
    simp only [Res.ok_bind]
    rw [es]
    simp only [Res.ok_bind]
    rw [S.nsrc, S.njones, ej, em, hbb]
    by_cases h6 : t.nvs[2]? = some 6
    · obtain ⟨_, f0, _⟩ := look_spec S.filled true hp (S.uvw (e := 3) (Or.inr ⟨h6, by omega⟩))
      obtain ⟨_, f1, _⟩ := look_spec S.filled true hp (S.uvw (e := 4) (Or.inr ⟨h6, by omega⟩))
      obtain ⟨_, f2, _⟩ := look_spec S.filled true hp (S.uvw (e := 5) (Or.inr ⟨h6, by omega⟩))
      have hsm : smearing o cs (val cs all 0) s = o.smear (phase o (val cs all 0) s) (dphase o (val cs all 0) s) := by
        unfold smearing
        rw [if_pos (S.nvs2.mp h6)]
      rw [if_pos h6, f0]
      simp only [Res.ok_bind]
      rw [f1]
      simp only [Res.ok_bind]
      rw [f2]
      simp only [Res.ok_bind, if_true, Nat.sub_zero]
      rw [eX]
      simp only [Res.ok_bind]
      rw [hz]
      simp only
      rw [hsh, Nat.mul_comm s 3]
      simp only [kk, K, hsm]
      rfl
    · have hne := fun h => h6 (S.nvs2.mpr h)
      have hsm : smearing o cs (val cs all 0) s = st.smear0 := by
        rw [hb.smear hne]
        unfold smearing
        rw [if_neg hne]
      rw [if_neg h6]
      simp only [Res.ok_bind, if_true, Nat.sub_zero]
      rw [eX]
      simp only [Res.ok_bind]
      rw [hz]
      simp only
      rw [hsh, Nat.mul_comm s 3]
      simp only [kk, K, hsm]
      rfl
  · intro h; simp [smearing, h]
  · intro h; simp [shaping, h]
  · intro j _ hj _
    exact hcore j (by omega) (by omega)

end

end Verif.Psv
