import Verif.Proof.PsvCollect
import Mathlib.LinearAlgebra.Matrix.Notation
import Mathlib.Tactic.Ring
import Mathlib.Tactic.FinCases
/-!
# Lemmas on the visibilities of many sources
-/
namespace Verif.Psv
open Func (Increasing IdsWf)

section
variable {R : Type} [CommRing R]

/-- A table as it was filled from the children. -/
def Filled (cs : List (Child R)) (all : List Int) (t : Tab R) : Prop :=
  t.nsp = all.length ∧ t.nvs = cs.map (fun c => c.planes.length) ∧
    ∀ (c e : Nat) ch v p, cs[c]? = some ch → ch.planes[e]? = some v → p ≤ all.length → t.vp[iptr t.nsp t.planes c p e]? = some (entry all v p)

/-- Values for a perturbation. -/
def val (cs : List (Child R)) (all : List Int) : Nat → Nat → Nat → R
  | 0 => mainOf cs
  | i + 1 => match all[i]? with | none => mainOf cs | some s => under s cs

/-- An element has a value of its own. -/
def Ch (cs : List (Child R)) (all : List Int) (p c e : Nat) : Prop :=
  match p with
  | 0 => True
  | i + 1 => ∃ s, all[i]? = some s ∧ Depends s cs c e

/-- There is such an element. -/
def There (cs : List (Child R)) (c e : Nat) : Prop := ∃ ch v, cs[c]? = some ch ∧ ch.planes[e]? = some v

theorem look_spec {cs : List (Child R)} {all : List Int} {t : Tab R} (h : Filled cs all t) (new : Bool) {c p e : Nat} (hp : p ≤ all.length)
    (hth : There cs c e) : ∃ b, look t new c p e = .ok (val cs all p c e, b) ∧ (b = true ↔ new = true ∨ Ch cs all p c e) := by
  obtain ⟨ch, v, hc, he⟩ := hth
  have h0 := h.2.2 c e ch v 0 hc he (by omega)
  have h1 := h.2.2 c e ch v p hc he hp
  unfold look
  rw [h1]
  cases p with
  | zero =>
    refine ⟨true, ?_, by simp [Ch]⟩
    simp [entry, val, mainOf, hc, he]
  | succ i =>
    obtain ⟨s, hs⟩ : ∃ s, all[i]? = some s := ⟨_, List.getElem?_eq_getElem (by omega)⟩
    cases hf : v.perts.find? (fun p => decide (p.1 = s)) with
    | some x =>
      refine ⟨true, ?_, ?_⟩
      · simp [entry, val, under, hc, he, hs, hf]
      · have h2 := List.find?_some hf
        simp only [true_iff]
        exact Or.inr ⟨s, hs, ch, v, x, hc, he, List.mem_of_find?_eq_some hf, by simpa using h2⟩
    | none =>
      refine ⟨new, ?_, ?_⟩
      · rw [h0]
        simp [entry, val, under, hc, he, hs, hf]
      · constructor
        · exact Or.inl
        · rintro (h | ⟨s', hs', ch', v', x, hc', he', hx, e⟩)
          · exact h
          · rw [hs] at hs'; cases hs'
            rw [hc] at hc'; cases hc'
            rw [he] at he'; cases he'
            rw [List.find?_eq_none] at hf
            exact absurd (by simpa using e) (hf x hx)

theorem val_same {cs : List (Child R)} {all : List Int} {p c e : Nat} (h : ¬ Ch cs all p c e) : val cs all p c e = val cs all 0 c e := by
  cases p with
  | zero => rfl
  | succ i =>
    simp only [val]
    cases hs : all[i]? with
    | none => rfl
    | some s =>
      simp only [under, mainOf]
      cases hv : (cs[c]?).bind (fun ch => ch.planes[e]?) with
      | none => rfl
      | some v =>
        simp only
        cases hf : v.perts.find? (fun p => decide (p.1 = s)) with
        | none => rfl
        | some x =>
          exfalso
          apply h
          rw [Option.bind_eq_some_iff] at hv
          obtain ⟨ch, hc, he⟩ := hv
          have h2 := List.find?_some hf
          exact ⟨s, hs, ch, v, x, hc, he, List.mem_of_find?_eq_some hf, by simpa using h2⟩

/-- An intermediate matrix as a matrix. -/
def toMat (m : M R) : Matrix (Fin 2) (Fin 2) R := !![m.a, m.b; m.c, m.d]

/-- One known to be a multiple of the unit matrix is. -/
def Wf (m : M R) : Prop := m.scalar = true → m.b = 0 ∧ m.c = 0 ∧ m.a = m.d

theorem mul_spec {x y : M R} (hx : Wf x) (hy : Wf y) : toMat (mul x y) = toMat x * toMat y ∧ Wf (mul x y) := by
  obtain ⟨xa, xb, xc, xd, xs⟩ := x
  obtain ⟨ya, yb, yc, yd, ys⟩ := y
  simp only [Wf] at hx hy
  cases xs <;> cases ys <;> simp_all [mul, toMat, Wf, mul_comm]

/-- The matrix has a value of its own. -/
def ChM (cs : List (Child R)) (all : List Int) (n p c s : Nat) : Prop :=
  match p with
  | 0 => True
  | i + 1 => ∃ a, all[i]? = some a ∧ DependsM a cs n c s

theorem jm_same {cs : List (Child R)} {all : List Int} {n p c s : Nat} (h : ¬ ChM cs all n p c s) :
    jm cs n (val cs all p) s c = jm cs n (val cs all 0) s c := by
  cases p with
  | zero => rfl
  | succ i =>
    unfold jm
    split
    · rename_i hd
      have : ∀ k, k < 4 → val cs all (i + 1) c (4 * s + k) = val cs all 0 c (4 * s + k) := by
        intro k hk
        apply val_same
        rintro ⟨a, ha, hdep⟩
        exact h ⟨a, ha, by unfold DependsM; rw [if_pos hd]; exact ⟨k, hk, hdep⟩⟩
      have h0 : val cs all (i + 1) c (4 * s) = val cs all 0 c (4 * s) := this 0 (by omega)
      rw [h0, this 1 (by omega), this 2 (by omega), this 3 (by omega)]
    · rename_i hd
      rw [val_same]
      rintro ⟨a, ha, hdep⟩
      exact h ⟨a, ha, by unfold DependsM; rw [if_neg hd]; exact hdep⟩

omit [CommRing R] in
theorem there_of {cs : List (Child R)} {c e : Nat} {ch : Child R} (hc : cs[c]? = some ch) (he : e < ch.planes.length) : There cs c e :=
  ⟨ch, _, hc, List.getElem?_eq_getElem he⟩

theorem fromChild_spec {cs : List (Child R)} {all : List Int} {t : Tab R} (h : Filled cs all t) {n c p s : Nat} (hp : p ≤ all.length) (hs : s < n)
    {ch : Child R} (hc : cs[c]? = some ch) (hd : PerSource n ch.dims) (hpl : ch.planes.length = ch.dims.prod) :
    ∃ m b, fromChild t n c p s = .ok (m, b) ∧ toMat m = jm cs n (val cs all p) s c ∧ Wf m ∧ (b = true ↔ ChM cs all n p c s) := by
  have hnv : t.nvs[c]? = some ch.planes.length := by rw [h.2.1, List.getElem?_map, hc]; rfl
  unfold fromChild
  rw [hnv]
  by_cases hm : ch.dims = [n, 2, 2]
  · have hl : ch.planes.length = 4 * n := by rw [hpl, hm]; simp; ring
    rw [if_neg (by rw [hl]; simp; omega)]
    obtain ⟨b0, e0, i0⟩ := look_spec h false hp (there_of hc (show s * 4 < _ by omega))
    obtain ⟨b1, e1, i1⟩ := look_spec h b0 hp (there_of hc (show s * 4 + 1 < _ by omega))
    obtain ⟨b2, e2, i2⟩ := look_spec h b1 hp (there_of hc (show s * 4 + 2 < _ by omega))
    obtain ⟨b3, e3, i3⟩ := look_spec h b2 hp (there_of hc (show s * 4 + 3 < _ by omega))
    have hdd : (cs[c]?).map (fun ch => ch.dims) = some [n, 2, 2] := by rw [hc, Option.map_some, hm]
    refine ⟨⟨val cs all p c (s * 4), val cs all p c (s * 4 + 1), val cs all p c (s * 4 + 2), val cs all p c (s * 4 + 3), false⟩, b3, ?_, ?_, ?_, ?_⟩
    · rw [e0]
      simp only [Res.ok_bind]
      rw [e1]
      simp only [Res.ok_bind]
      rw [e2]
      simp only [Res.ok_bind]
      rw [e3]
      simp only [Res.ok_bind]
    · unfold jm toMat
      rw [if_pos hdd, Nat.mul_comm 4 s]
    · intro hh; exact absurd hh (by simp)
    · rw [i3, i2, i1, i0]
      cases p with
      | zero => simp [Ch, ChM]
      | succ i =>
        simp only [Ch, ChM, DependsM, if_pos hdd, Bool.false_eq_true, false_or]
        rw [Nat.mul_comm s 4]
        constructor
        · rintro (((⟨a, h1, h2⟩ | ⟨a, h1, h2⟩) | ⟨a, h1, h2⟩) | ⟨a, h1, h2⟩)
          · exact ⟨a, h1, 0, by omega, h2⟩
          · exact ⟨a, h1, 1, by omega, h2⟩
          · exact ⟨a, h1, 2, by omega, h2⟩
          · exact ⟨a, h1, 3, by omega, h2⟩
        · rintro ⟨a, h1, k, hk, h2⟩
          have : k = 0 ∨ k = 1 ∨ k = 2 ∨ k = 3 := by omega
          rcases this with rfl | rfl | rfl | rfl
          · exact Or.inl (Or.inl (Or.inl ⟨a, h1, h2⟩))
          · exact Or.inl (Or.inl (Or.inr ⟨a, h1, h2⟩))
          · exact Or.inl (Or.inr ⟨a, h1, h2⟩)
          · exact Or.inr ⟨a, h1, h2⟩
  · have hl : ch.planes.length = n := by
      rw [hpl]
      rcases hd with hd | hd | hd | hd | ⟨hd, hn⟩
      · exact absurd hd hm
      · simp [hd]
      · simp [hd]
      · simp [hd]
      · simp [hd, hn]
    rw [if_pos (by rw [hl])]
    obtain ⟨b0, e0, i0⟩ := look_spec h false hp (there_of hc (show s < _ by omega))
    have hdd : ¬ (cs[c]?).map (fun ch => ch.dims) = some [n, 2, 2] := by rw [hc, Option.map_some]; simpa using hm
    refine ⟨⟨val cs all p c s, 0, 0, val cs all p c s, true⟩, b0, ?_, ?_, ?_, ?_⟩
    · rw [e0]
      simp only [Res.ok_bind]
    · unfold jm toMat
      rw [if_neg hdd]
      ext i j
      fin_cases i <;> fin_cases j <;> simp
    · intro _; exact ⟨rfl, rfl, rfl⟩
    · rw [i0]
      cases p with
      | zero => simp [Ch, ChM]
      | succ i => simp only [Ch, ChM, DependsM, if_neg hdd, Bool.false_eq_true, false_or]

theorem jones_spec {cs : List (Child R)} {all : List Int} {t : Tab R} (h : Filled cs all t) {n pairs p s : Nat} (hf : Fits cs n pairs) (hp : p ≤ all.length)
    (hs : s < n) : ∀ (k i : Nat), i + k ≤ pairs → ∃ js, jones t n p s k i = .ok js ∧ js.length = k ∧ ∀ (j : Nat) q, js[j]? = some q →
      toMat q.1 = jm cs n (val cs all p) s (4 + 2 * (i + j)) ∧ toMat q.2.1 = jm cs n (val cs all p) s (5 + 2 * (i + j)) ∧ Wf q.1 ∧ Wf q.2.1 ∧
      (q.2.2 = true ↔ ChM cs all n p (4 + 2 * (i + j)) s ∨ ChM cs all n p (5 + 2 * (i + j)) s) := by
  intro k
  induction k with
  | zero => intro i _; exact ⟨[], rfl, rfl, by simp⟩
  | succ k ih =>
    intro i hi
    obtain ⟨js, ej, lj, sj⟩ := ih (i + 1) (by omega)
    have hnum := hf.number
    obtain ⟨c1, h1⟩ : ∃ ch, cs[4 + i * 2]? = some ch := ⟨_, List.getElem?_eq_getElem (by omega)⟩
    obtain ⟨c2, h2⟩ : ∃ ch, cs[4 + i * 2 + 1]? = some ch := ⟨_, List.getElem?_eq_getElem (by omega)⟩
    obtain ⟨m1, b1, e1, t1, w1, x1⟩ := fromChild_spec h hp hs h1 (hf.rest _ _ h1 (by omega)) (hf.planes _ (List.mem_of_getElem? h1))
    obtain ⟨m2, b2, e2, t2, w2, x2⟩ := fromChild_spec h hp hs h2 (hf.rest _ _ h2 (by omega)) (hf.planes _ (List.mem_of_getElem? h2))
    refine ⟨(m1, m2, b1 || b2) :: js, ?_, by simp [lj], ?_⟩
    · simp only [jones]
      rw [e1]
      simp only [Res.ok_bind]
      rw [e2]
      simp only [Res.ok_bind]
      rw [ej]
      simp only [Res.ok_bind]
    · intro j q hq
      cases j with
      | zero =>
        simp only [List.getElem?_cons_zero, Option.some.injEq] at hq
        subst hq
        have ea : 4 + 2 * (i + 0) = 4 + i * 2 := by omega
        have eb : 5 + 2 * (i + 0) = 4 + i * 2 + 1 := by omega
        rw [ea, eb]
        exact ⟨t1, t2, w1, w2, by simp [x1, x2]⟩
      | succ j =>
        rw [List.getElem?_cons_succ] at hq
        have := sj j q hq
        rw [show i + (j + 1) = i + 1 + j by omega]
        exact this

theorem products_spec {cs : List (Child R)} {n s : Nat} {v : Nat → Nat → R} {js : List (M R × M R × Bool)} {N : Nat} (hl : js.length = N)
    (hj : ∀ (j : Nat) q, js[j]? = some q → toMat q.1 = jm cs n v s (4 + 2 * j) ∧ toMat q.2.1 = jm cs n v s (5 + 2 * j) ∧ Wf q.1 ∧ Wf q.2.1) :
    ∀ (k r : Nat) (X : List (M R)), r + k ≤ N → X.length = N + 1 → (∀ x ∈ X, Wf x) →
    ∃ X', products js k r X = .ok X' ∧ X'.length = N + 1 ∧ (∀ x ∈ X', Wf x) ∧ (∀ j : Nat, j ≤ r → X'[j]? = X[j]?) ∧
      ((∃ x, X[r]? = some x ∧ toMat x = core cs n v s r) → ∀ j, r ≤ j → j ≤ r + k → ∃ x, X'[j]? = some x ∧ toMat x = core cs n v s j) := by
  intro k
  induction k with
  | zero =>
    intro r X _ hX hw
    refine ⟨X, rfl, hX, hw, fun _ _ => rfl, ?_⟩
    intro h j h1 h2
    have : j = r := by omega
    subst this
    exact h
  | succ k ih =>
    intro r X hr hX hw
    obtain ⟨q, hq⟩ : ∃ q, js[r]? = some q := ⟨_, List.getElem?_eq_getElem (by omega)⟩
    obtain ⟨x, hx⟩ : ∃ x, X[r]? = some x := ⟨_, List.getElem?_eq_getElem (by omega)⟩
    obtain ⟨q1, q2, q3, q4⟩ := hj r q hq
    obtain ⟨a1, a2⟩ := mul_spec q3 (hw x (List.mem_of_getElem? hx))
    obtain ⟨b1, b2⟩ := mul_spec a2 q4
    obtain ⟨X', e, l, w, same, ok⟩ := ih (r + 1) (X.set (r + 1) (mul (mul q.1 x) q.2.1)) (by omega) (by simpa using hX) (by
      intro y hy
      rcases List.mem_or_eq_of_mem_set hy with hy | rfl
      · exact hw y hy
      · exact b2)
    refine ⟨X', ?_, l, w, ?_, ?_⟩
    · simp only [products]
      rw [hq, hx]
      exact e
    · intro j hj
      rw [same j (by omega), List.getElem?_set_ne (by omega)]
    · rintro ⟨y, hy, hc⟩ j h1 h2
      rw [hx] at hy
      cases hy
      by_cases hjr : j = r
      · subst hjr
        refine ⟨x, ?_, hc⟩
        rw [same j (by omega), List.getElem?_set_ne (by omega), hx]
      · apply ok _ j (by omega) (by omega)
        refine ⟨mul (mul q.1 x) q.2.1, by rw [List.getElem?_set_self (by omega)], ?_⟩
        rw [b1, a1, q1, q2, hc]
        rfl

/-- The brightness or one of the first `j` pairs has a value of its own. -/
def UpTo (cs : List (Child R)) (all : List Int) (n s p j : Nat) : Prop :=
  ChM cs all n p 1 s ∨ ∃ i, i < j ∧ (ChM cs all n p (4 + 2 * i) s ∨ ChM cs all n p (5 + 2 * i) s)

theorem core_same {cs : List (Child R)} {all : List Int} {n s p : Nat} : ∀ j, ¬ UpTo cs all n s p j →
    core cs n (val cs all p) s j = core cs n (val cs all 0) s j := by
  intro j
  induction j with
  | zero => intro h; exact jm_same (fun hc => h (Or.inl hc))
  | succ j ih =>
    intro h
    simp only [core]
    rw [ih (by
      rintro (h1 | ⟨i, hi, h1⟩)
      · exact h (Or.inl h1)
      · exact h (Or.inr ⟨i, by omega, h1⟩)), jm_same (fun hc => h (Or.inr ⟨j, by omega, Or.inl hc⟩)),
      jm_same (fun hc => h (Or.inr ⟨j, by omega, Or.inr hc⟩))]

end

end Verif.Psv
