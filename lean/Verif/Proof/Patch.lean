import Verif.Spec.Patch
import Mathlib.Tactic.Linarith
import Mathlib.Tactic.Ring
import Mathlib.Tactic.FieldSimp
import Mathlib.Tactic.Positivity

/-!
# Lemmas on images of patches
-/
namespace Verif.Patch

theorem foldl_max (xs : List ℚ) : ∀ a : ℚ, a ≤ xs.foldl (fun a x => max a |x|) a ∧
    ∀ x ∈ xs, |x| ≤ xs.foldl (fun a x => max a |x|) a := by
  induction xs with
  | nil => intro a; exact ⟨le_refl _, by simp⟩
  | cons y xs ih =>
    intro a
    rw [List.foldl_cons]
    obtain ⟨h1, h2⟩ := ih (max a |y|)
    refine ⟨le_trans (le_max_left _ _) h1, ?_⟩
    intro x hx
    rcases List.mem_cons.1 hx with rfl | hx
    · exact le_trans (le_max_right _ _) h1
    · exact h2 x hx

theorem trunc_nonneg (x : ℚ) (h : 0 ≤ x) : 0 ≤ trunc x ∧ (trunc x : ℚ) ≤ x ∧ x < trunc x + 1 := by
  unfold trunc
  rw [if_pos h]
  exact ⟨Int.floor_nonneg.2 h, Int.floor_le x, Int.lt_floor_add_one x⟩

theorem trunc_neg (x : ℚ) (h : x < 0) : trunc x ≤ 0 ∧ x ≤ (trunc x : ℚ) ∧ (trunc x : ℚ) - 1 < x := by
  unfold trunc
  rw [if_neg (by linarith)]
  have h1 := Int.floor_nonneg.2 (show 0 ≤ -x by linarith)
  have h2 := Int.floor_le (-x)
  have h3 := Int.lt_floor_add_one (-x)
  push_cast
  exact ⟨by omega, by linarith, by linarith⟩

/-- The pixel is inside the grid, and the nearest. -/
theorem pixel_spec (L d x : ℚ) (hd : 0 < d) (hx : |x| ≤ L) :
    0 ≤ pixel (npix L d) d x ∧ pixel (npix L d) d x < npix L d ∧ 0 < npix L d ∧
    |((pixel (npix L d) d x : ℚ) - (((npix L d - 1) / 2 : Int) : ℚ)) * d - x| ≤ d / 2 ∧
    2 * ((npix L d - 1) / 2) + 1 = npix L d := by
  have hL : 0 ≤ L := le_trans (abs_nonneg x) hx
  obtain ⟨t1, t2, t3⟩ := trunc_nonneg (L / d) (div_nonneg hL hd.le)
  obtain ⟨hx1, hx2⟩ := abs_le.1 hx
  have e : (npix L d - 1) / 2 = trunc (L / d) + 1 := by unfold npix; omega
  have hxd : x = x / d * d := by field_simp
  have b1 : x / d ≤ L / d := div_le_div_of_nonneg_right hx2 hd.le
  have b2 : -(L / d) ≤ x / d := by
    rw [← neg_div]
    exact div_le_div_of_nonneg_right hx1 hd.le
  unfold pixel
  rw [e]
  have key : ∀ (t : Int), |(t : ℚ) - x / d| ≤ 1 / 2 → |t| ≤ trunc (L / d) + 1 →
      0 ≤ trunc (L / d) + 1 + 1 + t - 1 ∧ trunc (L / d) + 1 + 1 + t - 1 < npix L d ∧ 0 < npix L d ∧
      |(((trunc (L / d) + 1 + 1 + t - 1 : Int) : ℚ) - ((trunc (L / d) + 1 : Int) : ℚ)) * d - x| ≤ d / 2 ∧
      2 * (trunc (L / d) + 1) + 1 = npix L d := by
    intro t h1 h2
    obtain ⟨h3, h4⟩ := abs_le.1 h2
    unfold npix
    refine ⟨by omega, by omega, by omega, ?_, by omega⟩
    have : (((trunc (L / d) + 1 + 1 + t - 1 : Int) : ℚ) - ((trunc (L / d) + 1 : Int) : ℚ)) * d - x = ((t : ℚ) - x / d) * d := by
      push_cast
      have : ((t : ℚ) - x / d) * d = t * d - x := by rw [sub_mul, ← hxd]
      rw [this]
      ring
    rw [this, abs_mul, abs_of_pos hd]
    calc |(t : ℚ) - x / d| * d ≤ 1 / 2 * d := mul_le_mul_of_nonneg_right h1 hd.le
      _ = d / 2 := by ring
  by_cases hpos : x > 0
  · rw [if_pos hpos]
    have hq : 0 < x / d := div_pos hpos hd
    obtain ⟨s1, s2, s3⟩ := trunc_nonneg (x / d + 1 / 2) (by linarith)
    apply key
    · rw [abs_le]; constructor <;> linarith
    · rw [abs_le]
      refine ⟨by omega, ?_⟩
      have : (trunc (x / d + 1 / 2) : ℚ) < (trunc (L / d) + 2 : Int) := by push_cast; linarith
      have := Int.cast_lt.1 this
      omega
  · rw [if_neg hpos]
    have hq : x / d ≤ 0 := div_nonpos_of_nonpos_of_nonneg (not_lt.1 hpos) hd.le
    obtain ⟨s1, s2, s3⟩ := trunc_neg (x / d - 1 / 2) (by linarith)
    apply key
    · rw [abs_le]; constructor <;> linarith
    · rw [abs_le]
      refine ⟨?_, by omega⟩
      have : ((-(trunc (L / d) + 2) : Int) : ℚ) < (trunc (x / d - 1 / 2) : ℚ) := by push_cast; linarith
      have := Int.cast_lt.1 this
      omega

/-- Where a source is put. -/
def Hit (g : Geo) (c0 : ℚ) (s : Src) (f : ℚ) (i k : Int) : Prop :=
  pixel g.nl g.dl (f * s.l / c0) = i ∧ pixel g.nm g.dm (f * s.m / c0) = k

/-- And that this is inside. -/
def Fits (g : Geo) (c0 : ℚ) (s : Src) (f : ℚ) : Prop :=
  0 ≤ pixel g.nl g.dl (f * s.l / c0) ∧ pixel g.nl g.dl (f * s.l / c0) < g.nl ∧
  0 ≤ pixel g.nm g.dm (f * s.m / c0) ∧ pixel g.nm g.dm (f * s.m / c0) < g.nm

theorem channels_eq (g : Geo) (c0 : ℚ) (s : Src) : ∀ (fs : List (ℚ × Nat)) (a : Nat → Int → Int → ℚ),
    (∀ x ∈ fs, Fits g c0 s x.1) → ∃ a', channels g c0 s fs a = .ok a' ∧
      ∀ j i k, ((∃ f, (f, j) ∈ fs ∧ Hit g c0 s f i k) ∧ a' j i k = s.flux j) ∨
        ((∀ f, (f, j) ∈ fs → ¬ Hit g c0 s f i k) ∧ a' j i k = a j i k) := by
  intro fs
  induction fs with
  | nil => intro a _; exact ⟨a, rfl, fun j i k => .inr ⟨fun f h => (by cases h), rfl⟩⟩
  | cons x fs ih =>
    intro a h
    obtain ⟨f0, j0⟩ := x
    obtain ⟨a', h1, h2⟩ := ih (store a j0 (pixel g.nl g.dl (f0 * s.l / c0)) (pixel g.nm g.dm (f0 * s.m / c0)) (s.flux j0))
      (fun y hy => h y (by simp [hy]))
    refine ⟨a', ?_, ?_⟩
    · unfold channels
      dsimp only
      have hf : Fits g c0 s f0 := h (f0, j0) (by simp)
      unfold Fits at hf
      rw [if_pos hf]
      exact h1
    · intro j i k
      rcases h2 j i k with ⟨⟨f, hf, hh⟩, e⟩ | ⟨hn, e⟩
      · exact .inl ⟨⟨f, by simp [hf], hh⟩, e⟩
      · unfold store at e
        by_cases hc : j = j0 ∧ i = pixel g.nl g.dl (f0 * s.l / c0) ∧ k = pixel g.nm g.dm (f0 * s.m / c0)
        · rw [if_pos hc] at e
          refine .inl ⟨⟨f0, by simp [hc.1], hc.2.1.symm, hc.2.2.symm⟩, by rw [e, hc.1]⟩
        · rw [if_neg hc] at e
          refine .inr ⟨?_, e⟩
          intro f hf hh
          rcases List.mem_cons.1 hf with he | hf
          · cases he
            exact hc ⟨rfl, hh.1.symm, hh.2.symm⟩
          · exact hn f hf hh

theorem sources_eq (g : Geo) (c0 : ℚ) (freqs : List ℚ) : ∀ (ss : List Src) (a : Nat → Int → Int → ℚ),
    (∀ s ∈ ss, ∀ f ∈ freqs, Fits g c0 s f) → ∃ a', sources g c0 freqs ss a = .ok a' ∧
      ∀ j i k, (∃ s ∈ ss, (∃ f, freqs[j]? = some f ∧ Hit g c0 s f i k) ∧ a' j i k = s.flux j) ∨
        ((∀ s ∈ ss, ∀ f, freqs[j]? = some f → ¬ Hit g c0 s f i k) ∧ a' j i k = a j i k) := by
  intro ss
  induction ss with
  | nil => intro a _; exact ⟨a, rfl, fun j i k => .inr ⟨by simp, rfl⟩⟩
  | cons s ss ih =>
    intro a h
    obtain ⟨a1, h1, h2⟩ := channels_eq g c0 s freqs.zipIdx a (fun x hx => h s (by simp) x.1 (by
      obtain ⟨f, j⟩ := x
      exact List.mem_of_getElem? (List.mem_zipIdx_iff_getElem?.1 hx)))
    obtain ⟨a', h3, h4⟩ := ih a1 (fun t ht => h t (by simp [ht]))
    refine ⟨a', ?_, ?_⟩
    · unfold sources
      rw [h1]
      exact h3
    · intro j i k
      rcases h4 j i k with ⟨t, ht, hh, e⟩ | ⟨hn, e⟩
      · exact .inl ⟨t, by simp [ht], hh, e⟩
      · rcases h2 j i k with ⟨⟨f, hf, hh⟩, e'⟩ | ⟨hn', e'⟩
        · exact .inl ⟨s, by simp, ⟨f, List.mem_zipIdx_iff_getElem?.1 hf, hh⟩, by rw [e, e']⟩
        · refine .inr ⟨?_, by rw [e, e']⟩
          intro t ht f hf hh
          rcases List.mem_cons.1 ht with rfl | ht
          · exact hn' f (List.mem_zipIdx_iff_getElem?.2 hf) hh
          · exact hn t ht f hf hh

theorem center_eq (n h : Int) (d : ℚ) (i : Int) (hn : 0 < n) (e : 2 * h + 1 = n) :
    center (n * d / 2) n i = ((i : ℚ) - h) * d ∧ (n : ℚ) * d / 2 / n = d / 2 := by
  have hq : (n : ℚ) ≠ 0 := by exact_mod_cast hn.ne'
  have e' : (n : ℚ) = 2 * h + 1 := by rw [← e]; push_cast; ring
  unfold center
  constructor
  · have : 2 * ((n : ℚ) * d / 2) / n = d := by field_simp
    rw [this, e']
    ring
  · field_simp

theorem spacing_pos (B u L : ℚ) (hB : 0 ≤ B) (hu : 0 < u) (hL : 0 < L) : 0 < spacing B u L := by
  unfold spacing
  have : 0 < 1 / u / L := by positivity
  have : 0 < 2 * B + 1 / u / L := by linarith
  positivity

theorem extent_pos (k : ℚ) (hk : 0 < k) (xs : List ℚ) (h : ∃ x ∈ xs, x ≠ 0) : 0 < extent k xs := by
  obtain ⟨x, hx, hne⟩ := h
  have := (foldl_max xs 0).2 x hx
  have h0 : 0 < |x| := abs_pos.2 hne
  unfold extent
  exact mul_pos (by linarith) hk

theorem extent_le (c0 fmax f : ℚ) (hc : 0 < c0) (hf : |f| ≤ fmax) (xs : List ℚ) (x : ℚ) (hx : x ∈ xs) :
    |f * x / c0| ≤ extent (fmax / c0) xs := by
  have h := (foldl_max xs 0).2 x hx
  unfold extent
  rw [abs_div, abs_mul, abs_of_pos hc, mul_div_assoc', mul_comm |f|]
  apply div_le_div_of_nonneg_right _ hc.le
  exact mul_le_mul h hf (abs_nonneg f) (le_trans (abs_nonneg x) h)

/-- What the node gives. -/
theorem compose_eq (B u c0 fmax : ℚ) (freqs : List ℚ) (srcs : List Src) (hB : 0 ≤ B) (hu : 0 < u) (hc : 0 < c0)
    (hmax : 0 < fmax) (hf : ∀ f ∈ freqs, |f| ≤ fmax) (hl : ∃ s ∈ srcs, s.l ≠ 0) (hm : ∃ s ∈ srcs, s.m ≠ 0) :
    ∃ p, compose B u c0 fmax freqs srcs = .ok p ∧
      (∀ s ∈ srcs, ∀ f ∈ freqs, ∀ i k, Hit p.geo c0 s f i k → InPixel p (f * s.l / c0) (f * s.m / c0) i k) ∧
      ∀ j i k, (∃ s ∈ srcs, (∃ f, freqs[j]? = some f ∧ Hit p.geo c0 s f i k) ∧ p.plane j i k = s.flux j) ∨
        ((∀ s ∈ srcs, ∀ f, freqs[j]? = some f → ¬ Hit p.geo c0 s f i k) ∧ p.plane j i k = 0) := by
  have hk : 0 < fmax / c0 := div_pos hmax hc
  have hL : 0 < extent (fmax / c0) (srcs.map Src.l) := extent_pos _ hk _ (by
    obtain ⟨s, hs, hne⟩ := hl
    exact ⟨s.l, List.mem_map.2 ⟨s, hs, rfl⟩, hne⟩)
  have hM : 0 < extent (fmax / c0) (srcs.map Src.m) := extent_pos _ hk _ (by
    obtain ⟨s, hs, hne⟩ := hm
    exact ⟨s.m, List.mem_map.2 ⟨s, hs, rfl⟩, hne⟩)
  have bl : ∀ s ∈ srcs, ∀ f ∈ freqs, |f * s.l / c0| ≤ extent (fmax / c0) (srcs.map Src.l) := fun s hs f hf' =>
    extent_le c0 fmax f hc (hf f hf') _ _ (List.mem_map.2 ⟨s, hs, rfl⟩)
  have bm : ∀ s ∈ srcs, ∀ f ∈ freqs, |f * s.m / c0| ≤ extent (fmax / c0) (srcs.map Src.m) := fun s hs f hf' =>
    extent_le c0 fmax f hc (hf f hf') _ _ (List.mem_map.2 ⟨s, hs, rfl⟩)
  unfold compose
  dsimp only
  generalize extent (fmax / c0) (srcs.map Src.l) = L at *
  generalize extent (fmax / c0) (srcs.map Src.m) = M at *
  rw [if_neg (by rintro (h | h) <;> linarith)]
  have hdl := spacing_pos B u L hB hu hL
  have hdm := spacing_pos B u M hB hu hM
  generalize spacing B u L = dl at *
  generalize spacing B u M = dm at *
  obtain ⟨a, h1, h2⟩ := sources_eq ⟨npix L dl, npix M dm, dl, dm⟩ c0 freqs srcs (fun _ _ _ => 0) (by
    intro s hs f hf'
    obtain ⟨p1, p2, _⟩ := pixel_spec L dl _ hdl (bl s hs f hf')
    obtain ⟨q1, q2, _⟩ := pixel_spec M dm _ hdm (bm s hs f hf')
    exact ⟨p1, p2, q1, q2⟩)
  rw [h1]
  refine ⟨_, rfl, ?_, h2⟩
  rintro s hs f hf' i k ⟨rfl, rfl⟩
  obtain ⟨p1, p2, p3, p4, p5⟩ := pixel_spec L dl _ hdl (bl s hs f hf')
  obtain ⟨q1, q2, q3, q4, q5⟩ := pixel_spec M dm _ hdm (bm s hs f hf')
  refine ⟨⟨p1, p2, q1, q2⟩, ?_, ?_⟩
  · obtain ⟨e1, e2⟩ := center_eq (npix L dl) _ dl (pixel (npix L dl) dl (f * s.l / c0)) p3 p5
    dsimp only
    rw [e1, e2]
    exact p4
  · obtain ⟨e1, e2⟩ := center_eq (npix M dm) _ dm (pixel (npix M dm) dm (f * s.m / c0)) q3 q5
    dsimp only
    rw [e1, e2]
    exact q4

end Verif.Patch
