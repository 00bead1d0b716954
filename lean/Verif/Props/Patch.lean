import Verif.Proof.Patch
import Mathlib.Tactic.NormNum

/-!
# Properties C242-C243: images of patches of sources
-/
namespace Verif.Patch

/-! ### C242: all sources are in the image -/

/-- The full statement: whatever the sources, there is an image, in which each source is, at each frequency. -/
def C242_full : Prop := ∀ (B u c0 fmax : ℚ) (freqs : List ℚ) (srcs : List Src), 0 ≤ B → 0 < u → 0 < c0 → 0 < fmax →
  (∀ f ∈ freqs, |f| ≤ fmax) → srcs ≠ [] →
  ∃ p, compose B u c0 fmax freqs srcs = .ok p ∧
    ∀ s ∈ srcs, ∀ f ∈ freqs, ∃ i k, InPixel p (f * s.l / c0) (f * s.m / c0) i k

/-- It holds if there is a source with `l ≠ 0` and one with `m ≠ 0`; nothing is written outside of the image. -/
theorem C242_inside_partial (B u c0 fmax : ℚ) (freqs : List ℚ) (srcs : List Src) (hB : 0 ≤ B) (hu : 0 < u) (hc : 0 < c0)
    (hmax : 0 < fmax) (hf : ∀ f ∈ freqs, |f| ≤ fmax) (hl : ∃ s ∈ srcs, s.l ≠ 0) (hm : ∃ s ∈ srcs, s.m ≠ 0) :
    ∃ p, compose B u c0 fmax freqs srcs = .ok p ∧
      ∀ s ∈ srcs, ∀ f ∈ freqs, ∃ i k, InPixel p (f * s.l / c0) (f * s.m / c0) i k := by
  obtain ⟨p, h1, h2, _⟩ := compose_eq B u c0 fmax freqs srcs hB hu hc hmax hf hl hm
  exact ⟨p, h1, fun s hs f hf' => ⟨_, _, h2 s hs f hf' _ _ ⟨rfl, rfl⟩⟩⟩

/-- A source in the middle of the field, or sources along one of the axes through it: undefined behaviour. -/
theorem C242_refuted : ¬ C242_full := by
  intro h
  obtain ⟨p, h1, _⟩ := h 1 1 1 1 [1] [⟨0, 1, fun _ => 1⟩] (by norm_num) (by norm_num) (by norm_num) (by norm_num)
    (by intro f hf; rw [List.mem_singleton] at hf; subst hf; norm_num) (by simp)
  unfold compose extent at h1
  simp at h1

/-! ### C243: the image shows the sources -/

/-- The full statement: in each channel, the sum over the image is that of the sources. -/
def C243_full : Prop := ∀ (B u c0 fmax : ℚ) (freqs : List ℚ) (srcs : List Src) (p : Image), 0 ≤ B → 0 < u → 0 < c0 →
  0 < fmax → (∀ f ∈ freqs, |f| ≤ fmax) → compose B u c0 fmax freqs srcs = .ok p → ∀ j, j < freqs.length →
  ((List.range p.geo.nl.toNat).map fun i => ((List.range p.geo.nm.toNat).map fun k => p.plane j i k).sum).sum =
    (srcs.map fun s => s.flux j).sum

/-- A source that is further than a pixel from all others, along one of the axes, is shown with its own value in the pixel
it is in.  Missing: sources that are closer. -/
theorem C243_shown_partial (B u c0 fmax : ℚ) (freqs : List ℚ) (srcs : List Src) (hB : 0 ≤ B) (hu : 0 < u) (hc : 0 < c0)
    (hmax : 0 < fmax) (hf : ∀ f ∈ freqs, |f| ≤ fmax) (hl : ∃ s ∈ srcs, s.l ≠ 0) (hm : ∃ s ∈ srcs, s.m ≠ 0) :
    ∃ p, compose B u c0 fmax freqs srcs = .ok p ∧
      ∀ s ∈ srcs, ∀ j f, freqs[j]? = some f →
        (∀ t ∈ srcs, t ≠ s → 2 * p.lmax / p.geo.nl < |f * s.l / c0 - f * t.l / c0| ∨
          2 * p.mmax / p.geo.nm < |f * s.m / c0 - f * t.m / c0|) →
        ∃ i k, InPixel p (f * s.l / c0) (f * s.m / c0) i k ∧ p.plane j i k = s.flux j := by
  obtain ⟨p, h1, h2, h3⟩ := compose_eq B u c0 fmax freqs srcs hB hu hc hmax hf hl hm
  refine ⟨p, h1, ?_⟩
  intro s hs j f hj hsep
  have hfm := List.mem_of_getElem? hj
  have hin := h2 s hs f hfm _ _ ⟨rfl, rfl⟩
  refine ⟨_, _, hin, ?_⟩
  rcases h3 j (pixel p.geo.nl p.geo.dl (f * s.l / c0)) (pixel p.geo.nm p.geo.dm (f * s.m / c0)) with
    ⟨t, ht, ⟨f', hf', hh⟩, e⟩ | ⟨hn, _⟩
  · rw [hj] at hf'
    cases hf'
    have hin' := h2 t ht f hfm _ _ hh
    by_cases hts : t = s
    · rw [e, hts]
    · exfalso
      have tri : ∀ a x y r : ℚ, |a - x| ≤ r → |a - y| ≤ r → |x - y| ≤ 2 * r := by
        intro a x y r ha hb
        rw [abs_le] at *
        constructor <;> linarith [ha.1, ha.2, hb.1, hb.2]
      have t1 := tri _ _ _ _ hin.2.1 hin'.2.1
      have t2 := tri _ _ _ _ hin.2.2 hin'.2.2
      rw [mul_div_assoc'] at t1 t2
      rcases hsep t ht hts with h | h <;> linarith
  · exact absurd ⟨rfl, rfl⟩ (hn s hs f hj)

/-- All that is shown is a source in that pixel: nothing is made up. -/
theorem C243_only (B u c0 fmax : ℚ) (freqs : List ℚ) (srcs : List Src) (hB : 0 ≤ B) (hu : 0 < u) (hc : 0 < c0)
    (hmax : 0 < fmax) (hf : ∀ f ∈ freqs, |f| ≤ fmax) (hl : ∃ s ∈ srcs, s.l ≠ 0) (hm : ∃ s ∈ srcs, s.m ≠ 0) :
    ∃ p, compose B u c0 fmax freqs srcs = .ok p ∧
      ∀ j i k, p.plane j i k ≠ 0 → ∃ s ∈ srcs, ∃ f, freqs[j]? = some f ∧
        InPixel p (f * s.l / c0) (f * s.m / c0) i k ∧ p.plane j i k = s.flux j := by
  obtain ⟨p, h1, h2, h3⟩ := compose_eq B u c0 fmax freqs srcs hB hu hc hmax hf hl hm
  refine ⟨p, h1, ?_⟩
  intro j i k hne
  rcases h3 j i k with ⟨s, hs, ⟨f, hf', hh⟩, e⟩ | ⟨_, e⟩
  · exact ⟨s, hs, f, hf', h2 s hs f (List.mem_of_getElem? hf') i k hh, e⟩
  · exact absurd e hne

/-- Two sources that are far from each other. -/
def far : List Src := [⟨1, 1, fun _ => 5⟩, ⟨-1, 1 / 3, fun _ => 7⟩]

example : (match compose 1 1 1 1 [1 / 2, 1] far with
    | .ok p => (p.geo.nl, p.geo.nm, p.plane 1 7 7, p.plane 1 1 5, p.plane 0 6 6, p.plane 0 7 7) | _ => (0, 0, 0, 0, 0, 0)) =
    (9, 9, 5, 7, 5, 0) := by decide +kernel

/-- Of two sources in the same pixel only the last one is shown. -/
theorem C243_refuted : ¬ C243_full := by
  intro h
  obtain ⟨p, h1, _⟩ := compose_eq 1 1 1 1 [1] [⟨1, 1, fun _ => 5⟩, ⟨1, 1, fun _ => 7⟩] (by norm_num) (by norm_num) (by norm_num)
    (by norm_num) (by intro f hf; rw [List.mem_singleton] at hf; subst hf; norm_num) ⟨_, List.mem_cons_self, by norm_num⟩
    ⟨_, List.mem_cons_self, by norm_num⟩
  have h2 := h 1 1 1 1 [1] [⟨1, 1, fun _ => 5⟩, ⟨1, 1, fun _ => 7⟩] p (by norm_num) (by norm_num) (by norm_num)
    (by norm_num) (by intro f hf; rw [List.mem_singleton] at hf; subst hf; norm_num) h1 0 (by simp)
  have h3 : (match compose 1 1 1 1 [1] [⟨1, 1, fun _ => 5⟩, ⟨1, 1, fun _ => 7⟩] with
      | .ok p => ((List.range p.geo.nl.toNat).map fun i => ((List.range p.geo.nm.toNat).map fun k => p.plane 0 i k).sum).sum
      | _ => 0) = 7 := by decide +kernel
  rw [h1] at h3
  dsimp only at h3
  rw [h3] at h2
  norm_num at h2

end Verif.Patch
