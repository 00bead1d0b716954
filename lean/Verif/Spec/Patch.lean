import Verif.Model.Patch

/-!
# Specification of images of patches
-/
namespace Verif.Patch

/-- The centre of a pixel of a regular grid of `n` pixels between `-x` and `x`. -/
def center (x : ℚ) (n i : Int) : ℚ := -x + (i + 1 / 2) * (2 * x / n)

/-- A point is in a pixel, or at its edge. -/
def InPixel (p : Image) (x y : ℚ) (i k : Int) : Prop :=
  (0 ≤ i ∧ i < p.geo.nl ∧ 0 ≤ k ∧ k < p.geo.nm) ∧
  |center p.lmax p.geo.nl i - x| ≤ p.lmax / p.geo.nl ∧ |center p.mmax p.geo.nm k - y| ≤ p.mmax / p.geo.nm

end Verif.Patch
