import Verif.Model.Composed
/-! # What C134 - C136 say: grids, tiles, cells covered -/
namespace Verif.Composed

/-- A proper grid along an axis: cells that have a size, centres inside, one after the other. -/
def Ordered (g : List Cell) : Prop :=
  (∀ c ∈ g, c.lo < c.mid ∧ c.mid < c.hi) ∧ g.Pairwise fun a b => a.hi ≤ b.lo

/-- A range has a point in it; an axis that is not defined stands for all. -/
def Has (a : Option (ℚ × ℚ)) (z : ℚ) : Prop := match a with | none => True | some r => r.1 ≤ z ∧ z ≤ r.2

/-- A funklet is for cell `p` of time and `q` of frequency: the centre is in its domain. -/
def Covers (gx gy : List Cell) (p q : Nat) (f : Fk) : Prop :=
  ∃ a b, gx[p]? = some a ∧ gy[q]? = some b ∧ Has f.dom.x a.mid ∧ Has f.dom.y b.mid

/-- The value of a funklet at the centre of a cell. -/
def Value (gx gy : List Cell) (p q : Nat) (f : Fk) (z : ℚ) : Prop :=
  ∃ a b, gx[p]? = some a ∧ gy[q]? = some b ∧ z = f.v a.mid b.mid

/-- A funklet's value depends on an axis only if it has more than one coefficient along it, and is the first coefficient if it has
only one. -/
def Sound (f : Fk) : Prop :=
  (f.sx = false → ∀ a b y, f.v a y = f.v b y) ∧ (f.sy = false → ∀ x a b, f.v x a = f.v x b) ∧
  (f.sx = false → f.sy = false → ∀ x y, f.v x y = f.c0)

/-- Number of tiles of size `t` over `n` cells; 0 or less: not tiled. -/
def tiles (t : Int) (n : Nat) : Nat := if t ≤ 0 then 1 else (n + t.toNat - 1) / t.toNat

/-- The tile a cell lies in. -/
def tileOf (t : Int) (p : Nat) : Nat := if t ≤ 0 then 0 else p / t.toNat

/-- The range of tile `i` of an axis: from the start of its first cell to the end of its last; the domain's own if not tiled. -/
def TileRange (t : Int) (g : List Cell) (r : Option (ℚ × ℚ)) (i : Nat) (s : Option (ℚ × ℚ)) : Prop :=
  if t ≤ 0 then s = r
  else ∃ a b, g[i * t.toNat]? = some a ∧ g[min (g.length - 1) ((i + 1) * t.toNat - 1)]? = some b ∧ s = some (a.lo, b.hi)

/-- A domain's range for an axis is defined and has all centres of the grid. -/
def Whole (r : Option (ℚ × ℚ)) (g : List Cell) : Prop := ∃ a, r = some a ∧ ∀ c ∈ g, a.1 ≤ c.mid ∧ c.mid ≤ a.2

/-- The domain of a funklet is defined on both axes, and ends on neither before the first centre of the grid. -/
def Reaches (gx gy : List Cell) (f : Fk) : Prop :=
  ∃ ax ay, f.dom.x = some ax ∧ f.dom.y = some ay ∧ (∀ c, gx[0]? = some c → c.mid ≤ ax.2) ∧ (∀ c, gy[0]? = some c → c.mid ≤ ay.2)

/-- Funklets that all have one coefficient and the same range along an axis have all the grid in that range. -/
def Spread (g : List Cell) (l : List (Option (ℚ × ℚ) × Bool)) : Prop :=
  (∀ f ∈ l, f.2 = false) → (∀ f ∈ l, ∀ h ∈ l, f.1 = h.1) → ∀ f ∈ l, Whole f.1 g

/-- The value for a cell is that of a funklet that is for it, or the default if there is none. -/
def Composes (fs : List Fk) (default : ℚ) (gx gy : List Cell) (p q : Nat) (z : Option ℚ) : Prop :=
  (∃ f ∈ fs, ∃ y, Covers gx gy p q f ∧ Value gx gy p q f y ∧ z = some y) ∨ ((∀ f ∈ fs, ¬ Covers gx gy p q f) ∧ z = some default)

/-- Two ranges are the same within the tolerance. -/
def Near (a b : Option (ℚ × ℚ)) : Prop :=
  ∃ p q, a = some p ∧ b = some q ∧ |p.1 - q.1| ≤ 1 / 10 ^ 16 ∧ |p.2 - q.2| ≤ 1 / 10 ^ 16

/-- There is one funklet for each tile, in order, with its domain, and all have the same number of coefficients. -/
def Fits (ds : List Dom) (fs : List Fk) : Prop :=
  fs.length = ds.length ∧ (∀ (k : Nat) (D : Dom) (f : Fk), ds[k]? = some D → fs[k]? = some f → Near D.x f.dom.x ∧ Near D.y f.dom.y) ∧
  ∀ f ∈ fs, ∀ h ∈ fs, f.n = h.n

end Verif.Composed
