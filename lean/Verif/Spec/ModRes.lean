import Verif.Model.ModRes
/-!
# Specification of the change of resolution
-/
namespace Verif.ModRes

/-- Where a cell starts and ends. -/
def lo (c : ℚ × ℚ) : ℚ := c.1 - c.2 / 2
def hi (c : ℚ × ℚ) : ℚ := c.1 + c.2 / 2

/-- Each cell is divided into `k` equal cells. -/
def Divided (k : Nat) (l l' : List (ℚ × ℚ)) : Prop :=
  l'.length = l.length * k ∧
    ∀ (i j : Nat) (c : ℚ × ℚ), l[i]? = some c → j < k →
      ∃ c', l'[i * k + j]? = some c' ∧ lo c' = lo c + (hi c - lo c) * j / k ∧ hi c' = lo c + (hi c - lo c) * (j + 1) / k

/-- Cells are joined by `k`, the last ones by as many as are left. -/
def Joined (k : Nat) (l l' : List (ℚ × ℚ)) : Prop :=
  l.length ≤ l'.length * k ∧
    ∀ i, i < l'.length → i * k < l.length ∧
      ∃ c a b, l'[i]? = some c ∧ l[i * k]? = some a ∧ l[min ((i + 1) * k) l.length - 1]? = some b ∧ lo c = lo a ∧ hi c = hi b

/-- The domain is divided into `n` equal cells. -/
def Even (d : ℚ × ℚ) (n : Nat) (l' : List (ℚ × ℚ)) : Prop :=
  l'.length = n ∧
    ∀ i : Nat, i < n → ∃ c, l'[i]? = some c ∧ lo c = d.1 + (d.2 - d.1) * i / n ∧ hi c = d.1 + (d.2 - d.1) * (i + 1) / n

/-- What should become of an axis with domain `d` and cells `l`: factors for up- and downsampling are considered, if there are any, before numbers of
cells; those that are not more than 1 mean no change, and so do numbers that are not positive, but for the cells being of equal size. -/
def Right (num up down : Option Int) (d : ℚ × ℚ) (l l' : List (ℚ × ℚ)) : Prop :=
  (∀ k : Nat, 1 < k → up = some (k : Int) → Divided k l l') ∧
    (∀ k : Nat, 1 < k → (∀ f, up = some f → f ≤ 1) → down = some (k : Int) → Joined k l l') ∧
    ((up ≠ none ∨ down ≠ none) → (∀ f, up = some f → f ≤ 1) → (∀ f, down = some f → f ≤ 1) → l' = l) ∧
    (up = none → down = none → ∀ n : Int, num = some n → Even d (if 0 < n then n.toNat else l.length) l') ∧
    (up = none → down = none → num = none → l' = l)

/-- The last value given for a field. -/
def lastGiven (field : Rec → Option (List Int)) (evs : List Event) : Option (List Int) :=
  (evs.filterMap (fun ev => match ev with
    | .set r => field r
    | .ask _ => none)).getLast?

/-- The value for an axis. -/
def at_ (o : Option (List Int)) (i : Nat) : Option Int := o.bind (fun l => l[i]?)

/-- Fields that are given have values for both axes. -/
def Proper (evs : List Event) : Prop :=
  ∀ r, Event.set r ∈ evs → ∀ f, (f = r.num ∨ f = r.up ∨ f = r.down) → ∀ l, f = some l → l.length = 2

/-- The child's request is as asked for by the last values given. -/
def Good (evs : List Event) (r r' : Req) : Prop :=
  r'.d0 = r.d0 ∧ r'.d1 = r.d1 ∧
    Right (at_ (lastGiven Rec.num evs) 0) (at_ (lastGiven Rec.up evs) 0) (at_ (lastGiven Rec.down evs) 0) r.d0 r.x r'.x ∧
    Right (at_ (lastGiven Rec.num evs) 1) (at_ (lastGiven Rec.up evs) 1) (at_ (lastGiven Rec.down evs) 1) r.d1 r.y r'.y

end Verif.ModRes
