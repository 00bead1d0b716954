/-!
# What identifier patterns mean

Independent of the model.  A pattern is a list of integers; `-1` ("?") stands for any single
component, `-2` ("*") for any remainder; every other value stands for itself.  Anything after a
"*" is ignored, as documented in `/repo/DMI/src/HIID.h` lines 107-113.
-/
namespace Verif.HiidSpec

/-- An identifier without wildcards. -/
def Concrete (c : List Int) : Prop := ∀ a ∈ c, a ≠ -1 ∧ a ≠ -2

/-- `Denotes p c`: the pattern `p` stands for (among others) the identifier `c`. -/
inductive Denotes : List Int → List Int → Prop
  /-- The empty pattern denotes the empty identifier. -/
  | nil : Denotes [] []
  /-- "*" denotes every remainder. -/
  | star (rest c) : Denotes (-2 :: rest) c
  /-- "?" denotes any one component. -/
  | any (a p c) : Denotes p c → Denotes (-1 :: p) (a :: c)
  /-- Any other component denotes itself. -/
  | atom (a p c) : a ≠ -1 → a ≠ -2 → Denotes p c → Denotes (a :: p) (a :: c)

end Verif.HiidSpec
