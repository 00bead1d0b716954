import Verif.Model.MsChan

/-!
# Specification of the reading and writing of measurement sets
-/
namespace Verif.MsChan

variable {γ : Type}

/-- `ys` are the channels `first, first + incr, …` (`count` of them) of `xs`, in the opposite order if `flip`. -/
def Shows (c : Chans) (xs ys : List γ) : Prop :=
  ys.length = c.count ∧
    ∀ k, k < c.count → ys[if c.flip then c.count - 1 - k else k]? = xs[c.first + k * c.incr]?

/-- The channels exist in a row of data. -/
def Fits (c : Chans) (xs : List γ) : Prop := ∀ k, k < c.count → c.first + k * c.incr < xs.length

/-- The row is asked for. -/
def Wanted (q : Sel) (r : Row γ) : Prop :=
  r.field = q.field ∧ r.ddid = q.ddid ∧ (q.autocorr = true ∨ r.a1 ≠ r.a2)

/-- The row `i` of the table is in the tile `t` as its row `k`. -/
def At (t : Tile γ) (k i : Nat) : Prop := ∃ x, t.rows[k]? = some (some x) ∧ x.seqnr = i

/-- The steps between successive times differ by at most 0.1 from the first one. -/
def Regular (ts : List Rat) : Prop :=
  ∀ k a b t u, ts[0]? = some a → ts[1]? = some b → ts[k]? = some t → ts[k + 1]? = some u →
    |(u - t) - (b - a)| ≤ 1 / 10

/-- The rows of a table that a list of tiles has data for. -/
def seqnrs (tiles : List (Tile γ)) : List Nat :=
  tiles.flatMap (fun t => t.rows.filterMap (fun x => x.map TRow.seqnr))

end Verif.MsChan
