import Mathlib.Algebra.Order.Ring.Rat
import Mathlib.Algebra.Field.Rat
import Verif.Model.Outcome
/-!
# Weighted sums and means of children (MeqNodes/src/WSum.cc, MeqNodes/src/WMean.cc)

One cell of the children's values is looked at, in exact arithmetic.
-/
namespace Verif.WSum

/-- The weights, and which of the children are enabled. -/
structure St where
  weights : List ℚ
  enabled : List Bool
deriving DecidableEq, Repr

/-- A new node with `n` children (WSum.cc:29-32). -/
def St.init (n : Nat) : St := ⟨[1], List.replicate n true⟩

/-- `vector::resize(n,0.)`. -/
def resize (l : List ℚ) (n : Nat) : List ℚ := l.take n ++ List.replicate (n - l.length) 0

/-- `setStateImpl` (WSum.cc:38-62) with a field of weights, or without one. -/
def setWeights (n : Nat) (s : St) : Option (List ℚ) → St
  | none => s
  | some given =>
    let w := if given.isEmpty then [1] else given
    if 1 < w.length then ⟨resize w n, (resize w n).map fun x => decide (x ≠ 0)⟩
    else ⟨w, List.replicate n true⟩

/-- The loop of `WSum::evaluate` (WSum.cc:80-85) from child `i` on. -/
def addRest (w : List ℚ) (allsame : Bool) : Nat → List ℚ → ℚ → ℚ
  | _, [], r => r
  | i, v :: vs, r =>
    let x := if allsame then w.getD 0 0 else w.getD i 0
    addRest w allsame (i + 1) vs (if x ≠ 0 then r + v * x else r)

/-- `WSum::evaluate` (WSum.cc:64-88). -/
def evaluate (w values : List ℚ) : ℚ :=
  match values with
  | [] => 0
  | v :: vs =>
    if w.length = 0 then 0
    else addRest w (decide (w.length = 1)) 1 vs (if w.getD 0 0 ≠ 0 then v * w.getD 0 0 else 0)

/-- `WMean::NormWeights` (WMean.cc:38-65). -/
def normWeights (n : Nat) (w : List ℚ) : List ℚ :=
  if w.length ≤ 1 then [1 / (n : ℚ)]
  else if w.sum ≠ 0 then w.map fun x => x / w.sum else w

/-- `Function::getResult` (Function.cc:104-286) as far as children's results are concerned: the result of a child that is not enabled was not asked for, so
that its reference points to nothing, and using it (Function.cc:126, 145, 166) is an exception.  All the others have a value. -/
def getResult (s : St) (values : List ℚ) (f : List ℚ → ℚ) : Res ℚ :=
  if s.enabled.all id then .ok (f values) else .err

/-- A weighted sum's result; its state does not change. -/
def sumResult (s : St) (values : List ℚ) : Res ℚ := getResult s values (evaluate s.weights)

/-- A weighted mean's result, and its state after it: the weights are normalised at each evaluation (WMean.cc:68-75). -/
def meanResult (s : St) (values : List ℚ) : Res ℚ × St :=
  if s.enabled.all id then
    (getResult s values (evaluate (normWeights s.enabled.length s.weights)), ⟨normWeights s.enabled.length s.weights, s.enabled⟩)
  else (.err, s)

/-- What happens to a node: its state is set, or it is asked for a result. -/
inductive Op where
  | set (given : Option (List ℚ))
  | get (values : List ℚ)
deriving DecidableEq, Repr

/-- A weighted mean node after that. -/
def meanAfter (n : Nat) : List Op → St
  | [] => St.init n
  | .set g :: l => setWeights n (meanAfter n l) g
  | .get v :: l => (meanResult (meanAfter n l) v).2

/-- A weighted sum node after that. -/
def sumAfter (n : Nat) : List Op → St
  | [] => St.init n
  | .set g :: l => setWeights n (sumAfter n l) g
  | .get _ :: l => sumAfter n l

end Verif.WSum
