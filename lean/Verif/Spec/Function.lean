import Verif.Model.Function
/-! # Specification of functions of children's results (C45, C77, C78) -/
namespace Verif.Func

/-- Strictly increasing. -/
def Increasing (l : List Int) : Prop := l.Pairwise (· < ·)

/-- Ids as children have them: strictly increasing, not negative. -/
def IdsWf (l : List Int) : Prop := Increasing l ∧ ∀ s ∈ l, 0 ≤ s

/-- A plane with a value, and with `n` sets of perturbed values if it has any. -/
def PlaneWf (n : Nat) (c : Plane V F) : Prop :=
  IdsWf c.spids ∧ c.value.isSome = true ∧ (c.spids ≠ [] → c.npert = n) ∧ c.npert ≤ n

/-- The value of a child when parameter `spid` is perturbed: its own perturbed value if it depends on the parameter, else
its main value. -/
def pertVal (spid : Int) (k : Nat) (c : Option (Plane V F)) : Option V :=
  c.bind fun c => if spid ∈ c.spids then some (c.pval (c.spids.idxOf spid) k) else c.value

/-- Main value of a child. -/
def mainVal (c : Option (Plane V F)) : Option V := c.bind (·.value)

/-- Children that depend on the same parameter perturb it by the same amount. -/
def Agree (n : Nat) (ch : List (Option (Plane V F))) : Prop :=
  ∀ c d : Plane V F, some c ∈ ch → some d ∈ ch → ∀ i j : Nat, ∀ spid : Int, c.spids[i]? = some spid → d.spids[j]? = some spid →
    ∀ k < n, c.pert i k = d.pert j k

/-- All perturbed values pass the test of shapes. -/
def PertCompat (compat : V → Bool) (n : Nat) (ch : List (Option (Plane V F))) : Prop :=
  ∀ c : Plane V F, some c ∈ ch → ∀ i < c.spids.length, ∀ k < n, compat (c.pval i k) = true

/-- Some child depends on the parameter. -/
def Depends (ch : List (Option (Plane V F))) (spid : Int) : Prop := ∃ c : Plane V F, some c ∈ ch ∧ spid ∈ c.spids

/-- The function does not fail for the main values nor for any perturbed ones. -/
def Evaluates (f : List (Option V) → Res V) (n : Nat) (ch : List (Option (Plane V F))) : Prop :=
  (∃ v, f (ch.map mainVal) = .ok v) ∧ ∀ spid, Depends ch spid → ∀ k < n, ∃ v, f (ch.map (pertVal spid k)) = .ok v

/-- A child result with as many planes as its dimensions say; one plane only if it has no dimensions. -/
def ResWf (c : ChildRes V F) : Prop :=
  c.planes.length = c.dims.foldr (· * ·) 1 ∧ c.planes ≠ [] ∧ (c.planes.length = 1 → c.dims = [])

/-- Plane `i` of a child; that of a scalar is used for all planes. -/
def planeOf [Inhabited V] (i : Nat) (c : ChildRes V F) : Plane V F := c.planes.getD (if c.dims = [] then 0 else i) (failPlane none)

/-- A child's plane as an argument of the function: not there if it is a failure or has no value. -/
def argOf (c : Plane V F) : Option (Plane V F) :=
  match c.fail, c.value with
  | none, some _ => some c
  | _, _ => none

/-- All failures of the children. -/
def failsOf (ch : List (Plane V F)) : List F := ch.flatMap fun c => c.fail.getD []

/-- Values of the children pass the test of shapes. -/
def ValuesFit (compat : V → Bool) (ch : List (Plane V F)) : Prop := ∀ c ∈ ch, c.fail = none → ∀ v, c.value = some v → compat v = true

/-- Not all arguments are there and the function cannot do without the missing ones. -/
def Lacking (allowMissing : Bool) (args : List (Option (Plane V F))) : Prop :=
  none ∈ args ∧ ((∀ a ∈ args, a = none) ∨ allowMissing = false)

end Verif.Func
