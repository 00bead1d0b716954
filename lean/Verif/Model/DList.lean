import Verif.Model.Outcome
import Mathlib.Data.List.Defs
/-!
# Lists (DMI/src/List.h, List.cc)

The items are elements of an arbitrary type `V` (an object reference, possibly empty).  An iterator is a
position between 0 (`begin()`) and the length (`end()`); a reverse iterator `rbegin()+k` has base
`end()-k`.  The mutex and the locking of the item references are not modelled.
-/
namespace Verif.DList
variable {V : Type}

/-- `while( n<0 && riter != rend ) ++n,++riter;` (List.cc:67-68, 97-98): `left` is the distance of `riter`
from `rend`, so `left` is also the position of its base. -/
def backLoop (n : Int) : Nat → Int × Nat
  | 0 => (n, 0)
  | left + 1 => if n < 0 then backLoop (n + 1) left else (n, left + 1)

/-- `while( n>0 && iter != end ) --n,++iter;` (List.cc:105-106) from position `k`, `left` before the end. -/
def fwdLoop (n : Int) (k : Nat) : Nat → Int × Nat
  | 0 => (n, k)
  | left + 1 => if n > 0 then fwdLoop (n - 1) (k + 1) left else (n, k)

/-- The checked loop of the read-only lookup (List.cc:75-80): `n` steps from position `k`; incrementing
`end()` is undefined, reaching `end()` is an exception. -/
def constLoop (size : Nat) : Nat → Nat → Res Nat
  | 0, k => .ok k
  | n + 1, k => if k ≥ size then .ub else if k + 1 = size then .err else constLoop size n (k + 1)

/-- `List::applyIndexConst` (List.cc:61-83). -/
def applyIndexConst (size : Nat) (n : Int) : Res Nat :=
  if n < 0 then
    let (n', base) := backLoop (n + 1) size
    if n' ≠ 0 then .err else .ok base
  else constLoop size n.toNat 0

/-- `List::applyIndex` (List.cc:89-110). -/
def applyIndex (size : Nat) (n : Int) (inserting : Bool) : Res Nat :=
  if n < 0 then
    let (n', base) := backLoop (if inserting then n + 1 else n) size
    if n' ≠ 0 then .err else .ok base
  else
    let (n', pos) := fwdLoop n 0 size
    if n' ≠ 0 ∨ (!inserting && pos = size) then .err else .ok pos

/-- Dereferencing an iterator. -/
def deref (l : List V) (k : Nat) : Res V :=
  match l[k]? with
  | some v => .ok v
  | none => .ub

/-- `List::get` (List.cc:147-151). -/
def get (l : List V) (n : Int) : Res V := do
  let k ← applyIndexConst l.length n
  deref l k

/-- `List::put` (List.cc:112-126); with `replace` the item is overwritten, else inserted before. -/
def put (l : List V) (n : Int) (v : V) (replace : Bool) : Res (List V) := do
  let k ← applyIndex l.length n (!replace)
  if replace then
    if k < l.length then pure (l.set k v) else .ub
  else pure (l.insertIdx k v)

/-- `List::remove` (List.cc:136-145). -/
def remove (l : List V) (n : Int) : Res (V × List V) := do
  let k ← applyIndex l.length n false
  let v ← deref l k
  pure (v, l.eraseIdx k)

/-- `List::append` of a different list (List.cc:128-134). -/
def append (l other : List V) : List V := other.foldl (fun l v => l ++ [v]) l

/-- `list.append(list)` (List.cc:132-133): the loop reads the list it extends.  At most `fuel` rounds;
`none` if the loop has not ended by then. -/
def appendSelf (l : List V) (k : Nat) : Nat → Option (List V)
  | 0 => none
  | fuel + 1 =>
    match l[k]? with
    | none => some l
    | some v => appendSelf (l ++ [v]) (k + 1) fuel

/-- Container access with one index (List.cc:274-296): `ok none` is "no such item" (append allowed). -/
def getInfo (l : List V) (n : Int) : Res (Option V) :=
  if n = l.length then .ok none
  else do
    let v ← get l n
    pure (some v)

/-- Editing calls. -/
inductive Op (V : Type) where
  | put (n : Int) (v : V)
  | insert (n : Int) (v : V)
  | append (other : List V)
  | remove (n : Int)

/-- One call: the list afterwards and whether it succeeded; undefined behaviour is kept apart. -/
def step (l : List V) : Op V → Res (List V × Bool)
  | .put n v => match put l n v true with | .ok l' => .ok (l', true) | .err => .ok (l, false) | .ub => .ub
  | .insert n v => match put l n v false with | .ok l' => .ok (l', true) | .err => .ok (l, false) | .ub => .ub
  | .append o => .ok (append l o, true)
  | .remove n => match remove l n with | .ok (_, l') => .ok (l', true) | .err => .ok (l, false) | .ub => .ub

/-- A history of calls. -/
def run (l : List V) : List (Op V) → Res (List V)
  | [] => .ok l
  | o :: os => match step l o with | .ok (l', _) => run l' os | .err => .err | .ub => .ub

end Verif.DList
