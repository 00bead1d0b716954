/-!
# Finite maps as association lists

Stands for `std::map` and `hash_map`: at most one entry per key is ever created by `set`.  The order of
the entries is the (unspecified) iteration order.
-/
namespace Verif.Assoc
variable {α β : Type} [DecidableEq α]

/-- `find`. -/
def find (m : List (α × β)) (k : α) : Option β :=
  match m with
  | [] => none
  | (k', v) :: m => if k' = k then some v else find m k

/-- `m[k] = v`. -/
def set (m : List (α × β)) (k : α) (v : β) : List (α × β) :=
  match m with
  | [] => [(k, v)]
  | (k', v') :: m => if k' = k then (k, v) :: m else (k', v') :: set m k v

/-- `erase(k)`. -/
def erase (m : List (α × β)) (k : α) : List (α × β) :=
  match m with
  | [] => []
  | (k', v') :: m => if k' = k then m else (k', v') :: erase m k

/-- The keys. -/
def keys (m : List (α × β)) : List α := m.map (·.1)

end Verif.Assoc
