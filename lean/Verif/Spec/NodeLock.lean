import Verif.Model.NodeLock
/-! # Specification of threads at one node (C168–C170) -/
namespace Verif.NodeLock

/-- The thread is executing the node: it neither waits for its turn nor is done. -/
def Running : Pc → Prop
  | .wantState | .check | .checkStopped | .checkRelock | .body | .bodyOut | .bodyRelock | .wantExec2 | .finish | .finStopped | .finRelock => True
  | _ => False

/-- The thread reads or changes the cache: in `execute` while checking it and storing into it, in `holdCache` and `clearCache`. -/
def UsesCache : Pc → Prop
  | .check | .finish | .hHold => True
  | _ => False

/-- The thread reads or changes the node's state. -/
def UsesState : Pc → Prop
  | .check | .body | .finish | .sHold => True
  | _ => False

/-- States some schedule of any number of threads leads to. -/
def Reachable (s : St) : Prop := ∃ l, run init l = some s

end Verif.NodeLock
