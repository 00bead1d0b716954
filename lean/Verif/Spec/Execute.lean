import Verif.Model.Execute
/-! # Specification of one execution (C171–C173) -/
namespace Verif.Execute

/-- What the functions called promise: a result comes with a failure, or a cached one; a code that says "aborted" means that the
abort flag is raised; commands of a rider give no results that fail, are missing or are to be waited for. -/
structure Sane (w : World) : Prop where
  cached : ∀ c r, w.cache = .ok (some (c, r)) → r ≠ none ∧ c.updated = false ∧ c.wait = false ∧ c.abort = false
  pollFail : ∀ c r, w.poll = .ok (c, r) → c.fail = true → r ≠ none
  pollAbort : ∀ c r, w.poll = .ok (c, r) → c.abort = true → w.abort2 = true
  getAbort : ∀ c r, w.get = .ok (c, r) → c.abort = true → w.abort3 = true ∧ c.wait = false
  discoverAbort : ∀ c r, w.discover = .ok (c, r) → (c.abort = true → w.abort3 = true) ∧ c.wait = false
  rider : ∀ c r, w.rider = some (.ok (c, r)) → c.fail = false ∧ c.missing = false ∧ c.wait = false ∧ c.abort = false

/-- Something the execution called threw. -/
def Threw (w : World) (calls : List Call) : Prop :=
  (Call.checkCache ∈ calls ∧ w.cache = .throws) ∨ (Call.rider ∈ calls ∧ w.rider = some .throws) ∨ (Call.poll ∈ calls ∧ w.poll = .throws) ∨
    (Call.get ∈ calls ∧ w.get = .throws) ∨ (Call.discover ∈ calls ∧ w.discover = .throws)

/-- The status that goes with an execution that was not answered from the cache: aborted executions count as empty. -/
def StatusFor (w : World) (c : Code) : Nat :=
  if c.abort then 3 else if c.wait then 2 else if c.fail then 5 else if c.missing then 4 else if w.active && w.hasCells then 1 else 3

end Verif.Execute
