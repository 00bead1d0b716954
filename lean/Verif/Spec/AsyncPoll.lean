import Verif.Model.AsyncPoll
/-!
# What is to be said of asynchronous and background polls
-/
namespace Verif.AsyncPoll

/-- States that a new nursery can get to by steps that `ok` allows. -/
inductive Reach (ok : Poll → Act → Prop) : Poll → Prop where
  | init : Reach ok Poll.init
  | step {s s' : Poll} {a : Act} : Reach ok s → ok s a → step s a = some s' → Reach ok s'

/-- Any step. -/
def Any (_ : Poll) (_ : Act) : Prop := True

/-- Polls are never aborted. -/
def NoAbort (_ : Poll) (a : Act) : Prop := a ≠ .abort

/-- Polls may be aborted, but none is started while work orders of an earlier one are queued or being filled. -/
def Settled (s : Poll) (a : Act) : Prop := ∀ bg ch, a = .start bg ch → s.queue = [] ∧ s.running = []

/-- The work orders of the present poll: one for each child polled. -/
def ordered (s : Poll) : List Order := s.cur.map fun c => ⟨s.polls, c⟩

/-- Results handed out are those of the present poll, none twice, and when the caller is told that there are no more, of all the children. -/
def HandsOutAll (s : Poll) : Prop :=
  (∃ rest, (s.got ++ rest).Perm (ordered s)) ∧ (s.ended = true → s.got.Perm (ordered s))

/-- When `finishPoll` returns, all the children of the poll have been executed for it. -/
def WaitsForAll (s : Poll) : Prop := s.waited = true → s.filled.Perm (ordered s)

/-- The parent sleeps only while somebody can wake it: an order is being filled, or waits for a worker. -/
def SleepsSafely (s : Poll) : Prop := s.pc = .asleep ∨ s.pc = .fasleep → s.queue ≠ [] ∨ s.running ≠ []

/-- Steps within a poll: neither a start nor an abort, nor a call of `finishPoll`. -/
def Within (a : Act) : Prop := a ≠ .abort ∧ a ≠ .wait ∧ ∀ bg ch, a ≠ .start bg ch

end Verif.AsyncPoll
