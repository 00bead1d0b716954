import Verif.Model.MTQueue
/-! # Threaded channels: what is meant (C103 - C107) -/
namespace Verif.MTQueue

/-- The events whose posting returned normally, in order. -/
def postedOf (log : List (Ret E X)) : List E := log.filterMap fun r => match r with | .posted e => some e | _ => none

/-- The events the application got, in order. -/
def gotOf (log : List (Ret E X)) : List E := log.filterMap fun r => match r with | .got e => some e | _ => none

/-- The errors thrown to the application, in order. -/
def thrownOf (log : List (Ret E X)) : List X := log.flatMap fun r => match r with | .thrown l => l | _ => []

/-- The events a step gives to the remote channel. -/
def given (s : St E X) : Act E X → List E
  | .worker _ => (match s.w with | .posting e => [e] | _ => [])
  | _ => []

/-- The events a step fetches from the remote channel. -/
def yielded (s : St E X) : Act E X → List E
  | .worker v => (match s.w, v.fetch.outcome with | .fetch, .ok (.event e) => [e] | _, _ => [])
  | _ => []

/-- The exceptions the remote channel throws in a step. -/
def threw (s : St E X) : Act E X → List X
  | .worker v =>
    (match s.w with
    | .start => (match v.init.outcome with | .error x => [x] | _ => [])
    | .posting _ => (match v.post.outcome with | .error x => [x] | _ => [])
    | .fetch => (match v.fetch.outcome with | .error x => [x] | _ => [])
    | _ => [])
  | _ => []

/-- All over a run. -/
def over (f : St E X → Act E X → List A) (size : Nat) (s : St E X) : List (Act E X) → List A
  | [] => []
  | a :: l => f s a ++ over f size (step size s a) l

/-- The exception the worker has caught and is about to put on the list. -/
def caught : WPc E X → List X
  | .relock (some x) => [x]
  | _ => []

/-- The event that is being given to the remote channel. -/
def inFlight : WPc E X → List E
  | .posting e => [e]
  | _ => []

/-- A state that can be reached. -/
def Reachable (size : Nat) (s : St E X) : Prop := ∃ acts, s = run size St.init acts

/-- The remote channel does not close by itself. -/
def Env.keepsOpen (v : Env E X) : Prop := v.init.closes = false ∧ v.post.closes = false ∧ v.fetch.closes = false

/-- The remote channel returns an event, WAIT, or an exception. -/
def Env.sane (v : Env E X) : Prop := v.fetch.outcome ≠ .ok .other

/-- The remote channel does not throw. -/
def Env.silent (v : Env E X) : Prop := v.init.outcome = .ok () ∧ v.post.outcome = .ok () ∧ ∀ x, v.fetch.outcome ≠ .error x

/-- A run in which the application posts, fetches and flushes, and the remote channel stays open. -/
def OpenAct : Act E X → Prop
  | .app .close => False
  | .app .abort => False
  | .worker v => v.keepsOpen ∧ v.sane
  | _ => True

/-- A state that can be reached while that is so. -/
def OpenReachable (size : Nat) (s : St E X) : Prop := ∃ acts, (∀ a ∈ acts, OpenAct a) ∧ s = run size St.init acts

/-- The application takes `n` steps. -/
def apply (size : Nat) (a : App E X) : Nat → St E X → St E X
  | 0, s => s
  | n + 1, s => apply size a n (mstep size a s)

/-- The worker takes `n` steps; `v` says what the remote channel does. -/
def work (size : Nat) (v : Nat → Env E X) : Nat → St E X → St E X
  | 0, s => s
  | n + 1, s => work size (fun k => v (k + 1)) n (wstep size (v 0) s)

/-- The application is posting or flushing. -/
def Sends : MPc E X → Bool
  | .want (.post0 _) | .want (.post1 _) | .asleep (.post0 _) | .asleep (.post1 _) => true
  | .want (.flush0 none) | .want (.flush1 none) | .asleep (.flush0 none) | .asleep (.flush1 none) => true
  | _ => false

/-- What may happen while the remote channel throws no exceptions. -/
def SilentAct : Act E X → Prop
  | .worker v => v.silent
  | _ => True

/-- The application waits for an event and the worker for the remote channel. -/
def Waiting (s : St E X) : Prop := (∃ f, s.m = .asleep (.get1 f)) ∧ s.w = .asleep .idle ∧ s.get = [] ∧ s.err = []

/-- Whatever happens, the call the application is in does not end. -/
def Hangs (size : Nat) (s : St E X) : Prop := ∀ acts : List (Act E X), (run size s acts).m ≠ .idle

/-- Both threads sleep: nothing happens any more, unless one is woken up without cause. -/
def Stuck (size : Nat) (s : St E X) : Prop := ∀ acts : List (Act E X), (∀ a ∈ acts, a ≠ .spurious) → run size s acts = s

end Verif.MTQueue
