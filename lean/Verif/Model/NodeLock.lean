import Verif.Model.Outcome
/-!
# Several threads at one node

(MEQ/src/Node.cc: `execute`, `exitExecute`, `setExecState`, `holdCache`, `clearCache`, `setState`, `getSyncState`, `setBreakpoint`.)
A node has two mutexes, that of `execCond()` and `stateMutex()`, both recursive (TimBase/src/Thread/Mutex.h:314-321), so a thread may
take again what it has; and the flag `executing_`.  One step is one thread going on to the next place where it takes or gives up a
mutex.  What a thread does in between (children, `getResult`, breakpoints) ends.
-/
namespace Verif.NodeLock

/-- Where a thread is.  Outside; in `execute`: about to take the mutex of `execCond` (931, or 938 after waking), asleep on it (938),
about to take the state mutex (947), checking the cache with both (950-981), stopped at a breakpoint there and about to take the
state mutex again (1270, 1272), evaluating with the state mutex (982-1149), without it while polling or stopped (1334-1344, 1268) and
about to take it again, about to take the mutex of `execCond` again (1015, 1043, 1051, 1150, 1183 or exitExecute, Node.h:812), caching
the result with both, stopped there and about to take the state mutex, done (`executing_` cleared, Node.h:813) with both, with one;
in `holdCache` or `clearCache` (484, 745): about to take the mutex, with it; in `setState`, `getSyncState`, `setBreakpoint` or
`clearBreakpoint` (370, 435, 1201, 1216): about to take the mutex, with it. -/
inductive Pc where
  | idle
  | wantExec | waiting | wantState
  | check | checkStopped | checkRelock
  | body | bodyOut | bodyRelock
  | wantExec2
  | finish | finStopped | finRelock
  | done | doneE | doneS
  | hWant | hHold
  | sWant | sHold
  deriving DecidableEq, Repr

/-- What a thread does next, where there is a choice: start a call; go on; return from the cache (977-980, 959-960); stop at a breakpoint;
give up the state mutex while polling; wake up for no reason; give up the mutexes in the other order. -/
inductive Act where
  | callExecute | callHold | callState
  | go | hit | stop | out | wake | alt
  deriving DecidableEq, Repr

/-- Owners of the two mutexes, `executing_`, and the threads. -/
structure St where
  exec : Option Nat
  state : Option Nat
  executing : Bool
  pcs : Nat → Pc

/-- The state at the start. -/
def init : St := ⟨none, none, false, fun _ => .idle⟩

/-- Thread `i` at a new place. -/
def put (f : Nat → Pc) (i : Nat) (p : Pc) : Nat → Pc := fun j => if j = i then p else f j

/-- `broadcast` (Node.h:814). -/
def wakeAll (f : Nat → Pc) : Nat → Pc := fun j => if f j = .waiting then .wantExec else f j

/-- Taking the mutex of `execCond`, if it is free. -/
def takeExec (s : St) (i : Nat) (p : Pc) : Option St := if s.exec = none then some ⟨some i, s.state, s.executing, put s.pcs i p⟩ else none

/-- Taking the state mutex, if it is free. -/
def takeState (s : St) (i : Nat) (p : Pc) : Option St := if s.state = none then some ⟨s.exec, some i, s.executing, put s.pcs i p⟩ else none

/-- One step of thread `i`; `none` if it cannot take it. -/
def step (s : St) (i : Nat) (a : Act) : Option St :=
  match s.pcs i, a with
  | .idle, .callExecute => some ⟨s.exec, s.state, s.executing, put s.pcs i .wantExec⟩
  | .idle, .callHold => some ⟨s.exec, s.state, s.executing, put s.pcs i .hWant⟩
  | .idle, .callState => some ⟨s.exec, s.state, s.executing, put s.pcs i .sWant⟩
  -- Node.cc:931-941: waiting gives the mutex up again
  | .wantExec, .go =>
    if s.exec = none then
      (if s.executing then some ⟨none, s.state, true, put s.pcs i .waiting⟩ else some ⟨some i, s.state, true, put s.pcs i .wantState⟩)
    else none
  | .waiting, .wake => some ⟨s.exec, s.state, s.executing, put s.pcs i .wantExec⟩
  | .wantState, .go => takeState s i .check
  | .check, .go => some ⟨none, s.state, s.executing, put s.pcs i .body⟩                 -- 981
  | .check, .hit => some ⟨s.exec, s.state, s.executing, put s.pcs i .finish⟩
  | .check, .stop => some ⟨s.exec, none, s.executing, put s.pcs i .checkStopped⟩        -- 1268
  | .checkStopped, .go => some ⟨s.exec, s.state, s.executing, put s.pcs i .checkRelock⟩
  | .checkRelock, .go => takeState s i .check                                           -- 1271
  | .body, .go => some ⟨s.exec, s.state, s.executing, put s.pcs i .wantExec2⟩
  | .body, .out => some ⟨s.exec, none, s.executing, put s.pcs i .bodyOut⟩
  | .bodyOut, .go => some ⟨s.exec, s.state, s.executing, put s.pcs i .bodyRelock⟩
  | .bodyRelock, .go => takeState s i .body
  | .wantExec2, .go => takeExec s i .finish
  | .finish, .stop => some ⟨s.exec, none, s.executing, put s.pcs i .finStopped⟩
  | .finStopped, .go => some ⟨s.exec, s.state, s.executing, put s.pcs i .finRelock⟩
  | .finRelock, .go => takeState s i .finish
  -- Node.h:812-814
  | .finish, .go => some ⟨s.exec, s.state, false, put (wakeAll s.pcs) i .done⟩
  | .done, .go => some ⟨s.exec, none, s.executing, put s.pcs i .doneE⟩
  | .done, .alt => some ⟨none, s.state, s.executing, put s.pcs i .doneS⟩
  | .doneE, .go => some ⟨none, s.state, s.executing, put s.pcs i .idle⟩
  | .doneS, .go => some ⟨s.exec, none, s.executing, put s.pcs i .idle⟩
  | .hWant, .go => takeExec s i .hHold
  | .hHold, .go => some ⟨none, s.state, s.executing, put s.pcs i .idle⟩
  | .sWant, .go => takeState s i .sHold
  | .sHold, .go => some ⟨s.exec, none, s.executing, put s.pcs i .idle⟩
  | _, _ => none

/-- A schedule: which thread does what. -/
def run (s : St) : List (Nat × Act) → Option St
  | [] => some s
  | (i, a) :: l => (step s i a).bind fun s' => run s' l

/-! ## The control status

`setBreakpoint` and `clearCache` change the control status under different mutexes. -/

/-- A thread that changes the status: before reading it, having read it, done. -/
inductive RPc where
  | start
  | read (flag cached : Bool)
  | ended
  deriving DecidableEq, Repr

/-- The bits `CS_BREAKPOINT` and `CS_CACHED` of `control_status_`, `breakpoints_`, and the two threads. -/
structure Sh where
  flag : Bool
  cached : Bool
  mask : Nat
  s : RPc
  h : RPc
  deriving DecidableEq, Repr

/-- A step of the thread in `setBreakpoint(bp,false)` (Node.cc:1199-1212): the mask and reading the status (1208-1209), writing it. -/
def stepS (bp : Nat) (x : Sh) : Sh :=
  match x.s with
  | .start => ⟨x.flag, x.cached, x.mask ||| bp, .read (x.mask ||| bp != 0) x.cached, x.h⟩
  | .read f c => ⟨f, c, x.mask, .ended, x.h⟩
  | .ended => x

/-- A step of the thread in `clearCache` (Node.cc:481-490): reading the status, and writing it if the bit is set. -/
def stepH (x : Sh) : Sh :=
  match x.h with
  | .start => if x.cached then ⟨x.flag, x.cached, x.mask, x.s, .read x.flag false⟩ else ⟨x.flag, x.cached, x.mask, x.s, .ended⟩
  | .read f c => ⟨f, c, x.mask, x.s, .ended⟩
  | .ended => x

/-- A schedule of the two: `true` for the first. -/
def runB (bp : Nat) (x : Sh) : List Bool → Sh
  | [] => x
  | true :: l => runB bp (stepS bp x) l
  | false :: l => runB bp (stepH x) l

end Verif.NodeLock
