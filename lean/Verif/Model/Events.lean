import Verif.Model.Hiid
/-!
# Event sources of the dispatcher: timeouts, file descriptors, signals
(OCTOPUSSY/src/Dispatcher.cc:592-1037)

Simplifications: a worker is a number; time stamps are natural numbers (microseconds), the zero time
stamp that stands for "no timeout" is `none`; message priorities are left out, and so is the dequeueing
of undelivered event messages (see `Verif.Model.WPQueue`).  Mutexes are not modelled.
-/
namespace Verif.Events

/-! ## Timeouts -/

/-- `Dispatcher::TimeoutInfo` (Dispatcher.h:260-269). -/
structure Timeout where
  wp : Nat
  id : List Int
  next : Nat
  period : Nat
  oneshot : Bool
  deriving DecidableEq, Repr

/-- The list `timeouts` and the time `next_to` of the nearest one (Dispatcher.h:340-350). -/
structure TState where
  list : List Timeout
  nextTo : Option Nat
  deriving DecidableEq, Repr

/-- `Dispatcher::addTimeout` (Dispatcher.cc:592-615) called at time `now`; `none` is the exception for
a null period. -/
def addTimeout (s : TState) (now wp period : Nat) (id : List Int) (oneshot : Bool) : Option TState :=
  if period = 0 then none
  else
    let ti : Timeout := ⟨wp, id, now + period, period, oneshot⟩
    let nextTo := match s.nextTo with
      | none => some ti.next
      | some n => if ti.next < n then some ti.next else some n
    some ⟨ti :: s.list, nextTo⟩

/-- The loop of `Dispatcher::removeTimeout` (Dispatcher.cc:673-686): erase the first match. -/
def removeTimeoutLoop (wp : Nat) (id : List Int) : List Timeout → List Timeout × Bool
  | [] => ([], false)
  | t :: rest =>
    if t.wp = wp && Hiid.matches_ false id t.id then (rest, true)
    else
      let r := removeTimeoutLoop wp id rest
      (t :: r.1, r.2)

/-- `Dispatcher::removeTimeout` (Dispatcher.cc:670-687); `next_to` is left alone. -/
def removeTimeout (s : TState) (wp : Nat) (id : List Int) : TState × Bool :=
  let r := removeTimeoutLoop wp id s.list
  (⟨r.1, s.nextTo⟩, r.2)

/-- The timeouts part of `Dispatcher::detach` (Dispatcher.cc:199-203). -/
def detachTimeouts (s : TState) (wp : Nat) : TState := ⟨s.list.filter (fun t => t.wp ≠ wp), s.nextTo⟩

/-- Minimum with "none" as no timeout (Dispatcher.cc:896-897). -/
def earlier (n : Option Nat) (t : Nat) : Option Nat :=
  match n with
  | none => some t
  | some m => if t < m then some t else some m

/-- The loop over timeouts in `Dispatcher::checkEvents` (Dispatcher.cc:883-899): remaining timeouts,
new `next_to`, fired ones in order. -/
def checkLoop (now : Nat) : List Timeout → Option Nat → List Timeout × Option Nat × List Timeout
  | [], nt => ([], nt, [])
  | t :: rest, nt =>
    if t.next ≤ now then
      if t.oneshot then
        let r := checkLoop now rest nt
        (r.1, r.2.1, t :: r.2.2)
      else
        let t' := { t with next := now + t.period }
        let r := checkLoop now rest (earlier nt t'.next)
        (t' :: r.1, r.2.1, t :: r.2.2)
    else
      let r := checkLoop now rest (earlier nt t.next)
      (t :: r.1, r.2.1, r.2.2)

/-- The timeouts part of `Dispatcher::checkEvents` (Dispatcher.cc:876-900). -/
def checkTimeouts (s : TState) (now : Nat) : TState × List Timeout :=
  match s.nextTo with
  | some n =>
    if n ≤ now then
      let r := checkLoop now s.list none
      (⟨r.1, r.2.1⟩, r.2.2)
    else (s, [])
  | none => (s, [])

/-- Calls concerning timeouts. -/
inductive TOp where
  | add (now wp period : Nat) (id : List Int) (oneshot : Bool)
  | remove (wp : Nat) (id : List Int)
  | detach (wp : Nat)
  | check (now : Nat)

/-- One call; failed calls change nothing. -/
def tstep (s : TState) : TOp → TState
  | .add now wp p id o => (addTimeout s now wp p id o).getD s
  | .remove wp id => (removeTimeout s wp id).1
  | .detach wp => detachTimeouts s wp
  | .check now => (checkTimeouts s now).1

/-- A history starting without timeouts. -/
def trun (ops : List TOp) : TState := ops.foldl tstep ⟨[], none⟩

/-! ## File descriptors -/

/-- Event flags are an `int` (Dispatcher.h:53-68). -/
abbrev Flags := BitVec 32

/-- `EV_FDALL` (Dispatcher.h:68): read 0x100, write 0x200, exception 0x400. -/
def evFdAll : Flags := 0x700#32

/-- `Dispatcher::InputInfo` (Dispatcher.h:271-281). -/
structure Input where
  wp : Nat
  fd : Int
  flags : Flags
  deriving DecidableEq, Repr

/-- Inputs and the descriptor sets given to `select`, one list per flag bit (Dispatcher.h:352-370). -/
structure IState where
  inputs : List Input
  watched : List (Int × Nat)

/-- `Dispatcher::rebuildInputs` (Dispatcher.cc:776-809): the pairs (fd, bit) for the bits 8 (read),
9 (write), 10 (exception). -/
def rebuild (l : List Input) : List (Int × Nat) :=
  l.flatMap fun i => ([8, 9, 10].filter fun b => i.flags.getLsbD b).map fun b => (i.fd, b)

/-- The search loop of `Dispatcher::addInput` (Dispatcher.cc:625-634). -/
def addInputLoop (wp : Nat) (fd : Int) (flags : Flags) : List Input → Option (List Input)
  | [] => none
  | i :: rest =>
    if i.wp = wp ∧ i.fd = fd then some ({ i with flags := flags ||| (i.flags &&& evFdAll) } :: rest)
    else (addInputLoop wp fd flags rest).map (i :: ·)

/-- `Dispatcher::addInput` (Dispatcher.cc:618-643); `none` is an exception. -/
def addInput (s : IState) (wp : Nat) (fd : Int) (flags : Flags) : Option IState :=
  if fd < 0 then none
  else if flags &&& evFdAll = 0 then none
  else
    let l := match addInputLoop wp fd flags s.inputs with
      | some l => l
      | none => ⟨wp, fd, flags⟩ :: s.inputs
    some ⟨l, rebuild l⟩

/-- The loop of `Dispatcher::removeInput` (Dispatcher.cc:695-715): only the first matching input is
changed, also when `fd < 0`, which is documented to remove everything. -/
def removeInputLoop (wp : Nat) (fd : Int) (flags : Flags) : List Input → Option (List Input)
  | [] => none
  | i :: rest =>
    if i.wp = wp ∧ (fd < 0 ∨ i.fd = fd) then
      let f := i.flags &&& ~~~flags
      if f = 0 then some rest else some ({ i with flags := f } :: rest)
    else (removeInputLoop wp fd flags rest).map (i :: ·)

/-- `Dispatcher::removeInput` (Dispatcher.cc:690-717). -/
def removeInput (s : IState) (wp : Nat) (fd : Int) (flags : Flags) : IState × Bool :=
  let flags := if fd < 0 then BitVec.allOnes 32 else flags
  match removeInputLoop wp fd flags s.inputs with
  | some l => (⟨l, rebuild l⟩, true)
  | none => (s, false)

/-- The inputs part of `Dispatcher::detach` (Dispatcher.cc:204, 786-787). -/
def detachInputs (s : IState) (wp : Nat) : IState :=
  let l := s.inputs.filter (fun i => i.wp ≠ wp)
  ⟨l, rebuild l⟩

/-- The loop over inputs in `Dispatcher::checkEvents` (Dispatcher.cc:921-970).  `ready fd b` says that
`select` reported descriptor `fd` in the set for bit `b`; as in `select`, only watched pairs can be
reported.  Result: remaining inputs, and (worker, fd, raised flags) for each event, in order. -/
def checkInputsLoop (ready : Int → Nat → Bool) : List Input → List Input × List (Nat × Int × List Nat)
  | [] => ([], [])
  | i :: rest =>
    let raised := [8, 9, 10].filter fun b => i.flags.getLsbD b && ready i.fd b
    let r := checkInputsLoop ready rest
    if raised ≠ [] then
      let ev := (i.wp, i.fd, raised)
      if i.flags.getLsbD 0 then (r.1, ev :: r.2) else (i :: r.1, ev :: r.2)
    else (i :: r.1, r.2)

/-- The inputs part of `Dispatcher::checkEvents` (Dispatcher.cc:904-973): one-shot inputs are erased
without rebuilding the descriptor sets. -/
def checkInputs (s : IState) (ready : Int → Nat → Bool) : IState × List (Nat × Int × List Nat) :=
  let r := checkInputsLoop (fun fd b => ready fd b && s.watched.contains (fd, b)) s.inputs
  (⟨r.1, s.watched⟩, r.2)

/-- Calls concerning inputs. -/
inductive IOp where
  | add (wp : Nat) (fd : Int) (flags : Flags)
  | remove (wp : Nat) (fd : Int) (flags : Flags)
  | detach (wp : Nat)

/-- One call; failed calls change nothing. -/
def istep (s : IState) : IOp → IState
  | .add wp fd f => (addInput s wp fd f).getD s
  | .remove wp fd f => (removeInput s wp fd f).1
  | .detach wp => detachInputs s wp

/-- A history starting without inputs. -/
def irun (ops : List IOp) : IState := ops.foldl istep ⟨[], []⟩

/-! ## Signals -/

/-- An entry of `signal_map` (Dispatcher.h:283-300). -/
structure Sig where
  signum : Nat
  wp : Nat
  flags : Flags
  deriving DecidableEq, Repr

/-- `Dispatcher::addSignal` (Dispatcher.cc:646-667) for a non-negative signal number.  If the worker
already has the signal, only the message priority changes. -/
def addSignal (l : List Sig) (wp signum : Nat) (flags : Flags) : List Sig :=
  if l.any (fun s => s.signum = signum && s.wp = wp) then l else l ++ [⟨signum, wp, flags⟩]

/-- `Dispatcher::removeSignal` (Dispatcher.cc:720-752); `none` stands for a negative signal number,
i.e. all signals. -/
def removeSignal (l : List Sig) (wp : Nat) (signum : Option Nat) : List Sig × Bool :=
  let p := fun (s : Sig) => s.wp = wp ∧ (signum = none ∨ signum = some s.signum)
  (l.filter (fun s => ¬ p s), l.any (fun s => p s))

/-- Calls concerning signals. -/
inductive SOp where
  | add (wp signum : Nat) (flags : Flags)
  | remove (wp : Nat) (signum : Option Nat)

/-- One call. -/
def sstep (l : List Sig) : SOp → List Sig
  | .add wp s f => addSignal l wp s f
  | .remove wp s => (removeSignal l wp s).1

/-- A history starting without signal handlers. -/
def srun (ops : List SOp) : List Sig := ops.foldl sstep []

end Verif.Events
