import Verif.Model.SolveLoop
/-!
# The solver's worker threads

(MeqNodes/src/Solver.cc:1555-1754.)  The main thread and `N` workers share the subsolvers; a shared counter says which one is next.
Two mutexes with condition variables: `worker_cond_` (`wl`) and `worker_exit_cond_` (`el`).  One step is one thread going on to the
next place where it takes or gives up a mutex, or one turn of `processSolversLoop`; what a thread does while it holds a mutex is seen
by no other that takes the same mutex.  A fit may throw.  Not modelled: the flushing of tables (`flushTablesInWorkerThread` is
called nowhere), threads that die of anything but a `std::exception`.
-/
namespace Verif.SolveWorkers


/-- Where a worker is in `workerLoop` (Solver.cc:1713-1754): asleep on `worker_cond_` (1721), about to take its mutex (1715, 1721 or
1751), in `processSolversLoop` holding it (1670), fitting (1691), done with that and about to take the mutex (1696 or 1701), about
to take the exit mutex (1740), ended (1724). -/
inductive WPc (X : Type) where
  | asleep
  | relock
  | loop
  | solving (j : Nat)
  | solved (j : Nat) (r : Except X Bool)
  | leaving
  | stopped

/-- A worker: where it is, and its `wt_active_`. -/
structure W (X : Type) where
  pc : WPc X
  active : Bool

/-- Where the main thread is: outside; in `activateSubsolverWorkers` about to take the first mutex (Solver.cc:1609), the second (1610);
in `processSolversLoop`; after it (1622); asleep on `worker_exit_cond_` (1626), and awake again, about to take its mutex. -/
inductive MPc (X : Type) where
  | idle
  | wantW
  | wantE
  | loop
  | solving (j : Nat)
  | solved (j : Nat) (r : Except X Bool)
  | toWait
  | asleep
  | relock

/-- What `activateSubsolverWorkers` ends with: normally, with `num_conv_`, or by throwing. -/
inductive Ret (X : Type) where
  | ok (conv : Nat)
  | thrown (l : List X)
  deriving DecidableEq

/-- State: the mutexes (taken or not), `wt_num_ss_`, `wt_solve_loop_`, `num_conv_`, `wt_exceptions_`, the negation of `mt_solve_`, the
subsolvers, what the fits give, the threads, and how the calls so far ended. -/
structure St (S X : Type) where
  wl : Bool
  el : Bool
  num : Nat
  loop : Bool
  conv : Nat
  exc : List X
  stop : Bool
  subs : List (SolveLoop.Sub S)
  fit : Nat → Except X (S × Bool)
  w : List (W X)
  m : MPc X
  rets : List (Ret X)

variable {S X : Type}

/-- The state after `startWorkerThreads` with `N` workers (Solver.cc:1555-1575). -/
def St.init (N : Nat) (fit : Nat → Except X (S × Bool)) : St S X :=
  ⟨false, false, 0, false, 0, [], false, [], fit, List.replicate N ⟨.relock, false⟩, .idle, []⟩

/-- `Subsolver::solve` (Solver.cc:1354-1447), which may throw in the fit. -/
def trySolve (zero : S) (fit : Nat → Except X (S × Bool)) (j : Nat) (s : SolveLoop.Sub S) : SolveLoop.Sub S × Except X Bool :=
  if s.converged || s.neq == 0 then ({ s with sol := zero }, .ok true)
  else match fit j with
    | .ok (x, r) => (⟨r, 0, x⟩, .ok r)
    | .error e => ({ s with neq := 0, sol := zero }, .error e)

/-- A worker woken by a broadcast on `worker_cond_`. -/
def rouse (x : W X) : W X :=
  match x.pc with
  | .asleep => { x with pc := .relock }
  | _ => x

/-- Worker `i` marks itself as inactive and wakes the main thread if it was the last (Solver.cc:1740-1748). -/
def leave (s : St S X) (i : Nat) : St S X :=
  let w := s.w.set i ⟨.relock, false⟩
  { s with w := w
           m := if w.all (!·.active) then (match s.m with | .asleep => .relock | m => m) else s.m }

/-- A step of worker `i`. -/
def wstep (zero : S) (s : St S X) (i : Nat) : St S X :=
  match s.w[i]? with
  | none => s
  | some x =>
    match x.pc with
    | .asleep => s
    | .stopped => s
    | .relock =>
      -- Solver.cc:1720-1735
      if s.wl then s
      else if s.stop then { s with w := s.w.set i { x with pc := .stopped } }
      else if !x.active then { s with w := s.w.set i { x with pc := .asleep } }
      else if s.loop then { s with wl := true, w := s.w.set i { x with pc := .loop } }
      else { s with w := s.w.set i { x with pc := .leaving } }
    | .loop =>
      -- Solver.cc:1670-1686, 1709, 1736-1739
      match s.subs[s.num]? with
      | some sub =>
        if sub.converged then { s with num := s.num + 1, conv := s.conv + 1, subs := s.subs.set s.num { sub with sol := zero } }
        else { s with num := s.num + 1, wl := false, w := s.w.set i { x with pc := .solving s.num } }
      | none => { s with loop := false, wl := false, w := s.w.set i { x with pc := .leaving } }
    | .solving j =>
      -- Solver.cc:1689-1694
      match s.subs[j]? with
      | some sub =>
        let r := trySolve zero s.fit j sub
        { s with subs := s.subs.set j r.1, w := s.w.set i { x with pc := .solved j r.2 } }
      | none => s
    | .solved _ r =>
      -- Solver.cc:1694-1709
      if s.wl then s
      else match r with
        | .ok b => { s with wl := true, conv := if b then s.conv + 1 else s.conv, w := s.w.set i { x with pc := .loop } }
        | .error e => { s with exc := s.exc ++ [e], loop := false, w := s.w.set i { x with pc := .leaving } }
    | .leaving => if s.el then s else leave s i

/-- A step of the main thread in `activateSubsolverWorkers` (Solver.cc:1606-1640). -/
def mstep (zero : S) (s : St S X) : St S X :=
  match s.m with
  | .idle => s
  | .wantW => if s.wl then s else { s with wl := true, m := .wantE }
  | .wantE =>
    if s.el then s
    else { s with el := true, num := 0, exc := [], loop := true, conv := 0, w := s.w.map fun x => { rouse x with active := true }, m := .loop }
  | .loop =>
    match s.subs[s.num]? with
    | some sub =>
      if sub.converged then { s with num := s.num + 1, conv := s.conv + 1, subs := s.subs.set s.num { sub with sol := zero } }
      else { s with num := s.num + 1, wl := false, m := .solving s.num }
    | none => { s with loop := false, wl := false, m := .toWait }
  | .solving j =>
    match s.subs[j]? with
    | some sub =>
      let r := trySolve zero s.fit j sub
      { s with subs := s.subs.set j r.1, m := .solved j r.2 }
    | none => s
  | .solved _ r =>
    if s.wl then s
    else match r with
      | .ok b => { s with wl := true, conv := if b then s.conv + 1 else s.conv, m := .loop }
      | .error e => { s with exc := s.exc ++ [e], loop := false, m := .toWait }
  | .toWait => { s with el := false, m := .asleep }
  | .asleep => s
  | .relock =>
    if s.el then s
    else if s.w.any (·.active) then { s with m := .asleep }
    else { s with m := .idle, rets := s.rets ++ [if s.exc.isEmpty then .ok s.conv else .thrown s.exc] }

/-- What may happen: the main thread calls `activateSubsolverWorkers` (Solver.cc:1092) with its subsolvers in some state and the fits
about to give something; a thread makes a step; a thread wakes for no reason; the main thread tells the workers to stop
(1577-1585). -/
inductive Act (S X : Type) where
  | call (subs : List (SolveLoop.Sub S)) (fit : Nat → Except X (S × Bool))
  | main
  | worker (i : Nat)
  | spurious (i : Nat)
  | spuriousMain
  | stop

/-- One step. -/
def step (zero : S) (s : St S X) : Act S X → St S X
  | .call subs fit =>
    match s.m with
    | .idle => if s.stop then s else { s with subs := subs, fit := fit, m := .wantW }
    | _ => s
  | .main => mstep zero s
  | .worker i => wstep zero s i
  | .spurious i => match s.w[i]? with | some x => { s with w := s.w.set i (rouse x) } | none => s
  | .spuriousMain => match s.m with | .asleep => { s with m := .relock } | _ => s
  | .stop =>
    match s.m with
    | .idle => if s.wl then s else { s with stop := true, w := s.w.map rouse }
    | _ => s

/-- A schedule. -/
def run (zero : S) (s : St S X) (l : List (Act S X)) : St S X := l.foldl (step zero) s

end Verif.SolveWorkers
