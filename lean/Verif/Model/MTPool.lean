import Verif.Model.Outcome
/-!
# The worker pool (MEQ/src/MTPool.cc, MTPool.h)

Each step is one critical section under the brigade's lock, or one turn of the loop in `getWorkOrder` up to the point
where it returns or waits.  Waking and signalling are not modelled: a waiting thread may take its next turn at any time.
-/
namespace Verif.MTPool

/-- A work order: its identity, the nursery it belongs to (`none` for other kinds of order), its depth (MTPool.h:60-108). -/
structure WO where
  id : Nat
  client : Option Nat
  depth : Nat
  deriving DecidableEq, Repr

/-- `max_busy_`, `wo_queue_`, `nthr_`, `nidle_`, the states of `workers_` (`true` for IDLE), and the orders being executed
(MTPool.h:222-253). -/
structure Pool where
  maxBusy : Nat
  queue : List WO
  nthr : List Nat
  nidle : Nat
  workers : List Bool
  running : List WO
  deriving DecidableEq, Repr

/-- `workers_.push_back`: beyond the 128 reserved places (MTPool.cc:64) the vector moves and the pointers held by the
threads dangle. -/
def push (s : Pool) (idle : Bool) : Res Pool :=
  if 128 ≤ s.workers.length then .ub else .ok { s with workers := s.workers ++ [idle] }

/-- The constructor's loop (MTPool.cc:74-82). -/
def pushN : Nat → Pool → Res Pool
  | 0, s => .ok s
  | n + 1, s => (push s true).bind (pushN n)

/-- The constructor (MTPool.cc:62-84). -/
def new (nwork maxBusy : Nat) : Res Pool := pushN nwork ⟨maxBusy, [], List.replicate 100 0, nwork, [], []⟩

/-- `nthr_.resize(n,0)`. -/
def resize (l : List Nat) (n : Nat) : List Nat := l.take n ++ List.replicate (n - l.length) 0

/-- `join` (MTPool.cc:87-107). -/
def join (s : Pool) (idle : Bool) (depth : Nat) : Res Pool :=
  (push s idle).bind fun s =>
    if idle then .ok { s with nidle := s.nidle + 1 }
    else
      let l := if depth ≤ s.nthr.length then resize s.nthr (depth + 100) else s.nthr
      match l[depth]? with
      | none => .ub
      | some n => .ok { s with nthr := l.set depth (n + 1) }

/-- `placeWorkOrder` (MTPool.h:143-150). -/
def place (s : Pool) (w : WO) : Pool :=
  { s with queue := w :: s.queue, nthr := if s.nthr.length ≤ w.depth then resize s.nthr (w.depth + 100) else s.nthr }

/-- `awakenWorker` (MTPool.cc:139-170): a new worker starts idle. -/
def awaken (s : Pool) : Res Pool :=
  match s.queue with
  | [] => .ok s
  | w :: _ =>
    match s.nthr[w.depth]? with
    | none => .ub
    | some n =>
      if s.maxBusy ≤ n then .ok s
      else if s.nidle = 0 then (push s true).bind fun s => .ok { s with nidle := s.nidle + 1 }
      else .ok s

/-- A thread becomes idle. -/
def toIdle (s : Pool) (t : Nat) : Pool := { s with workers := s.workers.set t true, nidle := s.nidle + 1 }

/-- A thread stops being idle (MTPool.cc:244-251). -/
def toBusy (s : Pool) (t : Nat) : Pool := { s with workers := s.workers.set t false, nidle := s.nidle - 1 }

/-- Taking the order (MTPool.cc:273-278). -/
def take (s : Pool) (w : WO) (q : List WO) (n : Nat) : Res (Pool × Option WO) :=
  (awaken { s with queue := q, nthr := s.nthr.set w.depth (n + 1), running := s.running ++ [w] }).bind fun s => .ok (s, some w)

/-- One turn of `getWorkOrder` (MTPool.cc:204-281) by thread `t`; `none`: it returned 0 or is waiting. -/
def get (s : Pool) (t : Nat) (wait : Bool) (mindepth : Nat) : Res (Pool × Option WO) :=
  match s.workers[t]? with
  | none => .ok (s, none)
  | some idle =>
    match s.queue with
    | [] => .ok (if wait && !idle then toIdle s t else s, none)
    | w :: q =>
      if w.depth < mindepth then .ok (s, none)
      else
        match s.nthr[w.depth]? with
        | none => .ub
        | some n =>
          if idle then (if s.maxBusy ≤ n then .ok (s, none) else take (toBusy s t) w q n)
          else if s.maxBusy < n then .ok (if wait then toIdle s t else s, none)
          else take s w q n

/-- `finishWithWorkOrder` (MTPool.cc:285-296) of an order being executed. -/
def finish (s : Pool) (w : WO) : Res Pool :=
  if w ∈ s.running then
    match s.nthr[w.depth]? with
    | none => .ub
    | some n => .ok { s with nthr := s.nthr.set w.depth (n - 1), running := s.running.erase w }
  else .ok s

/-- `clearQueue` (MTPool.cc:298-309): the pool, and the orders taken out. -/
def clear (s : Pool) (c : Nat) : Pool × List WO :=
  ({ s with queue := s.queue.filter fun w => decide (w.client ≠ some c) }, s.queue.filter fun w => decide (w.client = some c))

/-- What threads do. -/
inductive Op where
  | place (w : WO)
  | awaken
  | get (t : Nat) (wait : Bool) (mindepth : Nat)
  | finish (w : WO)
  | clear (c : Nat)
  | join (idle : Bool) (depth : Nat)
  deriving DecidableEq, Repr

/-- A pool and what it has given out so far. -/
structure Run where
  pool : Pool
  handed : List WO
  cancelled : List WO
  deriving DecidableEq, Repr

/-- One step. -/
def step (r : Run) : Op → Res Run
  | .place w => .ok { r with pool := place r.pool w }
  | .awaken => (awaken r.pool).bind fun p => .ok { r with pool := p }
  | .get t wait m => (get r.pool t wait m).bind fun x => .ok { r with pool := x.1, handed := r.handed ++ x.2.toList }
  | .finish w => (finish r.pool w).bind fun p => .ok { r with pool := p }
  | .clear c => .ok { r with pool := (clear r.pool c).1, cancelled := r.cancelled ++ (clear r.pool c).2 }
  | .join i d => (join r.pool i d).bind fun p => .ok { r with pool := p }

/-- A history. -/
def runFrom (r : Run) : List Op → Res Run
  | [] => .ok r
  | op :: l => (step r op).bind fun r' => runFrom r' l

/-- A pool as the server sets it up: the threads, and the server's own thread joining at depth 0
(MTPool.cc:46-52, MeqServer.cc:1341). -/
def start (nwork maxBusy : Nat) : Res Run :=
  (new nwork maxBusy).bind fun p => (join p false 0).bind fun p => .ok ⟨p, [], []⟩

end Verif.MTPool
