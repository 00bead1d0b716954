import Mathlib.Data.List.Basic
/-!
# The solver's iterations

(MeqNodes/src/Solver.cc:855-1300, 1322-1361, 1437-1447, 1450-1491.)  What the solver does to its children - the requests it sends and
the updates in their riders - and what it returns.  Everything that comes from outside is a stream, one `Turn` per iteration: what
the children reply, what the least-squares fits give, when the interrupt and abort flags are raised.  A child's reply is reduced to
the subsolver of each of its equations (that is `Verif.Model.Solver`).  Not modelled: the events, metrics and debug records, the
debug file (Solver.cc:1172-1202), the locking and flushing of parameter tables, exceptions.  The single-threaded loop over the
subsolvers is modelled here, the one with worker threads in `Verif.Model.SolveWorkers`.
-/
namespace Verif.SolveLoop

/-- Settings (Solver.cc:134-145): the largest number of iterations, the convergence quota as a fraction (in exact arithmetic), and
whether to send the last update and to save.  (A negative number of iterations is not modelled.) -/
structure Cfg where
  max : Nat
  num : Nat
  den : Nat
  lastUpdate : Bool
  save : Bool
  deriving DecidableEq, Repr

/-- A child's reply: whether the abort flag is up when it arrives (Solver.cc:1032), whether its code has one of the bits for fail,
missing data or wait (1037), and its vellsets: whether failed or null (1047), and the subsolver of each equation. -/
structure Reply where
  abort : Bool
  skip : Bool
  vells : List (Bool × List Nat)
  deriving DecidableEq, Repr

/-- What happens in one iteration: the interrupt flag when the loop condition is evaluated (Solver.cc:995), the abort flag after the
poll is started (1021), the replies in the order of arrival, the abort flag after them (1059), the solution and the readiness of
each fit (1395, 1441), the interrupt flag when the rider is filled (1115). -/
structure Turn (S : Type) where
  intr : Bool
  abort1 : Bool
  replies : List Reply
  abort2 : Bool
  fit : Nat → S × Bool
  intrFill : Bool

/-- Everything from outside: how many subsolvers follow from the discovery of unknowns (`none`: it failed), the iterations, then the
abort flag after the loop (Solver.cc:1168), the interrupt flag (1205) and the abort flag at the end (1233). -/
structure World (S : Type) where
  subs : Option Nat
  turn : Nat → Turn S
  abortEnd : Bool
  intrEnd : Bool
  abortLast : Bool

/-- A subsolver (Solver.h:340-375): converged, number of equations, solution. -/
structure Sub (S : Type) where
  converged : Bool
  neq : Nat
  sol : S
  deriving DecidableEq, Repr

/-- The rider `fillRider` makes (Solver.cc:1450-1491): the solutions of the subsolvers, the command to save, and `converged`. -/
structure Rider (S : Type) where
  sols : List S
  save : Bool
  converged : Bool
  deriving DecidableEq, Repr

/-- Type of a request: discovery of the unknowns, evaluation, or parameter update. -/
inductive Kind where
  | discover
  | eval
  | update
  deriving DecidableEq, Repr

/-- A request sent to the children: the iteration number in its id, that in its next id (for the last update it is the one of the
solver's own request, not modelled), its type, and the solver's updates in its rider. -/
structure Req (S : Type) where
  iter : Nat
  next : Option Nat
  kind : Kind
  rider : Option (Rider S)
  deriving DecidableEq, Repr

/-- The solver result (Solver.cc:1235-1247): `converged`, the number of iterations, the incremental solutions. -/
structure Result (S : Type) where
  converged : Bool
  iterations : Nat
  rows : List (List S)
  deriving DecidableEq, Repr

/-- What `getResult` returns: a failure (of the discovery), `RES_ABORT`, the code 0 with an empty result, or a solver result. -/
inductive Out (S : Type) where
  | fail
  | abort
  | empty
  | done (r : Result S)
  deriving DecidableEq, Repr

/-- State of the loop: `cur_iter_`, `next_rqid`, the subsolvers, `converged`, the rider of the request object, the incremental
solutions, the requests sent. -/
structure St (S : Type) where
  k : Nat
  next : Nat
  subs : List (Sub S)
  converged : Bool
  rider : Option (Rider S)
  rows : List (List S)
  sent : List (Req S)

variable {S : Type}

/-- One equation for subsolver `j` (Solver.cc:592-599): counted, unless the subsolver has converged. -/
def fill (p : List (Sub S) × Nat) (j : Nat) : List (Sub S) × Nat :=
  match p.1[j]? with
  | some s => if s.converged then p else (p.1.set j { s with neq := s.neq + 1 }, p.2 + 1)
  | none => p

/-- The vellsets of a reply (Solver.cc:1043-1056). -/
def fillReply (p : List (Sub S) × Nat) (r : Reply) : List (Sub S) × Nat :=
  r.vells.foldl (fun p v => if v.1 then p else v.2.foldl fill p) p

/-- The replies (Solver.cc:1029-1057); `none`: the abort flag was raised. -/
def collect : List (Sub S) × Nat → List Reply → Option (List (Sub S) × Nat)
  | p, [] => some p
  | p, r :: l => if r.abort then none else collect (if r.skip then p else fillReply p r) l

/-- `Subsolver::solve` (Solver.cc:1354-1447); the second component is what it returns. -/
def solve (zero : S) (t : Turn S) (i : Nat) (s : Sub S) : Sub S × Bool :=
  if s.converged || s.neq == 0 then ({ s with sol := zero }, true)
  else (⟨(t.fit i).2, 0, (t.fit i).1⟩, (t.fit i).2)

/-- The loop over the subsolvers (Solver.cc:1096-1103); `i` is the number of the first.  The number is `num_conv_`. -/
def solveAll (zero : S) (t : Turn S) : Nat → List (Sub S) → List (Sub S) × Nat
  | _, [] => ([], 0)
  | i, s :: l =>
    let x := solve zero t i s
    let r := solveAll zero t (i + 1) l
    (x.1 :: r.1, if x.2 then r.2 + 1 else r.2)

/-- `need_conv_` (Solver.cc:976). -/
def need (c : Cfg) (n : Nat) : Nat := min n ((n * c.num + (c.den - 1)) / c.den)

/-- One way out of the loop: its condition is false or there are no equations (`true`); or the abort flag (`false`). -/
def loop (c : Cfg) (zero : S) (w : World S) : Nat → St S → Bool × St S
  | 0, s => (true, s)
  | f + 1, s =>
    let t := w.turn s.k
    -- Solver.cc:995
    if s.k < c.max && !s.converged && !t.intr then
      -- Solver.cc:1010-1020
      let s := { s with next := s.next + 1, sent := s.sent ++ [⟨s.next, some (s.next + 1), .eval, s.rider⟩] }
      if t.abort1 then (false, s)
      else match collect (s.subs, 0) t.replies with
        | none => (false, s)
        | some (subs, neqs) =>
          if t.abort2 then (false, s)
          -- Solver.cc:1070-1081
          else if neqs == 0 then (true, { s with subs := subs })
          else
            -- Solver.cc:1085-1115
            let r := solveAll zero t 0 subs
            let conv := decide (need c subs.length ≤ r.2)
            let sols := r.1.map (·.sol)
            loop c zero w f
              { s with k := s.k + 1, subs := r.1, converged := conv, rows := s.rows ++ [sols]
                       rider := some ⟨sols, c.save && (conv || t.intrFill || decide (c.max - 1 ≤ s.k)), conv⟩ }
    else (true, s)

/-- The request for the discovery of the unknowns (Solver.cc:885-917).  (The rider of the solver's own request and the commands that
make parameters solvable are not modelled.) -/
def discovery : Req S := ⟨0, none, .discover, none⟩

/-- The state before the loop (Solver.cc:889, 962-994). -/
def start (zero : S) (n : Nat) : St S :=
  ⟨0, 1, List.replicate n ⟨false, 0, zero⟩, false, none, [], [discovery]⟩

/-- `Solver::getResult` (Solver.cc:855-1300): what it returns and the requests sent.  (Discovery that gives no unknowns throws:
`fail` too.  The crop of the incremental solutions, 1239-1247, keeps the rows that were filled.) -/
def getResult (c : Cfg) (zero : S) (w : World S) : Out S × List (Req S) :=
  match w.subs with
  | none => (.fail, [discovery])
  | some n =>
    if n == 0 then (.fail, [discovery])
    else
      match loop c zero w (c.max + 1) (start zero n) with
      | (false, s) => (.abort, s.sent)
      | (true, s) =>
        if w.abortEnd then (.empty, s.sent)
        else
          -- Solver.cc:1205-1232
          let sent := if c.lastUpdate && (s.k == c.max || w.intrEnd || s.converged) then s.sent ++ [⟨s.next, none, .update, s.rider⟩] else s.sent
          if w.abortLast then (.abort, sent)
          else (.done ⟨s.converged, s.k, s.rows.take s.k⟩, sent)

end Verif.SolveLoop
