/-!
# Polling of children (MEQ/src/NodeNursery.cc)

Children are numbered.  `execute` of a child is a function from the child to its return code and its list of failures;
results themselves are represented by the child's number.
-/
namespace Verif.Nursery

/-! ## Poll order -/

/-- The search for a child of the given name (NodeNursery.cc:126-136), from child `i` on; invalid children have no
name. -/
def findChild (names : List (Option String)) (name : String) (i : Nat := 0) : Option Nat :=
  match names with
  | [] => none
  | some n :: l => if n = name then some i else findChild l name (i + 1)
  | none :: l => findChild l name (i + 1)

/-- First loop of `setChildPollOrder` (NodeNursery.cc:122-138): the poll order is overwritten as it goes.  `specified` are the
children named so far, so that `nord` is their number.  The flag tells whether it ended without an exception. -/
def orderLoop (names : List (Option String)) : List String → List Nat → List Nat → List Nat × List Nat × Bool
  | [], specified, po => (specified, po, true)
  | n :: l, specified, po =>
    match findChild names n with
    | none => (specified, po, false)
    | some i =>
      if i ∈ specified then (specified, po, false)
      else orderLoop names l (specified ++ [i]) (po.set specified.length i)

/-- Second loop (NodeNursery.cc:140-145): the other children, from child `i` on, at position `nord`. -/
def fillLoop (specified : List Nat) : Nat → Nat → Nat → List Nat → List Nat
  | 0, _, _, po => po
  | n + 1, i, nord, po =>
    if i ∈ specified then fillLoop specified n (i + 1) nord po
    else fillLoop specified n (i + 1) (nord + 1) (po.set nord i)

/-- `setChildPollOrder` (NodeNursery.cc:117-147): the new order, and whether it returned normally. -/
def setChildPollOrder (names : List (Option String)) (order : List String) (po : List Nat) : List Nat × Bool :=
  if names.length < order.length then (po, false)
  else
    match orderLoop names order [] po with
    | (_, po', false) => (po', false)
    | (sp, po', true) =>
      if sp.length < names.length then (fillLoop sp names.length 0 sp.length po', true) else (po', true)

/-- The default order (NodeNursery.cc:61-64). -/
def defaultOrder (n : Nat) : List Nat := List.range n

/-! ## Return codes and policies -/

/-- Return code (NodeFace.h:55-80). -/
structure Code where
  deps : Nat
  fail : Bool
  missing : Bool
  abort : Bool
  deriving DecidableEq, Repr

/-- Bitwise or. -/
def Code.or (a b : Code) : Code := ⟨a.deps ||| b.deps, a.fail || b.fail, a.missing || b.missing, a.abort || b.abort⟩

/-- No bits. -/
def Code.zero : Code := ⟨0, false, false, false⟩

/-- Fail and missing-data policies. -/
inductive Pol where
  | ignore
  | collect
  | abandon
  deriving DecidableEq, Repr

/-- Bits cleared after the poll (NodeNursery.cc:585-586,607-608). -/
def masked (fp mp : Pol) (c : Code) : Code :=
  { c with fail := c.fail && decide (fp ≠ .ignore), missing := c.missing && decide (mp ≠ .ignore) }

/-! ## Single-threaded synchronous poll -/

/-- What the loop keeps: `child_retcodes_`, `child_cumul_retcode_`, `child_fails_`, and (for the statements) the
children executed so far. -/
structure Acc (F : Type) where
  retcodes : Nat → Code
  cumul : Code
  fails : List (List F)
  polled : List Nat

/-- The loop (NodeNursery.cc:550-578). -/
def loop {F} (enabled : Nat → Bool) (exe : Nat → Code × List F) (fp mp : Pol) : List Nat → Acc F → Acc F
  | [], a => a
  | i :: l, a =>
    if enabled i then
      let o := exe i
      let b : Acc F := ⟨fun j => if j = i then o.1 else a.retcodes j, a.cumul.or o.1, a.fails, a.polled ++ [i]⟩
      if o.1.abort then b
      else if o.1.fail then
        let c := { b with fails := b.fails ++ [o.2] }
        if fp = .abandon then c else loop enabled exe fp mp l c
      else if o.1.missing then
        if mp = .abandon then b else loop enabled exe fp mp l b
      else loop enabled exe fp mp l b
    else loop enabled exe fp mp l { a with retcodes := fun j => if j = i then Code.zero else a.retcodes j }

/-- Outcome of a poll: the code, the failures put into a result (`none` if no result is made), the children executed and
their codes. -/
structure Poll (F : Type) where
  code : Code
  result : Option (List F)
  polled : List Nat
  retcodes : Nat → Code

/-- `syncPoll`, single-threaded (NodeNursery.cc:475-490,545-617); `aborting`: the forest is being aborted. -/
def syncPoll {F} (order : List Nat) (enabled : Nat → Bool) (exe : Nat → Code × List F) (fp mp : Pol) (aborting : Bool)
    (old : Nat → Code) : Poll F :=
  let a := loop enabled exe fp mp order ⟨old, Code.zero, [], []⟩
  if aborting then ⟨⟨0, false, false, true⟩, none, a.polled, a.retcodes⟩
  else ⟨masked fp mp a.cumul, if fp ≠ .ignore ∧ a.fails ≠ [] then some a.fails.flatten else none, a.polled, a.retcodes⟩

/-! ## Multithreaded synchronous poll -/

/-- What the parent thread is doing: checking (between work orders), asleep on the condition, or past the poll. -/
inductive Parent where
  | checking
  | asleep
  | finished
  deriving DecidableEq, Repr

/-- State of one multithreaded poll: `numchildren_`, `child_retcount_`, `abandon_`, `child_cumul_retcode_`,
`child_fails_`, the child results received, our work orders still queued, those being executed, and the parent. -/
structure MT where
  num : Nat
  retcount : Nat
  abandon : Bool
  cumul : Code
  fails : List Nat
  got : List Nat
  queue : List Nat
  running : List Nat
  parent : Parent
  deriving DecidableEq, Repr

/-- Work orders placed for the enabled children (NodeNursery.cc:489-512); placed last to first into a LIFO queue. -/
def mtStart (order : List Nat) (enabled : Nat → Bool) : MT :=
  let q := order.filter enabled
  ⟨q.length, 0, false, Code.zero, [], [], q, [], .checking⟩

/-- `mt_receiveSyncChildResult` (NodeNursery.cc:433-471) for child `i` with code `c`; the polling flag stays up during
the poll. -/
def deliver (fp mp : Pol) (s : MT) (i : Nat) (c : Code) : MT :=
  let s := { s with running := s.running.erase i }
  if s.abandon then s
  else
    let ab := if c.fail then decide (fp = .abandon) else if c.missing then decide (mp = .abandon) else c.abort
    let s := { s with got := s.got ++ [i], cumul := s.cumul.or c, fails := if c.fail then s.fails ++ [i] else s.fails
                      abandon := ab, retcount := s.retcount + 1 }
    let s := if s.num ≤ s.retcount ∧ s.parent = .asleep then { s with parent := .checking } else s
    if s.abandon then { s with queue := [] } else s

/-- What the threads may do: someone (a worker, or the parent while checking) takes the work order at the head of the queue; a running work order ends
and delivers its result; the parent, finding no work order, goes to sleep or ends the poll (NodeNursery.cc:513-541). -/
inductive Ev where
  | take
  | deliver (i : Nat)
  | check
  deriving DecidableEq, Repr

/-- One event, if it is possible.  Spurious wake-ups of the parent are left out: they would only hide a missing
wake-up. -/
def mtStep (fp mp : Pol) (code : Nat → Code) (s : MT) : Ev → Option MT
  | .take =>
    match s.queue with
    | [] => none
    | i :: q => some { s with queue := q, running := s.running ++ [i] }
  | .deliver i => if i ∈ s.running then some (deliver fp mp s i (code i)) else none
  | .check =>
    if s.parent = .checking then
      (if s.retcount < s.num ∧ s.abandon = false then some { s with parent := .asleep } else some { s with parent := .finished })
    else none

/-- The states reachable in a poll. -/
inductive Reach (fp mp : Pol) (code : Nat → Code) (s0 : MT) : MT → Prop
  | start : Reach fp mp code s0 s0
  | step {s t : MT} (e : Ev) : Reach fp mp code s0 s → mtStep fp mp code s e = some t → Reach fp mp code s0 t

end Verif.Nursery
