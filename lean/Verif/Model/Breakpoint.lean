/-!
# Breakpoints (MEQ/src/Node.cc, Forest.cc, Forest.h)

Masks are natural numbers used bit by bit.  Of a node's control status only the two breakpoint flags and the two stop
flags are kept.  Simplification: `setExecState` is atomic; waiting at a breakpoint is not modelled, so that the stop
flags are raised and lowered within one step and are reported as its outcome.
-/
namespace Verif.Breakpoint

/-- `breakpoints_`, `breakpoints_ss_`, and the bits `CS_BREAKPOINT`, `CS_BREAKPOINT_SS` of `control_status_`
(Node.h:188-190,921-923). -/
structure Node where
  bp : Nat
  ss : Nat
  flagBp : Bool
  flagSs : Bool
  deriving DecidableEq, Repr

/-- The nodes and the forest's `breakpoints`, `breakpoints_ss` (Forest.h:302-303). -/
structure St where
  node : Nat → Node
  gbp : Nat
  gss : Nat

/-- New nodes, new forest (Node.cc:86, Forest.cc:65). -/
def init : St := ⟨fun _ => ⟨0, 0, false, false⟩, 0, 0⟩

/-- Change one node. -/
def upd (s : St) (n : Nat) (f : Node → Node) : St := { s with node := fun m => if m = n then f (s.node m) else s.node m }

/-- `mask & ~bits`. -/
def without (mask bits : Nat) : Nat := mask ^^^ (mask &&& bits)

/-- `Node::setBreakpoint` (Node.cc:1199-1212). -/
def setBp (x : Node) (m : Nat) (oneshot : Bool) : Node :=
  if oneshot then { x with ss := x.ss ||| m, flagSs := decide (x.ss ||| m ≠ 0) }
  else { x with bp := x.bp ||| m, flagBp := decide (x.bp ||| m ≠ 0) }

/-- `Node::clearBreakpoint` (Node.cc:1214-1227). -/
def clearBp (x : Node) (m : Nat) (oneshot : Bool) : Node :=
  if oneshot then { x with ss := without x.ss m, flagSs := decide (without x.ss m ≠ 0) }
  else { x with bp := without x.bp m, flagBp := decide (without x.bp m ≠ 0) }

/-- The breakpoint fields of a state record (Node.cc:275-278). -/
def setState (x : Node) (bp ss : Option Nat) : Node :=
  let y := match bp with | some m => { x with bp := m, flagBp := decide (m ≠ 0) } | none => x
  match ss with | some m => { y with ss := m, flagSs := decide (m ≠ 0) } | none => y

/-- Why a node stopped. -/
structure Stop where
  global : Bool
  globalSs : Bool
  localSs : Bool
  localBp : Bool
  deriving DecidableEq, Repr

/-- `Forest::checkGlobalBreakpoints` (Forest.h:225-233): the answer, and whether a single-shot was used up. -/
def checkGlobal (s : St) (m : Nat) : St × Bool × Bool :=
  if s.gss &&& m ≠ 0 then ({ s with gss := 0 }, true, true) else (s, decide (s.gbp &&& m ≠ 0), false)

/-- The mask of an execution state (Node.cc:1249-1252): its own bit, and BP_FAIL when a failure is returned. -/
def eventMask (es : Nat) (failing : Bool) : Nat := 2 ^ es ||| if es = 0 && failing then 0x80 else 0

/-- `setExecState` (Node.cc:1241-1300) with event mask `m`. -/
def event (s : St) (n : Nat) (m : Nat) (abort : Bool) : St × Option Stop :=
  if abort then (s, none)
  else
    let g := checkGlobal s m
    let x := s.node n
    if x.ss &&& m ≠ 0 then
      (upd g.1 n fun x => { x with ss := 0, flagSs := false }, some ⟨g.2.1, g.2.2, true, false⟩)
    else if x.bp &&& m ≠ 0 then (g.1, some ⟨g.2.1, g.2.2, false, true⟩)
    else if g.2.1 then (g.1, some ⟨true, g.2.2, false, false⟩)
    else (g.1, none)

/-- What happens. -/
inductive Op where
  | set (n m : Nat) (oneshot : Bool)
  | clear (n m : Nat) (oneshot : Bool)
  | state (n : Nat) (bp ss : Option Nat)
  | gset (m : Nat) (oneshot : Bool)
  | gclear (m : Nat) (oneshot : Bool)
  | event (n es : Nat) (failing abort : Bool)
  deriving DecidableEq, Repr

/-- One step: the new state, and the stop if any.  For the forest's masks see Forest.cc:493-511. -/
def step (s : St) : Op → St × Option Stop
  | .set n m o => (upd s n fun x => setBp x m o, none)
  | .clear n m o => (upd s n fun x => clearBp x m o, none)
  | .state n b o => (upd s n fun x => setState x b o, none)
  | .gset m o => (if o then { s with gss := s.gss ||| m } else { s with gbp := s.gbp ||| m }, none)
  | .gclear m o => (if o then { s with gss := without s.gss m } else { s with gbp := without s.gbp m }, none)
  | .event n es f a => event s n (eventMask es f) a

/-- A history: the last state. -/
def runFrom (s : St) (ops : List Op) : St := ops.foldl (fun s op => (step s op).1) s

/-- A history: what stopped, in order. -/
def stops (s : St) : List Op → List (Op × Stop)
  | [] => []
  | op :: l =>
    let r := step s op
    match r.2 with
    | some x => (op, x) :: stops r.1 l
    | none => stops r.1 l

end Verif.Breakpoint
