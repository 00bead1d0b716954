import Mathlib.Data.Rat.Defs
import Mathlib.Algebra.Order.Ring.Rat
/-!
# The life of a parameter (MeqNodes/src/Parm.cc, ParmDBInterface.cc:320-418)

What a parameter does on requests and commands: which funklet it takes, how updates reach it, what is saved.  Tiles, splines, forced
shapes, `ignore_time` and children that define the grid are left out (tiles: see `Composed`).  The coefficients of a funklet are of any
type `B`; what updates and solving do to them is given by `Ops` (see `Polc`, `Solver`).  Domains have the two axes time and frequency.
-/
namespace Verif.Parm

/-- A domain (MEQ/src/Domain.h). -/
structure Dom where
  x0 : ℚ
  x1 : ℚ
  y0 : ℚ
  y1 : ℚ
  deriving DecidableEq, Repr

/-- `supersetOfProj` (MEQ/src/Domain.cc:184-194): the first includes the second. -/
def superset (a b : Dom) : Bool := !(decide (b.x0 < a.x0) || decide (a.x1 < b.x1) || decide (b.y0 < a.y0) || decide (a.y1 < b.y1))

/-- `overlaps` (MEQ/src/FastParmTable.cc:523-535). -/
def overlaps (a b : Dom) : Bool := !(decide (b.x1 ≤ a.x0) || decide (a.x1 ≤ b.x0)) && !(decide (b.y1 ≤ a.y0) || decide (a.y1 ≤ b.y0))

variable {B : Type}

/-- What can be done with coefficients: adding an update (`Funklet::update` with the parameter's constraints; values that are no numbers
having been made 0), the number of values it must have, getting ready to solve for a domain (`makeSolvable`, `changeSolveDomain`). -/
structure Ops (B : Type) where
  upd : B → List ℚ → B
  size : B → Nat
  renorm : Dom → B → B

/-- A funklet (MEQ/src/Funklet.h): its domain, if it has one, its number in the table (-1: none), whether it is being solved for. -/
structure F (B : Type) where
  dom : Option Dom
  dbid : Int
  solv : Bool
  body : B
  deriving DecidableEq

/-- What a parameter has: one funklet, or one composed of several. -/
inductive Funk (B : Type) where
  | single (f : F B)
  | comp (l : List (F B))
  deriving DecidableEq

/-- The rows for this parameter of a table: the domains of the table and the coefficients stored for them (FastParmTable.h). -/
structure Tab (B : Type) where
  rows : List (Dom × Option B)
  default : Option B
  deriving DecidableEq

/-- Settings (Parm.h:193-225; Parm.cc:638-809): `table`: there is one; `init`: the initial funklet of the state record; `default`: the
constant of the default value. -/
structure Cfg (B : Type) where
  solvable : Bool
  autoSave : Bool
  usePrevious : Nat
  saveAll : Bool
  reset : Bool
  cache : Bool
  table : Bool
  init : Option B
  default : B

/-- A request, as far as it matters: domain, the part of its id that says the domain (`none` if that is empty), whether it asks for
values to solve with. -/
structure Req where
  dom : Dom
  domId : Option Nat
  solve : Bool
  deriving DecidableEq, Repr

/-- The state (Parm.h:202-228): converged flag, the current funklet, the domain id it is for, the id of the last request with commands.
An id is the part about the resolution and all else. -/
structure St (B : Type) where
  conv : Bool
  fk : Option (Funk B)
  domId : Option Nat
  rqAll : Option (Nat × Nat)
  tab : Tab B
  deriving DecidableEq

/-- `getFunklets` (FastParmTable.cc:279-328): all rows with coefficients whose domain overlaps, with their numbers from `i` on. -/
def found (d : Dom) : Nat → List (Dom × Option B) → List (F B)
  | _, [] => []
  | i, r :: l =>
    match r.2 with
    | none => found d (i + 1) l
    | some b => if overlaps r.1 d then ⟨some r.1, i, false, b⟩ :: found d (i + 1) l else found d (i + 1) l

/-- `getFunkletFromDB` (ParmDBInterface.cc:359-407).  Domains are compared exactly here (the code allows 1e-16).  Only called when
the settings do not say to reset (Parm.cc:98). -/
def fromDB (c : Cfg B) (t : Tab B) (d : Dom) : Option (Funk B) :=
  match found d 0 t.rows with
  | [] => none
  | [f] => some (.single (if f.dom = some d then f else { f with dom := some d, dbid := -1 }))
  | f :: g :: l =>
    if !c.solvable then some (.comp (f :: g :: l))
    else some (.single (if f.dom = some d then f else { f with dom := some d, dbid := -1 }))

/-- The coefficients of the funklet, or of the first part (Parm.cc:134-146). -/
def firstBody : Funk B → Option B
  | .single f => some f.body
  | .comp l => l.head?.map (·.body)

/-- What is used when the table has no entry (Parm.cc:121-166). -/
def fallback (c : Cfg B) (s : St B) : B :=
  match (if c.table then s.tab.default else none) with
  | some b => b
  | none =>
    match (if c.usePrevious > 1 || (c.usePrevious > 0 && s.conv) then s.fk.bind firstBody else none) with
    | some b => b
    | none => c.init.getD c.default

/-- `findRelevantFunklet` (Parm.cc:94-182). -/
def find (c : Cfg B) (s : St B) (d : Dom) : Funk B :=
  match (if !c.reset && c.table then fromDB c s.tab d else none) with
  | some f => f
  | none => .single ⟨some d, -1, false, fallback c s⟩

/-- `initFunklet` (Parm.cc:368-505): the funklet used, and the state. -/
def initFunklet (c : Cfg B) (s : St B) (r : Req) : Funk B × St B :=
  let new := (find c s r.dom, { s with fk := some (find c s r.dom), domId := r.domId })
  match s.fk with
  | none => new
  | some f =>
    if r.domId.isSome && r.domId == s.domId then (f, s)
    else match f with
      | .comp _ => new
      | .single g =>
        match g.dom with
        | none => (f, { s with domId := r.domId })
        | some e =>
          if superset e r.dom then
            let g := if e = r.dom then g else { g with dbid := -1 }
            (.single g, { s with fk := some (.single g), domId := r.domId })
          else new

/-- `initSolvable` and `changeSolveDomain`, unless it is being solved for already (Parm.cc:185-213, 522-530, 580-585).  A solvable
parameter without tiles never has a composed funklet (Parm.cc:167-175, ParmDBInterface.cc:373): that case is left as it is. -/
def prepare (o : Ops B) (r : Req) (f : Funk B) : Funk B :=
  match f with
  | .single g => if g.solv then f else .single ⟨some r.dom, g.dbid, true, o.renorm r.dom g.body⟩
  | .comp _ => f

/-- `clearSolvable` (Parm.cc:586-589). -/
def clearSolvable (f : Funk B) : Funk B :=
  match f with
  | .single g => .single { g with solv := false }
  | .comp _ => f

/-- `getResult` (Parm.cc:566-634): the funklet evaluated and the state afterwards. -/
def eval (o : Ops B) (c : Cfg B) (s : St B) (r : Req) : Funk B × St B :=
  let p := initFunklet c s r
  let f := if c.solvable && r.solve then prepare o r p.1 else clearSolvable p.1
  (f, { p.2 with fk := if c.cache || c.solvable then some f else none })

/-- `discoverSpids` (Parm.cc:510-562). -/
def discover (o : Ops B) (c : Cfg B) (s : St B) (r : Req) : St B :=
  if !c.solvable then s
  else
    let p := initFunklet c s r
    { p.2 with fk := some (prepare o r p.1) }

/-- The last row with a domain (FastParmTable.cc:352-357), of the first `n`. -/
def lastRow (rows : List (Dom × Option B)) (d : Dom) : Nat → Option Nat
  | 0 => none
  | n + 1 => if rows[n]?.map (·.1) = some d then some n else lastRow rows d n

/-- `putCoeff` (FastParmTable.cc:330-420): rows and number of the row. -/
def put (rows : List (Dom × Option B)) (d : Dom) (dbid : Int) (b : B) : List (Dom × Option B) × Nat :=
  if 0 ≤ dbid ∧ rows[dbid.toNat]?.map (·.1) = some d then (rows.set dbid.toNat (d, some b), dbid.toNat)
  else match lastRow rows d rows.length with
    | some i => (rows.set i (d, some b), i)
    | none => (rows ++ [(d, some b)], rows.length)

/-- Saving one funklet (`putCoeff1`, ParmTable.h:58-59).  One without a domain is left out (it is not stored here). -/
def saveOne (t : Tab B) (f : F B) : Tab B × F B :=
  match f.dom with
  | none => (t, f)
  | some d => let p := put t.rows d f.dbid f.body; ({ t with rows := p.1 }, { f with dbid := p.2 })

/-- Saving the parts one after the other. -/
def saveParts (t : Tab B) : List (F B) → Tab B × List (F B)
  | [] => (t, [])
  | f :: l => let p := saveOne t f; let q := saveParts p.1 l; (q.1, p.2 :: q.2)

/-- `save` (ParmDBInterface.cc:323-346).  Without a table nothing is done here (the code then opens one with an empty name). -/
def save (c : Cfg B) (s : St B) : St B :=
  if !c.table then s
  else match s.fk with
    | none => s
    | some (.single f) => let p := saveOne s.tab f; { s with tab := p.1, fk := some (.single p.2) }
    | some (.comp l) => let p := saveParts s.tab l; { s with tab := p.1, fk := some (.comp p.2) }

/-- `clearFunklets` (Parm.cc:811-820). -/
def clear (s : St B) : St B := { s with fk := none, domId := none }

/-- A command (Parm.cc:844-946): an update with its arguments, or saving or clearing. -/
inductive Cmd where
  | update (converged : Bool) (incr : Option (List ℚ)) (save clear : Bool)
  | save
  | clear
  | other
  deriving DecidableEq, Repr

/-- Adding an incremental update (Parm.cc:854-910): `none` if an exception is thrown. -/
def applyIncr (o : Ops B) (c : Cfg B) (s : St B) (v : List ℚ) : Option (St B) :=
  if !c.solvable then none
  else match s.fk with
    | none => none
    | some (.comp _) => none
    | some (.single f) =>
      if v.length ≠ (if f.solv then o.size f.body else 0) then none
      else some { s with fk := some (.single { f with body := o.upd f.body v }) }

/-- A command is skipped if its request differs from the last in the resolution only (Parm.cc:831-842). -/
def skipped (s : St B) (q : Option (Nat × Nat)) : Bool :=
  match q, s.rqAll with
  | some a, some b => a.2 == b.2
  | _, _ => false

/-- The command to update (Parm.cc:844-932). -/
def doUpdate (o : Ops B) (c : Cfg B) (s : St B) (converged : Bool) (incr : Option (List ℚ)) (doSave doClear : Bool) : St B × Bool :=
  let s := if converged then { s with conv := true } else s
  match (match incr with
    | none => some (s, false)
    | some v => (applyIncr o c s v).map fun s => if c.autoSave && c.table then (save c s, true) else (s, false)) with
  | none => (s, false)
  | some (s, saved) =>
    let s := if !saved && doSave && c.table && (s.conv || c.saveAll) then save c s else s
    (if doClear then clear s else s, true)

/-- `processCommand` (Parm.cc:822-950): the state, and whether no exception was thrown. -/
def command (o : Ops B) (c : Cfg B) (s : St B) (q : Option (Nat × Nat)) (cmd : Cmd) : St B × Bool :=
  if skipped s q then ({ s with rqAll := q }, true)
  else match cmd with
    | .update cv incr doSave doClear => doUpdate o c { s with rqAll := q } cv incr doSave doClear
    | .save => (save c { s with rqAll := q }, true)
    | .clear => (clear { s with rqAll := q }, true)
    | .other => ({ s with rqAll := q }, true)

/-- Giving the parameter a funklet through its state (Parm.cc:696-721): one without a domain. -/
def setFunklet (s : St B) (b : B) : St B := { s with fk := some (.single ⟨none, -1, false, b⟩), domId := none }

/-- What happens to a parameter. -/
inductive Act (B : Type) where
  | eval (r : Req)
  | discover (r : Req)
  | command (rqid : Option (Nat × Nat)) (cmd : Cmd)
  | setFunklet (b : B)

/-- One step; an exception leaves the state as it is by then. -/
def step (o : Ops B) (c : Cfg B) (s : St B) : Act B → St B
  | .eval r => (eval o c s r).2
  | .discover r => discover o c s r
  | .command q cmd => (command o c s q cmd).1
  | .setFunklet b => setFunklet s b

/-- Any number of steps. -/
def run (o : Ops B) (c : Cfg B) (s : St B) (l : List (Act B)) : St B := l.foldl (step o c) s

end Verif.Parm
