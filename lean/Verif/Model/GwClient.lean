import Verif.Model.Outcome
import Verif.Model.Hiid
/-!
# The keeper of connections to other processes (OCTOPUSSY/src/GWClientWP.cc)

Times are in milliseconds.  What a socket's `connect` says comes from outside, as does the address of a child gateway.  `stop` is left out.
-/
namespace Verif.GwClient

/-- `GWClientWP::States` (GWClientWP.h:91). -/
inductive CS where
  | stopped
  | waiting
  | connecting
  | connected
deriving DecidableEq, Repr

/-- What `Socket::connect(0)` returns; the address of the gateway that is spawned if it is 0. -/
inductive Answer where
  | ok (gw : Nat)
  | inProgress
  | error
deriving DecidableEq, Repr

/-- `GWClientWP::Connection` (GWClientWP.h:48-58); `giveUp` is 0 if it is not set. -/
structure Cx where
  host : String
  port : Int
  unix : Bool
  sock : Bool
  st : CS
  retry : Nat
  fail : Nat
  giveUp : Nat
  gw : Option Nat
deriving DecidableEq, Repr

/-- `ReopenTimeout` (GWClientWP.cc:34). -/
def reopenTimeout : Nat := 2000
/-- `FailConnectTimeout` (GWClientWP.cc:36). -/
def failConnectTimeout : Nat := 10000
/-- `GiveUpTimeout` (GWClientWP.cc:38). -/
def giveUpTimeout : Nat := 30000

/-- The object.  `clock` is the time of day, `now` the member of that name, `timer` is `reconnect_timeout_set`; `log` has the calls of `connect`, the last first. -/
structure St where
  cxs : List Cx
  clock : Nat
  now : Nat
  timer : Bool
  started : Bool
  proactive : Bool
  log : List (Nat × String × Int)
deriving DecidableEq, Repr

/-- A connection after `tryConnect`, nothing if it has been removed; whether the short timer is asked for; whether `connect` was called. -/
structure Tried where
  cx : Option Cx
  timer : Bool
  called : Bool
deriving DecidableEq, Repr

/-- `tryConnect` (GWClientWP.cc:387-451), apart from the list of connections. -/
def tryConnect (now : Nat) (a : Answer) (c : Cx) : Tried :=
  if c.st = .connected then ⟨some c, false, false⟩
  else
    let c1 : Cx := if c.st ≠ .connecting then { c with sock := true, st := .connecting, fail := now + failConnectTimeout } else c
    if c1.sock = false then ⟨some c1, false, false⟩
    else
      match a with
      | .ok g => ⟨some { c1 with st := .connected, gw := some g, sock := false }, false, true⟩
      | .inProgress => ⟨some c1, true, true⟩
      | .error =>
        if c1.giveUp ≠ 0 ∧ c1.giveUp < now then ⟨none, false, true⟩
        else ⟨some { c1 with sock := false, st := .waiting, retry := now + reopenTimeout }, false, true⟩

/-- The body of the loop of `timeout` (GWClientWP.cc:151-180). -/
def tickOne (now : Nat) (a : Answer) (c : Cx) : Tried :=
  match c.st with
  | .connected => ⟨some c, false, false⟩
  | .connecting =>
    if c.fail ≤ now then ⟨some { c with sock := false, st := .waiting, retry := now + reopenTimeout }, false, false⟩
    else if c.retry ≤ now then tryConnect now a c else ⟨some c, false, false⟩
  | .stopped | .waiting => if c.retry ≤ now then tryConnect now a c else ⟨some c, false, false⟩

/-- The loops of `timeout` and `activate`: a connection that `tryConnect` removes is used afterwards (`iter->state`, `iter++`). -/
def loop (f : Cx → Tried) (now : Nat) : List Cx → List Cx × Bool × List (Nat × String × Int) → Res (List Cx × Bool × List (Nat × String × Int))
  | [], (done, tm, log) => .ok (done, tm, log)
  | c :: l, (done, tm, log) =>
    match (f c).cx with
    | none => .ub
    | some c' => loop f now l (done ++ [c'], tm || (f c).timer, if (f c).called then (now, c.host, c.port) :: log else log)

/-- `activate` (GWClientWP.cc:375-384). -/
def activate (env : String → Int → Answer) (s : St) : Res St :=
  match loop (fun c => tryConnect s.clock (env c.host c.port) c) s.clock s.cxs ([], s.timer, s.log) with
  | .ok (cxs, tm, log) => .ok { s with cxs := cxs, now := s.clock, timer := tm, started := true, log := log }
  | .err => .err
  | .ub => .ub

/-- `timeout` (GWClientWP.cc:146-195). -/
def timeout (reconnect : Bool) (env : String → Int → Answer) (s : St) : Res St :=
  match loop (fun c => tickOne s.clock (env c.host c.port) c) s.clock s.cxs ([], s.timer, s.log) with
  | .ok (cxs, tm, log) =>
    let busy := cxs.any fun c => decide (c.st = .connecting)
    .ok { s with cxs := cxs, now := s.clock, log := log, timer := if reconnect && !busy then false else if busy && !tm then true else tm }
  | .err => .err
  | .ub => .ub

/-- `addConnection` (GWClientWP.cc:319-335); `retry` and `fail` are the time of construction. -/
def addConnection (clock : Nat) (h : String) (p : Int) (u : Bool) (l : List Cx) : List Cx :=
  if l.any fun c => decide (c.host = h) && decide (c.port = p) then l else l ++ [⟨h, p, u, false, .stopped, clock, clock, 0, none⟩]

/-- `removeConnection` (GWClientWP.cc:338-352). -/
def removeConnection (h : String) (p : Int) (l : List Cx) : List Cx := l.filter fun c => !(decide (c.port = p) && decide (c.host = h))

/-- `removeConnection(cx.host,cx.port)`: the host's name is the connection's own, and gone with it.  It is looked at again for each later connection with the same port. -/
def removeSelf (h : String) (p : Int) : List Cx → Res (List Cx)
  | [] => .ok []
  | c :: l =>
    if c.port = p ∧ c.host = h then if l.any fun c => decide (c.port = p) then .ub else .ok l
    else match removeSelf h p l with | .ok l' => .ok (c :: l') | .err => .err | .ub => .ub

/-- `f` is applied to the first connection for which `q` holds: its result, and the list with it in place. -/
def atFirst (q : Cx → Bool) (f : Cx → Tried) : List Cx → Option (Cx × Tried × List Cx)
  | [] => none
  | c :: l =>
    if q c then some (c, f c, ((f c).cx.getD c) :: l)
    else match atFirst q f l with | some (c', t, l') => some (c', t, c :: l') | none => none

/-- `tryConnect` for the first connection for which `q` holds, after it is changed by `g`. -/
def tryFirst (q : Cx → Bool) (g : Cx → Cx) (a : Answer) (s : St) : Res St :=
  match atFirst q (fun c => tryConnect s.now a (g c)) s.cxs with
  | none => .ok s
  | some (c, t, l) =>
    let log := if t.called then (s.now, c.host, c.port) :: s.log else s.log
    match t.cx with
    | some _ => .ok { s with cxs := l, timer := s.timer || t.timer, log := log }
    | none => match removeSelf c.host c.port s.cxs with | .ok l' => .ok { s with cxs := l', log := log } | .err => .err | .ub => .ub

/-! ## Whom to connect to -/

/-- What decides: the process's own address and servers, and the peers it is connected to. -/
structure Me where
  proactive : Bool
  process : Int
  host : Int
  hostname : String
  localServer : Bool
  netServer : Bool
  connectedTo : List Int → Bool

/-- A server's advertisement: its sender, what it offers. -/
structure Adv where
  process : Int
  host : Int
  unix : Bool
  at_ : String
  port : Int
deriving DecidableEq, Repr

/-- The part of `receive` that answers an advertisement (GWClientWP.cc:219-279): the connection to be made.  The messages of `GWServerWP` have the type
that goes with their id (GWServerWP.cc:190-206). -/
def answer (me : Me) (a : Adv) : Option (String × Int × Bool) :=
  if me.proactive = false then none
  else if [a.process, a.host] = [me.process, me.host] then none
  else if a.unix = true ∧ a.host ≠ me.host then none
  else if a.unix = false ∧ a.host = me.host then none
  else if me.connectedTo [a.process, a.host] then none
  else if a.unix then
    if me.localServer = false ∨ Hiid.lt false [me.process, me.host] [a.process, a.host] = true then some (a.at_, a.port, true) else none
  else
    if me.netServer = false ∨ Hiid.lt false [me.process, me.host] [a.process, a.host] = true then
      some (if a.at_ = me.hostname then "localhost" else a.at_, a.port, false)
    else none

/-! ## Histories -/

/-- What may happen.  An advertisement is one that was answered. -/
inductive Ev where
  | start (env : String → Int → Answer)
  | tick (reconnect : Bool) (env : String → Int → Answer)
  | bindError (h : String) (p : Int) (u : Bool) (a : Answer)
  | advert (h : String) (p : Int) (u : Bool) (a : Answer)
  | duplicate (h : String) (p : Int)
  | bye (gw : Nat) (a : Answer)

/-- `receive` and the others (GWClientWP.cc:126-130, 146-316). -/
def step (s : St) : Ev → Res St
  | .start env => activate env s
  | .tick r env => timeout r env s
  | .bindError h p u a =>
    if s.proactive && u then
      let s1 := { s with cxs := addConnection s.clock h p u s.cxs }
      if s.started then tryFirst (fun c => decide (c.host = h) && decide (c.port = p)) id a s1 else .ok s1
    else .ok s
  | .advert h p u a =>
    if s.proactive then
      let s1 := { s with cxs := addConnection s.clock h p u s.cxs }
      let g : Cx → Cx := fun c => { c with giveUp := s.clock + giveUpTimeout }
      if s.started then tryFirst (fun c => decide (c.host = h) && decide (c.port = p)) g a s1
      else .ok { s1 with cxs := s1.cxs.map fun c => if c.host = h ∧ c.port = p then g c else c }
    else .ok s
  | .duplicate h p => if s.proactive then .ok { s with cxs := removeConnection h p s.cxs } else .ok s
  | .bye gw a =>
    match s.cxs.find? fun c => decide (c.gw = some gw) with
    | none => .ok s
    | some c =>
      if c.st = .connected then
        tryFirst (fun c => decide (c.gw = some gw)) (fun c => { c with giveUp := if c.giveUp ≠ 0 then s.clock + giveUpTimeout else 0, st := .waiting }) a s
      else .ok s

/-- The constructor (GWClientWP.cc:40-86), with the peers it is given or finds configured. -/
def init (clock : Nat) (proactive : Bool) (peers : List (String × Int × Bool)) : St :=
  ⟨peers.foldl (fun l p => addConnection clock p.1 p.2.1 p.2.2 l) [], clock, clock, false, false, proactive, []⟩

/-- Events one after the other, each with the time since the one before. -/
def run (s : St) : List (Nat × Ev) → Res St
  | [] => .ok s
  | (dt, e) :: l => match step { s with clock := s.clock + dt } e with | .ok s' => run s' l | .err => .err | .ub => .ub

end Verif.GwClient
