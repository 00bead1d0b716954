import Verif.Model.GatewayRoute
import Verif.Spec.Subscriptions
/-! # Specification of routing between processes (C93-C97) -/
namespace Verif.Route
open Disp

/-- Not a wildcard. -/
def Concrete (a : Int) : Prop := a ≠ -1 ∧ a ≠ -2

/-- A dispatcher whose addresses are those of actual WPs. -/
structure Sane (d : Disp.State) : Prop where
  host : Concrete d.host
  proc : Concrete d.proc
  nodup : (d.wps.map Prod.fst).Nodup
  wps : ∀ p ∈ d.wps, Concrete p.1.cls ∧ p.1.cls ≠ aidPublish ∧ 0 ≤ p.1.inst

/-- The WPs of a process that get a message addressed to them. -/
def Gets (d : Disp.State) (e : Env) (w : Wpid) : Prop := w ∈ localRecipients d e.m (ids e.sender) e.dst

/-- The table that describes the WPs of a process, gateways left out. -/
def mirror (d : Disp.State) : List (Addr × Subs.State) :=
  (d.wps.filter fun p => decide (p.1.cls ≠ aidGatewayWP)).map fun p => (⟨p.1, d.proc, d.host⟩, p.2.subs)

/-- A gateway connected to process `d`, with a table that describes it. -/
structure Linked (g : Gw) (d : Disp.State) : Prop where
  connected : g.connected = true
  rproc : g.rproc = d.proc
  rhost : g.rhost = d.host
  table : g.table = mirror d

/-- A message that has just been sent, other than the advertisement of a server. -/
def Fresh (e : Env) : Prop := e.hops = 0 ∧ Hiid.matches_ false e.m.id (msgServerOpen ++ [-2]) = false

/-- Processes `0` to `n-1`, each connected to each of the others by one gateway. -/
structure Mesh (net : Net) (n : Nat) : Prop where
  sane : ∀ p, p < n → Sane (net.procs p).d
  gnodup : ∀ p, p < n → (net.procs p).d.gateways.Nodup
  distinct : ∀ p q, p < n → q < n → p ≠ q → ¬ ((net.procs p).d.host = (net.procs q).d.host ∧ (net.procs p).d.proc = (net.procs q).d.proc)
  isGw : ∀ p w, p < n → (((net.procs p).gw w).isSome = true ↔ w.cls = aidGatewayWP)
  addr : ∀ p w g, p < n → (net.procs p).gw w = some g → g.addr.wpid = w
  linked : ∀ p w, p < n → w ∈ (net.procs p).d.gateways → (net.peer p w).1 < n ∧ (net.peer p w).1 ≠ p ∧
    ∃ g, (net.procs p).gw w = some g ∧ Linked g (net.procs (net.peer p w).1).d
  single : ∀ p w w', p < n → w ∈ (net.procs p).d.gateways → w' ∈ (net.procs p).d.gateways → (net.peer p w).1 = (net.peer p w').1 → w = w'
  all : ∀ p q, p < n → q < n → p ≠ q → ∃ w ∈ (net.procs p).d.gateways, (net.peer p w).1 = q

/-- Where a published message may go. -/
def InScope (sc : Scope) (self : Addr) (proc host : Int) : Prop :=
  match sc with
  | .global => True
  | .host => host = self.host
  | .process => host = self.host ∧ proc = self.proc

/-- Tasks are processed as long as there are any. -/
def Effective (net : Net) : Run → List Nat → Prop
  | _, [] => True
  | s, i :: r => i < s.tasks.length ∧ Effective net (net.step s i) r

/-- What a process does with its WPs: ids are never used twice, and only WPs that are attached change, start or stop. -/
def Peer.valid : Peer → List Ev → Prop
  | _, [] => True
  | p, e :: r => (match e with
      | .attach id => id ∉ p.used
      | .change id _ | .start id | .stop id _ => mapGet id p.wps ≠ none) ∧ (p.step e).1.valid r

/-- WPs that leave their subscriptions alone while they stop. -/
def NoLate (l : List Ev) : Prop := ∀ e ∈ l, ∀ id late, e = .stop id late → late = []

/-- The subscriptions a table has for a WP. -/
def known (t : List (Wpid × Subs.State)) (id : Wpid) : Option Subs.State := mapGet id t

/-- The subscriptions of a WP. -/
def actual (p : Peer) (id : Wpid) : Option Subs.State := (mapGet id p.wps).map (·.1)

/-- Addresses and subscriptions that can be packed. -/
def Packs (x : List Int × Subs.State) : Prop :=
  (∀ a ∈ x.1, -(2 ^ 31 : Int) ≤ a ∧ a < 2 ^ 31) ∧ x.1.length < 2 ^ 30 ∧
  ∃ h, x.2 = Subs.run h ∧ SubsSpec.Ints h ∧ (Subs.run h).subs.length < 2 ^ 30 ∧ (Subs.run h).pksize < 2 ^ 61

end Verif.Route
