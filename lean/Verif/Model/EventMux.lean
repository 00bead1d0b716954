import Verif.Model.Hiid

/-!
# Channels of events

`/repo/AppAgent/AppAgent/src/OctoEventMux.cc`, `OctoChannel.cc` and `FileChannel.cc`.
-/
namespace Verif.EventMux

variable {δ : Type}

/-! ### Maps of events (OctoChannel.cc) -/

/-- Maps of a channel: `receive_map`, `default_receive_prefix`, `post_map`, `category_post_prefix`,
`default_post_prefix`.  Simplification: scopes and priorities are left out. -/
structure Chan where
  recvMap : List (List Int × List Int)
  recvPrefix : List Int
  postMap : List (List Int × List Int)
  catPrefix : List (Int × List Int)
  postPrefix : List Int

/-- `mapReceiveEvent` (OctoChannel.cc lines 98-117). -/
def mapReceive (c : Chan) (id : List Int) : Res (Option (List Int)) :=
  match c.recvMap.lookup id with
  | some e => .ok (some e)
  | none =>
    if c.recvPrefix.length ≠ 0 && Hiid.prefixedBy id c.recvPrefix then
      match Hiid.subId id c.recvPrefix.length (-1) with
      | .ok e => .ok (some e)
      | .err => .err
      | .ub => .ub
    else .ok none

/-- `mapPostEvent` (OctoChannel.cc lines 120-148). -/
def mapPost (c : Chan) (cat : Int) (id : List Int) : Option (List Int) :=
  match c.postMap.lookup (cat :: id) with
  | some e => some e
  | none =>
    match c.catPrefix.lookup cat with
    | some p => if !p.isEmpty then some (Hiid.cat p id) else none
    | none => if !c.postPrefix.isEmpty then some (Hiid.cat c.postPrefix id) else none

/-- `isEventBound` (OctoChannel.cc lines 237-246). -/
def bound (c : Chan) (cat : Int) (id : List Int) : Bool := (mapPost c cat id).isSome

/-- `postEvent` (OctoChannel.cc lines 175-234): the id of the message sent, if one is. -/
def post (c : Chan) (cat : Int) (id : List Int) : Option (List Int) :=
  match c.postMap.lookup (cat :: id) with
  | none =>
    match c.catPrefix.lookup cat with
    | some p => if p.isEmpty then none else some (Hiid.cat p id)
    | none => if c.postPrefix.isEmpty then none else some (Hiid.cat c.postPrefix id)
  | some e => if e.isEmpty then none else some e

/-! ### The multiplexer (OctoEventMux.cc) -/

/-- A message in the queue, and its address. -/
structure Msg (δ : Type) where
  addr : Nat
  id : List Int
  data : δ
  src : List Int

/-- `pheadmsg`, `assigned_channel`, `assigned_event`, `assigned_data`, `assigned_source`. -/
structure Cache (δ : Type) where
  addr : Nat
  chan : Nat
  ev : List Int
  data : δ
  src : List Int

/-- Members of the multiplexer; `cache = none` is `pheadmsg == 0`. -/
structure Mux (δ : Type) where
  running : Bool
  queue : List (Msg δ)
  cache : Option (Cache δ)

inductive Stat
  | success | wait | outofseq | closed
  deriving DecidableEq

/-- What `getEvent` gives. -/
inductive Out (δ : Type)
  | event (ev : List Int) (data : δ) (src : List Int)
  | none (st : Stat)
  deriving DecidableEq

/-- The loop over channels (OctoEventMux.cc lines 208-232): the first one that maps the id, and the event. -/
def assign : List (List Int → Option (List Int)) → Nat → List Int → Option (Nat × List Int)
  | [], _, _ => none
  | f :: fs, i, id =>
    match f id with
    | some e => some (i, e)
    | none => assign fs (i + 1) id

/-- The loop of `checkQueue` without waiting (OctoEventMux.cc lines 150-245).  `others`: the event flag is raised
by another source; `mask`: the events that match the mask (all, if it is empty).  Simplification: `WAIT` and
`BLOCK` differ in what they do until the queue changes. -/
def scan (maps : List (List Int → Option (List Int))) (others : Bool) (chan : Nat) (mask : List Int → Bool)
    (s : Mux δ) : List (Msg δ) → Stat × Mux δ
  | [] => (if others then .outofseq else .wait, { s with queue := [] })
  | m :: q =>
    match assign maps 0 m.id with
    | some (i, e) =>
      if i = chan && mask e then (.success, { s with queue := q, cache := some ⟨m.addr, i, e, m.data, m.src⟩ })
      else (.outofseq, { s with queue := m :: q, cache := some ⟨m.addr, i, e, m.data, m.src⟩ })
    | none => scan maps others chan mask s q

/-- `checkQueue` (OctoEventMux.cc lines 113-246). -/
def check (maps : List (List Int → Option (List Int))) (others : Bool) (chan : Nat) (mask : List Int → Bool)
    (s : Mux δ) : Stat × Mux δ :=
  if !s.running then (.closed, s)
  else
    match s.cache with
    | some k =>
      if s.queue.head?.map Msg.addr = some k.addr then
        if k.chan = chan && mask k.ev then (.success, { s with queue := s.queue.tail })
        else (.outofseq, s)
      else scan maps others chan mask { s with cache := none } s.queue
    | none => scan maps others chan mask s s.queue

/-- `getEvent` (OctoEventMux.cc lines 249-263). -/
def get (maps : List (List Int → Option (List Int))) (others : Bool) (chan : Nat) (mask : List Int → Bool)
    (s : Mux δ) : Out δ × Mux δ :=
  match check maps others chan mask s with
  | (.success, s) =>
    match s.cache with
    | some k => (.event k.ev k.data k.src, { s with cache := none })
    | none => (.none .success, s)
  | (st, s) => (.none st, s)

/-- `hasEvent` (OctoEventMux.cc lines 266-272). -/
def has (maps : List (List Int → Option (List Int))) (others : Bool) (chan : Nat) (mask : List Int → Bool)
    (s : Mux δ) : Stat × Mux δ := check maps others chan mask s

/-- A message is put into the queue, at a place given by its priority (`WorkProcess`), or a channel is asked. -/
inductive Op (δ : Type)
  | arrive (pos : Nat) (m : Msg δ)
  | get (chan : Nat) (mask : List Int → Bool) (others : Bool)

/-- One step: the multiplexer, and what was delivered to which channel. -/
def step (maps : List (List Int → Option (List Int))) (s : Mux δ) : Op δ → Mux δ × List (Nat × List Int × δ × List Int)
  | .arrive pos m => ({ s with queue := s.queue.take pos ++ m :: s.queue.drop pos }, [])
  | .get chan mask others =>
    match get maps others chan mask s with
    | (.event e d f, s) => (s, [(chan, e, d, f)])
    | (.none _, s) => (s, [])

def run (maps : List (List Int → Option (List Int))) (s : Mux δ) :
    List (Op δ) → Mux δ × List (Nat × List Int × δ × List Int)
  | [] => (s, [])
  | o :: os =>
    let r := step maps s o
    let t := run maps r.1 os
    (t.1, r.2 ++ t.2)

/-! ### Events from files (FileChannel.cc) -/

/-- An event. -/
structure Ev (δ : Type) where
  id : List Int
  data : δ
  src : List Int
  deriving DecidableEq

/-- `input_stream_`, and what calls of `refillStream` will add (none: `CLOSED`). -/
structure File (δ : Type) where
  stream : List (Ev δ)
  more : List (List (Ev δ))
  deriving DecidableEq

/-- `hasEvent` (FileChannel.cc lines 82-102). -/
def fileHas (mask : List Int → Bool) (s : File δ) : Stat × File δ :=
  match s.stream with
  | [] =>
    match s.more with
    | [] => (.closed, s)
    | c :: cs => (.success, ⟨c, cs⟩)
  | e :: _ => if mask e.id then (.success, s) else (.outofseq, s)

/-- `getEvent` without waiting (FileChannel.cc lines 44-79); `ub`: the stream is empty after all. -/
def fileGet (mask : List Int → Bool) (s : File δ) : Res (Out δ × File δ) :=
  match fileHas mask s with
  | (.success, s) =>
    match s.stream with
    | e :: es => .ok (.event e.id e.data e.src, { s with stream := es })
    | [] => .ub
  | (st, s) => .ok (.none st, s)

/-- Calls of `getEvent`: the events got. -/
def fileRun : List (List Int → Bool) → File δ → Res (List (Ev δ) × File δ)
  | [], s => .ok ([], s)
  | m :: ms, s =>
    match fileGet m s with
    | .ok (.event i d f, s) =>
      match fileRun ms s with
      | .ok (es, s) => .ok (⟨i, d, f⟩ :: es, s)
      | .err => .err
      | .ub => .ub
    | .ok (.none _, s) => fileRun ms s
    | .err => .err
    | .ub => .ub

end Verif.EventMux
