import Verif.Model.Outcome
/-!
# A channel that runs another channel in a thread of its own

(AppAgent/AppAgent/src/MTQueueChannel.cc, MTQueueChannel.h.)  Two threads, the application and the worker, share two queues, a
list of errors and one condition variable.  A step is what a thread does between two moments where the lock may change hands.
The application never keeps the lock from one step to the next; the worker does in the states `holds` lists.  An event (`E`) is
a queue entry, an error (`X`) an exception.  The remote channel is any channel that changes its state only while it is called:
what its calls do is an input of the step.  One session is modelled, from `init` on; spurious wake-ups are steps of their own;
the bits of the event flag are left out (nothing here reads them).
-/
namespace Verif.MTQueue

/-- What a call of the remote channel does: returns or throws, and whether the channel is closed afterwards. -/
structure Call (R X : Type) where
  outcome : Except X R
  closes : Bool

/-- What `getEvent` of the remote channel returns: an event, WAIT, or any other code. -/
inductive Got (E : Type) where
  | event (e : E)
  | wait
  | other
  deriving DecidableEq, Repr

/-- Where the worker sleeps: on errors (MTQueueChannel.cc:122), on a full input queue (:165), on input to be fetched (:176), for
events (:214). -/
inductive WW where
  | err | full | drain | idle
  deriving DecidableEq, Repr

/-- Where the worker is (MTQueueChannel.cc:92-219). -/
inductive WPc (E X : Type) where
  | start
  | top
  | errLoop
  | postLoop
  | posting (e : E)
  | relock (x : Option X)
  | mid
  | drain
  | fetch
  | asleep (k : WW)
  | woken (k : WW)
  | done
  deriving DecidableEq, Repr

/-- The states in which the worker has the lock. -/
def WPc.holds : WPc E X → Bool
  | .top | .errLoop | .postLoop | .mid | .drain | .fetch => true
  | _ => false

/-- What a call of the application ends with. -/
inductive Ret (E X : Type) where
  | posted (e : E)
  | dropped (e : E)
  | got (e : E)
  | none
  | outOfSeq
  | closed
  | flushed
  | thrown (l : List X)
  deriving DecidableEq, Repr

/-- Where the application wants or sleeps on the lock: at the start of `postEvent` and in its loop (:221-247), of `getEvent` (:261-297),
of `flush` (:363-370), in `close` (:325-349).  `ret` is what is returned after `close`; `flush` is part of `close` if it has one. -/
inductive MP (E X : Type) where
  | post0 (e : E)
  | post1 (e : E)
  | get0 (wait : Bool) (mask : E → Bool)
  | get1 (mask : E → Bool)
  | flush0 (ret : Option (Ret E X))
  | flush1 (ret : Option (Ret E X))
  | close1 (ret : Ret E X)
  | close2 (ret : Ret E X)

/-- Where the application is. -/
inductive MPc (E X : Type) where
  | idle
  | want (p : MP E X)
  | asleep (p : MP E X)
  | closing (ret : Ret E X)
  | join (ret : Ret E X)

/-- The whole system (MTQueueChannel.h:179-203).  `closed` and `rclosed` are the states of the channel and of the remote one (which
nobody asks before it is initialised); `gone` means that the thread has been joined.  The last four are what has happened: the
events accepted, given to the remote channel, fetched from it, and the errors it threw; `log` is what the calls ended with. -/
structure St (E X : Type) where
  closed : Bool
  aborted : Bool
  rclosed : Bool
  rinit : Bool
  gone : Bool
  post : List E
  get : List E
  err : List X
  w : WPc E X
  m : MPc E X
  accepted : List E
  sent : List E
  produced : List E
  raised : List X
  log : List (Ret E X)

/-- After `init` (MTQueueChannel.cc:65-90). -/
def St.init : St E X := ⟨false, false, false, false, false, [], [], [], .start, .idle, [], [], [], [], []⟩

/-- `broadcast` (also in `EventFlag::raise`, EventFlag.cc:66-72). -/
def bcast (s : St E X) : St E X :=
  { s with
    w := match s.w with | .asleep k => .woken k | w => w
    m := match s.m with | .asleep p => .want p | m => m }

/-- An exception of the remote channel is put on the list (:104-107, 150-154, 188-191). -/
def addErr (x : X) (s : St E X) : St E X := bcast { s with err := s.err ++ [x], raised := s.raised ++ [x] }

/-- If the channel is closed, so is the remote one (:119, 131-132, 171-172, 207-208). -/
def closeRemote (s : St E X) : St E X := if s.closed then { s with rclosed := true } else s

/-- What a step of the worker takes from outside: what the call of the remote channel did. -/
structure Env (E X : Type) where
  init : Call Unit X
  post : Call Unit X
  fetch : Call (Got E) X

/-- Where the worker goes on after sleeping. -/
def WW.resume : WW → WPc E X
  | .err => .errLoop
  | .full => .top
  | .drain => .drain
  | .idle => .top

/-- A step of the worker (MTQueueChannel.cc:92-219); `size` is the queue size. -/
def wstep (size : Nat) (v : Env E X) (s : St E X) : St E X :=
  match s.w with
  | .start =>
    let s := { s with rclosed := v.init.closes, rinit := true, w := .top }
    (match v.init.outcome with | .ok _ => bcast s | .error x => addErr x s)
  | .top => if s.rclosed && s.get.isEmpty then bcast { s with w := .done } else { s with w := .errLoop }
  | .errLoop =>
    if s.err.isEmpty then { s with w := .postLoop }
    else
      let s := closeRemote s
      if s.rclosed then s else { s with w := .asleep .err }
  | .postLoop =>
    (match s.post with
    | [] => { s with w := .mid }
    | e :: l =>
      let s := closeRemote s
      if s.rclosed then { s with post := [], w := .mid } else bcast { s with post := l, w := .posting e })
  | .posting e =>
    { s with sent := s.sent ++ [e], rclosed := s.rclosed || v.post.closes, w := .relock (match v.post.outcome with | .ok _ => none | .error x => some x) }
  | .relock x =>
    (match x with
    | none => { s with w := .postLoop }
    | some x => addErr x { s with w := .postLoop })
  | .mid =>
    if size ≤ s.get.length then { s with w := .asleep .full }
    else
      let s := closeRemote s
      if s.rclosed then { s with w := .drain } else { s with w := .fetch }
  | .drain => if s.get.isEmpty then { s with w := .top } else { s with w := .asleep .drain }
  | .fetch =>
    let s := { s with rclosed := s.rclosed || v.fetch.closes, w := .top }
    (match v.fetch.outcome with
    | .error x => addErr x s
    | .ok g =>
      let s := (match g with
        | .event e => bcast { s with get := s.get ++ [e], produced := s.produced ++ [e] }
        | _ => s)
      let s := closeRemote s
      if s.rclosed then s else (match g with | .wait => { s with w := .asleep .idle } | _ => s))
  | .asleep _ => s
  | .woken k => { s with w := k.resume }
  | .done => s

/-- End of a call. -/
def ret (r : Ret E X) (s : St E X) : St E X := { s with m := .idle, log := s.log ++ [r] }

/-- `checkErrorQueue` (:249-258): throws, or goes on with `k`. -/
def checkErr (s : St E X) (k : St E X → St E X) : St E X :=
  if s.err.isEmpty then k s else ret (.thrown s.err) (bcast { s with err := [] })

/-- The loop of `postEvent`, to its end (:235-246). -/
def postLoop (size : Nat) (e : E) (s : St E X) : St E X :=
  if decide (size ≤ s.post.length) && s.err.isEmpty then { s with m := .asleep (.post1 e) }
  else checkErr s fun s => ret (.posted e) (bcast { s with post := s.post ++ [e], accepted := s.accepted ++ [e] })

/-- Taking the first event (:285-296). -/
def take (mask : E → Bool) (s : St E X) : St E X :=
  match s.get with
  | [] => ret .none s
  | e :: l => if mask e then ret (.got e) (bcast { s with get := l }) else ret .outOfSeq s

/-- The loop of `getEvent` (:278-284). -/
def getLoop (mask : E → Bool) (s : St E X) : St E X :=
  if s.get.isEmpty && s.err.isEmpty then { s with m := .asleep (.get1 mask) } else checkErr s (take mask)

/-- End of `flush`, on its own or in `close`. -/
def flushed (r : Option (Ret E X)) (s : St E X) : St E X :=
  match r with
  | none => ret .flushed s
  | some r => { s with m := .want (.close1 r) }

/-- The loop of `flush` (:363-370). -/
def flushLoop (r : Option (Ret E X)) (s : St E X) : St E X :=
  if !s.aborted && !s.post.isEmpty then { s with m := .asleep (.flush1 r) } else flushed r s

/-- The loop of `close` (:340-342). -/
def closeLoop (r : Ret E X) (s : St E X) : St E X :=
  if s.rclosed then { s with m := .join r } else { s with m := .asleep (.close2 r) }

/-- A step of the application once it has the lock; `assureRemoteInit` (MTQueueChannel.h:158-162) comes first in all functions. -/
def mbody (size : Nat) (p : MP E X) (s : St E X) : St E X :=
  if s.rinit then
    (match p with
    | .post0 e => if s.rclosed then { s with m := .closing (.dropped e) } else checkErr s (postLoop size e)
    | .post1 e => postLoop size e s
    | .get0 wait mask =>
      checkErr s fun s =>
        if s.get.isEmpty then
          (if s.rclosed then { s with m := .closing .closed }
          else if wait then getLoop mask s
          else ret .none s)
        else take mask s
    | .get1 mask => getLoop mask s
    | .flush0 r => flushLoop r s
    | .flush1 r => flushLoop r s
    | .close1 r => closeLoop r (bcast { s with get := [], post := [] })
    | .close2 r => closeLoop r s)
  else { s with m := .asleep p }

/-- What the application may call. -/
inductive App (E X : Type) where
  | post (e : E)
  | get (wait : Bool) (mask : E → Bool)
  | flush
  | close
  | abort

/-- A step of the application; `a` is what it calls if it is not in a call. -/
def mstep (size : Nat) (a : App E X) (s : St E X) : St E X :=
  match s.m with
  | .idle =>
    (match a with
    | .post e => { s with m := .want (.post0 e) }
    | .get wait mask => { s with m := .want (.get0 wait mask) }
    | .flush => { s with m := .want (.flush0 none) }
    | .close => { s with m := .closing .flushed }
    | .abort => { s with aborted := true, m := .closing .flushed })
  | .want p => if s.w.holds then s else mbody size p s
  | .asleep _ => s
  | .closing r =>
    let s := { s with closed := true }
    if s.gone then ret r s
    else if s.aborted then { s with m := .want (.close1 r) }
    else { s with m := .want (.flush0 (some r)) }
  | .join r =>
    (match s.w with
    | .done => checkErr { s with gone := true } (ret r)
    | _ => s)

/-- What happens next: a step of the application, of the worker, or a spurious wake-up. -/
inductive Act (E X : Type) where
  | app (a : App E X)
  | worker (v : Env E X)
  | spurious

/-- A step of the system. -/
def step (size : Nat) (s : St E X) : Act E X → St E X
  | .app a => mstep size a s
  | .worker v => wstep size v s
  | .spurious => bcast s

/-- A run. -/
def run (size : Nat) (s : St E X) (l : List (Act E X)) : St E X := l.foldl (step size) s

end Verif.MTQueue
