import Mathlib.Algebra.Order.Ring.Rat
import Mathlib.Algebra.Field.Rat
import Mathlib.Data.Rat.Floor
/-!
# Locks and condition variables (TimBase/src/Thread: Mutex.h, Condition.h, SmartLock.h, SmartLock.cc)
-/
namespace Verif.Threads

/-! ## `Mutex` and `Mutex::Lock` (Mutex.h:59-345)

Mutexes are recursive (Mutex.h:313-320).  `held m t` is how often thread `t` has locked mutex `m`; `obj l` the mutex lock
object `l` points to.  Lock object `l` is used by thread `th l` only.  A step is `none` if the thread has to wait. -/

structure Locks where
  held : Nat → Nat → Nat
  obj : Nat → Option Nat

/-- Nothing locked, no lock objects that point to something. -/
def Locks.init : Locks := ⟨fun _ _ => 0, fun _ => none⟩

/-- A function with one value changed. -/
def upd {α : Type} (f : Nat → α) (i : Nat) (v : α) : Nat → α := fun j => if j = i then v else f j

/-- `pthread_mutex_lock`: waits while another of the threads `0, …, n-1` holds the mutex. -/
def plock (n : Nat) (s : Locks) (m t : Nat) : Option Locks :=
  if (List.range n).any (fun u => decide (u ≠ t) && decide (s.held m u ≠ 0)) then none else some ⟨upd s.held m (upd (s.held m) t (s.held m t + 1)), s.obj⟩

/-- `pthread_mutex_unlock` by a thread that does not hold the mutex is refused (`EPERM`). -/
def punlock (s : Locks) (m t : Nat) : Locks := ⟨upd s.held m (upd (s.held m) t (s.held m t - 1)), s.obj⟩

/-- What a lock object points to. -/
def setObj (s : Locks) (l : Nat) (p : Option Nat) : Locks := ⟨s.held, upd s.obj l p⟩

/-- `Lock::init` (Mutex.h:220-235).  With `TRY` a busy mutex makes `pthread_mutex_trylock` return `EBUSY`, a positive number, so
that the test `< 0` never holds and the object points to the mutex all the same. -/
def initLock (n : Nat) (s : Locks) (l m t : Nat) (try_ : Bool) : Option Locks :=
  if try_ then
    some (setObj (match plock n s m t with | some s' => s' | none => s) l (some m))
  else (plock n s m t).map fun s' => setObj s' l (some m)

/-- Unlocks what an object points to, if anything (Mutex.h:214-218, 259, 277-281). -/
def unlockObj (s : Locks) (p : Option Nat) (t : Nat) : Locks := match p with | none => s | some m => punlock s m t

/-- What can be done with a lock object. -/
inductive LOp where
  /-- `Lock l(m)` or `Lock l(m,TRY)` (Mutex.h:201-209) -/
  | make (l m : Nat) (try_ : Bool)
  /-- `Lock l(k)` (Mutex.h:183-190) -/
  | copy (l k : Nat)
  /-- `l.release()` (Mutex.h:256-262), and the destructor (214-218) -/
  | release (l : Nat)
  /-- `l.relock(m)` (Mutex.h:272-282): locks first, then unlocks -/
  | relock (l m : Nat)
  /-- `l.lock(m)` (Mutex.h:284-289): unlocks first, and may have to wait then, as `release` and `make` do -/
  | lock (l m : Nat)
  /-- `l = k` (Mutex.h:192-198) for a `k` that points to something (a null pointer is dereferenced otherwise) -/
  | assign (l k : Nat)
  deriving DecidableEq, Repr

/-- One operation.  A lock object is made once, or again after it was destroyed (when it points to nothing). -/
def lstep (n : Nat) (th : Nat → Nat) (s : Locks) : LOp → Option Locks
  | .make l m try_ => if s.obj l = none then initLock n s l m (th l) try_ else none
  | .copy l k => if s.obj l = none then (match s.obj k with | some m => initLock n s l m (th l) false | none => some s) else none
  | .release l => some (setObj (unlockObj s (s.obj l) (th l)) l none)
  | .relock l m => (initLock n s l m (th l) false).map fun s' => unlockObj s' (s.obj l) (th l)
  | .lock l m => initLock n (setObj (unlockObj s (s.obj l) (th l)) l none) l m (th l) false
  | .assign l k => match s.obj k with | some m => initLock n (unlockObj s (s.obj l) (th l)) l m (th l) false | none => none

/-- Many operations of many threads. -/
def lrun (n : Nat) (th : Nat → Nat) (s : Locks) : List LOp → Option Locks
  | [] => some s
  | o :: l => match lstep n th s o with | some s' => lrun n th s' l | none => none

/-! ## Waiting with a timeout (Condition.h:134-150) -/

/-- When a wait ends if nobody wakes the thread: at a time, in nanoseconds, or at once because the kernel refuses the time (`EINVAL`). -/
inductive Until where
  | at (ns : Int)
  | atOnce
  deriving DecidableEq, Repr

/-- `Condition::wait(sec,ns)` (Condition.h:135-143) at the time of day `nowSec`, `nowUsec`.  `pthread_cond_timedwait` refuses
nanoseconds outside of 0 to 999999999. -/
def waitInt (nowSec nowUsec sec ns : Int) : Until :=
  if 0 ≤ nowUsec * 1000 + ns ∧ nowUsec * 1000 + ns < 1000000000 then .at ((nowSec + sec) * 1000000000 + (nowUsec * 1000 + ns)) else .atOnce

/-- `Condition::wait(double)` (Condition.h:146-150) for a timeout that is not negative; rounding of the product is left out. -/
def waitFor (nowSec nowUsec : Int) (sec : ℚ) : Until := waitInt nowSec nowUsec ⌊sec⌋ ⌊(sec - ⌊sec⌋) * 1000000000⌋

/-! ## `SmartLock` (SmartLock.cc:107-200)

Each function holds the mutex of `cond` throughout, except where it waits; it is one step from call to return or sleep. -/

/-- Where a thread is: outside; at the start of one of the functions or woken in it; asleep in it. -/
inductive Pc where
  | idle
  | wantR
  | sleepR
  | wantW
  | sleepW
  | wantU
  | sleepU
  deriving DecidableEq, Repr

/-- The lock: its counts and its writer; how many read and write locks each thread has taken and not given back; the threads. -/
structure SL where
  readers : Nat
  writers : Nat
  writer : Option Nat
  rh : Nat → Nat
  wh : Nat → Nat
  pcs : Nat → Pc

def SL.init : SL := ⟨0, 0, none, fun _ => 0, fun _ => 0, fun _ => .idle⟩

/-- Asleep in `cond.wait()`. -/
def asleep : Pc → Bool
  | .sleepR | .sleepW | .sleepU => true
  | _ => false

/-- Woken. -/
def woken : Pc → Pc
  | .sleepR => .wantR
  | .sleepW => .wantW
  | .sleepU => .wantU
  | p => p

/-- `cond.signal()`: wakes one of the threads asleep, if any, whichever the system chooses. -/
def signal (n : Nat) (s : SL) (w : Option Nat) : Option SL :=
  match w with
  | some u => if u < n ∧ asleep (s.pcs u) = true then some ⟨s.readers, s.writers, s.writer, s.rh, s.wh, upd s.pcs u (woken (s.pcs u))⟩ else none
  | none => if (List.range n).any (fun u => asleep (s.pcs u)) then none else some s

/-- What a thread does: calls; goes on; wakes for no reason; gives locks back, with the thread that is woken by it. -/
inductive Act where
  | rlock
  | wlock
  | upgrade
  | go
  | wake
  | runlock (w : Option Nat)
  | wunlock (w : Option Nat)
  | downgrade (w : Option Nat)
  deriving DecidableEq, Repr

/-- A step of thread `i` of `n`.  Locks are given back only by threads that have them, and upgraded by threads that have a read
lock or are the writer (the code takes somebody else's read lock otherwise). -/
def sstep (n : Nat) (s : SL) (i : Nat) (a : Act) : Option SL :=
  if i < n then
    (match s.pcs i, a with
    | .idle, .rlock => some ⟨s.readers, s.writers, s.writer, s.rh, s.wh, upd s.pcs i .wantR⟩
    | .idle, .wlock => some ⟨s.readers, s.writers, s.writer, s.rh, s.wh, upd s.pcs i .wantW⟩
    | .idle, .upgrade => if 0 < s.rh i ∨ s.writer = some i then some ⟨s.readers, s.writers, s.writer, s.rh, s.wh, upd s.pcs i .wantU⟩ else none
    -- SmartLock.cc:107-119
    | .wantR, .go =>
      if s.writer ≠ some i ∧ s.writers ≠ 0 then some ⟨s.readers, s.writers, s.writer, s.rh, s.wh, upd s.pcs i .sleepR⟩
      else some ⟨s.readers + 1, s.writers, s.writer, upd s.rh i (s.rh i + 1), s.wh, upd s.pcs i .idle⟩
    -- SmartLock.cc:122-135
    | .wantW, .go =>
      if s.writer = some i then some ⟨s.readers, s.writers + 1, s.writer, s.rh, upd s.wh i (s.wh i + 1), upd s.pcs i .idle⟩
      else if s.readers ≠ 0 ∨ s.writers ≠ 0 then some ⟨s.readers, s.writers, s.writer, s.rh, s.wh, upd s.pcs i .sleepW⟩
      else some ⟨s.readers, s.writers + 1, some i, s.rh, upd s.wh i (s.wh i + 1), upd s.pcs i .idle⟩
    -- SmartLock.cc:167-182
    | .wantU, .go =>
      if s.writer = some i then some ⟨s.readers, s.writers + 1, s.writer, s.rh, upd s.wh i (s.wh i + 1), upd s.pcs i .idle⟩
      else if 1 < s.readers ∨ s.writers ≠ 0 then some ⟨s.readers, s.writers, s.writer, s.rh, s.wh, upd s.pcs i .sleepU⟩
      else some ⟨s.readers - 1, s.writers + 1, some i, upd s.rh i (s.rh i - 1), upd s.wh i (s.wh i + 1), upd s.pcs i .idle⟩
    | .sleepR, .wake => some ⟨s.readers, s.writers, s.writer, s.rh, s.wh, upd s.pcs i .wantR⟩
    | .sleepW, .wake => some ⟨s.readers, s.writers, s.writer, s.rh, s.wh, upd s.pcs i .wantW⟩
    | .sleepU, .wake => some ⟨s.readers, s.writers, s.writer, s.rh, s.wh, upd s.pcs i .wantU⟩
    -- SmartLock.cc:138-148
    | .idle, .runlock w =>
      if 0 < s.rh i then
        (let s' : SL := ⟨s.readers - 1, s.writers, s.writer, upd s.rh i (s.rh i - 1), s.wh, s.pcs⟩
        if s.readers - 1 = 0 then signal n s' w else some s')
      else none
    -- SmartLock.cc:151-164
    | .idle, .wunlock w =>
      if 0 < s.wh i then
        (if s.writers - 1 = 0 then signal n ⟨s.readers, s.writers - 1, none, s.rh, upd s.wh i (s.wh i - 1), s.pcs⟩ w
        else some ⟨s.readers, s.writers - 1, s.writer, s.rh, upd s.wh i (s.wh i - 1), s.pcs⟩)
      else none
    -- SmartLock.cc:185-198
    | .idle, .downgrade w =>
      if s.writer = some i then signal n ⟨s.readers + 1, s.writers - 1, none, upd s.rh i (s.rh i + 1), upd s.wh i (s.wh i - 1), s.pcs⟩ w else some s
    | _, _ => none)
  else none

/-- A schedule. -/
def srun (n : Nat) (s : SL) : List (Nat × Act) → Option SL
  | [] => some s
  | (i, a) :: l => match sstep n s i a with | some s' => srun n s' l | none => none

end Verif.Threads
