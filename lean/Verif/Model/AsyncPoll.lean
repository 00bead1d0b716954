/-!
# Asynchronous and background polls of children (MEQ/src/NodeNursery.cc:186-405, 618-690)

Several threads: the parent, which owns the nursery, and workers, which fill the work orders it placed on the brigade's queue.  Only the work
orders of this nursery are modelled; what else the threads do is not.  A child that was ordered in the `p`-th poll is the pair of `p` and its number.
-/
namespace Verif.AsyncPoll

/-- A work order: the poll it was placed in, and the child. -/
structure Order where
  poll : Nat
  child : Nat
deriving DecidableEq, Repr

/-- Where the parent is: outside the nursery, at the top of the loop of `awaitChildResult` (NodeNursery.cc:349) or at its look for a work order (:374),
filling one, asleep (:386), and the same in `mt_waitForEndOfPoll` (:304, :317, :324). -/
inductive Pc where
  | out
  | top
  | look
  | busy (w : Order)
  | asleep
  | ftop
  | fbusy (w : Order)
  | fasleep
deriving DecidableEq, Repr

/-- The nursery and the work orders it placed.  `queue` are the orders nobody took yet, `running` those that workers are filling, `retq` is
`mt.child_retqueue_`, `count` is `mt.child_retcount_`, `num` is `mt.numchildren_`.  `bg` tells a background poll from an asynchronous one (the function
that a work order calls when filled, :210 and :648).  Of what happened: `polls` polls were started, `cur` are the children ordered in the last one,
`got` the orders whose results were handed out in it, `filled` the orders that were received in it, `ended` that `awaitChildResult` ended it with -1,
`waited` that `finishPoll` returned. -/
structure Poll where
  polls : Nat
  cur : List Nat
  bg : Bool
  queue : List Order
  running : List Order
  retq : List Order
  count : Nat
  num : Nat
  polling : Bool
  abandon : Bool
  prog : Bool
  pc : Pc
  got : List Order
  filled : List Order
  ended : Bool
  waited : Bool
deriving Repr

/-- A new nursery (NodeNursery.cc:38-46). -/
def Poll.init : Poll := ⟨0, [], false, [], [], [], 0, 0, false, false, false, .out, [], [], false, false⟩

/-- The children that `startAsyncPoll` orders (NodeNursery.cc:204-216), the first in the queue first: later orders go to the head. -/
def asyncOrders (order : List Nat) (enabled : Nat → Bool) : List Nat := order.filter enabled

/-- The children that `backgroundPoll` orders (NodeNursery.cc:642-655).  The test is of child `i`, not of child `order[i]`. -/
def bgOrders (order : List Nat) (enabled : Nat → Bool) : List Nat :=
  ((List.range order.length).filter enabled).map fun i => order.getD i 0

/-- `startAsyncPoll` (NodeNursery.cc:186-229) and `backgroundPoll` (:618-655) for children `ch`.  `mt.abandon_` is left as it is.
A background poll is in progress even if there is nobody to poll (:626), an asynchronous one is not (:223). -/
def startPoll (s : Poll) (bg : Bool) (ch : List Nat) : Poll :=
  ⟨s.polls + 1, ch, bg, ch.map (fun c => ⟨s.polls + 1, c⟩) ++ s.queue, s.running, [], 0, ch.length, true, s.abandon, bg || !ch.isEmpty, s.pc, [], [], false, false⟩

/-- `mt_receiveAsyncChildResult` (NodeNursery.cc:233-253) and `mt_receiveBackgroundResult` (:257-272), called at the end of a work order. -/
def receive (s : Poll) (w : Order) : Poll :=
  if s.polling then
    ⟨s.polls, s.cur, s.bg, s.queue, s.running, if s.bg then s.retq else s.retq ++ [w], s.count + 1, s.num, s.polling, s.abandon, s.prog, s.pc,
      s.got, s.filled ++ [w], s.ended, s.waited⟩
  else s

/-- Whether `receive` wakes the parent: each asynchronous result does (:252), of background results the last (:270-271). -/
def wakes (s : Poll) : Bool := s.polling && (!s.bg || decide (s.num ≤ s.count + 1))

/-- A condition variable's broadcast: the parent goes back to the top of its loop (:386-396, :317-321). -/
def awaken (s : Poll) : Poll :=
  match s.pc with
  | .asleep => { s with pc := .top }
  | .fasleep => { s with pc := .ftop }
  | _ => s

/-- A work order is at its end: its result is received and the parent woken if need be. -/
def checkIn (s : Poll) (w : Order) : Poll := if wakes s then awaken (receive s w) else receive s w

/-- What may happen next. -/
inductive Act where
  /-- The parent starts a poll of these children. -/
  | start (bg : Bool) (ch : List Nat)
  /-- A worker takes the `k`-th order on the queue. -/
  | take (k : Nat)
  /-- A worker ends the `k`-th running order. -/
  | finish (k : Nat)
  /-- The parent calls `awaitChildResult`. -/
  | await
  /-- The parent calls `finishPoll`. -/
  | wait
  /-- The parent goes on: from the top of a loop, or with the end of the order it was filling. -/
  | go
  /-- The parent, looking for an order, takes the `k`-th on the queue. -/
  | help (k : Nat)
  /-- The parent, looking for an order, is given none. -/
  | none
  /-- The parent, asleep, wakes up for no reason. -/
  | spurious
  /-- The parent calls `abortPoll`. -/
  | abort
deriving DecidableEq, Repr

/-- `awaitChildResult` from the top of its loop (NodeNursery.cc:349-372): the last result received is handed out; without one the call ends with -1 if
all children have checked in, and the parent looks for a work order otherwise. -/
def awaitTop (s : Poll) : Poll :=
  match s.retq.getLast? with
  | some w => { s with retq := s.retq.dropLast, got := s.got ++ [w], pc := .out }
  | Option.none =>
    if s.num ≤ s.count then { s with retq := [], prog := false, pc := .out, ended := true }
    else { s with pc := .look }

/-- `mt_waitForEndOfPoll` from the top of its loop (NodeNursery.cc:303-334), up to the look for a work order: the loop ends when all children have
checked in, or when `mt.abandon_` is set; the caller cannot tell which. -/
def waitEnds (s : Poll) : Bool := !(decide (s.count < s.num) && !s.abandon)

/-- One step; nothing if it is not possible.  `start` is refused while a poll is in progress (NodeNursery.cc:188, :620).
`awaitChildResult` without a poll in progress is -1 at once (:339-343), and does nothing here.  That the forest's abort flag is up (`aborting()`, :339)
is not modelled. -/
def step (s : Poll) : Act → Option Poll
  | .start bg ch => if s.pc = .out ∧ s.prog = false then some (startPoll s bg ch) else Option.none
  | .take k =>
    match s.queue[k]? with
    | some w => some { s with queue := s.queue.eraseIdx k, running := s.running ++ [w] }
    | Option.none => Option.none
  | .finish k =>
    match s.running[k]? with
    | some w => some (checkIn { s with running := s.running.eraseIdx k } w)
    | Option.none => Option.none
  | .await => if s.pc = .out ∧ s.prog = true ∧ s.bg = false then some { s with pc := .top } else Option.none
  | .wait => if s.pc = .out ∧ 0 < s.polls then some { s with pc := .ftop } else Option.none
  | .go =>
    match s.pc with
    | .top => some (awaitTop s)
    | .ftop => if waitEnds s then some { s with retq := [], prog := false, pc := .out, waited := true } else Option.none
    | .busy w => some (checkIn { s with pc := .top } w)
    | .fbusy w => some (checkIn { s with pc := .ftop } w)
    | _ => Option.none
  | .help k =>
    match s.queue[k]? with
    | some w =>
      match s.pc with
      | .look => some { s with queue := s.queue.eraseIdx k, pc := .busy w }
      | .ftop => if waitEnds s then Option.none else some { s with queue := s.queue.eraseIdx k, pc := .fbusy w }
      | _ => Option.none
    | Option.none => Option.none
  | .none =>
    match s.pc with
    | .look => some { s with pc := if s.count < s.num ∧ s.abandon = false then .asleep else .top }
    | .ftop => if waitEnds s then Option.none else some { s with pc := .fasleep }
    | _ => Option.none
  | .spurious =>
    match s.pc with
    | .asleep => some { s with pc := .top }
    | .fasleep => some { s with pc := .ftop }
    | _ => Option.none
  | .abort =>
    if s.pc = .out ∧ 0 < s.polls then
      some { s with abandon := true, polling := false, queue := [], retq := [], prog := false }
    else Option.none

/-- Steps one after the other. -/
def run (s : Poll) : List Act → Option Poll
  | [] => some s
  | a :: l => match step s a with | some s' => run s' l | Option.none => Option.none

/-! ## Without threads -/

/-- `startAsyncPoll` (NodeNursery.cc:218-228): how many children are to be polled; the poll is in progress if there are any. -/
def startSingle (order : List Nat) (enabled : Nat → Bool) : Nat := ((List.range order.length).filter enabled).length

/-- `awaitChildResult` (NodeNursery.cc:398-423): the next child from `async_poll_child_` on that is enabled, and the new value of that;
without one the poll is over. -/
def nextSingle (order : List Nat) (enabled : Nat → Bool) (pos : Nat) : Option (Nat × Nat) :=
  if h : pos < order.length then
    if enabled order[pos] then some (order[pos], pos + 1) else nextSingle order enabled (pos + 1)
  else Option.none
termination_by order.length - pos

/-- The children that successive calls of `awaitChildResult` hand out until the first -1. -/
def handedOut (order : List Nat) (enabled : Nat → Bool) (pos : Nat) : Nat → List Nat
  | 0 => []
  | fuel + 1 =>
    match nextSingle order enabled pos with
    | some (c, p) => c :: handedOut order enabled p fuel
    | Option.none => []

end Verif.AsyncPoll
