import Verif.Model.Outcome

/-!
# Nodes that collect data, and flags of events

`/repo/MeqNodes/src/HistoryCollect.cc`, `DataCollect.cc`, `DataConcat.cc` and
`/repo/AppAgent/AppAgent/src/EventFlag.cc`.
-/
namespace Verif.Collect

/-! ### HistoryCollect -/

variable {α ρ ν : Type}

/-- `history_list` of the state record, and `max_size_` (HistoryCollect.cc lines 64-68). -/
structure Hist (α : Type) where
  list : List α
  max : Int

/-- Removal of the first item, `n` times (HistoryCollect.cc lines 127-129). -/
def trim : Nat → List α → List α
  | 0, l => l
  | n + 1, l => trim n l.tail

/-- A result of the child (`none`: the item is not in it), `Clear.History`, a state record with a limit, a state
record with a list (HistoryCollect.cc lines 58-136). -/
inductive HOp (α : Type)
  | result (item : Option α)
  | clear
  | setMax (m : Int)
  | reset

/-- `getResult` (HistoryCollect.cc lines 100-136), `processCommand` (lines 80-98), `setStateImpl` (lines 58-69). -/
def hstep (s : Hist α) : HOp α → Hist α
  | .result none => s
  | .result (some x) =>
    let l := s.list ++ [x]
    if s.max > 0 then { s with list := trim ((l.length : Int) - s.max).toNat l } else { s with list := l }
  | .clear => { s with list := [] }
  | .setMax m => { s with max := m }
  | .reset => { s with list := [] }

/-- What `Get.History` gives after these operations on a new node (HistoryCollect.cc lines 87-91). -/
def history (m : Int) (ops : List (HOp α)) : List α := (ops.foldl hstep ⟨[], m⟩).list

/-! ### DataCollect -/

/-- A result of a child: its plot record, and the values of its VellSets (`none`: a fail) (DataCollect.cc lines
103-106).  Simplification: records and values are left abstract. -/
structure ChildRes (ρ ν : Type) where
  plot : Option ρ
  vells : List (Option ν)

/-- A thing in a list (DataCollect.cc lines 125 and 129). -/
inductive Item (ρ ν : Type)
  | plot (p : ρ)
  | value (v : ν)
  deriving DecidableEq

/-- An element of the list: an item, or a list of items (DataCollect.cc lines 118-122). -/
inductive Entry (ρ ν : Type)
  | one (x : Item ρ ν)
  | list (l : List (Item ρ ν))
  deriving DecidableEq

/-- `count` (DataCollect.cc lines 109-112). -/
def count (c : ChildRes ρ ν) : Nat := (if c.plot.isSome then 1 else 0) + c.vells.countP Option.isSome

/-- What is added to `plist` (DataCollect.cc lines 123-129). -/
def items (c : ChildRes ρ ν) : List (Item ρ ν) :=
  (match c.plot with | some p => [.plot p] | none => []) ++
    c.vells.filterMap (fun v => v.map Item.value)

/-- The loop over children (DataCollect.cc lines 101-130); the first argument is the list so far. -/
def collect (l : List (Entry ρ ν)) : List (ChildRes ρ ν) → List (Entry ρ ν)
  | [] => l
  | c :: cs => if count c = 1 then collect (l ++ (items c).map .one) cs else collect (l ++ [.list (items c)]) cs

/-! ### DataConcat -/

/-- A plot record: values, labels and attributes (DataConcat.cc lines 81-97). -/
structure Plot (α ν : Type) where
  values : List ν
  labels : Option (List String)
  attrib : Option α

/-- The first loop (DataConcat.cc lines 79-99): values, whether there are labels, attributes. -/
def gather (vs : List ν) (has : Bool) (at' : Option α) : List (Option (Plot α ν)) → List ν × Bool × Option α
  | [] => (vs, has, at')
  | none :: cs => gather vs has at' cs
  | some p :: cs =>
    gather (vs ++ p.values) (has || !(p.labels.getD []).isEmpty)
      (if at'.isSome then at' else p.attrib) cs

/-- The second loop (DataConcat.cc lines 105-125). -/
def label (ls : List String) : List (Option (Plot α ν)) → Res (List String)
  | [] => .ok ls
  | none :: cs => label ls cs
  | some p :: cs =>
    match p.labels with
    | some l =>
      if l.isEmpty then label (ls ++ List.replicate p.values.length "") cs
      else if l.length ≠ p.values.length then .err
      else label (ls ++ l) cs
    | none => label (ls ++ List.replicate p.values.length "") cs

/-- `getResult` (DataConcat.cc lines 58-129); `own`: the attributes of the node. -/
def concat (own : Option α) (cs : List (Option (Plot α ν))) : Res (Plot α ν) :=
  let r := gather [] false own cs
  if r.2.1 then
    match label [] cs with
    | .ok ls => .ok ⟨r.1, some ls, r.2.2⟩
    | .err => .err
    | .ub => .ub
  else .ok ⟨r.1, none, r.2.2⟩

/-! ### EventFlag -/

/-- `1<<snum`, an `int`, as an `ulong` (EventFlag.cc line 74). -/
def bit (snum : Nat) : BitVec 64 := ((1#32) <<< snum).signExtend 64

/-- `~(1<<snum)` (EventFlag.cc line 83). -/
def nbit (snum : Nat) : BitVec 64 := (~~~ ((1#32) <<< snum)).signExtend 64

/-- `flagword` and `nsources` (EventFlag.h lines 90-92). -/
structure Flag where
  word : BitVec 64
  nsources : Nat

/-- Calls of `addSource`, `raise` and `clear` (EventFlag.cc lines 60-84). -/
inductive FOp
  | add
  | raise (snum : Int)
  | clear (snum : Int)

/-- `addSource`, `raise`, `clear` (EventFlag.cc lines 60-84).  Simplification: one step each, under the lock. -/
def fstep (s : Flag) : FOp → Res Flag
  | .add => if s.nsources ≥ 32 then .err else .ok { s with nsources := s.nsources + 1 }
  | .raise n => if n < 0 ∨ n ≥ s.nsources then .err else .ok { s with word := s.word ||| bit n.toNat }
  | .clear n => if n < 0 ∨ n ≥ s.nsources then .err else .ok { s with word := s.word &&& nbit n.toNat }

/-- Operations on a new flag (EventFlag.cc lines 60-84); those that throw change nothing. -/
def frun (s : Flag) : List FOp → Flag
  | [] => s
  | o :: os => match fstep s o with | .ok s' => frun s' os | _ => frun s os

/-- `isRaised` (EventFlag.h lines 105-108). -/
def isRaised (s : Flag) : Bool := s.word != 0

/-- The test of `wait` (EventFlag.cc line 88) with the default mask `0xFFFFFFFF` (EventFlag.h lines 59-60, 97). -/
def ready (s : Flag) : Bool := s.word &&& 0xFFFFFFFF#64 != 0

/-- The test of `wait` (EventFlag.cc line 88) with the mask `sourceMask(snum)` (EventFlag.h lines 71-72). -/
def readyFor (s : Flag) (snum : Nat) : Bool := s.word &&& bit snum != 0

end Verif.Collect
