import Verif.Model.Bytes
import Verif.Model.Outcome
/-!
# Block sets (DMI/src/BlockSet.h, BlockSet.cc)

A set of blocks with a cached count and a read cursor.  A block is its contents (references to blocks
are modelled in `CRef`).  The cursor is an index into the list, or nothing when it was never initialised
or its element was removed; using it then is undefined behaviour.  `cursize` is an unbounded integer.
-/
namespace Verif.BlockSet

/-- `refs`, `cursize`, `cursor_iter`, `cursor_offset` (BlockSet.h:232-238). -/
structure BS where
  refs : List Bytes
  cursize : Int
  cursor : Option (Nat × Nat)
  deriving DecidableEq, Repr

/-- `BlockSet()` (BlockSet.h:51-53). -/
def new : BS := ⟨[], 0, none⟩

/-- Effect of `push_back` on the cursor: `end()` stays `end()`. -/
def afterPush (n : Nat) : Option (Nat × Nat) → Option (Nat × Nat)
  | some (i, o) => some (if i = n then (n + 1, o) else (i, o))
  | none => none

/-- `push`, `pushNew` (BlockSet.h:118-142). -/
def push (s : BS) (b : Bytes) : BS := ⟨s.refs ++ [b], s.cursize + 1, afterPush s.refs.length s.cursor⟩

/-- `pushFront` (BlockSet.h:147-152). -/
def pushFront (s : BS) (b : Bytes) : BS :=
  ⟨b :: s.refs, s.cursize + 1, s.cursor.map fun c => (c.1 + 1, c.2)⟩

/-- Effect of `pop_front` on the cursor. -/
def afterPop : Option (Nat × Nat) → Option (Nat × Nat)
  | some (i + 1, o) => some (i, o)
  | _ => none

/-- `pop` (BlockSet.h:98-113). -/
def pop (s : BS) : Res (Bytes × BS) :=
  match s.refs with
  | [] => .ub
  | b :: rest => .ok (b, ⟨rest, s.cursize - 1, afterPop s.cursor⟩)

/-- `clear` (BlockSet.h:84-85). -/
def clear (_ : BS) : BS := ⟨[], 0, none⟩

/-- Loop of `popMove` (BlockSet.cc:36-40). -/
def moveLoop : Nat → BS → BS → Res (BS × BS)
  | 0, s, out => .ok (s, out)
  | n + 1, s, out =>
    match s.refs with
    | [] => .ub
    | b :: rest => moveLoop n ⟨rest, s.cursize, afterPop s.cursor⟩ (push out b)

/-- `popMove` into another set (BlockSet.cc:33-42). -/
def popMove (s out : BS) (count : Nat) : Res (BS × BS) :=
  if (count : Int) > s.cursize then .err
  else
    match moveLoop count s out with
    | .ok (s, out) => .ok (⟨s.refs, s.cursize - count, s.cursor⟩, out)
    | .err => .err
    | .ub => .ub

/-- `pushCopy` of another set (BlockSet.cc:46-55). -/
def pushCopy (s other : BS) : BS :=
  ⟨s.refs ++ other.refs, s.cursize + other.cursize,
   match s.cursor with
   | some (i, o) => some (if i = s.refs.length then (s.refs.length + other.refs.length, o) else (i, o))
   | none => none⟩

/-- `copyAll` into another set (BlockSet.h:157-162); also the copy constructor and assignment. -/
def copyAll (s : BS) : BS := pushCopy new s

/-- `initCursor` (BlockSet.cc:66-74). -/
def initCursor (s : BS) : Nat × BS := ((s.refs.map List.length).sum, ⟨s.refs, s.cursize, some (0, 0)⟩)

/-- Loop of `getCursorData` (BlockSet.cc:79-94): the chunk handed out, or nothing at the end of data, and
the new cursor.  The loop runs at most once per block plus once. -/
def getCursorFrom (refs : List Bytes) : Nat → Nat → Nat → Nat → Option Bytes × (Nat × Nat)
  | 0, i, o, _ => (none, (i, o))
  | fuel + 1, i, o, size =>
    match refs[i]? with
    | none => (none, (i, o))
    | some b =>
      if b.length - o = 0 then getCursorFrom refs fuel (i + 1) 0 size
      else (some ((b.drop o).take (min size (b.length - o))), (i, o + min size (b.length - o)))

/-- `getCursorData` (BlockSet.cc:77-96). -/
def getCursor (s : BS) (size : Nat) : Res (Option Bytes × BS) :=
  match s.cursor with
  | none => .ub
  | some (i, o) =>
    let r := getCursorFrom s.refs (s.refs.length + 1) i o size
    .ok (r.1, ⟨s.refs, s.cursize, some r.2⟩)

/-- First loop of `flushToCursor` (BlockSet.cc:102-106). -/
def advance (refs : List Bytes) : Nat → Nat → Nat → Nat × Nat
  | 0, i, o => (i, o)
  | fuel + 1, i, o =>
    match refs[i]? with
    | none => (i, o)
    | some b => if o ≥ b.length then advance refs fuel (i + 1) 0 else (i, o)

/-- `flushToCursor` (BlockSet.cc:99-110); note that `cursize` is not adjusted. -/
def flush (s : BS) : Res (Int × BS) :=
  match s.cursor with
  | none => .ub
  | some (i, o) =>
    let c := advance s.refs (s.refs.length + 1) i o
    .ok (s.cursize, ⟨s.refs.drop c.1, s.cursize, some (0, c.2)⟩)

/-- Calls on a family of block sets, each addressed by a number. -/
inductive Op where
  | push (i : Nat) (b : Bytes)
  | pushFront (i : Nat) (b : Bytes)
  | pop (i : Nat)
  | clear (i : Nat)
  | popMove (i j : Nat) (n : Nat)
  | pushCopy (i j : Nat)
  | copyAll (i j : Nat)
  | initCursor (i : Nat)
  | getCursor (i : Nat) (n : Nat)
  | flush (i : Nat)

/-- Replace one set. -/
def upd (f : Nat → BS) (i : Nat) (s : BS) : Nat → BS := fun k => if k = i then s else f k

/-- One call.  `popMove`, `pushCopy` and `copyAll` are modelled between two different sets. -/
def step (f : Nat → BS) : Op → Res (Nat → BS)
  | .push i b => .ok (upd f i (push (f i) b))
  | .pushFront i b => .ok (upd f i (pushFront (f i) b))
  | .pop i => match pop (f i) with | .ok (_, s) => .ok (upd f i s) | .err => .err | .ub => .ub
  | .clear i => .ok (upd f i (clear (f i)))
  | .popMove i j n => match popMove (f i) (f j) n with
    | .ok (s, t) => .ok (upd (upd f i s) j t) | .err => .err | .ub => .ub
  | .pushCopy i j => .ok (upd f i (pushCopy (f i) (f j)))
  | .copyAll i j => .ok (upd f j (copyAll (f i)))
  | .initCursor i => .ok (upd f i (initCursor (f i)).2)
  | .getCursor i n => match getCursor (f i) n with | .ok (_, s) => .ok (upd f i s) | .err => .err | .ub => .ub
  | .flush i => match flush (f i) with | .ok (_, s) => .ok (upd f i s) | .err => .err | .ub => .ub

/-- A history; an exception changes nothing, undefined behaviour ends it. -/
def run : List Op → (Nat → BS) → Option (Nat → BS)
  | [], f => some f
  | o :: os, f => match step f o with
    | .ok f' => run os f'
    | .err => run os f
    | .ub => none

/-- Pushes (`some b`) and pops (`none`) on one set; the blocks popped and the set left. -/
def serve : List (Option Bytes) → BS → Res (List Bytes × BS)
  | [], s => .ok ([], s)
  | some b :: es, s => serve es (push s b)
  | none :: es, s => match pop s with
    | .ok (b, s') => match serve es s' with
      | .ok (bs, t) => .ok (b :: bs, t)
      | .err => .err
      | .ub => .ub
    | .err => .err
    | .ub => .ub

/-- Repeated `getCursorData` with the given maximum sizes. -/
def reads : List Nat → BS → Res (List (Option Bytes) × BS)
  | [], s => .ok ([], s)
  | n :: ns, s => match getCursor s n with
    | .ok (d, s') => match reads ns s' with
      | .ok (ds, t) => .ok (d :: ds, t)
      | .err => .err
      | .ub => .ub
    | .err => .err
    | .ub => .ub

end Verif.BlockSet
