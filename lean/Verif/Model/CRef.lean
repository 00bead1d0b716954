/-!
# Counted references (DMI/src/CountedRefBase.{h,cc}, CountedRefTarget.{h,cc})

The configuration without `COUNTEDREF_LINKED_LIST` (the one that is built), i.e. targets hold an
integer reference count.  Simplifications: a target's contents are one number, which `clone` copies
(targets holding further references are not modelled); `modifyAttachFlags` is the identity (not
overridden except by `SingularRefTarget`); `DMI::DEEP` and `depth > 0` are one flag `deep`; each call
is atomic (the code locks the target's mutex).
-/
namespace Verif.CRef

/-- A reference: target, `locked_`, `writable_`, `shared_` (CountedRefBase.h:360-391). -/
structure Ref where
  tgt : Option Nat
  locked : Bool
  writable : Bool
  shared : Bool
  deriving DecidableEq, Repr

/-- A target: `ref_count_`, `anon_`, whether it still exists, how often it was deleted, and its
contents (CountedRefTarget.h:176-184). -/
structure Obj where
  count : Int
  anon : Bool
  alive : Bool
  frees : Nat
  val : Nat
  deriving DecidableEq, Repr

/-- All references and all targets ever created; both are addressed by position. -/
structure State where
  refs : List Ref
  objs : List Obj
  deriving DecidableEq, Repr

/-- `DMI::DMIFlags` as far as used here (DMI/src/DMI.h:100-180). -/
structure Flags where
  external : Bool := false
  autoclone : Bool := false
  readonly : Bool := false
  shared : Bool := false
  cow : Bool := false
  locked : Bool := false
  unlocked : Bool := false
  deep : Bool := false
  deriving DecidableEq, Repr

/-- `CountedRefBase::empty` (CountedRefBase.h:346-353). -/
def empty : Ref := ⟨none, false, false, false⟩

/-- A fresh target (CountedRefTarget.cc:72-93). -/
def fresh (v : Nat) : Obj := ⟨0, false, true, 0, v⟩

/-- Overwrite one reference. -/
def setRef (s : State) (r : Nat) (x : Ref) : State := ⟨s.refs.set r x, s.objs⟩
/-- Overwrite one target. -/
def setObj (s : State) (t : Nat) (o : Obj) : State := ⟨s.refs, s.objs.set t o⟩

/-- `DMI::SHARED` / `DMI::COW` given, else keep (CountedRefBase.cc:167-172, 211-216, 254-257). -/
def sharedBy (f : Flags) (old : Bool) : Bool := if f.shared then true else if f.cow then false else old
/-- `DMI::LOCKED` / `DMI::UNLOCKED` given, else keep (CountedRefBase.cc:250-253, 270-273). -/
def lockedBy (f : Flags) (old : Bool) : Bool := if f.locked then true else if f.unlocked then false else old

/-- `CountedRefBase::detach` after its lock check (CountedRefBase.cc:341-400); also the destructor
(CountedRefBase.h:429-435), which unlocks first.  `none` is use of a deleted target. -/
def drop (s : State) (r : Nat) : Option State :=
  match s.refs[r]? with
  | none => none
  | some x =>
    match x.tgt with
    | none => some s
    | some t =>
      match s.objs[t]? with
      | none => none
      | some o =>
        if o.alive then
          if o.count - 1 = 0 ∧ o.anon then
            some (setRef (setObj s t ⟨o.count - 1, o.anon, false, o.frees + 1, o.val⟩) r empty)
          else some (setRef (setObj s t ⟨o.count - 1, o.anon, o.alive, o.frees, o.val⟩) r empty)
        else none

/-- `CountedRefBase::detach` (CountedRefBase.cc:333-401).  The flag says whether it returned normally
(`false`: exception). -/
def detach (s : State) (r : Nat) : Option (State × Bool) :=
  match s.refs[r]? with
  | none => none
  | some x =>
    if x.tgt = none then some (s, true)
    else if x.locked then some (s, false)
    else (drop s r).map (·, true)

/-- `CountedRefBase::cloneTarget` (CountedRefBase.cc:53-88), called by `privatize` with the locking and
sharing flags masked out. -/
def cloneTarget (s : State) (r : Nat) (readonly : Bool) : Option State :=
  match s.refs[r]? with
  | none => none
  | some x =>
    match x.tgt with
    | none => some s
    | some t =>
      match s.objs[t]? with
      | none => none
      | some o =>
        if o.alive then
          let s1 := setObj s t ⟨o.count - 1, o.anon, o.alive, o.frees, o.val⟩
          some ⟨s1.refs.set r ⟨some s.objs.length, false, !readonly, false⟩,
            s1.objs ++ [⟨1, true, true, 0, o.val⟩]⟩
        else none

/-- `CountedRefBase::isOnlyRef` (CountedRefBase.h:260-267) for a valid ref. -/
def onlyRef (o : Obj) : Bool := o.count == 1

/-- `CountedRefBase::privatize` (CountedRefBase.cc:232-261). -/
def privatize (s : State) (r : Nat) (f : Flags) : Option (State × Bool) :=
  match s.refs[r]? with
  | none => none
  | some x =>
    match x.tgt with
    | none => some (s, false)
    | some t =>
      match s.objs[t]? with
      | none => none
      | some o =>
        if o.alive then
          let s1 := if !o.anon || !onlyRef o || !x.writable || f.deep then cloneTarget s r f.readonly else some s
          match s1 with
          | none => none
          | some s1 =>
            match s1.refs[r]? with
            | none => none
            | some y => some (setRef s1 r ⟨y.tgt, lockedBy f y.locked, true, sharedBy f y.shared⟩, true)
        else none

/-- `CountedRefBase::copy` (CountedRefBase.cc:125-176): `r` becomes a copy of `other`. -/
def copy (s : State) (r other : Nat) (f : Flags) : Option (State × Bool) :=
  if other = r then some (s, true)
  else
    match detach s r with
    | none => none
    | some (s, false) => some (s, false)
    | some (s, true) =>
      match s.refs[other]? with
      | none => none
      | some y =>
        match y.tgt with
        | none => some (setRef s r empty, true)
        | some t =>
          match s.objs[t]? with
          | none => none
          | some o =>
            if o.alive then
              let s1 := setObj s t ⟨o.count + 1, o.anon, o.alive, o.frees, o.val⟩
              if f.deep then privatize (setRef s1 r ⟨some t, false, false, false⟩) r f
              else some (setRef s1 r ⟨some t, f.locked, y.writable, sharedBy f y.shared⟩, true)
            else none

/-- `CountedRefBase::xfer` (CountedRefBase.cc:179-229): `r` takes over from `other`. -/
def xfer (s : State) (r other : Nat) (f : Flags) : Option (State × Bool) :=
  if other = r then some (s, true)
  else
    match detach s r with
    | none => none
    | some (s, false) => some (s, false)
    | some (s, true) =>
      match s.refs[other]? with
      | none => none
      | some y =>
        match y.tgt with
        | none => some (setRef s r empty, true)
        | some t =>
          match s.objs[t]? with
          | none => none
          | some o =>
            if o.alive then
              if y.locked then some (s, false)
              else
                let s1 := setRef (setRef s r ⟨some t, f.locked, y.writable, sharedBy f y.shared⟩) other empty
                if f.deep then
                  privatize (setRef s1 r ⟨some t, false, y.writable, sharedBy f y.shared⟩) r f
                else some (s1, true)
            else none

/-- `CountedRefBase::change` (CountedRefBase.cc:264-282). -/
def change (s : State) (r : Nat) (f : Flags) : Option (State × Bool) :=
  match s.refs[r]? with
  | none => none
  | some x =>
    if x.tgt = none then some (s, false)
    else some (setRef s r ⟨x.tgt, lockedBy f x.locked, if f.readonly then false else x.writable,
      sharedBy f x.shared⟩, true)

/-- `lock` and `unlock` (CountedRefBase.h:195-211). -/
def setLock (s : State) (r : Nat) (l : Bool) : Option (State × Bool) :=
  match s.refs[r]? with
  | none => none
  | some x => some (setRef s r ⟨x.tgt, l, x.writable, x.shared⟩, true)

/-- `CountedRefBase::attach` (CountedRefBase.cc:285-330) to an existing target `t`. -/
def attach (s : State) (r t : Nat) (f : Flags) : Option (State × Bool) :=
  match s.refs[r]? with
  | none => none
  | some x =>
    if x.tgt = some t then some (s, true)
    else
      match s.objs[t]? with
      | none => none
      | some o0 =>
        if o0.alive then
          match detach s r with
          | none => none
          | some (s, false) => some (s, false)
          | some (s, true) =>
            match s.objs[t]? with
            | none => none
            | some o =>
              if o.count = 0 ∧ f.autoclone then
                some (⟨s.refs.set r ⟨some s.objs.length, f.locked, true, f.shared⟩,
                  s.objs ++ [⟨1, true, true, 0, o.val⟩]⟩, true)
              else
                let anon := if o.count = 0 then !f.external else o.anon
                let s1 := setObj s t ⟨o.count + 1, anon, o.alive, o.frees, o.val⟩
                some (setRef s1 r ⟨some t, f.locked, anon || !f.readonly, f.shared⟩, true)
        else none

/-- Writing the contents through `getTargetWr` (CountedRefBase.h:140-148, 254-255). -/
def write (s : State) (r v : Nat) : Option (State × Bool) :=
  match s.refs[r]? with
  | none => none
  | some x =>
    match x.tgt with
    | none => some (s, false)
    | some t =>
      match s.objs[t]? with
      | none => none
      | some o =>
        if o.alive then
          let s1 := if (x.writable && onlyRef o) || x.shared then some (s, true) else privatize s r {}
          match s1 with
          | none => none
          | some (s1, _) =>
            match s1.refs[r]? with
            | none => none
            | some y =>
              match y.tgt with
              | none => none
              | some t1 =>
                match s1.objs[t1]? with
                | none => none
                | some o1 => some (setObj s1 t1 ⟨o1.count, o1.anon, o1.alive, o1.frees, v⟩, true)
        else none

/-- What is read through a reference (`getTarget`, CountedRefBase.h:129-134). -/
def read (s : State) (r : Nat) : Option Nat :=
  match s.refs[r]? with
  | none => none
  | some x => x.tgt.bind fun t => (s.objs[t]?).map Obj.val

/-- Calls. -/
inductive Op where
  | newObj (v : Nat)
  | newRef
  | attach (r t : Nat) (f : Flags)
  | copy (r other : Nat) (f : Flags)
  | xfer (r other : Nat) (f : Flags)
  | privatize (r : Nat) (f : Flags)
  | change (r : Nat) (f : Flags)
  | lock (r : Nat) (l : Bool)
  | detach (r : Nat)
  | destroy (r : Nat)
  | write (r v : Nat)

/-- One call: `none` is undefined behaviour, the flag is `false` if an exception was thrown. -/
def step (s : State) : Op → Option (State × Bool)
  | .newObj v => some (⟨s.refs, s.objs ++ [fresh v]⟩, true)
  | .newRef => some (⟨s.refs ++ [empty], s.objs⟩, true)
  | .attach r t f => attach s r t f
  | .copy r o f => copy s r o f
  | .xfer r o f => xfer s r o f
  | .privatize r f => privatize s r f
  | .change r f => change s r f
  | .lock r l => setLock s r l
  | .detach r => detach s r
  | .destroy r => (drop s r).map (·, true)
  | .write r v => write s r v

/-- A history starting from nothing. -/
def run : List Op → State → Option State
  | [], s => some s
  | o :: os, s => match step s o with
    | none => none
    | some (s', _) => run os s'

end Verif.CRef
