import Verif.Model.DVec
/-!
# Specification of vectors: lists

No blocks, no sharing: a vector is a type, whether it is a scalar, and a list; a message is the vector that was sent.
-/
namespace Verif.DVec

structure AVec (α : Type) where
  ty : Nat
  scalar : Bool
  l : List (Option α)

structure AWorld (α : Type) where
  vecs : List (AVec α)
  msgs : List (AVec α)
  log : List (Obs α)

def astart {α : Type} : AWorld α := ⟨[], [], []⟩

def AWorld.see {α : Type} (s : AWorld α) (o : Obs α) : AWorld α := { s with log := s.log ++ [o] }

def AWorld.upd {α : Type} (s : AWorld α) (i : Nat) (a : AVec α) : AWorld α := { s with vecs := s.vecs.set i a }

/-- Elements that are added by `resize`: values of a type with values in blocks are arbitrary, others are new, objects are missing. -/
def fresh {α : Type} (e : Env α) (t k : Nat) : List (Option α) :=
  match e.kind t with
  | some .bin => (List.range k).map (fun i => some (e.junk i))
  | some .spec => List.replicate k (some (e.zero t))
  | _ => List.replicate k none

/-- A new vector of `n` elements. -/
def AWorld.create {α : Type} (e : Env α) (s : AWorld α) (t : Nat) (num : Option Nat) (data : Option (List α)) : Res (AWorld α) :=
  let n := num.getD 1
  match e.kind t, data with
  | none, _ => .ok (s.see .failed)
  | some .dyn, some _ => .ok (s.see .failed)
  | some .dyn, none => .ok { s with vecs := s.vecs ++ [⟨t, num.isNone, List.replicate n none⟩] }
  | some _, none => .ok { s with vecs := s.vecs ++ [⟨t, num.isNone, List.replicate n (some (e.zero t))⟩] }
  | some _, some d => if d.length < n then .ub else .ok { s with vecs := s.vecs ++ [⟨t, num.isNone, (d.take n).map some⟩] }

/-- Set an element of type `t`, or add one at the end. -/
def AWorld.setElem {α : Type} (s : AWorld α) (i : Nat) (a : AVec α) (n t : Nat) (x : α) (sc : Bool) : AWorld α :=
  if a.ty = 0 then if n = 0 then s.upd i ⟨t, sc, [some x]⟩ else s.see .failed
  else if a.ty ≠ t ∨ a.l.length < n then s.see .failed
  else if a.l.length = n then s.upd i ⟨a.ty, false, a.l ++ [some x]⟩
  else s.upd i { a with l := a.l.set n (some x) }

def AWorld.step {α : Type} (e : Env α) (s : AWorld α) : Op α → Res (AWorld α)
  | .empty => .ok { s with vecs := s.vecs ++ [⟨0, false, []⟩] }
  | .create t num data => s.create e t num data
  | .receive m => (s.msgs[m]?).elim (.ok s) (fun a => .ok { s with vecs := s.vecs ++ [a] })
  | .copy i => (s.vecs[i]?).elim (.ok s) (fun a => .ok { s with vecs := s.vecs ++ [a] })
  | .assign i n t x => (s.vecs[i]?).elim (.ok s) (fun a =>
      .ok (if e.kind t = none ∨ e.kind t = some .dyn then s.see .failed else s.setElem i a n t x true))
  | .put i n x => (s.vecs[i]?).elim (.ok s) (fun a =>
      .ok (if e.kind (e.typeOf x) ≠ some .dyn then s.see .failed else s.setElem i a n (e.typeOf x) x false))
  | .resize i n => (s.vecs[i]?).elim (.ok s) (fun a =>
      .ok (if n = 0 ∨ a.ty = 0 then s.see .failed
        else s.upd i ⟨a.ty, a.scalar && decide (n = 1), a.l.take n ++ fresh e a.ty (n - a.l.length)⟩))
  | .remove i n => (s.vecs[i]?).elim (.ok s) (fun a =>
      .ok (if a.ty = 0 ∨ a.l.length ≠ n + 1 ∨ n = 0 then s.see .failed else s.upd i { a with l := a.l.take n }))
  | .send i => (s.vecs[i]?).elim (.ok s) (fun a => .ok { s with msgs := s.msgs ++ [a] })
  | .read i n => (s.vecs[i]?).elim (.ok s) (fun a =>
      .ok (if a.ty = 0 then s.see .failed
        else match a.l[n]? with
          | none => s.see .failed
          | some (some x) => s.see (.val x)
          | some none => (s.upd i { a with l := a.l.set n (some (e.zero a.ty)) }).see (.val (e.zero a.ty))))
  | .valid i n => (s.vecs[i]?).elim (.ok s) (fun a =>
      .ok (if a.ty = 0 then s.see (.flag false)
        else match a.l[n]? with
          | none => s.see .failed
          | some o => s.see (.flag o.isSome)))
  | .size i => (s.vecs[i]?).elim (.ok s) (fun a => .ok (s.see (.num a.l.length)))
  | .scalar i => (s.vecs[i]?).elim (.ok s) (fun a => if a.ty = 0 then .ub else .ok (s.see (.flag a.scalar)))

def AWorld.run {α : Type} (e : Env α) (s : AWorld α) : List (Op α) → Res (AWorld α)
  | [] => .ok s
  | o :: r => do
    let s ← s.step e o
    s.run e r

/-- Type 0 is none, and objects have blocks. -/
def Fair {α : Type} (e : Env α) : Prop := e.kind 0 = none ∧ ∀ a, 0 < e.blocks a

end Verif.DVec
