import Verif.Model.Mpi
import Mathlib.Algebra.BigOperators.Fin
import Mathlib.Algebra.BigOperators.Group.Finset.Basic
import Mathlib.Algebra.Order.BigOperators.Group.Finset

namespace Verif.Mpi

variable {n : Nat} {α : Type}

theorem upd_same {ι β : Type} [DecidableEq ι] (f : ι → β) (p : ι) (v : β) : upd f p v p = v := by
  unfold upd; rw [if_pos rfl]

theorem upd_other {ι β : Type} [DecidableEq ι] (f : ι → β) (p i : ι) (v : β) (h : i ≠ p) :
    upd f p v i = f i := by
  unfold upd; rw [if_neg h]

theorem sum_upd {β : Type} (f : Fin n → β) (p : Fin n) (v : β) (g : Fin n → β → Nat) :
    (∑ i, g i (upd f p v i)) + g p (f p) = (∑ i, g i (f i)) + g p v := by
  rw [← Finset.add_sum_erase _ _ (Finset.mem_univ p),
    ← Finset.add_sum_erase _ (fun i => g i (f i)) (Finset.mem_univ p), upd_same]
  have : ∑ x ∈ Finset.univ.erase p, g x (upd f p v x) = ∑ x ∈ Finset.univ.erase p, g x (f x) := by
    refine Finset.sum_congr rfl (fun x hx => ?_)
    rw [upd_other _ _ _ _ (Finset.ne_of_mem_erase hx)]
  rw [this]
  omega

/-- Weights of what is on the way. -/
structure W (n : Nat) (α : Type) where
  q : Fin n → Fin n → Msg α → Nat
  c : Fin n → Fin n → Msg α → Nat
  j : Fin n → Job n α → Nat

def qSum (w : W n α) (p : Fin n) (l : List (Fin n × Msg α)) : Nat :=
  (l.map (fun x => w.q p x.1 x.2)).sum

def cSum (w : W n α) (p d : Fin n) (l : List (Msg α)) : Nat := (l.map (w.c p d)).sum

def jSum (w : W n α) (q : Fin n) (l : List (Job n α)) : Nat := (l.map (w.j q)).sum

/-- The total weight of what is on the way. -/
def total (w : W n α) (s : Sys n α) : Nat :=
  (∑ p, qSum w p (s.queue p)) + (∑ p, ∑ d, cSum w p d (s.chan p d)) + ∑ q, jSum w q (s.jobs q)

theorem total_push (w : W n α) (s : Sys n α) (p d : Fin n) (m : Msg α) :
    total w (s.push p d m) = total w s + w.q p d m := by
  have h := sum_upd s.queue p (s.queue p ++ [(d, m)]) (qSum w)
  have e : qSum w p (s.queue p ++ [(d, m)]) = qSum w p (s.queue p) + w.q p d m := by
    simp only [qSum, List.map_append, List.sum_append, List.map_cons, List.map_nil, List.sum_cons,
      List.sum_nil, Nat.add_zero]
  rw [e] at h
  unfold total Sys.push
  dsimp only
  omega

/-- `s` after the head of a channel was taken. -/
def Sys.pop (s : Sys n α) (src q : Fin n) (rest : List (Msg α)) : Sys n α :=
  { s with chan := upd s.chan src (upd (s.chan src) q rest) }

theorem total_chan (w : W n α) (s : Sys n α) (p d : Fin n) (l : List (Msg α)) :
    (∑ a, ∑ b, cSum w a b (upd s.chan p (upd (s.chan p) d l) a b)) + cSum w p d (s.chan p d)
      = (∑ a, ∑ b, cSum w a b (s.chan a b)) + cSum w p d l := by
  have h := sum_upd s.chan p (upd (s.chan p) d l) (fun a row => ∑ b, cSum w a b (row b))
  have h2 := sum_upd (s.chan p) d l (fun b x => cSum w p b x)
  omega

theorem total_pop (w : W n α) (s : Sys n α) (src q : Fin n) (m : Msg α) (rest : List (Msg α))
    (h : s.chan src q = m :: rest) :
    total w (s.pop src q rest) + w.c src q m = total w s := by
  have h1 := total_chan w s src q rest
  rw [h] at h1
  have e : cSum w src q (m :: rest) = w.c src q m + cSum w src q rest := by
    simp only [cSum, List.map_cons, List.sum_cons]
  rw [e] at h1
  unfold total Sys.pop
  dsimp only
  omega

/-- `s` after the head of the send queue of `p` was sent. -/
def Sys.sent (s : Sys n α) (p d : Fin n) (m : Msg α) (rest : List (Fin n × Msg α)) : Sys n α :=
  { s with queue := upd s.queue p rest,
           chan := upd s.chan p (upd (s.chan p) d (s.chan p d ++ [m])) }

theorem total_sent (w : W n α) (s : Sys n α) (p d : Fin n) (m : Msg α)
    (rest : List (Fin n × Msg α)) (h : s.queue p = (d, m) :: rest) :
    total w (s.sent p d m rest) + w.q p d m = total w s + w.c p d m := by
  have h1 := total_chan w s p d (s.chan p d ++ [m])
  have h2 := sum_upd s.queue p rest (qSum w)
  rw [h] at h2
  have e : qSum w p ((d, m) :: rest) = w.q p d m + qSum w p rest := by
    simp only [qSum, List.map_cons, List.sum_cons]
  have e2 : cSum w p d (s.chan p d ++ [m]) = cSum w p d (s.chan p d) + w.c p d m := by
    simp only [cSum, List.map_append, List.sum_append, List.map_cons, List.map_nil, List.sum_cons,
      List.sum_nil, Nat.add_zero]
  rw [e] at h2
  rw [e2] at h1
  unfold total Sys.sent
  dsimp only
  omega

/-- `s` with one more work order. -/
def Sys.addJob (s : Sys n α) (q : Fin n) (j : Job n α) : Sys n α :=
  { s with jobs := upd s.jobs q (s.jobs q ++ [j]) }

/-- `s` with one work order less. -/
def Sys.dropJob (s : Sys n α) (q : Fin n) (k : Nat) : Sys n α :=
  { s with jobs := upd s.jobs q ((s.jobs q).eraseIdx k) }

theorem total_addJob (w : W n α) (s : Sys n α) (q : Fin n) (j : Job n α) :
    total w (s.addJob q j) = total w s + w.j q j := by
  have h := sum_upd s.jobs q (s.jobs q ++ [j]) (jSum w)
  have e : jSum w q (s.jobs q ++ [j]) = jSum w q (s.jobs q) + w.j q j := by
    simp only [jSum, List.map_append, List.sum_append, List.map_cons, List.map_nil, List.sum_cons,
      List.sum_nil, Nat.add_zero]
  rw [e] at h
  unfold total Sys.addJob
  dsimp only
  omega

theorem sum_eraseIdx (f : Job n α → Nat) (l : List (Job n α)) (k : Nat) (j : Job n α)
    (h : l[k]? = some j) : ((l.eraseIdx k).map f).sum + f j = (l.map f).sum := by
  induction l generalizing k with
  | nil => simp at h
  | cons x xs ih =>
    cases k with
    | zero =>
      simp only [List.getElem?_cons_zero, Option.some.injEq] at h
      subst h
      simp only [List.eraseIdx_cons_zero, List.map_cons, List.sum_cons]
      omega
    | succ k =>
      simp only [List.getElem?_cons_succ] at h
      have := ih k h
      simp only [List.eraseIdx_cons_succ, List.map_cons, List.sum_cons]
      omega

theorem total_dropJob (w : W n α) (s : Sys n α) (q : Fin n) (k : Nat) (j : Job n α)
    (h : (s.jobs q)[k]? = some j) :
    total w (s.dropJob q k) + w.j q j = total w s := by
  have h1 := sum_upd s.jobs q ((s.jobs q).eraseIdx k) (jSum w)
  have h2 := sum_eraseIdx (w.j q) (s.jobs q) k j h
  unfold total Sys.dropJob
  dsimp only
  unfold jSum at *
  omega

/-! ### Being on the way -/

/-- A message between two processes. -/
def Fl (s : Sys n α) (p d : Fin n) (m : Msg α) : Prop := (d, m) ∈ s.queue p ∨ m ∈ s.chan p d

theorem fl_push {s : Sys n α} {p d : Fin n} {m : Msg α} {p' d' : Fin n} {m' : Msg α}
    (h : Fl (s.push p d m) p' d' m') : Fl s p' d' m' ∨ (p' = p ∧ d' = d ∧ m' = m) := by
  rcases h with h | h
  · unfold Sys.push at h
    dsimp only at h
    by_cases hp : p' = p
    · subst hp
      rw [upd_same] at h
      rcases List.mem_append.1 h with h | h
      · exact Or.inl (Or.inl h)
      · rw [List.mem_singleton, Prod.mk.injEq] at h
        exact Or.inr ⟨rfl, h.1, h.2⟩
    · rw [upd_other _ _ _ _ hp] at h
      exact Or.inl (Or.inl h)
  · exact Or.inl (Or.inr h)

theorem mem_chan_upd {s : Sys n α} {p d a b : Fin n} {l : List (Msg α)} {m : Msg α}
    (h : m ∈ upd s.chan p (upd (s.chan p) d l) a b) :
    m ∈ s.chan a b ∨ (a = p ∧ b = d ∧ m ∈ l) := by
  by_cases ha : a = p
  · subst ha
    rw [upd_same] at h
    by_cases hb : b = d
    · subst hb
      rw [upd_same] at h
      exact Or.inr ⟨rfl, rfl, h⟩
    · rw [upd_other _ _ _ _ hb] at h
      exact Or.inl h
  · rw [upd_other _ _ _ _ ha] at h
    exact Or.inl h

theorem fl_pop {s : Sys n α} {src q : Fin n} {m : Msg α} {rest : List (Msg α)}
    (hc : s.chan src q = m :: rest) {p' d' : Fin n} {m' : Msg α}
    (h : Fl (s.pop src q rest) p' d' m') : Fl s p' d' m' := by
  rcases h with h | h
  · exact Or.inl h
  · rcases mem_chan_upd h with h1 | ⟨e1, e2, h1⟩
    · exact Or.inr h1
    · subst e1; subst e2
      refine Or.inr ?_
      rw [hc]
      exact List.mem_cons_of_mem _ h1

theorem fl_sent {s : Sys n α} {p d : Fin n} {m : Msg α} {rest : List (Fin n × Msg α)}
    (hq : s.queue p = (d, m) :: rest) {p' d' : Fin n} {m' : Msg α}
    (h : Fl (s.sent p d m rest) p' d' m') : Fl s p' d' m' := by
  rcases h with h | h
  · unfold Sys.sent at h
    dsimp only at h
    by_cases hp : p' = p
    · subst hp
      rw [upd_same] at h
      refine Or.inl ?_
      rw [hq]
      exact List.mem_cons_of_mem _ h
    · rw [upd_other _ _ _ _ hp] at h
      exact Or.inl h
  · rcases mem_chan_upd h with h1 | ⟨e1, e2, h1⟩
    · exact Or.inr h1
    · subst e1; subst e2
      rcases List.mem_append.1 h1 with h2 | h2
      · exact Or.inr h2
      · rw [List.mem_singleton] at h2
        subst h2
        refine Or.inl ?_
        rw [hq]
        exact List.mem_cons_self

theorem le_sum_of_mem {β : Type} (f : β → Nat) (l : List β) (x : β) (h : x ∈ l) :
    f x ≤ (l.map f).sum := by
  induction l with
  | nil => cases h
  | cons y ys ih =>
    rw [List.map_cons, List.sum_cons]
    rcases List.mem_cons.1 h with h | h
    · subst h; omega
    · have := ih h; omega

/-- A weight that does not depend on where a message is. -/
theorem le_total_fl (w : W n α) (s : Sys n α) (p d : Fin n) (m : Msg α) (k : Nat)
    (hq : w.q p d m = k) (hc : w.c p d m = k) (h : Fl s p d m) : k ≤ total w s := by
  unfold total
  rcases h with h | h
  · have h1 := le_sum_of_mem (fun x => w.q p x.1 x.2) (s.queue p) (d, m) h
    have h2 := Finset.single_le_sum (f := fun p => qSum w p (s.queue p)) (fun _ _ => Nat.zero_le _)
      (Finset.mem_univ p)
    dsimp only at h1 h2
    unfold qSum at h2
    unfold qSum
    omega
  · have h1 := le_sum_of_mem (w.c p d) (s.chan p d) m h
    have h2 := Finset.single_le_sum (f := fun d => cSum w p d (s.chan p d))
      (fun _ _ => Nat.zero_le _) (Finset.mem_univ d)
    have h3 := Finset.single_le_sum (f := fun p => ∑ d, cSum w p d (s.chan p d))
      (fun _ _ => Nat.zero_le _) (Finset.mem_univ p)
    have h4 : cSum w p d (s.chan p d) = ((s.chan p d).map (w.c p d)).sum := rfl
    omega

theorem le_total_job (w : W n α) (s : Sys n α) (q : Fin n) (j : Job n α) (h : j ∈ s.jobs q) :
    w.j q j ≤ total w s := by
  unfold total
  have h1 := le_sum_of_mem (w.j q) (s.jobs q) j h
  have h2 := Finset.single_le_sum (f := fun q => jSum w q (s.jobs q)) (fun _ _ => Nat.zero_le _)
    (Finset.mem_univ q)
  have h4 : jSum w q (s.jobs q) = ((s.jobs q).map (w.j q)).sum := rfl
  omega

theorem total_quiet (w : W n α) (s : Sys n α) (hq : ∀ p, s.queue p = [])
    (hc : ∀ p d, s.chan p d = []) (hj : ∀ q, s.jobs q = []) : total w s = 0 := by
  unfold total
  simp only [hq, hc, hj, qSum, cSum, jSum, List.map_nil, List.sum_nil, Finset.sum_const_zero, Nat.add_zero]

/-! ### Steps -/

theorem send_eq {s s' : Sys n α} {p : Fin n} (h : s.send p = some s') :
    ∃ d m rest, s.queue p = (d, m) :: rest ∧ s' = s.sent p d m rest := by
  unfold Sys.send at h
  split at h
  · cases h
  · rename_i d m rest hq
    simp only [Option.some.injEq] at h
    exact ⟨d, m, rest, hq, h.symm⟩

theorem call_eq {s s' : Sys n α} {p d : Fin n} {a : Nat} {ex : Bool} {cmd : Cmd α}
    (h : s.call p d a ex cmd = some s') :
    s.ep p a = .free ∧
    s' = { s.postCommand p d (some a) cmd with
            ep := upd s.ep p (upd (s.ep p) a (.waiting s.calls.length ex)) } := by
  unfold Sys.call at h
  split at h
  · rename_i hf
    simp only [Option.some.injEq] at h
    exact ⟨hf, h.symm⟩
  · cases h

theorem await_eq {s s' : Sys n α} {p : Fin n} {a : Nat} (h : s.await p a = some s') :
    ∃ id ex code obj, s.ep p a = .replied id ex code obj ∧
      s' = { s with
              ep := upd s.ep p (upd (s.ep p) a .free),
              done := s.done ++ [⟨id, p, (if ex then proxyResult code obj else (code, obj)).1,
                (if ex then proxyResult code obj else (code, obj)).2⟩] } := by
  unfold Sys.await at h
  split at h
  · rename_i id ex code obj hf
    simp only [Option.some.injEq] at h
    exact ⟨id, ex, code, obj, hf, h.symm⟩
  · cases h

end Verif.Mpi
