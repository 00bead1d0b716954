import Verif.Spec.WPQueue
import Mathlib.Data.List.Induction
/-! Lemmas about the worker-process queue. -/
namespace Verif.WPQueue
open WPQueueSpec

/-! ### Pending -/

theorem Pending.append {es1 es2 : List Event} {l l1 l2 : List Msg} (h1 : Pending es1 l l1)
    (h2 : Pending es2 l1 l2) : Pending (es1 ++ es2) l l2 := by
  induction h1 with
  | nil l => exact h2
  | arrive m es l l' _ ih => exact .arrive _ _ _ _ (ih h2)
  | leave m es a b l' _ ih => exact .leave _ _ _ _ _ (ih h2)

theorem serves_leave {x y : List Msg} {m : Msg} {l : List Msg} (h : Serves (x ++ m :: y) l) :
    ∃ a b, l = a ++ m :: b ∧ Serves (x ++ y) (a ++ b) := by
  have hf := h.fifo m.pri
  rw [List.filter_append, List.filter_cons_of_pos (by simp)] at hf
  obtain ⟨a, b', rfl, ha, hb⟩ := List.filter_eq_append_iff.1 hf.symm
  obtain ⟨b1, b2, rfl, hb1, hm, hb2⟩ := List.filter_eq_cons_iff.1 hb
  refine ⟨a ++ b1, b2, by simp, ?_, ?_⟩
  · have := h.byPriority
    rw [List.pairwise_append] at this ⊢
    obtain ⟨p1, p2, p3⟩ := this
    exact ⟨p1, (List.pairwise_cons.1 p2).2, fun u hu v hv => p3 u hu v (List.mem_cons_of_mem _ hv)⟩
  · intro p
    have hp := h.fifo p
    by_cases hpm : m.pri = p
    · subst hpm
      have hb1' : List.filter (fun m_1 => decide (m_1.pri = m.pri)) b1 = [] := by
        rw [List.filter_eq_nil_iff]; exact hb1
      simp only [List.filter_append, ha, hb2, hb1', List.append_nil]
    · simp only [List.filter_append, List.append_assoc] at hp ⊢
      rw [List.filter_cons_of_neg (by simpa using hpm), List.filter_cons_of_neg (by simpa using hpm)] at hp
      exact hp

/-- Leaving of all entries satisfying `p`. -/
theorem serves_filter (p : Msg → Bool) (y x l : List Msg) (h : Serves (x ++ y) l) :
    ∃ l', Pending ((y.filter p).map .leave) l l' ∧ Serves (x ++ y.filter (fun m => !p m)) l' := by
  induction y generalizing x l with
  | nil => exact ⟨l, .nil _, by simpa using h⟩
  | cons m y ih =>
    by_cases hp : p m = true
    · obtain ⟨a, b, rfl, hs⟩ := serves_leave h
      obtain ⟨l', h1, h2⟩ := ih x _ hs
      refine ⟨l', ?_, ?_⟩
      · rw [List.filter_cons_of_pos hp]; exact .leave _ _ _ _ _ h1
      · rw [List.filter_cons_of_neg (by simp [hp])]; exact h2
    · obtain ⟨l', h1, h2⟩ := ih (x ++ [m]) l (by simpa using h)
      refine ⟨l', ?_, ?_⟩
      · rw [List.filter_cons_of_neg hp]; exact h1
      · rw [List.filter_cons_of_pos (by simp [hp])]; simpa using h2

/-! ### Enqueueing -/

/-- The intended position of a message. -/
def ins (m : Msg) : List Msg → List Msg
  | [] => [m]
  | x :: r => if x.pri ≥ m.pri then x :: ins m r else m :: x :: r

theorem serves_ins {m : Msg} {q l : List Msg} (h : Serves q l) : Serves (ins m q) (l ++ [m]) := by
  have key : ∀ q : List Msg, q.Pairwise (fun a b => a.pri ≥ b.pri) →
      (ins m q).Pairwise (fun a b => a.pri ≥ b.pri) ∧
      (∀ x ∈ ins m q, x = m ∨ x ∈ q) ∧
      ∀ p : Int, (ins m q).filter (fun x => x.pri = p) =
        q.filter (fun x => x.pri = p) ++ (if m.pri = p then [m] else []) := by
    intro q
    induction q with
    | nil =>
      intro _
      refine ⟨by simp [ins], by simp [ins], ?_⟩
      intro p
      by_cases hp : m.pri = p <;> simp [ins, hp]
    | cons x r ih =>
      intro hq
      obtain ⟨hx, hr⟩ := List.pairwise_cons.1 hq
      obtain ⟨i1, i2, i3⟩ := ih hr
      unfold ins
      split
      · rename_i hge
        refine ⟨?_, ?_, ?_⟩
        · rw [List.pairwise_cons]
          refine ⟨?_, i1⟩
          intro y hy
          rcases i2 y hy with rfl | hy
          · exact hge
          · exact hx y hy
        · intro y hy
          rcases List.mem_cons.1 hy with rfl | hy
          · simp
          · rcases i2 y hy with h | h <;> simp [h]
        · intro p
          rw [List.filter_cons, i3, List.filter_cons]
          split <;> simp
      · rename_i hlt
        refine ⟨?_, ?_, ?_⟩
        · rw [List.pairwise_cons]
          refine ⟨?_, hq⟩
          intro y hy
          rcases List.mem_cons.1 hy with rfl | hy
          · omega
          · have := hx y hy; omega
        · intro y hy; simpa using hy
        · intro p
          by_cases hp : m.pri = p
          · have hnil : (x :: r).filter (fun x => decide (x.pri = p)) = [] := by
              rw [List.filter_eq_nil_iff]
              intro y hy
              rcases List.mem_cons.1 hy with rfl | hy
              · simp; omega
              · have := hx y hy; simp; omega
            rw [List.filter_cons_of_pos (by simpa using hp), hnil]; simp [hp]
          · rw [List.filter_cons_of_neg (by simpa using hp)]; simp [hp]
  obtain ⟨k1, _, k3⟩ := key q h.byPriority
  refine ⟨k1, ?_⟩
  intro p
  rw [k3, h.fifo, List.filter_append]
  congr 1
  by_cases hp : m.pri = p <;> simp [hp]

theorem insertD_map (e : Entry) (l : List Entry) :
    (insertD e l).1.map Entry.msg = ins e.msg (l.map Entry.msg) := by
  induction l with
  | nil => rfl
  | cons x r ih =>
    simp only [insertD, List.map_cons, ins]
    split <;> simp [ih]

theorem ins_end (m : Msg) (l : List Msg) (h : ∀ x ∈ l, x.pri ≥ m.pri) : ins m l = l ++ [m] := by
  induction l with
  | nil => rfl
  | cons x r ih => simp [ins, h x (by simp), ih (fun y hy => h y (by simp [hy]))]

theorem enqueue_map (q : Q) (m : Msg) (tick : Nat) (nr : Bool)
    (hs : (q.queue.map Entry.msg).Pairwise (fun a b => a.pri ≥ b.pri)) :
    (enqueue q m tick nr).1.queue.map Entry.msg = ins m (q.queue.map Entry.msg) := by
  unfold enqueue
  cases hq : q.queue with
  | nil => simp [ins]
  | cons f r =>
    rw [hq] at hs
    simp only
    split
    · rename_i hb
      rw [ins_end]
      · simp
      · intro x hx
        obtain ⟨e, he, rfl⟩ := List.mem_map.1 hx
        have hl : (f :: r) = (f :: r).dropLast ++ [(f :: r).getLast (by simp)] :=
          (List.dropLast_concat_getLast (by simp)).symm
        rw [hl] at he
        rcases List.mem_append.1 he with he | he
        · rw [hl, List.map_append, List.pairwise_append] at hs
          have := hs.2.2 e.msg (List.mem_map_of_mem he) ((f :: r).getLast (by simp)).msg (by simp)
          omega
        · simp only [List.mem_singleton] at he; rw [he]; exact hb
    · split
      · rename_i hc
        simp only [List.map_cons, ins]
        rw [if_neg (by omega)]
      · rename_i hc
        have hd : (insertD ⟨m, tick⟩ (f :: r)).2 ≠ 0 := by
          simp only [insertD]
          rw [if_pos (by simpa using hc)]
          simp
        rw [if_neg hd, insertD_map]

/-- The state serves the pending messages. -/
def SQ (q : Q) (l : List Msg) : Prop := Serves (q.queue.map Entry.msg) l

theorem enqueue_SQ {q : Q} {l : List Msg} (h : SQ q l) (m : Msg) (tick : Nat) (nr : Bool) :
    SQ (enqueue q m tick nr).1 (l ++ [m]) := by
  unfold SQ
  rw [enqueue_map q m tick nr h.byPriority]
  exact serves_ins h

theorem eraseFirst_split (p : Entry → Bool) (l : List Entry) :
    (∃ x e y, l = x ++ e :: y ∧ p e = true ∧ (∀ z ∈ x, p z = false) ∧
      eraseFirst p l = (x ++ y, some e)) ∨
    ((∀ z ∈ l, p z = false) ∧ eraseFirst p l = (l, none)) := by
  induction l with
  | nil => right; simp [eraseFirst]
  | cons a r ih =>
    by_cases hp : p a = true
    · left; exact ⟨[], a, r, rfl, hp, by simp, by simp [eraseFirst, hp]⟩
    · rcases ih with ⟨x, e, y, rfl, he, hz, h⟩ | ⟨hz, h⟩
      · left
        refine ⟨a :: x, e, y, rfl, he, ?_, by simp [eraseFirst, hp, h]⟩
        intro z hz'
        rcases List.mem_cons.1 hz' with rfl | h'
        · simpa using hp
        · exact hz z h'
      · right
        refine ⟨?_, by simp [eraseFirst, hp, h]⟩
        intro z hz'
        rcases List.mem_cons.1 hz' with rfl | h'
        · simpa using hp
        · exact hz z h'

theorem eraseFirst_serves (p : Entry → Bool) (l : List Entry) (pend : List Msg)
    (h : Serves (l.map Entry.msg) pend) :
    ∃ pend', Pending (((eraseFirst p l).2.map Entry.msg).toList.map .leave) pend pend' ∧
      Serves ((eraseFirst p l).1.map Entry.msg) pend' := by
  rcases eraseFirst_split p l with ⟨x, e, y, rfl, _, _, he⟩ | ⟨_, he⟩
  · rw [he]
    simp only [List.map_append, List.map_cons] at h
    obtain ⟨a, b, rfl, hs⟩ := serves_leave h
    exact ⟨a ++ b, .leave _ _ _ _ _ (.nil _), by simpa using hs⟩
  · rw [he]; exact ⟨pend, .nil _, h⟩

theorem qstep_SQ {q : Q} {l : List Msg} (h : SQ q l) (o : QOp) :
    ∃ l', Pending (qevents q o) l l' ∧ SQ (qstep q o).1 l' := by
  cases o with
  | enqueue m t => exact ⟨l ++ [m], .arrive _ _ _ _ (.nil _), enqueue_SQ h m t false⟩
  | dequeueId id w =>
    cases w with
    | true => exact eraseFirst_serves _ _ _ h
    | false =>
      have := serves_filter (fun m => Hiid.matches_ false id m.id) (q.queue.map Entry.msg) [] l
        h
      obtain ⟨l', h1, h2⟩ := this
      refine ⟨l', ?_, ?_⟩
      · simp only [qevents, qstep, dequeueId, Bool.false_eq_true, if_false]
        rw [List.filter_map] at h1
        exact h1
      · simp only [qstep, dequeueId, Bool.false_eq_true, if_false, SQ]
        rw [List.nil_append, List.filter_map] at h2
        exact h2
  | dequeuePos p =>
    simp only [qevents, qstep, dequeuePos]
    cases hp : q.queue[p]? with
    | none => exact ⟨l, .nil _, h⟩
    | some e =>
      obtain ⟨hlt, he⟩ := List.getElem?_eq_some_iff.1 hp
      have hsplit : q.queue = q.queue.take p ++ e :: q.queue.drop (p + 1) := by
        rw [← he, ← List.drop_eq_getElem_cons hlt, List.take_append_drop]
      have h' : Serves ((q.queue.take p).map Entry.msg ++ e.msg :: (q.queue.drop (p+1)).map Entry.msg) l := by
        have := h; unfold SQ at this; rw [hsplit] at this; simpa using this
      obtain ⟨a, b, rfl, hs⟩ := serves_leave h'
      refine ⟨a ++ b, .leave _ _ _ _ _ (.nil _), ?_⟩
      simp only [SQ, List.eraseIdx_eq_take_drop_succ, List.map_append]
      exact hs

theorem qsteps_SQ {q : Q} {l : List Msg} (h : SQ q l) (os : List QOp) :
    ∃ l', Pending (qsevents q os) l l' ∧ SQ (qsteps q os).1 l' := by
  induction os generalizing q l with
  | nil => exact ⟨l, .nil _, h⟩
  | cons o os ih =>
    obtain ⟨l1, p1, h1⟩ := qstep_SQ h o
    obtain ⟨l2, p2, h2⟩ := ih h1
    exact ⟨l2, Pending.append p1 p2, h2⟩

theorem touchHead_map (t : Nat) (l : List Entry) : (touchHead t l).map Entry.msg = l.map Entry.msg := by
  cases l <;> rfl

theorem finish_SQ {q : Q} {l : List Msg} (h : SQ q l) (m : Msg) (kept : Bool) (res : Code) (t : Nat) :
    ∃ l', Pending ((finish q m kept res t).2.map .leave ++
        (if res = .requeue then [.arrive m] else [])) l l' ∧ SQ (finish q m kept res t).1 l' := by
  have hE : ∃ pend', Pending ((((if kept then eraseFirst (fun x => decide (x.msg.ident = m.ident)) q.queue
        else (q.queue, none)).2.map Entry.msg).toList.map .leave)) l pend' ∧
      Serves ((if kept then eraseFirst (fun x => decide (x.msg.ident = m.ident)) q.queue
        else (q.queue, none)).1.map Entry.msg) pend' := by
    cases kept with
    | true => exact eraseFirst_serves _ _ _ h
    | false => exact ⟨l, .nil _, h⟩
  obtain ⟨l1, p1, h1⟩ := hE
  cases res with
  | accept =>
    refine ⟨l1, by simpa [finish] using p1, ?_⟩
    simp only [finish, SQ, touchHead_map]; exact h1
  | hold => exact ⟨l, by simpa [finish] using Pending.nil l, h⟩
  | requeue =>
    have h2 := enqueue_SQ (q := ⟨_, q.repoll⟩) h1 m t true
    refine ⟨l1 ++ [m], ?_, ?_⟩
    · simp only [finish, if_true]
      split
      · exact Pending.append p1 (.arrive _ _ _ _ (.nil _))
      · exact Pending.append p1 (.arrive _ _ _ _ (.nil _))
    · simp only [finish]
      split
      · exact h2
      · simp only [SQ, touchHead_map]; exact h2

theorem step_SQ {q : Q} {l : List Msg} (h : SQ q l) (o : Op) :
    ∃ l', Pending (step q o).2 l l' ∧ SQ (step q o).1 l' := by
  cases o with
  | q o => exact qstep_SQ h o
  | poll up eff kept res t =>
    simp only [step, doPoll]
    cases hq : q.queue with
    | nil =>
      refine ⟨l, .nil _, ?_⟩
      have := h; unfold SQ at this; rw [hq] at this; exact this
    | cons e r =>
      have h0 : SQ ⟨e :: r, up⟩ l := by have := h; unfold SQ at this ⊢; rw [hq] at this; exact this
      obtain ⟨l1, p1, h1⟩ := qsteps_SQ h0 eff
      obtain ⟨l2, p2, h2⟩ := finish_SQ h1 e.msg kept res t
      refine ⟨l2, ?_, h2⟩
      show Pending (qsevents _ eff ++ _ ++ _) l l2
      rw [List.append_assoc]
      exact Pending.append p1 p2

theorem runFrom_SQ {q : Q} {l : List Msg} (h : SQ q l) (ops : List Op) :
    ∃ l', Pending (runFrom q ops).2 l l' ∧ SQ (runFrom q ops).1 l' := by
  induction ops generalizing q l with
  | nil => exact ⟨l, .nil _, h⟩
  | cons o os ih =>
    obtain ⟨l1, p1, h1⟩ := step_SQ h o
    obtain ⟨l2, p2, h2⟩ := ih h1
    exact ⟨l2, Pending.append p1 p2, h2⟩

/-! ### The repoll flag -/

/-- If no repoll is requested, the head message satisfies `S`. -/
def HeadOk (S : Nat → Prop) (q : Q) : Prop :=
  ∀ e r, q.queue = e :: r → q.repoll = false → S e.msg.ident

theorem insertD_head (e x : Entry) (l : List Entry) (h : (insertD e (x :: l)).2 ≠ 0) :
    ∃ r, (insertD e (x :: l)).1 = x :: r := by
  simp only [insertD] at *
  split at h
  · rename_i hc; rw [if_pos hc]; exact ⟨_, rfl⟩
  · simp at h

theorem enqueue_headOk {S : Nat → Prop} {q : Q} (h : HeadOk S q) (m : Msg) (t : Nat) :
    HeadOk S (enqueue q m t false).1 := by
  unfold enqueue
  cases hq : q.queue with
  | nil => intro e r he hr; simp at hr
  | cons f r =>
    simp only
    split
    · intro e r' he hr
      simp at he hr
      obtain ⟨rfl, _⟩ := he
      exact h f r hq hr
    · split
      · intro e r' he hr; simp at hr
      · split
        · intro e r' he hr; simp at hr
        · rename_i hd
          intro e r' he hr
          simp at hr
          obtain ⟨r2, h2⟩ := insertD_head ⟨m, t⟩ f r hd
          rw [h2] at he
          simp at he
          obtain ⟨rfl, _⟩ := he
          exact h f r hq hr

theorem qstep_headOk {S : Nat → Prop} {q : Q} (h : HeadOk S q) (o : QOp) : HeadOk S (qstep q o).1 := by
  cases o with
  | enqueue m t => exact enqueue_headOk h m t
  | dequeueId id w =>
    simp only [qstep, dequeueId]
    split
    · intro e r he hr
      simp only at he hr; rw [he] at hr; simp at hr
    · intro e r he hr
      simp only at he hr; rw [he] at hr; simp at hr
  | dequeuePos p =>
    simp only [qstep, dequeuePos]
    cases hp : q.queue[p]? with
    | none => exact h
    | some x =>
      intro e r he hr
      simp only at he hr
      cases hq : q.queue with
      | nil => simp [hq] at hp
      | cons f s =>
        rw [hq] at he hr
        cases p with
        | zero =>
          simp at he hr
          simp [he] at hr
        | succ p =>
          simp at he hr
          obtain ⟨rfl, _⟩ := he
          exact h f s hq hr

theorem qsteps_headOk {S : Nat → Prop} {q : Q} (h : HeadOk S q) (os : List QOp) :
    HeadOk S (qsteps q os).1 := by
  induction os generalizing q with
  | nil => exact h
  | cons o os ih => exact ih (qstep_headOk h o)

theorem finish_headOk {S : Nat → Prop} {q : Q} {m : Msg} (h : HeadOk (· = m.ident) q)
    (kept : Bool) (res : Code) (t : Nat) (hS : res ≠ .accept → S m.ident) :
    HeadOk S (finish q m kept res t).1 := by
  intro e r he hr
  cases res with
  | accept =>
    simp only [finish] at he hr
    generalize hE : (if kept then eraseFirst (fun x => decide (x.msg.ident = m.ident)) q.queue
        else (q.queue, none)) = E at he hr
    cases hE1 : E.1 with
    | nil => rw [hE1] at he; simp [touchHead] at he
    | cons a b => rw [hE1] at hr; simp at hr
  | hold =>
    simp only [finish] at he hr
    rw [h e r he hr]; exact hS (by simp)
  | requeue =>
    simp only [finish] at he hr
    split at he
    · rename_i hn; rw [hn] at he; simp at he
    · rename_i e' r' hn
      rw [hn] at he hr
      simp [touchHead] at he hr
      obtain ⟨rfl, _⟩ := he
      rw [hr.2]; exact hS (by simp)

theorem runFrom_append (q : Q) (a b : List Op) :
    (runFrom q (a ++ b)).1 = (runFrom (runFrom q a).1 b).1 := by
  induction a generalizing q with
  | nil => rfl
  | cons o a ih => simp [runFrom, ih]

theorem run_headOk (ops : List Op) : HeadOk (Offered init ops) (run ops).1 := by
  induction ops using List.reverseRecOn with
  | nil => intro e r he; simp [run, runFrom, init] at he
  | append_singleton ops o ih =>
    have hmono : ∀ i, Offered init ops i → Offered init (ops ++ [o]) i := by
      rintro i ⟨pre, up, eff, k, res, t, post, rfl, h1, h2⟩
      exact ⟨pre, up, eff, k, res, t, post ++ [o], by simp, h1, h2⟩
    have ih' : HeadOk (Offered init (ops ++ [o])) (run ops).1 :=
      fun e r he hr => hmono _ (ih e r he hr)
    have hrun : (run (ops ++ [o])).1 = (step (run ops).1 o).1 := by
      unfold run; rw [runFrom_append]; rfl
    rw [hrun]
    cases o with
    | q o => exact qstep_headOk ih' o
    | poll up eff kept res t =>
      simp only [step, doPoll]
      cases hq : (run ops).1.queue with
      | nil => intro e r he; simp at he
      | cons e r =>
        refine finish_headOk (qsteps_headOk ?_ eff) kept res t ?_
        · intro e' r' he' _
          simp at he'; rw [he'.1]
        · intro hres
          exact ⟨ops, up, eff, kept, res, t, [], rfl, hres, by
            have : (runFrom init ops).1.queue = e :: r := hq
            rw [this]; rfl⟩

end Verif.WPQueue
