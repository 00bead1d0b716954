import Verif.Proof.MpiStep
import Verif.Spec.Mpi

namespace Verif.Mpi
open Verif.MpiSpec

variable {n : Nat} {α : Type}

/-- Why a request can fail at the remote side. -/
def Fails (has : Has n) (q : Fin n) (out : Option (Nat × Option α)) : Cmd α → Prop
  | .execute node _ _ => has q node = false
  | .getState node => has q node = false ∨ out = none
  | .setState node _ => has q node = false ∨ out = none
  | .server _ _ => q.val = 0 ∨ out = none
  | _ => False

/-- What handling a message can be; `u` is the system without the message. -/
inductive Handled (has : Has n) (u : Sys n α) (q src : Fin n) (out : Option (Nat × Option α)) :
    Msg α → Sys n α → Prop
  | fail (id ep cmd) : Fails has q out cmd → Handled has u q src out (.req id ep cmd) (u.postError q)
  | job (id ep node depth req) : has q node = true →
      Handled has u q src out (.req id ep (.execute node depth req))
        (u.addJob q ⟨id, src, ep, node, depth, req⟩)
  | state (id ep node c obj) : has q node = true → out = some (c, obj) →
      Handled has u q src out (.req id ep (.getState node))
        { u.postReply q src id ep 0 obj with
            log := u.log ++ [⟨id, src, q, .getState node, u.sett q node, 0, obj⟩] }
  | set (id node rec) : has q node = true → out ≠ none →
      Handled has u q src out (.req id none (.setState node rec))
        { u with sett := upd u.sett q (upd (u.sett q) node (u.sett q node ++ [(id, src, rec)])) }
  | setR (id a node rec) (s' : Sys n α) :
      Handled has u q src out (.req id (some a) (.setState node rec)) s'
  | command (id ep node args) : Handled has u q src out (.req id ep (.command node args)) u
  | control (id ep tag node arg) : Handled has u q src out (.req id ep (.control tag node arg)) u
  | server (id ep tag arg code obj) : q.val ≠ 0 → out = some (code, obj) →
      Handled has u q src out (.req id ep (.server tag arg))
        { u.postReply q src id ep code obj with
            log := u.log ++ [⟨id, src, q, .server tag arg, [], code, obj⟩] }
  | reply (id ep code obj) :
      Handled has u q src out (.reply id ep code obj) (u.procReply q ep code obj)
  | event0 : q.val = 0 → Handled has u q src out .event { u with errors := u.errors + 1 }
  | eventN : q.val ≠ 0 → Handled has u q src out .event (u.postError q)

theorem recv_eq {has : Has n} {s s' : Sys n α} {q src : Fin n} {out : Option (Nat × Option α)}
    (h : s.recv has q src out = some s') :
    ∃ m rest, s.chan src q = m :: rest ∧ Handled has (s.pop src q rest) q src out m s' := by
  unfold Sys.recv at h
  split at h
  · cases h
  · rename_i m rest hc
    refine ⟨m, rest, hc, ?_⟩
    dsimp only at h
    have hu : ({ s with chan := upd s.chan src (upd (s.chan src) q rest) } : Sys n α)
      = s.pop src q rest := rfl
    rw [hu] at h
    clear hu
    generalize hv : s.pop src q rest = u at h ⊢
    split at h
    · rename_i id ep cmd
      simp only [Option.some.injEq] at h
      subst h
      cases cmd with
      | execute node depth req =>
        unfold Sys.procReq; dsimp only
        by_cases hh : has q node = true
        · rw [if_pos hh]; exact .job _ _ _ _ _ hh
        · rw [if_neg hh]; exact .fail _ _ _ (by simpa [Fails] using hh)
      | getState node =>
        unfold Sys.procReq; dsimp only
        by_cases hh : has q node = true
        · rw [if_pos hh]
          cases out with
          | none => exact .fail _ _ _ (Or.inr rfl)
          | some o =>
            obtain ⟨c, obj⟩ := o
            exact .state _ _ _ _ _ hh rfl
        · rw [if_neg hh]; exact .fail _ _ _ (Or.inl (by simpa using hh))
      | setState node rec =>
        unfold Sys.procReq; dsimp only
        by_cases hh : has q node = true
        · rw [if_pos hh]
          cases out with
          | none => exact .fail _ _ _ (Or.inr rfl)
          | some o =>
            cases ep with
            | none => exact .set _ _ _ hh (fun h => by cases h)
            | some a => exact .setR _ _ _ _ _
        · rw [if_neg hh]; exact .fail _ _ _ (Or.inl (by simpa using hh))
      | command node args => exact .command _ _ _ _
      | control tag node arg => exact .control _ _ _ _ _
      | server tag arg =>
        unfold Sys.procReq; dsimp only
        by_cases hh : q.val = 0
        · rw [if_pos hh]; exact .fail _ _ _ (Or.inl hh)
        · rw [if_neg hh]
          cases out with
          | none => exact .fail _ _ _ (Or.inr rfl)
          | some o =>
            obtain ⟨c, obj⟩ := o
            exact .server _ _ _ _ _ _ hh rfl
    · simp only [Option.some.injEq] at h
      subst h
      exact .reply _ _ _ _
    · split at h
      · rename_i hq
        have h := Option.some.inj h
        subst h
        subst hv
        exact .event0 hq
      · rename_i hq
        simp only [Option.some.injEq] at h
        subst h
        exact .eventN hq

/-- `u` after a work order whose endpoint is at `a`. -/
theorem work_eq {s s' : Sys n α} {q : Fin n} {k : Nat} {out : Option (Nat × Option α)}
    (h : s.work q k out = some s') :
    ∃ j, (s.jobs q)[k]? = some j ∧
      ∀ a, j.ep = some a →
        s' = ((if out.isNone then (s.dropJob q k).postError q else s.dropJob q k)).answer q j.src j.id a
          (.execute j.node j.depth j.req) (s.sett q j.node) (out.getD (RES_FAIL, none)).1
          (out.getD (RES_FAIL, none)).2 := by
  unfold Sys.work at h
  split at h
  · cases h
  · rename_i j hj
    refine ⟨j, hj, ?_⟩
    intro a ha
    dsimp only at h
    rw [ha] at h
    have h := Option.some.inj h
    rw [← h]
    by_cases ho : out.isNone = true
    · rw [if_pos ho, if_pos ho]; rfl
    · rw [if_neg ho, if_neg ho]; rfl

theorem inv_handled {has : Has n} {s s' : Sys n α} (h : Safe s) {q src : Fin n}
    {out : Option (Nat × Option α)} {m : Msg α} {rest : List (Msg α)}
    (hc : s.chan src q = m :: rest) (hh : Handled has (s.pop src q rest) q src out m s') :
    Safe s' := by
  have hp := inv_pop h src q m rest hc
  have hf : Fl s src q m := Or.inr (by rw [hc]; exact List.mem_cons_self)
  cases hh with
  | fail id ep cmd hx => exact inv_same hp (same_postError _ _)
  | job id ep node depth req hx =>
    rcases (h.req _ _ _ _ _ hf).2 with ⟨a, rfl, _⟩ | ⟨_, ⟨_, _, h2⟩ | ⟨_, _, _, h2⟩⟩
    · exact inv_addJob hp (ready_pop h src q id a _ rest hc)
    · cases h2
    · cases h2
  | state id ep node c obj hx ho =>
    rcases (h.req _ _ _ _ _ hf).2 with ⟨a, rfl, _⟩ | ⟨_, ⟨_, _, h2⟩ | ⟨_, _, _, h2⟩⟩
    · exact inv_answer hp (ready_pop h src q id a _ rest hc) _ _ _
    · cases h2
    · cases h2
  | set id node rec hx ho => exact inv_sett hp _
  | setR id a node rec => exact absurd hf (h.noset _ _ _ _ _ _)
  | command id ep node args => exact hp
  | control id ep tag node arg => exact hp
  | server id ep tag arg code obj hx ho =>
    rcases (h.req _ _ _ _ _ hf).2 with ⟨a, rfl, _⟩ | ⟨_, ⟨_, _, h2⟩ | ⟨_, _, _, h2⟩⟩
    · exact inv_answer hp (ready_pop h src q id a _ rest hc) _ _ _
    · cases h2
    · cases h2
  | reply id ep code obj =>
    obtain ⟨_, _, _, _, _, _, _, h2⟩ := inv_reply h src q id ep code obj rest hc
    exact h2
  | event0 hx =>
    exact inv_same hp ⟨fun _ => rfl, fun _ => rfl, fun _ _ _ h => Or.inl h, rfl, rfl, rfl, rfl, rfl,
      rfl, rfl, rfl⟩
  | eventN hx => exact inv_same hp (same_postError _ _)

theorem inv_work {s s' : Sys n α} (h : Safe s) {q : Fin n} {k : Nat} {out : Option (Nat × Option α)}
    (hs : s.work q k out = some s') : Safe s' := by
  obtain ⟨j, hj, h1⟩ := work_eq hs
  obtain ⟨h2, a, h3, h4⟩ := inv_dropJob h q k j hj
  rw [h1 a h3]
  by_cases ho : out.isNone = true
  · rw [if_pos ho]
    exact inv_answer (inv_same h2 (same_postError _ _)) (ready_same h4 (same_postError _ _)) _ _ _
  · rw [if_neg ho]
    exact inv_answer h2 h4 _ _ _

theorem inv_step {has : Has n} {s s' : Sys n α} (h : Safe s) (o : Op n α)
    (hs : step has s o = some s') : Safe s' := by
  cases o with
  | execute p d a node depth req =>
    exact inv_call h p d a true _ rfl (fun _ _ h => by cases h) (fun _ _ _ h => by cases h) hs
  | getState p d a node => exact inv_call h p d a false _ rfl (fun _ _ h => by cases h) (fun _ _ _ h => by cases h) hs
  | setState p d node rec =>
    simp only [step, Option.some.injEq] at hs
    subst hs
    exact inv_postCommand h p d _ (Or.inl ⟨_, _, rfl⟩)
  | command p d a node args => exact inv_call h p d a false _ rfl (fun _ _ h => by cases h) (fun _ _ _ h => by cases h) hs
  | control p d tag node arg =>
    simp only [step, Option.some.injEq] at hs
    subst hs
    exact inv_postCommand h p d _ (Or.inr ⟨_, _, _, rfl⟩)
  | server p d a tag arg => exact inv_call h p d a false _ rfl (fun _ _ h => by cases h) (fun _ _ _ h => by cases h) hs
  | send p =>
    obtain ⟨d, m, rest, hq, rfl⟩ := send_eq hs
    exact inv_sent h p d m rest hq
  | recv q src out =>
    obtain ⟨m, rest, hc, hh⟩ := recv_eq hs
    exact inv_handled h hc hh
  | work q k out => exact inv_work h hs
  | await p a => exact inv_await h p a hs

/-- Induction over histories. -/
theorem run_induct {has : Has n} (P : Sys n α → List (Op n α) → Prop) (ops : List (Op n α))
    (hstep : ∀ o ∈ ops, ∀ s pre s', P s pre → step has s o = some s' → P s' (pre ++ [o]))
    (s s' : Sys n α) (pre : List (Op n α)) (h0 : P s pre) (hr : run has s ops = some s') :
    P s' (pre ++ ops) := by
  induction ops generalizing s pre with
  | nil =>
    simp only [run, Option.some.injEq] at hr
    subst hr
    rw [List.append_nil]
    exact h0
  | cons o os ih =>
    unfold run at hr
    split at hr
    · rename_i s1 h1
      have := ih (fun o' ho' => hstep o' (List.mem_cons_of_mem _ ho')) s1 (pre ++ [o])
        (hstep o List.mem_cons_self s pre s1 h0 h1) hr
      rw [List.append_assoc] at this
      exact this
    · cases hr

theorem safe_run {has : Has n} {ops : List (Op n α)} {s : Sys n α}
    (hr : run has (Sys.init n α) ops = some s) : Safe s :=
  run_induct (fun s _ => Safe s) ops (fun o _ _ _ _ h hs => inv_step h o hs) _ _ [] inv_init hr

/-! ### The record of calls and operations -/

theorem calls_call {s s' : Sys n α} {p d : Fin n} {a : Nat} {ex : Bool} {cmd : Cmd α}
    (h : s.call p d a ex cmd = some s') :
    s'.calls = s.calls ++ [⟨s.calls.length, p, d, cmd⟩] ∧ s'.log = s.log := by
  obtain ⟨_, rfl⟩ := call_eq h
  exact ⟨rfl, rfl⟩

theorem procReply_calls (s : Sys n α) (q : Fin n) (ep : Option Nat) (code : Nat) (obj : Option α) :
    (s.procReply q ep code obj).calls = s.calls ∧ (s.procReply q ep code obj).log = s.log ∧
    (s.procReply q ep code obj).sett = s.sett ∧ (s.procReply q ep code obj).queue = s.queue ∧
    (s.procReply q ep code obj).chan = s.chan ∧ (s.procReply q ep code obj).jobs = s.jobs := by
  unfold Sys.procReply
  split
  · exact ⟨rfl, rfl, rfl, rfl, rfl, rfl⟩
  · split <;> exact ⟨rfl, rfl, rfl, rfl, rfl, rfl⟩

theorem handled_calls {has : Has n} {s s' : Sys n α} (h : Safe s) {q src : Fin n}
    {out : Option (Nat × Option α)} {m : Msg α} {rest : List (Msg α)}
    (hc : s.chan src q = m :: rest) (hh : Handled has (s.pop src q rest) q src out m s') :
    s'.calls = s.calls := by
  have hf : Fl s src q m := Or.inr (by rw [hc]; exact List.mem_cons_self)
  cases hh with
  | fail id ep cmd hx => exact (same_postError _ _).calls
  | setR id a node rec => exact absurd hf (h.noset _ _ _ _ _ _)
  | reply id ep code obj => exact (procReply_calls _ _ _ _ _).1
  | eventN hx => exact (same_postError _ _).calls
  | _ => rfl

theorem work_calls {s s' : Sys n α} (h : Safe s) {q : Fin n} {k : Nat}
    {out : Option (Nat × Option α)} (hs : s.work q k out = some s') : s'.calls = s.calls := by
  obtain ⟨j, hj, h1⟩ := work_eq hs
  obtain ⟨h2, a, h3, h4⟩ := inv_dropJob h q k j hj
  rw [h1 a h3]
  by_cases ho : out.isNone = true
  · rw [if_pos ho]; exact (same_postError _ _).calls
  · rw [if_neg ho]; rfl

/-- How a step changes the list of calls. -/
theorem step_calls {has : Has n} {s s' : Sys n α} (h : Safe s) (o : Op n α)
    (hs : step has s o = some s') :
    s'.calls = s.calls ++ (match madeBy o with
      | some (p, d, cmd) => [⟨s.calls.length, p, d, cmd⟩]
      | none => []) := by
  cases o with
  | execute p d a node depth req => exact (calls_call hs).1
  | getState p d a node => exact (calls_call hs).1
  | setState p d node rec =>
    simp only [step, Option.some.injEq] at hs
    subst hs
    rfl
  | command p d a node args => exact (calls_call hs).1
  | control p d tag node arg =>
    simp only [step, Option.some.injEq] at hs
    subst hs
    rfl
  | server p d a tag arg => exact (calls_call hs).1
  | send p =>
    obtain ⟨d, m, rest, hq, rfl⟩ := send_eq hs
    exact (List.append_nil _).symm
  | recv q src out =>
    obtain ⟨m, rest, hc, hh⟩ := recv_eq hs
    rw [handled_calls h hc hh]
    exact (List.append_nil _).symm
  | work q k out =>
    rw [work_calls h hs]
    exact (List.append_nil _).symm
  | await p a =>
    obtain ⟨_, _, _, _, _, rfl⟩ := await_eq hs
    exact (List.append_nil _).symm

theorem calls_run {has : Has n} {ops : List (Op n α)} {s : Sys n α}
    (hr : run has (Sys.init n α) ops = some s) :
    s.calls.map (fun c => (c.src, c.dst, c.cmd)) = ops.filterMap madeBy := by
  have := run_induct (has := has)
    (fun s pre => Safe s ∧ s.calls.map (fun c => (c.src, c.dst, c.cmd)) = pre.filterMap madeBy) ops
    (fun o _ s pre s' h hs => by
      refine ⟨inv_step h.1 o hs, ?_⟩
      rw [step_calls h.1 o hs, List.map_append, h.2, List.filterMap_append]
      congr 1
      cases hm : madeBy o with
      | none => simp only [hm, List.map_nil, List.filterMap_cons, List.filterMap_nil]
      | some x =>
        obtain ⟨p, d, cmd⟩ := x
        simp only [hm, List.map_cons, List.map_nil, List.filterMap_cons, List.filterMap_nil])
    _ _ [] ⟨inv_init, rfl⟩ hr
  simpa using this.2

theorem happened_mono {ops ops' : List (Op n α)} {e : Entry n α} (h : Happened ops e) :
    Happened (ops ++ ops') e := by
  unfold Happened at *
  cases hc : e.cmd with
  | execute node depth req =>
    rw [hc] at h
    rcases h with ⟨k, h⟩ | ⟨⟨k, h⟩, h2⟩
    · exact Or.inl ⟨k, List.mem_append_left _ h⟩
    · exact Or.inr ⟨⟨k, List.mem_append_left _ h⟩, h2⟩
  | getState node =>
    rw [hc] at h
    obtain ⟨h1, c, h2⟩ := h
    exact ⟨h1, c, List.mem_append_left _ h2⟩
  | server tag arg =>
    rw [hc] at h
    exact List.mem_append_left _ h
  | setState node rec => rw [hc] at h; exact h
  | command node args => rw [hc] at h; exact h
  | control tag node arg => rw [hc] at h; exact h

theorem happened_run {has : Has n} {ops : List (Op n α)} {s : Sys n α}
    (hr : run has (Sys.init n α) ops = some s) : ∀ e ∈ s.log, Happened ops e := by
  have := run_induct (has := has) (fun s pre => Safe s ∧ ∀ e ∈ s.log, Happened pre e) ops
    (fun o _ s pre s' h hs => by
      refine ⟨inv_step h.1 o hs, ?_⟩
      have old : ∀ e ∈ s.log, Happened (pre ++ [o]) e := fun e he => happened_mono (h.2 e he)
      have me : o ∈ pre ++ [o] := List.mem_append_right _ (List.mem_singleton.2 rfl)
      cases o with
      | execute p d a node depth req => rw [(calls_call hs).2]; exact old
      | getState p d a node => rw [(calls_call hs).2]; exact old
      | setState p d node rec =>
        simp only [step, Option.some.injEq] at hs
        subst hs
        exact old
      | command p d a node args => rw [(calls_call hs).2]; exact old
      | control p d tag node arg =>
        simp only [step, Option.some.injEq] at hs
        subst hs
        exact old
      | server p d a tag arg => rw [(calls_call hs).2]; exact old
      | send p =>
        obtain ⟨d, m, rest, hq, rfl⟩ := send_eq hs
        exact old
      | recv q src out =>
        obtain ⟨m, rest, hc, hh⟩ := recv_eq hs
        have hf : Fl s src q m := Or.inr (by rw [hc]; exact List.mem_cons_self)
        cases hh with
        | fail id ep cmd hx => rw [(same_postError _ _).log]; exact old
        | setR id a node rec => exact absurd hf (h.1.noset _ _ _ _ _ _)
        | reply id ep code obj => rw [(procReply_calls _ _ _ _ _).2.1]; exact old
        | eventN hx => rw [(same_postError _ _).log]; exact old
        | state id ep node c obj hx ho =>
          intro e he
          rcases List.mem_append.1 he with he | he
          · exact old e he
          · rw [List.mem_singleton] at he
            subst he
            subst ho
            exact ⟨rfl, c, me⟩
        | server id ep tag arg code obj hx ho =>
          intro e he
          rcases List.mem_append.1 he with he | he
          · exact old e he
          · rw [List.mem_singleton] at he
            subst he
            subst ho
            exact me
        | _ => exact old
      | work q k out =>
        obtain ⟨j, hj, h1⟩ := work_eq hs
        obtain ⟨h2, a, h3, h4⟩ := inv_dropJob h.1 q k j hj
        rw [h1 a h3]
        intro e he
        have hlog : (if out.isNone = true then (s.dropJob q k).postError q else s.dropJob q k).log
            = s.log := by
          by_cases ho : out.isNone = true
          · rw [if_pos ho]; exact (same_postError _ _).log
          · rw [if_neg ho]; rfl
        unfold Sys.answer at he
        dsimp only at he
        rw [hlog] at he
        rcases List.mem_append.1 he with he | he
        · exact old e he
        · rw [List.mem_singleton] at he
          subst he
          cases out with
          | none => exact Or.inr ⟨⟨k, me⟩, rfl, rfl⟩
          | some o => exact Or.inl ⟨k, me⟩
      | await p a =>
        obtain ⟨_, _, _, _, _, rfl⟩ := await_eq hs
        exact old)
    _ _ [] ⟨inv_init, fun _ h => by cases h⟩ hr
  exact this.2

end Verif.Mpi
