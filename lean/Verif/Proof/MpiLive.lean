import Verif.Proof.MpiRun

namespace Verif.Mpi
open Verif.MpiSpec

variable {n : Nat} {α : Type}

/-! ### Every call is answered -/

/-- A call the remote side can serve. -/
def GoodCall (has : Has n) (c : Call n α) : Prop :=
  match c.cmd with
  | .execute node _ _ => has c.dst node = true
  | .getState node => has c.dst node = true
  | .setState node _ => has c.dst node = true
  | .command _ _ => False
  | .control _ _ _ => True
  | .server _ _ => c.dst.val ≠ 0

structure Live (has : Has n) (s : Sys n α) : Prop where
  good : ∀ c ∈ s.calls, GoodCall has c
  one : ∀ p a id ex, s.ep p a = .waiting id ex → total (tok id) s = 1

theorem good_step {has : Has n} {s s' : Sys n α} (h : Safe s) (o : Op n α) (hr : Regular has o)
    (hs : step has s o = some s') (hg : ∀ c ∈ s.calls, GoodCall has c) :
    ∀ c ∈ s'.calls, GoodCall has c := by
  rw [step_calls h o hs]
  intro c hc
  rcases List.mem_append.1 hc with hc | hc
  · exact hg c hc
  · cases o with
    | execute p d a node depth req =>
      simp only [madeBy, List.mem_singleton] at hc; subst hc; exact hr
    | getState p d a node => simp only [madeBy, List.mem_singleton] at hc; subst hc; exact hr
    | setState p d node rec => simp only [madeBy, List.mem_singleton] at hc; subst hc; exact hr
    | command p d a node args => exact hr.elim
    | control p d tag node arg =>
      simp only [madeBy, List.mem_singleton] at hc; subst hc; exact trivial
    | server p d a tag arg => simp only [madeBy, List.mem_singleton] at hc; subst hc; exact hr
    | _ => cases hc

theorem live_same {has : Has n} {s s' : Sys n α} (h : Live has s) (e : Same s s') : Live has s' :=
  ⟨by rw [e.calls]; exact h.good, by intro p a id ex hw; rw [e.ep] at hw; rw [e.tok]; exact h.one _ _ _ _ hw⟩

theorem one_call {s s' : Sys n α} (h : Safe s)
    (h1 : ∀ p a id ex, s.ep p a = .waiting id ex → total (tok id) s = 1)
    {p d : Fin n} {a : Nat} {ex : Bool} {cmd : Cmd α} (hs : s.call p d a ex cmd = some s') :
    ∀ p a id ex, s'.ep p a = .waiting id ex → total (tok id) s' = 1 := by
  obtain ⟨hfree, rfl⟩ := call_eq hs
  intro p' a' id ex' hw
  dsimp only at hw
  rw [ep_upd] at hw
  have tt := total_push (tok id) s p d (.req s.calls.length (some a) cmd)
  have e : (tok id : W n α).q p d (.req s.calls.length (some a) cmd)
      = if s.calls.length = id then 1 else 0 := rfl
  have goal : total (tok id) s + (tok id : W n α).q p d (.req s.calls.length (some a) cmd) = 1 := by
    rw [e]
    split at hw
    · cases hw
      rw [if_pos rfl, (h.fresh _ (Nat.le_refl _)).1]
    · have := h.wait _ _ _ _ hw
      rw [if_neg (by omega)]
      exact h1 _ _ _ _ hw
  rw [← goal, ← tt]
  rfl

/-- While a request is served the others keep what they wait for. -/
theorem one_pop {s : Sys n α}
    (h1 : ∀ p a id ex, s.ep p a = .waiting id ex → total (tok id) s = 1)
    {src q : Fin n} {m : Msg α} {rest : List (Msg α)} (hc : s.chan src q = m :: rest)
    (p : Fin n) (a id : Nat) (ex : Bool) (hw : s.ep p a = .waiting id ex) :
    total (tok id) (s.pop src q rest) + tokM id m = 1 := by
  rw [← h1 p a id ex hw, ← total_pop (tok id) s src q m rest hc]
  rfl

theorem live_step {has : Has n} {s s' : Sys n α} (h : Safe s) (l : Live has s) (o : Op n α)
    (hr : Regular has o) (hs : step has s o = some s') : Live has s' := by
  refine ⟨good_step h o hr hs l.good, ?_⟩
  cases o with
  | execute p d a node depth req => exact one_call h l.one hs
  | getState p d a node => exact one_call h l.one hs
  | setState p d node rec =>
    simp only [step, Option.some.injEq] at hs
    subst hs
    intro p' a' id ex hw
    have := total_push (tok id) s p d (.req s.calls.length none (.setState node rec))
    exact this.trans (l.one _ _ _ _ hw)
  | command p d a node args => exact hr.elim
  | control p d tag node arg =>
    simp only [step, Option.some.injEq] at hs
    subst hs
    intro p' a' id ex hw
    have := total_push (tok id) s p d (.req s.calls.length none (.control tag node arg))
    exact this.trans (l.one _ _ _ _ hw)
  | server p d a tag arg => exact one_call h l.one hs
  | send p =>
    obtain ⟨d, m, rest, hq, rfl⟩ := send_eq hs
    intro p' a' id ex hw
    have t := total_sent (tok id) s p d m rest hq
    have := l.one _ _ _ _ hw
    dsimp only [tok] at t this ⊢
    omega
  | recv q src out =>
    obtain ⟨m, rest, hc, hh⟩ := recv_eq hs
    have hf : Fl s src q m := Or.inr (by rw [hc]; exact List.mem_cons_self)
    have pp := fun p a id ex hw => one_pop l.one hc p a id ex hw
    cases hh with
    | fail id ep cmd hx =>
      exfalso
      have hg := l.good _ (h.req _ _ _ _ _ hf).1
      have ho : out ≠ none := hr
      cases cmd with
      | execute node depth req =>
        have : has q node = true := hg
        rw [Fails, this] at hx; cases hx
      | getState node =>
        have : has q node = true := hg
        rcases hx with hx | hx
        · rw [this] at hx; cases hx
        · exact ho hx
      | setState node rec =>
        have : has q node = true := hg
        rcases hx with hx | hx
        · rw [this] at hx; cases hx
        · exact ho hx
      | server tag arg =>
        rcases hx with hx | hx
        · exact hg hx
        · exact ho hx
      | command node args => exact hx
      | control tag node arg => exact hx
    | job id ep node depth req hx =>
      intro p' a' i ex hw
      rw [total_addJob]
      have := pp p' a' i ex hw
      rw [← this]
      congr 1
      show tokJ i _ = tokM i _
      unfold tokJ tokM
      cases ep with
      | none => rw [if_neg (fun h => by cases h.1)]
      | some a =>
        by_cases hi : id = i
        · dsimp only; rw [if_pos hi, if_pos ⟨rfl, hi⟩]
        · dsimp only; rw [if_neg hi, if_neg (fun h => hi h.2)]
    | state id ep node c obj hx ho =>
      intro p' a' i ex hw
      have t := total_push (tok i) (s.pop src q rest) q src (.reply id ep 0 obj)
      have := pp p' a' i ex hw
      refine t.trans ?_
      rw [← this]
      congr 1
      cases ep <;> rfl
    | set id node rec hx ho =>
      intro p' a' i ex hw
      exact pp p' a' i ex hw
    | setR id a node rec => exact absurd hf (h.noset _ _ _ _ _ _)
    | command id ep node args => exact (l.good _ (h.req _ _ _ _ _ hf).1).elim
    | control id ep tag node arg =>
      intro p' a' i ex hw
      have h3 := pp p' a' i ex hw
      have h2 := (h.req _ _ _ _ _ hf).2
      cases ep with
      | none => exact h3
      | some a =>
        -- such a call would be waited for under its own number; its weight is what is lost
        exfalso
        rcases h2 with ⟨a2, h4, h5⟩ | ⟨h4, _⟩
        · exact absurd hf (by
            intro hf'
            exact absurd hf' (h.noctl _ _ _ _ _ _ _))
        · cases h4
    | server id ep tag arg code obj hx ho =>
      intro p' a' i ex hw
      have t := total_push (tok i) (s.pop src q rest) q src (.reply id ep code obj)
      have := pp p' a' i ex hw
      refine t.trans ?_
      rw [← this]
      congr 1
      cases ep <;> rfl
    | reply id ep code obj =>
      obtain ⟨a, e, rfl, he, e1, hw0, heq, hsafe⟩ := inv_reply h src q id ep code obj rest hc
      intro p' a' i ex hw
      rw [heq] at hw ⊢
      dsimp only at hw
      rw [ep_upd] at hw
      split at hw
      · cases hw
      · rename_i hne
        have h3 := pp p' a' i ex hw
        have hi : id ≠ i := by
          intro hi
          subst hi
          exact hne (h.inj p' a' q a id (by rw [hw]; rfl) (by rw [hw0]; rfl))
        have h4 : tokM i (.reply id (some a) code obj) = 0 := if_neg hi
        rw [h4] at h3
        exact h3
    | event0 hx =>
      intro p' a' i ex hw
      exact pp p' a' i ex hw
    | eventN hx =>
      intro p' a' i ex hw
      rw [(same_postError _ _).ep] at hw
      rw [(same_postError _ _).tok]
      exact pp p' a' i ex hw
  | work q k out =>
    obtain ⟨j, hj, h1⟩ := work_eq hs
    obtain ⟨h2, a, h3, h4⟩ := inv_dropJob h q k j hj
    rw [h1 a h3]
    intro p' a' i ex hw
    have t1 := total_dropJob (tok i) s q k j hj
    generalize hu : (if out.isNone = true then (s.dropJob q k).postError q else s.dropJob q k) = u
      at hw ⊢
    have hsame : u.ep = s.ep ∧ total (tok i) u = total (tok i) (s.dropJob q k) := by
      rw [← hu]
      by_cases ho : out.isNone = true
      · rw [if_pos ho]
        exact ⟨(same_postError _ _).ep, (same_postError _ _).tok i⟩
      · rw [if_neg ho]
        exact ⟨rfl, rfl⟩
    have hw' : s.ep p' a' = .waiting i ex := by rw [← hsame.1]; exact hw
    have t2 := total_push (tok i) u q j.src
      (.reply j.id (some a) (out.getD (RES_FAIL, none)).1 (out.getD (RES_FAIL, none)).2)
    refine t2.trans ?_
    rw [hsame.2, ← l.one _ _ _ _ hw', ← t1]
    congr 1
    show tokM i (Msg.reply j.id (some a) (out.getD (RES_FAIL, none)).1
      (out.getD (RES_FAIL, none)).2) = tokJ i j
    unfold tokM tokJ
    rw [h3]
    dsimp only
    by_cases hi : j.id = i
    · rw [if_pos hi, if_pos ⟨rfl, hi⟩]
    · rw [if_neg hi, if_neg (fun h => hi h.2)]
  | await p a =>
    obtain ⟨id, ex, code, obj, hw, rfl⟩ := await_eq hs
    intro p' a' i ex' hw'
    dsimp only at hw'
    rw [ep_upd] at hw'
    split at hw'
    · cases hw'
    · exact l.one _ _ _ _ hw'

theorem live_run {has : Has n} {ops : List (Op n α)} {s : Sys n α} (hg : ∀ o ∈ ops, Regular has o)
    (hr : run has (Sys.init n α) ops = some s) : Live has s :=
  (run_induct (fun s _ => Safe s ∧ Live has s) ops
    (fun o ho _ _ _ h hs => ⟨inv_step h.1 o hs, live_step h.1 h.2 o (hg o ho) hs⟩) _ _ []
    ⟨inv_init, ⟨(fun _ h => by cases h), (fun _ _ _ _ h => by cases h)⟩⟩ hr).2

/-! ### The work comes to an end -/

def muC (d : Fin n) : Msg α → Nat
  | .req _ _ _ => 6
  | .reply _ _ _ _ => 1
  | .event => if d.val = 0 then 1 else 3

def mu : W n α := ⟨fun _ d m => muC d m + 1, fun _ d m => muC d m, fun _ _ => 5⟩

theorem mu_postError (s : Sys n α) (p : Fin n) : total mu (s.postError p) ≤ total mu s + 2 := by
  unfold Sys.postError
  by_cases h : p.val = 0
  · rw [if_pos h]
    exact Nat.le_add_right _ _
  · rw [if_neg h, total_push]
    exact Nat.le_refl _

theorem mu_step {has : Has n} {s s' : Sys n α} (h : Safe s) (o : Op n α)
    (hs : step has s o = some s') :
    total mu s' + (if internal o then 1 else 0) ≤ total mu s + (if (madeBy o).isSome then 7 else 0) := by
  have call : ∀ p d a ex (cmd : Cmd α), s.call p d a ex cmd = some s' →
      total mu s' ≤ total mu s + 7 := by
    intro p d a ex cmd hc
    obtain ⟨_, rfl⟩ := call_eq hc
    exact Nat.le_of_eq (total_push mu s p d _)
  cases o with
  | execute p d a node depth req => exact call _ _ _ _ _ hs
  | getState p d a node => exact call _ _ _ _ _ hs
  | setState p d node rec =>
    simp only [step, Option.some.injEq] at hs
    subst hs
    exact Nat.le_of_eq (total_push mu s p d _)
  | command p d a node args => exact call _ _ _ _ _ hs
  | control p d tag node arg =>
    simp only [step, Option.some.injEq] at hs
    subst hs
    exact Nat.le_of_eq (total_push mu s p d _)
  | server p d a tag arg => exact call _ _ _ _ _ hs
  | send p =>
    obtain ⟨d, m, rest, hq, rfl⟩ := send_eq hs
    have t := total_sent mu s p d m rest hq
    have e : (mu : W n α).q p d m = (mu : W n α).c p d m + 1 := rfl
    show _ + 1 ≤ _ + 0
    omega
  | recv q src out =>
    obtain ⟨m, rest, hc, hh⟩ := recv_eq hs
    have hf : Fl s src q m := Or.inr (by rw [hc]; exact List.mem_cons_self)
    have t := total_pop mu s src q m rest hc
    show _ + 1 ≤ _ + 0
    cases hh with
    | fail id ep cmd hx =>
      have t2 := mu_postError (s.pop src q rest) q
      have e : (mu : W n α).c src q (.req id ep cmd) = 6 := rfl
      omega
    | job id ep node depth req hx =>
      rw [total_addJob]
      have e : (mu : W n α).c src q (.req id ep (.execute node depth req)) = 6 := rfl
      have e2 : (mu : W n α).j q ⟨id, src, ep, node, depth, req⟩ = 5 := rfl
      omega
    | state id ep node c obj hx ho =>
      have t2 := total_push mu (s.pop src q rest) q src (.reply id ep 0 obj)
      have e : (mu : W n α).c src q (.req id ep (.getState node)) = 6 := rfl
      have e2 : (mu : W n α).q q src (.reply id ep 0 obj) = 2 := rfl
      have e3 : total mu { (s.pop src q rest).postReply q src id ep 0 obj with
            log := (s.pop src q rest).log ++
              [⟨id, src, q, .getState node, (s.pop src q rest).sett q node, 0, obj⟩] }
          = total mu ((s.pop src q rest).push q src (.reply id ep 0 obj)) := rfl
      omega
    | set id node rec hx ho =>
      have e : (mu : W n α).c src q (.req id none (.setState node rec)) = 6 := rfl
      show total mu (s.pop src q rest) + 1 ≤ total mu s + 0
      omega
    | setR id a node rec => exact absurd hf (h.noset _ _ _ _ _ _)
    | command id ep node args =>
      have e : (mu : W n α).c src q (.req id ep (.command node args)) = 6 := rfl
      omega
    | control id ep tag node arg =>
      have e : (mu : W n α).c src q (.req id ep (.control tag node arg)) = 6 := rfl
      omega
    | server id ep tag arg code obj hx ho =>
      have t2 := total_push mu (s.pop src q rest) q src (.reply id ep code obj)
      have e : (mu : W n α).c src q (.req id ep (.server tag arg)) = 6 := rfl
      have e2 : (mu : W n α).q q src (.reply id ep code obj) = 2 := rfl
      have e3 : total mu { (s.pop src q rest).postReply q src id ep code obj with
            log := (s.pop src q rest).log ++ [⟨id, src, q, .server tag arg, [], code, obj⟩] }
          = total mu ((s.pop src q rest).push q src (.reply id ep code obj)) := rfl
      omega
    | reply id ep code obj =>
      have e : (mu : W n α).c src q (.reply id ep code obj) = 1 := rfl
      have e2 : total mu ((s.pop src q rest).procReply q ep code obj) = total mu (s.pop src q rest) := by
        obtain ⟨_, _, _, h4, h5, h6⟩ := procReply_calls (s.pop src q rest) q ep code obj
        unfold total
        rw [h4, h5, h6]
      omega
    | event0 hx =>
      have e : (mu : W n α).c src q .event = 1 := if_pos hx
      show total mu (s.pop src q rest) + 1 ≤ total mu s + 0
      omega
    | eventN hx =>
      have t2 := mu_postError (s.pop src q rest) q
      have e : (mu : W n α).c src q .event = 3 := if_neg hx
      omega
  | work q k out =>
    obtain ⟨j, hj, h1⟩ := work_eq hs
    obtain ⟨h2, a, h3, h4⟩ := inv_dropJob h q k j hj
    rw [h1 a h3]
    have t1 := total_dropJob mu s q k j hj
    have e1 : (mu : W n α).j q j = 5 := rfl
    generalize hu : (if out.isNone = true then (s.dropJob q k).postError q else s.dropJob q k) = u
    have t3 : total mu u ≤ total mu (s.dropJob q k) + 2 := by
      rw [← hu]
      by_cases ho : out.isNone = true
      · rw [if_pos ho]; exact mu_postError _ _
      · rw [if_neg ho]; exact Nat.le_add_right _ _
    have t2 : total mu (u.answer q j.src j.id a (.execute j.node j.depth j.req) (s.sett q j.node)
        (out.getD (RES_FAIL, none)).1 (out.getD (RES_FAIL, none)).2) = total mu u + 2 :=
      total_push mu u q j.src
        (.reply j.id (some a) (out.getD (RES_FAIL, none)).1 (out.getD (RES_FAIL, none)).2)
    show _ + 1 ≤ _ + 0
    omega
  | await p a =>
    obtain ⟨id, ex, code, obj, hw, rfl⟩ := await_eq hs
    exact Nat.le_refl _

theorem mu_run {has : Has n} {ops : List (Op n α)} {s : Sys n α}
    (hr : run has (Sys.init n α) ops = some s) :
    (ops.filter internal).length ≤ 7 * (ops.filterMap madeBy).length := by
  have := (run_induct (has := has) (fun s pre => Safe s ∧
      total mu s + (pre.filter internal).length ≤ 7 * (pre.filterMap madeBy).length) ops
    (fun o _ s pre s' h hs => by
      refine ⟨inv_step h.1 o hs, ?_⟩
      have h1 := mu_step h.1 o hs
      have h2 := h.2
      rw [List.filter_append, List.filterMap_append, List.length_append, List.length_append]
      have e1 : (List.filter internal [o]).length = if internal o then 1 else 0 := by
        rw [List.filter_cons]
        split <;> rfl
      have e2 : 7 * (List.filterMap madeBy [o]).length = if (madeBy o).isSome then 7 else 0 := by
        rw [List.filterMap_cons]
        cases madeBy o <;> rfl
      rw [e1]
      omega) _ _ []
    ⟨inv_init, by
      rw [total_quiet _ _ (fun _ => rfl) (fun _ _ => rfl) (fun _ => rfl)]
      exact Nat.le_refl _⟩ hr).2
  rw [List.nil_append] at this
  omega

end Verif.Mpi
