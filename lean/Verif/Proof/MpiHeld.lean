import Verif.Proof.MpiOrder

namespace Verif.Mpi
open Verif.MpiSpec

variable {n : Nat} {α : Type}

/-- A call that wants a reply has its endpoint until it returns. -/
def Held (s : Sys n α) : Prop :=
  ∀ c ∈ s.calls, AsksReply c.cmd → c.id ∈ s.done.map Ret.id ∨ ∃ p a, epId (s.ep p a) = some c.id

theorem held_same {s s' : Sys n α} (h : Held s) (hc : s'.calls = s.calls) (he : s'.ep = s.ep)
    (hd : s'.done = s.done) : Held s' := by
  intro c hm ha
  rw [hc] at hm
  rw [he, hd]
  exact h c hm ha

theorem held_call {s s' : Sys n α} (h : Held s) {p d : Fin n} {a : Nat} {ex : Bool}
    {cmd : Cmd α} (hs : s.call p d a ex cmd = some s') : Held s' := by
  obtain ⟨hfree, rfl⟩ := call_eq hs
  intro c hm ha
  have hep : ∀ p' a', epId (upd s.ep p (upd (s.ep p) a (.waiting s.calls.length ex)) p' a')
      = if p' = p ∧ a' = a then some s.calls.length else epId (s.ep p' a') := by
    intro p' a'
    rw [ep_upd]
    split <;> rfl
  have hm' : c ∈ s.calls ++ [⟨s.calls.length, p, d, cmd⟩] := hm
  rcases List.mem_append.1 hm' with hm' | hm'
  · rcases h c hm' ha with h1 | ⟨p', a', h1⟩
    · exact Or.inl h1
    · refine Or.inr ⟨p', a', ?_⟩
      show epId (upd s.ep p (upd (s.ep p) a (.waiting s.calls.length ex)) p' a') = _
      rw [hep, if_neg, h1]
      rintro ⟨rfl, rfl⟩
      rw [hfree] at h1
      cases h1
  · rw [List.mem_singleton] at hm'
    subst hm'
    refine Or.inr ⟨p, a, ?_⟩
    show epId (upd s.ep p (upd (s.ep p) a (.waiting s.calls.length ex)) p a) = _
    rw [hep, if_pos ⟨rfl, rfl⟩]

theorem held_postError {s : Sys n α} (h : Held s) (q : Fin n) : Held (s.postError q) :=
  held_same h (same_postError _ _).calls (same_postError _ _).ep (same_postError _ _).done

theorem held_step {has : Has n} {s s' : Sys n α} (hsafe : Safe s) (h : Held s) (o : Op n α)
    (hs : step has s o = some s') : Held s' := by
  cases o with
  | execute p d a node depth req => exact held_call h hs
  | getState p d a node => exact held_call h hs
  | setState p d node rec =>
    simp only [step, Option.some.injEq] at hs
    subst hs
    intro c hm ha
    have hm' : c ∈ s.calls ++ [⟨s.calls.length, p, d, .setState node rec⟩] := hm
    rcases List.mem_append.1 hm' with hm' | hm'
    · exact h c hm' ha
    · rw [List.mem_singleton] at hm'
      subst hm'
      exact absurd ha id
  | command p d a node args => exact held_call h hs
  | control p d tag node arg =>
    simp only [step, Option.some.injEq] at hs
    subst hs
    intro c hm ha
    have hm' : c ∈ s.calls ++ [⟨s.calls.length, p, d, .control tag node arg⟩] := hm
    rcases List.mem_append.1 hm' with hm' | hm'
    · exact h c hm' ha
    · rw [List.mem_singleton] at hm'
      subst hm'
      exact absurd ha id
  | server p d a tag arg => exact held_call h hs
  | send p =>
    obtain ⟨d, m, rest, hq, rfl⟩ := send_eq hs
    exact held_same h rfl rfl rfl
  | recv q src out =>
    obtain ⟨m, rest, hc, hh⟩ := recv_eq hs
    have hp : Held (s.pop src q rest) := held_same h rfl rfl rfl
    cases hh with
    | fail id ep cmd hx => exact held_postError hp q
    | job id ep node depth req hx => exact held_same hp rfl rfl rfl
    | state id ep node c obj hx ho => exact held_same hp rfl rfl rfl
    | set id node rec hx ho => exact held_same hp rfl rfl rfl
    | setR id a node rec =>
      exact absurd (Or.inr (by rw [hc]; exact List.mem_cons_self)) (hsafe.noset src q _ _ _ _)
    | command id ep node args => exact hp
    | control id ep tag node arg => exact hp
    | server id ep tag arg code obj hx ho => exact held_same hp rfl rfl rfl
    | reply id ep code obj =>
      obtain ⟨a, e, rfl, he, e1, hw0, heq, _⟩ := inv_reply hsafe src q id ep code obj rest hc
      rw [heq]
      intro c hm ha
      rcases h c hm ha with h1 | ⟨p', a', h1⟩
      · exact Or.inl h1
      · refine Or.inr ⟨p', a', ?_⟩
        show epId (upd s.ep q (upd (s.ep q) a (.replied id (isExec e.cmd) code obj)) p' a') = _
        rw [ep_upd]
        split
        · rename_i hpa
          obtain ⟨rfl, rfl⟩ := hpa
          rw [hw0] at h1
          exact h1
        · exact h1
    | event0 hx => exact held_same hp rfl rfl rfl
    | eventN hx => exact held_postError hp q
  | work q k out =>
    obtain ⟨j, hj, h1⟩ := work_eq hs
    obtain ⟨h2, a, h3, h4⟩ := inv_dropJob hsafe q k j hj
    rw [h1 a h3]
    have hd : Held (s.dropJob q k) := held_same h rfl rfl rfl
    have ha : ∀ u : Sys n α, Held u → Held (u.answer q j.src j.id a (.execute j.node j.depth j.req)
        (s.sett q j.node) (out.getD (RES_FAIL, none)).1 (out.getD (RES_FAIL, none)).2) :=
      fun u hu => held_same hu rfl rfl rfl
    apply ha
    split
    · exact held_postError hd q
    · exact hd
  | await p a =>
    obtain ⟨id, ex, code, obj, hw, rfl⟩ := await_eq hs
    intro c hm ha
    dsimp only
    rw [List.map_append, List.mem_append]
    rcases h c hm ha with h1 | ⟨p', a', h1⟩
    · exact Or.inl (Or.inl h1)
    · by_cases hpa : p' = p ∧ a' = a
      · obtain ⟨rfl, rfl⟩ := hpa
        rw [hw] at h1
        cases h1
        exact Or.inl (Or.inr (List.mem_singleton.2 rfl))
      · refine Or.inr ⟨p', a', ?_⟩
        rw [ep_upd, if_neg hpa]
        exact h1

theorem held_run {has : Has n} {ops : List (Op n α)} {s : Sys n α}
    (hr : run has (Sys.init n α) ops = some s) : Held s :=
  (run_induct (fun s _ => Safe s ∧ Held s) ops
    (fun o _ _ _ _ h hs => ⟨inv_step h.1 o hs, held_step h.1 h.2 o hs⟩) _ _ []
    ⟨inv_init, (fun _ h => by cases h)⟩ hr).2

theorem done_call {s : Sys n α} (h : Safe s) {r : Ret n α} (hr : r ∈ s.done) {c : Call n α}
    (hc : c ∈ s.calls) (e : r.id = c.id) : r.proc = c.src := by
  obtain ⟨en, he, h1, h2, _⟩ := h.done r hr
  have := h.callUnique (h.log en he) hc (by dsimp only; omega)
  rw [← this, ← h2]

theorem quiet_answered {has : Has n} {s : Sys n α} (h : Safe s) (hh : Held s)
    (hw : ∀ p a, ¬ Waiting s p a) (c : Call n α) (hc : c ∈ s.calls) (ha : AsksReply c.cmd) :
    Answered has s c := by
  rcases hh c hc ha with h1 | ⟨p, a, h1⟩
  · obtain ⟨r, hr, e⟩ := List.mem_map.1 h1
    exact Or.inl ⟨r, hr, e, done_call h hr hc e⟩
  · cases hep : s.ep p a with
    | free => rw [hep] at h1; cases h1
    | waiting id ex => exact absurd ⟨id, ex, hep⟩ (hw p a)
    | replied id ex code obj =>
      rw [hep] at h1
      cases h1
      obtain ⟨_, e, he, h2, h3, _⟩ := h.rep p a _ _ _ _ hep
      have := h.callUnique (h.log e he) hc h2
      have hp : p = c.src := by rw [← this]; exact h3.symm
      subst hp
      have hst : ∃ s', s.await c.src a = some s' ∧ ∃ r ∈ s'.done, r.id = c.id ∧ r.proc = c.src := by
        unfold Sys.await
        rw [hep]
        exact ⟨_, rfl, _, List.mem_append_right _ (List.mem_singleton.2 rfl), rfl, rfl⟩
      exact Or.inr ⟨a, hst⟩

theorem progress {has : Has n} {s : Sys n α} (hq : ¬ Quiet s) :
    ∃ o, internal o = true ∧ Regular has o ∧ step has s o ≠ none := by
  by_cases h1 : ∀ p, s.queue p = []
  · by_cases h2 : ∀ p d, s.chan p d = []
    · have h3 : ∃ q, s.jobs q ≠ [] := by
        by_contra h3
        exact hq ⟨h1, h2, fun q => by by_contra h; exact h3 ⟨q, h⟩⟩
      obtain ⟨q, h3⟩ := h3
      refine ⟨.work q 0 (some (0, none)), rfl, trivial, ?_⟩
      show s.work q 0 _ ≠ none
      unfold Sys.work
      cases hj : s.jobs q with
      | nil => exact absurd hj h3
      | cons j js =>
        dsimp only [List.getElem?_cons_zero]
        cases j.ep <;> exact fun h => by cases h
    · have h2 : ∃ p d, s.chan p d ≠ [] := by
        by_contra h3
        exact h2 (fun p d => by by_contra h; exact h3 ⟨p, d, h⟩)
      obtain ⟨p, d, h2⟩ := h2
      refine ⟨.recv d p (some (0, none)), rfl, (fun h => by cases h), ?_⟩
      show s.recv has d p _ ≠ none
      unfold Sys.recv
      cases hc : s.chan p d with
      | nil => exact absurd hc h2
      | cons m ms =>
        cases m with
        | req id ep cmd => exact fun h => by cases h
        | reply id ep code obj => exact fun h => by cases h
        | event =>
          dsimp only
          split <;> exact fun h => by cases h
  · have h1 : ∃ p, s.queue p ≠ [] := by
      by_contra h3
      exact h1 (fun p => by by_contra h; exact h3 ⟨p, h⟩)
    obtain ⟨p, h1⟩ := h1
    refine ⟨.send p, rfl, trivial, ?_⟩
    show s.send p ≠ none
    unfold Sys.send
    cases hc : s.queue p with
    | nil => exact absurd hc h1
    | cons m ms => exact fun h => by cases h

end Verif.Mpi
