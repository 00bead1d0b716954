import Verif.Proof.MpiSafe

namespace Verif.Mpi

variable {n : Nat} {α : Type}

theorem inv_sent {s : Sys n α} (h : Safe s) (p d : Fin n) (m : Msg α)
    (rest : List (Fin n × Msg α)) (hq : s.queue p = (d, m) :: rest) : Safe (s.sent p d m rest) := by
  have tt : ∀ i, total (tok i) (s.sent p d m rest) = total (tok i) s := by
    intro i
    have := total_sent (tok i) s p d m rest hq
    dsimp only [tok] at this ⊢
    omega
  have tr : ∀ i, total (rq i) (s.sent p d m rest) = total (rq i) s := by
    intro i
    have := total_sent (rq i) s p d m rest hq
    dsimp only [rq] at this ⊢
    omega
  have fl : ∀ p' d' m', Fl (s.sent p d m rest) p' d' m' → Fl s p' d' m' :=
    fun _ _ _ hf => fl_sent hq hf
  refine ⟨h.ids, ?_, ?_, ?_, ?_, ?_, ?_, ?_, h.job, h.log, h.wait, h.rep, h.inj, h.open_, h.doneLt,
    h.nodup, h.done, h.ok⟩
  · intro i; rw [tt]; exact h.tok1 i
  · intro i; rw [tr]; exact h.rq1 i
  · intro i hi; rw [tt, tr]; exact h.fresh i hi
  · intro p' d' id ep cmd hf; exact h.req _ _ _ _ _ (fl _ _ _ hf)
  · intro p' d' id a node rec hf; exact h.noset _ _ _ _ _ _ (fl _ _ _ hf)
  · intro p' d' id a tag node arg hf; exact h.noctl _ _ _ _ _ _ _ (fl _ _ _ hf)
  · intro p' d' id ep code obj hf; exact h.reply _ _ _ _ _ _ (fl _ _ _ hf)

theorem inv_pop {s : Sys n α} (h : Safe s) (src q : Fin n) (m : Msg α) (rest : List (Msg α))
    (hc : s.chan src q = m :: rest) : Safe (s.pop src q rest) := by
  have tt : ∀ i, total (tok i) (s.pop src q rest) ≤ total (tok i) s := by
    intro i
    have := total_pop (tok i) s src q m rest hc
    omega
  have tr : ∀ i, total (rq i) (s.pop src q rest) ≤ total (rq i) s := by
    intro i
    have := total_pop (rq i) s src q m rest hc
    omega
  have fl : ∀ p' d' m', Fl (s.pop src q rest) p' d' m' → Fl s p' d' m' :=
    fun _ _ _ hf => fl_pop hc hf
  refine ⟨h.ids, ?_, ?_, ?_, ?_, ?_, ?_, ?_, h.job, h.log, h.wait, h.rep, h.inj, h.open_, h.doneLt,
    h.nodup, h.done, h.ok⟩
  · intro i; exact Nat.le_trans (tt i) (h.tok1 i)
  · intro i
    have := tr i
    have h2 := h.rq1 i
    show _ + (s.log.filter _).length ≤ 1
    omega
  · intro i hi
    have := h.fresh i hi
    have := tt i
    have := tr i
    omega
  · intro p' d' id ep cmd hf; exact h.req _ _ _ _ _ (fl _ _ _ hf)
  · intro p' d' id a node rec hf; exact h.noset _ _ _ _ _ _ (fl _ _ _ hf)
  · intro p' d' id a tag node arg hf; exact h.noctl _ _ _ _ _ _ _ (fl _ _ _ hf)
  · intro p' d' id ep code obj hf; exact h.reply _ _ _ _ _ _ (fl _ _ _ hf)

/-- A call whose request has been taken and is being served, with nothing else of it on the way. -/
structure Ready (s : Sys n α) (id : Nat) (src q : Fin n) (a : Nat) (cmd : Cmd α) : Prop where
  call : (⟨id, src, q, cmd⟩ : Call n α) ∈ s.calls
  wait : s.ep src a = .waiting id (isExec cmd)
  tok0 : total (tok id) s = 0
  rq0 : total (rq id) s = 0
  nolog : ∀ e ∈ s.log, e.id ≠ id

theorem ready_same {s s' : Sys n α} {id : Nat} {src q : Fin n} {a : Nat} {cmd : Cmd α}
    (h : Ready s id src q a cmd) (e : Same s s') : Ready s' id src q a cmd :=
  ⟨by rw [e.calls]; exact h.call, by rw [e.ep]; exact h.wait, by rw [e.tok]; exact h.tok0,
    by rw [e.rq]; exact h.rq0, by rw [e.log]; exact h.nolog⟩

theorem nolog_of {s : Sys n α} {id : Nat}
    (h : (s.log.filter (fun e => e.id = id)).length = 0) : ∀ e ∈ s.log, e.id ≠ id := by
  intro e he hid
  have h1 := List.length_eq_zero_iff.1 h
  rw [List.filter_eq_nil_iff] at h1
  exact h1 e he (by rw [decide_eq_true_eq]; exact hid)

theorem ready_pop {s : Sys n α} (h : Safe s) (src q : Fin n) (id a : Nat) (cmd : Cmd α)
    (rest : List (Msg α)) (hc : s.chan src q = .req id (some a) cmd :: rest) :
    Ready (s.pop src q rest) id src q a cmd := by
  have hf : Fl s src q (.req id (some a) cmd) := Or.inr (by rw [hc]; exact List.mem_cons_self)
  obtain ⟨h1, h2⟩ := h.req _ _ _ _ _ hf
  have h3 : s.ep src a = .waiting id (isExec cmd) := by
    rcases h2 with ⟨a', e1, e2⟩ | ⟨e1, _⟩
    · cases e1; exact e2
    · cases e1
  have t1 := total_pop (tok id) s src q _ rest hc
  have t2 := total_pop (rq id) s src q _ rest hc
  have t3 := h.tok1 id
  have t4 := h.rq1 id
  have e1 : (tok id : W n α).c src q (.req id (some a) cmd) = 1 := if_pos rfl
  have e2 : (rq id : W n α).c src q (.req id (some a) cmd) = 1 := if_pos rfl
  refine ⟨h1, h3, by omega, by omega, ?_⟩
  exact nolog_of (s := s) (by omega)

theorem inv_dropJob {s : Sys n α} (h : Safe s) (q : Fin n) (k : Nat) (j : Job n α)
    (hk : (s.jobs q)[k]? = some j) :
    Safe (s.dropJob q k) ∧
    ∃ a, j.ep = some a ∧
      Ready (s.dropJob q k) j.id j.src q a (.execute j.node j.depth j.req) := by
  have hmem : j ∈ s.jobs q := List.mem_of_getElem? hk
  have tt : ∀ i, total (tok i) (s.dropJob q k) ≤ total (tok i) s := by
    intro i
    have := total_dropJob (tok i) s q k j hk
    omega
  have tr : ∀ i, total (rq i) (s.dropJob q k) ≤ total (rq i) s := by
    intro i
    have := total_dropJob (rq i) s q k j hk
    omega
  constructor
  · refine ⟨h.ids, ?_, ?_, ?_, h.req, h.noset, h.noctl, h.reply, ?_, h.log, h.wait, h.rep, h.inj, h.open_,
      h.doneLt, h.nodup, h.done, h.ok⟩
    · intro i; exact Nat.le_trans (tt i) (h.tok1 i)
    · intro i
      have := tr i
      have h2 := h.rq1 i
      show _ + (s.log.filter _).length ≤ 1
      omega
    · intro i hi
      have := h.fresh i hi
      have := tt i
      have := tr i
      omega
    · intro q' j' hj'
      refine h.job q' j' ?_
      unfold Sys.dropJob at hj'
      dsimp only at hj'
      by_cases hq : q' = q
      · subst hq
        rw [upd_same] at hj'
        exact List.mem_of_mem_eraseIdx hj'
      · rw [upd_other _ _ _ _ hq] at hj'
        exact hj'
  · obtain ⟨h1, a, h2, h3⟩ := h.job q j hmem
    have t1 := total_dropJob (tok j.id) s q k j hk
    have t2 := total_dropJob (rq j.id) s q k j hk
    have t3 := h.tok1 j.id
    have t4 := h.rq1 j.id
    have e1 : (tok j.id : W n α).j q j = 1 := if_pos ⟨by rw [h2]; rfl, rfl⟩
    have e2 : (rq j.id : W n α).j q j = 1 := if_pos rfl
    exact ⟨a, h2, h1, h3, by omega, by omega, nolog_of (s := s) (by omega)⟩

theorem inv_addJob {s : Sys n α} (h : Safe s) {id : Nat} {src q : Fin n} {a node depth : Nat}
    {req : α} (r : Ready s id src q a (.execute node depth req)) :
    Safe (s.addJob q ⟨id, src, some a, node, depth, req⟩) := by
  have tt : ∀ i, total (tok i) (s.addJob q ⟨id, src, some a, node, depth, req⟩)
      = total (tok i) s + (if id = i then 1 else 0) := by
    intro i
    rw [total_addJob]
    congr 1
    show tokJ i _ = _
    unfold tokJ
    by_cases hi : id = i
    · rw [if_pos hi, if_pos ⟨rfl, hi⟩]
    · rw [if_neg hi, if_neg (fun h => hi h.2)]
  have tr : ∀ i, total (rq i) (s.addJob q ⟨id, src, some a, node, depth, req⟩)
      = total (rq i) s + (if id = i then 1 else 0) := by
    intro i
    rw [total_addJob]
    rfl
  refine ⟨h.ids, ?_, ?_, ?_, h.req, h.noset, h.noctl, h.reply, ?_, h.log, h.wait, h.rep, h.inj, h.open_,
    h.doneLt, h.nodup, h.done, h.ok⟩
  · intro i
    rw [tt]
    by_cases hi : id = i
    · subst hi
      rw [if_pos rfl, r.tok0]
    · rw [if_neg hi]; exact h.tok1 i
  · intro i
    rw [tr]
    show _ + (s.log.filter _).length ≤ 1
    by_cases hi : id = i
    · subst hi
      have : s.log.filter (fun e => e.id = id) = [] := by
        rw [List.filter_eq_nil_iff]
        intro e he
        rw [decide_eq_true_eq]
        exact r.nolog e he
      rw [if_pos rfl, r.rq0, this]
      exact Nat.le_refl _
    · rw [if_neg hi]; exact h.rq1 i
  · intro i hi
    have hlt := h.callId r.call
    dsimp only at hlt
    have hi' : s.calls.length ≤ i := hi
    rw [tt, tr, if_neg (by omega)]
    exact h.fresh i hi
  · intro q' j' hj'
    unfold Sys.addJob at hj'
    dsimp only at hj'
    by_cases hq : q' = q
    · subst hq
      rw [upd_same] at hj'
      rcases List.mem_append.1 hj' with hj' | hj'
      · exact h.job q' j' hj'
      · rw [List.mem_singleton] at hj'
        subst hj'
        exact ⟨r.call, a, rfl, r.wait⟩
    · rw [upd_other _ _ _ _ hq] at hj'
      exact h.job q' j' hj'

/-- `s` after the operation was done and its reply posted. -/
def Sys.answer (s : Sys n α) (q src : Fin n) (id a : Nat) (cmd : Cmd α)
    (seen : List (Nat × Fin n × α)) (code : Nat) (obj : Option α) : Sys n α :=
  { s.postReply q src id (some a) code obj with
      log := s.log ++ [⟨id, src, q, cmd, seen, code, obj⟩] }

theorem inv_answer {s : Sys n α} (h : Safe s) {id : Nat} {src q : Fin n} {a : Nat} {cmd : Cmd α}
    (r : Ready s id src q a cmd) (seen : List (Nat × Fin n × α)) (code : Nat) (obj : Option α) :
    Safe (s.answer q src id a cmd seen code obj) := by
  have tt : ∀ i, total (tok i) (s.answer q src id a cmd seen code obj)
      = total (tok i) s + (if id = i then 1 else 0) :=
    fun i => total_push (tok i) s q src (.reply id (some a) code obj)
  have tr : ∀ i, total (rq i) (s.answer q src id a cmd seen code obj) = total (rq i) s :=
    fun i => total_push (rq i) s q src (.reply id (some a) code obj)
  have fl : ∀ p' d' m', Fl (s.answer q src id a cmd seen code obj) p' d' m' →
      Fl s p' d' m' ∨ (p' = q ∧ d' = src ∧ m' = .reply id (some a) code obj) :=
    fun p' d' m' hf => fl_push (s := s) hf
  have hlog : (s.answer q src id a cmd seen code obj).log
      = s.log ++ [⟨id, src, q, cmd, seen, code, obj⟩] := rfl
  refine ⟨h.ids, ?_, ?_, ?_, ?_, ?_, ?_, ?_, h.job, ?_, h.wait, ?_, h.inj, h.open_, h.doneLt, h.nodup, ?_,
    h.ok⟩
  · intro i
    rw [tt]
    by_cases hi : id = i
    · subst hi
      rw [if_pos rfl, r.tok0]
    · rw [if_neg hi]; exact h.tok1 i
  · intro i
    rw [tr, hlog, List.filter_append, List.length_append]
    by_cases hi : id = i
    · subst hi
      have : s.log.filter (fun e => e.id = id) = [] := by
        rw [List.filter_eq_nil_iff]
        intro e he
        rw [decide_eq_true_eq]
        exact r.nolog e he
      rw [r.rq0, this]
      have := List.length_filter_le (fun e : Entry n α => decide (e.id = id))
        [⟨id, src, q, cmd, seen, code, obj⟩]
      simp only [List.length_cons, List.length_nil] at this ⊢
      omega
    · have h2 : [(⟨id, src, q, cmd, seen, code, obj⟩ : Entry n α)].filter
          (fun e => decide (e.id = i)) = [] := by
        rw [List.filter_eq_nil_iff]
        intro e he
        rw [List.mem_singleton] at he
        subst he
        rw [decide_eq_true_eq]
        exact hi
      have := h.rq1 i
      rw [h2]
      simp only [List.length_nil]
      omega
  · intro i hi
    have hlt := h.callId r.call
    dsimp only at hlt
    have hi' : s.calls.length ≤ i := hi
    rw [tt, tr, if_neg (by omega)]
    exact h.fresh i hi
  · intro p' d' id' ep cmd' hf
    rcases fl _ _ _ hf with hf | ⟨_, _, h3⟩
    · exact h.req _ _ _ _ _ hf
    · cases h3
  · intro p' d' id' a' node rec hf
    rcases fl _ _ _ hf with hf | ⟨_, _, h3⟩
    · exact h.noset _ _ _ _ _ _ hf
    · cases h3
  · intro p' d' id' a' tag node arg hf
    rcases fl _ _ _ hf with hf | ⟨_, _, h3⟩
    · exact h.noctl _ _ _ _ _ _ _ hf
    · cases h3
  · intro p' d' id' ep code' obj' hf
    rw [hlog]
    rcases fl _ _ _ hf with hf | ⟨h1, h2, h3⟩
    · obtain ⟨a', e1, e, he, e2, e3, e4, e5, e6⟩ := h.reply _ _ _ _ _ _ hf
      exact ⟨a', e1, e, List.mem_append_left _ he, e2, e3, e4, e5, e6⟩
    · cases h3
      subst h1; subst h2
      exact ⟨a, rfl, _, List.mem_append_right _ (List.mem_singleton.2 rfl), rfl, rfl, rfl, rfl,
        r.wait⟩
  · intro e he
    rw [hlog] at he
    rcases List.mem_append.1 he with he | he
    · exact h.log e he
    · rw [List.mem_singleton] at he
      subst he
      exact r.call
  · intro p' a' id' ex code' obj' hw
    obtain ⟨h1, e, he, h2⟩ := h.rep p' a' id' ex code' obj' hw
    exact ⟨h1, e, List.mem_append_left _ he, h2⟩
  · intro x hx
    obtain ⟨e, he, h2⟩ := h.done x hx
    exact ⟨e, List.mem_append_left _ he, h2⟩

theorem inv_sett {s : Sys n α} (h : Safe s) (f : Fin n → Nat → List (Nat × Fin n × α)) :
    Safe { s with sett := f } :=
  ⟨h.ids, h.tok1, h.rq1, h.fresh, h.req, h.noset, h.noctl, h.reply, h.job, h.log, h.wait, h.rep, h.inj, h.open_,
    h.doneLt, h.nodup, h.done, h.ok⟩

/-- A reply is taken and handed to its endpoint. -/
theorem inv_reply {s : Sys n α} (h : Safe s) (src q : Fin n) (id : Nat) (ep : Option Nat)
    (code : Nat) (obj : Option α) (rest : List (Msg α))
    (hc : s.chan src q = .reply id ep code obj :: rest) :
    ∃ a e, ep = some a ∧ e ∈ s.log ∧ e.id = id ∧ s.ep q a = .waiting id (isExec e.cmd) ∧
    (s.pop src q rest).procReply q ep code obj
      = { s.pop src q rest with
            ep := upd s.ep q (upd (s.ep q) a (.replied id (isExec e.cmd) code obj)) } ∧
    Safe ((s.pop src q rest).procReply q ep code obj) := by
  have hf : Fl s src q (.reply id ep code obj) := Or.inr (by rw [hc]; exact List.mem_cons_self)
  obtain ⟨a, rfl, e, he, e1, e2, e3, e4, hw⟩ := h.reply _ _ _ _ _ _ hf
  have hp := inv_pop h src q _ rest hc
  have t0 : total (tok id) (s.pop src q rest) = 0 := by
    have t1 := total_pop (tok id) s src q _ rest hc
    have t3 := h.tok1 id
    have : (tok id : W n α).c src q (.reply id (some a) code obj) = 1 := if_pos rfl
    omega
  have hw' : (s.pop src q rest).ep q a = .waiting id (isExec e.cmd) := hw
  have heq : (s.pop src q rest).procReply q (some a) code obj
      = { s.pop src q rest with
            ep := upd s.ep q (upd (s.ep q) a (.replied id (isExec e.cmd) code obj)) } := by
    unfold Sys.procReply
    dsimp only
    rw [hw']
    rfl
  refine ⟨a, e, rfl, he, e1, hw, heq, ?_⟩
  rw [heq]
  have hlog : e ∈ (s.pop src q rest).log := he
  have hepeq : (s.pop src q rest).ep = s.ep := rfl
  rw [← hepeq]
  generalize s.pop src q rest = u at *
  have hep : ∀ p' a', upd u.ep q (upd (u.ep q) a (.replied id (isExec e.cmd) code obj)) p' a'
      = if p' = q ∧ a' = a then .replied id (isExec e.cmd) code obj else u.ep p' a' :=
    fun p' a' => ep_upd u q p' a a' _
  generalize upd u.ep q (upd (u.ep q) a (.replied id (isExec e.cmd) code obj)) = E at hep ⊢
  have keep : ∀ p' a' i ex, u.ep p' a' = .waiting i ex → total (tok i) u ≠ 0 →
      E p' a' = .waiting i ex := by
    intro p' a' i ex hv hne
    rw [hep, if_neg]
    · exact hv
    · rintro ⟨rfl, rfl⟩
      rw [hv] at hw'
      cases hw'
      exact hne t0
  have key : ∀ i p' d' m', Fl u p' d' m' → tokM i m' = 1 → total (tok i) u ≠ 0 := by
    intro i p' d' m' hf' hm
    have := le_total_fl (tok i) u p' d' m' 1 hm hm hf'
    omega
  have hid : ∀ p' a', epId (E p' a') = epId (u.ep p' a') := by
    intro p' a'
    rw [hep]
    split
    · rename_i c
      obtain ⟨rfl, rfl⟩ := c
      rw [hw']
      rfl
    · rfl
  refine ⟨hp.ids, hp.tok1, hp.rq1, hp.fresh, ?_, hp.noset, hp.noctl, ?_, ?_, hp.log, ?_, ?_, ?_, ?_, hp.doneLt,
    hp.nodup, hp.done, hp.ok⟩
  · intro p' d' i ep' cmd hf'
    obtain ⟨h1, h2⟩ := hp.req _ _ _ _ _ hf'
    refine ⟨h1, ?_⟩
    rcases h2 with ⟨a', rfl, h2⟩ | h2
    · exact Or.inl ⟨a', rfl, keep _ _ _ _ h2 (key i _ _ _ hf' (if_pos rfl))⟩
    · exact Or.inr h2
  · intro p' d' i ep' code' obj' hf'
    obtain ⟨a', rfl, e', he', h1, h2, h3, h4, h5⟩ := hp.reply _ _ _ _ _ _ hf'
    exact ⟨a', rfl, e', he', h1, h2, h3, h4, keep _ _ _ _ h5 (key i _ _ _ hf' (if_pos rfl))⟩
  · intro q' j hj
    obtain ⟨h1, a', h2, h3⟩ := hp.job q' j hj
    refine ⟨h1, a', h2, keep _ _ _ _ h3 ?_⟩
    have h4 := le_total_job (tok j.id) u q' j hj
    have h5 : (tok j.id : W n α).j q' j = 1 := if_pos ⟨by rw [h2]; rfl, rfl⟩
    omega
  · intro p' a' i ex hv
    dsimp only at hv
    rw [hep] at hv
    split at hv
    · cases hv
    · exact hp.wait _ _ _ _ hv
  · intro p' a' i ex code' obj' hv
    dsimp only at hv
    rw [hep] at hv
    split at hv
    · rename_i c
      cases hv
      refine ⟨hp.wait _ _ _ _ hw', e, hlog, e1, ?_, e3, e4, rfl⟩
      rw [e2, c.1]
    · exact hp.rep _ _ _ _ _ _ hv
  · intro p1 a1 p2 a2 i h1 h2
    dsimp only at h1 h2
    rw [hid] at h1 h2
    exact hp.inj _ _ _ _ _ h1 h2
  · intro p1 a1 i h1
    dsimp only at h1
    rw [hid] at h1
    exact hp.open_ _ _ _ h1

theorem inv_await {s s' : Sys n α} (h : Safe s) (p : Fin n) (a : Nat) (hs : s.await p a = some s') :
    Safe s' := by
  obtain ⟨id, ex, code, obj, hr, rfl⟩ := await_eq hs
  have hep : ∀ p' a', upd s.ep p (upd (s.ep p) a .free) p' a'
      = if p' = p ∧ a' = a then .free else s.ep p' a' :=
    fun p' a' => ep_upd s p p' a a' _
  generalize upd s.ep p (upd (s.ep p) a .free) = E at hep ⊢
  generalize hres : (if ex then proxyResult code obj else (code, obj)) = res
  have keep : ∀ p' a' i ex', s.ep p' a' = .waiting i ex' → E p' a' = .waiting i ex' := by
    intro p' a' i ex' hv
    rw [hep, if_neg]
    · exact hv
    · rintro ⟨rfl, rfl⟩
      rw [hv] at hr
      cases hr
  have hopen := h.open_ p a id (by rw [hr]; rfl)
  obtain ⟨hlt, e, he, e1, e2, e3, e4, e5⟩ := h.rep _ _ _ _ _ _ hr
  refine ⟨h.ids, h.tok1, h.rq1, h.fresh, ?_, h.noset, h.noctl, ?_, ?_, h.log, ?_, ?_, ?_, ?_, ?_, ?_, ?_, h.ok⟩
  · intro p' d' i ep' cmd hf'
    obtain ⟨h1, h2⟩ := h.req _ _ _ _ _ hf'
    refine ⟨h1, ?_⟩
    rcases h2 with ⟨a', rfl, h2⟩ | h2
    · exact Or.inl ⟨a', rfl, keep _ _ _ _ h2⟩
    · exact Or.inr h2
  · intro p' d' i ep' code' obj' hf'
    obtain ⟨a', rfl, e', he', h1, h2, h3, h4, h5⟩ := h.reply _ _ _ _ _ _ hf'
    exact ⟨a', rfl, e', he', h1, h2, h3, h4, keep _ _ _ _ h5⟩
  · intro q' j hj
    obtain ⟨h1, a', h2, h3⟩ := h.job q' j hj
    exact ⟨h1, a', h2, keep _ _ _ _ h3⟩
  · intro p' a' i ex' hv
    dsimp only at hv
    rw [hep] at hv
    split at hv
    · cases hv
    · exact h.wait _ _ _ _ hv
  · intro p' a' i ex' code' obj' hv
    dsimp only at hv
    rw [hep] at hv
    split at hv
    · cases hv
    · exact h.rep _ _ _ _ _ _ hv
  · intro p1 a1 p2 a2 i h1 h2
    dsimp only at h1 h2
    rw [hep] at h1 h2
    split at h1
    · cases h1
    · split at h2
      · cases h2
      · exact h.inj _ _ _ _ _ h1 h2
  · intro p1 a1 i h1
    dsimp only at h1 ⊢
    rw [hep] at h1
    split at h1
    · cases h1
    · rename_i hne
      rw [List.map_append, List.mem_append]
      rintro (h2 | h2)
      · exact h.open_ _ _ _ h1 h2
      · simp only [List.map_cons, List.map_nil, List.mem_singleton] at h2
        subst h2
        have := h.inj p1 a1 p a i h1 (by rw [hr]; rfl)
        exact hne this
  · intro i hi
    dsimp only at hi
    rw [List.map_append, List.mem_append] at hi
    rcases hi with h2 | h2
    · exact h.doneLt i h2
    · simp only [List.map_cons, List.map_nil, List.mem_singleton] at h2
      subst h2
      exact hlt
  · dsimp only
    rw [List.map_append, List.nodup_append]
    refine ⟨h.nodup, by simp, ?_⟩
    intro x hx y hy
    simp only [List.map_cons, List.map_nil, List.mem_singleton] at hy
    subst hy
    rintro rfl
    exact hopen hx
  · intro r hr'
    dsimp only at hr'
    rcases List.mem_append.1 hr' with h2 | h2
    · exact h.done r h2
    · rw [List.mem_singleton] at h2
      subst h2
      refine ⟨e, he, e1, e2, ?_⟩
      dsimp only
      rw [← hres, e5, e3, e4]

end Verif.Mpi
