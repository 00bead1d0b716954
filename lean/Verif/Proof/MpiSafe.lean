import Verif.Proof.Mpi

namespace Verif.Mpi

variable {n : Nat} {α : Type}

def isExec : Cmd α → Bool
  | .execute _ _ _ => true
  | _ => false

/-- Messages of the call `i` that carry its endpoint. -/
def tokM (i : Nat) : Msg α → Nat
  | .req id (some _) _ => if id = i then 1 else 0
  | .reply id (some _) _ _ => if id = i then 1 else 0
  | _ => 0

def tokJ (i : Nat) (j : Job n α) : Nat := if j.ep.isSome = true ∧ j.id = i then 1 else 0

/-- Counts what carries the endpoint of call `i`. -/
def tok (i : Nat) : W n α := ⟨fun _ _ m => tokM i m, fun _ _ m => tokM i m, fun _ j => tokJ i j⟩

def rqM (i : Nat) : Msg α → Nat
  | .req id _ _ => if id = i then 1 else 0
  | _ => 0

/-- Counts the requests of call `i` that are not done. -/
def rq (i : Nat) : W n α :=
  ⟨fun _ _ m => rqM i m, fun _ _ m => rqM i m, fun _ j => if j.id = i then 1 else 0⟩

/-- The call an endpoint belongs to. -/
def epId : Ep α → Option Nat
  | .free => none
  | .waiting id _ => some id
  | .replied id _ _ _ => some id

/-- The invariant of all histories. -/
structure Safe (s : Sys n α) : Prop where
  ids : ∀ (k : Nat) c, s.calls[k]? = some c → c.id = k
  tok1 : ∀ i, total (tok i) s ≤ 1
  rq1 : ∀ i, total (rq i) s + (s.log.filter (fun e => e.id = i)).length ≤ 1
  fresh : ∀ i, s.calls.length ≤ i → total (tok i) s = 0 ∧ total (rq i) s = 0
  req : ∀ p d id ep cmd, Fl s p d (.req id ep cmd) →
    (⟨id, p, d, cmd⟩ : Call n α) ∈ s.calls ∧
    ((∃ a, ep = some a ∧ s.ep p a = .waiting id (isExec cmd)) ∨
     (ep = none ∧ ((∃ node rec, cmd = .setState node rec) ∨ ∃ tag node arg, cmd = .control tag node arg)))
  noset : ∀ p d id a node rec, ¬ Fl s p d (.req id (some a) (.setState node rec))
  noctl : ∀ p d id a tag node arg, ¬ Fl s p d (.req id (some a) (.control tag node arg))
  reply : ∀ p d id ep code obj, Fl s p d (.reply id ep code obj) →
    ∃ a, ep = some a ∧ ∃ e ∈ s.log, e.id = id ∧ e.src = d ∧ e.code = code ∧ e.obj = obj ∧
      s.ep d a = .waiting id (isExec e.cmd)
  job : ∀ q j, j ∈ s.jobs q →
    (⟨j.id, j.src, q, .execute j.node j.depth j.req⟩ : Call n α) ∈ s.calls ∧
    ∃ a, j.ep = some a ∧ s.ep j.src a = .waiting j.id true
  log : ∀ e ∈ s.log, (⟨e.id, e.src, e.at_, e.cmd⟩ : Call n α) ∈ s.calls
  wait : ∀ p a id ex, s.ep p a = .waiting id ex → id < s.calls.length
  rep : ∀ p a id ex code obj, s.ep p a = .replied id ex code obj →
    id < s.calls.length ∧
    ∃ e ∈ s.log, e.id = id ∧ e.src = p ∧ e.code = code ∧ e.obj = obj ∧ ex = isExec e.cmd
  inj : ∀ p a p' a' id, epId (s.ep p a) = some id → epId (s.ep p' a') = some id → p = p' ∧ a = a'
  open_ : ∀ p a id, epId (s.ep p a) = some id → id ∉ s.done.map Ret.id
  doneLt : ∀ i ∈ s.done.map Ret.id, i < s.calls.length
  nodup : (s.done.map Ret.id).Nodup
  done : ∀ r ∈ s.done, ∃ e ∈ s.log, e.id = r.id ∧ e.src = r.proc ∧
    (r.code, r.obj) = (if isExec e.cmd then proxyResult e.code e.obj else (e.code, e.obj))
  ok : s.crashed = false

theorem inv_init : Safe (Sys.init n α) where
  ids := by intro k c h; simp [Sys.init] at h
  tok1 := by
    intro i
    rw [total_quiet _ _ (fun _ => rfl) (fun _ _ => rfl) (fun _ => rfl)]
    exact Nat.zero_le _
  rq1 := by
    intro i
    rw [total_quiet _ _ (fun _ => rfl) (fun _ _ => rfl) (fun _ => rfl)]
    exact Nat.zero_le _
  fresh := by
    intro i _
    rw [total_quiet _ _ (fun _ => rfl) (fun _ _ => rfl) (fun _ => rfl),
      total_quiet _ _ (fun _ => rfl) (fun _ _ => rfl) (fun _ => rfl)]
    exact ⟨rfl, rfl⟩
  req := by intro p d id ep cmd h; rcases h with h | h <;> cases h
  noset := by intro p d id a node rec h; rcases h with h | h <;> cases h
  noctl := by intro p d id a tag node arg h; rcases h with h | h <;> cases h
  reply := by intro p d id ep code obj h; rcases h with h | h <;> cases h
  job := by intro q j h; cases h
  log := by intro e h; cases h
  wait := by intro p a id ex h; cases h
  rep := by intro p a id ex code obj h; cases h
  inj := by intro p a p' a' id h; cases h
  open_ := by intro p a id h; cases h
  doneLt := by intro i h; cases h
  nodup := List.nodup_nil
  done := by intro r h; cases h
  ok := rfl

theorem Safe.callId {s : Sys n α} (h : Safe s) {c : Call n α} (hc : c ∈ s.calls) :
    c.id < s.calls.length := by
  obtain ⟨k, hk, e⟩ := List.mem_iff_getElem.1 hc
  have := h.ids k c (by rw [List.getElem?_eq_getElem hk, e])
  omega

theorem Safe.callUnique {s : Sys n α} (h : Safe s) {c c' : Call n α} (hc : c ∈ s.calls)
    (hc' : c' ∈ s.calls) (e : c.id = c'.id) : c = c' := by
  obtain ⟨k, hk, e1⟩ := List.mem_iff_getElem.1 hc
  obtain ⟨k', hk', e2⟩ := List.mem_iff_getElem.1 hc'
  have h1 := h.ids k c (by rw [List.getElem?_eq_getElem hk, e1])
  have h2 := h.ids k' c' (by rw [List.getElem?_eq_getElem hk', e2])
  have : k = k' := by omega
  subst this
  rw [← e1, e2]

/-! ### Posting -/

theorem total_event (i : Nat) (s : Sys n α) (p d : Fin n) :
    total (tok i) (s.push p d .event) = total (tok i) s ∧
    total (rq i) (s.push p d .event) = total (rq i) s :=
  ⟨total_push _ _ _ _ _, total_push _ _ _ _ _⟩

/-- Nothing but errors and events differ. -/
structure Same (s s' : Sys n α) : Prop where
  tok : ∀ i, total (tok i) s' = total (tok i) s
  rq : ∀ i, total (rq i) s' = total (rq i) s
  fl : ∀ p d m, Fl s' p d m → Fl s p d m ∨ m = .event
  jobs : s'.jobs = s.jobs
  ep : s'.ep = s.ep
  calls : s'.calls = s.calls
  log : s'.log = s.log
  done : s'.done = s.done
  crashed : s'.crashed = s.crashed
  sett : s'.sett = s.sett
  ctrl : s'.ctrl = s.ctrl

theorem same_postError (s : Sys n α) (p : Fin n) : Same s (s.postError p) := by
  unfold Sys.postError
  by_cases h : p.val = 0
  · rw [if_pos h]
    exact ⟨fun _ => rfl, fun _ => rfl, fun _ _ _ h => Or.inl h, rfl, rfl, rfl, rfl, rfl, rfl, rfl, rfl⟩
  · rw [if_neg h]
    refine ⟨fun i => (total_event i _ _ _).1, fun i => (total_event i _ _ _).2, ?_, rfl, rfl, rfl,
      rfl, rfl, rfl, rfl, rfl⟩
    intro p' d' m' hf
    rcases fl_push hf with h | ⟨_, _, h⟩
    · exact Or.inl h
    · exact Or.inr h

theorem inv_same {s s' : Sys n α} (h : Safe s) (e : Same s s') : Safe s' where
  ids := by rw [e.calls]; exact h.ids
  tok1 := by intro i; rw [e.tok]; exact h.tok1 i
  rq1 := by intro i; rw [e.rq, e.log]; exact h.rq1 i
  fresh := by intro i; rw [e.tok, e.rq, e.calls]; exact h.fresh i
  req := by
    intro p d id ep cmd hf
    rw [e.calls, e.ep]
    rcases e.fl _ _ _ hf with hf | hf
    · exact h.req _ _ _ _ _ hf
    · cases hf
  noset := by
    intro p d id a node rec hf
    rcases e.fl _ _ _ hf with hf | hf
    · exact h.noset _ _ _ _ _ _ hf
    · cases hf
  noctl := by
    intro p d id a tag node arg hf
    rcases e.fl _ _ _ hf with hf | hf
    · exact h.noctl _ _ _ _ _ _ _ hf
    · cases hf
  reply := by
    intro p d id ep code obj hf
    rw [e.log, e.ep]
    rcases e.fl _ _ _ hf with hf | hf
    · exact h.reply _ _ _ _ _ _ hf
    · cases hf
  job := by rw [e.jobs, e.calls, e.ep]; exact h.job
  log := by rw [e.log, e.calls]; exact h.log
  wait := by rw [e.ep, e.calls]; exact h.wait
  rep := by rw [e.ep, e.calls, e.log]; exact h.rep
  inj := by rw [e.ep]; exact h.inj
  open_ := by rw [e.ep, e.done]; exact h.open_
  doneLt := by rw [e.done, e.calls]; exact h.doneLt
  nodup := by rw [e.done]; exact h.nodup
  done := by rw [e.done, e.log]; exact h.done
  ok := by rw [e.crashed]; exact h.ok

theorem tokM_req_none (i id : Nat) (cmd : Cmd α) : tokM i (.req id none cmd) = 0 := rfl

theorem inv_postCommand {s : Sys n α} (h : Safe s) (p d : Fin n) (cmd : Cmd α)
    (hc : (∃ node rec, cmd = .setState node rec) ∨ ∃ tag node arg, cmd = .control tag node arg) :
    Safe (s.postCommand p d none cmd) := by
  have tt : ∀ i, total (tok i) (s.postCommand p d none cmd) = total (tok i) s :=
    fun i => total_push (tok i) s p d (.req s.calls.length none cmd)
  have tr : ∀ i, total (rq i) (s.postCommand p d none cmd)
      = total (rq i) s + if s.calls.length = i then 1 else 0 :=
    fun i => total_push (rq i) s p d (.req s.calls.length none cmd)
  have fl : ∀ p' d' m', Fl (s.postCommand p d none cmd) p' d' m' →
      Fl s p' d' m' ∨ (p' = p ∧ d' = d ∧ m' = .req s.calls.length none cmd) :=
    fun p' d' m' hf => fl_push hf
  have hcalls : (s.postCommand p d none cmd).calls = s.calls ++ [⟨s.calls.length, p, d, cmd⟩] := rfl
  have hnolog : ∀ e ∈ s.log, e.id ≠ s.calls.length := by
    intro e he hid
    have := h.callId (h.log e he)
    dsimp only at this
    omega
  refine ⟨?_, ?_, ?_, ?_, ?_, ?_, ?_, ?_, ?_, ?_, ?_, ?_, h.inj, h.open_, ?_, h.nodup, h.done, h.ok⟩
  · intro k c hk
    rw [hcalls] at hk
    rw [List.getElem?_append] at hk
    split at hk
    · exact h.ids k c hk
    · rename_i hlt
      rcases Nat.eq_zero_or_pos (k - s.calls.length) with h0 | h0
      · rw [h0] at hk
        simp only [List.getElem?_cons_zero, Option.some.injEq] at hk
        rw [← hk]
        dsimp only
        omega
      · obtain ⟨t, ht⟩ : ∃ t, k - s.calls.length = t + 1 := ⟨k - s.calls.length - 1, by omega⟩
        rw [ht] at hk
        simp at hk
  · intro i; rw [tt]; exact h.tok1 i
  · intro i
    rw [tr]
    have := h.rq1 i
    by_cases hi : s.calls.length = i
    · rw [if_pos hi]
      have h1 := (h.fresh i (by omega)).2
      have h2 : s.log.filter (fun e => e.id = i) = [] := by
        rw [List.filter_eq_nil_iff]
        intro e he
        rw [decide_eq_true_eq, ← hi]
        exact hnolog e he
      show _ + (s.log.filter _).length ≤ 1
      rw [h2, h1]
      exact Nat.le_refl _
    · rw [if_neg hi]
      exact this
  · intro i hi
    rw [hcalls, List.length_append] at hi
    simp only [List.length_cons, List.length_nil] at hi
    rw [tt, tr, if_neg (by omega)]
    exact h.fresh i (by omega)
  · intro p' d' id ep cmd' hf
    rw [hcalls]
    rcases fl _ _ _ hf with hf | ⟨h1, h2, h3⟩
    · obtain ⟨h4, h5⟩ := h.req _ _ _ _ _ hf
      exact ⟨List.mem_append_left _ h4, h5⟩
    · cases h3
      subst h1; subst h2
      exact ⟨List.mem_append_right _ (List.mem_singleton.2 rfl), Or.inr ⟨rfl, hc⟩⟩
  · intro p' d' id a node rec hf
    rcases fl _ _ _ hf with hf | ⟨h1, h2, h3⟩
    · exact h.noset _ _ _ _ _ _ hf
    · cases h3
  · intro p' d' id a tag node arg hf
    rcases fl _ _ _ hf with hf | ⟨h1, h2, h3⟩
    · exact h.noctl _ _ _ _ _ _ _ hf
    · cases h3
  · intro p' d' id ep code obj hf
    rcases fl _ _ _ hf with hf | ⟨h1, h2, h3⟩
    · exact h.reply _ _ _ _ _ _ hf
    · cases h3
  · intro q j hj
    obtain ⟨h1, h2⟩ := h.job q j hj
    exact ⟨List.mem_append_left _ h1, h2⟩
  · intro e he
    exact List.mem_append_left _ (h.log e he)
  · intro p' a id ex hw
    have := h.wait p' a id ex hw
    rw [hcalls, List.length_append]
    omega
  · intro p' a id ex code obj hw
    obtain ⟨h1, h2⟩ := h.rep p' a id ex code obj hw
    refine ⟨?_, h2⟩
    rw [hcalls, List.length_append]
    omega
  · intro i hi
    have := h.doneLt i hi
    rw [hcalls, List.length_append]
    omega

theorem ep_upd (s : Sys n α) (p p' : Fin n) (a a' : Nat) (v : Ep α) :
    upd s.ep p (upd (s.ep p) a v) p' a' = if p' = p ∧ a' = a then v else s.ep p' a' := by
  by_cases hp : p' = p
  · subst hp
    rw [upd_same]
    by_cases ha : a' = a
    · subst ha
      rw [upd_same, if_pos ⟨rfl, rfl⟩]
    · rw [upd_other _ _ _ _ ha, if_neg (fun h => ha h.2)]
  · rw [upd_other _ _ _ _ hp, if_neg (fun h => hp h.1)]

theorem inv_call {s s' : Sys n α} (h : Safe s) (p d : Fin n) (a : Nat) (ex : Bool) (cmd : Cmd α)
    (hex : ex = isExec cmd) (hns : ∀ node rec, cmd ≠ .setState node rec)
    (hnc : ∀ tag node arg, cmd ≠ .control tag node arg)
    (hs : s.call p d a ex cmd = some s') : Safe s' := by
  obtain ⟨hfree, rfl⟩ := call_eq hs
  have hep : ∀ p' a', upd s.ep p (upd (s.ep p) a (.waiting s.calls.length ex)) p' a'
      = if p' = p ∧ a' = a then .waiting s.calls.length ex else s.ep p' a' :=
    fun p' a' => ep_upd s p p' a a' _
  generalize upd s.ep p (upd (s.ep p) a (.waiting s.calls.length ex)) = E at hep ⊢
  have keep : ∀ p' a' v, s.ep p' a' = v → v ≠ .free → E p' a' = v := by
    intro p' a' v hv hne
    rw [hep, if_neg]
    · exact hv
    · rintro ⟨rfl, rfl⟩
      exact hne (hv ▸ hfree)
  have tt : ∀ i, total (tok i) { s.postCommand p d (some a) cmd with ep := E }
      = total (tok i) s + if s.calls.length = i then 1 else 0 :=
    fun i => total_push (tok i) s p d (.req s.calls.length (some a) cmd)
  have tr : ∀ i, total (rq i) { s.postCommand p d (some a) cmd with ep := E }
      = total (rq i) s + if s.calls.length = i then 1 else 0 :=
    fun i => total_push (rq i) s p d (.req s.calls.length (some a) cmd)
  have fl : ∀ p' d' m', Fl { s.postCommand p d (some a) cmd with ep := E } p' d' m' →
      Fl s p' d' m' ∨ (p' = p ∧ d' = d ∧ m' = .req s.calls.length (some a) cmd) :=
    fun p' d' m' hf => fl_push (s := s) hf
  have hcalls : ({ s.postCommand p d (some a) cmd with ep := E } : Sys n α).calls
      = s.calls ++ [⟨s.calls.length, p, d, cmd⟩] := rfl
  have hEp : ({ s.postCommand p d (some a) cmd with ep := E } : Sys n α).ep = E := rfl
  have hlogE : ({ s.postCommand p d (some a) cmd with ep := E } : Sys n α).log = s.log := rfl
  have hdone : ({ s.postCommand p d (some a) cmd with ep := E } : Sys n α).done = s.done := rfl
  have hjobs : ({ s.postCommand p d (some a) cmd with ep := E } : Sys n α).jobs = s.jobs := rfl
  have hcr : ({ s.postCommand p d (some a) cmd with ep := E } : Sys n α).crashed = s.crashed := rfl
  generalize ({ s.postCommand p d (some a) cmd with ep := E } : Sys n α) = s' at *
  have hnolog : ∀ e ∈ s.log, e.id ≠ s.calls.length := by
    intro e he hid
    have := h.callId (h.log e he)
    dsimp only at this
    omega
  have epIdLt : ∀ p' a' id, epId (s.ep p' a') = some id → id < s.calls.length := by
    intro p' a' id hid
    cases hv : s.ep p' a' with
    | free => rw [hv] at hid; cases hid
    | waiting id' ex' =>
      rw [hv] at hid
      cases hid
      exact h.wait _ _ _ _ hv
    | replied id' ex' c o =>
      rw [hv] at hid
      cases hid
      exact (h.rep _ _ _ _ _ _ hv).1
  refine ⟨?_, ?_, ?_, ?_, ?_, ?_, ?_, ?_, ?_, ?_, ?_, ?_, ?_, ?_, ?_, ?_, ?_, ?_⟩
  · intro k c hk
    rw [hcalls, List.getElem?_append] at hk
    split at hk
    · exact h.ids k c hk
    · rename_i hlt
      rcases Nat.eq_zero_or_pos (k - s.calls.length) with h0 | h0
      · rw [h0] at hk
        simp only [List.getElem?_cons_zero, Option.some.injEq] at hk
        rw [← hk]
        dsimp only
        omega
      · obtain ⟨t, ht⟩ : ∃ t, k - s.calls.length = t + 1 := ⟨k - s.calls.length - 1, by omega⟩
        rw [ht] at hk
        simp at hk
  · intro i
    rw [tt]
    by_cases hi : s.calls.length = i
    · rw [if_pos hi, (h.fresh i (by omega)).1]
    · rw [if_neg hi]; exact h.tok1 i
  · intro i
    rw [tr, hlogE]
    have := h.rq1 i
    by_cases hi : s.calls.length = i
    · rw [if_pos hi]
      have h1 := (h.fresh i (by omega)).2
      have h2 : s.log.filter (fun e => e.id = i) = [] := by
        rw [List.filter_eq_nil_iff]
        intro e he
        rw [decide_eq_true_eq, ← hi]
        exact hnolog e he
      rw [h2, h1]
      exact Nat.le_refl _
    · rw [if_neg hi]
      exact this
  · intro i hi
    rw [hcalls, List.length_append] at hi
    simp only [List.length_cons, List.length_nil] at hi
    rw [tt, tr, if_neg (by omega)]
    exact h.fresh i (by omega)
  · intro p' d' id ep cmd' hf
    rw [hcalls, hEp]
    rcases fl _ _ _ hf with hf | ⟨h1, h2, h3⟩
    · obtain ⟨h4, h5⟩ := h.req _ _ _ _ _ hf
      refine ⟨List.mem_append_left _ h4, ?_⟩
      rcases h5 with ⟨a', e1, e2⟩ | h5
      · exact Or.inl ⟨a', e1, keep _ _ _ e2 (fun h => by cases h)⟩
      · exact Or.inr h5
    · cases h3
      subst h1; subst h2
      refine ⟨List.mem_append_right _ (List.mem_singleton.2 rfl), Or.inl ⟨a, rfl, ?_⟩⟩
      rw [hep, if_pos ⟨rfl, rfl⟩, hex]
  · intro p' d' id a' node rec hf
    rcases fl _ _ _ hf with hf | ⟨h1, h2, h3⟩
    · exact h.noset _ _ _ _ _ _ hf
    · cases h3
      exact hns _ _ rfl
  · intro p' d' id a' tag node arg hf
    rcases fl _ _ _ hf with hf | ⟨h1, h2, h3⟩
    · exact h.noctl _ _ _ _ _ _ _ hf
    · cases h3
      exact hnc _ _ _ rfl
  · intro p' d' id ep code obj hf
    rw [hlogE, hEp]
    rcases fl _ _ _ hf with hf | ⟨h1, h2, h3⟩
    · obtain ⟨a', e1, e, he, e2, e3, e4, e5, e6⟩ := h.reply _ _ _ _ _ _ hf
      exact ⟨a', e1, e, he, e2, e3, e4, e5, keep _ _ _ e6 (fun h => by cases h)⟩
    · cases h3
  · intro q j hj
    rw [hjobs] at hj
    rw [hcalls, hEp]
    obtain ⟨h1, a', h2, h3⟩ := h.job q j hj
    exact ⟨List.mem_append_left _ h1, a', h2, keep _ _ _ h3 (fun h => by cases h)⟩
  · intro e he
    rw [hlogE] at he
    rw [hcalls]
    exact List.mem_append_left _ (h.log e he)
  · intro p' a' id ex' hw
    rw [hEp, hep] at hw
    rw [hcalls, List.length_append]
    simp only [List.length_cons, List.length_nil]
    split at hw
    · cases hw; omega
    · have := h.wait p' a' id ex' hw
      omega
  · intro p' a' id ex' code obj hw
    rw [hEp, hep] at hw
    rw [hcalls, List.length_append, hlogE]
    split at hw
    · cases hw
    · obtain ⟨h1, h2⟩ := h.rep p' a' id ex' code obj hw
      exact ⟨by omega, h2⟩
  · intro p1 a1 p2 a2 id h1 h2
    rw [hEp, hep] at h1 h2
    split at h1
    · rename_i c1
      cases h1
      split at h2
      · rename_i c2
        exact ⟨c1.1.trans c2.1.symm, c1.2.trans c2.2.symm⟩
      · have := epIdLt _ _ _ h2
        omega
    · split at h2
      · cases h2
        have := epIdLt _ _ _ h1
        omega
      · exact h.inj _ _ _ _ _ h1 h2
  · intro p1 a1 id h1
    rw [hEp, hep] at h1
    rw [hdone]
    split at h1
    · cases h1
      intro hm
      have := h.doneLt _ hm
      omega
    · exact h.open_ _ _ _ h1
  · intro i hi
    rw [hdone] at hi
    have := h.doneLt i hi
    rw [hcalls, List.length_append]
    omega
  · rw [hdone]; exact h.nodup
  · rw [hdone, hlogE]; exact h.done
  · rw [hcr]; exact h.ok

end Verif.Mpi
