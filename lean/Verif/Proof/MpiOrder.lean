import Verif.Proof.MpiLive

namespace Verif.Mpi
open Verif.MpiSpec

variable {n : Nat} {α : Type}

/-! ### Order between two processes -/

/-- What `p` has posted for `q` and `q` has not taken, in order. -/
def pipe (s : Sys n α) (p q : Fin n) : List (Msg α) :=
  s.chan p q ++ ((s.queue p).filter (fun x => x.1 = q)).map Prod.snd

theorem pipe_push (s : Sys n α) (p d : Fin n) (m : Msg α) (p' q' : Fin n) :
    pipe (s.push p d m) p' q' = pipe s p' q' ++ (if p' = p ∧ q' = d then [m] else []) := by
  unfold pipe Sys.push
  dsimp only
  by_cases hp : p' = p
  · subst hp
    rw [upd_same, List.filter_append, List.map_append, List.append_assoc]
    congr 2
    rw [List.filter_cons]
    by_cases hd : q' = d
    · subst hd
      rw [if_pos (by simp), if_pos ⟨rfl, rfl⟩]
      rfl
    · rw [if_neg (by simpa using fun h => hd h.symm), if_neg (fun h => hd h.2)]
      rfl
  · rw [upd_other _ _ _ _ hp, if_neg (fun h => hp h.1), List.append_nil]

theorem chan_upd (s : Sys n α) (p d p' d' : Fin n) (l : List (Msg α)) :
    upd s.chan p (upd (s.chan p) d l) p' d' = if p' = p ∧ d' = d then l else s.chan p' d' := by
  by_cases hp : p' = p
  · subst hp
    rw [upd_same]
    by_cases hd : d' = d
    · subst hd
      rw [upd_same, if_pos ⟨rfl, rfl⟩]
    · rw [upd_other _ _ _ _ hd, if_neg (fun h => hd h.2)]
  · rw [upd_other _ _ _ _ hp, if_neg (fun h => hp h.1)]

theorem pipe_sent (s : Sys n α) (p d : Fin n) (m : Msg α) (rest : List (Fin n × Msg α))
    (hq : s.queue p = (d, m) :: rest) (p' q' : Fin n) :
    pipe (s.sent p d m rest) p' q' = pipe s p' q' := by
  unfold pipe Sys.sent
  dsimp only
  rw [chan_upd]
  by_cases hp : p' = p
  · subst hp
    rw [upd_same, hq, List.filter_cons]
    by_cases hd : q' = d
    · subst hd
      rw [if_pos ⟨rfl, rfl⟩, if_pos (by simp), List.append_assoc]
      rfl
    · rw [if_neg (fun h => hd h.2), if_neg (by simpa using fun h => hd h.symm)]
  · rw [upd_other _ _ _ _ hp, if_neg (fun h => hp h.1)]

theorem pipe_pop (s : Sys n α) (src q : Fin n) (m : Msg α) (rest : List (Msg α))
    (hc : s.chan src q = m :: rest) (p' q' : Fin n) :
    pipe s p' q' = (if p' = src ∧ q' = q then [m] else []) ++ pipe (s.pop src q rest) p' q' := by
  unfold pipe Sys.pop
  dsimp only
  rw [chan_upd]
  by_cases h : p' = src ∧ q' = q
  · obtain ⟨rfl, rfl⟩ := h
    rw [if_pos ⟨rfl, rfl⟩, if_pos ⟨rfl, rfl⟩, hc]
    rfl
  · rw [if_neg h, if_neg h, List.nil_append]

theorem pipe_mem {s : Sys n α} {p q : Fin n} {m : Msg α} (h : m ∈ pipe s p q) : Fl s p q m := by
  rcases List.mem_append.1 h with h | h
  · exact Or.inr h
  · obtain ⟨x, hx, rfl⟩ := List.mem_map.1 h
    rw [List.mem_filter, decide_eq_true_eq] at hx
    obtain ⟨h1, rfl⟩ := hx
    exact Or.inl h1

/-- The settings of a node in a list of messages. -/
def setsIn (node : Nat) : List (Msg α) → List (Nat × α)
  | [] => []
  | .req id _ (.setState node' rec) :: ms =>
    if node' = node then (id, rec) :: setsIn node ms else setsIn node ms
  | _ :: ms => setsIn node ms

theorem setsIn_append (node : Nat) (a b : List (Msg α)) :
    setsIn node (a ++ b) = setsIn node a ++ setsIn node b := by
  induction a with
  | nil => rfl
  | cons m ms ih =>
    rw [List.cons_append]
    cases m with
    | req id ep cmd =>
      cases cmd with
      | setState node' rec =>
        simp only [setsIn]
        by_cases h : node' = node
        · rw [if_pos h, if_pos h, ih, List.cons_append]
        · rw [if_neg h, if_neg h, ih]
      | _ => simp only [setsIn]; exact ih
    | _ => simp only [setsIn]; exact ih

theorem setsIn_mem {node : Nat} {l : List (Msg α)} {x : Nat × α} (h : x ∈ setsIn node l) :
    ∃ ep, Msg.req x.1 ep (.setState node x.2) ∈ l := by
  induction l with
  | nil => cases h
  | cons m ms ih =>
    have tail : x ∈ setsIn node ms → ∃ ep, Msg.req x.1 ep (.setState node x.2) ∈ m :: ms := by
      intro h
      obtain ⟨ep, h⟩ := ih h
      exact ⟨ep, List.mem_cons_of_mem _ h⟩
    cases m with
    | req id ep cmd =>
      cases cmd with
      | setState node' rec =>
        simp only [setsIn] at h
        split at h
        · rename_i hn
          subst hn
          rcases List.mem_cons.1 h with h | h
          · subst h
            exact ⟨ep, List.mem_cons_self⟩
          · exact tail h
        · exact tail h
      | _ => exact tail h
    | _ => exact tail h

theorem made_append (p q : Fin n) (node : Nat) (a b : List (Call n α)) :
    settingsMade p q node (a ++ b) = settingsMade p q node a ++ settingsMade p q node b := by
  induction a with
  | nil => rfl
  | cons c cs ih =>
    rw [List.cons_append, settingsMade, settingsMade]
    cases c.cmd with
    | setState node' rec =>
      dsimp only
      by_cases h : c.src = p ∧ c.dst = q ∧ node' = node
      · rw [if_pos h, if_pos h, ih, List.cons_append]
      · rw [if_neg h, if_neg h, ih]
    | _ => exact ih

theorem made_mem {p q : Fin n} {node : Nat} {l : List (Call n α)} {c : Call n α} (hc : c ∈ l)
    (h1 : c.src = p) (h2 : c.dst = q) (rec : α) (h3 : c.cmd = .setState node rec) :
    (c.id, rec) ∈ settingsMade p q node l := by
  induction l with
  | nil => cases hc
  | cons x xs ih =>
    rcases List.mem_cons.1 hc with rfl | hc
    · unfold settingsMade
      rw [h3]
      dsimp only
      rw [if_pos ⟨h1, h2, rfl⟩]
      exact List.mem_cons_self
    · have := ih hc
      unfold settingsMade
      cases x.cmd with
      | setState node' rec' =>
        dsimp only
        split
        · exact List.mem_cons_of_mem _ this
        · exact this
      | _ => exact this

theorem settingsOf_append (p : Fin n) (a b : List (Nat × Fin n × α)) :
    settingsOf p (a ++ b) = settingsOf p a ++ settingsOf p b := by
  unfold settingsOf
  rw [List.filter_append, List.map_append]

theorem settingsOf_mem {p : Fin n} {l : List (Nat × Fin n × α)} {x : Nat × α}
    (h : x ∈ settingsOf p l) : ∃ y ∈ l, y.1 = x.1 := by
  obtain ⟨y, hy, rfl⟩ := List.mem_map.1 h
  exact ⟨y, (List.mem_filter.1 hy).1, rfl⟩

/-- The number of a request. -/
def reqId : Msg α → Option Nat
  | .req id _ _ => some id
  | _ => none

structure Ord (s : Sys n α) : Prop where
  eq : ∀ p q node, settingsMade p q node s.calls
    = settingsOf p (s.sett q node) ++ setsIn node (pipe s p q)
  sorted : ∀ p q, ((pipe s p q).filterMap reqId).Pairwise (· < ·)
  jobs : ∀ q, ∀ j ∈ s.jobs q, ∀ c ∈ s.calls, c.src = j.src → c.dst = q →
    (∃ rec, c.cmd = .setState j.node rec) → c.id < j.id → ∃ x ∈ s.sett q j.node, x.1 = c.id
  log : ∀ e ∈ s.log, ∀ node, servedNode e.cmd = some node → ∀ c ∈ s.calls, c.src = e.src →
    c.dst = e.at_ → (∃ rec, c.cmd = .setState node rec) → c.id < e.id → ∃ x ∈ e.seen, x.1 = c.id

theorem ord_init : Ord (Sys.init n α) where
  eq := by intro p q node; rfl
  sorted := by intro p q; exact List.Pairwise.nil
  jobs := by intro q j h; cases h
  log := by intro e h; cases h

/-- Steps that leave the commands, settings, work and operations alone. -/
theorem ord_same {s s' : Sys n α} (h : Ord s)
    (hp : ∀ p q node, setsIn node (pipe s' p q) = setsIn node (pipe s p q))
    (hr : ∀ p q, (pipe s' p q).filterMap reqId = (pipe s p q).filterMap reqId)
    (hc : s'.calls = s.calls) (hs : s'.sett = s.sett) (hj : ∀ q, ∀ j ∈ s'.jobs q, j ∈ s.jobs q)
    (hl : s'.log = s.log) : Ord s' where
  eq := by intro p q node; rw [hc, hs, hp]; exact h.eq p q node
  sorted := by intro p q; rw [hr]; exact h.sorted p q
  jobs := by intro q j hm; rw [hc, hs]; exact h.jobs q j (hj q j hm)
  log := by rw [hl, hc]; exact h.log

theorem pipe_postError (s : Sys n α) (q p' q' : Fin n) (node : Nat) :
    setsIn node (pipe (s.postError q) p' q') = setsIn node (pipe s p' q') ∧
    (pipe (s.postError q) p' q').filterMap reqId = (pipe s p' q').filterMap reqId := by
  unfold Sys.postError
  by_cases h : q.val = 0
  · rw [if_pos h]; exact ⟨rfl, rfl⟩
  · rw [if_neg h, pipe_push, setsIn_append, List.filterMap_append]
    split
    · exact ⟨List.append_nil _, List.append_nil _⟩
    · exact ⟨List.append_nil _, List.append_nil _⟩

theorem ord_postError {s : Sys n α} (h : Ord s) (q : Fin n) : Ord (s.postError q) :=
  ord_same h (fun _ _ node => (pipe_postError s q _ _ node).1)
    (fun _ _ => (pipe_postError s q _ _ 0).2) (same_postError _ _).calls (same_postError _ _).sett
    (fun q' j hj => by rw [(same_postError _ _).jobs] at hj; exact hj) (same_postError _ _).log

theorem ord_replyPush {s : Sys n α} (h : Ord s) (q d : Fin n) (id : Nat) (ep : Option Nat) (code : Nat)
    (obj : Option α) : Ord (s.push q d (.reply id ep code obj)) := by
  refine ord_same h ?_ ?_ rfl rfl (fun _ _ h => h) rfl
  · intro p' q' node
    rw [pipe_push, setsIn_append]
    split <;> exact List.append_nil _
  · intro p' q'
    rw [pipe_push, List.filterMap_append]
    split <;> exact List.append_nil _

theorem ord_post {s : Sys n α} (hsafe : Safe s) (h : Ord s) (p d : Fin n) (ep : Option Nat)
    (cmd : Cmd α) : Ord (s.postCommand p d ep cmd) := by
  have hpipe : ∀ p' q', pipe (s.postCommand p d ep cmd) p' q'
      = pipe s p' q' ++ (if p' = p ∧ q' = d then [.req s.calls.length ep cmd] else []) :=
    fun p' q' => pipe_push s p d _ p' q'
  have hcalls : (s.postCommand p d ep cmd).calls = s.calls ++ [⟨s.calls.length, p, d, cmd⟩] := rfl
  refine ⟨?_, ?_, ?_, ?_⟩
  · intro p' q' node
    rw [hpipe, hcalls, made_append, setsIn_append, h.eq p' q' node, List.append_assoc]
    have : settingsMade p' q' node [⟨s.calls.length, p, d, cmd⟩]
        = setsIn node (if p' = p ∧ q' = d then [.req s.calls.length ep cmd] else []) := by
      cases cmd with
      | setState node' rec =>
        simp only [settingsMade]
        by_cases h1 : p' = p ∧ q' = d
        · obtain ⟨rfl, rfl⟩ := h1
          by_cases hn : node' = node
          · rw [if_pos ⟨rfl, rfl, hn⟩, if_pos ⟨rfl, rfl⟩]
            simp only [setsIn]
            rw [if_pos hn]
          · rw [if_neg (fun h => hn h.2.2), if_pos ⟨rfl, rfl⟩]
            simp only [setsIn]
            rw [if_neg hn]
        · rw [if_neg h1, if_neg (fun h => h1 ⟨h.1.symm, h.2.1.symm⟩)]
          rfl
      | _ => simp only [settingsMade]; split <;> rfl
    rw [this]
    rfl
  · intro p' q'
    rw [hpipe, List.filterMap_append, List.pairwise_append]
    refine ⟨h.sorted p' q', ?_, ?_⟩
    · split <;> simp [reqId]
    · intro x hx y hy
      split at hy
      · simp only [List.filterMap_cons, reqId, List.filterMap_nil, List.mem_singleton] at hy
        subst hy
        obtain ⟨m, hm, hid⟩ := List.mem_filterMap.1 hx
        cases m with
        | req id ep' cmd' =>
          cases hid
          exact hsafe.callId (hsafe.req _ _ _ _ _ (pipe_mem hm)).1
        | _ => cases hid
      · cases hy
  · intro q j hj c hc h1 h2 h3 h4
    rw [hcalls] at hc
    rcases List.mem_append.1 hc with hc | hc
    · exact h.jobs q j hj c hc h1 h2 h3 h4
    · rw [List.mem_singleton] at hc
      subst hc
      have := hsafe.callId (hsafe.job q j hj).1
      dsimp only at h4 this
      omega
  · intro e he node hn c hc h1 h2 h3 h4
    rw [hcalls] at hc
    rcases List.mem_append.1 hc with hc | hc
    · exact h.log e he node hn c hc h1 h2 h3 h4
    · rw [List.mem_singleton] at hc
      subst hc
      have := hsafe.callId (hsafe.log e he)
      dsimp only at h4 this
      omega

/-- When a request is taken, the settings its caller made before have been accepted. -/
theorem ord_before {s : Sys n α} (h : Ord s) {src q : Fin n} {id : Nat} {ep : Option Nat}
    {cmd : Cmd α} {rest : List (Msg α)} (hc : s.chan src q = .req id ep cmd :: rest) (node : Nat)
    (c : Call n α) (hm : c ∈ s.calls) (h1 : c.src = src) (h2 : c.dst = q)
    (h3 : ∃ rec, c.cmd = .setState node rec) (h4 : c.id < id) : ∃ x ∈ s.sett q node, x.1 = c.id := by
  obtain ⟨rec, h3⟩ := h3
  have hmem := made_mem hm h1 h2 rec h3
  rw [h.eq src q node] at hmem
  rcases List.mem_append.1 hmem with hmem | hmem
  · exact settingsOf_mem hmem
  · exfalso
    obtain ⟨ep', hmem⟩ := setsIn_mem hmem
    have hs := h.sorted src q
    have hp := pipe_pop s src q _ rest hc src q
    rw [if_pos ⟨rfl, rfl⟩] at hp
    rw [hp] at hs hmem
    simp only [List.singleton_append, List.filterMap_cons, reqId, List.pairwise_cons] at hs
    rcases List.mem_cons.1 hmem with hmem | hmem
    · cases hmem
      exact Nat.lt_irrefl _ h4
    · have := hs.1 c.id (List.mem_filterMap.2 ⟨_, hmem, rfl⟩)
      omega

theorem pipe_pop_sets (s : Sys n α) (src q : Fin n) (m : Msg α) (rest : List (Msg α))
    (hc : s.chan src q = m :: rest) (hm : ∀ node, setsIn node [m] = []) (p' q' : Fin n) (node : Nat) :
    setsIn node (pipe (s.pop src q rest) p' q') = setsIn node (pipe s p' q') := by
  rw [pipe_pop s src q m rest hc p' q', setsIn_append]
  split
  · rw [hm, List.nil_append]
  · rfl

theorem pipe_pop_sorted {s : Sys n α} (h : Ord s) (src q : Fin n) (m : Msg α) (rest : List (Msg α))
    (hc : s.chan src q = m :: rest) (p' q' : Fin n) :
    ((pipe (s.pop src q rest) p' q').filterMap reqId).Pairwise (· < ·) := by
  have := h.sorted p' q'
  rw [pipe_pop s src q m rest hc p' q', List.filterMap_append, List.pairwise_append] at this
  exact this.2.1

theorem ord_pop {s : Sys n α} (h : Ord s) (src q : Fin n) (m : Msg α) (rest : List (Msg α))
    (hc : s.chan src q = m :: rest) (hm : ∀ node, setsIn node [m] = []) : Ord (s.pop src q rest) where
  eq := by
    intro p' q' node
    rw [pipe_pop_sets s src q m rest hc hm]
    exact h.eq p' q' node
  sorted := pipe_pop_sorted h src q m rest hc
  jobs := h.jobs
  log := h.log

theorem ord_log {s : Sys n α} (h : Ord s) (e : Entry n α)
    (he : ∀ node, servedNode e.cmd = some node → ∀ c ∈ s.calls, c.src = e.src →
      c.dst = e.at_ → (∃ rec, c.cmd = .setState node rec) → c.id < e.id → ∃ x ∈ e.seen, x.1 = c.id) :
    Ord { s with log := s.log ++ [e] } where
  eq := h.eq
  sorted := h.sorted
  jobs := h.jobs
  log := by
    intro e' he'
    rcases List.mem_append.1 he' with he' | he'
    · exact h.log e' he'
    · rw [List.mem_singleton] at he'
      subst he'
      exact he

theorem ord_handled {has : Has n} {s s' : Sys n α} (hsafe : Safe s) (h : Ord s)
    (hset : ∀ c ∈ s.calls, ∀ node rec, c.cmd = .setState node rec → has c.dst node = true)
    {q src : Fin n} {out : Option (Nat × Option α)} (hout : out ≠ none) {m : Msg α}
    {rest : List (Msg α)} (hc : s.chan src q = m :: rest)
    (hh : Handled has (s.pop src q rest) q src out m s') : Ord s' := by
  have hf : Fl s src q m := Or.inr (by rw [hc]; exact List.mem_cons_self)
  cases hh with
  | fail id ep cmd hx =>
    refine ord_postError (ord_pop h src q _ rest hc ?_) q
    intro node
    cases cmd with
    | setState node' rec =>
      exfalso
      have := hset _ (hsafe.req _ _ _ _ _ hf).1 node' rec rfl
      rcases hx with hx | hx
      · dsimp only at this
        rw [this] at hx; cases hx
      · exact hout hx
    | _ => rfl
  | job id ep node depth req hx =>
    have hp := ord_pop h src q _ rest hc (fun _ => rfl)
    refine ⟨hp.eq, hp.sorted, ?_, hp.log⟩
    intro q' j hj c hcm h1 h2 h3 h4
    unfold Sys.addJob at hj
    dsimp only at hj
    by_cases hq : q' = q
    · subst hq
      rw [upd_same] at hj
      rcases List.mem_append.1 hj with hj | hj
      · exact hp.jobs q' j hj c hcm h1 h2 h3 h4
      · rw [List.mem_singleton] at hj
        subst hj
        exact ord_before h hc node c hcm h1 h2 h3 h4
    · rw [upd_other _ _ _ _ hq] at hj
      exact hp.jobs q' j hj c hcm h1 h2 h3 h4
  | state id ep node c obj hx ho =>
    have hp := ord_pop h src q _ rest hc (fun _ => rfl)
    refine ord_log (ord_replyPush hp q src id ep 0 obj) _ ?_
    intro node' hn c' hcm h1 h2 h3 h4
    cases hn
    exact ord_before h hc node c' hcm h1 h2 h3 h4
  | set id node rec hx ho =>
    refine ⟨?_, pipe_pop_sorted h src q _ rest hc, ?_, h.log⟩
    · intro p' q' node'
      have e1 := h.eq p' q' node'
      rw [pipe_pop s src q _ rest hc p' q', setsIn_append] at e1
      have e2 : settingsMade p' q' node' s.calls
          = settingsOf p' (upd s.sett q (upd (s.sett q) node (s.sett q node ++ [(id, src, rec)])) q' node')
            ++ setsIn node' (pipe (s.pop src q rest) p' q') := by
        rw [e1, ← List.append_assoc]
        congr 1
        by_cases hq : q' = q
        · subst hq
          rw [upd_same]
          by_cases hn : node' = node
          · subst hn
            rw [upd_same, settingsOf_append]
            congr 1
            by_cases hp : p' = src
            · subst hp
              rw [if_pos ⟨rfl, rfl⟩]
              simp only [setsIn, settingsOf, if_true, List.filter_cons, List.filter_nil,
                decide_true, List.map_cons, List.map_nil]
            · rw [if_neg (fun h => hp h.1)]
              simp only [setsIn, settingsOf, List.filter_cons, List.filter_nil]
              rw [if_neg (by simpa using fun h => hp h.symm)]
              rfl
          · rw [upd_other _ _ _ _ hn]
            split
            · simp only [setsIn]
              rw [if_neg (fun h => hn h.symm), List.append_nil]
            · exact List.append_nil _
        · rw [upd_other _ _ _ _ hq, if_neg (fun h => hq h.2)]
          exact List.append_nil _
      exact e2
    · intro q' j hj c hcm h1 h2 h3 h4
      obtain ⟨x, hx', h5⟩ := h.jobs q' j hj c hcm h1 h2 h3 h4
      refine ⟨x, ?_, h5⟩
      dsimp only
      show x ∈ upd s.sett q (upd (s.sett q) node (s.sett q node ++ [(id, src, rec)])) q' j.node
      by_cases hq : q' = q
      · subst hq
        rw [upd_same]
        by_cases hn : j.node = node
        · rw [hn, upd_same]
          rw [hn] at hx'
          exact List.mem_append_left _ hx'
        · rw [upd_other _ _ _ _ hn]
          exact hx'
      · rw [upd_other _ _ _ _ hq]
        exact hx'
  | setR id a node rec => exact absurd hf (hsafe.noset _ _ _ _ _ _)
  | command id ep node args => exact ord_pop h src q _ rest hc (fun _ => rfl)
  | control id ep tag node arg => exact ord_pop h src q _ rest hc (fun _ => rfl)
  | server id ep tag arg code obj hx ho =>
    have hp := ord_pop h src q _ rest hc (fun _ => rfl)
    refine ord_log (ord_replyPush hp q src id ep code obj) _ ?_
    intro node' hn
    cases hn
  | reply id ep code obj =>
    have hp := ord_pop h src q _ rest hc (fun _ => rfl)
    obtain ⟨h1, h2, h3, h4, h5, h6⟩ := procReply_calls (s.pop src q rest) q ep code obj
    refine ord_same hp ?_ ?_ h1 h3 ?_ h2
    · intro p' q' node; unfold pipe; rw [h4, h5]
    · intro p' q'; unfold pipe; rw [h4, h5]
    · intro q' j hj; rw [h6] at hj; exact hj
  | event0 hx =>
    have hp := ord_pop h src q _ rest hc (fun _ => rfl)
    exact ⟨hp.eq, hp.sorted, hp.jobs, hp.log⟩
  | eventN hx => exact ord_postError (ord_pop h src q _ rest hc (fun _ => rfl)) q

theorem ord_call {s s' : Sys n α} (hsafe : Safe s) (h : Ord s) {p d : Fin n} {a : Nat} {ex : Bool}
    {cmd : Cmd α} (hs : s.call p d a ex cmd = some s') : Ord s' := by
  obtain ⟨_, rfl⟩ := call_eq hs
  have := ord_post hsafe h p d (some a) cmd
  exact ⟨this.eq, this.sorted, this.jobs, this.log⟩

theorem ord_step {has : Has n} {s s' : Sys n α} (hsafe : Safe s) (h : Ord s)
    (hset : ∀ c ∈ s.calls, ∀ node rec, c.cmd = .setState node rec → has c.dst node = true)
    (o : Op n α) (hr : Settable has o) (hs : step has s o = some s') : Ord s' := by
  cases o with
  | execute p d a node depth req => exact ord_call hsafe h hs
  | getState p d a node => exact ord_call hsafe h hs
  | setState p d node rec =>
    simp only [step, Option.some.injEq] at hs
    subst hs
    exact ord_post hsafe h p d _ _
  | command p d a node args => exact ord_call hsafe h hs
  | control p d tag node arg =>
    simp only [step, Option.some.injEq] at hs
    subst hs
    exact ord_post hsafe h p d _ _
  | server p d a tag arg => exact ord_call hsafe h hs
  | send p =>
    obtain ⟨d, m, rest, hq, rfl⟩ := send_eq hs
    refine ord_same h ?_ ?_ rfl rfl (fun _ _ h => h) rfl
    · intro p' q' node; rw [pipe_sent s p d m rest hq]
    · intro p' q'; rw [pipe_sent s p d m rest hq]
  | recv q src out =>
    obtain ⟨m, rest, hc, hh⟩ := recv_eq hs
    exact ord_handled hsafe h hset hr hc hh
  | work q k out =>
    obtain ⟨j, hj, h1⟩ := work_eq hs
    obtain ⟨h2, a, h3, h4⟩ := inv_dropJob hsafe q k j hj
    rw [h1 a h3]
    have hmem : j ∈ s.jobs q := List.mem_of_getElem? hj
    have hd : Ord (s.dropJob q k) := by
      refine ord_same h (fun _ _ _ => rfl) (fun _ _ => rfl) rfl rfl ?_ rfl
      intro q' j' hj'
      unfold Sys.dropJob at hj'
      dsimp only at hj'
      by_cases hq : q' = q
      · subst hq
        rw [upd_same] at hj'
        exact List.mem_of_mem_eraseIdx hj'
      · rw [upd_other _ _ _ _ hq] at hj'
        exact hj'
    generalize hu : (if out.isNone = true then (s.dropJob q k).postError q else s.dropJob q k) = u
    have hu' : Ord u ∧ u.calls = s.calls := by
      rw [← hu]
      by_cases ho : out.isNone = true
      · rw [if_pos ho]; exact ⟨ord_postError hd q, (same_postError _ _).calls⟩
      · rw [if_neg ho]; exact ⟨hd, rfl⟩
    refine ord_log (ord_replyPush hu'.1 q j.src j.id (some a) _ _) _ ?_
    intro node hn c hc h5 h6 h7 h8
    have hc' : c ∈ s.calls := by rw [← hu'.2]; exact hc
    cases hn
    exact h.jobs q j hmem c hc' h5 h6 h7 h8
  | await p a =>
    obtain ⟨id, ex, code, obj, hw, rfl⟩ := await_eq hs
    exact ⟨h.eq, h.sorted, h.jobs, h.log⟩

theorem ord_run {has : Has n} {ops : List (Op n α)} {s : Sys n α} (hg : ∀ o ∈ ops, Settable has o)
    (hr : run has (Sys.init n α) ops = some s) : Ord s :=
  (run_induct (fun s _ => Safe s ∧ Ord s ∧
      ∀ c ∈ s.calls, ∀ node rec, c.cmd = .setState node rec → has c.dst node = true) ops
    (fun o ho s _ s' h hs => by
      refine ⟨inv_step h.1 o hs, ord_step h.1 h.2.1 h.2.2 o (hg o ho) hs, ?_⟩
      rw [step_calls h.1 o hs]
      intro c hc node rec hcmd
      rcases List.mem_append.1 hc with hc | hc
      · exact h.2.2 c hc node rec hcmd
      · have := hg o ho
        cases o with
        | setState p d node' rec' =>
          simp only [madeBy, List.mem_singleton] at hc
          subst hc
          cases hcmd
          exact this
        | execute p d a node depth req =>
          simp only [madeBy, List.mem_singleton] at hc; subst hc; cases hcmd
        | getState p d a node => simp only [madeBy, List.mem_singleton] at hc; subst hc; cases hcmd
        | command p d a node args =>
          simp only [madeBy, List.mem_singleton] at hc; subst hc; cases hcmd
        | control p d tag node arg =>
          simp only [madeBy, List.mem_singleton] at hc; subst hc; cases hcmd
        | server p d a tag arg =>
          simp only [madeBy, List.mem_singleton] at hc; subst hc; cases hcmd
        | _ => cases hc) _ _ []
    ⟨inv_init, ord_init, (fun _ h => by cases h)⟩ hr).2.1

/-! ### Errors -/

def evM (m : Msg α) : Nat := if isEvent m then 1 else 0

def ev : W n α := ⟨fun _ _ m => evM m, fun _ _ m => evM m, fun _ _ => 0⟩

theorem sum_filter {β : Type} (f : β → Bool) (l : List β) :
    (l.map (fun x => if f x then 1 else 0)).sum = (l.filter f).length := by
  induction l with
  | nil => rfl
  | cons x xs ih =>
    rw [List.map_cons, List.sum_cons, ih, List.filter_cons]
    split
    · rw [List.length_cons]; omega
    · omega

theorem reports_eq (s : Sys n α) : reports s = s.errors + total ev s := by
  unfold reports total
  have h1 : ∀ p, qSum ev p (s.queue p) = ((s.queue p).filter (fun x => isEvent x.2)).length :=
    fun p => sum_filter (fun x : Fin n × Msg α => isEvent x.2) (s.queue p)
  have h2 : ∀ p d, cSum ev p d (s.chan p d) = ((s.chan p d).filter isEvent).length :=
    fun p d => sum_filter isEvent (s.chan p d)
  have h3 : ∀ q, jSum ev q (s.jobs q) = 0 := by
    intro q
    unfold jSum ev
    dsimp only
    induction s.jobs q with
    | nil => rfl
    | cons x xs ih => rw [List.map_cons, List.sum_cons, ih]
  simp only [h1, h2, h3, Finset.sum_const_zero]
  omega

theorem reports_postError (s : Sys n α) (p : Fin n) : reports (s.postError p) = reports s + 1 := by
  rw [reports_eq, reports_eq]
  unfold Sys.postError
  by_cases h : p.val = 0
  · rw [if_pos h]
    show s.errors + 1 + total ev s = _
    omega
  · rw [if_neg h, total_push]
    rfl

theorem reports_pop (s : Sys n α) (src q : Fin n) (m : Msg α) (rest : List (Msg α))
    (hc : s.chan src q = m :: rest) : reports (s.pop src q rest) + evM m = reports s := by
  rw [reports_eq, reports_eq, ← total_pop ev s src q m rest hc]
  show s.errors + _ + evM m = s.errors + (_ + evM m)
  omega

theorem reports_step {has : Has n} {s s' : Sys n α} (h : Safe s) (o : Op n α)
    (hs : step has s o = some s') :
    (Failing has s o → reports s' = reports s + 1) ∧ (¬ Failing has s o → reports s' = reports s) := by
  have quiet : ∀ {o : Op n α}, ¬ Failing has s o → reports s' = reports s →
      (Failing has s o → reports s' = reports s + 1) ∧
      (¬ Failing has s o → reports s' = reports s) := by
    intro o h1 h2
    exact ⟨fun h => absurd h h1, fun _ => h2⟩
  have call : ∀ p d a ex (cmd : Cmd α), s.call p d a ex cmd = some s' → reports s' = reports s := by
    intro p d a ex cmd hc
    obtain ⟨_, rfl⟩ := call_eq hc
    rw [reports_eq, reports_eq]
    have := total_push ev s p d (.req s.calls.length (some a) cmd)
    exact congrArg (s.errors + ·) this
  have post : ∀ p d (cmd : Cmd α), s.postCommand p d none cmd = s' → reports s' = reports s := by
    intro p d cmd hc
    subst hc
    rw [reports_eq, reports_eq]
    have := total_push ev s p d (.req s.calls.length none cmd)
    exact congrArg (s.errors + ·) this
  cases o with
  | execute p d a node depth req => exact quiet id (call _ _ _ _ _ hs)
  | getState p d a node => exact quiet id (call _ _ _ _ _ hs)
  | setState p d node rec =>
    simp only [step, Option.some.injEq] at hs
    exact quiet id (post _ _ _ hs)
  | command p d a node args => exact quiet id (call _ _ _ _ _ hs)
  | control p d tag node arg =>
    simp only [step, Option.some.injEq] at hs
    exact quiet id (post _ _ _ hs)
  | server p d a tag arg => exact quiet id (call _ _ _ _ _ hs)
  | send p =>
    obtain ⟨d, m, rest, hq, rfl⟩ := send_eq hs
    refine quiet id ?_
    rw [reports_eq, reports_eq]
    have := total_sent ev s p d m rest hq
    have e : (ev : W n α).q p d m = (ev : W n α).c p d m := rfl
    show s.errors + total ev (s.sent p d m rest) = _
    omega
  | recv q src out =>
    obtain ⟨m, rest, hc, hh⟩ := recv_eq hs
    have hf : Fl s src q m := Or.inr (by rw [hc]; exact List.mem_cons_self)
    have hp := reports_pop s src q m rest hc
    cases hh with
    | fail id ep cmd hx =>
      have e : evM (.req id ep cmd) = 0 := rfl
      have h1 := reports_postError (s.pop src q rest) q
      have hfail : Failing has s (.recv q src out) := by
        unfold Failing
        dsimp only
        rw [hc]
        cases cmd with
        | execute node depth req => exact hx
        | getState node => exact hx
        | setState node rec => exact hx
        | server tag arg => exact hx
        | command node args => exact hx
        | control tag node arg => exact hx
      exact ⟨fun _ => by omega, fun hn => absurd hfail hn⟩
    | job id ep node depth req hx =>
      refine quiet ?_ ?_
      · unfold Failing
        dsimp only
        rw [hc]
        dsimp only
        rw [hx]
        exact fun h => by cases h
      · rw [← hp, reports_eq, reports_eq, total_addJob]
        rfl
    | state id ep node c obj hx ho =>
      refine quiet ?_ ?_
      · unfold Failing
        dsimp only
        rw [hc]
        dsimp only
        rw [hx, ho]
        rintro (h | h) <;> cases h
      · rw [← hp, reports_eq, reports_eq]
        have := total_push ev (s.pop src q rest) q src (.reply id ep 0 obj)
        exact congrArg ((s.pop src q rest).errors + ·) this
    | set id node rec hx ho =>
      refine quiet ?_ ?_
      · unfold Failing
        dsimp only
        rw [hc]
        dsimp only
        rw [hx]
        rintro (h | h)
        · cases h
        · exact ho h
      · rw [← hp]; rfl
    | setR id a node rec => exact absurd hf (h.noset _ _ _ _ _ _)
    | command id ep node args =>
      refine quiet ?_ hp
      unfold Failing
      dsimp only
      rw [hc]
      exact fun h => h
    | control id ep tag node arg =>
      refine quiet ?_ hp
      unfold Failing
      dsimp only
      rw [hc]
      exact fun h => h
    | server id ep tag arg code obj hx ho =>
      refine quiet ?_ ?_
      · unfold Failing
        dsimp only
        rw [hc]
        dsimp only
        rw [ho]
        rintro (h | h)
        · exact hx h
        · cases h
      · rw [← hp, reports_eq, reports_eq]
        have := total_push ev (s.pop src q rest) q src (.reply id ep code obj)
        exact congrArg ((s.pop src q rest).errors + ·) this
    | reply id ep code obj =>
      refine quiet ?_ ?_
      · unfold Failing
        dsimp only
        rw [hc]
        exact fun h => h
      · obtain ⟨a, e, rfl, he, e1, hw0, heq, hsafe⟩ := inv_reply h src q id ep code obj rest hc
        rw [heq, ← hp]
        rfl
    | event0 hx =>
      refine quiet ?_ ?_
      · unfold Failing
        dsimp only
        rw [hc]
        exact fun h => h
      · rw [← hp, reports_eq, reports_eq]
        show (s.pop src q rest).errors + 1 + total ev (s.pop src q rest)
          = (s.pop src q rest).errors + total ev (s.pop src q rest) + 1
        omega
    | eventN hx =>
      refine quiet ?_ ?_
      · unfold Failing
        dsimp only
        rw [hc]
        exact fun h => h
      · rw [reports_postError, ← hp]
        rfl
  | work q k out =>
    obtain ⟨j, hj, h1⟩ := work_eq hs
    obtain ⟨h2, a, h3, h4⟩ := inv_dropJob h q k j hj
    have hd : reports (s.dropJob q k) = reports s := by
      rw [reports_eq, reports_eq, ← total_dropJob ev s q k j hj]
      rfl
    have ha : ∀ u : Sys n α, reports (u.answer q j.src j.id a (.execute j.node j.depth j.req)
        (s.sett q j.node) (out.getD (RES_FAIL, none)).1 (out.getD (RES_FAIL, none)).2) = reports u := by
      intro u
      rw [reports_eq, reports_eq]
      have := total_push ev u q j.src (.reply j.id (some a) (out.getD (RES_FAIL, none)).1
        (out.getD (RES_FAIL, none)).2)
      exact congrArg (u.errors + ·) this
    rw [h1 a h3, ha]
    cases out with
    | none =>
      refine ⟨fun _ => ?_, fun hn => absurd rfl hn⟩
      show reports ((s.dropJob q k).postError q) = _
      rw [reports_postError, hd]
    | some o =>
      refine ⟨(fun hn => by cases hn), fun _ => ?_⟩
      exact hd
  | await p a =>
    obtain ⟨id, ex, code, obj, hw, rfl⟩ := await_eq hs
    exact quiet (fun h => h) (by rfl)

end Verif.Mpi
