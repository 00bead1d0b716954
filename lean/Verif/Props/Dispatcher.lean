import Verif.Proof.Dispatcher
/-!
# Properties of the dispatcher (C23, C24, C25, C57, C58)
-/
namespace Verif.Disp
open WPQueue (Q Msg Entry Code pollPriority)
open DispSpec SubsSpec

/-- **C23.** Each round selects a worker whose poll priority is maximal among all attached workers
needing a poll; of several maximal ones it is the last in address order. -/
theorem C23_select_max (tick : Nat) (wps : List (Wpid × Wp)) (id : Wpid)
    (h : (selectLoop tick wps (-1) none 0).1 = some id) :
    ∃ before w after pri, wps = before ++ (id, w) :: after ∧ pollPriority w.q tick = some pri ∧
      (∀ p ∈ wps, ∀ pri', pollPriority p.2.q tick = some pri' → pri' ≤ pri) ∧
      (∀ p ∈ after, ∀ pri', pollPriority p.2.q tick = some pri' → pri' < pri) := by
  rcases selectLoop_best tick wps (-1) none 0 with ⟨hb, _⟩ | ⟨x, p, y, pri, h1, h2, h3, _, h5, h6⟩
  · rw [hb] at h; simp at h
  · rw [h2] at h
    simp at h
    subst h
    exact ⟨x, p.2, y, pri, h1, h3, h5, h6⟩

/-- **C23.** No worker is selected only if no attached worker has a pending repoll and a message. -/
theorem C23_select_none (tick : Nat) (wps : List (Wpid × Wp)) :
    (selectLoop tick wps (-1) none 0).1 = none ↔
      ∀ p ∈ wps, ¬ (p.2.q.repoll = true ∧ p.2.q.queue ≠ []) := by
  rcases selectLoop_best tick wps (-1) none 0 with ⟨hb, h1⟩ | ⟨x, p, y, pri, h1, h2, h3, _⟩
  · rw [hb]
    simp only [true_iff]
    intro p hp hn
    obtain ⟨pri, hpri⟩ := (pollPriority_some_iff p.2.q tick).2 hn
    have := h1 p hp pri hpri
    have := pollPriority_nonneg hpri
    omega
  · rw [h2]
    simp only [reduceCtorEq, false_iff]
    intro hall
    exact hall p (by rw [h1]; simp) ((pollPriority_some_iff _ _).1 ⟨_, h3⟩)

/-- **C57.** Ageing: while a worker with message `e` at its head waits, another worker is served
before it only if the other's head message was queued no later than its priority advantage (in
ticks) after `e`.  So a waiting worker is overtaken only by messages of a bounded time span. -/
theorem C57_ageing (tick : Nat) (wps : List (Wpid × Wp)) (sel : Wpid)
    (hs : (selectLoop tick wps (-1) none 0).1 = some sel)
    (k : Wpid) (w : Wp) (hw : (k, w) ∈ wps) (hr : w.q.repoll = true)
    (e : Entry) (rest : List Entry) (hq : w.q.queue = e :: rest) (he : e.tick ≤ tick)
    (hpos : ∀ p ∈ wps, ∀ x ∈ p.2.q.queue, x.tick ≤ tick ∧ 0 ≤ x.msg.pri) :
    ∃ ws e' rest', (sel, ws) ∈ wps ∧ ws.q.queue = e' :: rest' ∧
      (e'.tick : Int) ≤ e.tick + (e'.msg.pri - e.msg.pri) := by
  obtain ⟨x, ws, y, pri, hl, h1, h2, _⟩ := C23_select_max tick wps sel hs
  have hmem : (sel, ws) ∈ wps := by rw [hl]; simp
  have hk : pollPriority w.q tick = some (max e.msg.pri 0 + ((tick - e.tick : Nat) : Int)) := by
    simp [pollPriority, hr, hq]
  have hle := h2 _ hw _ hk
  have hsome := (pollPriority_some_iff ws.q tick).1 ⟨_, h1⟩
  cases hqs : ws.q.queue with
  | nil => exact absurd hqs hsome.2
  | cons e' r' =>
    refine ⟨ws, e', r', hmem, hqs, ?_⟩
    have h1' : pri = max e'.msg.pri 0 + ((tick - e'.tick : Nat) : Int) := by
      have := h1
      simp [pollPriority, hsome.1, hqs] at this
      omega
    have p1 := hpos _ hw e (by simp [hq])
    have p2 := hpos _ hmem e' (by simp [hqs])
    omega

/-- **C24.** Over any history of attaching and detaching (and everything else), no worker address is
handed out twice — not even after its worker was detached. -/
theorem C24_addresses_unique (host proc : Int) (ops : List Op) :
    ((runFrom (init host proc) ops).2.map Addr.wpid).Nodup :=
  (runFrom_addr _ ops).2

/-- **C24.** At every moment the attached workers have distinct ids. -/
theorem C24_attached_distinct (host proc : Int) (ops : List Op) :
    ((runFrom (init host proc) ops).1.wps.map Prod.fst).Nodup :=
  (runFrom_inv (init_inv host proc) ops).nodup

theorem aidMatches_iff (p a : Int) (ha : a ≠ -1 ∧ a ≠ -2) : Hiid.aidMatches p a = true ↔ Field p a := by
  simp [Hiid.aidMatches, Field, Hiid.isAny, Hiid.isWild, Hiid.aidAny, Hiid.aidWild, ha.1, ha.2, or_assoc]

/-- **C25.** Locally, a message reaches exactly its recipients: the workers its destination address
covers and, for a published message, the workers with a matching subscription in force.
Destinations in which "*" is used for the class or the instance without "?" or "publish" in the other
are excluded, see `C25_star_address_not_delivered`. -/
theorem C25_local_recipients_partial (d : State) (m : Msg) (sender : List Int) (dst : Addr)
    (hn : (d.wps.map Prod.fst).Nodup)
    (hc : (d.host ≠ -1 ∧ d.host ≠ -2) ∧ (d.proc ≠ -1 ∧ d.proc ≠ -2) ∧
      ∀ p ∈ d.wps, (p.1.cls ≠ -1 ∧ p.1.cls ≠ -2) ∧ 0 ≤ p.1.inst)
    (hstar : dst.wpid.cls = -2 ∨ dst.wpid.inst = -2 →
      dst.wpid.cls = -1 ∨ dst.wpid.inst = -1 ∨ dst.wpid.cls = -1060 ∨ dst.wpid.inst = -1060)
    (id : Wpid) (w : Wp) (hw : mapGet id d.wps = some w) (h : History) (hsub : w.subs = Subs.run h) :
    id ∈ localRecipients d m sender dst ↔
      Recipient d.host d.proc id.cls id.inst h dst.wpid.cls dst.wpid.inst dst.proc dst.host m.id sender := by
  obtain ⟨hhost, hproc, hall⟩ := hc
  have hmem := mapGet_some_mem hw
  obtain ⟨hcls, hinst⟩ := hall _ hmem
  simp only at hcls hinst
  unfold localRecipients Recipient
  have hcond : (Hiid.aidMatches dst.host d.host && Hiid.aidMatches dst.proc d.proc) = true ↔
      Field dst.host d.host ∧ Field dst.proc d.proc := by
    simp only [Bool.and_eq_true, aidMatches_iff _ _ hhost, aidMatches_iff _ _ hproc]
  by_cases hp : Field dst.host d.host ∧ Field dst.proc d.proc
  · rw [if_pos (hcond.2 hp)]
    simp only [hp.1, hp.2, true_and]
    split
    · rename_i hsp
      simp [wildcardAddr, aidPublish, Hiid.aidAny] at hsp
      have hns : dst.wpid.cls ≠ -2 ∧ dst.wpid.inst ≠ -2 := by
        constructor
        · intro e; have := hstar (Or.inl e); omega
        · intro e; have := hstar (Or.inr e); omega
      have hf : (Field dst.wpid.cls id.cls ∧ Field dst.wpid.inst id.inst) ↔ dst.wpid = id := by
        unfold Field
        constructor
        · rintro ⟨h1, h2⟩
          have e1 : dst.wpid.cls = id.cls := by omega
          have e2 : dst.wpid.inst = id.inst := by omega
          cases hd : dst.wpid with
          | mk a b => cases hi : id with
            | mk a' b' => rw [hd, hi] at e1 e2; simp at e1 e2; rw [e1, e2]
        · rintro rfl; simp
      have hnp : dst.wpid.cls ≠ -1060 := by omega
      simp only [hf, hnp, false_and, or_false]
      by_cases he : dst.wpid = id
      · rw [he, hw]; simp
      · have : id ≠ dst.wpid := fun e => he e.symm
        cases mapGet dst.wpid d.wps <;> simp [he, this]
    · rw [List.mem_map]
      constructor
      · rintro ⟨p, hpm, rfl⟩
        rw [List.mem_filter] at hpm
        have : p.2 = w := by
          have := mapGet_of_mem hn (k := p.1) (v := p.2) hpm.1
          rw [hw] at this; simpa using this.symm
        simp only [Bool.or_eq_true, Bool.and_eq_true, this, hsub, Subs.C20_matches_iff_accepts,
          aidMatches_iff _ _ hcls, aidMatches_iff _ _ (show p.1.inst ≠ -1 ∧ p.1.inst ≠ -2 by omega),
          aidPublish, beq_iff_eq] at hpm
        exact hpm.2
      · intro hr
        refine ⟨(id, w), ?_, rfl⟩
        rw [List.mem_filter]
        refine ⟨hmem, ?_⟩
        simp only [Bool.or_eq_true, Bool.and_eq_true, hsub, Subs.C20_matches_iff_accepts,
          aidMatches_iff _ _ hcls, aidMatches_iff _ _ (show id.inst ≠ -1 ∧ id.inst ≠ -2 by omega),
          aidPublish, beq_iff_eq]
        exact hr
  · rw [if_neg (fun e => hp (hcond.1 e))]
    simp only [List.not_mem_nil, false_iff]
    rintro ⟨h1, h2, _⟩
    exact hp ⟨h1, h2⟩

/-- **C25.** Sending queues the message once for each local recipient and once for each gateway
accepting it, changes no other queue and no subscriptions, and returns the number of deliveries. -/
theorem C25_send_effect (d : State) (m : Msg) (sender : List Int) (dst : Addr) (fw : Wpid → Bool)
    (hn : (d.wps.map Prod.fst).Nodup) (hg : d.gateways.Nodup) (id : Wpid) (w : Wp)
    (hw : mapGet id d.wps = some w) :
    (let k := (if id ∈ localRecipients d m sender dst then 1 else 0) +
        (if id ∈ gatewayRecipients d fw dst then 1 else 0)
     mapGet id (send d m sender dst fw).1.wps = some { w with q := enqN m d.tick k w.q }) ∧
    (send d m sender dst fw).2 =
      (localRecipients d m sender dst).length + (gatewayRecipients d fw dst).length := by
  have hnl : (localRecipients d m sender dst).Nodup := by
    unfold localRecipients
    split
    · split
      · split <;> simp
      · exact hn.sublist (List.filter_sublist.map _)
    · simp
  have hng : (gatewayRecipients d fw dst).Nodup := by
    unfold gatewayRecipients
    split
    · exact hg.filter _
    · simp
  refine ⟨?_, by simp [send]⟩
  simp only [send]
  rw [mapGet_deliver _ _ _ _ _ hw, List.count_append, hnl.count, hng.count]

/-- **C25.** A gateway is handed the message iff it is a declared forwarder willing to forward it and
the destination is not purely this process on this host. -/
theorem C25_gateway_recipients (d : State) (fw : Wpid → Bool) (dst : Addr) (id : Wpid) :
    id ∈ gatewayRecipients d fw dst ↔
      id ∈ d.gateways ∧ fw id = true ∧ ¬ (dst.host = d.host ∧ dst.proc = d.proc) := by
  unfold gatewayRecipients
  split
  · rename_i h
    rw [List.mem_filter]
    have : ¬ (dst.host = d.host ∧ dst.proc = d.proc) := fun e => h.elim (· e.1) (· e.2)
    simp [this]
  · rename_i h
    have : dst.host = d.host ∧ dst.proc = d.proc := by
      constructor
      · by_contra e; exact h (Or.inl e)
      · by_contra e; exact h (Or.inr e)
    simp [this]

/-- **C25 (refutation).** A "*" in a destination's class does not address all classes when an instance
number is given: nothing is delivered, although "?" there delivers. -/
theorem C25_star_address_not_delivered :
    let d := (runFrom (init 1 2) [.attach (-1005)]).1
    (send d ⟨0, [7], 0⟩ [] ⟨⟨-2, 0⟩, 2, 1⟩ (fun _ => false)).2 = 0 ∧
    (send d ⟨0, [7], 0⟩ [] ⟨⟨-1, 0⟩, 2, 1⟩ (fun _ => false)).2 = 1 := by decide

/-- **C58 (partial).** The dispatcher never goes idle with work pending: after any history of calls
in which messages have non-negative priorities, if its repoll flag is down then no attached worker
has a pending repoll and a non-empty queue.  For negative priorities the claim is false, see
`C58_negative_priority_stalls`. -/
theorem C58_idle_means_no_work_partial (host proc : Int) (ops : List Op)
    (hnn : ∀ o ∈ ops, OpNonneg o)
    (hidle : (runFrom (init host proc) ops).1.repoll = false) (id : Wpid) (w : Wp)
    (hw : mapGet id (runFrom (init host proc) ops).1.wps = some w) :
    ¬ (w.q.repoll = true ∧ w.q.queue ≠ []) := by
  intro h
  have ha : Ann none (init host proc) := by intro k w hw; simp [init, mapGet] at hw
  have := runFrom_ann (init_inv host proc) ha ops hnn id w hw (by simp) h
  rw [hidle] at this; simp at this

/-- **C58 (refutation).** A message of negative priority is queued and its worker asks for a poll, but
the dispatcher's flag stays down, so the message waits until something else happens. -/
theorem C58_negative_priority_stalls :
    let d := (runFrom (init 1 2) [.attach (-1005),
      .send ⟨0, [7], -1⟩ [] ⟨⟨-1005, 0⟩, 2, 1⟩ (fun _ => false)]).1
    d.repoll = false ∧ d.wps.map (fun p => (p.2.q.repoll, p.2.q.queue.length)) = [(true, 1)] := by decide

-- Two workers, a published message and a directed one; a poll round in which the handler posts.
example :
    let s := (Subs.add Subs.init [-1001, -2] [-2]).1
    let ops := [Op.attach (-1005), .attach (-1005), .setSubs ⟨-1005, 1⟩ s,
      .send ⟨0, [-1001, 4], 256⟩ [9] ⟨⟨-1060, -1060⟩, -1, -1⟩ (fun _ => false),
      .send ⟨1, [-1001, 5], 512⟩ [9] ⟨⟨-1005, 0⟩, 2, 1⟩ (fun _ => false),
      .poll false [.post ⟨-1005, 1⟩ ⟨2, [8], 16⟩] true .accept]
    let r := runFrom (init 1 2) ops
    r.2 = [⟨⟨-1005, 0⟩, 2, 1⟩, ⟨⟨-1005, 1⟩, 2, 1⟩] ∧
    r.1.wps.map (fun p => p.2.q.queue.map (fun e => e.msg.ident)) = [[], [0, 2]] ∧
    r.1.repoll = true ∧ (∀ o ∈ ops, OpNonneg o) := by
  refine ⟨by decide, by decide, by decide, ?_⟩
  simp [OpNonneg, EffectNonneg]

end Verif.Disp
