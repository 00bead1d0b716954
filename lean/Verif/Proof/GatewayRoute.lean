import Verif.Spec.GatewayRoute
import Verif.Proof.Dispatcher
import Verif.Props.Hiid
import Verif.Props.Subscriptions
/-! # Lemmas about routing between processes -/
namespace Verif.Route
open Disp

theorem aidM {a b : Int} (hb : Concrete b) : Hiid.aidMatches a b = true ↔ a = -1 ∨ a = -2 ∨ a = b := by
  unfold Concrete at hb
  simp [Hiid.aidMatches, Hiid.isAny, Hiid.isWild, Hiid.aidAny, Hiid.aidWild, hb.1, hb.2, or_assoc]

theorem aidM_comm (a b : Int) : Hiid.aidMatches a b = Hiid.aidMatches b a := by
  unfold Hiid.aidMatches
  have : (a == b) = (b == a) := by
    by_cases h : a = b
    · rw [h]
    · have h' : ¬ b = a := fun e => h e.symm
      simp [h, h']
  rw [this]
  cases Hiid.isAny a <;> cases Hiid.isWild a <;> cases Hiid.isAny b <;> cases Hiid.isWild b <;> rfl

/-- Addresses that match field by field match. -/
theorem match_of_fields (a b : Addr) (h1 : Hiid.aidMatches a.wpid.cls b.wpid.cls = true) (h2 : Hiid.aidMatches a.wpid.inst b.wpid.inst = true)
    (h3 : Hiid.aidMatches a.proc b.proc = true) (h4 : Hiid.aidMatches a.host b.host = true) : Hiid.matches_ false (ids a) (ids b) = true := by
  simp only [Hiid.matches_, ids, Hiid.matchLoop, h1, h2, h3, h4, Hiid.endOk]
  simp

/-- The converse, without `*`. -/
theorem fields_of_match (a b : Addr) (ha : ∀ x ∈ ids a, x ≠ -2) (hb : ∀ x ∈ ids b, x ≠ -2) (h : Hiid.matches_ false (ids a) (ids b) = true) :
    Hiid.aidMatches a.wpid.cls b.wpid.cls = true ∧ Hiid.aidMatches a.wpid.inst b.wpid.inst = true := by
  have w : ∀ x : Int, x ≠ -2 → Hiid.isWild x = false := fun x hx => by simp [Hiid.isWild, Hiid.aidWild, hx]
  simp only [ids, List.mem_cons, List.not_mem_nil, or_false, forall_eq_or_imp, forall_eq] at ha hb
  simp only [Hiid.matches_, ids, Hiid.matchLoop, w _ ha.1, w _ ha.2.1, w _ hb.1, w _ hb.2.1] at h
  by_cases h1 : Hiid.aidMatches a.wpid.cls b.wpid.cls = true
  · by_cases h2 : Hiid.aidMatches a.wpid.inst b.wpid.inst = true
    · exact ⟨h1, h2⟩
    · simp [h1, h2] at h
  · simp [h1] at h

theorem gets_scope {d : Disp.State} {e : Env} {w : Wpid} (h : Gets d e w) : Hiid.aidMatches e.dst.host d.host = true ∧ Hiid.aidMatches e.dst.proc d.proc = true := by
  unfold Gets localRecipients at h
  split at h
  · rename_i hc
    simpa using hc
  · simp at h

/-- Who gets a message. -/
theorem gets_iff {d : Disp.State} (hd : Sane d) {e : Env} {w : Wpid} (hs : e.dst.wpid.cls ≠ -2 ∧ e.dst.wpid.inst ≠ -2) :
    Gets d e w ↔ Hiid.aidMatches e.dst.host d.host = true ∧ Hiid.aidMatches e.dst.proc d.proc = true ∧ ∃ x, (w, x) ∈ d.wps ∧
      ((Hiid.aidMatches e.dst.wpid.cls w.cls = true ∧ Hiid.aidMatches e.dst.wpid.inst w.inst = true) ∨
        (e.dst.wpid.cls = aidPublish ∧ Subs.matches_ x.subs e.m.id (ids e.sender) = true)) := by
  unfold Gets localRecipients
  by_cases hc : (Hiid.aidMatches e.dst.host d.host && Hiid.aidMatches e.dst.proc d.proc) = true
  · rw [if_pos hc]
    have hc' : Hiid.aidMatches e.dst.host d.host = true ∧ Hiid.aidMatches e.dst.proc d.proc = true := by simpa using hc
    simp only [hc'.1, hc'.2, true_and]
    by_cases hw : (!wildcardAddr e.dst.wpid.cls && !wildcardAddr e.dst.wpid.inst) = true
    · rw [if_pos hw]
      simp [wildcardAddr, aidPublish, Hiid.aidAny] at hw
      have key : ∀ y ∈ d.wps, (Hiid.aidMatches e.dst.wpid.cls y.1.cls = true ∧ Hiid.aidMatches e.dst.wpid.inst y.1.inst = true) ↔ y.1 = e.dst.wpid := by
        intro y hy
        obtain ⟨h1, _, h3⟩ := hd.wps y hy
        rw [aidM h1, aidM ⟨by omega, by omega⟩]
        constructor
        · rintro ⟨h4, h5⟩
          have e1 : e.dst.wpid.cls = y.1.cls := by omega
          have e2 : e.dst.wpid.inst = y.1.inst := by omega
          revert e1 e2
          cases y.1; cases e.dst.wpid
          simp only
          rintro rfl rfl; rfl
        · intro h4; rw [h4]; exact ⟨Or.inr (Or.inr rfl), Or.inr (Or.inr rfl)⟩
      have hp : ¬ e.dst.wpid.cls = aidPublish := by unfold aidPublish; omega
      cases hg : mapGet e.dst.wpid d.wps with
      | none =>
        simp only [List.not_mem_nil, false_iff]
        rintro ⟨x, hx, h1 | ⟨h1, _⟩⟩
        · have := (key _ hx).1 h1
          simp only at this
          rw [mapGet_none] at hg
          exact hg (List.mem_map.2 ⟨_, hx, this⟩)
        · exact hp h1
      | some x =>
        simp only [List.mem_singleton]
        constructor
        · rintro rfl
          have hx := mapGet_some_mem hg
          exact ⟨x, hx, Or.inl ((key _ hx).2 rfl)⟩
        · rintro ⟨y, hy, h1 | ⟨h1, _⟩⟩
          · exact (key _ hy).1 h1
          · exact absurd h1 hp
    · rw [if_neg hw]
      simp only [List.mem_map, List.mem_filter, Bool.or_eq_true, Bool.and_eq_true, beq_iff_eq]
      constructor
      · rintro ⟨⟨w', x⟩, ⟨h1, h2⟩, rfl⟩
        exact ⟨x, h1, h2⟩
      · rintro ⟨x, h1, h2⟩
        exact ⟨(w, x), ⟨h1, h2⟩, rfl⟩
  · rw [if_neg hc]
    simp only [Bool.and_eq_true] at hc
    simp only [List.not_mem_nil, false_iff]
    rintro ⟨h1, h2, _⟩
    exact hc ⟨h1, h2⟩

/-- One direction, for all destinations. -/
theorem gets_imp {d : Disp.State} (hd : Sane d) {e : Env} {w : Wpid} (h : Gets d e w) : ∃ x, (w, x) ∈ d.wps ∧
      ((Hiid.aidMatches e.dst.wpid.cls w.cls = true ∧ Hiid.aidMatches e.dst.wpid.inst w.inst = true) ∨
        (e.dst.wpid.cls = aidPublish ∧ Subs.matches_ x.subs e.m.id (ids e.sender) = true)) := by
  unfold Gets localRecipients at h
  split at h
  · split at h
    · split at h
      · rename_i x hx
        simp only [List.mem_singleton] at h
        subst h
        have hm := mapGet_some_mem hx
        obtain ⟨h1, _, h3⟩ := hd.wps _ hm
        exact ⟨x, hm, Or.inl ⟨(aidM h1).2 (Or.inr (Or.inr rfl)), (aidM (b := e.dst.wpid.inst) ⟨by simp only at h3; omega, by simp only at h3; omega⟩).2 (Or.inr (Or.inr rfl))⟩⟩
      · simp at h
    · simp only [List.mem_map, List.mem_filter, Bool.or_eq_true, Bool.and_eq_true, beq_iff_eq] at h
      obtain ⟨⟨w', x⟩, ⟨h1, h2⟩, rfl⟩ := h
      exact ⟨x, h1, h2⟩
  · simp at h

theorem mem_mirror {d : Disp.State} {a : Addr} {s : Subs.State} : (a, s) ∈ mirror d ↔
    a.proc = d.proc ∧ a.host = d.host ∧ a.wpid.cls ≠ aidGatewayWP ∧ ∃ x, (a.wpid, x) ∈ d.wps ∧ x.subs = s := by
  unfold mirror
  simp only [List.mem_map, List.mem_filter, decide_eq_true_eq]
  constructor
  · rintro ⟨⟨w, x⟩, ⟨h1, h2⟩, h3⟩
    injection h3 with h3 h4
    subst h3
    exact ⟨rfl, rfl, h2, x, h1, h4⟩
  · rintro ⟨h1, h2, h3, x, h4, h5⟩
    refine ⟨(a.wpid, x), ⟨h4, h3⟩, ?_⟩
    rw [← h1, ← h2, h5]

/-- The part of the decision that is about the message. -/
theorem willForward_fresh {g : Gw} {d : Disp.State} (hg : Linked g d) {e : Env} (he : Fresh e) :
    willForward g e = ((Hiid.aidMatches e.dst.host d.host && Hiid.aidMatches e.dst.proc d.proc) &&
      (if e.dst.wpid.cls = aidPublish then (mirror d).any fun p => Subs.matches_ p.2 e.m.id (ids e.sender)
       else (mirror d).any fun p => Hiid.matches_ false (ids p.1) (ids e.dst))) := by
  unfold willForward
  rw [if_neg (by rw [hg.connected]; simp)]
  have h1 : Hiid.matches_ false e.m.id (msgServerOpen ++ [Hiid.aidWild]) = false := he.2
  rw [h1, he.1, hg.rproc, hg.rhost, hg.table, aidM_comm d.proc, aidM_comm d.host]
  cases Hiid.aidMatches e.dst.host d.host <;> cases Hiid.aidMatches e.dst.proc d.proc <;> simp

theorem forward_of_gets {g : Gw} {d : Disp.State} (hd : Sane d) (hg : Linked g d) {e : Env} (he : Fresh e) {w : Wpid} (hw : Gets d e w) (hc : w.cls ≠ aidGatewayWP) :
    willForward g e = true := by
  rw [willForward_fresh hg he]
  obtain ⟨s1, s2⟩ := gets_scope hw
  rw [s1, s2]
  simp only [Bool.true_and]
  obtain ⟨x, hx, h⟩ := gets_imp hd hw
  by_cases hp : e.dst.wpid.cls = aidPublish
  · rw [if_pos hp, List.any_eq_true]
    refine ⟨(⟨w, d.proc, d.host⟩, x.subs), mem_mirror.2 ⟨rfl, rfl, hc, x, hx, rfl⟩, ?_⟩
    rcases h with ⟨h1, _⟩ | ⟨_, h1⟩
    · obtain ⟨c1, c2, _⟩ := hd.wps _ hx
      rw [aidM c1, hp] at h1
      simp only at c2 h1
      unfold aidPublish at h1 c2
      omega
    · exact h1
  · rw [if_neg hp, List.any_eq_true]
    refine ⟨(⟨w, d.proc, d.host⟩, x.subs), mem_mirror.2 ⟨rfl, rfl, hc, x, hx, rfl⟩, ?_⟩
    rcases h with ⟨h1, h2⟩ | ⟨h1, _⟩
    · exact match_of_fields _ _ (by rw [aidM_comm]; exact h1) (by rw [aidM_comm]; exact h2) (by rw [aidM_comm]; exact s2) (by rw [aidM_comm]; exact s1)
    · exact absurd h1 hp

theorem gets_of_forward {g : Gw} {d : Disp.State} (hd : Sane d) (hg : Linked g d) {e : Env} (he : Fresh e) (hstar : ∀ x ∈ ids e.dst, x ≠ -2)
    (h : willForward g e = true) : ∃ w, Gets d e w ∧ w.cls ≠ aidGatewayWP := by
  rw [willForward_fresh hg he] at h
  simp only [Bool.and_eq_true] at h
  obtain ⟨⟨s1, s2⟩, h⟩ := h
  have hs : e.dst.wpid.cls ≠ -2 ∧ e.dst.wpid.inst ≠ -2 := ⟨hstar _ (by simp [ids]), hstar _ (by simp [ids])⟩
  by_cases hp : e.dst.wpid.cls = aidPublish
  · rw [if_pos hp, List.any_eq_true] at h
    obtain ⟨⟨a, s⟩, hm, h1⟩ := h
    obtain ⟨_, _, h2, x, h3, h4⟩ := mem_mirror.1 hm
    exact ⟨a.wpid, (gets_iff hd hs).2 ⟨s1, s2, x, h3, Or.inr ⟨hp, by rw [h4]; exact h1⟩⟩, h2⟩
  · rw [if_neg hp, List.any_eq_true] at h
    obtain ⟨⟨a, s⟩, hm, h1⟩ := h
    obtain ⟨p1, p2, h2, x, h3, h4⟩ := mem_mirror.1 hm
    obtain ⟨c1, _, c2⟩ := hd.wps _ h3
    have ha : ∀ y ∈ ids a, y ≠ -2 := by
      simp only [ids, List.mem_cons, List.not_mem_nil, or_false, forall_eq_or_imp, forall_eq]
      refine ⟨c1.2, by simp only at c2; omega, by rw [p1]; exact hd.proc.2, by rw [p2]; exact hd.host.2⟩
    obtain ⟨f1, f2⟩ := fields_of_match a e.dst ha hstar h1
    exact ⟨a.wpid, (gets_iff hd hs).2 ⟨s1, s2, x, h3, Or.inl ⟨by rw [aidM_comm]; exact f1, by rw [aidM_comm]; exact f2⟩⟩, h2⟩

/-! ### Several processes -/

theorem sum_single {α : Type*} {l : List α} {f : α → Nat} {a : α} (hn : l.Nodup) (ha : a ∈ l) (h : ∀ b ∈ l, b ≠ a → f b = 0) : (l.map f).sum = f a := by
  induction l with
  | nil => cases ha
  | cons x l ih =>
    rw [List.nodup_cons] at hn
    rw [List.map_cons, List.sum_cons]
    rcases List.mem_cons.1 ha with rfl | ha'
    · have : (l.map f).sum = 0 := by
        have hz : ∀ b ∈ l, f b = 0 := fun b hb => h b (List.mem_cons_of_mem _ hb) fun e => hn.1 (e ▸ hb)
        clear ih h hn ha
        induction l with
        | nil => rfl
        | cons y l ih => rw [List.map_cons, List.sum_cons, hz y (by simp), ih fun b hb => hz b (by simp [hb])]
      omega
    · rw [ih hn.2 ha' fun b hb => h b (List.mem_cons_of_mem _ hb), h x (by simp) fun e => hn.1 (e ▸ ha')]
      omega

theorem sum_zero {α : Type*} {l : List α} {f : α → Nat} (h : ∀ b ∈ l, f b = 0) : (l.map f).sum = 0 := by
  induction l with
  | nil => rfl
  | cons y l ih => rw [List.map_cons, List.sum_cons, h y (by simp), ih fun b hb => h b (by simp [hb])]

theorem sum_eraseIdx {α : Type*} (f : α → Nat) (l : List α) (i : Nat) (t : α) (h : l[i]? = some t) : (l.map f).sum = f t + ((l.eraseIdx i).map f).sum := by
  induction l generalizing i with
  | nil => cases h
  | cons x l ih =>
    cases i with
    | zero =>
      simp only [List.getElem?_cons_zero, Option.some.injEq] at h
      subst h
      simp
    | succ i =>
      simp only [List.getElem?_cons_succ] at h
      simp only [List.eraseIdx_cons_succ, List.map_cons, List.sum_cons, ih i h]
      omega

theorem recips_nodup {d : Disp.State} (hd : (d.wps.map Prod.fst).Nodup) (m : WPQueue.Msg) (s : List Int) (dst : Addr) : (localRecipients d m s dst).Nodup := by
  unfold localRecipients
  split
  · split
    · split <;> simp
    · exact hd.sublist (List.filter_sublist.map _)
  · simp

theorem count_map (R : List Wpid) (p q : Nat) (w : Wpid) : (R.map fun x => (p, x)).count (q, w) = if q = p then R.count w else 0 := by
  by_cases h : q = p
  · subst h
    rw [if_pos rfl]
    induction R with
    | nil => rfl
    | cons x R ih =>
      rw [List.map_cons, List.count_cons, List.count_cons, ih]
      congr 1
      by_cases hx : x = w
      · subst hx; simp
      · have : ¬ ((q, x) == (q, w)) = true := by simpa using hx
        rw [if_neg this, if_neg (by simpa using hx)]
  · rw [if_neg h, List.count_eq_zero]
    intro hm
    obtain ⟨x, _, hx⟩ := List.mem_map.1 hm
    injection hx with h1 _
    exact h h1.symm

section mesh
variable {net : Net} {n : Nat} {p0 : Nat} {e : Env}

/-- Local recipients at a process. -/
def locals (net : Net) (e : Env) (q : Nat) : List Wpid := localRecipients (net.procs q).d e.m (ids e.sender) e.dst

/-- Tasks that can occur. -/
def Fine (net : Net) (n p0 : Nat) (e : Env) : Task → Prop
  | .send p e' => (p = p0 ∧ e' = e) ∨ (p < n ∧ e'.m = e.m ∧ e'.sender = e.sender ∧ e'.dst = e.dst ∧ e'.hops = 1)
  | .gw p w e' => p = p0 ∧ e' = e ∧ w ∈ (net.procs p0).d.gateways ∧ ∃ g, (net.procs p0).gw w = some g ∧ willForward g e = true

/-- How often a WP is going to get the message from a task. -/
def pot (net : Net) (e : Env) (q : Nat) (w : Wpid) : Task → Nat
  | .send p e' => if e'.hops = 0 ∨ q = p then (locals net e q).count w else 0
  | .gw p w' _ => if (net.peer p w').1 = q then (locals net e q).count w else 0

theorem forward_hops {g : Gw} {e' : Env} (h0 : e'.hops ≠ 0) (hid : Hiid.matches_ false e'.m.id (msgServerOpen ++ [-2]) = false) : willForward g e' = false := by
  unfold willForward
  by_cases hc : g.connected = true
  · rw [if_neg (by rw [hc]; simp)]
    have h1 : Hiid.matches_ false e'.m.id (msgServerOpen ++ [Hiid.aidWild]) = false := hid
    rw [h1, if_pos (by simp; omega)]
  · rw [if_pos (by simpa using hc)]

theorem gateways_nil {d : Disp.State} {f : Wpid → Bool} {dst : Addr} (h : ∀ w, f w = false) : gatewayRecipients d f dst = [] := by
  unfold gatewayRecipients
  split
  · rw [List.filter_eq_nil_iff]
    intro w _
    rw [h w]; simp
  · rfl

theorem transmits_of_forward {g : Gw} (hs : e.sender.wpid.cls ≠ aidGatewayWP) (ha : g.addr.wpid.cls = aidGatewayWP) (h : willForward g e = true) : transmits g e = true := by
  unfold willForward at h
  unfold transmits
  rw [if_neg (fun hc => hs (by rw [hc.2]; exact ha))]
  by_cases hc : g.connected = true
  · rw [if_neg (by rw [hc]; simp)] at h
    rw [if_neg (by rw [hc]; simp)]
    by_cases h2 : (!Hiid.aidMatches g.rproc e.dst.proc || !Hiid.aidMatches g.rhost e.dst.host) = true
    · rw [if_pos h2] at h
      split at h <;> exact absurd h (by simp)
    · rw [if_neg h2, if_neg (fun hx => hs hx.1)]
  · rw [if_pos (by simpa using hc)] at h
    cases h

theorem work_fine (hm : Mesh net n) (hp : p0 < n) (hf : Fresh e) (hs : e.sender.wpid.cls ≠ aidGatewayWP)
    (hno : ∀ q w, q < n → Gets (net.procs q).d e w → w.cls ≠ aidGatewayWP) (t : Task) (ht : Fine net n p0 e t) :
    (∀ t' ∈ (net.work t).1, Fine net n p0 e t') ∧ (∀ x ∈ (net.work t).2, x.1 < n) ∧
    ∀ q w, q < n → pot net e q w t = ((net.work t).1.map (pot net e q w)).sum + (net.work t).2.count (q, w) := by
  have hloc : ∀ q, q < n → ∀ e' : Env, e'.m = e.m → e'.sender = e.sender → e'.dst = e.dst →
      ((locals net e q).filter fun w => ((net.procs q).gw w).isSome) = [] ∧ ((locals net e q).filter fun w => !((net.procs q).gw w).isSome) = locals net e q := by
    intro q hq e' _ _ _
    have hnone : ∀ w ∈ locals net e q, ((net.procs q).gw w).isSome = false := by
      intro w hw
      cases hh : ((net.procs q).gw w).isSome with
      | false => rfl
      | true => exact absurd ((hm.isGw q w hq).1 hh) (hno q w hq hw)
    refine ⟨List.filter_eq_nil_iff.2 fun w hw => by rw [hnone w hw]; simp, List.filter_eq_self.2 fun w hw => by rw [hnone w hw]; rfl⟩
  cases t with
  | send p e' =>
    rcases ht with ⟨rfl, rfl⟩ | ⟨hpn, h1, h2, h3, h4⟩
    · -- the first task
      obtain ⟨l1, l2⟩ := hloc p hp e' rfl rfl rfl
      set gr := gatewayRecipients (net.procs p).d (fun w => match (net.procs p).gw w with | some g => willForward g e' | none => false) e'.dst with hgr
      have hmem : ∀ w ∈ gr, w ∈ (net.procs p).d.gateways ∧ ∃ g, (net.procs p).gw w = some g ∧ willForward g e' = true := by
        intro w hw
        rw [hgr] at hw
        unfold gatewayRecipients at hw
        split at hw
        · rw [List.mem_filter] at hw
          refine ⟨hw.1, ?_⟩
          cases hg : (net.procs p).gw w with
          | none => rw [hg] at hw; simp at hw
          | some g => rw [hg] at hw; exact ⟨g, rfl, hw.2⟩
        · cases hw
      have g1 : gr.filter (fun w => ((net.procs p).gw w).isSome) = gr := List.filter_eq_self.2 fun w hw => by
        obtain ⟨_, g, hg, _⟩ := hmem w hw
        rw [hg]; rfl
      have g2 : gr.filter (fun w => !((net.procs p).gw w).isSome) = [] := List.filter_eq_nil_iff.2 fun w hw => by
        obtain ⟨_, g, hg, _⟩ := hmem w hw
        rw [hg]; simp
      have hrec : recipients (net.procs p) e' = locals net e' p ++ gr := rfl
      have hw1 : (net.work (.send p e')).1 = gr.map fun w => .gw p w e' := by
        simp only [Net.work, hrec, List.filter_append, l1, g1, List.nil_append]
      have hw2 : (net.work (.send p e')).2 = (locals net e' p).map fun w => (p, w) := by
        simp only [Net.work, hrec, List.filter_append, l2, g2, List.append_nil]
      rw [hw1, hw2]
      refine ⟨?_, ?_, ?_⟩
      · intro t' ht'
        obtain ⟨w, hw, rfl⟩ := List.mem_map.1 ht'
        exact ⟨rfl, rfl, hmem w hw⟩
      · intro x hx
        obtain ⟨w, _, rfl⟩ := List.mem_map.1 hx
        exact hp
      · intro q w hq
        rw [count_map, List.map_map]
        simp only [pot, hf.1, true_or, if_true]
        by_cases hqp : q = p
        · subst hqp
          rw [if_pos rfl, sum_zero, Nat.zero_add]
          intro b hb
          obtain ⟨hb1, _⟩ := hmem b hb
          simp only [Function.comp_apply, pot]
          rw [if_neg (hm.linked q b hp hb1).2.1]
        · rw [if_neg hqp, Nat.add_zero]
          by_cases hz : (locals net e' q).count w = 0
          · rw [hz, sum_zero]
            intro b _
            simp only [Function.comp_apply, pot, hz]
            split <;> rfl
          · have hget : Gets (net.procs q).d e' w := List.count_pos_iff.1 (Nat.pos_of_ne_zero hz)
            obtain ⟨b, hb1, hb2⟩ := hm.all p q hp hq fun h => hqp h.symm
            obtain ⟨_, _, g, hg, hl⟩ := hm.linked p b hp hb1
            rw [hb2] at hl
            have hfw : willForward g e' = true := forward_of_gets (hm.sane q hq) hl hf hget (hno q w hq hget)
            have hbin : b ∈ gr := by
              rw [hgr]
              unfold gatewayRecipients
              rw [if_pos, List.mem_filter]
              · exact ⟨hb1, by rw [hg]; exact hfw⟩
              · by_contra hc
                have hc1 : e'.dst.host = (net.procs p).d.host := by
                  by_contra h; exact hc (Or.inl h)
                have hc2 : e'.dst.proc = (net.procs p).d.proc := by
                  by_contra h; exact hc (Or.inr h)
                obtain ⟨s1, s2⟩ := gets_scope hget
                rw [aidM (hm.sane q hq).host, hc1] at s1
                rw [aidM (hm.sane q hq).proc, hc2] at s2
                have k1 := (hm.sane p hp).host
                have k2 := (hm.sane p hp).proc
                unfold Concrete at k1 k2
                exact hm.distinct p q hp hq (fun h => hqp h.symm) ⟨by omega, by omega⟩
            have hnd : gr.Nodup := by
              rw [hgr]
              unfold gatewayRecipients
              split
              · exact (hm.gnodup p hp).filter _
              · simp
            rw [sum_single hnd hbin]
            · simp only [Function.comp_apply, pot, hb2, if_true]
            · intro b' hb' hne
              simp only [Function.comp_apply, pot]
              rw [if_neg]
              intro he
              exact hne (hm.single p b' b hp (hmem b' hb').1 hb1 (by rw [he, hb2]))
    · -- a task at another process
      obtain ⟨l1, l2⟩ := hloc p hpn e' h1 h2 h3
      have hrec : recipients (net.procs p) e' = locals net e p := by
        unfold recipients locals
        rw [h1, h2, h3]
        rw [gateways_nil, List.append_nil]
        intro w
        cases (net.procs p).gw w with
        | none => rfl
        | some g => exact forward_hops (g := g) (e' := e') (by omega) (by rw [h1]; exact hf.2)
      have hw1 : (net.work (.send p e')).1 = [] := by simp only [Net.work, hrec, l1, List.map_nil]
      have hw2 : (net.work (.send p e')).2 = (locals net e p).map fun w => (p, w) := by simp only [Net.work, hrec, l2]
      rw [hw1, hw2]
      refine ⟨fun t' ht' => (by cases ht'), ?_, ?_⟩
      · intro x hx
        obtain ⟨w, _, rfl⟩ := List.mem_map.1 hx
        exact hpn
      · intro q w _
        rw [count_map]
        simp only [pot, h4, List.map_nil, List.sum_nil, Nat.zero_add]
        by_cases hqp : q = p
        · subst hqp; simp
        · simp [hqp]
  | gw p w e' =>
    obtain ⟨rfl, rfl, hw, g, hg, hfw⟩ := ht
    have hcls : w.cls = aidGatewayWP := (hm.isGw p w hp).1 (by rw [hg]; rfl)
    have htr := transmits_of_forward hs (by rw [hm.addr p w g hp hg]; exact hcls) hfw
    obtain ⟨hl1, _, _⟩ := hm.linked p w hp hw
    simp only [Net.work, hg, htr, if_true]
    refine ⟨?_, fun x hx => (by cases hx), ?_⟩
    · intro t' ht'
      simp only [List.mem_singleton] at ht'
      subst ht'
      exact Or.inr ⟨hl1, rfl, rfl, rfl, by simp [hf.1]⟩
    · intro q x _
      simp only [pot, List.map_cons, List.map_nil, List.sum_cons, List.sum_nil, List.count_nil, Nat.add_zero]
      by_cases hq : (net.peer p w).1 = q
      · subst hq; simp
      · rw [if_neg hq, if_neg]
        rintro (h | h)
        · omega
        · exact hq h.symm

theorem run_fine (hm : Mesh net n) (hp : p0 < n) (hf : Fresh e) (hs : e.sender.wpid.cls ≠ aidGatewayWP)
    (hno : ∀ q w, q < n → Gets (net.procs q).d e w → w.cls ≠ aidGatewayWP) (sched : List Nat) : ∀ s : Run, (∀ t ∈ s.tasks, Fine net n p0 e t) → (∀ x ∈ s.log, x.1 < n) →
    (∀ t ∈ (net.run s sched).tasks, Fine net n p0 e t) ∧ (∀ x ∈ (net.run s sched).log, x.1 < n) ∧
    ∀ q w, q < n → ((net.run s sched).tasks.map (pot net e q w)).sum + (net.run s sched).log.count (q, w) =
      (s.tasks.map (pot net e q w)).sum + s.log.count (q, w) := by
  induction sched with
  | nil => exact fun s h1 h2 => ⟨h1, h2, fun _ _ _ => rfl⟩
  | cons i l ih =>
    intro s h1 h2
    have hstep : net.run s (i :: l) = net.run (net.step s i) l := rfl
    rw [hstep]
    cases hi : s.tasks[i]? with
    | none =>
      have : net.step s i = s := by simp only [Net.step, hi]
      rw [this]
      exact ih s h1 h2
    | some t =>
      have : net.step s i = ⟨s.tasks.eraseIdx i ++ (net.work t).1, s.log ++ (net.work t).2⟩ := by simp only [Net.step, hi]
      rw [this]
      obtain ⟨w1, w2, w3⟩ := work_fine hm hp hf hs hno t (h1 t (List.mem_of_getElem? hi))
      obtain ⟨i1, i2, i3⟩ := ih ⟨s.tasks.eraseIdx i ++ (net.work t).1, s.log ++ (net.work t).2⟩ (by
        intro t' ht'
        rcases List.mem_append.1 ht' with h | h
        · exact h1 t' (List.mem_of_mem_eraseIdx h)
        · exact w1 t' h) (by
        intro x hx
        rcases List.mem_append.1 hx with h | h
        · exact h2 x h
        · exact w2 x h)
      refine ⟨i1, i2, ?_⟩
      intro q w hq
      rw [i3 q w hq, List.map_append, List.sum_append, List.count_append, sum_eraseIdx (pot net e q w) s.tasks i t hi, w3 q w hq]
      omega

end mesh

/-! ### Runs come to an end -/

section ends
variable {net : Net}

/-- The number of tasks a task leads to, up to a depth. -/
def cost (net : Net) : Nat → Task → Nat
  | 0, _ => 1
  | k + 1, t => 1 + (((net.work t).1).map (cost net k)).sum

/-- The depth of a task. -/
def depth : Task → Nat
  | .send _ e => 2 * (5 - e.hops)
  | .gw _ _ e => 2 * (5 - e.hops) - 1

/-- The number of tasks a task leads to. -/
def total (net : Net) (t : Task) : Nat := cost net (depth t) t

/-- Tasks that can occur. -/
def Short (m : WPQueue.Msg) (src dst : Addr) : Task → Prop
  | .send _ e => e.hops ≤ 4 ∧ e.m = m ∧ e.sender = src ∧ e.dst = dst
  | .gw _ _ e => e.hops ≤ 3 ∧ e.m = m ∧ e.sender = src ∧ e.dst = dst

theorem forward_short {g : Gw} {e : Env} (h : willForward g e = true) : e.hops ≤ 3 := by
  unfold willForward at h
  by_contra hc
  split at h
  · cases h
  · rw [if_pos] at h
    · cases h
    · split
      · simp only [Bool.or_eq_true, decide_eq_true_eq]
        right; omega
      · simp only [decide_eq_true_eq]; omega

theorem work_short {m : WPQueue.Msg} {src dst : Addr} (hno : ∀ p w, w ∈ localRecipients (net.procs p).d m (ids src) dst → (net.procs p).gw w = none) (t : Task) (ht : Short m src dst t) :
    (∀ t' ∈ (net.work t).1, Short m src dst t' ∧ depth t' + 1 = depth t) := by
  cases t with
  | send p e =>
    obtain ⟨h1, h2, h3, h4⟩ := ht
    intro t' ht'
    simp only [Net.work] at ht'
    obtain ⟨w, hw, rfl⟩ := List.mem_map.1 ht'
    rw [List.mem_filter] at hw
    obtain ⟨hw1, hw2⟩ := hw
    unfold recipients at hw1
    rcases List.mem_append.1 hw1 with h | h
    · rw [h2, h3, h4] at h
      rw [hno p w h] at hw2
      cases hw2
    · have hf : e.hops ≤ 3 := by
        unfold gatewayRecipients at h
        split at h
        · rw [List.mem_filter] at h
          cases hg : (net.procs p).gw w with
          | none => rw [hg] at h; simp at h
          | some g => rw [hg] at h; exact forward_short h.2
        · cases h
      refine ⟨⟨hf, h2, h3, h4⟩, ?_⟩
      simp only [depth]
      omega
  | gw p w e =>
    obtain ⟨h1, h2, h3, h4⟩ := ht
    intro t' ht'
    simp only [Net.work] at ht'
    cases hg : (net.procs p).gw w with
    | none => rw [hg] at ht'; simp at ht'
    | some g =>
      rw [hg] at ht'
      dsimp only at ht'
      split at ht'
      · simp only [List.mem_singleton] at ht'
        subst ht'
        refine ⟨⟨by simp only; omega, h2, h3, h4⟩, ?_⟩
        simp only [depth]
        omega
      · cases ht'

theorem total_eq {m : WPQueue.Msg} {src dst : Addr} (hno : ∀ p w, w ∈ localRecipients (net.procs p).d m (ids src) dst → (net.procs p).gw w = none) (t : Task) (ht : Short m src dst t) :
    total net t = 1 + (((net.work t).1).map (total net)).sum := by
  have hw := work_short hno t ht
  cases hd : depth t with
  | zero =>
    cases t with
    | send p e => simp only [depth] at hd; have := ht.1; omega
    | gw p w e => simp only [depth] at hd; have := ht.1; omega
  | succ k =>
    unfold total
    rw [hd, cost]
    congr 2
    apply List.map_congr_left
    intro t' ht'
    have : depth t' = k := by have := (hw t' ht').2; omega
    rw [this]

theorem steps_le {m : WPQueue.Msg} {src dst : Addr} (hno : ∀ p w, w ∈ localRecipients (net.procs p).d m (ids src) dst → (net.procs p).gw w = none) (sched : List Nat) :
    ∀ s : Run, (∀ t ∈ s.tasks, Short m src dst t) → Effective net s sched → sched.length + (((net.run s sched).tasks).map (total net)).sum = (s.tasks.map (total net)).sum := by
  induction sched with
  | nil => intro s _ _; simp [Net.run]
  | cons i l ih =>
    intro s h1 h2
    obtain ⟨hi, h2⟩ := h2
    have hg : s.tasks[i]? = some s.tasks[i] := List.getElem?_eq_getElem hi
    generalize hte : s.tasks[i] = t at hg
    have hst : net.step s i = ⟨s.tasks.eraseIdx i ++ (net.work t).1, s.log ++ (net.work t).2⟩ := by simp only [Net.step, hg]
    have hrun : net.run s (i :: l) = net.run (net.step s i) l := rfl
    have ht : Short m src dst t := h1 t (List.mem_of_getElem? hg)
    have := ih (net.step s i) (by
      rw [hst]
      intro t' ht'
      rcases List.mem_append.1 ht' with h | h
      · exact h1 t' (List.mem_of_mem_eraseIdx h)
      · exact (work_short hno t ht t' h).1) h2
    rw [hrun, List.length_cons]
    rw [sum_eraseIdx (total net) s.tasks i t hg, total_eq hno t ht]
    rw [hst] at this ⊢
    simp only [List.map_append, List.sum_append] at this
    omega

theorem total_pos (t : Task) : 0 < total net t := by
  unfold total
  cases depth t with
  | zero => simp [cost]
  | succ k => rw [cost]; omega

/-- As long as tasks are left, they can be processed. -/
theorem can_finish {m : WPQueue.Msg} {src dst : Addr} (hno : ∀ p w, w ∈ localRecipients (net.procs p).d m (ids src) dst → (net.procs p).gw w = none) (k : Nat) :
    ∀ s : Run, (∀ t ∈ s.tasks, Short m src dst t) → (s.tasks.map (total net)).sum = k → ∃ sched, (net.run s sched).tasks = [] ∧ Effective net s sched := by
  induction k with
  | zero =>
    intro s _ hk
    refine ⟨[], ?_, trivial⟩
    show s.tasks = []
    cases hs : s.tasks with
    | nil => rfl
    | cons t l =>
      rw [hs, List.map_cons, List.sum_cons] at hk
      have := total_pos (net := net) t
      omega
  | succ k ih =>
    intro s h1 hk
    cases hs : s.tasks with
    | nil => rw [hs] at hk; simp at hk
    | cons t l =>
      have hg : s.tasks[0]? = some t := by rw [hs]; rfl
      have hst : net.step s 0 = ⟨l ++ (net.work t).1, s.log ++ (net.work t).2⟩ := by simp only [Net.step, hg]; rw [hs]; rfl
      have ht : Short m src dst t := h1 t (by rw [hs]; simp)
      have ht2 := total_eq hno t ht
      obtain ⟨sched, r1, r2⟩ := ih (net.step s 0) (by
        rw [hst]
        intro t' ht'
        rcases List.mem_append.1 ht' with h | h
        · exact h1 t' (by rw [hs]; simp [h])
        · exact (work_short hno t ht t' h).1) (by
        rw [hst]
        rw [hs, List.map_cons, List.sum_cons, ht2] at hk
        simp only [List.map_append, List.sum_append]
        omega)
      exact ⟨0 :: sched, r1, by rw [hs]; simp, r2⟩

end ends

/-! ### The routing table -/

/-- News about a WP. -/
def about (id : Wpid) : News → Bool
  | .subs i _ => decide (i = id)
  | .bye i => decide (i = id)

theorem mapGet_filter {β : Type} (id k : Wpid) (l : List (Wpid × β)) : mapGet id (l.filter fun x => decide (x.1 ≠ k)) = if id = k then none else mapGet id l := by
  induction l with
  | nil => simp [mapGet]
  | cons x l ih =>
    rw [List.filter_cons]
    by_cases hx : x.1 = k
    · rw [if_neg (by simp [hx]), ih]
      by_cases hk : id = k
      · rw [if_pos hk, if_pos hk]
      · rw [if_neg hk, if_neg hk, mapGet, if_neg (by rw [hx]; exact fun h => hk h.symm)]
    · rw [if_pos (by simp [hx]), mapGet, mapGet, ih]
      by_cases h1 : x.1 = id
      · rw [if_pos h1, if_pos h1, if_neg (by rw [← h1]; exact hx)]
      · rw [if_neg h1, if_neg h1]

theorem getSet {β : Type} (id k : Wpid) (v : β) (l : List (Wpid × β)) : mapGet id (mapSet k v l) = if id = k then some v else mapGet id l := by
  rw [mapGet_mapSet]
  by_cases h : id = k
  · rw [if_pos h, if_pos h.symm]
  · rw [if_neg h, if_neg fun e => h e.symm]

theorem learn_other (id : Wpid) (x : News) (t : List (Wpid × Subs.State)) (h : about id x = false) : mapGet id (learn t x) = mapGet id t := by
  cases x with
  | subs i s =>
    have hi : i ≠ id := by simpa [about] using h
    rw [learn, getSet, if_neg (fun h => hi h.symm)]
  | bye i =>
    have hi : i ≠ id := by simpa [about] using h
    rw [learn, mapGet_filter, if_neg (fun h => hi h.symm)]

theorem learns_other (id : Wpid) (l : List News) : ∀ t, (∀ x ∈ l, about id x = false) → mapGet id (l.foldl learn t) = mapGet id t := by
  induction l with
  | nil => intro t _; rfl
  | cons x l ih =>
    intro t h
    rw [List.foldl_cons, ih _ fun y hy => h y (by simp [hy]), learn_other id x t (h x (by simp))]

/-- The table knows what it should know about a WP. -/
def Knows (id : Wpid) (p : Peer) (t : List (Wpid × Subs.State)) : Prop :=
  match mapGet id p.wps with
  | none => mapGet id t = none
  | some (s, st) => st = true ∧ mapGet id t = some s

/-- Attached WPs have ids that have been given out. -/
def Known (p : Peer) : Prop := ∀ id, mapGet id p.wps ≠ none → id ∈ p.used

theorem step_known {p : Peer} {e : Ev} (h : Known p) : Known (p.step e).1 := by
  intro id hid
  cases e with
  | attach i =>
    simp only [Peer.step, getSet] at hid ⊢
    by_cases hi : id = i
    · simp [hi]
    · rw [if_neg hi] at hid
      exact List.mem_cons_of_mem _ (h id hid)
  | change i s =>
    simp only [Peer.step] at hid ⊢
    cases hg : mapGet i p.wps with
    | none => rw [hg] at hid; exact h id hid
    | some x =>
      obtain ⟨a, b⟩ := x
      rw [hg] at hid
      simp only [getSet] at hid ⊢
      by_cases hi : id = i
      · exact h id (by rw [hi, hg]; simp)
      · rw [if_neg hi] at hid
        exact h id hid
  | start i =>
    simp only [Peer.step] at hid ⊢
    cases hg : mapGet i p.wps with
    | none => rw [hg] at hid; exact h id hid
    | some x =>
      obtain ⟨a, b⟩ := x
      rw [hg] at hid
      simp only [getSet] at hid ⊢
      by_cases hi : id = i
      · exact h id (by rw [hi, hg]; simp)
      · rw [if_neg hi] at hid
        exact h id hid
  | stop i late =>
    simp only [Peer.step] at hid ⊢
    cases hg : mapGet i p.wps with
    | none => rw [hg] at hid; exact h id hid
    | some x =>
      obtain ⟨a, b⟩ := x
      rw [hg] at hid
      simp only [mapGet_filter] at hid ⊢
      by_cases hi : id = i
      · rw [if_pos hi] at hid; exact absurd rfl hid
      · rw [if_neg hi] at hid
        exact h id hid

/-- An event without news about a WP leaves it as it is, or attaches it. -/
theorem step_quiet {p : Peer} {e : Ev} (id : Wpid) (hq : ∀ x ∈ (p.step e).2, about id x = false) :
    mapGet id (p.step e).1.wps = mapGet id p.wps ∨
    (e = .attach id ∧ mapGet id (p.step e).1.wps = some (Subs.init, false)) ∨
    ∃ s s', mapGet id p.wps = some (s, false) ∧ mapGet id (p.step e).1.wps = some (s', false) := by
  cases e with
  | attach i =>
    simp only [Peer.step, getSet]
    by_cases hi : id = i
    · right; left; rw [if_pos hi, hi]; exact ⟨rfl, rfl⟩
    · left; rw [if_neg hi]
  | change i s =>
    simp only [Peer.step] at hq ⊢
    cases hg : mapGet i p.wps with
    | none => left; rfl
    | some x =>
      obtain ⟨a, b⟩ := x
      rw [hg] at hq
      simp only [getSet] at hq ⊢
      by_cases hi : id = i
      · subst hi
        cases b with
        | true => exact absurd (hq (.subs id s) (by simp)) (by simp [about])
        | false => right; right; exact ⟨a, s, hg, by rw [if_pos rfl]⟩
      · left; rw [if_neg hi]
  | start i =>
    simp only [Peer.step] at hq ⊢
    cases hg : mapGet i p.wps with
    | none => left; rfl
    | some x =>
      obtain ⟨a, b⟩ := x
      rw [hg] at hq
      simp only [getSet] at hq ⊢
      by_cases hi : id = i
      · subst hi
        exact absurd (hq (.subs id a) (by simp)) (by simp [about])
      · left; rw [if_neg hi]
  | stop i late =>
    simp only [Peer.step] at hq ⊢
    cases hg : mapGet i p.wps with
    | none => left; rfl
    | some x =>
      obtain ⟨a, b⟩ := x
      rw [hg] at hq
      simp only [mapGet_filter] at hq ⊢
      by_cases hi : id = i
      · subst hi
        exact absurd (hq (.bye id) (by simp)) (by simp [about])
      · left; rw [if_neg hi]

/-- An event with news about a WP: the table then knows it. -/
theorem step_news {p : Peer} {e : Ev} (id : Wpid) (hl : ∀ i late, e = .stop i late → late = []) (hn : ∃ x ∈ (p.step e).2, about id x = true) (t : List (Wpid × Subs.State)) :
    Knows id (p.step e).1 ((p.step e).2.foldl learn t) := by
  obtain ⟨x, hx, ha⟩ := hn
  cases e with
  | attach i => simp [Peer.step] at hx
  | change i s =>
    simp only [Peer.step] at hx ⊢
    cases hg : mapGet i p.wps with
    | none => rw [hg] at hx; simp at hx
    | some y =>
      obtain ⟨a, b⟩ := y
      rw [hg] at hx
      cases b with
      | false => simp at hx
      | true =>
        simp only [if_true, List.mem_singleton] at hx
        subst hx
        have hi : i = id := by simpa [about] using ha
        subst hi
        simp only [if_true, List.foldl_cons, List.foldl_nil, learn, Knows, getSet]
        exact ⟨trivial, trivial⟩
  | start i =>
    simp only [Peer.step] at hx ⊢
    cases hg : mapGet i p.wps with
    | none => rw [hg] at hx; simp at hx
    | some y =>
      obtain ⟨a, b⟩ := y
      rw [hg] at hx
      simp only [List.mem_singleton] at hx
      subst hx
      have hi : i = id := by simpa [about] using ha
      subst hi
      simp only [List.foldl_cons, List.foldl_nil, learn, Knows, getSet, if_true]
      exact ⟨trivial, trivial⟩
  | stop i late =>
    have hlate := hl i late rfl
    subst hlate
    simp only [Peer.step] at hx ⊢
    cases hg : mapGet i p.wps with
    | none => rw [hg] at hx; simp at hx
    | some y =>
      obtain ⟨a, b⟩ := y
      rw [hg] at hx
      simp only [List.map_nil, ite_self, List.mem_singleton] at hx
      subst hx
      have hi : i = id := by simpa [about] using ha
      subst hi
      simp only [List.map_nil, ite_self, List.foldl_cons, List.foldl_nil, learn, Knows, mapGet_filter, if_true]

/-- Without news, a WP that was started and known stays so, and one that is gone does not come back. -/
theorem run_quiet (id : Wpid) (l : List Ev) : ∀ p : Peer, Known p → p.valid l → (∀ x ∈ (p.run l).2, about id x = false) →
    (∀ s, mapGet id p.wps = some (s, true) → mapGet id (p.run l).1.wps = some (s, true)) ∧
    (id ∈ p.used → mapGet id p.wps = none → mapGet id (p.run l).1.wps = none) ∧
    ((mapGet id p.wps = none ∨ ∃ s, mapGet id p.wps = some (s, false)) → (mapGet id (p.run l).1.wps = none ∨ ∃ s, mapGet id (p.run l).1.wps = some (s, false))) := by
  induction l with
  | nil => exact fun p _ _ _ => ⟨fun _ h => h, fun _ h => h, fun h => h⟩
  | cons e l ih =>
    intro p hk hv hq
    simp only [Peer.valid] at hv
    obtain ⟨hv1, hv2⟩ := hv
    simp only [Peer.run] at hq ⊢
    have hq1 : ∀ x ∈ (p.step e).2, about id x = false := fun x hx => hq x (List.mem_append_left _ hx)
    have hq2 : ∀ x ∈ ((p.step e).1.run l).2, about id x = false := fun x hx => hq x (List.mem_append_right _ hx)
    obtain ⟨i1, i2, i3⟩ := ih (p.step e).1 (step_known hk) hv2 hq2
    have hstep := step_quiet id hq1
    have hused : ∀ x ∈ p.used, x ∈ (p.step e).1.used := by
      intro x hx
      cases e with
      | attach i => exact List.mem_cons_of_mem _ hx
      | change i s =>
        simp only [Peer.step]
        cases mapGet i p.wps <;> exact hx
      | start i =>
        simp only [Peer.step]
        cases mapGet i p.wps <;> exact hx
      | stop i late =>
        simp only [Peer.step]
        cases mapGet i p.wps <;> exact hx
    refine ⟨?_, ?_, ?_⟩
    · intro s hs
      apply i1
      rcases hstep with h | ⟨rfl, h⟩ | ⟨a, b, h, _⟩
      · rw [h, hs]
      · exact absurd (hk id (by rw [hs]; simp)) hv1
      · rw [hs] at h; cases h
    · intro hu hn
      apply i2 (hused id hu)
      rcases hstep with h | ⟨rfl, h⟩ | ⟨a, b, h, _⟩
      · rw [h, hn]
      · exact absurd hu hv1
      · rw [hn] at h; cases h
    · intro h0
      apply i3
      rcases hstep with h | ⟨rfl, h⟩ | ⟨a, b, _, h⟩
      · rw [h]; exact h0
      · right; exact ⟨_, h⟩
      · right; exact ⟨b, h⟩

theorem step_used {p : Peer} {e : Ev} (x : Wpid) (hx : x ∈ p.used) : x ∈ (p.step e).1.used := by
  cases e with
  | attach i => exact List.mem_cons_of_mem _ hx
  | change i s =>
    simp only [Peer.step]
    cases mapGet i p.wps <;> exact hx
  | start i =>
    simp only [Peer.step]
    cases mapGet i p.wps <;> exact hx
  | stop i late =>
    simp only [Peer.step]
    cases mapGet i p.wps <;> exact hx

theorem news_used {p : Peer} {e : Ev} {id : Wpid} (hk : Known p) (hn : ∃ x ∈ (p.step e).2, about id x = true) : id ∈ p.used := by
  obtain ⟨x, hx, ha⟩ := hn
  have key : ∀ i, mapGet i p.wps ≠ none → i = id → id ∈ p.used := fun i h e => hk id (by rw [← e]; exact h)
  cases e with
  | attach i => simp [Peer.step] at hx
  | change i s =>
    simp only [Peer.step] at hx
    cases hg : mapGet i p.wps with
    | none => rw [hg] at hx; simp at hx
    | some y =>
      rw [hg] at hx
      apply key i (by rw [hg]; simp)
      dsimp only at hx
      split at hx
      · simp only [List.mem_singleton] at hx
        subst hx
        simpa [about] using ha
      · cases hx
  | start i =>
    simp only [Peer.step] at hx
    cases hg : mapGet i p.wps with
    | none => rw [hg] at hx; simp at hx
    | some y =>
      rw [hg] at hx
      apply key i (by rw [hg]; simp)
      simp only [List.mem_singleton] at hx
      subst hx
      simpa [about] using ha
  | stop i late =>
    simp only [Peer.step] at hx
    cases hg : mapGet i p.wps with
    | none => rw [hg] at hx; simp at hx
    | some y =>
      rw [hg] at hx
      apply key i (by rw [hg]; simp)
      dsimp only at hx
      rcases List.mem_cons.1 hx with rfl | h
      · simpa [about] using ha
      · split at h
        · obtain ⟨s, _, rfl⟩ := List.mem_map.1 h
          simpa [about] using ha
        · cases h

theorem about_cases (id : Wpid) (l : List News) : (∃ x ∈ l, about id x = true) ∨ ∀ x ∈ l, about id x = false := by
  by_cases h : ∃ x ∈ l, about id x = true
  · exact Or.inl h
  · right
    intro x hx
    cases hb : about id x with
    | false => rfl
    | true => exact absurd ⟨x, hx, hb⟩ h

theorem run_keeps (id : Wpid) (l : List Ev) : ∀ (p : Peer) (t : List (Wpid × Subs.State)), Known p → p.valid l → NoLate l → id ∈ p.used → Knows id p t →
    Knows id (p.run l).1 ((p.run l).2.foldl learn t) := by
  induction l with
  | nil => exact fun p t _ _ _ _ h => h
  | cons e l ih =>
    intro p t hk hv hn hu h
    simp only [Peer.valid] at hv
    obtain ⟨hv1, hv2⟩ := hv
    simp only [Peer.run, List.foldl_append]
    apply ih _ _ (step_known hk) hv2 (fun e' he' => hn e' (by simp [he'])) (step_used id hu)
    rcases about_cases id (p.step e).2 with hc | hc
    · exact step_news id (fun i late he => hn e (by simp) i late he) hc t
    · rcases step_quiet id hc with h1 | ⟨rfl, h1⟩ | ⟨a, b, h1, _⟩
      · unfold Knows at h ⊢
        rw [h1, learns_other id _ t hc]
        exact h
      · exact absurd hu hv1
      · unfold Knows at h
        rw [h1] at h
        exact absurd h.1 (by simp)

theorem run_learns (id : Wpid) (l : List Ev) : ∀ (p : Peer) (t : List (Wpid × Subs.State)), Known p → p.valid l → NoLate l → (∃ x ∈ (p.run l).2, about id x = true) →
    Knows id (p.run l).1 ((p.run l).2.foldl learn t) := by
  induction l with
  | nil => rintro p t _ _ _ ⟨x, hx, _⟩; cases hx
  | cons e l ih =>
    rintro p t hk hv hn ⟨x, hx, ha⟩
    simp only [Peer.valid] at hv
    obtain ⟨hv1, hv2⟩ := hv
    have hn2 : NoLate l := fun e' he' => hn e' (by simp [he'])
    simp only [Peer.run, List.foldl_append] at hx ⊢
    by_cases hc : ∃ x ∈ (p.step e).2, about id x = true
    · exact run_keeps id l _ _ (step_known hk) hv2 hn2 (step_used id (news_used hk hc)) (step_news id (fun i late he => hn e (by simp) i late he) hc t)
    · apply ih _ _ (step_known hk) hv2 hn2
      rcases List.mem_append.1 hx with h | h
      · exact absurd ⟨x, h, ha⟩ hc
      · exact ⟨x, h, ha⟩

theorem run_append (l r : List Ev) : ∀ p : Peer, p.run (l ++ r) = (((p.run l).1.run r).1, (p.run l).2 ++ ((p.run l).1.run r).2) := by
  induction l with
  | nil => intro p; simp [Peer.run]
  | cons e l ih =>
    intro p
    simp only [List.cons_append, Peer.run, ih, List.append_assoc]

theorem valid_append (l r : List Ev) : ∀ p : Peer, p.valid (l ++ r) → p.valid l ∧ (p.run l).1.valid r := by
  induction l with
  | nil => exact fun p h => ⟨trivial, h⟩
  | cons e l ih =>
    intro p h
    rw [List.cons_append] at h
    simp only [Peer.valid] at h
    obtain ⟨a, b⟩ := ih _ h.2
    refine ⟨?_, b⟩
    simp only [Peer.valid]
    exact ⟨h.1, a⟩

theorem run_known (l : List Ev) : ∀ p : Peer, Known p → Known (p.run l).1 := by
  induction l with
  | nil => exact fun _ h => h
  | cons e l ih => exact fun p h => ih _ (step_known h)

theorem table_get (p : Peer) (id : Wpid) : mapGet id p.table = (mapGet id p.wps).map (·.1) := by
  unfold Peer.table
  induction p.wps with
  | nil => rfl
  | cons x l ih =>
    rw [List.map_cons, mapGet, mapGet, ih]
    by_cases h : x.1 = id
    · rw [if_pos h, if_pos h]; rfl
    · rw [if_neg h, if_neg h]

/-! ### The first message of a connection -/

theorem mapSet_new {α β : Type} [DecidableEq α] (k : α) (v : β) (l : List (α × β)) (h : k ∉ l.map Prod.fst) : mapSet k v l = l ++ [(k, v)] := by
  induction l with
  | nil => rfl
  | cons x l ih =>
    rw [List.map_cons, List.mem_cons, not_or] at h
    rw [mapSet, if_neg (fun e => h.1 e.symm), ih h.2, List.cons_append]

theorem fold_new (l : List (List Int × Subs.State)) : ∀ t, ((t ++ l).map Prod.fst).Nodup → l.foldl (fun t x => mapSet x.1 x.2 t) t = t ++ l := by
  induction l with
  | nil => intro t _; simp
  | cons x l ih =>
    intro t h
    rw [List.foldl_cons, mapSet_new]
    · rw [ih _ (by simpa using h)]; simp
    · intro hm
      rw [List.map_append, List.map_cons, List.nodup_append] at h
      exact h.2.2 _ hm _ (by simp) rfl

theorem init_loop (l : List (List Int × Subs.State)) (hl : ∀ x ∈ l, Packs x) : ∃ h d, initLoop l = .ok (h, d) ∧ h.length = 16 * l.length ∧
    ∀ y t, readLoop l.length (h ++ y) d t = .ok (l.foldl (fun t x => mapSet x.1 x.2 t) t) := by
  induction l with
  | nil => exact ⟨[], [], rfl, rfl, fun y t => by simp [readLoop]⟩
  | cons x l ih =>
    obtain ⟨a, s⟩ := x
    obtain ⟨h, d, h1, h2, h3⟩ := ih fun x hx => hl x (by simp [hx])
    obtain ⟨k1, k2, hist, k3, k4, k5, k6⟩ := hl (a, s) (by simp)
    simp only at k1 k2 k3
    subst k3
    have hp : ∃ b1 r, Hiid.pack (Hiid.packSize a) a = some (b1, r) := by
      unfold Hiid.pack Hiid.packSize
      rw [if_neg (by omega)]
      exact ⟨_, _, rfl⟩
    obtain ⟨b1, r, hp⟩ := hp
    obtain ⟨u1, u2, u3, u4⟩ := Hiid.C03_unpack_pack a _ b1 r k1 hp
    have hnn : 0 ≤ (Subs.run hist).pksize := by
      obtain ⟨bs, _, q2, _⟩ := Subs.C21_pack_unpack hist k4 (2 ^ 64) k5 (by omega) (by omega)
      omega
    obtain ⟨b2, q1, q2, q3⟩ := Subs.C21_pack_unpack hist k4 (Subs.run hist).pksize.toNat k5 (by omega) (by omega)
    refine ⟨encSize b1.length ++ encSize b2.length ++ h, b1 ++ b2 ++ d, ?_, ?_, ?_⟩
    · simp only [initLoop, hp, q1, h1]
    · simp only [List.length_append, encSize_length, List.length_cons]; omega
    · intro y t
      rw [List.length_cons, readLoop]
      have e1 : leDec ((encSize b1.length ++ encSize b2.length ++ h ++ y).take 8) = b1.length := by
        rw [List.append_assoc, List.append_assoc, List.take_left' (encSize_length _), leDec_encSize _ (by omega)]
      have e2 : leDec (((encSize b1.length ++ encSize b2.length ++ h ++ y).drop 8).take 8) = b2.length := by
        rw [List.append_assoc, List.append_assoc, List.drop_left' (encSize_length _), List.take_left' (encSize_length _), leDec_encSize _ (by omega)]
      have e3 : (encSize b1.length ++ encSize b2.length ++ h ++ y).drop 16 = h ++ y := by
        rw [List.append_assoc _ h y, List.drop_left' (by simp)]
      simp only [e1, e2, e3]
      rw [if_neg (by omega), if_neg (by simp only [List.length_append]; omega)]
      rw [List.append_assoc, List.take_left' rfl, u1]
      simp only [List.drop_left' rfl, List.take_left' rfl, q3, Res.bind]
      rw [← List.append_assoc, List.drop_left' (by simp), h3]
      rfl

theorem scope_iff (self : Addr) (sc : Scope) (proc host : Int) (dst : Addr) (he : dst = publishMsg self sc) (h1 : Concrete proc) (h2 : Concrete host)
    (hp : Concrete self.proc) (hh : Concrete self.host) :
    (Hiid.aidMatches dst.host host = true ∧ Hiid.aidMatches dst.proc proc = true) ↔ InScope sc self proc host := by
  rw [aidM h2, aidM h1, he]
  unfold Concrete at hp hh
  cases sc
  · simp [publishMsg, InScope, Hiid.aidAny]
  · simp only [publishMsg, InScope, Hiid.aidAny]
    simp
    omega
  · simp only [publishMsg, InScope]
    simp
    omega

theorem match_scope (a : Addr) (x y : Int) (ha : a.wpid.cls ≠ -2 ∧ a.wpid.inst ≠ -2 ∧ a.proc ≠ -2 ∧ a.host ≠ -2) (hx : x ≠ -2) (hy : y ≠ -2) :
    Hiid.matches_ false (ids a) [Hiid.aidAny, Hiid.aidAny, x, y] = true ↔ Hiid.aidMatches a.proc x = true ∧ Hiid.aidMatches a.host y = true := by
  have hwild : ∀ x : Int, x ≠ -2 → Hiid.isWild x = false := fun x hx => by simp [Hiid.isWild, Hiid.aidWild, hx]
  have hany : ∀ x : Int, Hiid.aidMatches x Hiid.aidAny = true := fun x => by simp [Hiid.aidMatches, Hiid.isAny, Hiid.aidAny]
  have h1 : Hiid.isWild Hiid.aidAny = false := by decide
  simp only [Hiid.matches_, ids, Hiid.matchLoop, hwild _ ha.1, hwild _ ha.2.1, hwild _ ha.2.2.1, hwild _ ha.2.2.2, hwild _ hx, hwild _ hy, h1, hany]
  cases Hiid.aidMatches a.proc x <;> cases Hiid.aidMatches a.host y <;> simp [Hiid.endOk]

end Verif.Route
