import Verif.Model.Dispatcher
import Verif.Spec.Dispatcher
import Verif.Props.Subscriptions
import Verif.Proof.WPQueue
/-! Lemmas about the dispatcher model. -/
namespace Verif.Disp
open WPQueue hiding Op step runFrom run init

/-! ### Association lists -/
section Map
variable {α β : Type} [DecidableEq α]

theorem mapGet_mapSet (k k' : α) (v : β) (l : List (α × β)) :
    mapGet k' (mapSet k v l) = if k = k' then some v else mapGet k' l := by
  induction l with
  | nil => simp [mapSet, mapGet]
  | cons p r ih =>
    simp only [mapSet]
    split
    · rename_i h
      simp only [mapGet]
      by_cases hk : k = k'
      · simp [hk]
      · simp [hk, h]
    · rename_i h
      simp only [mapGet, ih]
      by_cases hp : p.1 = k'
      · have : k ≠ k' := fun e => h (by rw [hp, e])
        simp [hp, this]
      · simp [hp]

theorem keys_mapSet (k : α) (v : β) (l : List (α × β)) :
    (mapSet k v l).map Prod.fst =
      if k ∈ l.map Prod.fst then l.map Prod.fst else l.map Prod.fst ++ [k] := by
  induction l with
  | nil => simp [mapSet]
  | cons p r ih =>
    simp only [mapSet]
    split
    · rename_i h; simp [h]
    · rename_i h
      simp only [List.map_cons, ih]
      have : k ≠ p.1 := fun e => h e.symm
      by_cases hm : k ∈ r.map Prod.fst <;> simp [hm, this]

theorem mapGet_none {k : α} {l : List (α × β)} : mapGet k l = none ↔ k ∉ l.map Prod.fst := by
  induction l with
  | nil => simp [mapGet]
  | cons p r ih =>
    simp only [mapGet]
    split
    · rename_i h; simp [h]
    · rename_i h
      rw [ih]; simp only [List.map_cons, List.mem_cons, not_or]
      exact ⟨fun hr => ⟨fun e => h e.symm, hr⟩, fun hr => hr.2⟩

theorem mapGet_some_mem {k : α} {v : β} {l : List (α × β)} (h : mapGet k l = some v) : (k, v) ∈ l := by
  induction l with
  | nil => simp [mapGet] at h
  | cons p r ih =>
    simp only [mapGet] at h
    split at h
    · rename_i hp; simp at h; subst h; subst hp; simp
    · exact List.mem_cons_of_mem _ (ih h)

theorem mapGet_of_mem {k : α} {v : β} {l : List (α × β)} (hn : (l.map Prod.fst).Nodup)
    (h : (k, v) ∈ l) : mapGet k l = some v := by
  induction l with
  | nil => simp at h
  | cons p r ih =>
    simp only [List.map_cons, List.nodup_cons] at hn
    simp only [mapGet]
    rcases List.mem_cons.1 h with rfl | h
    · simp
    · have : p.1 ≠ k := by
        rintro rfl
        exact hn.1 (List.mem_map.2 ⟨_, h, rfl⟩)
      rw [if_neg this]; exact ih hn.2 h

end Map

theorem setQ_keys (id : Wpid) (f : Q → Q) (l : List (Wpid × Wp)) :
    (setQ id f l).map Prod.fst = l.map Prod.fst := by
  unfold setQ
  rw [List.map_map]
  apply List.map_congr_left
  intro p _
  simp only [Function.comp]
  split <;> rfl

theorem mapGet_setQ (id k : Wpid) (f : Q → Q) (l : List (Wpid × Wp)) :
    mapGet k (setQ id f l) =
      if k = id then (mapGet k l).map (fun w => { w with q := f w.q }) else mapGet k l := by
  induction l with
  | nil => simp [setQ, mapGet]
  | cons p r ih =>
    have hc : setQ id f (p :: r) = (if p.1 = id then (p.1, { p.2 with q := f p.2.q }) else p) :: setQ id f r := rfl
    rw [hc]
    by_cases hp : p.1 = id
    · simp only [hp, if_true, mapGet]
      by_cases hk : id = k
      · subst hk; simp
      · have : k ≠ id := fun e => hk e.symm
        simp [hk, this, ih]
    · simp only [hp, if_false, mapGet]
      by_cases hk : p.1 = k
      · have : k ≠ id := fun e => hp (hk.trans e)
        simp [hk, this]
      · simp only [hk, if_false, ih]

/-! ### Selection -/

theorem pollPriority_nonneg {q : Q} {t : Nat} {p : Int} (h : pollPriority q t = some p) : 0 ≤ p := by
  unfold pollPriority at h
  split at h
  · split at h
    · simp at h
    · simp at h; omega
  · simp at h

theorem pollPriority_some_iff (q : Q) (t : Nat) :
    (∃ p, pollPriority q t = some p) ↔ q.repoll = true ∧ q.queue ≠ [] := by
  unfold pollPriority
  cases q.repoll <;> cases q.queue <;> simp

/-- The number of WPs needing a poll. -/
def needCount (t : Nat) (l : List (Wpid × Wp)) : Nat :=
  (l.filter (fun p => (pollPriority p.2.q t).isSome)).length

theorem selectLoop_count (t : Nat) (l : List (Wpid × Wp)) (mp : Int) (b : Option Wpid) (n : Nat) :
    (selectLoop t l mp b n).2 = n + needCount t l := by
  induction l generalizing mp b n with
  | nil => simp [selectLoop, needCount]
  | cons p r ih =>
    simp only [selectLoop]
    cases h : pollPriority p.2.q t with
    | none => simp only [ih, needCount, List.filter_cons, h]; simp
    | some pri =>
      simp only
      split <;> (rw [ih]; simp [needCount, h]; omega)

/-- Result of the selection loop started with a candidate of priority `mp`. -/
theorem selectLoop_best (t : Nat) (l : List (Wpid × Wp)) (mp : Int) (b : Option Wpid) (n : Nat) :
    ((selectLoop t l mp b n).1 = b ∧ ∀ p ∈ l, ∀ pri, pollPriority p.2.q t = some pri → pri < mp) ∨
    (∃ x p y pri, l = x ++ p :: y ∧ (selectLoop t l mp b n).1 = some p.1 ∧
      pollPriority p.2.q t = some pri ∧ mp ≤ pri ∧
      (∀ p' ∈ l, ∀ pri', pollPriority p'.2.q t = some pri' → pri' ≤ pri) ∧
      (∀ p' ∈ y, ∀ pri', pollPriority p'.2.q t = some pri' → pri' < pri)) := by
  induction l generalizing mp b n with
  | nil => left; simp [selectLoop]
  | cons p r ih =>
    simp only [selectLoop]
    cases h : pollPriority p.2.q t with
    | none =>
      simp only
      rcases ih mp b n with ⟨h1, h2⟩ | ⟨x, q, y, pri, rfl, h2, h3, h4, h5, h6⟩
      · left
        refine ⟨h1, ?_⟩
        intro p' hp' pri hpri
        rcases List.mem_cons.1 hp' with rfl | hp'
        · rw [h] at hpri; simp at hpri
        · exact h2 p' hp' pri hpri
      · right
        refine ⟨p :: x, q, y, pri, rfl, h2, h3, h4, ?_, h6⟩
        intro p' hp' pri' hpri
        rcases List.mem_cons.1 hp' with rfl | hp'
        · rw [h] at hpri; simp at hpri
        · exact h5 p' hp' pri' hpri
    | some pr =>
      simp only
      split
      · rename_i hge
        right
        rcases ih pr (some p.1) (n+1) with ⟨h1, h2⟩ | ⟨x, q, y, pri, rfl, h2, h3, h4, h5, h6⟩
        · refine ⟨[], p, r, pr, rfl, h1, h, hge, ?_, h2⟩
          intro p' hp' pri hpri
          rcases List.mem_cons.1 hp' with rfl | hp'
          · rw [h] at hpri; simp at hpri; omega
          · have := h2 p' hp' pri hpri; omega
        · refine ⟨p :: x, q, y, pri, rfl, h2, h3, by omega, ?_, h6⟩
          intro p' hp' pri' hpri
          rcases List.mem_cons.1 hp' with rfl | hp'
          · rw [h] at hpri; simp at hpri; omega
          · exact h5 p' hp' pri' hpri
      · rename_i hlt
        rcases ih mp b (n+1) with ⟨h1, h2⟩ | ⟨x, q, y, pri, rfl, h2, h3, h4, h5, h6⟩
        · left
          refine ⟨h1, ?_⟩
          intro p' hp' pri hpri
          rcases List.mem_cons.1 hp' with rfl | hp'
          · rw [h] at hpri; simp at hpri; omega
          · exact h2 p' hp' pri hpri
        · right
          refine ⟨p :: x, q, y, pri, rfl, h2, h3, h4, ?_, h6⟩
          intro p' hp' pri' hpri
          rcases List.mem_cons.1 hp' with rfl | hp'
          · rw [h] at hpri; simp at hpri; omega
          · exact h5 p' hp' pri' hpri

/-! ### Keys and instances -/

/-- Structural invariant: distinct keys, every attached instance number has been given out. -/
structure Inv (d : State) : Prop where
  nodup : (d.wps.map Prod.fst).Nodup
  gnodup : d.gateways.Nodup
  used : ∀ id ∈ d.wps.map Prod.fst, 0 ≤ id.inst ∧ id.inst < ((mapGet id.cls d.insts).getD 0 : Nat)
  gw : ∀ g ∈ d.gateways, g ∈ d.wps.map Prod.fst

theorem Inv.congr {d d' : State} (h : Inv d) (hk : d'.wps.map Prod.fst = d.wps.map Prod.fst)
    (hi : d'.insts = d.insts) (hg : d'.gateways = d.gateways) : Inv d' :=
  ⟨by rw [hk]; exact h.nodup, by rw [hg]; exact h.gnodup, by rw [hk, hi]; exact h.used,
   by rw [hk, hg]; exact h.gw⟩

/-- Same keys, instances, gateways, place. -/
def Same (d d' : State) : Prop :=
  d'.wps.map Prod.fst = d.wps.map Prod.fst ∧ d'.insts = d.insts ∧ d'.gateways = d.gateways ∧
  d'.host = d.host ∧ d'.proc = d.proc

theorem Same.refl (d : State) : Same d d := ⟨rfl, rfl, rfl, rfl, rfl⟩
theorem Same.trans {a b c : State} (h : Same a b) (h' : Same b c) : Same a c :=
  ⟨h'.1.trans h.1, h'.2.1.trans h.2.1, h'.2.2.1.trans h.2.2.1, h'.2.2.2.1.trans h.2.2.2.1,
   h'.2.2.2.2.trans h.2.2.2.2⟩

theorem enqueueTo_same (d : State) (id : Wpid) (m : Msg) : Same d (enqueueTo d id m) := by
  unfold enqueueTo
  split
  · exact Same.refl d
  · rename_i w _
    exact ⟨setQ_keys id (fun _ => (WPQueue.enqueue w.q m d.tick false).1) d.wps, rfl, rfl, rfl, rfl⟩

theorem foldl_same {β : Type} (f : State → β → State) (hf : ∀ d b, Same d (f d b)) (l : List β)
    (d : State) : Same d (l.foldl f d) := by
  induction l generalizing d with
  | nil => exact Same.refl d
  | cons b l ih => exact (hf d b).trans (ih _)

theorem effect_same (id : Wpid) (d : State) (e : Effect) : Same d (effect id d e) := by
  cases e with
  | post w m => exact enqueueTo_same d w m
  | own o => exact ⟨setQ_keys id (fun q => (qstep q o).1) d.wps, rfl, rfl, rfl, rfl⟩

theorem pollRound_same (d : State) (up : Bool) (eff : List Effect) (kept : Bool) (res : Code) :
    Same d (pollRound d up eff kept res) := by
  unfold pollRound
  simp only
  split
  · exact ⟨rfl, rfl, rfl, rfl, rfl⟩
  · split
    · exact ⟨rfl, rfl, rfl, rfl, rfl⟩
    · split
      · exact ⟨rfl, rfl, rfl, rfl, rfl⟩
      · rename_i id _ _ w _ _ e _ _
        have h34 := foldl_same (effect id) (effect_same id) eff
          { d with tick := d.tick + 1,
                   repoll := decide ((selectLoop (d.tick + 1) d.wps (-1) none 0).2 > 1),
                   wps := setQ id (fun q => ⟨q.queue, up⟩) d.wps }
        have h03 : Same d ({ d with tick := d.tick + 1, repoll := decide ((selectLoop (d.tick + 1) d.wps (-1) none 0).2 > 1), wps := setQ id (fun q => ⟨q.queue, up⟩) d.wps }) :=
          ⟨setQ_keys id (fun q => ⟨q.queue, up⟩) d.wps, rfl, rfl, rfl, rfl⟩
        have h35 := Same.trans h03 h34
        split
        · exact ⟨(setQ_keys id (fun q => (WPQueue.finish q e.msg kept res (d.tick + 1)).1) _).trans h35.1, h35.2⟩
        · exact ⟨(setQ_keys id (fun q => (WPQueue.finish q e.msg kept res (d.tick + 1)).1) _).trans h35.1, h35.2⟩

theorem attach_inv {d : State} (h : Inv d) (cls : Int) (w : Wp) :
    Inv (attach d cls w).1 ∧ (⟨cls, ((mapGet cls d.insts).getD 0 : Nat)⟩ : Wpid) ∉ d.wps.map Prod.fst := by
  have hfresh : (⟨cls, ((mapGet cls d.insts).getD 0 : Nat)⟩ : Wpid) ∉ d.wps.map Prod.fst := by
    intro hm
    have := h.used _ hm
    simp at this
  refine ⟨?_, hfresh⟩
  simp only [attach, nextInst]
  constructor
  · simp only [keys_mapSet, if_neg hfresh]
    rw [List.nodup_append]
    refine ⟨h.nodup, by simp, ?_⟩
    rintro a ha b hb rfl
    simp only [List.mem_singleton] at hb
    subst hb; exact hfresh ha
  · exact h.gnodup
  · intro id hid
    simp only [keys_mapSet, if_neg hfresh, List.mem_append, List.mem_singleton] at hid
    simp only [mapGet_mapSet]
    rcases hid with hid | rfl
    · have := h.used id hid
      by_cases hc : cls = id.cls
      · subst hc; simp; omega
      · simp only [if_neg hc]; exact this
    · simp; omega
  · intro g hg
    simp only [keys_mapSet, if_neg hfresh]
    exact List.mem_append_left _ (h.gw g hg)

theorem step_inv {d : State} (h : Inv d) (o : Op) : Inv (step d o).1 := by
  cases o with
  | attach cls => exact (attach_inv h cls _).1
  | detach id =>
    simp only [step, detach]
    cases hg : mapGet id d.wps with
    | none => exact h
    | some w =>
      simp only [Option.getD_some]
      have hk : (d.wps.filter (fun p => decide (p.1 ≠ id))).map Prod.fst =
          (d.wps.map Prod.fst).filter (fun k => decide (k ≠ id)) := by
        rw [List.filter_map]; rfl
      constructor
      · simp only [hk]; exact h.nodup.filter _
      · exact h.gnodup.filter _
      · intro i hi
        simp only [hk, List.mem_filter] at hi
        exact h.used i hi.1
      · intro g hg'
        simp only [hk, List.mem_filter] at hg' ⊢
        exact ⟨h.gw g hg'.1, hg'.2⟩
  | forwarder id =>
    simp only [step, declareForwarder]
    cases hg : mapGet id d.wps with
    | none => exact h
    | some w =>
      simp only [Option.getD_some]
      have hmem : id ∈ d.wps.map Prod.fst := List.mem_map.2 ⟨_, mapGet_some_mem hg, rfl⟩
      refine ⟨h.nodup, ?_, h.used, ?_⟩
      · simp only
        split
        · exact h.gnodup
        · rename_i hn
          rw [List.nodup_append]
          refine ⟨h.gnodup, by simp, ?_⟩
          rintro a ha b hb rfl
          simp only [List.mem_singleton] at hb
          subst hb; exact hn ha
      · intro g hg'
        simp only at hg'
        split at hg'
        · exact h.gw g hg'
        · rcases List.mem_append.1 hg' with h' | h'
          · exact h.gw g h'
          · simp only [List.mem_singleton] at h'; rw [h']; exact hmem
  | setSubs id s =>
    refine h.congr ?_ rfl rfl
    simp only [step, List.map_map]
    apply List.map_congr_left
    intro p _
    simp only [Function.comp]
    split <;> rfl
  | send m sender dst fw =>
    have := foldl_same (fun d id => enqueueTo d id m) (fun d id => enqueueTo_same d id m)
      (localRecipients d m sender dst ++ gatewayRecipients d fw dst) d
    exact h.congr this.1 this.2.1 this.2.2.1
  | poll up eff kept res =>
    have := pollRound_same d up eff kept res
    exact h.congr this.1 this.2.1 this.2.2.1

theorem init_inv (h p : Int) : Inv (init h p) :=
  ⟨by simp [init], by simp [init], by simp [init], by simp [init]⟩

theorem step_insts (d : State) (o : Op) (c : Int) :
    (mapGet c d.insts).getD 0 ≤ (mapGet c (step d o).1.insts).getD 0 := by
  cases o with
  | attach cls =>
    simp only [step, attach, nextInst, mapGet_mapSet]
    split
    · rename_i h; subst h; simp
    · exact Nat.le_refl _
  | detach id => simp only [step, detach]; split <;> exact Nat.le_refl _
  | forwarder id => simp only [step, declareForwarder]; split <;> exact Nat.le_refl _
  | setSubs id s => exact Nat.le_refl _
  | send m sender dst fw =>
    have := foldl_same (fun d id => enqueueTo d id m) (fun d id => enqueueTo_same d id m)
      (localRecipients d m sender dst ++ gatewayRecipients d fw dst) d
    simp only [step, send]; rw [this.2.1]; exact Nat.le_refl _
  | poll up eff kept res =>
    simp only [step]; rw [(pollRound_same d up eff kept res).2.1]; exact Nat.le_refl _

theorem step_addr (d : State) (o : Op) (a : Addr) (h : (step d o).2 = some a) :
    a.wpid.inst = ((mapGet a.wpid.cls d.insts).getD 0 : Nat) ∧
    a.wpid.inst < ((mapGet a.wpid.cls (step d o).1.insts).getD 0 : Nat) := by
  cases o <;> simp [step] at h
  rename_i cls
  subst h
  simp [attach, nextInst, step, mapGet_mapSet]
  omega

theorem runFrom_addr (d : State) (ops : List Op) :
    (∀ a ∈ (runFrom d ops).2, ((mapGet a.wpid.cls d.insts).getD 0 : Nat) ≤ a.wpid.inst) ∧
    ((runFrom d ops).2.map Addr.wpid).Nodup := by
  induction ops generalizing d with
  | nil => simp [runFrom]
  | cons o os ih =>
    obtain ⟨ih1, ih2⟩ := ih (step d o).1
    simp only [runFrom]
    cases hs : (step d o).2 with
    | none =>
      refine ⟨?_, by simpa using ih2⟩
      intro a ha
      have h1 := ih1 a (by simpa using ha)
      have h2 := step_insts d o a.wpid.cls
      omega
    | some b =>
      have hb := step_addr d o b hs
      constructor
      · intro a ha
        simp only [Option.toList_some, List.singleton_append, List.mem_cons] at ha
        rcases ha with rfl | ha
        · omega
        · have h1 := ih1 a ha
          have h2 := step_insts d o a.wpid.cls
          omega
      · simp only [Option.toList_some, List.singleton_append, List.map_cons, List.nodup_cons]
        refine ⟨?_, ih2⟩
        intro hm
        obtain ⟨a, ha, hab⟩ := List.mem_map.1 hm
        have h1 := ih1 a ha
        rw [hab] at h1
        omega

theorem runFrom_inv {d : State} (h : Inv d) (ops : List Op) : Inv (runFrom d ops).1 := by
  induction ops generalizing d with
  | nil => exact h
  | cons o os ih => exact ih (step_inv h o)

/-! ### Delivery -/

theorem mapGet_enqueueTo (d : State) (id k : Wpid) (m : Msg) (w : Wp) (hw : mapGet k d.wps = some w) :
    mapGet k (enqueueTo d id m).wps =
      some (if k = id then { w with q := (WPQueue.enqueue w.q m d.tick false).1 } else w) := by
  unfold enqueueTo
  cases hid : mapGet id d.wps with
  | none =>
    have : k ≠ id := by rintro rfl; rw [hid] at hw; simp at hw
    simp [this, hw]
  | some w' =>
    simp only [mapGet_setQ]
    by_cases hk : k = id
    · subst hk
      rw [hid] at hw
      simp at hw
      subst hw
      simp [hid]
    · simp [hk, hw]

theorem enqueueTo_tick (d : State) (id : Wpid) (m : Msg) : (enqueueTo d id m).tick = d.tick := by
  unfold enqueueTo; split <;> rfl

theorem mapGet_deliver (rs : List Wpid) (d : State) (k : Wpid) (m : Msg) (w : Wp)
    (hw : mapGet k d.wps = some w) :
    mapGet k (rs.foldl (fun d id => enqueueTo d id m) d).wps =
      some { w with q := enqN m d.tick (rs.count k) w.q } := by
  induction rs generalizing d w with
  | nil => simpa [enqN] using hw
  | cons r rs ih =>
    simp only [List.foldl_cons]
    rw [ih _ _ (mapGet_enqueueTo d r k m w hw), enqueueTo_tick]
    by_cases hk : k = r
    · subst hk; simp [enqN]
    · have : r ≠ k := fun e => hk e.symm
      simp [hk, this]

/-! ### The dispatcher's repoll flag -/

/-- A WP needs polling. -/
def needs (w : Wp) : Prop := w.q.repoll = true ∧ w.q.queue ≠ []

/-- All WPs except possibly `ex` that need polling are announced by the dispatcher's flag. -/
def Ann (ex : Option Wpid) (d : State) : Prop :=
  ∀ k w, mapGet k d.wps = some w → some k ≠ ex → needs w → d.repoll = true

theorem enqueue_minus (q : Q) (m : Msg) (t : Nat) (hp : m.pri ≥ 0)
    (h : ¬ (WPQueue.enqueue q m t false).2 ≥ 0) :
    (WPQueue.enqueue q m t false).1.repoll = q.repoll ∧ q.queue ≠ [] := by
  unfold WPQueue.enqueue at *
  cases hq : q.queue with
  | nil => rw [hq] at h; simp at h; omega
  | cons f r =>
    rw [hq] at h
    simp only at h ⊢
    split
    · simp
    · rename_i h1
      rw [if_neg h1] at h
      split
      · rename_i h2
        rw [if_pos h2] at h
        simp at h; omega
      · rename_i h2
        rw [if_neg h2] at h
        split
        · rename_i h3; rw [if_pos h3] at h; simp at h; omega
        · simp

theorem enqueueTo_ann {ex : Option Wpid} {d : State} (h : Ann ex d) (id : Wpid) (m : Msg)
    (hp : m.pri ≥ 0) : Ann ex (enqueueTo d id m) := by
  intro k w hw hne hn
  unfold enqueueTo at *
  cases hid : mapGet id d.wps with
  | none => rw [hid] at hw; exact h k w hw hne hn
  | some w' =>
    rw [hid] at hw
    simp only [mapGet_setQ] at hw ⊢
    by_cases hk : k = id
    · subst hk
      rw [hid] at hw
      simp at hw
      subst hw
      by_cases h0 : (WPQueue.enqueue w'.q m d.tick false).2 ≥ 0
      · simp [h0]
      · obtain ⟨h1, h2⟩ := enqueue_minus _ _ _ hp h0
        have := h k w' hid hne ⟨by rw [← h1]; exact hn.1, h2⟩
        simp [this]
    · rw [if_neg hk] at hw
      have := h k w hw hne hn
      simp [this]

theorem effect_ann {id : Wpid} {d : State} (h : Ann (some id) d) (e : Effect) (hp : EffectNonneg e) :
    Ann (some id) (effect id d e) := by
  cases e with
  | post w m => exact enqueueTo_ann h w m hp
  | own o =>
    intro k w hw hne hn
    simp only [effect, mapGet_setQ] at hw ⊢
    have hk : k ≠ id := fun e => hne (by rw [e])
    rw [if_neg hk] at hw
    exact h k w hw hne hn

theorem foldl_ann {β : Type} {ex : Option Wpid} (f : State → β → State) (P : β → Prop)
    (hf : ∀ d b, Ann ex d → P b → Ann ex (f d b)) (l : List β) (hl : ∀ b ∈ l, P b) (d : State)
    (h : Ann ex d) : Ann ex (l.foldl f d) := by
  induction l generalizing d with
  | nil => exact h
  | cons b l ih =>
    exact ih (fun x hx => hl x (List.mem_cons_of_mem _ hx)) _ (hf d b h (hl b (by simp)))

theorem pollRound_ann (d : State) (hn : (d.wps.map Prod.fst).Nodup) (up : Bool) (eff : List Effect)
    (heff : ∀ e ∈ eff, EffectNonneg e) (kept : Bool) (res : Code) :
    Ann none (pollRound d up eff kept res) := by
  unfold pollRound
  simp only
  have hcount := selectLoop_count (d.tick + 1) d.wps (-1) none 0
  have hbest := selectLoop_best (d.tick + 1) d.wps (-1) none 0
  generalize selectLoop (d.tick + 1) d.wps (-1) none 0 = S at *
  -- two different WPs needing a poll are counted twice
  have htwo : ∀ k w k' w', mapGet k d.wps = some w → mapGet k' d.wps = some w' → k ≠ k' →
      needs w → needs w' → S.2 > 1 := by
    intro k w k' w' hk hk' hne hw hw'
    rw [hcount]
    have m1 := mapGet_some_mem hk
    have m2 := mapGet_some_mem hk'
    have s1 : (pollPriority w.q (d.tick + 1)).isSome = true := by
      obtain ⟨p, hp⟩ := (pollPriority_some_iff w.q (d.tick + 1)).2 hw; simp [hp]
    have s2 : (pollPriority w'.q (d.tick + 1)).isSome = true := by
      obtain ⟨p, hp⟩ := (pollPriority_some_iff w'.q (d.tick + 1)).2 hw'; simp [hp]
    have f1 : (k, w) ∈ d.wps.filter (fun p => (pollPriority p.2.q (d.tick + 1)).isSome) :=
      List.mem_filter.2 ⟨m1, s1⟩
    have f2 : (k', w') ∈ d.wps.filter (fun p => (pollPriority p.2.q (d.tick + 1)).isSome) :=
      List.mem_filter.2 ⟨m2, s2⟩
    simp only [needCount]
    generalize d.wps.filter (fun p => (pollPriority p.2.q (d.tick + 1)).isSome) = F at *
    match F, f1, f2 with
    | [], f1, _ => simp at f1
    | [x], f1, f2 =>
      simp only [List.mem_singleton] at f1 f2
      rw [← f2] at f1
      exact absurd (by simpa using congrArg Prod.fst f1) hne
    | _ :: _ :: _, _, _ => simp
  split
  · rename_i hS
    -- nobody needs polling
    rcases hbest with ⟨_, hb⟩ | ⟨x, p, y, pri, _, hb, _⟩
    · intro k w hw _ hnw
      obtain ⟨p, hp⟩ := (pollPriority_some_iff w.q (d.tick + 1)).2 hnw
      have := hb _ (mapGet_some_mem hw) p hp
      have := pollPriority_nonneg hp
      omega
    · rw [hb] at hS; simp at hS
  · rename_i id hS
    rcases hbest with ⟨hb, _⟩ | ⟨x, p, y, pri, hl, hb, hpri, _⟩
    · rw [hb] at hS; simp at hS
    · rw [hb] at hS
      simp at hS
      subst hS
      have hget : mapGet p.1 d.wps = some p.2 := mapGet_of_mem hn (by rw [hl]; simp)
      have hneedp : needs p.2 := (pollPriority_some_iff _ _).1 ⟨_, hpri⟩
      rw [hget]
      simp only
      split
      · rename_i hq; exact absurd hq hneedp.2
      · rename_i e rest hq
        have h2 : Ann (some p.1) ({ d with tick := d.tick + 1, repoll := decide (S.2 > 1), wps := setQ p.1 (fun q => ⟨q.queue, up⟩) d.wps }) := by
          intro k w hw hne hnw
          have hk : k ≠ p.1 := fun e => hne (by rw [e])
          simp only [mapGet_setQ, if_neg hk] at hw
          simp [htwo k w p.1 p.2 hw hget hk hnw hneedp]
        have h4 := foldl_ann (effect p.1) EffectNonneg (fun d b h hb => effect_ann h b hb) eff heff _ h2
        have h4same := foldl_same (effect p.1) (effect_same p.1) eff
          ({ d with tick := d.tick + 1, repoll := decide (S.2 > 1), wps := setQ p.1 (fun q => ⟨q.queue, up⟩) d.wps })
        generalize List.foldl (effect p.1) _ eff = d4 at *
        have hkeys : p.1 ∈ d4.wps.map Prod.fst := by
          rw [h4same.1]
          simp only [setQ_keys]
          exact List.mem_map.2 ⟨_, mapGet_some_mem hget, rfl⟩
        split
        · rename_i hno
          rw [mapGet_none, setQ_keys] at hno
          exact absurd hkeys hno
        · rename_i w' hw'
          intro k w hw _ hnw
          simp only at hw ⊢
          by_cases hk : k = p.1
          · subst hk
            rw [hw'] at hw
            simp at hw
            subst hw
            simp [hnw.1]
          · simp only [mapGet_setQ, if_neg hk] at hw
            have := h4 k w hw (by simpa using hk) hnw
            simp [this]

theorem step_ann {d : State} (hi : Inv d) (h : Ann none d) (o : Op) (ho : OpNonneg o) :
    Ann none (step d o).1 := by
  cases o with
  | attach cls =>
    intro k w hw hne hn
    simp only [step, attach, nextInst, mapGet_mapSet] at hw ⊢
    split at hw
    · simp at hw; subst hw; simp [needs, WPQueue.init] at hn
    · exact h k w hw hne hn
  | detach id =>
    simp only [step, detach]
    split
    · exact h
    · intro k w hw hne hn
      simp only [Option.getD_some] at hw ⊢
      have hm := mapGet_some_mem hw
      have := mapGet_of_mem hi.nodup (List.mem_filter.1 hm).1
      exact h k w this hne hn
  | forwarder id =>
    simp only [step, declareForwarder]
    split
    · exact h
    · exact h
  | setSubs id s =>
    intro k w hw hne hn
    simp only [step] at hw ⊢
    have hm := mapGet_some_mem hw
    obtain ⟨p, hp, he⟩ := List.mem_map.1 hm
    have hg : mapGet p.1 d.wps = some p.2 := mapGet_of_mem hi.nodup hp
    split at he
    · simp at he
      have hn' : needs p.2 := by rw [← he.2] at hn; exact hn
      exact h _ _ hg (by simp) hn'
    · rw [he] at hg
      exact h k w hg hne hn
  | send m sender dst fw =>
    exact foldl_ann (fun d id => enqueueTo d id m) (fun _ => True)
      (fun d b h _ => enqueueTo_ann h b m ho) _ (fun _ _ => trivial) d h
  | poll up eff kept res => exact pollRound_ann d hi.nodup up eff ho kept res

theorem runFrom_ann {d : State} (hi : Inv d) (h : Ann none d) (ops : List Op)
    (ho : ∀ o ∈ ops, OpNonneg o) : Ann none (runFrom d ops).1 := by
  induction ops generalizing d with
  | nil => exact h
  | cons o os ih =>
    exact ih (step_inv hi o) (step_ann hi h o (ho o (by simp)))
      (fun x hx => ho x (List.mem_cons_of_mem _ hx))

end Verif.Disp
