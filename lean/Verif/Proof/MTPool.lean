import Verif.Spec.MTPool
import Mathlib.Data.List.Perm.Basic
import Mathlib.Data.List.Count
import Mathlib.Tactic.Common
/-! # Lemmas: properties of the worker pool (C36) -/
namespace Verif.MTPool

theorem bind_ok {α β : Type} {x : Res α} {f : α → Res β} {b : β} (h : x.bind f = .ok b) : ∃ a, x = .ok a ∧ f a = .ok b := by
  cases x with
  | ok a => exact ⟨a, rfl, h⟩
  | err => cases h
  | ub => cases h

theorem bind_ub {α β : Type} {x : Res α} {f : α → Res β} (h : x.bind f = .ub) : x = .ub ∨ ∃ a, x = .ok a ∧ f a = .ub := by
  cases x with
  | ok a => exact Or.inr ⟨a, rfl, h⟩
  | err => cases h
  | ub => exact Or.inl rfl

/-- What holds of a pool while nobody joins. -/
structure J (p : Pool) : Prop where
  cnt : ∀ d, p.nthr.getD d 0 = busyAt p d + (if d = 0 then 1 else 0)
  lim : ∀ d, p.nthr.getD d 0 ≤ p.maxBusy + 1
  room : ∀ w ∈ p.queue ++ p.running, w.depth < p.nthr.length
  idle : p.nidle = p.workers.count true

theorem push_ok {s s' : Pool} {i : Bool} (h : push s i = .ok s') : s' = { s with workers := s.workers ++ [i] } := by
  unfold push at h
  split at h
  · cases h
  · cases h; rfl

theorem push_ub {s : Pool} {i : Bool} (h : push s i = .ub) : 128 ≤ s.workers.length := by
  unfold push at h
  split at h
  · assumption
  · cases h

theorem awaken_ok {s s' : Pool} (h : awaken s = .ok s') :
    s'.queue = s.queue ∧ s'.nthr = s.nthr ∧ s'.running = s.running ∧ s'.maxBusy = s.maxBusy ∧
      (s.nidle = s.workers.count true → s'.nidle = s'.workers.count true) := by
  unfold awaken at h
  split at h
  · cases h; exact ⟨rfl, rfl, rfl, rfl, id⟩
  · split at h
    · cases h
    · split at h
      · cases h; exact ⟨rfl, rfl, rfl, rfl, id⟩
      · split at h
        · obtain ⟨a, ha, hb⟩ := bind_ok h
          cases hb
          rw [push_ok ha]
          refine ⟨rfl, rfl, rfl, rfl, fun hi => ?_⟩
          simp [List.count_append, hi]
        · cases h; exact ⟨rfl, rfl, rfl, rfl, id⟩

theorem awaken_ub {s : Pool} (hr : ∀ w ∈ s.queue, w.depth < s.nthr.length) (h : awaken s = .ub) : 128 ≤ s.workers.length := by
  unfold awaken at h
  split at h
  · cases h
  · rename_i w q hq
    have hw := hr w (by rw [hq]; exact List.mem_cons_self)
    split at h
    · rename_i hn
      rw [List.getElem?_eq_getElem hw] at hn
      cases hn
    · split at h
      · cases h
      · split at h
        · rcases bind_ub h with h | ⟨a, _, hb⟩
          · exact push_ub h
          · cases hb
        · cases h

theorem J_awaken {s s' : Pool} (hj : J s) (h : awaken s = .ok s') : J s' := by
  obtain ⟨h1, h2, h3, h4, h5⟩ := awaken_ok h
  refine ⟨fun d => ?_, fun d => ?_, ?_, h5 hj.idle⟩
  · rw [h2, hj.cnt]; unfold busyAt; rw [h3]
  · rw [h2, h4]; exact hj.lim d
  · rw [h1, h3, h2]; exact hj.room

theorem resize_getD (l : List Nat) (n d : Nat) (h : l.length ≤ n) : (resize l n).getD d 0 = l.getD d 0 := by
  unfold resize
  rw [List.take_of_length_le h]
  simp only [List.getD_eq_getElem?_getD]
  by_cases hd : d < l.length
  · rw [List.getElem?_append_left hd]
  · rw [List.getElem?_append_right (by omega), List.getElem?_eq_none (by omega : l.length ≤ d), List.getElem?_replicate]
    split <;> rfl

theorem resize_length (l : List Nat) (n : Nat) (h : l.length ≤ n) : (resize l n).length = n := by
  unfold resize
  simp
  omega

theorem J_place {s : Pool} (hj : J s) (w : WO) : J (place s w) := by
  have hg : ∀ d, (place s w).nthr.getD d 0 = s.nthr.getD d 0 := by
    intro d
    unfold place
    simp only
    split
    · exact resize_getD _ _ _ (by omega)
    · rfl
  have hl : s.nthr.length ≤ (place s w).nthr.length ∧ w.depth < (place s w).nthr.length := by
    unfold place
    simp only
    split
    · rw [resize_length _ _ (by omega)]; omega
    · omega
  refine ⟨fun d => ?_, fun d => ?_, ?_, hj.idle⟩
  · rw [hg, hj.cnt]; rfl
  · rw [hg]; exact hj.lim d
  · intro v hv
    rcases List.mem_append.1 hv with h | h
    · rcases List.mem_cons.1 h with rfl | h
      · exact hl.2
      · exact Nat.lt_of_lt_of_le (hj.room v (List.mem_append_left _ h)) hl.1
    · exact Nat.lt_of_lt_of_le (hj.room v (List.mem_append_right _ h)) hl.1

theorem count_set_true (l : List Bool) (t : Nat) (h : l[t]? = some false) : (l.set t true).count true = l.count true + 1 := by
  induction l generalizing t with
  | nil => cases h
  | cons a l ih =>
    cases t with
    | zero => simp at h; subst h; simp
    | succ t =>
      simp only [List.set_cons_succ, List.count_cons]
      rw [ih t (by simpa using h)]
      omega

theorem count_set_false (l : List Bool) (t : Nat) (h : l[t]? = some true) : (l.set t false).count true + 1 = l.count true := by
  induction l generalizing t with
  | nil => cases h
  | cons a l ih =>
    cases t with
    | zero => simp at h; subst h; simp
    | succ t =>
      simp only [List.set_cons_succ, List.count_cons]
      have := ih t (by simpa using h)
      omega

theorem J_toIdle {s : Pool} (hj : J s) (t : Nat) (h : s.workers[t]? = some false) : J (toIdle s t) :=
  ⟨hj.cnt, hj.lim, hj.room, by show s.nidle + 1 = _; rw [hj.idle]; exact (count_set_true _ _ h).symm⟩

theorem J_toBusy {s : Pool} (hj : J s) (t : Nat) (h : s.workers[t]? = some true) : J (toBusy s t) :=
  ⟨hj.cnt, hj.lim, hj.room, by
    show s.nidle - 1 = (s.workers.set t false).count true
    have := count_set_false _ _ h
    rw [hj.idle]; omega⟩

theorem J_take {s s' : Pool} {w : WO} {q : List WO} {n : Nat} {o : Option WO} (hj : J s) (hq : s.queue = w :: q)
    (hn : s.nthr[w.depth]? = some n) (hm : n ≤ s.maxBusy) (h : take s w q n = .ok (s', o)) :
    J s' ∧ s'.queue = q ∧ s'.running = s.running ++ [w] ∧ o = some w := by
  unfold take at h
  obtain ⟨a, ha, hb⟩ := bind_ok h
  cases hb
  have hlt : w.depth < s.nthr.length := hj.room w (by rw [hq]; simp)
  have hgn : s.nthr.getD w.depth 0 = n := by simp [List.getD_eq_getElem?_getD, hn]
  have hg : ∀ d, (s.nthr.set w.depth (n + 1)).getD d 0 = s.nthr.getD d 0 + (if w.depth = d then 1 else 0) := by
    intro d
    simp only [List.getD_eq_getElem?_getD] at hgn ⊢
    by_cases hd : w.depth = d
    · subst hd
      rw [List.getElem?_set_self hlt, if_pos rfl, hgn]
      rfl
    · rw [List.getElem?_set_ne hd, if_neg hd]
      rfl
  have hJ : J { s with queue := q, nthr := s.nthr.set w.depth (n + 1), running := s.running ++ [w] } := by
    refine ⟨fun d => ?_, fun d => ?_, ?_, hj.idle⟩
    · show (s.nthr.set w.depth (n + 1)).getD d 0 = _
      rw [hg, hj.cnt]
      unfold busyAt
      simp only [List.filter_append, List.length_append]
      by_cases hd : w.depth = d <;> simp [hd]
      omega
    · show (s.nthr.set w.depth (n + 1)).getD d 0 ≤ s.maxBusy + 1
      rw [hg]
      split
      · rename_i hd; subst hd; omega
      · have := hj.lim d; omega
    · intro v hv
      show v.depth < (s.nthr.set w.depth (n + 1)).length
      rw [List.length_set]
      apply hj.room v
      rw [hq]
      simp only [List.mem_append, List.mem_cons, List.not_mem_nil, or_false] at hv ⊢
      tauto
  obtain ⟨h1, h2, h3, h4, _⟩ := awaken_ok ha
  exact ⟨J_awaken hJ ha, h1, h3, rfl⟩

theorem take_ub {s : Pool} {w : WO} {q : List WO} {n : Nat} (hj : J s) (hq : s.queue = w :: q) (h : take s w q n = .ub) :
    128 ≤ s.workers.length := by
  unfold take at h
  rcases bind_ub h with h | ⟨a, _, hb⟩
  · refine awaken_ub (s := { s with queue := q, nthr := s.nthr.set w.depth (n + 1), running := s.running ++ [w] }) ?_ h
    intro v hv
    show v.depth < (s.nthr.set w.depth (n + 1)).length
    rw [List.length_set]
    exact hj.room v (by rw [hq]; exact List.mem_append_left _ (List.mem_cons_of_mem _ hv))
  · cases hb

theorem J_get {s s' : Pool} {t : Nat} {wait : Bool} {m : Nat} {o : Option WO} (hj : J s) (h : get s t wait m = .ok (s', o)) :
    J s' ∧ ((o = none ∧ s'.queue = s.queue ∧ s'.running = s.running) ∨
      ∃ w, o = some w ∧ s.queue = w :: s'.queue ∧ s'.running = s.running ++ [w] ∧ m ≤ w.depth) := by
  unfold get at h
  split at h
  · cases h; exact ⟨hj, Or.inl ⟨rfl, rfl, rfl⟩⟩
  rename_i idle hidle
  split at h
  · cases h
    rename_i hq
    cases wait with
    | false => exact ⟨hj, Or.inl ⟨rfl, rfl, rfl⟩⟩
    | true =>
      cases idle with
      | true => exact ⟨hj, Or.inl ⟨rfl, rfl, rfl⟩⟩
      | false => exact ⟨J_toIdle hj t hidle, Or.inl ⟨rfl, rfl, rfl⟩⟩
  rename_i w q hq
  split at h
  · cases h; exact ⟨hj, Or.inl ⟨rfl, rfl, rfl⟩⟩
  rename_i hmin
  split at h
  · cases h
  rename_i n hn
  cases idle with
  | true =>
    simp only [if_true] at h
    split at h
    · cases h; exact ⟨hj, Or.inl ⟨rfl, rfl, rfl⟩⟩
    · rename_i hb
      obtain ⟨h1, h2, h3, h4⟩ := J_take (J_toBusy hj t hidle) hq hn (by show n ≤ s.maxBusy; omega) h
      exact ⟨h1, Or.inr ⟨w, h4, by rw [hq, h2], h3, by omega⟩⟩
  | false =>
    simp only [Bool.false_eq_true, if_false] at h
    split at h
    · cases h
      cases wait with
      | true => exact ⟨J_toIdle hj t hidle, Or.inl ⟨rfl, rfl, rfl⟩⟩
      | false => exact ⟨hj, Or.inl ⟨rfl, rfl, rfl⟩⟩
    · rename_i hb
      obtain ⟨h1, h2, h3, h4⟩ := J_take hj hq hn (by omega) h
      exact ⟨h1, Or.inr ⟨w, h4, by rw [hq, h2], h3, by omega⟩⟩

theorem get_ub {s : Pool} {t : Nat} {wait : Bool} {m : Nat} (hj : J s) (h : get s t wait m = .ub) : 128 ≤ s.workers.length := by
  unfold get at h
  split at h
  · cases h
  rename_i idle hidle
  split at h
  · cases h
  rename_i w q hq
  split at h
  · cases h
  split at h
  · rename_i hn
    rw [List.getElem?_eq_getElem (hj.room w (by rw [hq]; simp))] at hn
    cases hn
  rename_i n hn
  cases idle with
  | true =>
    simp only [if_true] at h
    split at h
    · cases h
    · have := take_ub (J_toBusy hj t hidle) hq h
      simpa [toBusy] using this
  | false =>
    simp only [Bool.false_eq_true, if_false] at h
    split at h
    · cases h
    · exact take_ub hj hq h

theorem J_finish {s s' : Pool} {w : WO} (hj : J s) (h : finish s w = .ok s') : J s' ∧ s'.queue = s.queue := by
  unfold finish at h
  split at h
  · rename_i hw
    split at h
    · cases h
    · rename_i n hn
      cases h
      have hlt : w.depth < s.nthr.length := hj.room w (List.mem_append_right _ hw)
      have hgn : s.nthr.getD w.depth 0 = n := by simp [List.getD_eq_getElem?_getD, hn]
      have hb : ∀ d, busyAt s d = ((s.running.erase w).filter fun v => decide (v.depth = d)).length +
          (if w.depth = d then 1 else 0) := by
        intro d
        have := ((List.perm_cons_erase hw).filter fun v => decide (v.depth = d)).length_eq
        unfold busyAt
        rw [this, List.filter_cons]
        by_cases hd : w.depth = d <;> simp [hd]
      have hg : ∀ d, (s.nthr.set w.depth (n - 1)).getD d 0 = s.nthr.getD d 0 - (if w.depth = d then 1 else 0) := by
        intro d
        simp only [List.getD_eq_getElem?_getD] at hgn ⊢
        by_cases hd : w.depth = d
        · subst hd
          rw [List.getElem?_set_self hlt, if_pos rfl, hgn]
          rfl
        · rw [List.getElem?_set_ne hd, if_neg hd]
          rfl
      refine ⟨⟨fun d => ?_, fun d => ?_, ?_, hj.idle⟩, rfl⟩
      · show (s.nthr.set w.depth (n - 1)).getD d 0 = _
        rw [hg, hj.cnt, hb d]
        unfold busyAt
        simp only
        split <;> omega
      · show (s.nthr.set w.depth (n - 1)).getD d 0 ≤ s.maxBusy + 1
        rw [hg]
        have := hj.lim d
        omega
      · intro v hv
        show v.depth < (s.nthr.set w.depth (n - 1)).length
        rw [List.length_set]
        apply hj.room v
        rcases List.mem_append.1 hv with h | h
        · exact List.mem_append_left _ h
        · exact List.mem_append_right _ (List.mem_of_mem_erase h)
  · cases h; exact ⟨hj, rfl⟩

theorem finish_ub {s : Pool} {w : WO} (hj : J s) : finish s w ≠ .ub := by
  unfold finish
  split
  · rename_i hw
    have := hj.room w (List.mem_append_right _ hw)
    rw [List.getElem?_eq_getElem this]
    simp
  · simp

theorem J_clear {s : Pool} (hj : J s) (c : Nat) : J (clear s c).1 :=
  ⟨hj.cnt, hj.lim, fun v hv => hj.room v (by
    rcases List.mem_append.1 hv with h | h
    · exact List.mem_append_left _ (List.mem_filter.1 h).1
    · exact List.mem_append_right _ h), hj.idle⟩

theorem pushN_ok : ∀ (n : Nat) (s s' : Pool), pushN n s = .ok s' →
    s' = { s with workers := s.workers ++ List.replicate n true } := by
  intro n
  induction n with
  | zero => intro s s' h; cases h; simp
  | succ n ih =>
    intro s s' h
    obtain ⟨a, ha, hb⟩ := bind_ok h
    rw [ih a s' hb, push_ok ha]
    simp [List.replicate_succ]

theorem J_start {nwork maxBusy : Nat} {r : Run} (h : start nwork maxBusy = .ok r) :
    J r.pool ∧ r.handed = [] ∧ r.cancelled = [] ∧ r.pool.queue = [] ∧ r.pool.running = [] ∧ r.pool.maxBusy = maxBusy := by
  obtain ⟨p, hp, h⟩ := bind_ok h
  obtain ⟨p', hp', h⟩ := bind_ok h
  cases h
  have h1 := pushN_ok _ _ _ hp
  obtain ⟨p2, hp2, h2⟩ := bind_ok hp'
  have h3 := push_ok hp2
  subst h3
  subst h1
  simp only [Bool.false_eq_true, if_false] at h2
  have hl : (if 0 ≤ (List.replicate 100 0 : List Nat).length then resize (List.replicate 100 0) (0 + 100) else List.replicate 100 0)
      = List.replicate 100 0 := by decide
  rw [hl] at h2
  have hz : (List.replicate 100 0 : List Nat)[0]? = some 0 := by decide
  rw [hz] at h2
  simp only at h2
  cases h2
  have hg : ∀ d, ((List.replicate 100 0).set 0 (0 + 1) : List Nat).getD d 0 = if d = 0 then 1 else 0 := by
    intro d
    rw [List.getD_eq_getElem?_getD]
    cases d with
    | zero => rfl
    | succ d =>
      rw [List.getElem?_set_ne (by omega), List.getElem?_replicate]
      split <;> rfl
  refine ⟨⟨fun d => ?_, fun d => ?_, ?_, ?_⟩, rfl, rfl, rfl, rfl, rfl⟩
  · show ((List.replicate 100 0).set 0 (0 + 1) : List Nat).getD d 0 = _
    rw [hg]; simp [busyAt]
  · show ((List.replicate 100 0).set 0 (0 + 1) : List Nat).getD d 0 ≤ maxBusy + 1
    rw [hg]; split <;> omega
  · intro w hw; simp at hw
  · simp [List.count_append]

/-- What holds along a history without further joins. -/
structure K (r0 : Run) (done : List Op) (r : Run) : Prop where
  j : J r.pool
  mb : r.pool.maxBusy = r0.pool.maxBusy
  all : (r.pool.queue ++ (r.handed ++ r.cancelled)).Perm (placed done)
  sub : r.pool.queue.Sublist (placed done).reverse

theorem placed_append (a b : List Op) : placed (a ++ b) = placed a ++ placed b := List.filterMap_append

theorem K_step {r0 r r' : Run} {done : List Op} {op : Op} (hk : K r0 done r) (hop : ∀ i d, op ≠ .join i d)
    (h : step r op = .ok r') : K r0 (done ++ [op]) r' := by
  cases op with
  | place w =>
    cases h
    refine ⟨J_place hk.j w, hk.mb, ?_, ?_⟩
    · rw [placed_append]
      show ((w :: r.pool.queue) ++ _).Perm (_ ++ [w])
      exact List.Perm.trans (List.Perm.cons w hk.all) (List.perm_append_comm (l₁ := [w]))
    · rw [placed_append, List.reverse_append]
      exact List.Sublist.cons_cons w hk.sub
  | awaken =>
    obtain ⟨p, hp, h⟩ := bind_ok h
    cases h
    obtain ⟨h1, _, _, h4, _⟩ := awaken_ok hp
    refine ⟨J_awaken hk.j hp, h4.trans hk.mb, ?_, ?_⟩
    · rw [placed_append]
      show (p.queue ++ _).Perm (_ ++ [])
      rw [h1, List.append_nil]; exact hk.all
    · rw [placed_append]
      show p.queue.Sublist (_ ++ []).reverse
      rw [h1, List.append_nil]; exact hk.sub
  | get t wait m =>
    obtain ⟨⟨p, o⟩, hp, h⟩ := bind_ok h
    cases h
    obtain ⟨hj, hor⟩ := J_get hk.j hp
    have hmb : p.maxBusy = r.pool.maxBusy := by
      clear hor hj
      unfold get at hp
      have htake : ∀ (s : Pool) w q n, take s w q n = .ok (p, o) → p.maxBusy = s.maxBusy := by
        intro s w q n hh
        obtain ⟨a, ha, hb⟩ := bind_ok hh
        cases hb
        exact (awaken_ok ha).2.2.2.1
      split at hp
      · cases hp; rfl
      split at hp
      · cases hp; split <;> rfl
      split at hp
      · cases hp; rfl
      split at hp
      · cases hp
      split at hp
      · split at hp
        · cases hp; rfl
        · exact (htake _ _ _ _ hp : p.maxBusy = (toBusy r.pool t).maxBusy)
      split at hp
      · cases hp; split <;> rfl
      · exact htake _ _ _ _ hp
    have hpl : placed (done ++ [Op.get t wait m]) = placed done := by rw [placed_append]; exact List.append_nil _
    refine ⟨hj, hmb.trans hk.mb, ?_, ?_⟩
    · rw [hpl]
      rcases hor with ⟨h1, h2, _⟩ | ⟨w, h1, h2, _, _⟩
      · subst h1
        show (p.queue ++ ((r.handed ++ []) ++ r.cancelled)).Perm _
        rw [h2, List.append_nil]; exact hk.all
      · subst h1
        show (p.queue ++ ((r.handed ++ [w]) ++ r.cancelled)).Perm _
        refine List.Perm.trans ?_ hk.all
        rw [h2]
        simp only [List.append_assoc, List.cons_append, List.nil_append]
        exact (List.Perm.append_left _ List.perm_middle).trans List.perm_middle
    · rw [hpl]
      rcases hor with ⟨_, h2, _⟩ | ⟨w, _, h2, _, _⟩
      · show p.queue.Sublist _; rw [h2]; exact hk.sub
      · have := hk.sub
        rw [h2] at this
        exact (List.sublist_cons_self w p.queue).trans this
  | finish w =>
    obtain ⟨p, hp, h⟩ := bind_ok h
    cases h
    obtain ⟨h1, h2⟩ := J_finish hk.j hp
    have hmb : p.maxBusy = r.pool.maxBusy := by
      unfold finish at hp
      split at hp
      · split at hp
        · cases hp
        · cases hp; rfl
      · cases hp; rfl
    have hpl : placed (done ++ [Op.finish w]) = placed done := by rw [placed_append]; exact List.append_nil _
    exact ⟨h1, hmb.trans hk.mb, by rw [hpl]; show (p.queue ++ _).Perm _; rw [h2]; exact hk.all, by
      rw [hpl]; show p.queue.Sublist _; rw [h2]; exact hk.sub⟩
  | clear c =>
    cases h
    have hpl : placed (done ++ [Op.clear c]) = placed done := by rw [placed_append]; exact List.append_nil _
    refine ⟨J_clear hk.j c, hk.mb, ?_, ?_⟩
    · rw [hpl]
      refine List.Perm.trans ?_ hk.all
      show (r.pool.queue.filter (fun w => decide (w.client ≠ some c)) ++ (r.handed ++ (r.cancelled ++
        r.pool.queue.filter fun w => decide (w.client = some c)))).Perm _
      have hsplit : (r.pool.queue.filter (fun w => decide (w.client = some c)) ++
          r.pool.queue.filter fun w => decide (w.client ≠ some c)).Perm r.pool.queue := by
        have := List.filter_append_perm (fun w : WO => decide (w.client = some c)) r.pool.queue
        refine List.Perm.trans (List.Perm.of_eq ?_) this
        congr 1
        apply List.filter_congr
        intro x _
        simp
      refine List.Perm.trans ?_ (List.Perm.append_right (r.handed ++ r.cancelled) hsplit)
      generalize r.pool.queue.filter (fun w => decide (w.client ≠ some c)) = A
      generalize r.pool.queue.filter (fun w => decide (w.client = some c)) = B
      rw [List.append_assoc, ← List.append_assoc r.handed, ← List.append_assoc A]
      exact List.perm_append_comm
    · rw [hpl]; exact List.filter_sublist.trans hk.sub
  | join i d => exact absurd rfl (hop i d)

theorem K_run (r0 : Run) : ∀ (ops done : List Op) (r r' : Run), K r0 done r → NoJoin ops → runFrom r ops = .ok r' →
    K r0 (done ++ ops) r' := by
  intro ops
  induction ops with
  | nil => intro done r r' hk _ h; cases h; rw [List.append_nil]; exact hk
  | cons op l ih =>
    intro done r r' hk hn h
    obtain ⟨r1, h1, h2⟩ := bind_ok h
    have := ih (done ++ [op]) r1 r' (K_step hk (fun i d he => hn i d (by rw [he]; exact List.mem_cons_self)) h1)
      (fun i d hm => hn i d (List.mem_cons_of_mem _ hm)) h2
    rw [List.append_assoc] at this
    exact this

theorem K_start {nwork maxBusy : Nat} {r : Run} (h : start nwork maxBusy = .ok r) : K r [] r := by
  obtain ⟨h1, h2, h3, h4, _⟩ := J_start h
  exact ⟨h1, rfl, by rw [h2, h3, h4]; exact List.Perm.refl _, by rw [h4]; exact List.nil_sublist _⟩

theorem K_all {nwork maxBusy : Nat} {r0 r : Run} (h0 : start nwork maxBusy = .ok r0) (ops : List Op) (hn : NoJoin ops)
    (h : runFrom r0 ops = .ok r) : K r0 ops r := by
  have := K_run r0 ops [] r0 r (K_start h0) hn h
  simpa using this

end Verif.MTPool
