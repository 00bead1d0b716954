import Verif.Spec.Nursery
import Mathlib.Data.List.Perm.Basic
import Mathlib.Data.List.Nodup
import Mathlib.Data.List.Range
import Mathlib.Tactic.Common
/-! # Lemmas: properties of polling (C34, C35, C70) -/
namespace Verif.Nursery

theorem findChild_spec (names : List (Option String)) (name : String) (i k : Nat) (h : findChild names name i = some k) :
    i ≤ k ∧ k - i < names.length ∧ names[k - i]? = some (some name) := by
  induction names generalizing i with
  | nil => cases h
  | cons x l ih =>
    cases x with
    | none =>
      obtain ⟨h1, h2, h3⟩ := ih (i + 1) h
      refine ⟨by omega, by simp; omega, ?_⟩
      rw [show k - i = (k - (i + 1)) + 1 by omega]
      simpa using h3
    | some n =>
      unfold findChild at h
      split at h
      · rename_i hn
        cases h
        simp [hn]
      · obtain ⟨h1, h2, h3⟩ := ih (i + 1) h
        refine ⟨by omega, by simp; omega, ?_⟩
        rw [show k - i = (k - (i + 1)) + 1 by omega]
        simpa using h3

theorem orderLoop_spec (names : List (Option String)) (l : List String) : ∀ (sp po : List Nat),
    sp.Nodup → (∀ i ∈ sp, i < names.length) → po.length = names.length → sp.length + l.length ≤ names.length →
    po.take sp.length = sp →
    (orderLoop names l sp po).2.1.length = names.length ∧
    ((orderLoop names l sp po).2.2 = true →
      (orderLoop names l sp po).1.Nodup ∧ (∀ i ∈ (orderLoop names l sp po).1, i < names.length) ∧
      (orderLoop names l sp po).2.1.take (orderLoop names l sp po).1.length = (orderLoop names l sp po).1 ∧
      ∃ new, (orderLoop names l sp po).1 = sp ++ new ∧ l.map (findChild names ·) = new.map some) := by
  induction l with
  | nil => intro sp po h1 h2 h3 h4 h5; exact ⟨h3, fun _ => ⟨h1, h2, h5, [], by simp [orderLoop], rfl⟩⟩
  | cons n l ih =>
    intro sp po h1 h2 h3 h4 h5
    unfold orderLoop
    split
    · exact ⟨h3, fun h => by cases h⟩
    · rename_i i hi
      split
      · exact ⟨h3, fun h => by cases h⟩
      · rename_i hns
        have hlt : i < names.length := by
          have := (findChild_spec names n 0 i hi).2.1
          omega
        simp only [List.length_cons] at h4
        have := ih (sp ++ [i]) (po.set sp.length i) ?_ ?_ ?_ ?_ ?_
        · refine ⟨this.1, fun h => ?_⟩
          obtain ⟨a, b, c, new, d, e⟩ := this.2 h
          exact ⟨a, b, c, i :: new, by rw [d]; simp, by simp [hi, e]⟩
        · rw [List.nodup_append]
          exact ⟨h1, by simp, by intro a ha b hb; simp at hb; subst hb; rintro rfl; exact hns ha⟩
        · intro j hj
          rcases List.mem_append.1 hj with hj | hj
          · exact h2 j hj
          · simp at hj; omega
        · simp [h3]
        · simp; omega
        · simp only [List.length_append, List.length_cons, List.length_nil]
          rw [List.take_add_one, List.take_set_of_le (Nat.le_refl _), h5, List.getElem?_set_self (by omega)]
          rfl

theorem fillLoop_spec (sp : List Nat) (n : Nat) : ∀ (i nord : Nat) (po : List Nat),
    nord + ((List.range' i n).filter (· ∉ sp)).length ≤ po.length →
    fillLoop sp n i nord po = po.take nord ++ (List.range' i n).filter (· ∉ sp) ++
      po.drop (nord + ((List.range' i n).filter (· ∉ sp)).length) := by
  induction n with
  | zero => intro i nord po _; simp [fillLoop]
  | succ n ih =>
    intro i nord po h
    unfold fillLoop
    rw [List.range'_succ] at h ⊢
    split
    · rename_i hi
      rw [List.filter_cons_of_neg (by simp [hi])] at h ⊢
      exact ih (i + 1) nord po h
    · rename_i hi
      rw [List.filter_cons_of_pos (by simp [hi])] at h ⊢
      simp only [List.length_cons] at h ⊢
      rw [ih (i + 1) (nord + 1) (po.set nord i) (by rw [List.length_set]; omega)]
      rw [List.take_add_one, List.take_set_of_le (Nat.le_refl _), List.getElem?_set_self (by omega),
        List.drop_set_of_lt (by omega)]
      simp only [Option.toList_some, List.append_assoc, List.cons_append, List.nil_append]
      have hk : ∀ c : Nat, nord + 1 + c = nord + (c + 1) := fun c => by omega
      rw [hk]

theorem filter_mem_length (sp : List Nat) (n : Nat) (h1 : sp.Nodup) (h2 : ∀ i ∈ sp, i < n) :
    ((List.range n).filter (· ∉ sp)).length + sp.length = n := by
  have hp : ((List.range n).filter (· ∈ sp)).Perm sp := by
    rw [List.perm_ext_iff_of_nodup (List.nodup_range.filter _) h1]
    intro a
    simp only [List.mem_filter, List.mem_range, decide_eq_true_eq]
    exact ⟨fun h => h.2, fun h => ⟨h2 a h, h⟩⟩
  have e := List.length_eq_length_filter_add (l := List.range n) (fun x => decide (x ∈ sp))
  rw [List.length_range, hp.length_eq] at e
  have : ((List.range n).filter fun x => !decide (x ∈ sp)) = (List.range n).filter (· ∉ sp) := by
    apply List.filter_congr
    intro x _
    simp
  rw [this] at e
  omega

theorem setOrder_ok (names : List (Option String)) (order : List String) (po po' : List Nat) (hlen : po.length = names.length)
    (h : setChildPollOrder names order po = (po', true)) :
    ∃ named, po' = named ++ (List.range names.length).filter (· ∉ named) ∧ named.Nodup ∧ (∀ i ∈ named, i < names.length) ∧
      order.map (findChild names ·) = named.map some := by
  unfold setChildPollOrder at h
  split at h
  · cases h
  rename_i hl
  have hs := orderLoop_spec names order [] po List.nodup_nil (by simp) hlen (by simp; omega) (by simp)
  generalize orderLoop names order [] po = r at h hs
  obtain ⟨sp, po1, b⟩ := r
  cases b with
  | false => cases h
  | true =>
    obtain ⟨h1, h2⟩ := hs
    obtain ⟨a, b, c, new, d, e⟩ := h2 rfl
    simp only at a b c d h1 h
    simp only [List.nil_append] at d
    subst d
    refine ⟨sp, ?_, a, b, e⟩
    have hcount := filter_mem_length sp names.length a b
    split at h
    · cases h
      rw [List.range_eq_range'] at hcount ⊢
      rw [fillLoop_spec sp names.length 0 sp.length po1 (by omega), c, List.drop_of_length_le (by omega), List.append_nil]
    · cases h
      have : ((List.range names.length).filter (· ∉ sp)) = [] := List.eq_nil_of_length_eq_zero (by omega)
      rw [this, List.append_nil]
      rw [← c, List.take_of_length_le (by omega)]

theorem setOrder_length (names : List (Option String)) (order : List String) (po : List Nat) (hlen : po.length = names.length) :
    (setChildPollOrder names order po).1.length = names.length := by
  unfold setChildPollOrder
  split
  · exact hlen
  rename_i hl
  have hs := orderLoop_spec names order [] po List.nodup_nil (by simp) hlen (by simp; omega) (by simp)
  generalize orderLoop names order [] po = r at hs
  obtain ⟨sp, po1, b⟩ := r
  have hfill : ∀ n i k (l : List Nat), (fillLoop sp n i k l).length = l.length := by
    intro n
    induction n with
    | zero => intros; rfl
    | succ n ih => intro i k l; unfold fillLoop; split <;> simp [ih]
  cases b with
  | false => exact hs.1
  | true =>
    simp only
    split
    · rw [hfill]; exact hs.1
    · exact hs.1

theorem orders_length (names : List (Option String)) (reqs : List (List String)) :
    (orders names reqs).length = names.length := by
  unfold orders
  have : ∀ (l : List (List String)) po, po.length = names.length →
      (l.foldl (fun po o => (setChildPollOrder names o po).1) po).length = names.length := by
    intro l
    induction l with
    | nil => exact fun po h => h
    | cons o l ih => exact fun po h => ih _ (setOrder_length names o po h)
  exact this reqs _ (by simp [defaultOrder])

theorem anyCode_append (a b : List Code) : anyCode (a ++ b) = (anyCode a).or (anyCode b) := by
  induction a with
  | nil => simp [anyCode, Code.or, Code.zero]
  | cons x l ih =>
    show x.or (anyCode (l ++ b)) = (x.or (anyCode l)).or (anyCode b)
    rw [ih]
    simp [Code.or, Nat.or_assoc, Bool.or_assoc]

theorem or_zero (c : Code) : c.or Code.zero = c := by simp [Code.or, Code.zero]

theorem zero_or (c : Code) : Code.zero.or c = c := by simp [Code.or, Code.zero]

theorem loop_spec {F} (enabled : Nat → Bool) (exe : Nat → Code × List F) (fp mp : Pol) (l : List Nat) : ∀ a : Acc F,
    (loop enabled exe fp mp l a).polled = a.polled ++ through (fun i => endsPoll fp mp (exe i).1) (l.filter enabled) ∧
    (loop enabled exe fp mp l a).cumul = a.cumul.or (anyCode
      ((through (fun i => endsPoll fp mp (exe i).1) (l.filter enabled)).map fun i => (exe i).1)) ∧
    (loop enabled exe fp mp l a).fails = a.fails ++
      ((through (fun i => endsPoll fp mp (exe i).1) (l.filter enabled)).filter fun i =>
        (exe i).1.fail && !(exe i).1.abort).map fun i => (exe i).2 := by
  induction l with
  | nil => intro a; simp [loop, through, anyCode, or_zero]
  | cons i l ih =>
    intro a
    unfold loop
    by_cases hen : enabled i = true
    · rw [if_pos hen, List.filter_cons_of_pos hen]
      unfold through
      have hstep : ∀ b : Acc F, endsPoll fp mp (exe i).1 = false → b.polled = a.polled ++ [i] →
          b.cumul = a.cumul.or (exe i).1 →
          b.fails = a.fails ++ (if (exe i).1.fail && !(exe i).1.abort then [(exe i).2] else []) →
          (loop enabled exe fp mp l b).polled = a.polled ++ (if endsPoll fp mp (exe i).1 then [i] else
            i :: through (fun i => endsPoll fp mp (exe i).1) (l.filter enabled)) ∧
          (loop enabled exe fp mp l b).cumul = a.cumul.or (anyCode ((if endsPoll fp mp (exe i).1 then [i] else
            i :: through (fun i => endsPoll fp mp (exe i).1) (l.filter enabled)).map fun i => (exe i).1)) ∧
          (loop enabled exe fp mp l b).fails = a.fails ++ ((if endsPoll fp mp (exe i).1 then [i] else
            i :: through (fun i => endsPoll fp mp (exe i).1) (l.filter enabled)).filter fun i =>
              (exe i).1.fail && !(exe i).1.abort).map fun i => (exe i).2 := by
        intro b he h1 h2 h3
        obtain ⟨g1, g2, g3⟩ := ih b
        rw [g1, g2, g3, h1, h2, h3, he]
        simp only [Bool.false_eq_true, if_false]
        refine ⟨by simp, ?_, ?_⟩
        · simp only [List.map_cons]
          show _ = a.cumul.or ((exe i).1.or (anyCode _))
          simp [Code.or, Nat.or_assoc, Bool.or_assoc]
        · rw [List.filter_cons]
          split <;> simp
      have hend : ∀ b : Acc F, endsPoll fp mp (exe i).1 = true → b.polled = a.polled ++ [i] →
          b.cumul = a.cumul.or (exe i).1 →
          b.fails = a.fails ++ (if (exe i).1.fail && !(exe i).1.abort then [(exe i).2] else []) →
          b.polled = a.polled ++ (if endsPoll fp mp (exe i).1 then [i] else
            i :: through (fun i => endsPoll fp mp (exe i).1) (l.filter enabled)) ∧
          b.cumul = a.cumul.or (anyCode ((if endsPoll fp mp (exe i).1 then [i] else
            i :: through (fun i => endsPoll fp mp (exe i).1) (l.filter enabled)).map fun i => (exe i).1)) ∧
          b.fails = a.fails ++ ((if endsPoll fp mp (exe i).1 then [i] else
            i :: through (fun i => endsPoll fp mp (exe i).1) (l.filter enabled)).filter fun i =>
              (exe i).1.fail && !(exe i).1.abort).map fun i => (exe i).2 := by
        intro b he h1 h2 h3
        rw [he, h1, h2, h3]
        simp only [if_true]
        refine ⟨trivial, ?_, ?_⟩
        · simp [anyCode, or_zero]
        · rw [List.filter_cons]
          split <;> simp
      simp only
      split
      · rename_i hab
        exact hend _ (by simp [endsPoll, hab]) rfl rfl (by simp [hab])
      · rename_i hab
        split
        · rename_i hf
          split
          · rename_i hp
            exact hend _ (by simp [endsPoll, hf, hp]) rfl rfl (by simp [hf, hab])
          · rename_i hp
            exact hstep _ (by simp [endsPoll, hab, hf, hp]) rfl rfl (by simp [hf, hab])
        · rename_i hf
          split
          · rename_i hm
            split
            · rename_i hp
              exact hend _ (by simp [endsPoll, hf, hm, hp]) rfl rfl (by simp [hf])
            · rename_i hp
              exact hstep _ (by simp [endsPoll, hab, hf, hm, hp]) rfl rfl (by simp [hf])
          · rename_i hm
            exact hstep _ (by simp [endsPoll, hab, hf, hm]) rfl rfl (by simp [hf])
    · rw [if_neg hen, List.filter_cons_of_neg hen]
      exact ih _

theorem loop_retcodes {F} (enabled : Nat → Bool) (exe : Nat → Code × List F) (fp mp : Pol) (l : List Nat) : ∀ (a : Acc F) (i : Nat),
    i ∉ l → (loop enabled exe fp mp l a).retcodes i = a.retcodes i := by
  induction l with
  | nil => intros; rfl
  | cons j l ih =>
    intro a i hi
    have hne : i ≠ j := fun h => hi (h ▸ List.mem_cons_self)
    have hl : i ∉ l := fun h => hi (List.mem_cons_of_mem _ h)
    unfold loop
    split
    · simp only
      split
      · simp [hne]
      split
      · split
        · simp [hne]
        · rw [ih _ i hl]; simp [hne]
      split
      · split
        · simp [hne]
        · rw [ih _ i hl]; simp [hne]
      · rw [ih _ i hl]; simp [hne]
    · rw [ih _ i hl]; simp [hne]

theorem loop_retcodes_polled {F} (enabled : Nat → Bool) (exe : Nat → Code × List F) (fp mp : Pol) (l : List Nat) :
    l.Nodup → ∀ (a : Acc F) (i : Nat), i ∈ through (fun i => endsPoll fp mp (exe i).1) (l.filter enabled) →
      (loop enabled exe fp mp l a).retcodes i = (exe i).1 := by
  induction l with
  | nil => intro _ a i hi; simp [through] at hi
  | cons j l ih =>
    intro hnd a i hi
    rw [List.nodup_cons] at hnd
    by_cases hen : enabled j = true
    · rw [List.filter_cons_of_pos hen] at hi
      unfold through at hi
      unfold loop
      rw [if_pos hen]
      by_cases he : endsPoll fp mp (exe j).1 = true
      · rw [if_pos he] at hi
        simp only [List.mem_singleton] at hi
        subst hi
        simp only
        split
        · simp
        rename_i hab
        split
        · rename_i hf
          split
          · simp
          · rename_i hp
            simp [endsPoll, hab, hf, hp] at he
        rename_i hf
        split
        · rename_i hm
          split
          · simp
          · rename_i hp
            simp [endsPoll, hab, hf, hm, hp] at he
        · rename_i hm
          simp [endsPoll, hab, hf, hm] at he
      · rw [if_neg he] at hi
        have key : ∀ b : Acc F, (∀ k, b.retcodes k = if k = j then (exe j).1 else a.retcodes k) →
            (loop enabled exe fp mp l b).retcodes i = (exe i).1 := by
          intro b hb
          rcases List.mem_cons.1 hi with rfl | hi
          · rw [loop_retcodes _ _ _ _ _ _ _ hnd.1, hb]; simp
          · exact ih hnd.2 b i hi
        have hab : (exe j).1.abort = false := by
          cases hh : (exe j).1.abort with
          | false => rfl
          | true => exact absurd (by simp [endsPoll, hh]) he
        simp only
        rw [if_neg (by simp [hab])]
        split
        · rename_i hf
          split
          · rename_i hp
            exact absurd (by simp [endsPoll, hf, hp]) he
          · exact key _ (fun _ => rfl)
        rename_i hf
        split
        · rename_i hm
          split
          · rename_i hp
            exact absurd (by simp [endsPoll, hf, hm, hp]) he
          · exact key _ (fun _ => rfl)
        · exact key _ (fun _ => rfl)
    · rw [List.filter_cons_of_neg hen] at hi
      unfold loop
      rw [if_neg hen]
      exact ih hnd.2 _ i hi

theorem through_sublist {α : Type} (p : α → Bool) (l : List α) : (through p l).Sublist l := by
  induction l with
  | nil => exact List.Sublist.refl _
  | cons a l ih =>
    unfold through
    split
    · exact List.Sublist.cons_cons a (List.nil_sublist l)
    · exact List.Sublist.cons_cons a ih

/-- What holds at every moment of a multithreaded poll when nothing ends it early. -/
structure Inv (code : Nat → Code) (children : List Nat) (s : MT) : Prop where
  parts : (s.got ++ (s.running ++ s.queue)).Perm children
  num : s.num = children.length
  cnt : s.retcount = s.got.length
  cum : s.cumul = anyCode (s.got.map code)
  fl : s.fails = s.got.filter fun i => (code i).fail
  ab : s.abandon = false
  asleep : s.parent = .asleep → s.retcount < s.num
  fin : s.parent = .finished → s.num ≤ s.retcount

theorem inv_step (fp mp : Pol) (code : Nat → Code) (children : List Nat) (hc : ∀ i, endsPoll fp mp (code i) = false)
    (s t : MT) (e : Ev) (hs : Inv code children s) (h : mtStep fp mp code s e = some t) : Inv code children t := by
  cases e with
  | take =>
    unfold mtStep at h
    simp only at h
    split at h
    · cases h
    · rename_i i q hq
      cases h
      refine ⟨?_, hs.num, hs.cnt, hs.cum, hs.fl, hs.ab, hs.asleep, hs.fin⟩
      have := hs.parts
      rw [hq] at this
      simpa using this
  | check =>
    unfold mtStep at h
    simp only at h
    split at h
    · rename_i hp
      split at h
      · rename_i hl
        cases h
        exact ⟨hs.parts, hs.num, hs.cnt, hs.cum, hs.fl, hs.ab, fun _ => hl.1, (fun hf => by cases hf)⟩
      · rename_i hl
        cases h
        refine ⟨hs.parts, hs.num, hs.cnt, hs.cum, hs.fl, hs.ab, (fun hf => by cases hf), fun _ => ?_⟩
        have h1 := hs.ab
        simp only [h1, and_true] at hl
        show s.num ≤ s.retcount
        omega
    · cases h
  | deliver i =>
    unfold mtStep at h
    simp only at h
    split at h
    · rename_i hi
      have hci := hc i
      simp only [endsPoll, Bool.or_eq_false_iff] at hci
      have hab : (if (code i).fail then decide (fp = .abandon) else if (code i).missing then decide (mp = .abandon) else
          (code i).abort) = false := by
        obtain ⟨⟨h1, h2⟩, h3⟩ := hci
        cases hf : (code i).fail <;> cases hm : (code i).missing <;> simp_all
      have ha := hs.ab
      unfold deliver at h
      simp only [ha, hab, Bool.false_eq_true, if_false] at h
      have hparts : ((s.got ++ [i]) ++ (s.running.erase i ++ s.queue)).Perm children := by
        refine List.Perm.trans ?_ hs.parts
        rw [List.append_assoc]
        refine List.Perm.append_left _ ?_
        rw [← List.append_assoc]
        exact List.Perm.append_right _ (List.perm_cons_erase hi).symm
      have hcum : s.cumul.or (code i) = anyCode ((s.got ++ [i]).map code) := by
        rw [List.map_append, anyCode_append, hs.cum]
        simp [anyCode, or_zero]
      have hfl : (if (code i).fail then s.fails ++ [i] else s.fails) = (s.got ++ [i]).filter fun i => (code i).fail := by
        rw [List.filter_append, hs.fl]
        cases hf : (code i).fail <;> simp [hf]
      have hcnt : s.retcount + 1 = (s.got ++ [i]).length := by rw [hs.cnt]; simp
      split at h
      · rename_i hw
        simp only [Option.some.injEq] at h
        rw [if_neg (by simp)] at h
        subst h
        exact ⟨hparts, hs.num, hcnt, hcum, hfl, rfl, (fun hf => by cases hf), (fun hf => by cases hf)⟩
      · rename_i hw
        simp only [Option.some.injEq] at h
        rw [if_neg (by simp)] at h
        subst h
        refine ⟨hparts, hs.num, hcnt, hcum, hfl, rfl, fun hf => ?_, fun hf => ?_⟩
        · show s.retcount + 1 < s.num
          have : s.parent = .asleep := hf
          by_cases hh : s.num ≤ s.retcount + 1
          · exact absurd ⟨hh, this⟩ hw
          · omega
        · have := hs.fin hf
          show s.num ≤ s.retcount + 1
          omega
    · cases h

theorem inv_reach (fp mp : Pol) (code : Nat → Code) (order : List Nat) (enabled : Nat → Bool)
    (hc : ∀ i, endsPoll fp mp (code i) = false) (s : MT) (h : Reach fp mp code (mtStart order enabled) s) :
    Inv code (order.filter enabled) s := by
  induction h with
  | start => exact ⟨by simp [mtStart], rfl, rfl, rfl, rfl, rfl, (fun h => by cases h), (fun h => by cases h)⟩
  | step e _ he ih => exact inv_step fp mp code _ hc _ _ e ih he

/-- A measure each event decreases: a wake-up of the parent is paid for by the delivery. -/
def remaining (s : MT) : Nat :=
  4 * s.queue.length + 3 * s.running.length + (match s.parent with | .checking => 2 | .asleep => 1 | .finished => 0)

theorem remaining_lt (fp mp : Pol) (code : Nat → Code) (s t : MT) (e : Ev) (h : mtStep fp mp code s e = some t) :
    remaining t < remaining s := by
  cases e with
  | take =>
    unfold mtStep at h
    simp only at h
    split at h
    · cases h
    · rename_i i q hq
      cases h
      simp only [remaining, hq, List.length_append, List.length_cons, List.length_nil]
      omega
  | check =>
    unfold mtStep at h
    simp only at h
    split at h
    · rename_i hp
      split at h <;> cases h <;> simp only [remaining, hp] <;> omega
    · cases h
  | deliver i =>
    unfold mtStep at h
    simp only at h
    split at h
    · rename_i hi
      have hl : (s.running.erase i).length + 1 = s.running.length := by
        rw [List.length_erase_of_mem hi]
        have := List.length_pos_of_mem hi
        omega
      cases h
      have key : ∀ u : MT, u.queue.length ≤ s.queue.length → u.running = s.running.erase i →
          (u.parent = s.parent ∨ u.parent = .checking) → remaining u < remaining s := by
        intro u h1 h2 h3
        unfold remaining
        rw [h2]
        rcases h3 with h3 | h3
        · rw [h3]; omega
        · rw [h3]
          cases s.parent <;> simp only <;> omega
      unfold deliver
      simp only
      split
      · exact key _ (Nat.le_refl _) rfl (Or.inl rfl)
      · generalize (if (code i).fail then decide (fp = .abandon) else if (code i).missing then decide (mp = .abandon) else
          (code i).abort) = ab
        generalize (if (code i).fail then s.fails ++ [i] else s.fails) = fl
        split
        · split
          · exact key _ (by simp) rfl (Or.inr rfl)
          · exact key _ (Nat.le_refl _) rfl (Or.inr rfl)
        · split
          · exact key _ (by simp) rfl (Or.inl rfl)
          · exact key _ (Nat.le_refl _) rfl (Or.inl rfl)
    · cases h

end Verif.Nursery
