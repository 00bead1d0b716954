import Verif.Proof.Nursery
/-! # Properties of polling (C34, C35, C70) -/
namespace Verif.Nursery

/-! ## C34 -/

/-- Full statement: whatever orders are asked for, successfully or not, every child is polled exactly once. -/
def C34_full : Prop := ∀ (names : List (Option String)) (reqs : List (List String)),
  (orders names reqs).Perm (List.range names.length)

/-- An order that names an unknown child is rejected half-way: afterwards one child is polled twice and another not at
all. -/
theorem C34_refuted : ¬ C34_full := by
  intro h
  have h1 := h [some "a", some "b"] [["b", "x"]]
  have h2 : orders [some "a", some "b"] [["b", "x"]] = [1, 1] := by decide +kernel
  rw [h2] at h1
  have := h1.nodup_iff.2 (by decide : (List.range 2).Nodup)
  revert this
  decide

/-- **C34 (part).** After a request that succeeds, whatever happened before it, every child is polled exactly once: the
children named first, in the order asked for, then the others in their own order.  Missing: the order after a rejected
request, which is in general wrong. -/
theorem C34_after_success_partial (names : List (Option String)) (before : List (List String)) (order : List String)
    (h : (setChildPollOrder names order (orders names before)).2 = true) :
    (orders names (before ++ [order])).Perm (List.range names.length) ∧
      ∃ named, orders names (before ++ [order]) = named ++ (List.range names.length).filter (· ∉ named) ∧
        order.map (fun n => some (some n)) = named.map fun i => names[i]? := by
  have he : orders names (before ++ [order]) = (setChildPollOrder names order (orders names before)).1 := by
    unfold orders; rw [List.foldl_append]; rfl
  rw [he]
  obtain ⟨named, h1, h2, h3, h4⟩ := setOrder_ok names order (orders names before)
    (setChildPollOrder names order (orders names before)).1 (orders_length names before) (Prod.ext rfl h)
  refine ⟨?_, named, h1, ?_⟩
  · rw [h1, List.perm_ext_iff_of_nodup _ List.nodup_range]
    · intro a
      simp only [List.mem_append, List.mem_filter, List.mem_range, decide_eq_true_eq]
      constructor
      · rintro (h | h)
        · exact h3 a h
        · exact h.1
      · intro h
        by_cases ha : a ∈ named
        · exact Or.inl ha
        · exact Or.inr ⟨h, ha⟩
    · rw [List.nodup_append]
      refine ⟨h2, List.nodup_range.filter _, ?_⟩
      intro a ha b hb
      rintro rfl
      simp at hb
      exact hb.2 ha
  · clear h1 h2 h3 he h
    induction order generalizing named with
    | nil => cases named with
      | nil => rfl
      | cons _ _ => cases h4
    | cons o l ih =>
      cases named with
      | nil => cases h4
      | cons i m =>
        simp only [List.map_cons, List.cons.injEq] at h4 ⊢
        refine ⟨?_, ih m h4.2⟩
        have := (findChild_spec names o 0 i h4.1).2.2
        simpa using this.symm

/-- Until an order is asked for, children are polled in their own order; while all requests succeed every child is polled
exactly once. -/
theorem C34_all_succeed (names : List (Option String)) (reqs : List (List String))
    (h : ∀ k < reqs.length, (setChildPollOrder names (reqs.getD k []) (orders names (reqs.take k))).2 = true) :
    (orders names reqs).Perm (List.range names.length) := by
  rcases List.eq_nil_or_concat reqs with rfl | ⟨l, o, rfl⟩
  · exact List.Perm.refl _
  · rw [List.concat_eq_append] at h ⊢
    have := h l.length (by simp)
    have hg : (l ++ [o]).getD l.length [] = o := by simp
    rw [List.take_left, hg] at this
    exact (C34_after_success_partial names l o this).1

/-- A request with a duplicate or unknown name, or too many names, is rejected; any other succeeds. -/
theorem C34_succeeds_iff (names : List (Option String)) (order : List String) (po : List Nat) :
    (setChildPollOrder names order po).2 = true ↔
      order.length ≤ names.length ∧ ∃ named : List Nat, named.Nodup ∧ order.map (findChild names ·) = named.map some := by
  have key : ∀ (l : List String) (sp po : List Nat), ((orderLoop names l sp po).2.2 = true ↔
      ∃ new : List Nat, new.Nodup ∧ (∀ x ∈ new, x ∉ sp) ∧ l.map (findChild names ·) = new.map some) := by
    intro l
    induction l with
    | nil => intro sp po; simp only [orderLoop, List.map_nil, true_iff]; exact ⟨[], by simp, by simp, rfl⟩
    | cons n l ih =>
      intro sp po
      unfold orderLoop
      split
      · rename_i hn
        simp only [Bool.false_eq_true, false_iff]
        rintro ⟨new, _, _, h⟩
        cases new with
        | nil => cases h
        | cons x m => simp [hn] at h
      · rename_i i hi
        split
        · rename_i hs
          simp only [Bool.false_eq_true, false_iff]
          rintro ⟨new, _, h2, h⟩
          cases new with
          | nil => cases h
          | cons x m =>
            simp [hi] at h
            exact h2 x List.mem_cons_self (h.1 ▸ hs)
        · rename_i hs
          rw [ih]
          constructor
          · rintro ⟨new, h1, h2, h3⟩
            refine ⟨i :: new, ?_, ?_, by simp [hi, h3]⟩
            · rw [List.nodup_cons]
              refine ⟨fun hm => ?_, h1⟩
              have := h2 i hm
              simp at this
            · intro x hx
              rcases List.mem_cons.1 hx with rfl | hx
              · exact hs
              · have := h2 x hx
                simp at this
                exact this.1
          · rintro ⟨new, h1, h2, h3⟩
            cases new with
            | nil => cases h3
            | cons x m =>
              simp [hi] at h3
              obtain ⟨rfl, h3⟩ := h3
              rw [List.nodup_cons] at h1
              refine ⟨m, h1.2, ?_, by simpa using h3⟩
              intro y hy hc
              rcases List.mem_append.1 hc with hc | hc
              · exact h2 y (List.mem_cons_of_mem _ hy) hc
              · simp at hc; subst hc; exact h1.1 hy
  unfold setChildPollOrder
  split
  · rename_i hl
    simp only [Bool.false_eq_true, false_iff]
    rintro ⟨h, _⟩; omega
  · rename_i hl
    have := key order [] po
    simp only [List.not_mem_nil, not_false_iff, implies_true, true_and] at this
    rw [and_iff_right (by omega), ← this]
    generalize orderLoop names order [] po = r
    obtain ⟨sp, po1, b⟩ := r
    cases b with
    | false => simp
    | true => simp only; split <;> simp

example : orders [some "a", some "b", none, some "d"] [["d", "b"]] = [3, 1, 0, 2] ∧
    (setChildPollOrder [some "a", some "b", none, some "d"] ["d", "b"] [0, 1, 2, 3]).2 = true := by decide +kernel

/-! ## C35 -/

/-- **C35.** The single-threaded poll executes the enabled children in poll order, up to the first whose outcome ends the
poll (an abort, or a failure or missing data under the abandon policy), and no others. -/
theorem C35_polled {F} (order : List Nat) (enabled : Nat → Bool) (exe : Nat → Code × List F) (fp mp : Pol) (ab : Bool)
    (old : Nat → Code) :
    (syncPoll order enabled exe fp mp ab old).polled =
      through (fun i => endsPoll fp mp (exe i).1) (order.filter enabled) := by
  have h := (loop_spec enabled exe fp mp order ⟨old, Code.zero, [], []⟩).1
  unfold syncPoll
  simp only
  split <;> (show (loop enabled exe fp mp order _).polled = _; rw [h]; rfl)

/-- **C35.** The code returned is the or of the codes of the children executed, without the bits the policies ignore. -/
theorem C35_code {F} (order : List Nat) (enabled : Nat → Bool) (exe : Nat → Code × List F) (fp mp : Pol) (old : Nat → Code) :
    (syncPoll order enabled exe fp mp false old).code =
      masked fp mp (anyCode ((syncPoll order enabled exe fp mp false old).polled.map fun i => (exe i).1)) := by
  have h := (loop_spec enabled exe fp mp order ⟨old, Code.zero, [], []⟩).2.1
  rw [C35_polled]
  unfold syncPoll
  simp only [Bool.false_eq_true, if_false]
  rw [h, zero_or]

/-- What the bits mean. -/
theorem C35_code_bits (fp mp : Pol) (l : List Code) (i : Nat) :
    ((masked fp mp (anyCode l)).deps.testBit i = true ↔ ∃ c ∈ l, c.deps.testBit i = true) ∧
    ((masked fp mp (anyCode l)).fail = true ↔ fp ≠ .ignore ∧ ∃ c ∈ l, c.fail = true) ∧
    ((masked fp mp (anyCode l)).missing = true ↔ mp ≠ .ignore ∧ ∃ c ∈ l, c.missing = true) := by
  have h1 : (anyCode l).deps.testBit i = true ↔ ∃ c ∈ l, c.deps.testBit i = true := by
    induction l with
    | nil => simp [anyCode, Code.zero]
    | cons c l ih =>
      show (c.deps ||| (anyCode l).deps).testBit i = true ↔ _
      rw [Nat.testBit_or, Bool.or_eq_true, ih]; simp
  have h2 : (anyCode l).fail = true ↔ ∃ c ∈ l, c.fail = true := by
    clear h1
    induction l with
    | nil => simp [anyCode, Code.zero]
    | cons c l ih =>
      show (c.fail || (anyCode l).fail) = true ↔ _
      rw [Bool.or_eq_true, ih]; simp
  have h3 : (anyCode l).missing = true ↔ ∃ c ∈ l, c.missing = true := by
    clear h1 h2
    induction l with
    | nil => simp [anyCode, Code.zero]
    | cons c l ih =>
      show (c.missing || (anyCode l).missing) = true ↔ _
      rw [Bool.or_eq_true, ih]; simp
  refine ⟨h1, ?_, ?_⟩
  · show ((anyCode l).fail && decide (fp ≠ .ignore)) = true ↔ _
    rw [Bool.and_eq_true, h2, decide_eq_true_eq]; exact and_comm
  · show ((anyCode l).missing && decide (mp ≠ .ignore)) = true ↔ _
    rw [Bool.and_eq_true, h3, decide_eq_true_eq]; exact and_comm

/-- **C35.** Unless the policy is to ignore failures, the result made is the list of all failures of all failed children
executed, in poll order; if no child failed, or failures are ignored, no result is made. -/
theorem C35_fails {F} (order : List Nat) (enabled : Nat → Bool) (exe : Nat → Code × List F) (fp mp : Pol) (old : Nat → Code)
    (hab : ∀ i, (exe i).1.abort = false) :
    (syncPoll order enabled exe fp mp false old).result =
      if fp ≠ .ignore ∧ (∃ i ∈ (syncPoll order enabled exe fp mp false old).polled, (exe i).1.fail = true) then
        some (((syncPoll order enabled exe fp mp false old).polled.filter fun i => (exe i).1.fail).flatMap fun i => (exe i).2)
      else none := by
  have h := (loop_spec enabled exe fp mp order ⟨old, Code.zero, [], []⟩).2.2
  rw [C35_polled]
  generalize through (fun i => endsPoll fp mp (exe i).1) (order.filter enabled) = P at h ⊢
  have he : (P.filter fun i => (exe i).1.fail && !(exe i).1.abort) = P.filter fun i => (exe i).1.fail := by
    apply List.filter_congr
    intro i _
    simp [hab]
  rw [he] at h
  unfold syncPoll
  simp only [Bool.false_eq_true, if_false]
  rw [h]
  have hiff : ([] ++ (P.filter fun i => (exe i).1.fail).map fun i => (exe i).2) ≠ [] ↔ ∃ i ∈ P, (exe i).1.fail = true := by
    simp
  by_cases hc : fp ≠ .ignore ∧ ∃ i ∈ P, (exe i).1.fail = true
  · rw [if_pos hc, if_pos ⟨hc.1, hiff.2 hc.2⟩]
    simp [List.flatMap]
  · rw [if_neg hc, if_neg fun h => hc ⟨h.1, hiff.1 h.2⟩]

/-- **C35.** Afterwards the code recorded for each executed child is the one it returned. -/
theorem C35_retcodes {F} (order : List Nat) (hn : order.Nodup) (enabled : Nat → Bool) (exe : Nat → Code × List F)
    (fp mp : Pol) (ab : Bool) (old : Nat → Code) (i : Nat) (hi : i ∈ (syncPoll order enabled exe fp mp ab old).polled) :
    (syncPoll order enabled exe fp mp ab old).retcodes i = (exe i).1 := by
  rw [C35_polled] at hi
  have := loop_retcodes_polled enabled exe fp mp order hn ⟨old, Code.zero, [], []⟩ i hi
  unfold syncPoll
  simp only
  split <;> exact this

/-- No child is executed twice, and a disabled one never. -/
theorem C35_once {F} (order : List Nat) (hn : order.Nodup) (enabled : Nat → Bool) (exe : Nat → Code × List F)
    (fp mp : Pol) (ab : Bool) (old : Nat → Code) :
    (syncPoll order enabled exe fp mp ab old).polled.Nodup ∧
      ∀ i ∈ (syncPoll order enabled exe fp mp ab old).polled, enabled i = true ∧ i ∈ order := by
  rw [C35_polled]
  have hs := through_sublist (fun i => endsPoll fp mp (exe i).1) (order.filter enabled)
  refine ⟨(hn.filter _).sublist hs, fun i hi => ?_⟩
  have := hs.subset hi
  rw [List.mem_filter] at this
  exact ⟨this.2, this.1⟩

/-- Without abandon policies and aborts every enabled child is executed. -/
theorem C35_all {F} (order : List Nat) (enabled : Nat → Bool) (exe : Nat → Code × List F) (fp mp : Pol) (ab : Bool)
    (old : Nat → Code) (hf : fp ≠ .abandon) (hm : mp ≠ .abandon) (ha : ∀ i, (exe i).1.abort = false) :
    (syncPoll order enabled exe fp mp ab old).polled = order.filter enabled := by
  rw [C35_polled]
  generalize order.filter enabled = l
  induction l with
  | nil => rfl
  | cons i l ih =>
    unfold through
    rw [if_neg (by simp [endsPoll, ha, hf, hm]), ih]

/-- Three children, the second disabled, the third failing: both enabled ones are asked, the failure is reported. -/
example : (syncPoll [2, 1, 0] (fun i => decide (i ≠ 1))
      (fun i => if i = 2 then (⟨1, true, false, false⟩, ["bad"]) else (⟨2, false, false, false⟩, [])) .collect .collect false
      (fun _ => Code.zero)).polled = [2, 0] ∧
    (syncPoll [2, 1, 0] (fun i => decide (i ≠ 1))
      (fun i => if i = 2 then (⟨1, true, false, false⟩, ["bad"]) else (⟨2, false, false, false⟩, [])) .collect .collect false
      (fun _ => Code.zero)).result = some ["bad"] := by decide +kernel

/-! ## C70 -/

/-- Full statement: whatever the policies, a multithreaded poll never hangs. -/
def C70_full : Prop := ∀ (fp mp : Pol) (code : Nat → Code) (order : List Nat) (enabled : Nat → Bool) (s : MT),
  Reach fp mp code (mtStart order enabled) s → ¬ Stuck fp mp code s

/-- Under the abandon policy it can: both children are being computed by other threads and the parent is asleep when the
first of them fails; nobody wakes the parent, and the second result is ignored. -/
theorem C70_refuted : ¬ C70_full := by
  intro h
  let code : Nat → Code := fun i => if i = 0 then ⟨0, true, false, false⟩ else Code.zero
  let s : MT := ⟨2, 1, true, ⟨0, true, false, false⟩, [0], [0], [], [], .asleep⟩
  have h1 : Reach .abandon .collect code (mtStart [0, 1] fun _ => true) s := by
    refine Reach.step (.deliver 1) (Reach.step (.deliver 0) (Reach.step .check (Reach.step .take (Reach.step .take
      Reach.start rfl) rfl) rfl) rfl) ?_
    decide +kernel
  refine h _ _ _ _ _ s h1 ⟨by decide, fun e => ?_⟩
  cases e with
  | take => rfl
  | check => rfl
  | deliver i => simp [mtStep, s]

/-- **C70 (part).** When no child's outcome ends the poll early, then under every schedule of the worker threads the poll
never hangs.  Missing: polls that are ended early, which can hang. -/
theorem C70_never_hangs_partial (fp mp : Pol) (code : Nat → Code) (order : List Nat) (enabled : Nat → Bool)
    (hc : ∀ i, endsPoll fp mp (code i) = false) (s : MT) (h : Reach fp mp code (mtStart order enabled) s) :
    ¬ Stuck fp mp code s := by
  rintro ⟨h1, h2⟩
  have hs := inv_reach fp mp code order enabled hc s h
  cases hp : s.parent with
  | finished => exact h1 hp
  | checking =>
    have := h2 .check
    unfold mtStep at this
    simp only at this
    rw [if_pos hp] at this
    split at this <;> cases this
  | asleep =>
    have hlt := hs.asleep hp
    have hq : s.queue = [] := by
      have := h2 .take
      unfold mtStep at this
      simp only at this
      cases hh : s.queue with
      | nil => rfl
      | cons a l => rw [hh] at this; cases this
    have hr : s.running = [] := by
      cases hh : s.running with
      | nil => rfl
      | cons a l =>
        have := h2 (.deliver a)
        unfold mtStep at this
        simp only at this
        rw [if_pos (by rw [hh]; exact List.mem_cons_self)] at this
        cases this
    have := hs.parts.length_eq
    rw [hq, hr] at this
    simp only [List.append_nil] at this
    have h3 := hs.num
    have h4 := hs.cnt
    omega

/-- **C70.** Whatever the policies and the schedule, a poll of `n` children takes at most `4n + 2` events: nobody runs for
ever. -/
theorem C70_terminates (fp mp : Pol) (code : Nat → Code) (order : List Nat) (enabled : Nat → Bool) (evs : List Ev) (t : MT)
    (h : runEvs fp mp code (mtStart order enabled) evs = some t) : evs.length ≤ 4 * (order.filter enabled).length + 2 := by
  have key : ∀ (evs : List Ev) (s : MT), runEvs fp mp code s evs = some t → evs.length ≤ remaining s := by
    intro evs
    induction evs with
    | nil => intro s _; simp
    | cons e l ih =>
      intro s h
      unfold runEvs at h
      cases hh : mtStep fp mp code s e with
      | none => rw [hh] at h; cases h
      | some u =>
        rw [hh] at h
        have h1 := ih u h
        have h2 := remaining_lt fp mp code s u e hh
        simp only [List.length_cons]
        omega
  simpa [remaining, mtStart] using key evs _ h

/-- **C70.** When it ends, whatever the schedule, each enabled child has been computed exactly once, nothing is left
queued or running, the code is the or of all their codes and the failures are those of the failed children. -/
theorem C70_result (fp mp : Pol) (code : Nat → Code) (order : List Nat) (enabled : Nat → Bool)
    (hc : ∀ i, endsPoll fp mp (code i) = false) (s : MT) (h : Reach fp mp code (mtStart order enabled) s)
    (hf : s.parent = .finished) :
    s.got.Perm (order.filter enabled) ∧ s.queue = [] ∧ s.running = [] ∧
      s.cumul = anyCode ((order.filter enabled).map code) ∧
      s.fails.Perm ((order.filter enabled).filter fun i => (code i).fail) := by
  have hs := inv_reach fp mp code order enabled hc s h
  have h1 := hs.parts.length_eq
  have h2 := hs.fin hf
  have h3 := hs.num
  have h4 := hs.cnt
  simp only [List.length_append] at h1
  have hr : s.running = [] := List.eq_nil_of_length_eq_zero (by omega)
  have hq : s.queue = [] := List.eq_nil_of_length_eq_zero (by omega)
  have hp := hs.parts
  rw [hr, hq] at hp
  simp only [List.append_nil] at hp
  refine ⟨hp, hq, hr, ?_, ?_⟩
  · rw [hs.cum]
    have : ∀ {a b : List Code}, a.Perm b → anyCode a = anyCode b := by
      intro a b hab
      induction hab with
      | nil => rfl
      | cons x _ ih => show x.or _ = x.or _; rw [show List.foldr Code.or Code.zero _ = anyCode _ from rfl, ih]; rfl
      | swap x y l =>
        show y.or (x.or (anyCode l)) = x.or (y.or (anyCode l))
        simp only [Code.or]
        congr 1
        · rw [← Nat.or_assoc, ← Nat.or_assoc, Nat.or_comm y.deps]
        · rw [← Bool.or_assoc, ← Bool.or_assoc, Bool.or_comm y.fail]
        · rw [← Bool.or_assoc, ← Bool.or_assoc, Bool.or_comm y.missing]
        · rw [← Bool.or_assoc, ← Bool.or_assoc, Bool.or_comm y.abort]
      | trans _ _ ih1 ih2 => exact ih1.trans ih2
    exact this (hp.map code)
  · rw [hs.fl]
    exact hp.filter _

/-- **C70.** The multithreaded poll and the single-threaded one agree. -/
theorem C70_same_as_single {F} (fp mp : Pol) (exe : Nat → Code × List F) (order : List Nat) (enabled : Nat → Bool)
    (old : Nat → Code) (hf : fp ≠ .abandon) (hm : mp ≠ .abandon) (ha : ∀ i, (exe i).1.abort = false) (s : MT)
    (h : Reach fp mp (fun i => (exe i).1) (mtStart order enabled) s) (hfin : s.parent = .finished) :
    masked fp mp s.cumul = (syncPoll order enabled exe fp mp false old).code ∧
      s.got.Perm (syncPoll order enabled exe fp mp false old).polled := by
  have hc : ∀ i, endsPoll fp mp ((fun i => (exe i).1) i) = false := by
    intro i; simp [endsPoll, ha, hf, hm]
  obtain ⟨h1, _, _, h2, _⟩ := C70_result fp mp _ order enabled hc s h hfin
  rw [C35_code, C35_all order enabled exe fp mp false old hf hm ha, h2]
  exact ⟨rfl, h1⟩

/-- A poll of two children by two threads: the parent sleeps, both results arrive, the parent is woken and ends. -/
example : ∃ s, Reach .collect .collect (fun i => if i = 0 then ⟨1, true, false, false⟩ else ⟨2, false, false, false⟩)
    (mtStart [1, 0] fun _ => true) s ∧ s.parent = .finished ∧ s.got = [0, 1] ∧ s.fails = [0] := by
  refine ⟨_, Reach.step .check (Reach.step (.deliver 1) (Reach.step (.deliver 0) (Reach.step .check (Reach.step .take
    (Reach.step .take Reach.start rfl) rfl) rfl) rfl) rfl) rfl, ?_⟩
  decide +kernel

end Verif.Nursery
