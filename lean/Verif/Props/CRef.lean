import Verif.Proof.CRef
/-!
# Properties of counted references (C08, C09, C10)
-/
namespace Verif.CRef
open CRefSpec

/-- **C08** (all but leaks).  In every reachable state the reported reference count of a target is the
number of references pointing at it, references only point at existing targets, no target is deleted
twice, targets that were deleted were owned by references and have none left. -/
theorem C08_no_dangling {s : State} (h : Reach s) :
    (∀ t o, s.objs[t]? = some o →
      o.count = (pointing s t : Int) ∧
      o.frees = (if o.alive then 0 else 1) ∧
      (o.alive = false → o.anon = true ∧ pointing s t = 0)) ∧
    (∀ (r : Nat) x t, s.refs[r]? = some x → x.tgt = some t →
      ∃ o, s.objs[t]? = some o ∧ o.alive = true) := by
  have hi := reach_inv h
  refine ⟨fun t o ho => ⟨hi.cnt t o ho, ?_, ?_⟩, hi.tgt⟩
  · cases ha : o.alive with
    | true => simp [(hi.dead t o ho).1 ha]
    | false => simp [((hi.dead t o ho).2 ha).1]
  · intro ha
    refine ⟨((hi.dead t o ho).2 ha).2, ?_⟩
    by_contra hne
    have : 0 < pointing s t := by omega
    unfold pointing at this
    rw [List.countP_pos_iff] at this
    obtain ⟨z, hz, hzt⟩ := this
    obtain ⟨q, hq⟩ := List.getElem?_of_mem hz
    obtain ⟨o', ho', ha'⟩ := hi.tgt q z t hq (by simpa using hzt)
    rw [ho] at ho'; simp at ho'; subst ho'
    rw [ha] at ha'; simp at ha'

/-- **C08.** No valid call on a reachable state is undefined behaviour. -/
theorem C08_no_undefined {s : State} (h : Reach s) (op : Op) (hv : Valid s op) : step s op ≠ none := by
  obtain ⟨s', ok, e, _⟩ := step_spec (reach_inv h) op hv
  simp [e]

/-- Full C08 asks, in addition, that an owned target exists only while some reference points at it. -/
def C08_full : Prop :=
  ∀ s, Reach s → ∀ t o, s.objs[t]? = some o → o.anon = true → (o.alive = true ↔ 0 < pointing s t)

/-- **C08, partial**: the full statement holds as long as no call deep-copies and no reference is made
read-only after it was attached. -/
theorem C08_owned_lifetime_partial {s : State} (h : ReachPlain s) :
    ∀ t o, s.objs[t]? = some o → o.anon = true → (o.alive = true ↔ 0 < pointing s t) := by
  obtain ⟨hi, hn⟩ := reachPlain_inv h
  intro t o ho hb
  constructor
  · intro ha; have h1 := hn.own t o ho ha hb; have h2 := hi.cnt t o ho; omega
  · intro hp
    unfold pointing at hp
    rw [List.countP_pos_iff] at hp
    obtain ⟨z, hz, hzt⟩ := hp
    obtain ⟨q, hq⟩ := List.getElem?_of_mem hz
    obtain ⟨o', ho', ha'⟩ := hi.tgt q z t hq (by simpa using hzt)
    rw [ho] at ho'; simp at ho'; subst ho'
    exact ha'

/-- A history in which a sole owning reference is deep-privatized. -/
def leakHistory : List Op := [.newObj 7, .newRef, .attach 0 0 {}, .privatize 0 { deep := true }]

theorem reach_run (ops : List Op) (s s' : State) (h : Reach s)
    (hv : ∀ pre op post s1, ops = pre ++ op :: post → run pre s = some s1 → Valid s1 op)
    (hr : run ops s = some s') : Reach s' := by
  induction ops generalizing s with
  | nil => simp [run] at hr; subst hr; exact h
  | cons o os ih =>
    simp only [run] at hr
    cases he : step s o with
    | none => simp [he] at hr
    | some p =>
      obtain ⟨s1, ok⟩ := p
      simp only [he] at hr
      refine ih s1 (Reach.step h (hv [] o os s rfl rfl) he) ?_ hr
      intro pre op post s2 hpre hrun
      exact hv (o :: pre) op post s2 (by simp [hpre]) (by simp [run, he, hrun])

theorem leak_reach : Reach ⟨[⟨some 1, false, true, false⟩], [⟨0, true, true, 0, 7⟩, ⟨1, true, true, 0, 7⟩]⟩ := by
  have h1 : Reach ⟨[], [fresh 7]⟩ := Reach.step (o := .newObj 7) Reach.init trivial rfl
  have h2 : Reach ⟨[empty], [fresh 7]⟩ := Reach.step (o := .newRef) h1 trivial rfl
  have h3 : Reach ⟨[⟨some 0, false, true, false⟩], [⟨1, true, true, 0, 7⟩]⟩ :=
    Reach.step (o := .attach 0 0 {}) (ok := true) h2 (by simp [Valid, fresh]) (by decide)
  exact Reach.step (o := .privatize 0 { deep := true }) (ok := true) h3 (by simp [Valid]) (by decide)

/-- **C08 is false of the code** in general: `privatize` with `DEEP` on the sole reference to an owned
target replaces the target and never deletes the old one (CountedRefBase.cc:73-79 decrements the count
without the check `detach` makes). -/
theorem C08_privatize_leaks : ¬ C08_full := by
  intro h
  have := (h _ leak_reach 0 ⟨0, true, true, 0, 7⟩ rfl rfl).1 rfl
  simp [pointing] at this

/-- **C09.** No call is visible through a reference it is not about, except that writing through a
reference attached as `SHARED` shows through the other references to the same target. -/
theorem C09_isolation {s s' : State} {op : Op} {ok : Bool} (h : Reach s) (hv : Valid s op)
    (he : step s op = some (s', ok)) (q : Nat) (hq : q < s.refs.length) (hab : ¬ About op q)
    (hsh : ∀ r v x z, op = .write r v → s.refs[r]? = some x → x.shared = true →
      s.refs[q]? = some z → z.tgt ≠ x.tgt) :
    read s' q = read s q := by
  obtain ⟨s1, ok1, e, _, _, rd⟩ := step_spec (reach_inv h) op hv
  rw [he] at e; simp at e; obtain ⟨rfl, rfl⟩ := e
  exact rd q hq hab hsh

/-- **C09.** Writing through a valid reference is visible through it; writing through an invalid one
fails and changes nothing. -/
theorem C09_write_visible {s s' : State} {r v : Nat} {ok : Bool} (h : Reach s)
    (he : step s (.write r v) = some (s', ok)) (x : Ref) (hx : s.refs[r]? = some x) :
    (x.tgt ≠ none → ok = true ∧ read s' r = some v) ∧ (x.tgt = none → ok = false ∧ s' = s) := by
  obtain ⟨s1, ok1, e, _, _, h1, h2, _⟩ := write_spec (reach_inv h) hx v
  simp only [step] at he
  rw [he] at e; simp at e; obtain ⟨rfl, rfl⟩ := e
  exact ⟨h2, fun ht => ⟨(h1 ht).2, (h1 ht).1⟩⟩

/-- **C09.** A copied reference reads the same as its source, unless the copy was refused. -/
theorem C09_copy_reads_same {s s' : State} {r o : Nat} {f : Flags} (h : Reach s)
    (hr : r < s.refs.length) (ho : o < s.refs.length) (hne : o ≠ r) (hd : f.deep = false)
    (he : step s (.copy r o f) = some (s', true)) :
    read s' r = read s o := by
  have hi := reach_inv h
  obtain ⟨x, hx⟩ : ∃ x, s.refs[r]? = some x := ⟨_, List.getElem?_eq_getElem hr⟩
  obtain ⟨y, hy⟩ : ∃ y, s.refs[o]? = some y := ⟨_, List.getElem?_eq_getElem ho⟩
  simp only [step, copy, if_neg hne] at he
  rcases detach_post hi hx with ⟨_, _, hdt⟩ | ⟨s1, hdt, p, _⟩
  · rw [hdt] at he; simp at he
  · rw [hdt] at he
    simp only at he
    have hy1 : s1.refs[o]? = some y := by rw [p.2.1.refs o hne]; exact hy
    have hl1 : r < s1.refs.length := by rw [p.2.1.len]; exact hr
    have hrd : read s1 o = read s o := p.2.1.read hi hne
    rw [← hrd]
    rw [hy1] at he
    simp only at he
    cases ht : y.tgt with
    | none =>
      rw [ht] at he; simp at he; subst he
      simp [read, setRef, hl1, empty, hy1, ht]
    | some t =>
      obtain ⟨ob, hob, hal⟩ := p.1.tgt o y t hy1 ht
      have htl : t < s1.objs.length := (List.getElem?_eq_some_iff.1 hob).1
      rw [ht] at he; simp [hob, hal, hd] at he; subst he
      simp [read, setRef, setObj, hl1, hy1, ht, htl]
      rw [(List.getElem?_eq_some_iff.1 hob).2]

/-- **C09.** A reference is `SHARED` only if it was so before, or the call asked for it, or it was copied
or transferred from a `SHARED` one. -/
theorem C09_shared_only_on_request {s s' : State} {op : Op} {ok : Bool} (he : step s op = some (s', ok))
    (q : Nat) (x' : Ref) (hx' : s'.refs[q]? = some x') (hs : x'.shared = true) :
    (∃ x, s.refs[q]? = some x ∧ x.shared = true) ∨ (∃ f, FlagsFor op q f ∧ f.shared = true) ∨
    (∃ o y, SourceFor op q o ∧ s.refs[o]? = some y ∧ y.shared = true) :=
  shared_prov he q x' hx' hs

/-- **C10.** A reference is locked exactly as the calls say: `lock`/`unlock` set it, `attach`, `copy` and
`xfer` lock the reference iff `LOCKED` is given, `change` and `privatize` lock on `LOCKED`, unlock on
`UNLOCKED`. -/
theorem C10_lock_flag {s s' : State} {op : Op} (he : step s op = some (s', true)) :
    (∀ r l, op = .lock r l → ∃ x, s'.refs[r]? = some x ∧ x.locked = l) ∧
    (∀ r t f x, op = .attach r t f → s.refs[r]? = some x → x.tgt ≠ some t →
      ∃ x', s'.refs[r]? = some x' ∧ x'.locked = f.locked) ∧
    (∀ r o f y t, (op = .copy r o f ∨ op = .xfer r o f) → o ≠ r → s.refs[o]? = some y → y.tgt = some t →
      f.deep = false → r < s.refs.length → ∃ x', s'.refs[r]? = some x' ∧ x'.locked = f.locked) ∧
    (∀ r f, (op = .change r f ∨ op = .privatize r f) → ∃ x', s'.refs[r]? = some x' ∧
      (f.locked = true → x'.locked = true) ∧
      (f.locked = false → f.unlocked = true → x'.locked = false)) :=
  lock_flag he

/-- **C10** (destination).  If `r` is locked and attached, every request to detach it, to move it to
another target, to make it a copy of another reference or to transfer another reference into it fails
and changes nothing. -/
theorem C10_locked_destination {s : State} {r : Nat} {x : Ref} {t : Nat} (h : Reach s)
    (hx : s.refs[r]? = some x) (ht : x.tgt = some t) (hl : x.locked = true) (op : Op) (hv : Valid s op)
    (hop : op = .detach r ∨ (∃ t' f, op = .attach r t' f ∧ t' ≠ t) ∨
      (∃ o f, o ≠ r ∧ (op = .copy r o f ∨ op = .xfer r o f))) :
    step s op = some (s, false) := by
  have _ := h
  have hd : detach s r = some (s, false) := by simp [detach, hx, ht, hl]
  rcases hop with rfl | ⟨t', f, rfl, hne⟩ | ⟨o, f, hne, rfl | rfl⟩
  · exact hd
  · obtain ⟨_, o, ho, hal⟩ := hv
    simp [step, attach, hx, ht, Ne.symm hne, ho, hal, hd]
  · simp [step, copy, hne, hd]
  · simp [step, xfer, hne, hd]

/-- Full C10 asks the same of transfers *out of* a locked reference. -/
def C10_full_source : Prop :=
  ∀ s r o f x t, Reach s → r < s.refs.length → s.refs[o]? = some x → x.tgt = some t → x.locked = true →
    o ≠ r → step s (.xfer r o f) = some (s, false)

/-- **C10, partial** (source): transferring out of a locked reference into an unattached one fails and
changes nothing; in any case it fails and the locked reference stays as it was. -/
theorem C10_locked_source_partial {s : State} {r o : Nat} {f : Flags} {x : Ref} {t : Nat} (h : Reach s)
    (hr : r < s.refs.length) (hx : s.refs[o]? = some x) (ht : x.tgt = some t) (hl : x.locked = true)
    (hne : o ≠ r) :
    ∃ s', step s (.xfer r o f) = some (s', false) ∧ s'.refs[o]? = some x ∧
      (∀ y, s.refs[r]? = some y → y.tgt = none → s' = s) := by
  have hi := reach_inv h
  obtain ⟨y, hy⟩ : ∃ y, s.refs[r]? = some y := ⟨_, List.getElem?_eq_getElem hr⟩
  simp only [step, xfer, if_neg hne]
  rcases detach_post hi hy with ⟨_, _, hdt⟩ | ⟨s1, hdt, p, _⟩
  · rw [hdt]; exact ⟨s, rfl, hx, fun _ _ _ => rfl⟩
  · rw [hdt]
    have hx1 : s1.refs[o]? = some x := by rw [p.2.1.refs o hne]; exact hx
    obtain ⟨ob, hob, hal⟩ := p.1.tgt o x t hx1 ht
    refine ⟨s1, by simp [hx1, ht, hob, hal, hl], hx1, ?_⟩
    intro y' hy' hn
    rw [hy] at hy'; simp at hy'; subst hy'
    simp [detach, hy, hn] at hdt
    exact hdt.symm

/-- Two references to two targets, the second one locked. -/
def lockedPair : State :=
  ⟨[⟨some 0, false, true, false⟩, ⟨some 1, true, true, false⟩], [⟨1, true, true, 0, 5⟩, ⟨1, true, true, 0, 6⟩]⟩

theorem lockedPair_reach : Reach lockedPair := by
  have h1 : Reach ⟨[], [fresh 5]⟩ := Reach.step (o := .newObj 5) Reach.init trivial rfl
  have h2 : Reach ⟨[], [fresh 5, fresh 6]⟩ := Reach.step (o := .newObj 6) h1 trivial rfl
  have h3 : Reach ⟨[empty], [fresh 5, fresh 6]⟩ := Reach.step (o := .newRef) h2 trivial rfl
  have h4 : Reach ⟨[empty, empty], [fresh 5, fresh 6]⟩ := Reach.step (o := .newRef) h3 trivial rfl
  have h5 : Reach ⟨[⟨some 0, false, true, false⟩, empty], [⟨1, true, true, 0, 5⟩, fresh 6]⟩ :=
    Reach.step (o := .attach 0 0 {}) (ok := true) h4 (by simp [Valid, fresh]) (by decide)
  exact Reach.step (o := .attach 1 1 { locked := true }) (ok := true) h5 (by simp [Valid, fresh]) (by decide)

/-- **C10 is false of the code** for transfers out of a locked reference: the request fails, but only
after the destination has been detached (and its target deleted). -/
theorem C10_failed_xfer_detaches : ¬ C10_full_source := by
  intro h
  have := h lockedPair 0 1 {} ⟨some 1, true, true, false⟩ 1 lockedPair_reach (by decide) rfl rfl rfl (by decide)
  exact absurd this (by decide)

/-- Copying with `LOCKED` locks. -/
example : (run [.newObj 5, .newRef, .newRef, .attach 0 0 {}, .copy 1 0 { locked := true }] ⟨[], []⟩).map
    (fun s => s.refs.map Ref.locked) = some [false, true] := by decide

/-! Non-trivial cases meeting the hypotheses. -/

/-- The deep-privatize history really runs. -/
example : run leakHistory ⟨[], []⟩ =
    some ⟨[⟨some 1, false, true, false⟩], [⟨0, true, true, 0, 7⟩, ⟨1, true, true, 0, 7⟩]⟩ := by decide

/-- Copy, write through the copy, destroy the original: the write is not visible through the original,
and its target is deleted exactly once. -/
def cowHistory : List Op :=
  [.newObj 5, .newRef, .newRef, .attach 0 0 {}, .copy 1 0 {}, .write 1 9]
example : (run cowHistory ⟨[], []⟩).map (fun s => (read s 0, read s 1)) = some (some 5, some 9) := by decide
example : (run (cowHistory ++ [.destroy 0]) ⟨[], []⟩).map (fun s => s.objs.map Obj.frees) = some [1, 0] := by
  decide
/-- A shared write does show. -/
example : (run [.newObj 5, .newRef, .newRef, .attach 0 0 {}, .copy 1 0 { shared := true }, .write 1 9]
    ⟨[], []⟩).map (fun s => (read s 0, read s 1)) = some (some 9, some 9) := by decide
example : ReachPlain ⟨[⟨some 0, false, true, false⟩], [⟨1, true, true, 0, 7⟩]⟩ := by
  have h1 : ReachPlain ⟨[], [fresh 7]⟩ := .step (o := .newObj 7) .init trivial trivial rfl
  have h2 : ReachPlain ⟨[empty], [fresh 7]⟩ := .step (o := .newRef) h1 trivial trivial rfl
  exact .step (o := .attach 0 0 {}) (ok := true) h2 (by simp [Valid, fresh]) rfl (by decide)
example : step lockedPair (.xfer 1 0 {}) = some (lockedPair, false) :=
  C10_locked_destination lockedPair_reach (x := ⟨some 1, true, true, false⟩) rfl rfl rfl _ (by simp [Valid, lockedPair])
    (Or.inr (Or.inr ⟨0, {}, by decide, Or.inr rfl⟩))

end Verif.CRef
