import Verif.Proof.VellSet
/-! # Vellsets (C49, C50, C79) -/
namespace Verif.VellSet

open Verif.Vells

/-! ## C49 -/

/-- After any history the shape of a vellset is the merge of the shapes of its parts. -/
def C49_full : Prop := ∀ (F : Type) (ops : List (Op F)), (∀ op ∈ ops, OpWf op) → IsMerge (run (VSet.new : VSet F) ops)

/-- After any history all parts fit the shape of the vellset. -/
theorem C49_covers_partial {F : Type} (ops : List (Op F)) (hw : ∀ op ∈ ops, OpWf op) (slot : Slot) (vs : List Nat)
    (h : Varies (run (VSet.new : VSet F) ops) slot vs) : Broadcasts vs (run (VSet.new : VSet F) ops).shape :=
  (run_inv ops _ hw new_inv).2.2 slot vs h

/-- A part is rejected exactly if its shape cannot be merged with that of the vellset; else the shape becomes the merge. -/
theorem C49_set {F : Type} (ops : List (Op F)) (hw : ∀ op ∈ ops, OpWf op) (slot : Slot) (vs : List Nat) (hv : Positive vs) (hn : size vs ≠ 1) :
    match mergeShape (run (VSet.new : VSet F) ops).shape vs with
    | none => setPart (run VSet.new ops) slot vs = .err
    | some m => ∃ s', setPart (run VSet.new ops) slot vs = .ok s' ∧ s'.shape = m ∧ s'.part slot = some vs := by
  have hi := run_inv ops _ hw (new_inv (F := F))
  have := (adjustShape_spec _ vs hi.1 hv).2 hn
  cases hm : mergeShape (run (VSet.new : VSet F) ops).shape vs with
  | none => rw [hm] at this; simp only at this ⊢; rw [setPart, this]; rfl
  | some m =>
    rw [hm] at this
    simp only at this ⊢
    rw [setPart, this]
    exact ⟨_, rfl, rfl, by simp⟩

/-- While no part is replaced or removed, the shape is the merge of those of the parts. -/
theorem C49_merge_partial {F : Type} (sets : List (Slot × List Nat)) (hd : (sets.map (·.1)).Nodup) (hw : ∀ p ∈ sets, Positive p.2) :
    IsMerge (run (VSet.new : VSet F) (sets.map fun p => Op.set p.1 p.2)) := by
  have key : ∀ (sets : List (Slot × List Nat)) (s : VSet F), (sets.map (·.1)).Nodup → (∀ p ∈ sets, Positive p.2) →
      (∀ p ∈ sets, s.part p.1 = none) → Inv s → IsMerge s → IsMerge (run s (sets.map fun p => Op.set p.1 p.2)) := by
    intro sets
    induction sets with
    | nil => intro s _ _ _ _ h; exact h
    | cons p sets ih =>
      intro s hd hw hf hi hm
      rw [List.map_cons, List.nodup_cons] at hd
      have hp := hw p (by simp)
      have hi' : Inv (step s (Op.set p.1 p.2)) := step_inv s _ hp hi
      have hfresh : ∀ q ∈ sets, (step s (Op.set p.1 p.2)).part q.1 = none := by
        intro q hq
        have hne : q.1 ≠ p.1 := fun h => hd.1 (by rw [← h]; exact List.mem_map_of_mem hq)
        have h1 := hf q (by simp [hq])
        unfold step setPart
        simp only
        obtain ⟨a1, a2⟩ := adjustShape_spec s p.2 hi.1 hp
        by_cases hn : size p.2 = 1
        · rw [a1 hn]
          simp only [Res.bind]
          rw [if_neg hne]
          exact h1
        · have := a2 hn
          cases hms : mergeShape s.shape p.2 with
          | none => rw [hms] at this; simp only at this; rw [this]; exact h1
          | some m =>
            rw [hms] at this
            simp only at this
            rw [this]
            simp only [Res.bind]
            rw [if_neg hne]
            exact h1
      refine ih _ hd.2 (fun q hq => hw q (by simp [hq])) hfresh hi' ⟨hi'.2.2, fun c hc => ?_⟩
      -- the new shape fits whatever all parts fit
      have hfp := hf p (by simp)
      obtain ⟨a1, a2⟩ := adjustShape_spec s p.2 hi.1 hp
      unfold step setPart at hc ⊢
      simp only at hc ⊢
      by_cases hn : size p.2 = 1
      · rw [a1 hn] at hc ⊢
        simp only [Res.bind] at hc ⊢
        apply hm.2
        intro t w ht
        refine hc t w ⟨?_, ht.2⟩
        simp only
        split
        · rename_i h; rw [h] at ht; have := ht.1; rw [hfp] at this; cases this
        · exact ht.1
      · have := a2 hn
        cases hms : mergeShape s.shape p.2 with
        | none =>
          rw [hms] at this
          simp only at this
          rw [this] at hc ⊢
          exact hm.2 c hc
        | some m =>
          rw [hms] at this
          simp only at this
          rw [this] at hc ⊢
          simp only [Res.bind] at hc ⊢
          have hs : Broadcasts s.shape c := by
            apply hm.2
            intro t w ht
            refine hc t w ⟨?_, ht.2⟩
            simp only
            split
            · rename_i h; rw [h] at ht; have := ht.1; rw [hfp] at this; cases this
            · exact ht.1
          have hv : Broadcasts p.2 c := hc p.1 p.2 ⟨by simp, hn⟩
          rw [merge_some] at hms
          refine ⟨by rw [hms.1]; have := hs.1; have := hv.1; omega, fun i => ?_⟩
          have hj := hms.2 i
          have h1 := hs.2 i
          have h2 := hv.2 i
          unfold join at hj
          split_ifs at hj with c1 c2 c3
          · injection hj with hj; rw [← hj]; exact h2
          · injection hj with hj; rw [← hj]; exact h1
          · injection hj with hj; rw [← hj]; exact h1
  exact key sets _ hd hw (fun _ _ => rfl) new_inv ⟨(fun t w ht => by cases ht.1), (fun c _ => ⟨by simp [VSet.new], fun i => Or.inl (by simp [VSet.new, ext_nil])⟩)⟩

/-- A value that is replaced by a scalar leaves its shape behind. -/
theorem C49_refuted : ¬ C49_full := by
  intro h
  have h1 := (h Unit [.set .value [3], .set .value [1]] (by
    intro op hop
    simp only [List.mem_cons, List.not_mem_nil, or_false] at hop
    rcases hop with rfl | rfl <;> (intro n hn; simp at hn; omega))).2 [] (by
    intro slot vs hv
    obtain ⟨h1, h2⟩ := hv
    have e : (run (VSet.new : VSet Unit) [.set .value [3], .set .value [1]]).part = fun t => if t = .value then some [1] else none := by
      funext t
      by_cases ht : t = .value
      · subst ht; rfl
      · show (if t = .value then some [1] else if t = .value then some [3] else none) = _
        rw [if_neg ht, if_neg ht, if_neg ht]
    rw [e] at h1
    simp only at h1
    split at h1
    · injection h1 with h1; rw [← h1] at h2; exact absurd rfl h2
    · cases h1)
  have : [3].length ≤ [].length := h1.1
  simp at this

example : (run (VSet.new : VSet Unit) [.set .value [3, 1], .set (.pert 0 0) [1, 4], .set .flags [2, 1]]).shape = [3, 4] ∧
    (run (VSet.new : VSet Unit) [.set .value [3, 1], .set (.pert 0 0) [1, 4], .set .flags [2, 1]]).part .flags = none := by decide +kernel

/-! ## C50 -/

/-- Every failure added is reported afterwards. -/
def C50_full : Prop := ∀ (F : Type) (s : VSet F) (l : List (FailObj F)) (f : F), (FailObj.one f) ∈ l → f ∈ reported (l.foldl addFail s)

/-- What is reported is the failure, or list of failures, added last. -/
theorem C50_last_partial {F : Type} (s : VSet F) (l : List (FailObj F)) (f : FailObj F) :
    reported ((l ++ [f]).foldl addFail s) = (match f with | .one x => [x] | .many xs => xs) ∧ ((l ++ [f]).foldl addFail s).isFail = true := by
  rw [List.foldl_append]
  cases f <;> exact ⟨rfl, rfl⟩

theorem C50_refuted : ¬ C50_full := by
  intro h
  have := h Nat VSet.new [.one 1, .one 2] 1 (by simp)
  simp [reported, addFail, clear] at this

/-! ## C79 -/

/-- A vellset that is a failure has no value, flags, perturbed values or weights. -/
def C79_full : Prop := ∀ (F : Type) (s : VSet F) (f : FailObj F), (∀ slot, (addFail s f).part slot = none) ∧
  (addFail s f).shape = [] ∧ hasDataWeights (addFail s f) = false

/-- It has none of them, but still says that it has weights if it had some; reading them is undefined. -/
theorem C79_fail_partial {F : Type} (s : VSet F) (f : FailObj F) :
    (∀ slot, (addFail s f).part slot = none) ∧ (addFail s f).shape = [] ∧
    (hasDataWeights (addFail s f) = true ↔ hasDataWeights s = true) ∧ dataWeights (addFail s f) = .ub := by
  have e : (addFail s f).part = (fun _ => none) ∧ (addFail s f).shape = [] ∧ (addFail s f).dangling = (s.dangling || (s.part .weights).isSome) := by
    cases f <;> exact ⟨rfl, rfl, rfl⟩
  refine ⟨fun t => by rw [e.1], e.2.1, ?_, ?_⟩
  · unfold hasDataWeights
    rw [e.1, e.2.2]
    simp
  · unfold dataWeights
    rw [e.1, e.2.2]
    split <;> rfl

theorem C79_refuted : ¬ C79_full := by
  intro h
  have := (h Unit (run VSet.new [.set .value [3], .set .weights [3]]) (.one ())).2.2
  revert this
  decide +kernel

end Verif.VellSet
