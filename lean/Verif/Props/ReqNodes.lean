import Verif.Proof.ReqNodes
/-! # Request multiplexers and sequencers (C151–C156) -/
namespace Verif.ReqNodes

open Verif.RequestId Verif.Nursery

/-! ## C151: a multiplexer returns its chosen child's answer -/

/-- **C151**, in full: with the default policies a multiplexer returns the chosen child's result, failure included, and its
return code tells of a failure or missing data exactly when the chosen child's does. -/
def C151_full : Prop :=
  ∀ (R : Type) (mk : Made R) (c : Cfg) (order : List Nat) (enabled : Nat → Bool) (exe : Nat → Reply R) (old : Nat → Code),
    Default c → order.Nodup → c.which ∈ order → enabled c.which = true → NoAbort exe →
    (mux mk c order enabled true exe old).res = some (exe c.which).res ∧
    (mux mk c order enabled true exe old).code.fail = (exe c.which).code.fail ∧
    (mux mk c order enabled true exe old).code.missing = (exe c.which).code.missing

theorem nodePoll_default {R} (c : Cfg) (hc : Default c) (order : List Nat) (enabled : Nat → Bool) (exe : Nat → Reply R)
    (old : Nat → Code) (ha : NoAbort exe) : (nodePoll c order enabled exe old).polled = order.filter enabled ∧
      (nodePoll c order enabled exe old).code.fail = false ∧ (nodePoll c order enabled exe old).code.missing = false ∧
      (nodePoll c order enabled exe old).result = none := by
  unfold nodePoll
  refine ⟨?_, ?_, ?_, ?_⟩
  · exact C35_all order enabled _ _ _ false old (by rw [hc.1]; decide) (by rw [hc.2]; decide) ha
  · rw [C35_code]; simp [masked, hc.1]
  · rw [C35_code]; simp [masked, hc.2]
  · rw [C35_fails order enabled (fun i => ((exe i).code, [(exe i).res])) c.fp c.mp old ha, if_neg fun h => h.1 hc.1]

/-- What a multiplexer with the default policies answers, outright: if the chosen child failed, its return code and *no
result at all*; if its data are missing, its return code and a new missing-data result; else its code with the node's own
dependencies added, and its result, or an empty one if the request has no cells. -/
theorem C151_decision {R : Type} (mk : Made R) (c : Cfg) (order : List Nat) (enabled : Nat → Bool) (cells : Bool)
    (exe : Nat → Reply R) (old : Nat → Code) (hc : Default c) (hn : order.Nodup) (hw : c.which ∈ order)
    (he : enabled c.which = true) (ha : NoAbort exe) :
    mux mk c order enabled cells exe old =
      if (exe c.which).code.fail then ⟨(exe c.which).code, none⟩
      else if (exe c.which).code.missing then ⟨(exe c.which).code, some mk.missing⟩
      else ⟨⟨(exe c.which).code.deps ||| c.own, false, false, false⟩, some (if cells then (exe c.which).res else mk.empty)⟩ := by
  obtain ⟨h1, h2, h3, h4⟩ := nodePoll_default c hc order enabled exe old ha
  have hp : c.which ∈ (nodePoll c order enabled exe old).polled := by
    rw [h1, List.mem_filter]; exact ⟨hw, he⟩
  have hr : (nodePoll c order enabled exe old).retcodes c.which = (exe c.which).code :=
    C35_retcodes order hn enabled _ _ _ false old c.which hp
  have hcode : muxCode c (nodePoll c order enabled exe old) = (exe c.which).code := by
    unfold muxCode; rw [h2, h3, hr]; rfl
  unfold mux
  simp only [hcode, h4, childResult, if_pos hp, finish, Option.map_none]
  have hab := ha c.which
  generalize exe c.which = x at hab ⊢
  obtain ⟨⟨d, f, m, a⟩, r⟩ := x
  simp only at hab
  subst hab
  cases f <;> cases m <;> cases cells <;> simp [addDeps, Code.or, Code.zero]

/-- **C151**, the part that holds: for a chosen child that succeeds, the answer is its result and its code. -/
theorem C151_chosen_partial {R : Type} (mk : Made R) (c : Cfg) (order : List Nat) (enabled : Nat → Bool)
    (exe : Nat → Reply R) (old : Nat → Code) (hc : Default c) (hn : order.Nodup) (hw : c.which ∈ order)
    (he : enabled c.which = true) (ha : NoAbort exe) (hf : (exe c.which).code.fail = false)
    (hm : (exe c.which).code.missing = false) :
    (mux mk c order enabled true exe old).res = some (exe c.which).res ∧
    (mux mk c order enabled true exe old).code.fail = false ∧ (mux mk c order enabled true exe old).code.missing = false ∧
    (mux mk c order enabled true exe old).code.deps = (exe c.which).code.deps ||| c.own := by
  rw [C151_decision mk c order enabled true exe old hc hn hw he ha, hf, hm]
  simp

/-- Two children, the second chosen; the first fails. -/
example : (mux (R := Nat) ⟨0, 1, fun _ => 2, 3⟩ ⟨4, .ignore, .ignore, 1⟩ [0, 1] (fun _ => true) true
    (fun i => if i = 0 then ⟨⟨1, true, false, false⟩, 7⟩ else ⟨⟨2, false, false, false⟩, 8⟩) (fun _ => Code.zero)).res = some 8 := by
  decide +kernel

/-- A chosen child that fails: the failure it returned is lost, the code says FAIL and there is no result. -/
theorem C151_refuted : ¬ C151_full := by
  intro h
  have := (h Nat ⟨0, 1, fun _ => 2, 3⟩ ⟨0, .ignore, .ignore, 0⟩ [0] (fun _ => true)
    (fun _ => ⟨⟨1, true, false, false⟩, 7⟩) (fun _ => Code.zero) ⟨rfl, rfl⟩ (by decide) (by decide) rfl (fun _ => rfl)).1
  revert this
  decide +kernel

/-- With another failure policy, a failure of any child makes the node fail with all the failures collected. -/
theorem C151_collect {R : Type} (mk : Made R) (c : Cfg) (order : List Nat) (enabled : Nat → Bool) (cells : Bool)
    (exe : Nat → Reply R) (old : Nat → Code) (hc : c.fp = .collect) (hm : c.mp ≠ .abandon) (ha : NoAbort exe) (i : Nat)
    (hi : i ∈ order) (he : enabled i = true) (hf : (exe i).code.fail = true) :
    (mux mk c order enabled cells exe old).code.fail = true ∧
    (mux mk c order enabled cells exe old).res =
      some (mk.collect (((order.filter enabled).filter fun j => (exe j).code.fail).map fun j => (exe j).res)) := by
  have hp : (nodePoll c order enabled exe old).polled = order.filter enabled :=
    C35_all order enabled _ _ _ false old (by rw [hc]; decide) hm ha
  have hex : ∃ j ∈ order.filter enabled, (exe j).code.fail = true :=
    ⟨i, by rw [List.mem_filter]; exact ⟨hi, he⟩, hf⟩
  have hcode : (nodePoll c order enabled exe old).code.fail = true := by
    have h1 : (nodePoll c order enabled exe old).code =
        masked c.fp c.mp (anyCode ((nodePoll c order enabled exe old).polled.map fun j => (exe j).code)) :=
      C35_code order enabled _ _ _ old
    rw [h1, (C35_code_bits _ _ _ 0).2.1, hp]
    refine ⟨by rw [hc]; decide, ?_⟩
    obtain ⟨j, hj, hjf⟩ := hex
    exact ⟨_, List.mem_map_of_mem hj, hjf⟩
  have hres : (nodePoll c order enabled exe old).result =
      some (((order.filter enabled).filter fun j => (exe j).code.fail).map fun j => (exe j).res) := by
    have h1 := C35_fails order enabled (fun j => ((exe j).code, [(exe j).res])) c.fp c.mp old ha
    have h2 : (syncPoll order enabled (fun j => ((exe j).code, [(exe j).res])) c.fp c.mp false old).polled =
      order.filter enabled := hp
    rw [h2, if_pos ⟨by rw [hc]; decide, hex⟩] at h1
    unfold nodePoll
    rw [h1]
    congr 1
    generalize (order.filter enabled).filter _ = l
    induction l with
    | nil => rfl
    | cons a l ih => simp only [List.flatMap_cons, List.map_cons, ih, List.singleton_append]
  have hmc : muxCode c (nodePoll c order enabled exe old) = (nodePoll c order enabled exe old).code := by
    unfold muxCode; rw [hcode]; rfl
  unfold mux
  simp only [hmc, finish, hcode, if_true, hres, Option.map_some, and_self]

/-! ## C152: the other children of a multiplexer -/

/-- **C152.** With the default policies a multiplexer executes every enabled child, in poll order, whatever any of them
returns; and nothing another child returns, failures included, changes its answer. -/
theorem C152_others {R : Type} (mk : Made R) (c : Cfg) (order : List Nat) (enabled : Nat → Bool) (cells : Bool)
    (exe exe' : Nat → Reply R) (old old' : Nat → Code) (hc : Default c) (hn : order.Nodup) (hw : c.which ∈ order)
    (he : enabled c.which = true) (ha : NoAbort exe) (ha' : NoAbort exe') (h : exe c.which = exe' c.which) :
    (nodePoll c order enabled exe old).polled = order.filter enabled ∧
    mux mk c order enabled cells exe old = mux mk c order enabled cells exe' old' := by
  refine ⟨(nodePoll_default c hc order enabled exe old ha).1, ?_⟩
  rw [C151_decision mk c order enabled cells exe old hc hn hw he ha,
    C151_decision mk c order enabled cells exe' old' hc hn hw he ha', h]

/-- The hypotheses hold for three children of which the first fails once and succeeds once. -/
example : Default ⟨0, .ignore, .ignore, 1⟩ ∧ [0, 1, 2].Nodup ∧
    NoAbort (fun i => (⟨⟨i, decide (i = 0), false, false⟩, i⟩ : Reply Nat)) ∧
    (nodePoll ⟨0, .ignore, .ignore, 1⟩ [0, 1, 2] (fun i => decide (i ≠ 2))
      (fun i => (⟨⟨i, decide (i = 0), false, false⟩, i⟩ : Reply Nat)) (fun _ => Code.zero)).polled = [0, 1] := by
  refine ⟨⟨rfl, rfl⟩, by decide, fun _ => rfl, by decide +kernel⟩

/-! ## C153: the order of a sequence, and the ids its children get -/

/-- **C153.** A sequencer executes its children one after another in their order, up to the first reply that its policies do
not ignore, and child `i` gets the request id with `i` added to every component in the sequence mask. -/
theorem C153_calls {R : Type} (c : Cfg) (n mask : Nat) (cells : Bool) (exe : Nat → List Int → Reply R) (id : List Int) :
    ∃ ids : Nat → List Int, (∀ i, IdAt mask id i (ids i)) ∧
      (seqPoll c n mask cells exe id).calls =
        (through (fun i => ends c.fp c.mp (exe i (ids i)).code) (List.range n)).map fun i => (i, ids i) := by
  refine ⟨fun i => pre mask id (i + 1), idAt_pre mask id, ?_⟩
  unfold seqPoll
  rw [List.range_eq_range', seqLoop_calls c mask cells exe id n 0 _ rfl]
  rfl

/-- **C153.** With the default policies every child is executed, whatever the others return. -/
theorem C153_all {R : Type} (c : Cfg) (hc : Default c) (n mask : Nat) (cells : Bool) (exe : Nat → List Int → Reply R)
    (id : List Int) : ((seqPoll c n mask cells exe id).calls.map (·.1)) = List.range n := by
  obtain ⟨ids, _, h⟩ := C153_calls c n mask cells exe id
  rw [h]
  have : through (fun i => ends c.fp c.mp (exe i (ids i)).code) (List.range n) = List.range n := by
    generalize List.range n = l
    induction l with
    | nil => rfl
    | cons i l ih =>
      unfold through
      rw [if_neg (by simp [ends, hc.1, hc.2]), ih]
  rw [this, List.map_map]
  exact List.map_id'' (fun _ => rfl) _

/-- **C153.** The ids given to two different children differ in exactly the components of the mask, so neither is taken for
the other by a node that depends on one of them. -/
theorem C153_distinct (mask : Nat) (hm : mask < 2 ^ 16) (id : List Int) (i j : Nat) (hij : i ≠ j) (x y : List Int)
    (hx : IdAt mask id i x) (hy : IdAt mask id j y) : diffMask x y = mask := by
  apply Nat.eq_of_testBit_eq
  intro k
  rw [Bool.eq_iff_iff, C28_diffMask_partial, hx k, hy k]
  by_cases h : k < 16 ∧ mask.testBit k = true
  · rw [if_pos h, if_pos h]
    simp only [h.1, h.2, true_and, iff_true]
    omega
  · rw [if_neg h, if_neg h]
    simp only [ne_eq, not_true_eq_false, and_false, false_iff]
    intro hk
    apply h
    refine ⟨?_, hk⟩
    by_contra hc
    rw [Nat.testBit_lt_two_pow (Nat.lt_of_lt_of_le hm (Nat.pow_le_pow_right (by omega) (by omega)))] at hk
    cases hk

example : (seqPoll (R := Nat) ⟨0, .ignore, .collect, 0⟩ 4 5 true
      (fun i _ => ⟨⟨0, decide (i = 0), decide (i = 2), false⟩, i⟩) [10, 20, 30]).calls =
    [(0, [10, 20, 30]), (1, [11, 20, 31]), (2, [12, 20, 32])] := by decide +kernel

/-! ## C154: what a sequence returns -/

/-- **C154**, in full: with the default policies a sequencer's code tells of a failure or missing data exactly when the chosen
child's does, it names every dependency of every child and the node's own and nothing else, and for a request with cells the
result is the chosen child's. -/
def C154_full : Prop :=
  ∀ (R : Type) (mk : Made R) (c : Cfg) (n mask : Nat) (cells : Bool) (exe : Nat → List Int → Reply R) (id : List Int),
    Default c → c.which < n →
    ∃ ids : Nat → List Int, (∀ i, IdAt mask id i (ids i)) ∧
      (seq mk c n mask cells exe id).code.fail = (exe c.which (ids c.which)).code.fail ∧
      (seq mk c n mask cells exe id).code.missing = (exe c.which (ids c.which)).code.missing ∧
      (∀ k, (seq mk c n mask cells exe id).code.deps.testBit k = true ↔
        c.own.testBit k = true ∨ ∃ i, i < n ∧ (exe i (ids i)).code.deps.testBit k = true) ∧
      (cells = true → (seq mk c n mask cells exe id).res = some (exe c.which (ids c.which)).res)

/-- **C154**, the part that holds: all of it, for requests with cells. -/
theorem C154_chosen_partial {R : Type} (mk : Made R) (c : Cfg) (n mask : Nat) (exe : Nat → List Int → Reply R)
    (id : List Int) (hc : Default c) (hw : c.which < n) :
    ∃ ids : Nat → List Int, (∀ i, IdAt mask id i (ids i)) ∧
      (seqPoll c n mask true exe id).calls = (List.range n).map (fun i => (i, ids i)) ∧
      (seq mk c n mask true exe id).code.fail = (exe c.which (ids c.which)).code.fail ∧
      (seq mk c n mask true exe id).code.missing = (exe c.which (ids c.which)).code.missing ∧
      (∀ k, (seq mk c n mask true exe id).code.deps.testBit k = true ↔
        c.own.testBit k = true ∨ ∃ i, i < n ∧ (exe i (ids i)).code.deps.testBit k = true) ∧
      (seq mk c n mask true exe id).res = some (exe c.which (ids c.which)).res := by
  refine ⟨fun i => pre mask id (i + 1), idAt_pre mask id, ?_, ?_⟩
  · rw [seqPoll_default c hc]
  · obtain ⟨h1, h2, h3⟩ := foldl_kept c n hw fun i => exe i (pre mask id (i + 1))
    unfold seq
    rw [seqPoll_default c hc]
    simp only [seqGet, hw, and_self, if_true, finish, Code.zero, Bool.false_eq_true, if_false, addDeps, Code.or,
      Bool.false_or, Nat.zero_or, Option.getD_some, and_true]
    refine ⟨h2, h3, fun k => ?_⟩
    rw [Nat.testBit_or, Bool.or_eq_true]
    exact or_congr Iff.rfl (h1 k)

example : (seq (R := Nat) ⟨0, 1, fun _ => 2, 3⟩ ⟨8, .ignore, .ignore, 1⟩ 3 1 true
      (fun i id => ⟨⟨2 ^ i, decide (i ≠ 1), false, false⟩, (id.headD 0).toNat⟩) [10]).res = some 11 ∧
    (seq (R := Nat) ⟨0, 1, fun _ => 2, 3⟩ ⟨8, .ignore, .ignore, 1⟩ 3 1 true
      (fun i id => ⟨⟨2 ^ i, decide (i ≠ 1), false, false⟩, (id.headD 0).toNat⟩) [10]).code = ⟨15, false, false, false⟩ := by
  decide +kernel

/-- A request without cells: whatever the children return, failures included, the code is the node's own dependency mask and
the result is empty. -/
theorem C154_no_cells {R : Type} (mk : Made R) (c : Cfg) (n mask : Nat) (exe : Nat → List Int → Reply R) (id : List Int)
    (hc : Default c) : seq mk c n mask false exe id = ⟨⟨c.own, false, false, false⟩, some mk.empty⟩ := by
  unfold seq
  rw [seqPoll_default c hc]
  simp [finish, Code.zero, addDeps]

/-- A request without cells to a chosen child that fails: the sequencer reports success. -/
theorem C154_refuted : ¬ C154_full := by
  intro h
  obtain ⟨ids, _, hf, _⟩ := h Nat ⟨0, 1, fun _ => 2, 3⟩ ⟨0, .ignore, .ignore, 0⟩ 1 0 false
    (fun _ _ => ⟨⟨1, true, false, false⟩, 7⟩) [1] ⟨rfl, rfl⟩ (by decide)
  rw [C154_no_cells _ _ _ _ _ _ ⟨rfl, rfl⟩] at hf
  cases hf

/-- With another failure policy, the first failing child's result is returned with a FAIL code. -/
theorem C154_stop {R : Type} (mk : Made R) (c : Cfg) (n mask : Nat) (cells : Bool) (exe : Nat → List Int → Reply R)
    (id : List Int) (hc : c.fp ≠ .ignore) : ∃ ids : Nat → List Int, (∀ i, IdAt mask id i (ids i)) ∧
    ∀ j, j < n → (∀ i, i < j → ends c.fp c.mp (exe i (ids i)).code = false) → (exe j (ids j)).code.fail = true →
      (seq mk c n mask cells exe id).code.fail = true ∧ (seq mk c n mask cells exe id).res = some (exe j (ids j)).res := by
  refine ⟨fun i => pre mask id (i + 1), idAt_pre mask id, fun j hj hb hf => ?_⟩
  have hff : ((exe j (pre mask id (j + 1))).code.fail && decide (c.fp ≠ .ignore)) = true := by rw [hf]; simp [hc]
  obtain ⟨k, hk⟩ := seqLoop_stop c mask cells exe id j n 0 ⟨id, Code.zero, none, none, []⟩ rfl (by omega) (by omega)
    (fun i _ hi => hb i hi) (by unfold ends; rw [hff]; rfl)
  rw [if_pos hff] at hk
  unfold seq seqPoll
  rw [List.range_eq_range']
  simp only [hk]
  simp [finish, Code.or, hf]

/-- Likewise for missing data, if nothing has failed: the code says MISSING and the result is a new missing-data one. -/
theorem C154_stop_missing {R : Type} (mk : Made R) (c : Cfg) (n mask : Nat) (cells : Bool) (exe : Nat → List Int → Reply R)
    (id : List Int) (hc : c.mp ≠ .ignore) : ∃ ids : Nat → List Int, (∀ i, IdAt mask id i (ids i)) ∧
    ∀ j, j < n → (∀ i, i < j → ends c.fp c.mp (exe i (ids i)).code = false) → (exe j (ids j)).code.missing = true →
      (seq mk c n mask cells exe id).code.missing = true ∧
      ((seq mk c n mask cells exe id).code.fail = false → (seq mk c n mask cells exe id).res = some mk.missing) := by
  refine ⟨fun i => pre mask id (i + 1), idAt_pre mask id, fun j hj hb hm => ?_⟩
  have hmm : ((exe j (pre mask id (j + 1))).code.missing && decide (c.mp ≠ .ignore)) = true := by rw [hm]; simp [hc]
  obtain ⟨k, hk⟩ := seqLoop_stop c mask cells exe id j n 0 ⟨id, Code.zero, none, none, []⟩ rfl (by omega) (by omega)
    (fun i _ hi => hb i hi) (by unfold ends; rw [hmm]; simp)
  have key : ∀ x : Code, x.missing = true → (finish mk c.own cells (k.or x) (some (exe j (pre mask id (j + 1))).res) none).code.missing = true ∧
      ((finish mk c.own cells (k.or x) (some (exe j (pre mask id (j + 1))).res) none).code.fail = false →
        (finish mk c.own cells (k.or x) (some (exe j (pre mask id (j + 1))).res) none).res = some mk.missing) := by
    intro x hx
    unfold finish
    by_cases hf : (k.or x).fail = true
    · rw [if_pos hf]
      refine ⟨by simp [Code.or, hx], fun h => ?_⟩
      rw [hf] at h; cases h
    · have hmi : (k.or x).missing = true := by simp [Code.or, hx]
      rw [if_neg hf, if_pos hmi]
      exact ⟨hmi, fun _ => rfl⟩
  unfold seq seqPoll
  rw [List.range_eq_range']
  simp only [hk]
  split
  · exact key _ hm
  · exact key _ (by unfold dropFail; split <;> exact hm)

example : (seq (R := Nat) ⟨0, 1, fun _ => 2, 3⟩ ⟨8, .collect, .collect, 1⟩ 3 1 true
      (fun i _ => ⟨⟨0, decide (i = 2), decide (i = 1), false⟩, i + 10⟩) [10]).res = some 1 ∧
    (seq (R := Nat) ⟨0, 1, fun _ => 2, 3⟩ ⟨8, .collect, .collect, 1⟩ 3 1 true
      (fun i _ => ⟨⟨0, decide (i = 1), decide (i = 2), false⟩, i + 10⟩) [10]).res = some 11 := by
  decide +kernel

/-! ## C155: a sequence and its cache -/

/-- **C155**, in full: if every child reports what it depends on, the answer to any request after any history of requests is
the one computed without a cache. -/
def C155_full : Prop :=
  ∀ (R : Type) (mk : Made R) (c : Cfg) (n mask : Nat) (exe : Bool → Nat → List Int → Reply R) (rs : List Req) (r : Req),
    Default c → c.which < n → (∀ b, Honest (exe b)) →
    (serve mk c n mask exe (history mk c n mask exe rs) r).2.res = (seq mk c n mask r.cells (exe r.cells) r.id).res

theorem hit_agree {R} (e : Entry R) (id : List Int) (h : hit e id = true) (k : Nat) (hk : k < 16)
    (hd : e.code.deps.testBit k = true) : comp id k = comp e.id k := by
  by_contra hne
  simp only [hit, Bool.and_eq_true, decide_eq_true_eq] at h
  have h1 := congrArg (fun m => m.testBit k) h.2
  simp only [Nat.testBit_and, hd, Bool.and_true, Nat.zero_testBit] at h1
  have h2 : (diffMask id e.id).testBit k = true := (C28_diffMask_partial id e.id k).2 ⟨hk, hne⟩
  rw [h2] at h1
  cases h1

/-- Ids that agree where a sequence's answer says it depends get the same answer. -/
theorem seq_agree {R} (mk : Made R) (c : Cfg) (n mask : Nat) (exe : Nat → List Int → Reply R) (hh : Honest exe) (hc : Default c)
    (hw : c.which < n) (id id' : List Int)
    (h : ∀ k, k < 16 → (seq mk c n mask true exe id).code.deps.testBit k = true → comp id' k = comp id k) :
    seq mk c n mask true exe id' = seq mk c n mask true exe id := by
  have hdeps : ∀ i, i < n → ∀ k, (exe i (pre mask id (i + 1))).code.deps.testBit k = true →
      (seq mk c n mask true exe id).code.deps.testBit k = true := by
    intro i hi k hk
    have h1 := (foldl_kept c n hw fun i => exe i (pre mask id (i + 1))).1 k
    unfold seq
    rw [seqPoll_default c hc]
    simp only [seqGet, hw, and_self, if_true, finish, Code.zero, Bool.false_eq_true, if_false, addDeps, Code.or,
      Nat.zero_or, Nat.testBit_or, Bool.or_eq_true]
    exact Or.inr (h1.2 ⟨i, hi, hk⟩)
  have hrep : ∀ i, i < n → exe i (pre mask id' (i + 1)) = exe i (pre mask id (i + 1)) := by
    intro i hi
    apply hh
    intro k hk hd
    rw [idAt_pre mask id' i k, idAt_pre mask id i k, h k hk (hdeps i hi k hd)]
  unfold seq
  rw [seqPoll_default c hc, seqPoll_default c hc]
  have hfold : (List.range n).foldl (fun k i => k.or (kept c i (exe i (pre mask id' (i + 1))).code)) Code.zero =
      (List.range n).foldl (fun k i => k.or (kept c i (exe i (pre mask id (i + 1))).code)) Code.zero := by
    have : ∀ (l : List Nat) (k : Code), (∀ i ∈ l, i < n) →
        l.foldl (fun k i => k.or (kept c i (exe i (pre mask id' (i + 1))).code)) k =
        l.foldl (fun k i => k.or (kept c i (exe i (pre mask id (i + 1))).code)) k := by
      intro l
      induction l with
      | nil => intro k _; rfl
      | cons i l ih =>
        intro k hl
        rw [List.foldl_cons, List.foldl_cons, hrep i (hl i List.mem_cons_self)]
        exact ih _ fun j hj => hl j (List.mem_cons_of_mem _ hj)
    exact this _ _ fun i hi => List.mem_range.1 hi
  simp only [seqGet, hfold, hrep c.which hw]

/-- What the cache of a sequence holds after requests with cells. -/
def Valid {R} (mk : Made R) (c : Cfg) (n mask : Nat) (exe : Nat → List Int → Reply R) (s : Option (Entry R)) : Prop :=
  ∀ e, s = some e → e.code = addDeps (seq mk c n mask true exe e.id).code 1 ∧ some e.res = (seq mk c n mask true exe e.id).res

theorem serve_valid {R} (mk : Made R) (c : Cfg) (n mask : Nat) (exe : Bool → Nat → List Int → Reply R) (s : Option (Entry R))
    (r : Req) (hr : r.cells = true) (hs : Valid mk c n mask (exe true) s) :
    Valid mk c n mask (exe true) (serve mk c n mask exe s r).1 := by
  have hrem : Valid mk c n mask (exe true) (remember r (seq mk c n mask r.cells (exe r.cells) r.id)) := by
    rw [hr]
    intro e he
    unfold remember at he
    simp only at he
    split at he
    · cases ha : (seq mk c n mask true (exe true) r.id).res with
      | none => rw [ha] at he; cases he
      | some x =>
        rw [ha] at he
        cases he
        exact ⟨rfl, ha.symm⟩
    · cases he
  unfold serve
  cases s with
  | none => exact hrem
  | some e =>
    simp only
    split
    · exact hs
    · exact hrem

/-- **C155**, the part that holds: for histories of requests with cells, both the result and the code. -/
theorem C155_cache_partial {R : Type} (mk : Made R) (c : Cfg) (n mask : Nat) (exe : Bool → Nat → List Int → Reply R)
    (rs : List Req) (r : Req) (hc : Default c) (hw : c.which < n) (hh : Honest (exe true)) (hrs : ∀ x ∈ rs, x.cells = true)
    (hr : r.cells = true) :
    (serve mk c n mask exe (history mk c n mask exe rs) r).2.res = (seq mk c n mask true (exe true) r.id).res ∧
    (serve mk c n mask exe (history mk c n mask exe rs) r).2.code.fail = (seq mk c n mask true (exe true) r.id).code.fail ∧
    (∀ k, (serve mk c n mask exe (history mk c n mask exe rs) r).2.code.deps.testBit k = true ↔
      k = 0 ∨ (seq mk c n mask true (exe true) r.id).code.deps.testBit k = true) := by
  have hv : Valid mk c n mask (exe true) (history mk c n mask exe rs) := by
    unfold history
    have : ∀ (l : List Req) (s : Option (Entry R)), (∀ x ∈ l, x.cells = true) → Valid mk c n mask (exe true) s →
        Valid mk c n mask (exe true) (l.foldl (fun s r => (serve mk c n mask exe s r).1) s) := by
      intro l
      induction l with
      | nil => intro s _ h; exact h
      | cons x l ih =>
        intro s hl h
        exact ih _ (fun y hy => hl y (List.mem_cons_of_mem _ hy)) (serve_valid mk c n mask exe s x (hl x List.mem_cons_self) h)
    exact this rs none hrs fun e he => by cases he
  have hbit : ∀ (a : Code) (k : Nat), (addDeps a 1).deps.testBit k = true ↔ k = 0 ∨ a.deps.testBit k = true := by
    intro a k
    simp only [addDeps, Nat.testBit_or, Bool.or_eq_true]
    have : Nat.testBit 1 k = true ↔ k = 0 := by
      cases k with
      | zero => simp
      | succ k => simp [Nat.testBit_succ]
    rw [this, or_comm]
  have hfresh : (serve mk c n mask exe (history mk c n mask exe rs) r).2 =
      ⟨addDeps (seq mk c n mask true (exe true) r.id).code 1, (seq mk c n mask true (exe true) r.id).res⟩ := by
    unfold serve
    cases hs : history mk c n mask exe rs with
    | none => simp only [hr]
    | some e =>
      simp only
      split
      · next hhit =>
        obtain ⟨h1, h2⟩ := hv e hs
        have hag : seq mk c n mask true (exe true) r.id = seq mk c n mask true (exe true) e.id := by
          apply seq_agree mk c n mask (exe true) hh hc hw
          intro k hk hd
          exact hit_agree e r.id hhit k hk (by rw [h1, hbit]; exact Or.inr hd)
        rw [hag, ← h1, ← h2]
      · simp only [hr]
  rw [hfresh]
  exact ⟨rfl, rfl, hbit _⟩

/-- A child whose reply is the second component of the id, which it names as its dependency. -/
def echo : Bool → Nat → List Int → Reply Int := fun _ _ id => ⟨⟨2, false, false, false⟩, comp id 1⟩

theorem echo_honest (b : Bool) : Honest (echo b) := by
  intro i id id' h
  have := h 1 (by omega) (by show Nat.testBit 2 1 = true; decide)
  simp only [echo, this]

/-- Requests with cells: the second is answered from the cache, the third is computed. -/
example : (serve ⟨-1, -2, fun _ => -3, -4⟩ ⟨0, .ignore, .ignore, 0⟩ 1 0 echo
      (history ⟨-1, -2, fun _ => -3, -4⟩ ⟨0, .ignore, .ignore, 0⟩ 1 0 echo [⟨[0, 5, 1], [0, 5, 2], true⟩]) ⟨[0, 5, 2], [], true⟩).2.res =
      some 5 ∧
    (serve ⟨-1, -2, fun _ => -3, -4⟩ ⟨0, .ignore, .ignore, 0⟩ 1 0 echo
      (history ⟨-1, -2, fun _ => -3, -4⟩ ⟨0, .ignore, .ignore, 0⟩ 1 0 echo [⟨[0, 5, 1], [0, 5, 2], true⟩]) ⟨[0, 6, 2], [], true⟩).2.res =
      some 6 := by decide +kernel

/-- A request without cells leaves an empty result in the cache that names no dependency of the children; the next request
with cells, of another domain, is answered with it. -/
theorem C155_refuted : ¬ C155_full := by
  intro h
  have := h Int ⟨-1, -2, fun _ => -3, -4⟩ ⟨0, .ignore, .ignore, 0⟩ 1 0 echo [⟨[0, 5], [0, 6], false⟩] ⟨[0, 6], [], true⟩ ⟨rfl, rfl⟩
    (by decide) echo_honest
  revert this
  decide +kernel

/-! ## C156: disabled children -/

/-- **C156**, in full: a disabled child of a sequencer or a multiplexer is not executed. -/
def C156_full : Prop :=
  ∀ (R : Type) (c : Cfg) (n mask : Nat) (order : List Nat) (enabled : Nat → Bool) (cellsOnly cells : Bool)
    (exe : Nat → List Int → Reply R) (old : Nat → Code) (id : List Int) (i : Nat), order.Nodup → enabled i = false →
    i ∉ reqSeqAsked c n order enabled mask cellsOnly cells exe old id ∧ i ∉ (nodePoll c order enabled (fun j => exe j id) old).polled

/-- **C156**, the part that holds: a multiplexer, and a cells-only sequencer given a request without cells. -/
theorem C156_disabled_partial {R : Type} (c : Cfg) (n mask : Nat) (order : List Nat) (enabled : Nat → Bool)
    (exe : Nat → List Int → Reply R) (old : Nat → Code) (id : List Int) (i : Nat) (hn : order.Nodup) (he : enabled i = false) :
    i ∉ reqSeqAsked c n order enabled mask true false exe old id ∧ i ∉ (nodePoll c order enabled (fun j => exe j id) old).polled := by
  have h : i ∉ (nodePoll c order enabled (fun j => exe j id) old).polled := by
    intro hi
    have := ((C35_once order hn enabled (fun j => ((exe j id).code, [(exe j id).res])) c.fp c.mp false old).2 i hi).1
    rw [he] at this
    cases this
  exact ⟨h, h⟩

/-- In sequence mode a sequencer executes all its children, disabled or not. -/
theorem C156_sequence {R : Type} (c : Cfg) (hc : Default c) (n mask : Nat) (order : List Nat) (enabled : Nat → Bool)
    (cellsOnly cells : Bool) (h : (cellsOnly && !cells) = false) (exe : Nat → List Int → Reply R) (old : Nat → Code)
    (id : List Int) : reqSeqAsked c n order enabled mask cellsOnly cells exe old id = List.range n := by
  unfold reqSeqAsked
  rw [h]
  exact C153_all c hc n mask cells exe id

theorem C156_refuted : ¬ C156_full := by
  intro h
  have := (h Nat ⟨0, .ignore, .ignore, 0⟩ 1 0 [0] (fun _ => false) false true (fun _ _ => ⟨Code.zero, 7⟩) (fun _ => Code.zero) [1] 0
    (by decide) rfl).1
  rw [C156_sequence _ ⟨rfl, rfl⟩ _ _ _ _ _ _ rfl] at this
  exact this (by decide)

example : reqSeqAsked (R := Nat) ⟨0, .ignore, .ignore, 0⟩ 3 [0, 1, 2] (fun i => decide (i ≠ 1)) 0 true false
    (fun _ _ => ⟨Code.zero, 7⟩) (fun _ => Code.zero) [1] = [0, 2] := by decide +kernel

/-- In cells-only mode a request without cells is treated as in any node: the or of the children's codes, less what the
policies ignore, and the failures collected. -/
theorem C154_cells_only {R : Type} (mk : Made R) (c : Cfg) (n mask : Nat) (order : List Nat) (enabled : Nat → Bool)
    (exe : Nat → List Int → Reply R) (old : Nat → Code) (id : List Int) (hc : Default c) (ha : NoAbort fun i => exe i id) (k : Nat) :
    (reqSeq mk c n order enabled mask true false exe old id).res = some mk.empty ∧
    (reqSeq mk c n order enabled mask true false exe old id).code.fail = false ∧
    ((reqSeq mk c n order enabled mask true false exe old id).code.deps.testBit k = true ↔
      c.own.testBit k = true ∨ ∃ i ∈ order, enabled i = true ∧ (exe i id).code.deps.testBit k = true) := by
  obtain ⟨h1, h2, h3, h4⟩ := nodePoll_default c hc order enabled (fun i => exe i id) old ha
  have h5 : (nodePoll c order enabled (fun i => exe i id) old).code =
      masked c.fp c.mp (anyCode ((nodePoll c order enabled (fun i => exe i id) old).polled.map fun j => (exe j id).code)) :=
    C35_code order enabled _ _ _ old
  have h6 : (nodePoll c order enabled (fun i => exe i id) old).code.deps.testBit k = true ↔
      ∃ i ∈ order, enabled i = true ∧ (exe i id).code.deps.testBit k = true := by
    rw [h5, (C35_code_bits _ _ _ k).1, h1]
    simp [List.mem_filter, and_assoc]
  unfold reqSeq
  simp only [Bool.not_false, Bool.and_self, if_true, finish, h2, h3, h4, Bool.false_eq_true, if_false, Option.map_none,
    Option.getD_none, addDeps, true_and, Nat.testBit_or, Bool.or_eq_true, h6]
  exact or_comm

/-- In all other cases a sequencer works in sequence mode. -/
theorem C154_sequence_mode {R : Type} (mk : Made R) (c : Cfg) (n mask : Nat) (order : List Nat) (enabled : Nat → Bool)
    (cellsOnly cells : Bool) (h : cellsOnly = false ∨ cells = true) (exe : Nat → List Int → Reply R) (old : Nat → Code)
    (id : List Int) : reqSeq mk c n order enabled mask cellsOnly cells exe old id = seq mk c n mask cells exe id := by
  unfold reqSeq
  rcases h with h | h <;> subst h <;> simp

end Verif.ReqNodes
