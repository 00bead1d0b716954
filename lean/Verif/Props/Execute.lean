import Verif.Proof.Execute
/-! # One execution of a node (C171–C173) -/
namespace Verif.Execute

/-- A node evaluates; the cache misses, the request is new and has a rider. -/
def ex1 : World :=
  { inited := true, abort1 := false, abort2 := false, abort3 := false, newRequest := true, cache := .ok none, rider := some (.ok (⟨true, false, false, false, false, false, 4⟩, none)),
    active := true, hasCells := true, poll := .ok (⟨true, false, false, false, false, false, 2⟩, none), ownDeps := 8, cellsAgree := true, evaluates := true, discovers := false,
    get := .ok (⟨false, false, false, false, false, false, 16⟩, some (.other 7)), discover := .throws, store1 := false, store2 := false }

theorem ex1_sane : Sane ex1 where
  cached := by intro c r h; simp [ex1] at h
  pollFail := by intro c r h; simp [ex1] at h; obtain ⟨rfl, rfl⟩ := h; simp
  pollAbort := by intro c r h; simp [ex1] at h; obtain ⟨rfl, rfl⟩ := h; simp
  getAbort := by intro c r h; simp [ex1] at h; obtain ⟨rfl, rfl⟩ := h; simp
  discoverAbort := by intro c r h; simp [ex1] at h
  rider := by intro c r h; simp [ex1] at h; obtain ⟨rfl, rfl⟩ := h; simp

/-! ## C171: what comes back -/

/-- There is a result unless the code says "aborted" or "wait"; and then the code says "updated" exactly if the result was not
taken from the cache. -/
theorem C171_result (w : World) (s : Status) (o : Out) (hw : Sane w) (h : execute w s = .returns o) (ha : o.code.abort = false) (hwt : o.code.wait = false) :
    o.res ≠ none ∧ (o.code.updated = true ↔ ∀ c r, w.cache ≠ .ok (some (c, r))) := by
  suffices hs : ∀ o', execute w s = .returns o' → o'.code.abort = false → o'.code.wait = false → o'.res ≠ none ∧ (o'.code.updated = true ↔ ∀ c r, w.cache ≠ .ok (some (c, r))) from
    hs o h ha hwt
  refine all_returns w s (fun e => ∀ o', e = .returns o' → o'.code.abort = false → o'.code.wait = false → o'.res ≠ none ∧ (o'.code.updated = true ↔ ∀ c r, w.cache ≠ .ok (some (c, r)))) ?_ ?_ ?_ ?_ ?_ ?_ ?_
  · intro _ o' h; cases h
  · intro _ _ o' h h1; cases h; cases h1
  · intro c r _ _ hc o' h _ _
    cases h
    refine ⟨(hw.cached c r hc).1, ?_⟩
    dsimp only
    rw [(hw.cached c r hc).2.1]
    constructor
    · intro hf; cases hf
    · intro hf; exact absurd hc (hf c r)
  · intro st ret calls _ _ hc _ _ _ o' h _ _
    unfold handler at h
    split at h
    · cases h
    · cases h
      exact ⟨by simp, iff_of_true rfl hc⟩
  · intro ref calls _ _ _ _ _ o' h h1
    cases h; cases h1
  · intro ret ref calls _ _ _ hwt _ _ _ o' h _ h2
    cases h
    dsimp only at h2
    rw [hwt] at h2; cases h2
  · intro ret ref x calls _ _ hc _ hr _ _ _ o' h _ _
    cases h
    exact ⟨(hr hw).2.2, iff_of_true rfl (by rw [hc]; simp)⟩

/-- What is put into the cache is what is returned, without "updated"; every result not taken from there is handed to it once, the
last thing done. -/
theorem C171_stored (w : World) (s : Status) (o : Out) (h : execute w s = .returns o) :
    (∀ c r, Call.store c r ∈ o.calls → c = ⟨false, o.code.ignoreType, o.code.missing, o.code.wait, o.code.abort, o.code.fail, o.code.deps⟩ ∧ r = o.res) ∧
    (o.code.abort = false → o.code.wait = false → (∀ c r, w.cache ≠ .ok (some (c, r))) → ∃ l c r, o.calls = l ++ [.store c r] ∧ ∀ c r, Call.store c r ∉ l) := by
  suffices hs : ∀ o', execute w s = .returns o' →
      (∀ c r, Call.store c r ∈ o'.calls → c = ⟨false, o'.code.ignoreType, o'.code.missing, o'.code.wait, o'.code.abort, o'.code.fail, o'.code.deps⟩ ∧ r = o'.res) ∧
      (o'.code.abort = false → o'.code.wait = false → (∀ c r, w.cache ≠ .ok (some (c, r))) → ∃ l c r, o'.calls = l ++ [.store c r] ∧ ∀ c r, Call.store c r ∉ l) from hs o h
  refine all_returns w s (fun e => ∀ o', e = .returns o' →
      (∀ c r, Call.store c r ∈ o'.calls → c = ⟨false, o'.code.ignoreType, o'.code.missing, o'.code.wait, o'.code.abort, o'.code.fail, o'.code.deps⟩ ∧ r = o'.res) ∧
      (o'.code.abort = false → o'.code.wait = false → (∀ c r, w.cache ≠ .ok (some (c, r))) → ∃ l c r, o'.calls = l ++ [.store c r] ∧ ∀ c r, Call.store c r ∉ l)) ?_ ?_ ?_ ?_ ?_ ?_ ?_
  · intro _ o' h; cases h
  · intro _ _ o' h; cases h; exact ⟨fun c r hm => (by cases hm), fun h1 => (by cases h1)⟩
  · intro c r _ _ hc o' h
    cases h
    exact ⟨fun c r hm => (by simp at hm), fun _ _ hf => absurd hc (hf c r)⟩
  · intro st ret calls _ _ hc hs _ _ o' h
    unfold handler at h
    split at h
    · cases h
    · cases h
      refine ⟨fun c r hm => ?_, fun _ _ _ => ⟨calls, _, _, rfl, hs⟩⟩
      rcases List.mem_append.1 hm with hm | hm
      · exact absurd hm (hs c r)
      · simp at hm
        obtain ⟨rfl, rfl⟩ := hm
        exact ⟨rfl, rfl⟩
  · intro ref calls _ _ _ hs _ o' h
    cases h
    exact ⟨fun c r hm => absurd hm (hs c r), fun h1 => (by cases h1)⟩
  · intro ret ref calls _ _ _ hwt _ hs _ o' h
    cases h
    exact ⟨fun c r hm => absurd hm (hs c r), fun _ h2 => (by dsimp only at h2; rw [hwt] at h2; cases h2)⟩
  · intro ret ref x calls _ _ hc _ hr _ hs _ o' h
    cases h
    refine ⟨fun c r hm => ?_, fun _ _ _ => ⟨calls, _, _, rfl, hs⟩⟩
    rcases List.mem_append.1 hm with hm | hm
    · exact absurd hm (hs c r)
    · simp at hm
      obtain ⟨rfl, rfl⟩ := hm
      exact ⟨rfl, rfl⟩

/-- Whatever the functions called throw, the caller gets a failure. -/
theorem C171_exception (w : World) (s : Status) (o : Out) (h : execute w s = .returns o) (ht : Threw w o.calls) :
    o.code.fail = true ∧ ∃ st, o.res = some (.failure st) := by
  suffices hs : ∀ o', execute w s = .returns o' → Threw w o'.calls → o'.code.fail = true ∧ ∃ st, o'.res = some (.failure st) from hs o h ht
  have hstore : ∀ l c r, Threw w (l ++ [.store c r]) → Threw w l := by
    intro l c r h
    unfold Threw at h ⊢
    simpa using h
  refine all_returns w s (fun e => ∀ o', e = .returns o' → Threw w o'.calls → o'.code.fail = true ∧ ∃ st, o'.res = some (.failure st)) ?_ ?_ ?_ ?_ ?_ ?_ ?_
  · intro _ o' h; cases h
  · intro _ _ o' h ht; cases h; unfold Threw at ht; simp at ht
  · intro c r _ _ hc o' h ht; cases h; unfold Threw at ht; simp [hc] at ht
  · intro st ret calls _ _ _ _ _ _ o' h _
    unfold handler at h
    split at h
    · cases h
    · cases h
      refine ⟨?_, st, rfl⟩
      exact (storeCode_flags ret.withFail).1
  · intro ref calls _ _ _ _ hn o' h ht; cases h; exact absurd ht hn
  · intro ret ref calls _ _ _ _ _ _ hn o' h ht; cases h; exact absurd ht hn
  · intro ret ref x calls _ _ _ _ _ _ _ hn o' h ht; cases h; exact absurd (hstore _ _ _ ht) hn

/-- No exception ever leaves an execution. -/
def C171_full : Prop := ∀ w s, Sane w → w.inited = true → execute w s ≠ .terminate

/-- False: if storing the result throws, and storing the failure made of that too, the process ends. -/
theorem C171_refuted : ¬ C171_full := by
  intro h
  refine h { ex1 with store1 := true, store2 := true } ⟨0, false⟩ ?_ rfl (by decide +kernel)
  exact ⟨ex1_sane.cached, ex1_sane.pollFail, ex1_sane.pollAbort, ex1_sane.getAbort, ex1_sane.discoverAbort, ex1_sane.rider⟩

/-- True as long as storing a failure does not throw. -/
theorem C171_no_exception_partial (w : World) (s : Status) (hi : w.inited = true) (hs : w.store2 = false) : execute w s ≠ .terminate := by
  refine all_returns w s (fun e => e ≠ .terminate) ?_ ?_ ?_ ?_ ?_ ?_ ?_
  · intro h; rw [hi] at h; cases h
  · intro _ _ h; cases h
  · intro c r _ _ _ h; cases h
  · intro st ret calls _ _ _ _ _ _ h
    unfold handler at h
    rw [hs] at h
    cases h
  · intro _ _ _ _ _ _ _ h; cases h
  · intro _ _ _ _ _ _ _ _ _ _ h; cases h
  · intro _ _ _ _ _ _ _ _ _ _ _ _ h; cases h

/-- Nothing is called when the abort flag is up, and nothing after a cache hit; after a miss a rider is processed exactly if the request is
new, and children are polled exactly if the node is active and the rider did not throw. -/
theorem C171_calls (w : World) (s : Status) (o : Out) (hi : w.inited = true) (h : execute w s = .returns o) :
    (w.abort1 = true → o.calls = []) ∧ (w.abort1 = false → (∃ x, w.cache = .ok (some x)) → o.calls = [.checkCache]) ∧
    (w.abort1 = false → w.cache = .ok none → (Call.rider ∈ o.calls ↔ w.newRequest = true ∧ w.rider ≠ none) ∧
      (Call.poll ∈ o.calls ↔ w.active = true ∧ ¬ (w.newRequest = true ∧ w.rider = some .throws))) := by
  -- the calls up to and including polling
  have hadd : ∀ e : End, ∀ o, e = .returns o → ∀ l : List Call, (∃ l', o.calls = l ++ l' ∧ Call.rider ∉ l' ∧ Call.poll ∉ l') →
      (Call.rider ∈ o.calls ↔ Call.rider ∈ l) ∧ (Call.poll ∈ o.calls ↔ Call.poll ∈ l) := by
    intro e o _ l hl
    obtain ⟨l', h1, h2, h3⟩ := hl
    rw [h1]
    simp [h2, h3]
  have hhan : ∀ st ret calls o, handler w st ret calls = .returns o → ∃ l', o.calls = calls ++ l' ∧ Call.rider ∉ l' ∧ Call.poll ∉ l' := by
    intro st ret calls o h
    unfold handler at h
    split at h
    · cases h
    · cases h; exact ⟨_, rfl, by simp, by simp⟩
  have hfin : ∀ st ret ref s x calls o, finish w st ret ref s x calls = .returns o → ∃ l', o.calls = calls ++ l' ∧ Call.rider ∉ l' ∧ Call.poll ∉ l' := by
    intro st ret ref s x calls o h
    unfold finish at h
    split at h
    · exact hhan _ _ _ _ h
    · cases h; exact ⟨_, rfl, by simp, by simp⟩
  have hoff : ∀ st ret ref s x calls o, finishOff w st ret ref s x calls = .returns o → ∃ l', o.calls = calls ++ l' ∧ Call.rider ∉ l' ∧ Call.poll ∉ l' := by
    intro st ret ref s x calls o h
    unfold finishOff at h
    split at h
    · unfold exitAbort at h; cases h; exact ⟨[], (by simp), by simp, by simp⟩
    · exact hfin _ _ _ _ _ _ _ h
  have hmore : ∀ (calls : List Call) k o, k ≠ Call.rider → k ≠ Call.poll → (∃ l', o.calls = (calls ++ [k]) ++ l' ∧ Call.rider ∉ l' ∧ Call.poll ∉ l') →
      ∃ l', (o : Out).calls = calls ++ l' ∧ Call.rider ∉ l' ∧ Call.poll ∉ l' := by
    intro calls k o h1 h2 ⟨l', e, n1, n2⟩
    exact ⟨k :: l', by rw [e]; simp, by simp [n1, Ne.symm h1], by simp [n2, Ne.symm h2]⟩
  have heval : ∀ ret ref s calls o, evaluate w ret ref s calls = .returns o → ∃ l', o.calls = calls ++ l' ∧ Call.rider ∉ l' ∧ Call.poll ∉ l' := by
    intro ret ref s calls
    refine all_evaluate w ret ref s calls (fun e => ∀ o, e = .returns o → ∃ l', o.calls = calls ++ l' ∧ Call.rider ∉ l' ∧ Call.poll ∉ l') ?_ ?_ ?_ ?_ ?_ ?_ ?_ ?_
    · intro _ _ o h; exact hhan _ _ _ _ h
    · intro _ _ _ _ o h; exact hmore _ _ _ (by simp) (by simp) (hhan _ _ _ _ h)
    · intro _ _ _ _ _ _ _ o h; cases h; exact ⟨_, rfl, by simp, by simp⟩
    · intro _ _ _ _ _ _ _ o h; exact hmore _ _ _ (by simp) (by simp) (hoff _ _ _ _ _ _ _ h)
    · intro _ _ _ _ _ o h; exact hmore _ _ _ (by simp) (by simp) (hhan _ _ _ _ h)
    · intro _ _ _ _ _ _ _ o h; exact hmore _ _ _ (by simp) (by simp) (hoff _ _ _ _ _ _ _ h)
    · intro _ _ _ _ o h; exact hoff _ _ _ _ _ _ _ h
    · intro _ o h; exact hoff _ _ _ _ _ _ _ h
  suffices hs : ∀ o', execute w s = .returns o' →
      (w.abort1 = true → o'.calls = []) ∧ (w.abort1 = false → (∃ x, w.cache = .ok (some x)) → o'.calls = [.checkCache]) ∧
      (w.abort1 = false → w.cache = .ok none → (Call.rider ∈ o'.calls ↔ w.newRequest = true ∧ w.rider ≠ none) ∧
        (Call.poll ∈ o'.calls ↔ w.active = true ∧ ¬ (w.newRequest = true ∧ w.rider = some .throws))) from hs o h
  have hbef : ∀ calls, Before w calls → (Call.rider ∈ calls ↔ w.newRequest = true ∧ w.rider ≠ none) ∧ Call.poll ∉ calls ∧ ¬ (w.newRequest = true ∧ w.rider = some .throws) := by
    intro calls hb
    rcases hb with ⟨rfl, hb⟩ | ⟨rfl, hn, x, hx⟩
    · refine ⟨?_, by simp, ?_⟩
      · simp
        rcases hb with hb | hb
        · intro h; rw [hb] at h; cases h
        · intro _; exact hb
      · rintro ⟨h1, h2⟩
        rcases hb with hb | hb
        · rw [hb] at h1; cases h1
        · rw [hb] at h2; cases h2
    · simp [hn, hx]
  refine all_ends w s (fun e => ∀ o', e = .returns o' →
      (w.abort1 = true → o'.calls = []) ∧ (w.abort1 = false → (∃ x, w.cache = .ok (some x)) → o'.calls = [.checkCache]) ∧
      (w.abort1 = false → w.cache = .ok none → (Call.rider ∈ o'.calls ↔ w.newRequest = true ∧ w.rider ≠ none) ∧
        (Call.poll ∈ o'.calls ↔ w.active = true ∧ ¬ (w.newRequest = true ∧ w.rider = some .throws)))) ?_ ?_ ?_ ?_ ?_ ?_ ?_ ?_
  · intro h; rw [hi] at h; cases h
  · intro _ h o' ho
    unfold exitAbort at ho; cases ho
    exact ⟨fun _ => rfl, fun h2 => (by rw [h] at h2; cases h2), fun h2 => (by rw [h] at h2; cases h2)⟩
  · intro _ h hc o' ho
    exact ⟨fun h2 => (by rw [h] at h2; cases h2), fun _ ⟨x, hx⟩ => (by rw [hc] at hx; cases hx), fun _ hx => (by rw [hc] at hx; cases hx)⟩
  · intro c r _ h hc o' ho
    cases ho
    exact ⟨fun h2 => (by rw [h] at h2; cases h2), fun _ _ => rfl, fun _ hx => (by rw [hc] at hx; cases hx)⟩
  · intro _ h hc hn hr o' ho
    refine ⟨fun h2 => (by rw [h] at h2; cases h2), fun _ ⟨x, hx⟩ => (by rw [hc] at hx; cases hx), fun _ _ => ?_⟩
    obtain ⟨e1, e2⟩ := hadd _ o' ho _ (hhan _ _ _ _ ho)
    rw [e1, e2]
    simp [hn, hr]
  · intro st ret ref calls _ h hc hb _ ha o' ho
    refine ⟨fun h2 => (by rw [h] at h2; cases h2), fun _ ⟨x, hx⟩ => (by rw [hc] at hx; cases hx), fun _ _ => ?_⟩
    obtain ⟨e1, e2⟩ := hadd _ o' ho _ (hfin _ _ _ _ _ _ _ ho)
    obtain ⟨b1, b2, b3⟩ := hbef calls hb
    rw [e1, e2]
    exact ⟨b1, iff_of_false b2 (by rw [ha]; simp)⟩
  · intro ret calls _ h hc hb _ ha _ o' ho
    refine ⟨fun h2 => (by rw [h] at h2; cases h2), fun _ ⟨x, hx⟩ => (by rw [hc] at hx; cases hx), fun _ _ => ?_⟩
    obtain ⟨e1, e2⟩ := hadd _ o' ho _ (hhan _ _ _ _ ho)
    obtain ⟨b1, b2, b3⟩ := hbef calls hb
    rw [e1, e2]
    exact ⟨by simpa using b1, iff_of_true (by simp) ⟨ha, b3⟩⟩
  · intro ret ref calls code r _ h hc hb _ ha _
    obtain ⟨b1, b2, b3⟩ := hbef calls hb
    have key : ∀ o', (∃ l', o'.calls = (calls ++ [.poll]) ++ l' ∧ Call.rider ∉ l' ∧ Call.poll ∉ l') →
        (w.abort1 = true → (o' : Out).calls = []) ∧ (w.abort1 = false → (∃ x, w.cache = .ok (some x)) → o'.calls = [.checkCache]) ∧
        (w.abort1 = false → w.cache = .ok none → (Call.rider ∈ o'.calls ↔ w.newRequest = true ∧ w.rider ≠ none) ∧
          (Call.poll ∈ o'.calls ↔ w.active = true ∧ ¬ (w.newRequest = true ∧ w.rider = some .throws))) := by
      intro o' hl
      refine ⟨fun h2 => (by rw [h] at h2; cases h2), fun _ ⟨x, hx⟩ => (by rw [hc] at hx; cases hx), fun _ _ => ?_⟩
      obtain ⟨e1, e2⟩ := hadd (.returns o') o' rfl _ hl
      rw [e1, e2]
      exact ⟨by simpa using b1, iff_of_true (by simp) ⟨ha, b3⟩⟩
    refine ⟨fun _ o' ho => key o' ?_, fun _ _ o' ho => key o' ?_, fun _ _ _ o' ho => key o' (hfin _ _ _ _ _ _ _ ho), fun _ _ _ _ o' ho => key o' (hfin _ _ _ _ _ _ _ ho),
      fun _ _ _ _ o' ho => key o' (heval _ _ _ _ _ ho)⟩
    · unfold exitAbort at ho; cases ho; exact ⟨[], (by simp), by simp, by simp⟩
    · cases ho; exact ⟨[], (by simp), by simp, by simp⟩

/-- The node of the example: its rider's code is forgotten, dependencies are those of the children, its own and those of the
evaluation. -/
example : execute ex1 ⟨5, true⟩ = .returns ⟨⟨true, false, false, false, false, false, 27⟩, some (.other 7), ⟨1, false⟩, none,
    [.checkCache, .rider, .poll, .get, .store ⟨false, false, false, false, false, false, 27⟩ (some (.other 7))]⟩ := by decide +kernel

/-- A deactivated node gives the rider's result, or an empty one. -/
example : execute { ex1 with active := false } ⟨5, true⟩ = .returns ⟨⟨true, false, false, false, false, false, 5⟩, some .empty, ⟨3, false⟩, none,
    [.checkCache, .rider, .store ⟨false, false, false, false, false, false, 5⟩ (some .empty)]⟩ := by decide +kernel

/-- What an evaluation returns: children's code, the node's own mask, that of the evaluation; a result without dependency on the type if asked for. -/
theorem C171_evaluates (w : World) (s : Status) (c1 c2 : Code) (r1 : Option Rd) (r2 : Rd) (hi : w.inited = true) (ha1 : w.abort1 = false) (ha2 : w.abort2 = false) (ha3 : w.abort3 = false)
    (hc : w.cache = .ok none) (hn : w.newRequest = false ∨ w.rider = none) (hact : w.active = true) (hcells : w.hasCells = true) (hagree : w.cellsAgree = true) (hev : w.evaluates = true)
    (hp : w.poll = .ok (c1, r1)) (hp1 : c1.wait = false) (hp2 : c1.fail = false) (hp3 : c1.missing = false) (hg : w.get = .ok (c2, some r2)) (hg1 : c2.wait = false) (hst : w.store1 = false) :
    ∃ o, execute w s = .returns o ∧ o.res = some r2 ∧ o.code.fail = c2.fail ∧ o.code.missing = c2.missing ∧
      o.code.deps = (c1.deps ||| w.ownDeps ||| c2.deps) ||| (if c1.ignoreType || c2.ignoreType then 0 else 1) := by
  have hdo : ∀ calls, doRider w ⟨0, false⟩ calls = afterRider w .cache .zero none ⟨0, false⟩ calls := by
    intro calls
    unfold doRider
    rcases hn with hn | hn
    · rw [hn]; rfl
    · cases w.newRequest
      · rfl
      · rw [hn]; rfl
  unfold execute
  rw [hi, ha1, hc]
  dsimp only [Bool.not_true]
  rw [if_neg (by simp), if_neg (by simp), hdo]
  unfold afterRider pollAnd
  rw [hact, hp, ha2, hcells]
  dsimp only [Bool.not_true]
  have z1 : (Code.zero.or c1).wait = false := by simp [Code.or, Code.zero, hp1]
  have z2 : (Code.zero.or c1).fail = false := by simp [Code.or, Code.zero, hp2]
  have z3 : (Code.zero.or c1).missing = false := by simp [Code.or, Code.zero, hp3]
  rw [if_neg (by simp), if_pos rfl, if_neg (by simp), z1, if_neg (by simp), z2, if_neg (by simp), z3, if_neg (by simp)]
  unfold evaluate
  rw [hcells, hagree, hev, hg]
  dsimp only [Bool.not_true]
  rw [if_pos rfl, if_neg (by simp), if_pos rfl, hg1, if_neg (by simp)]
  unfold finishOff finish
  rw [ha3, hst]
  rw [if_neg (by simp), if_neg (by simp)]
  refine ⟨_, rfl, ?_, ?_, ?_, ?_⟩
  · cases r1 <;> rfl
  · dsimp only [Code.withUpdated]; rw [(storeCode_flags _).1]; simp [Code.or, Code.withDeps, Code.zero, hp2]
  · dsimp only [Code.withUpdated]; rw [(storeCode_flags _).2.1]; simp [Code.or, Code.withDeps, Code.zero, hp3]
  · dsimp only [Code.withUpdated]
    unfold storeCode
    simp only [Code.or, Code.withDeps, Code.zero, Bool.false_or, Nat.zero_or, typeMask]
    cases h : (c1.ignoreType || c2.ignoreType) <;> simp

/-- The abort flag ends an execution where it is tested: at once, after polling. -/
theorem C171_aborts (w : World) (s : Status) (o : Out) (hi : w.inited = true) (h : execute w s = .returns o)
    (ha : w.abort1 = true ∨ w.abort2 = true ∧ Call.poll ∈ o.calls ∧ w.poll ≠ .throws) :
    o.code = ⟨false, false, false, false, true, false, 0⟩ ∧ Call.get ∉ o.calls ∧ ∀ c r, Call.store c r ∉ o.calls := by
  have hhan : ∀ st ret calls o', handler w st ret calls = .returns o' → Call.poll ∉ calls → Call.poll ∉ o'.calls := by
    intro st ret calls o' h hn
    unfold handler at h
    split at h
    · cases h
    · cases h; simp [hn]
  have hbef : ∀ calls, Before w calls → Call.poll ∉ calls ∧ Call.get ∉ calls ∧ ∀ c r, Call.store c r ∉ calls := by
    intro calls hb
    rcases hb with ⟨rfl, _⟩ | ⟨rfl, _⟩ <;> simp
  suffices hs : ∀ o', execute w s = .returns o' → (w.abort1 = true ∨ w.abort2 = true ∧ Call.poll ∈ o'.calls ∧ w.poll ≠ .throws) →
      o'.code = ⟨false, false, false, false, true, false, 0⟩ ∧ Call.get ∉ o'.calls ∧ ∀ c r, Call.store c r ∉ o'.calls from hs o h ha
  refine all_ends w s (fun e => ∀ o', e = .returns o' → (w.abort1 = true ∨ w.abort2 = true ∧ Call.poll ∈ o'.calls ∧ w.poll ≠ .throws) →
      o'.code = ⟨false, false, false, false, true, false, 0⟩ ∧ Call.get ∉ o'.calls ∧ ∀ c r, Call.store c r ∉ o'.calls) ?_ ?_ ?_ ?_ ?_ ?_ ?_ ?_
  · intro h; rw [hi] at h; cases h
  · intro _ _ o' h _; unfold exitAbort at h; cases h; exact ⟨rfl, by simp, by simp⟩
  · intro _ h1 _ o' h hx
    rcases hx with hx | ⟨_, hx, _⟩
    · rw [h1] at hx; cases hx
    · exact absurd hx (hhan _ _ _ _ h (by simp))
  · intro c r _ h1 _ o' h hx
    cases h
    rcases hx with hx | ⟨_, hx, _⟩
    · rw [h1] at hx; cases hx
    · simp at hx
  · intro _ h1 _ _ _ o' h hx
    rcases hx with hx | ⟨_, hx, _⟩
    · rw [h1] at hx; cases hx
    · exact absurd hx (hhan _ _ _ _ h (by simp))
  · intro st ret ref calls _ h1 _ hb _ _ o' h hx
    rcases hx with hx | ⟨_, hx, _⟩
    · rw [h1] at hx; cases hx
    · exfalso
      unfold finish at h
      split at h
      · exact hhan _ _ _ _ h (hbef calls hb).1 hx
      · cases h
        simp [(hbef calls hb).1] at hx
  · intro ret calls _ h1 _ _ _ _ ht o' h hx
    rcases hx with hx | ⟨_, _, hx⟩
    · rw [h1] at hx; cases hx
    · exact absurd ht hx
  · intro ret ref calls code r _ h1 _ hb _ _ _
    have hno : ∀ e : End, w.abort2 = false → ∀ o', e = .returns o' → (w.abort1 = true ∨ w.abort2 = true ∧ Call.poll ∈ o'.calls ∧ w.poll ≠ .throws) →
        o'.code = ⟨false, false, false, false, true, false, 0⟩ ∧ Call.get ∉ o'.calls ∧ ∀ c r, Call.store c r ∉ o'.calls := by
      intro e h2 o' _ hx
      rcases hx with hx | ⟨hx, _⟩
      · rw [h1] at hx; cases hx
      · rw [h2] at hx; cases hx
    refine ⟨fun _ o' h _ => ?_, fun h2 _ => hno _ h2, fun h2 _ _ => hno _ h2, fun h2 _ _ _ => hno _ h2, fun h2 _ _ _ => hno _ h2⟩
    unfold exitAbort at h
    cases h
    obtain ⟨_, b2, b3⟩ := hbef calls hb
    exact ⟨rfl, by simp [b2], by simp [b3]⟩

/-- Data missing in children make a missing result, and nothing is evaluated. -/
theorem C171_missing (w : World) (s : Status) (o : Out) (c1 : Code) (r1 : Option Rd) (hw : Sane w) (hi : w.inited = true) (ha1 : w.abort1 = false) (ha2 : w.abort2 = false)
    (hc : w.cache = .ok none) (hr : w.rider ≠ some .throws) (hact : w.active = true) (hp : w.poll = .ok (c1, r1)) (hp1 : c1.wait = false) (hp2 : c1.fail = false) (hp3 : c1.missing = true)
    (hst : w.store1 = false) (h : execute w s = .returns o) : o.res = some .missing ∧ o.code.missing = true ∧ o.code.fail = false ∧ Call.get ∉ o.calls := by
  suffices hs : ∀ o', execute w s = .returns o' → o'.res = some .missing ∧ o'.code.missing = true ∧ o'.code.fail = false ∧ Call.get ∉ o'.calls from hs o h
  refine all_ends w s (fun e => ∀ o', e = .returns o' → o'.res = some .missing ∧ o'.code.missing = true ∧ o'.code.fail = false ∧ Call.get ∉ o'.calls) ?_ ?_ ?_ ?_ ?_ ?_ ?_ ?_
  · intro h; rw [hi] at h; cases h
  · intro _ h; rw [ha1] at h; cases h
  · intro _ _ h; rw [hc] at h; cases h
  · intro _ _ _ _ h; rw [hc] at h; cases h
  · intro _ _ _ _ h; exact absurd h hr
  · intro _ _ _ _ _ _ _ _ _ h; rw [hact] at h; cases h
  · intro _ _ _ _ _ _ _ _ h; rw [hp] at h; cases h
  · intro ret ref calls code r _ _ _ hb hpre _ hpo
    rw [hp] at hpo
    injection hpo with hpo
    injection hpo with e1 e2
    subst e1
    obtain ⟨f1, f2, f3, f4⟩ := hpre.flags hw
    have z1 : (ret.or c1).wait = false := by simp [Code.or, f3, hp1]
    have z2 : (ret.or c1).fail = false := by simp [Code.or, f1, hp2]
    have z3 : (ret.or c1).missing = true := by simp [Code.or, hp3]
    refine ⟨fun h => (by rw [ha2] at h; cases h), fun _ h => (by rw [z1] at h; cases h), fun _ _ h => (by rw [z2] at h; cases h), fun _ _ _ _ o' h => ?_,
      fun _ _ _ h => (by rw [z3] at h; cases h)⟩
    unfold finish at h
    rw [hst, if_neg (by simp)] at h
    cases h
    refine ⟨rfl, ?_, ?_, ?_⟩
    · exact (storeCode_flags _).2.1.trans z3
    · exact (storeCode_flags _).1.trans z2
    · rcases hb with ⟨rfl, _⟩ | ⟨rfl, _⟩ <;> simp

/-! ## C172: the status says how it ended -/

/-- After an execution not answered from the cache the status says how it ended. -/
def C172_full : Prop :=
  ∀ w s o, Sane w → execute w s = .returns o → (∀ c r, w.cache ≠ .ok (some (c, r))) → o.status.res = StatusFor w o.code ∧ o.status.fromCache = false

/-- False: after a failure, an execution that meets the abort flag at once leaves bits that are no status at all. -/
theorem C172_refuted : ¬ C172_full := by
  intro h
  have := (h { ex1 with abort1 := true } ⟨5, false⟩ ⟨⟨false, false, false, false, true, false, 0⟩, none, ⟨7, false⟩, none, []⟩ ?_ rfl (by simp [ex1])).1
  · revert this; decide +kernel
  · exact ⟨ex1_sane.cached, ex1_sane.pollFail, ex1_sane.pollAbort, ex1_sane.getAbort, ex1_sane.discoverAbort, ex1_sane.rider⟩

/-- False again: a node that finds its data missing has the status of one that is well. -/
theorem C172_missing_is_ok : ∃ w o, Sane w ∧ w.abort1 = false ∧ execute w ⟨0, false⟩ = .returns o ∧ o.code.missing = true ∧ o.status.res = 1 := by
  refine ⟨{ ex1 with get := .ok (⟨false, false, true, false, false, false, 0⟩, some (.other 7)) },
    ⟨⟨true, false, true, false, false, false, 11⟩, some (.other 7), ⟨1, false⟩, none,
      [.checkCache, .rider, .poll, .get, .store ⟨false, false, true, false, false, false, 11⟩ (some (.other 7))]⟩, ?_, rfl, by decide +kernel, rfl, rfl⟩
  refine ⟨ex1_sane.cached, ex1_sane.pollFail, ex1_sane.pollAbort, ?_, ex1_sane.discoverAbort, ex1_sane.rider⟩
  intro c r h
  simp at h
  obtain ⟨rfl, rfl⟩ := h
  simp

/-- True unless the abort flag is up at once or the node itself reports missing data; answers from the cache keep the status and say so. -/
theorem C172_status_partial (w : World) (s : Status) (o : Out) (hw : Sane w) (h : execute w s = .returns o) (ha : w.abort1 = false)
    (hg : ∀ c r, w.get = .ok (c, r) → c.missing = false) (hd : ∀ c r, w.discover = .ok (c, r) → c.missing = false) :
    ((∀ c r, w.cache ≠ .ok (some (c, r))) → o.status.res = StatusFor w o.code ∧ o.status.fromCache = false) ∧
    (∀ c r, w.cache = .ok (some (c, r)) → o.status.res = s.res ∧ o.status.fromCache = true ∧ o.code = c ∧ o.res = r) := by
  suffices hs : ∀ o', execute w s = .returns o' →
      ((∀ c r, w.cache ≠ .ok (some (c, r))) → o'.status.res = StatusFor w o'.code ∧ o'.status.fromCache = false) ∧
      (∀ c r, w.cache = .ok (some (c, r)) → o'.status.res = s.res ∧ o'.status.fromCache = true ∧ o'.code = c ∧ o'.res = r) from hs o h
  refine all_returns w s (fun e => ∀ o', e = .returns o' →
      ((∀ c r, w.cache ≠ .ok (some (c, r))) → o'.status.res = StatusFor w o'.code ∧ o'.status.fromCache = false) ∧
      (∀ c r, w.cache = .ok (some (c, r)) → o'.status.res = s.res ∧ o'.status.fromCache = true ∧ o'.code = c ∧ o'.res = r)) ?_ ?_ ?_ ?_ ?_ ?_ ?_
  · intro _ o' h; cases h
  · intro _ h; rw [ha] at h; cases h
  · intro c r _ _ hc o' h
    cases h
    refine ⟨fun hf => absurd hc (hf c r), fun c' r' hc' => ?_⟩
    rw [hc] at hc'
    injection hc' with hc'
    injection hc' with hc'
    injection hc' with h1 h2
    exact ⟨rfl, rfl, h1, h2⟩
  · intro st ret calls _ _ hc _ hr _ o' h
    unfold handler at h
    split at h
    · cases h
    · cases h
      refine ⟨fun _ => ⟨?_, rfl⟩, fun c r hc' => absurd hc' (hc c r)⟩
      obtain ⟨f1, f2, f3, f4, _⟩ := storeCode_flags ret.withFail
      unfold StatusFor Code.withUpdated
      dsimp only
      rw [f4, f3, f1]
      simp [Code.withFail, (hr hw).1, (hr hw).2]
  · intro ref calls _ _ hc _ _ o' h
    cases h
    exact ⟨fun _ => ⟨rfl, rfl⟩, fun c r hc' => by rw [hc] at hc'; cases hc'⟩
  · intro ret ref calls _ _ hc hwt hab _ _ o' h
    cases h
    refine ⟨fun _ => ⟨?_, rfl⟩, fun c r hc' => (by rw [hc] at hc'; cases hc')⟩
    unfold StatusFor
    dsimp only
    rw [hab hw, hwt]
    rfl
  · intro ret ref x calls _ _ hc _ hr hx _ _ o' h
    cases h
    refine ⟨fun _ => ⟨?_, rfl⟩, fun c r hc' => (by rw [hc] at hc'; cases hc')⟩
    obtain ⟨f1, f2, f3, f4, _⟩ := storeCode_flags ret
    unfold StatusFor Code.withUpdated
    dsimp only
    rw [f4, f3, f1, f2, (hr hw).1, (hr hw).2.1]
    exact hx hw hg hd

/-! ## C173: failures are posted -/

/-- A failure of the node itself is posted as an error. -/
def C173_full : Prop :=
  ∀ w s o, Sane w → execute w s = .returns o → (∀ c r, w.cache ≠ .ok (some (c, r))) → (∀ c r, w.poll = .ok (c, r) → c.fail = false) → o.code.fail = true → o.posted ≠ none

/-- False: of an evaluation that returns a failure nothing is posted, though the message is made. -/
theorem C173_refuted : ¬ C173_full := by
  intro h
  refine h { ex1 with get := .ok (⟨false, false, false, false, false, true, 0⟩, some (.other 7)) } ⟨0, false⟩
    ⟨⟨true, false, false, false, false, true, 11⟩, some (.other 7), ⟨5, false⟩, none,
      [.checkCache, .rider, .poll, .get, .store ⟨false, false, false, false, false, true, 11⟩ (some (.other 7))]⟩ ?_ (by decide +kernel) (by simp [ex1]) ?_ rfl rfl
  · refine ⟨ex1_sane.cached, ex1_sane.pollFail, ex1_sane.pollAbort, ?_, ex1_sane.discoverAbort, ex1_sane.rider⟩
    intro c r h
    simp at h
    obtain ⟨rfl, rfl⟩ := h
    simp
  · intro c r h
    simp [ex1] at h
    obtain ⟨rfl, rfl⟩ := h
    rfl

/-- True of exceptions: whatever throws is posted, with the stage that the result names, and nothing else is posted. -/
theorem C173_posted_partial (w : World) (s : Status) (o : Out) (h : execute w s = .returns o) :
    (Threw w o.calls → o.posted ≠ none) ∧ (∀ st, o.posted = some st → o.code.fail = true ∧ o.res = some (.failure st) ∧ (w.store1 = true ∨ w.cellsAgree = false ∨ Threw w o.calls)) := by
  suffices hs : ∀ o', execute w s = .returns o' →
      (Threw w o'.calls → o'.posted ≠ none) ∧ (∀ st, o'.posted = some st → o'.code.fail = true ∧ o'.res = some (.failure st) ∧ (w.store1 = true ∨ w.cellsAgree = false ∨ Threw w o'.calls)) from
    hs o h
  have hstore : ∀ l c r, Threw w (l ++ [.store c r]) ↔ Threw w l := by
    intro l c r
    unfold Threw
    simp
  refine all_returns w s (fun e => ∀ o', e = .returns o' →
      (Threw w o'.calls → o'.posted ≠ none) ∧ (∀ st, o'.posted = some st → o'.code.fail = true ∧ o'.res = some (.failure st) ∧ (w.store1 = true ∨ w.cellsAgree = false ∨ Threw w o'.calls))) ?_ ?_ ?_ ?_ ?_ ?_ ?_
  · intro _ o' h; cases h
  · intro _ _ o' h; cases h; exact ⟨fun ht => (by unfold Threw at ht; simp at ht), fun st h => (by cases h)⟩
  · intro c r _ _ hc o' h; cases h; exact ⟨fun ht => (by unfold Threw at ht; simp [hc] at ht), fun st h => (by cases h)⟩
  · intro st ret calls _ _ _ _ _ ht o' h
    unfold handler at h
    split at h
    · cases h
    · cases h
      refine ⟨fun _ => by simp, fun st' hst => ?_⟩
      dsimp only at hst
      injection hst with hst
      subst hst
      refine ⟨(storeCode_flags ret.withFail).1, rfl, ?_⟩
      rw [hstore]
      exact ht
  · intro ref calls _ _ _ _ hn o' h; cases h; exact ⟨fun ht => absurd ht hn, fun st h => (by cases h)⟩
  · intro ret ref calls _ _ _ _ _ _ hn o' h; cases h; exact ⟨fun ht => absurd ht hn, fun st h => (by cases h)⟩
  · intro ret ref x calls _ _ _ _ _ _ _ hn o' h; cases h; exact ⟨fun ht => absurd ((hstore _ _ _).1 ht) hn, fun st h => (by cases h)⟩

/-- An exception in the evaluation. -/
example : execute { ex1 with get := .throws } ⟨1, false⟩ = .returns ⟨⟨true, false, false, false, false, true, 11⟩, some (.failure .getting), ⟨5, false⟩, some .getting,
    [.checkCache, .rider, .poll, .get, .store ⟨false, false, false, false, false, true, 11⟩ (some (.failure .getting))]⟩ := by decide +kernel

end Verif.Execute
