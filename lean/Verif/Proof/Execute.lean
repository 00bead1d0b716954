import Verif.Spec.Execute
/-! # All ways through one execution -/
namespace Verif.Execute

theorem attach_some (r : Option Rd) (x : Rd) : attach (some x) r ≠ none := by cases r <;> simp [attach]

theorem attach_ne (a r : Option Rd) (h : r ≠ none) : attach a r ≠ none := by
  cases r with
  | none => exact absurd rfl h
  | some x => simp [attach]

/-- The code before polling: that of the rider. -/
def PreOk (w : World) (ret : Code) : Prop := ret = .zero ∨ ∃ r, w.rider = some (.ok (ret, r))

theorem PreOk.flags {w : World} {ret : Code} (hw : Sane w) (h : PreOk w ret) : ret.fail = false ∧ ret.missing = false ∧ ret.wait = false ∧ ret.abort = false := by
  rcases h with rfl | ⟨r, h⟩
  · exact ⟨rfl, rfl, rfl, rfl⟩
  · exact hw.rider _ _ h

/-- The calls before polling, and how they are decided on. -/
def Before (w : World) (calls : List Call) : Prop :=
  (calls = [.checkCache] ∧ (w.newRequest = false ∨ w.rider = none)) ∨ (calls = [.checkCache, .rider] ∧ w.newRequest = true ∧ ∃ x, w.rider = some (.ok x))

/-- To show something of how an execution ends, show it of every way it can end. -/
theorem all_ends (w : World) (s : Status) (P : End → Prop)
    (h_term : w.inited = false → P .terminate)
    (h_abort : w.inited = true → w.abort1 = true → P (exitAbort none s []))
    (h_cacheThrows : w.inited = true → w.abort1 = false → w.cache = .throws → P (handler w .cache .zero [.checkCache]))
    (h_hit : ∀ c r, w.inited = true → w.abort1 = false → w.cache = .ok (some (c, r)) → P (.returns ⟨c, r, ⟨s.res, true⟩, none, [.checkCache]⟩))
    (h_riderThrows : w.inited = true → w.abort1 = false → w.cache = .ok none → w.newRequest = true → w.rider = some .throws → P (handler w .rider .zero [.checkCache, .rider]))
    (h_inactive : ∀ st ret ref calls, w.inited = true → w.abort1 = false → w.cache = .ok none → Before w calls → PreOk w ret → w.active = false →
      P (finish w st ret (attach (some .empty) ref) ⟨0, false⟩ 3 calls))
    (h_pollThrows : ∀ ret calls, w.inited = true → w.abort1 = false → w.cache = .ok none → Before w calls → PreOk w ret → w.active = true → w.poll = .throws →
      P (handler w .polling ret (calls ++ [.poll])))
    (h_poll : ∀ ret ref calls code r, w.inited = true → w.abort1 = false → w.cache = .ok none → Before w calls → PreOk w ret → w.active = true → w.poll = .ok (code, r) →
      (w.abort2 = true → P (exitAbort (attach ref r) ⟨0, false⟩ (calls ++ [.poll]))) ∧
      (w.abort2 = false → (ret.or code).wait = true → P (.returns ⟨ret.or code, attach ref r, ⟨2, false⟩, none, calls ++ [.poll]⟩)) ∧
      (w.abort2 = false → (ret.or code).wait = false → (ret.or code).fail = true → P (finish w .polling (ret.or code) (attach ref r) ⟨0, false⟩ 5 (calls ++ [.poll]))) ∧
      (w.abort2 = false → (ret.or code).wait = false → (ret.or code).fail = false → (ret.or code).missing = true →
        P (finish w .polling (ret.or code) (some .missing) ⟨0, false⟩ 4 (calls ++ [.poll]))) ∧
      (w.abort2 = false → (ret.or code).wait = false → (ret.or code).fail = false → (ret.or code).missing = false →
        P (evaluate w ((ret.or code).withDeps w.ownDeps) (attach ref r) ⟨0, false⟩ (calls ++ [.poll])))) :
    P (execute w s) := by
  have hpoll : ∀ st ret ref calls, w.inited = true → w.abort1 = false → w.cache = .ok none → Before w calls → PreOk w ret → P (afterRider w st ret ref ⟨0, false⟩ calls) := by
    intro st ret ref calls i1 i2 i3 hb hr
    unfold afterRider
    cases ha : w.active with
    | false => exact h_inactive st ret ref calls i1 i2 i3 hb hr ha
    | true =>
      have hr2 : PreOk w (if w.hasCells then .zero else ret) := by
        split
        · exact Or.inl rfl
        · exact hr
      generalize (if w.hasCells then Code.zero else ret) = ret2 at hr2
      simp only [Bool.not_true, Bool.false_eq_true, if_false]
      unfold pollAnd
      cases hp : w.poll with
      | throws => exact h_pollThrows ret2 calls i1 i2 i3 hb hr2 ha hp
      | ok x =>
        obtain ⟨code, r⟩ := x
        obtain ⟨a1, a2, a3, a4, a5⟩ := h_poll ret2 ref calls code r i1 i2 i3 hb hr2 ha hp
        dsimp only
        cases b1 : w.abort2 with
        | true => rw [if_pos rfl]; exact a1 b1
        | false =>
          rw [if_neg (by simp)]
          cases b2 : (ret2.or code).wait with
          | true => rw [if_pos rfl]; exact a2 b1 b2
          | false =>
            rw [if_neg (by simp)]
            cases b3 : (ret2.or code).fail with
            | true => rw [if_pos rfl]; exact a3 b1 b2 b3
            | false =>
              rw [if_neg (by simp)]
              cases b4 : (ret2.or code).missing with
              | true => rw [if_pos rfl]; exact a4 b1 b2 b3 b4
              | false => rw [if_neg (by simp)]; exact a5 b1 b2 b3 b4
  unfold execute
  cases i1 : w.inited with
  | false => exact h_term i1
  | true =>
    simp only [Bool.not_true, Bool.false_eq_true, if_false]
    cases i2 : w.abort1 with
    | true => rw [if_pos rfl]; exact h_abort i1 i2
    | false =>
      rw [if_neg (by simp)]
      cases i3 : w.cache with
      | throws => exact h_cacheThrows i1 i2 i3
      | ok x =>
        cases x with
        | some y => exact h_hit y.1 y.2 i1 i2 i3
        | none =>
          dsimp only
          unfold doRider
          cases hn : w.newRequest with
          | false => exact hpoll _ _ _ _ i1 i2 i3 (Or.inl ⟨rfl, Or.inl hn⟩) (Or.inl rfl)
          | true =>
            rw [if_pos rfl]
            cases hr : w.rider with
            | none => exact hpoll _ _ _ _ i1 i2 i3 (Or.inl ⟨rfl, Or.inr hr⟩) (Or.inl rfl)
            | some e =>
              cases e with
              | throws => exact h_riderThrows i1 i2 i3 hn hr
              | ok x =>
                obtain ⟨code, r⟩ := x
                exact hpoll _ _ _ _ i1 i2 i3 (Or.inr ⟨rfl, hn, ⟨_, hr⟩⟩) (Or.inr ⟨r, hr⟩)

/-- The same for evaluation. -/
theorem all_evaluate (w : World) (ret : Code) (ref : Option Rd) (s : Status) (calls : List Call) (P : End → Prop)
    (h_cells : w.hasCells = true → w.cellsAgree = false → P (handler w .polling ret calls))
    (h_getThrows : w.hasCells = true → w.cellsAgree = true → w.evaluates = true → w.get = .throws → P (handler w .getting ret (calls ++ [.get])))
    (h_wait : ∀ code r, w.hasCells = true → w.cellsAgree = true → w.evaluates = true → w.get = .ok (code, r) → code.wait = true →
      P (.returns ⟨ret.or code, attach ref r, s.or 2, none, calls ++ [.get]⟩))
    (h_get : ∀ code r, w.hasCells = true → w.cellsAgree = true → w.evaluates = true → w.get = .ok (code, r) → code.wait = false →
      P (finishOff w .getting (ret.or code) (attach ref r) s (if (ret.or code).fail then 5 else 1) (calls ++ [.get])))
    (h_discThrows : w.hasCells = true → w.cellsAgree = true → w.evaluates = false → w.discovers = true → w.discover = .throws → P (handler w .discovering ret (calls ++ [.discover])))
    (h_disc : ∀ code r, w.hasCells = true → w.cellsAgree = true → w.evaluates = false → w.discovers = true → w.discover = .ok (code, r) →
      P (finishOff w .discovering ((ret.or code).withDeps w.ownDeps) (attach ref r) s (if (ret.or code).fail then 5 else 1) (calls ++ [.discover])))
    (h_neither : w.hasCells = true → w.cellsAgree = true → w.evaluates = false → w.discovers = false → P (finishOff w .polling ret ref s (if ret.fail then 5 else 1) calls))
    (h_noCells : w.hasCells = false → P (finishOff w .polling ret ref s 3 calls)) : P (evaluate w ret ref s calls) := by
  unfold evaluate
  cases c1 : w.hasCells with
  | false => rw [if_neg (by simp)]; exact h_noCells c1
  | true =>
    rw [if_pos rfl]
    cases c2 : w.cellsAgree with
    | false => exact h_cells c1 c2
    | true =>
      simp only [Bool.not_true, Bool.false_eq_true, if_false]
      cases c3 : w.evaluates with
      | true =>
        rw [if_pos rfl]
        cases hg : w.get with
        | throws => exact h_getThrows c1 c2 c3 hg
        | ok x =>
          obtain ⟨code, r⟩ := x
          dsimp only
          cases hc : code.wait with
          | true => rw [if_pos rfl]; exact h_wait code r c1 c2 c3 hg hc
          | false => rw [if_neg (by simp)]; exact h_get code r c1 c2 c3 hg hc
      | false =>
        rw [if_neg (by simp)]
        cases c4 : w.discovers with
        | true =>
          rw [if_pos rfl]
          cases hg : w.discover with
          | throws => exact h_discThrows c1 c2 c3 c4 hg
          | ok x =>
            obtain ⟨code, r⟩ := x
            exact h_disc code r c1 c2 c3 c4 hg
        | false => rw [if_neg (by simp)]; exact h_neither c1 c2 c3 c4

theorem storeCode_flags (c : Code) : (storeCode c).fail = c.fail ∧ (storeCode c).missing = c.missing ∧ (storeCode c).wait = c.wait ∧ (storeCode c).abort = c.abort ∧
    (storeCode c).updated = c.updated ∧ (storeCode c).ignoreType = c.ignoreType := by
  unfold storeCode
  split <;> exact ⟨rfl, rfl, rfl, rfl, rfl, rfl⟩

/-- The same, down to how the function returns: an exception, an abort, a wait, a stored result. -/
theorem all_returns (w : World) (s : Status) (P : End → Prop)
    (h_term : w.inited = false → P .terminate)
    (h_abort0 : w.inited = true → w.abort1 = true → P (exitAbort none s []))
    (h_hit : ∀ c r, w.inited = true → w.abort1 = false → w.cache = .ok (some (c, r)) → P (.returns ⟨c, r, ⟨s.res, true⟩, none, [.checkCache]⟩))
    (h_throws : ∀ st ret calls, w.inited = true → w.abort1 = false → (∀ c r, w.cache ≠ .ok (some (c, r))) → (∀ c r, Call.store c r ∉ calls) →
      (Sane w → ret.wait = false ∧ ret.abort = false) →
      (w.store1 = true ∨ w.cellsAgree = false ∨ Threw w calls) → P (handler w st ret calls))
    (h_abort : ∀ ref calls, w.inited = true → w.abort1 = false → w.cache = .ok none → (∀ c r, Call.store c r ∉ calls) → ¬ Threw w calls →
      P (.returns ⟨⟨false, false, false, false, true, false, 0⟩, ref, ⟨3, false⟩, none, calls⟩))
    (h_wait : ∀ ret ref calls, w.inited = true → w.abort1 = false → w.cache = .ok none → ret.wait = true → (Sane w → ret.abort = false) → (∀ c r, Call.store c r ∉ calls) → ¬ Threw w calls →
      P (.returns ⟨ret, ref, ⟨2, false⟩, none, calls⟩))
    (h_stored : ∀ ret ref x calls, w.inited = true → w.abort1 = false → w.cache = .ok none → w.store1 = false → (Sane w → ret.wait = false ∧ ret.abort = false ∧ ref ≠ none) →
      (Sane w → (∀ c r, w.get = .ok (c, r) → c.missing = false) → (∀ c r, w.discover = .ok (c, r) → c.missing = false) →
        x = if ret.fail then 5 else if ret.missing then 4 else if w.active && w.hasCells then 1 else 3) →
      (∀ c r, Call.store c r ∉ calls) → ¬ Threw w calls →
      P (.returns ⟨(storeCode ret).withUpdated, ref, ⟨x, false⟩, none, calls ++ [.store (storeCode ret).noUpdated ref]⟩)) :
    P (execute w s) := by
  have hbs : ∀ calls, Before w calls → ∀ c r, Call.store c r ∉ calls := by
    intro calls hb c r hm
    rcases hb with ⟨rfl, _⟩ | ⟨rfl, _⟩ <;> simp at hm
  have hbt : ∀ calls, w.cache = .ok none → Before w calls → (∀ x ∈ calls, x = .checkCache ∨ x = .rider ∧ w.rider ≠ some .throws) := by
    intro calls hc hb x hx
    rcases hb with ⟨rfl, _⟩ | ⟨rfl, _, y, hy⟩
    · simp at hx; exact Or.inl hx
    · simp at hx
      rcases hx with hx | hx
      · exact Or.inl hx
      · exact Or.inr ⟨hx, by rw [hy]; simp⟩
  have hnt : ∀ calls, w.cache = .ok none → (∀ x ∈ calls, x = .checkCache ∨ x = .rider ∧ w.rider ≠ some .throws ∨ x = .poll ∧ w.poll ≠ .throws ∨ x = .get ∧ w.get ≠ .throws ∨
      x = .discover ∧ w.discover ≠ .throws) → ¬ Threw w calls := by
    intro calls hc hx ht
    rcases ht with ⟨hm, ht⟩ | ⟨hm, ht⟩ | ⟨hm, ht⟩ | ⟨hm, ht⟩ | ⟨hm, ht⟩
    · rw [hc] at ht; cases ht
    all_goals
      have := hx _ hm
      simp [ht] at this
  have hfin : ∀ st ret ref x calls, w.inited = true → w.abort1 = false → w.cache = .ok none → (Sane w → ret.wait = false ∧ ret.abort = false ∧ ref ≠ none) →
      (Sane w → (∀ c r, w.get = .ok (c, r) → c.missing = false) → (∀ c r, w.discover = .ok (c, r) → c.missing = false) →
        x = if ret.fail then 5 else if ret.missing then 4 else if w.active && w.hasCells then 1 else 3) →
      (∀ c r, Call.store c r ∉ calls) → ¬ Threw w calls → P (finish w st ret ref ⟨0, false⟩ x calls) := by
    intro st ret ref x calls i1 i2 i3 hr hx hs ht
    unfold finish
    cases h : w.store1 with
    | true =>
      rw [if_pos rfl]
      exact h_throws st ret calls i1 i2 (by rw [i3]; simp) hs (fun hw => ⟨(hr hw).1, (hr hw).2.1⟩) (Or.inl h)
    | false =>
      rw [if_neg (by simp)]
      have : (⟨0, false⟩ : Status).or x = ⟨x, false⟩ := by unfold Status.or; simp
      rw [this]
      exact h_stored ret ref x calls i1 i2 i3 h hr hx hs ht
  have hab : ∀ ref calls, w.inited = true → w.abort1 = false → w.cache = .ok none → (∀ c r, Call.store c r ∉ calls) → ¬ Threw w calls → P (exitAbort ref ⟨0, false⟩ calls) := by
    intro ref calls i1 i2 i3 hs ht
    unfold exitAbort
    exact h_abort ref calls i1 i2 i3 hs ht
  refine all_ends w s P h_term h_abort0 ?_ h_hit ?_ ?_ ?_ ?_
  · intro i1 i2 i3
    exact h_throws _ _ _ i1 i2 (by rw [i3]; simp) (by simp) (fun _ => ⟨rfl, rfl⟩) (Or.inr (Or.inr (Or.inl ⟨by simp, i3⟩)))
  · intro i1 i2 i3 hn hr
    exact h_throws _ _ _ i1 i2 (by rw [i3]; simp) (by simp) (fun _ => ⟨rfl, rfl⟩) (Or.inr (Or.inr (Or.inr (Or.inl ⟨by simp, hr⟩))))
  · intro st ret ref calls i1 i2 i3 hb hp ha
    refine hfin st ret _ 3 calls i1 i2 i3 (fun hw => ?_) (fun hw _ _ => ?_) (hbs calls hb) (hnt calls i3 fun x hx => ?_)
    · exact ⟨(hp.flags hw).2.2.1, (hp.flags hw).2.2.2, attach_some _ _⟩
    · rw [(hp.flags hw).1, (hp.flags hw).2.1, ha]; simp
    · rcases hbt calls i3 hb x hx with h | h
      · exact Or.inl h
      · exact Or.inr (Or.inl h)
  · intro ret calls i1 i2 i3 hb hp ha ht
    refine h_throws _ _ _ i1 i2 (by rw [i3]; simp) ?_ (fun hw => ⟨(hp.flags hw).2.2.1, (hp.flags hw).2.2.2⟩) (Or.inr (Or.inr (Or.inr (Or.inr (Or.inl ⟨by simp, ht⟩)))))
    intro c r hm
    rcases List.mem_append.1 hm with hm | hm
    · exact hbs calls hb c r hm
    · simp at hm
  · intro ret ref calls code r i1 i2 i3 hb hp ha hpo
    have hs1 : ∀ c r, Call.store c r ∉ calls ++ [.poll] := by
      intro c r hm
      rcases List.mem_append.1 hm with hm | hm
      · exact hbs calls hb c r hm
      · simp at hm
    have ht1 : ∀ x ∈ calls ++ [.poll], x = .checkCache ∨ x = .rider ∧ w.rider ≠ some .throws ∨ x = .poll ∧ w.poll ≠ .throws ∨ x = .get ∧ w.get ≠ .throws ∨
        x = .discover ∧ w.discover ≠ .throws := by
      intro x hx
      rcases List.mem_append.1 hx with hx | hx
      · rcases hbt calls i3 hb x hx with h | h
        · exact Or.inl h
        · exact Or.inr (Or.inl h)
      · simp at hx
        exact Or.inr (Or.inr (Or.inl ⟨hx, by rw [hpo]; simp⟩))
    have habt : Sane w → w.abort2 = false → (ret.or code).abort = false := by
      intro hw h2
      unfold Code.or
      dsimp only
      rw [(hp.flags hw).2.2.2, Bool.false_or]
      cases h : code.abort with
      | false => rfl
      | true => rw [hw.pollAbort code r hpo h] at h2; cases h2
    refine ⟨fun _ => hab _ _ i1 i2 i3 hs1 (hnt _ i3 ht1), ?_, ?_, ?_, ?_⟩
    · intro a2 hwt
      exact h_wait _ _ _ i1 i2 i3 hwt (fun hw => habt hw a2) hs1 (hnt _ i3 ht1)
    · intro a2 hwt hf
      refine hfin _ _ _ 5 _ i1 i2 i3 (fun hw => ⟨hwt, habt hw a2, ?_⟩) (fun _ _ _ => by rw [hf]; rfl) hs1 (hnt _ i3 ht1)
      refine attach_ne _ _ (hw.pollFail code r hpo ?_)
      have := hf
      unfold Code.or at this
      dsimp only at this
      rw [(hp.flags hw).1, Bool.false_or] at this
      exact this
    · intro a2 hwt hf hm
      exact hfin _ _ _ 4 _ i1 i2 i3 (fun hw => ⟨hwt, habt hw a2, by simp⟩) (fun _ _ _ => by rw [hf, hm]; rfl) hs1 (hnt _ i3 ht1)
    · intro a2 hwt hf hm
      -- evaluation
      generalize hret : (ret.or code).withDeps w.ownDeps = ret2
      have e1 : ret2.wait = false := by rw [← hret]; exact hwt
      have e2 : ret2.fail = false := by rw [← hret]; exact hf
      have e3 : ret2.missing = false := by rw [← hret]; exact hm
      have e4 : Sane w → ret2.abort = false := fun hw => by rw [← hret]; exact habt hw a2
      generalize attach ref r = ref2
      generalize hcalls : calls ++ [.poll] = calls2 at hs1 ht1
      have hoff : ∀ st ret3 ref3 x calls3, (Sane w → w.abort3 = false → ret3.wait = false ∧ ret3.abort = false) →
          (Sane w → (∀ c r, w.get = .ok (c, r) → c.missing = false) → (∀ c r, w.discover = .ok (c, r) → c.missing = false) →
            x = if ret3.fail then 5 else if ret3.missing then 4 else if w.active && w.hasCells then 1 else 3) →
          (∀ c r, Call.store c r ∉ calls3) → ¬ Threw w calls3 → P (finishOff w st ret3 ref3 ⟨0, false⟩ x calls3) := by
        intro st ret3 ref3 x calls3 h1 h2 h3 h4
        unfold finishOff
        cases h : w.abort3 with
        | true => rw [if_pos rfl]; exact hab _ _ i1 i2 i3 h3 h4
        | false =>
          rw [if_neg (by simp)]
          exact hfin _ _ _ _ _ i1 i2 i3 (fun hw => ⟨(h1 hw h).1, (h1 hw h).2, attach_some _ _⟩) h2 h3 h4
      have hs2 : ∀ k, (∀ c r, k ≠ Call.store c r) → ∀ c r, Call.store c r ∉ calls2 ++ [k] := by
        intro k hk c r hm
        rcases List.mem_append.1 hm with hm | hm
        · exact hs1 c r hm
        · simp at hm; exact hk c r hm.symm
      refine all_evaluate w ret2 ref2 ⟨0, false⟩ calls2 P ?_ ?_ ?_ ?_ ?_ ?_ ?_ ?_
      · intro _ c2
        exact h_throws _ _ _ i1 i2 (by rw [i3]; simp) hs1 (fun hw => ⟨e1, e4 hw⟩) (Or.inr (Or.inl c2))
      · intro _ _ _ hg
        exact h_throws _ _ _ i1 i2 (by rw [i3]; simp) (hs2 _ (by simp)) (fun hw => ⟨e1, e4 hw⟩) (Or.inr (Or.inr (Or.inr (Or.inr (Or.inr (Or.inl ⟨by simp, hg⟩))))))
      · intro code2 r2 _ _ _ hg hwt2
        have hnt2 : ¬ Threw w (calls2 ++ [.get]) := by
          refine hnt _ i3 fun x hx => ?_
          rcases List.mem_append.1 hx with hx | hx
          · exact ht1 x hx
          · simp at hx; exact Or.inr (Or.inr (Or.inr (Or.inl ⟨hx, by rw [hg]; simp⟩)))
        refine h_wait _ _ _ i1 i2 i3 ?_ (fun hw => ?_) (hs2 _ (by simp)) hnt2
        · unfold Code.or; dsimp only; rw [hwt2, Bool.or_true]
        · unfold Code.or; dsimp only; rw [e4 hw, Bool.false_or]
          cases h : code2.abort with
          | false => rfl
          | true => have := (hw.getAbort code2 r2 hg h).2; rw [hwt2] at this; cases this
      · intro code2 r2 c1 _ _ hg hwt2
        have hnt2 : ¬ Threw w (calls2 ++ [.get]) := by
          refine hnt _ i3 fun x hx => ?_
          rcases List.mem_append.1 hx with hx | hx
          · exact ht1 x hx
          · simp at hx; exact Or.inr (Or.inr (Or.inr (Or.inl ⟨hx, by rw [hg]; simp⟩)))
        refine hoff _ _ _ _ _ (fun hw a3 => ⟨?_, ?_⟩) (fun hw h1 h2 => ?_) (hs2 _ (by simp)) hnt2
        · unfold Code.or; dsimp only; rw [e1, hwt2]; rfl
        · unfold Code.or; dsimp only; rw [e4 hw, Bool.false_or]
          cases h : code2.abort with
          | false => rfl
          | true => have := (hw.getAbort code2 r2 hg h).1; rw [a3] at this; cases this
        · have : (ret2.or code2).missing = false := by unfold Code.or; dsimp only; rw [e3, h1 code2 r2 hg]; rfl
          rw [this, ha, c1]; rfl
      · intro _ _ _ _ hg
        exact h_throws _ _ _ i1 i2 (by rw [i3]; simp) (hs2 _ (by simp)) (fun hw => ⟨e1, e4 hw⟩) (Or.inr (Or.inr (Or.inr (Or.inr (Or.inr (Or.inr ⟨by simp, hg⟩))))))
      · intro code2 r2 c1 _ _ _ hg
        have hnt2 : ¬ Threw w (calls2 ++ [.discover]) := by
          refine hnt _ i3 fun x hx => ?_
          rcases List.mem_append.1 hx with hx | hx
          · exact ht1 x hx
          · simp at hx; exact Or.inr (Or.inr (Or.inr (Or.inr ⟨hx, by rw [hg]; simp⟩)))
        refine hoff _ _ _ _ _ (fun hw a3 => ⟨?_, ?_⟩) (fun hw h1 h2 => ?_) (hs2 _ (by simp)) hnt2
        · unfold Code.withDeps Code.or; dsimp only; rw [e1, (hw.discoverAbort code2 r2 hg).2]; rfl
        · unfold Code.withDeps Code.or; dsimp only; rw [e4 hw, Bool.false_or]
          cases h : code2.abort with
          | false => rfl
          | true => have := (hw.discoverAbort code2 r2 hg).1 h; rw [a3] at this; cases this
        · have : ((ret2.or code2).withDeps w.ownDeps).missing = false := by unfold Code.withDeps Code.or; dsimp only; rw [e3, h2 code2 r2 hg]; rfl
          rw [this, ha, c1]
          rfl
      · intro c1 _ _ _
        refine hoff _ _ _ _ _ (fun hw _ => ⟨e1, e4 hw⟩) (fun hw _ _ => ?_) hs1 (hnt _ i3 ht1)
        rw [e2, e3, ha, c1]; rfl
      · intro c1
        refine hoff _ _ _ _ _ (fun hw _ => ⟨e1, e4 hw⟩) (fun hw _ _ => ?_) hs1 (hnt _ i3 ht1)
        rw [e2, e3, ha, c1]; rfl

end Verif.Execute
