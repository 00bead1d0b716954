import Verif.Proof.NodeCache
/-! # Properties of result caching (C31) -/
namespace Verif.NodeCache

open Verif.RequestId

/-- Full statement: in a forest whose nodes depend only on what they report, after any history of requests, cache
clears, policy changes and state changes, a request to any node returns the result of an evaluation from scratch. -/
def C31_full : Prop :=
  ∀ (R : Type) (F : Forest R), Honest F → ∀ (ops : List Op) (n : Nat) (r : Req),
    (exec F (n + 1) r n (run F ops)).2.1 = (fresh F r.id n).1

/-- **C31 (part).** The same if no rider fails and no node claims independence of the request type: the result and the
fail and missing-data flags are those of an evaluation from scratch.  Missing: the excluded cases, in which it is false
(below); abort, wait and multithreading are not modelled. -/
theorem C31_transparent_partial {R : Type} (F : Forest R) (hF : Honest F) (hR : NoRiderFails F) (hI : NoIgnoreType F)
    (ops : List Op) (n : Nat) (r : Req) :
    (exec F (n + 1) r n (run F ops)).2.1 = (fresh F r.id n).1 ∧
      (exec F (n + 1) r n (run F ops)).2.2.fail = (fresh F r.id n).2.fail ∧
      (exec F (n + 1) r n (run F ops)).2.2.missing = (fresh F r.id n).2.missing := by
  have h := (exec_ok hF hR hI r (n + 1) n (by omega) _ (inv_run hF hR hI ops)).2
  exact ⟨h.res, h.fail, h.missing⟩

/-- Whatever the history, the dependency mask returned covers the mask of an evaluation from scratch (except for
parameter updates, which have no result). -/
theorem C31_mask_covers {R : Type} (F : Forest R) (hF : Honest F) (hR : NoRiderFails F) (hI : NoIgnoreType F)
    (ops : List Op) (n : Nat) (r : Req) (hp : rtype r.id ≠ F.tPu) (i : Nat)
    (h : (fresh F r.id n).2.deps.testBit i = true) :
    (exec F (n + 1) r n (run F ops)).2.2.deps.testBit i = true :=
  (exec_ok hF hR hI r (n + 1) n (by omega) _ (inv_run hF hR hI ops)).2.deps hp i h

/-- A result from scratch depends only on the components in its dependency mask. -/
theorem C31_fresh_depends_on_mask {R : Type} (F : Forest R) (hF : Honest F) (hR : NoRiderFails F) (hI : NoIgnoreType F)
    (a b : List Int) (n : Nat) (h : SameOn a b (fresh F b n).2.deps) : fresh F a n = fresh F b n :=
  fresh_same F hF hR hI a b n h

/-- When a result is kept: failures always; otherwise never under the policies up to NEVER (-10), only for nodes with
several parents up to MINIMAL (-1), for those and for results the next request does not invalidate below ALWAYS (20),
and always from there. -/
theorem C31_policy {R : Type} (F : Forest R) (r : Req) (n : Nat) (kids : List (Nat × Nat)) (s : St R) (res : R) (c : Code)
    (hc : c.ign = false) :
    (((cacheResult F r n kids s res c).1 n).cache.isSome = true ↔
      c.fail = true ∨ 20 ≤ (s n).pol ∨ (-10 < (s n).pol ∧ 1 < (F.node n).npar) ∨
        (-1 < (s n).pol ∧ SameOn r.id r.next (c.deps ||| 1))) ∧
    ∀ e, ((cacheResult F r n kids s res c).1 n).cache = some e → e = ⟨r.id, addType c, res⟩ := by
  have hdiff : diffMask r.id r.next &&& (c.deps ||| 1) = 0 ↔ SameOn r.id r.next (c.deps ||| 1) := by
    constructor
    · exact sameOn_of_diff
    · intro h
      apply Nat.eq_of_testBit_eq
      intro i
      rw [Nat.testBit_and, Nat.zero_testBit]
      by_contra hcon
      simp only [Bool.not_eq_false, Bool.and_eq_true] at hcon
      have := (C28_diffMask_partial _ _ _).1 hcon.1
      exact this.2 (h i this.1 hcon.2)
  have hpol : ((s.upd n fun x => { x with sdep := false, ignRel := false, nhint := 0, nhold := 0 }) n).pol = (s n).pol := by
    simp [St.upd]
  constructor
  · unfold cacheResult
    simp only
    rw [hpol, addType_deps c hc]
    simp only
    rw [← hdiff]
    generalize holdAll F _ _ _ _ = s2
    have key : ∀ b : Bool, ((if b = true then s2.upd n (fun x => { x with cache := some ⟨r.id, ⟨c.deps ||| 1, c.fail, c.missing, c.ign⟩, res⟩ })
        else clear s2 n) n).cache.isSome = b := by
      intro b; cases b <;> simp [St.upd, clear]
    rw [key]
    unfold decideCache
    generalize (diffMask r.id r.next &&& (c.deps ||| 1)) = d
    split
    · rename_i h; simp [h]
    rename_i hf
    split
    · rename_i h; simp [hf]; omega
    split
    · rename_i h1 h2
      simp [hf]; constructor
      · intro h; right; left; exact ⟨by omega, h⟩
      · rintro (h | h | h)
        · omega
        · exact h.2
        · omega
    split
    · rename_i h1 h2 h3
      simp [hf]
      constructor
      · rintro (h | h)
        · right; right; exact ⟨by omega, h⟩
        · right; left; exact ⟨by omega, h⟩
      · rintro (h | h | h)
        · omega
        · exact Or.inr h.2
        · exact Or.inl h.2
    · rename_i h1 h2 h3
      simp [hf]; omega
  · intro e
    unfold cacheResult
    simp only
    generalize decideCache _ _ _ _ = d
    split
    · intro h; simp [St.upd] at h; exact h.symm
    · intro h; simp [clear, St.upd] at h

/-! ### Where it is false -/

/-- A node whose rider fails for requests with 7 in component 1. -/
def badRider : Forest Int where
  node _ := { children := [], own := 0, failPol := .collect, missPol := .collect, active := true
              get := fun id _ => (comp id 1, ⟨2, false, false, false⟩)
              rider := fun id => if comp id 1 = 7 then some (-99) else none
              npar := 1 }
  stateMask := 4
  iterMask := 8
  domMask := 2
  tEv := 1
  tE1 := 2
  tE2 := 3
  tPu := 4
  empty := 0
  missing := 0
  failOf _ := 0
  strip x := x

theorem badRider_honest : Honest badRider where
  children_lt n c h := by cases h
  types := by decide
  respect n a b cr h := by
    have : comp a 1 = comp b 1 := h 1 (by decide) (by simp [reported, badRider]; decide)
    show (comp a 1, _) = (comp b 1, _)
    rw [this]
  strips n a b cr _ _ h := by
    have : comp a 1 = comp b 1 := h 1 (by decide) (by decide) (by simp [reported, badRider]; decide)
    show (comp a 1, _) = (comp b 1, _)
    rw [this]; rfl
  strip_empty := rfl
  strip_missing := rfl
  strip_failOf _ := rfl

/-- A failure while a rider is processed is cached as depending on the request type only: the next request, for another
domain, is answered with the old failure. -/
theorem C31_refuted : ¬ C31_full := by
  intro h
  have := h Int badRider badRider_honest [.exec 0 ⟨[1, 7], [1, 8]⟩] 0 ⟨[1, 8], []⟩
  revert this
  decide +kernel

/-- Node 0 claims independence of the request type, node 1 does not. -/
def badType : Forest Int where
  node n := { children := if n = 1 then [0] else [], own := 0, failPol := .collect, missPol := .collect, active := true
              get := fun id _ => if n = 0 then (0, ⟨0, false, false, true⟩)
                else (if rtype id = 5 then 2 else 1, ⟨0, false, false, false⟩)
              rider := fun _ => none
              npar := 1 }
  stateMask := 4
  iterMask := 8
  domMask := 2
  tEv := 1
  tE1 := 2
  tE2 := 3
  tPu := 4
  empty := 0
  missing := 0
  failOf _ := 0
  strip x := x

theorem badType_honest : Honest badType where
  children_lt n c h := by
    by_cases hn : n = 1
    · subst hn
      have : c = 0 := by simpa [badType] using h
      omega
    · simp [badType, hn] at h
  types := by decide
  respect n a b cr h := by
    by_cases hn : n = 0
    · subst hn; rfl
    · have : comp a 0 = comp b 0 := h 0 (by decide) (by
        unfold reported
        rw [if_neg (by simp [badType, hn])]
        exact bit0_or_one _)
      simp only [badType, hn, if_false, rtype_comp, this]
  strips n a b cr ha hb h := by
    by_cases hn : n = 0
    · subst hn; rfl
    · have h1 : rtype a ≠ 5 := by
        intro hc
        simp [evalMode, hc, badType] at ha
      have h2 : rtype b ≠ 5 := by
        intro hc
        simp [evalMode, hc, badType] at hb
      simp only [badType, hn, if_false, h1, h2]
  strip_empty := rfl
  strip_missing := rfl
  strip_failOf _ := rfl

/-- A child that ignores the request type makes its parent's result be served to requests of all types. -/
theorem C31_refuted_type : (exec badType 2 ⟨[5], []⟩ 1 (run badType [.exec 1 ⟨[1], [5]⟩])).2.1 = 1 ∧
    (fresh badType [5] 1).1 = 2 ∧ NoRiderFails badType :=
  ⟨by decide +kernel, by decide +kernel, fun _ _ => rfl⟩

/-- `badRider` without the rider, and with a sum node over a leaf used twice. -/
def demo : Forest Int where
  node n := { children := if n = 1 then [0, 0] else [], own := 0, failPol := .collect, missPol := .collect, active := true
              get := fun id cr => if n = 0 then (comp id 1, ⟨2, false, false, false⟩)
                else ((cr.map (·.getD 0)).sum, ⟨0, false, false, false⟩)
              rider := fun _ => none
              npar := 2 }
  stateMask := 4
  iterMask := 8
  domMask := 2
  tEv := 1
  tE1 := 2
  tE2 := 3
  tPu := 4
  empty := 0
  missing := 0
  failOf _ := 0
  strip x := x

/-- The hypotheses hold of a forest with a shared child, and its caches are really used: component 2 of the request id
changes, and the answer 14 comes from the cache. -/
example : Honest demo ∧ NoRiderFails demo ∧ NoIgnoreType demo ∧
    (getCached demo ⟨[1, 7, 6], []⟩ 1 (run demo [.exec 1 ⟨[1, 7, 5], [1, 7, 6]⟩])).2 = some (14, ⟨3, false, false, false⟩) ∧
    (fresh demo [1, 7, 6] 1).1 = 14 := by
  refine ⟨⟨?_, by decide, ?_, ?_, rfl, rfl, fun _ => rfl⟩, fun _ _ => rfl, ?_, by decide +kernel, by decide +kernel⟩
  · intro n c h
    by_cases hn : n = 1
    · subst hn
      have : c = 0 := by simpa [demo] using h
      omega
    · simp [demo, hn] at h
  · intro n a b cr h
    by_cases hn : n = 0
    · subst hn
      have : comp a 1 = comp b 1 := h 1 (by decide) (by simp [reported, demo]; decide)
      show (comp a 1, _) = (comp b 1, _)
      rw [this]
    · simp only [demo, hn, if_false]
  · intro n a b cr _ _ h
    have hm : cr.map (Option.map demo.strip) = cr := by
      have : (Option.map demo.strip) = (id : Option Int → Option Int) := by
        funext o; cases o <;> rfl
      rw [this, List.map_id]
    rw [hm]
    by_cases hn : n = 0
    · subst hn
      have : comp a 1 = comp b 1 := h 1 (by decide) (by decide) (by simp [reported, demo]; decide)
      show (comp a 1, _) = (comp b 1, _)
      rw [this]; rfl
    · simp only [demo, hn, if_false]
  · intro n id cr
    by_cases hn : n = 0 <;> simp [demo, hn]

end Verif.NodeCache
