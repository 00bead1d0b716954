import Verif.Proof.Spids
import Mathlib.Data.List.Induction
/-! # Perturbed values: proofs -/
namespace Verif.Func
variable {V W F : Type}

/-- Number of ids below `s`. -/
def below (l : List Int) (s : Int) : Nat := (l.filter (· < s)).length

theorem below_mem : ∀ (l : List Int) (s : Int), Increasing l → s ∈ l → below l s = l.idxOf s := by
  intro l
  induction l with
  | nil => intro s _ h; cases h
  | cons a l ih =>
    intro s h hm
    have h' := List.pairwise_cons.1 h
    unfold below
    by_cases ha : a = s
    · subst ha
      rw [List.idxOf_cons_self, List.filter_cons, if_neg (by simp)]
      rw [List.length_eq_zero_iff, List.filter_eq_nil_iff]
      intro x hx
      have := h'.1 x hx
      simp; omega
    · have hm' : s ∈ l := by simpa [show s ≠ a from fun h => ha h.symm] using hm
      have hlt := h'.1 s hm'
      rw [List.filter_cons, if_pos (by simpa using hlt), List.length_cons, List.idxOf_cons, show (a == s) = false by simpa using ha, cond_false]
      have := ih s h'.2 hm'
      unfold below at this
      omega

theorem getElem?_below : ∀ (l : List Int) (s : Int), Increasing l → (l[below l s]? = some s ↔ s ∈ l) := by
  intro l s h
  constructor
  · intro e; exact List.mem_of_getElem? e
  · intro hm
    rw [below_mem l s h hm]
    rw [List.getElem?_eq_getElem (List.idxOf_lt_length_iff.2 hm)]
    simp

theorem isDefined_spec (l : List Int) (s : Int) (h : Increasing l) :
    isDefined l s (below l s) = (if s ∈ l then some (l.idxOf s) else none, if s ∈ l then below l s + 1 else below l s) := by
  unfold isDefined
  by_cases hm : s ∈ l
  · rw [(getElem?_below l s h).2 hm]
    simp [hm, below_mem l s h hm]
  · have hne : ¬ l[below l s]? = some s := fun e => hm ((getElem?_below l s h).1 e)
    cases hg : l[below l s]? with
    | none => simp [hm]
    | some t =>
      have : s ≠ t := fun e => hne (by rw [hg, e])
      simp [hm, this]

/-- Ids up to `s` are those below the next one. -/
theorem below_next : ∀ (l : List Int) (s t : Int), Increasing l → s < t → (∀ x ∈ l, x ≤ s ∨ t ≤ x) →
    below l t = if s ∈ l then below l s + 1 else below l s := by
  intro l
  induction l with
  | nil => intro s t _ _ _; rfl
  | cons a l ih =>
    intro s t h hst hx
    have h' := List.pairwise_cons.1 h
    have hi := ih s t h'.2 hst (fun x hx' => hx x (by simp [hx']))
    have hcons : ∀ u : Int, below (a :: l) u = if a < u then below l u + 1 else below l u := by
      intro u
      unfold below
      rw [List.filter_cons]
      by_cases h : a < u <;> simp [h]
    rw [hcons, hcons, hi]
    rcases Int.lt_trichotomy a s with c | c | c
    · rw [if_pos (show a < t by omega), if_pos c]
      by_cases hm : s ∈ l
      · rw [if_pos hm, if_pos (by simp [hm])]
      · rw [if_neg hm, if_neg (by simp [hm]; omega)]
    · subst c
      have hm : a ∉ l := fun hm => by have := h'.1 a hm; omega
      rw [if_pos hst, if_neg hm, if_pos (by simp), if_neg (by omega)]
    · have hm : s ∉ l := fun hm => by have := h'.1 s hm; omega
      have hta : t ≤ a := by rcases hx a (by simp) with h | h <;> omega
      have hms : s ∉ a :: l := by simp [hm]; omega
      rw [if_neg (show ¬ a < t by omega), if_neg hm, if_neg hms, if_neg (by omega)]

/-! ## One child -/

theorem takeSets_spec (compat : V → Bool) (c : Plane V F) (ich inx n : Nat) : ∀ (l : List Nat) (g : Gather V), l.Nodup → (∀ k ∈ l, k < n) →
    n ≤ c.npert → g.vals.length = n → g.found.length = n →
    ((∀ k ∈ l, compat (c.pval inx k) = true ∧ ∀ p, g.found.getD k none = some p → p = c.pert inx k) →
      ∃ g', takeSets compat c ich inx l g = .ok g' ∧ g'.vals.length = n ∧ g'.found.length = n ∧
        (∀ k, g'.vals.getD k [] = if k ∈ l then (g.vals.getD k []).set ich (some (c.pval inx k)) else g.vals.getD k []) ∧
        ∀ k, g'.found.getD k none = if k ∈ l then some (c.pert inx k) else g.found.getD k none) ∧
    (¬ (∀ k ∈ l, compat (c.pval inx k) = true ∧ ∀ p, g.found.getD k none = some p → p = c.pert inx k) →
      takeSets compat c ich inx l g = .err) := by
  intro l
  induction l with
  | nil =>
    intro g _ _ _ h1 h2
    exact ⟨fun _ => ⟨g, rfl, h1, h2, fun k => by simp, fun k => by simp⟩, fun h => absurd (fun k hk => by cases hk) h⟩
  | cons k l ih =>
    intro g hnd hk hnp h1 h2
    rw [List.nodup_cons] at hnd
    have hkn : k < n := hk k (by simp)
    unfold takeSets
    rw [if_neg (by omega)]
    by_cases hc : compat (c.pval inx k) = true
    · rw [if_neg (by simp [hc])]
      -- after this set
      have next : ∀ fd : List (Option ℚ), fd.length = n → (∀ j, fd.getD j none = if j = k then some (c.pert inx k) else g.found.getD j none) →
          (∀ p, g.found.getD k none = some p → p = c.pert inx k) →
          ((∀ j ∈ k :: l, compat (c.pval inx j) = true ∧ ∀ p, g.found.getD j none = some p → p = c.pert inx j) →
            ∃ g', takeSets compat c ich inx l ⟨g.vals.set k ((g.vals.getD k []).set ich (some (c.pval inx k))), fd⟩ = .ok g' ∧
              g'.vals.length = n ∧ g'.found.length = n ∧
              (∀ j, g'.vals.getD j [] = if j ∈ k :: l then (g.vals.getD j []).set ich (some (c.pval inx j)) else g.vals.getD j []) ∧
              ∀ j, g'.found.getD j none = if j ∈ k :: l then some (c.pert inx j) else g.found.getD j none) ∧
          (¬ (∀ j ∈ k :: l, compat (c.pval inx j) = true ∧ ∀ p, g.found.getD j none = some p → p = c.pert inx j) →
            takeSets compat c ich inx l ⟨g.vals.set k ((g.vals.getD k []).set ich (some (c.pval inx k))), fd⟩ = .err) := by
        intro fd hfl hfd hkp
        have hI := ih ⟨g.vals.set k ((g.vals.getD k []).set ich (some (c.pval inx k))), fd⟩ hnd.2 (fun j hj => hk j (by simp [hj])) hnp
          (by simpa using h1) hfl
        have hv : ∀ j, (g.vals.set k ((g.vals.getD k []).set ich (some (c.pval inx k)))).getD j [] =
            if j = k then (g.vals.getD k []).set ich (some (c.pval inx k)) else g.vals.getD j [] := by
          intro j
          by_cases hj : j = k
          · subst hj
            rw [if_pos rfl, List.getD_eq_getElem?_getD, List.getElem?_set_self (by omega)]
            rfl
          · rw [if_neg hj, List.getD_eq_getElem?_getD, List.getElem?_set_ne (fun h => hj h.symm), List.getD_eq_getElem?_getD]
        have hiff : (∀ j ∈ l, compat (c.pval inx j) = true ∧ ∀ p, fd.getD j none = some p → p = c.pert inx j) ↔
            (∀ j ∈ k :: l, compat (c.pval inx j) = true ∧ ∀ p, g.found.getD j none = some p → p = c.pert inx j) := by
          have hj' : ∀ j ∈ l, fd.getD j none = g.found.getD j none := by
            intro j hj
            rw [hfd, if_neg (fun h => hnd.1 (by rw [← h]; exact hj))]
          constructor
          · intro h j hj
            rcases List.mem_cons.1 hj with rfl | hj
            · exact ⟨hc, hkp⟩
            · have := h j hj; rw [hj' j hj] at this; exact this
          · intro h j hj
            rw [hj' j hj]
            exact h j (by simp [hj])
        refine ⟨fun h => ?_, fun h => hI.2 (fun h' => h (hiff.1 h'))⟩
        obtain ⟨g', e, l1, l2, v1, v2⟩ := hI.1 (hiff.2 h)
        refine ⟨g', e, l1, l2, fun j => ?_, fun j => ?_⟩
        · rw [v1]
          simp only
          rw [hv]
          by_cases hj : j ∈ l
          · have hjk : j ≠ k := fun h => hnd.1 (by rw [← h]; exact hj)
            rw [if_pos hj, if_neg hjk, if_pos (by simp [hj])]
          · rw [if_neg hj]
            by_cases hjk : j = k
            · subst hjk; rw [if_pos rfl, if_pos (by simp)]
            · rw [if_neg hjk, if_neg (by simp [hj, hjk])]
        · rw [v2]
          simp only
          rw [hfd]
          by_cases hj : j ∈ l
          · rw [if_pos hj, if_pos (by simp [hj])]
          · rw [if_neg hj]
            by_cases hjk : j = k
            · subst hjk; rw [if_pos rfl, if_pos (by simp)]
            · rw [if_neg hjk, if_neg (by simp [hj, hjk])]
      cases hf : g.found.getD k none with
      | some p =>
        simp only
        by_cases hp : p = c.pert inx k
        · rw [if_neg (by simp [hp])]
          exact next g.found h2 (fun j => by
            by_cases hj : j = k
            · rw [if_pos hj, hj, hf, hp]
            · rw [if_neg hj]) (fun q hq => by rw [hf] at hq; injection hq with hq; rw [← hq]; exact hp)
        · rw [if_pos hp]
          exact ⟨fun h => absurd ((h k (by simp)).2 p hf) hp, fun _ => rfl⟩
      | none =>
        simp only
        exact next _ (by simpa using h2) (fun j => by
          by_cases hj : j = k
          · subst hj
            rw [if_pos rfl, List.getD_eq_getElem?_getD, List.getElem?_set_self (by omega)]
            rfl
          · rw [if_neg hj, List.getD_eq_getElem?_getD, List.getElem?_set_ne (fun h => hj h.symm), List.getD_eq_getElem?_getD])
          (fun q hq => by rw [hf] at hq; cases hq)
    · rw [if_pos (by simp [hc])]
      exact ⟨fun h => absurd (h k (by simp)).1 hc, fun _ => rfl⟩

/-! ## All children -/

/-- Perturbations of a parameter by the children. -/
def perts (spid : Int) (k : Nat) (cs : List (Option (Plane V F))) : List ℚ :=
  cs.filterMap fun c => c.bind fun c => if spid ∈ c.spids then some (c.pert (c.spids.idxOf spid) k) else none

/-- When the values for a parameter can be gathered. -/
def Good (compat : V → Bool) (n : Nat) (spid : Int) (cs : List (Option (Plane V F))) (found : List (Option ℚ)) : Prop :=
  (∀ c, some c ∈ cs → spid ∈ c.spids → ∀ k < n, compat (c.pval (c.spids.idxOf spid) k) = true) ∧
  ∀ k < n, ∀ p ∈ (found.getD k none).toList ++ perts spid k cs, ∀ q ∈ (found.getD k none).toList ++ perts spid k cs, p = q

theorem gather_spec (compat : V → Bool) (n : Nat) (spid : Int) : ∀ (cs : List (Option (Plane V F))) (ich : Nat) (indices : List Nat) (g : Gather V)
    (pre : Nat → List (Option V)), (∀ c, some c ∈ cs → PlaneWf n c) → indices.length = ich + cs.length →
    (∀ (i : Nat) (c : Plane V F), cs[i]? = some (some c) → indices.getD (ich + i) 0 = below c.spids spid) →
    g.vals.length = n → g.found.length = n → (∀ k < n, (pre k).length = ich) → (∀ k < n, g.vals.getD k [] = pre k ++ cs.map mainVal) →
    (Good compat n spid cs g.found →
      ∃ ind' g', gather compat n spid cs ich indices g = .ok (ind', g') ∧ ind'.length = indices.length ∧
        (∀ j < ich, ind'.getD j 0 = indices.getD j 0) ∧
        (∀ (i : Nat) (c : Plane V F), cs[i]? = some (some c) → ind'.getD (ich + i) 0 = if spid ∈ c.spids then below c.spids spid + 1 else below c.spids spid) ∧
        (∀ k < n, g'.vals.getD k [] = pre k ++ cs.map (pertVal spid k)) ∧
        ∀ k < n, g'.found.getD k none = ((g.found.getD k none).toList ++ perts spid k cs).head?) ∧
    (¬ Good compat n spid cs g.found → gather compat n spid cs ich indices g = .err) := by
  intro cs
  induction cs with
  | nil =>
    intro ich indices g pre _ _ _ _ _ _ hv
    refine ⟨fun _ => ⟨indices, g, rfl, rfl, fun _ _ => rfl, (fun i c h => by simp at h), hv, fun k _ => ?_⟩, fun h => absurd ⟨(fun c hc => by cases hc), fun k hk p hp q hq => ?_⟩ h⟩
    · cases g.found.getD k none <;> rfl
    · simp only [perts, List.filterMap_nil, List.append_nil, Option.mem_toList] at hp hq
      rw [hp] at hq; injection hq
  | cons c cs ih =>
    intro ich indices g pre hw hl hi hg1 hg2 hp hv
    have hw' : ∀ c, some c ∈ cs → PlaneWf n c := fun c hc => hw c (by simp [hc])
    have hl' : indices.length = (ich + 1) + cs.length := by rw [hl, List.length_cons]; omega
    have skip : ∀ (ind : List Nat), ind.length = indices.length → (∀ j, j ≠ ich → ind.getD j 0 = indices.getD j 0) →
        (∀ (i : Nat) (c : Plane V F), cs[i]? = some (some c) → ind.getD (ich + 1 + i) 0 = below c.spids spid) := by
      intro ind _ h i d hd
      rw [h _ (by omega)]
      have := hi (i + 1) d (by simpa using hd)
      rw [← this]; congr 1; omega
    -- a child that does not take part
    have pass : ∀ ind : List Nat, ind.length = indices.length → (∀ j, j ≠ ich → ind.getD j 0 = indices.getD j 0) →
        (∀ d, c = some d → ind.getD ich 0 = below d.spids spid) → (∀ d, c = some d → spid ∉ d.spids) →
        ((Good compat n spid (c :: cs) g.found →
          ∃ ind' g', gather compat n spid cs (ich + 1) ind g = .ok (ind', g') ∧ ind'.length = indices.length ∧
            (∀ j < ich, ind'.getD j 0 = indices.getD j 0) ∧
            (∀ (i : Nat) (d : Plane V F), (c :: cs)[i]? = some (some d) → ind'.getD (ich + i) 0 = if spid ∈ d.spids then below d.spids spid + 1 else below d.spids spid) ∧
            (∀ k < n, g'.vals.getD k [] = pre k ++ (c :: cs).map (pertVal spid k)) ∧
            ∀ k < n, g'.found.getD k none = ((g.found.getD k none).toList ++ perts spid k (c :: cs)).head?) ∧
        (¬ Good compat n spid (c :: cs) g.found → gather compat n spid cs (ich + 1) ind g = .err)) := by
      intro ind e1 e2 e3 e4
      have hmain : mainVal c = pertVal spid 0 c ∧ ∀ k, pertVal spid k c = mainVal c := by
        cases c with
        | none => exact ⟨rfl, fun _ => rfl⟩
        | some d =>
          have := e4 d rfl
          simp [mainVal, pertVal, this]
      have hperts : ∀ k, perts spid k (c :: cs) = perts spid k cs := by
        intro k
        cases c with
        | none => rfl
        | some d =>
          have := e4 d rfl
          simp [perts, this]
      have hgood : Good compat n spid (c :: cs) g.found ↔ Good compat n spid cs g.found := by
        unfold Good
        simp only [hperts]
        constructor
        · intro h; exact ⟨fun d hd => h.1 d (by simp [hd]), h.2⟩
        · intro h
          refine ⟨fun d hd hm => ?_, h.2⟩
          rcases List.mem_cons.1 hd with hd | hd
          · exact absurd hm (e4 d hd.symm)
          · exact h.1 d hd hm
      have := ih (ich + 1) ind g (fun k => pre k ++ [mainVal c]) hw' (by rw [e1]; exact hl') (skip ind e1 e2) hg1 hg2
        (fun k hk => by simp [hp k hk]) (fun k hk => by rw [hv k hk]; simp)
      refine ⟨fun h => ?_, fun h => this.2 (fun h' => h (hgood.2 h'))⟩
      obtain ⟨ind', g', r1, r2, r3, r4, r5, r6⟩ := this.1 (hgood.1 h)
      refine ⟨ind', g', r1, by rw [r2, e1], fun j hj => by rw [r3 j (by omega), e2 j (by omega)], ?_, ?_, ?_⟩
      · intro i d hd
        cases i with
        | zero =>
          have hcd : c = some d := by simpa using hd
          rw [if_neg (e4 d hcd), Nat.add_zero, r3 ich (by omega)]
          exact e3 d hcd
        | succ i =>
          have := r4 i d (by simpa using hd)
          rw [← this]; congr 1; omega
      · intro k hk
        rw [r5 k hk, List.map_cons, hmain.2 k]; simp
      · intro k hk
        rw [r6 k hk, hperts]
    cases c with
    | none =>
      rw [gather]
      exact pass indices rfl (fun _ _ => rfl) (fun d h => by cases h) (fun d h => by cases h)
    | some d =>
      have hd := hw d (by simp)
      have h0 := hi 0 d (by simp)
      rw [Nat.add_zero] at h0
      unfold gather
      simp only
      rw [h0, isDefined_spec d.spids spid hd.1.1]
      by_cases hm : spid ∈ d.spids
      · simp only [if_pos hm]
        have hnp : d.npert = n := hd.2.2.1 (fun h => by rw [h] at hm; cases hm)
        rw [hnp, Nat.max_self]
        have ht := takeSets_spec compat d ich (d.spids.idxOf spid) n (List.range n) g List.nodup_range (fun k hk => List.mem_range.1 hk) (by omega) hg1 hg2
        by_cases hc : ∀ k ∈ List.range n, compat (d.pval (d.spids.idxOf spid) k) = true ∧ ∀ p, g.found.getD k none = some p → p = d.pert (d.spids.idxOf spid) k
        · obtain ⟨g1, t1, t2, t3, t4, t5⟩ := ht.1 hc
          rw [t1]
          simp only [Res.bind]
          have hpv : ∀ k, pertVal spid k (some d) = some (d.pval (d.spids.idxOf spid) k) := by
            intro k; simp [pertVal, hm]
          have hpt : ∀ k, perts spid k (some d :: cs) = d.pert (d.spids.idxOf spid) k :: perts spid k cs := by
            intro k; simp [perts, hm]
          have hset : (indices.set ich (below d.spids spid + 1)).length = indices.length := by simp
          have hne : ∀ j, j ≠ ich → (indices.set ich (below d.spids spid + 1)).getD j 0 = indices.getD j 0 := by
            intro j hj
            rw [List.getD_eq_getElem?_getD, List.getElem?_set_ne (fun h => hj h.symm), List.getD_eq_getElem?_getD]
          have := ih (ich + 1) (indices.set ich (below d.spids spid + 1)) g1 (fun k => pre k ++ [pertVal spid k (some d)]) hw'
            (by rw [hset]; exact hl') (skip _ hset hne) t2 t3 (fun k hk => by simp [hp k hk]) (fun k hk => by
              rw [t4, if_pos (List.mem_range.2 hk), hv k hk, hpv, List.map_cons, List.append_assoc, List.set_append_right _ _ (by rw [hp k hk]), hp k hk]
              simp)
          have hfd : ∀ k < n, g1.found.getD k none = some (d.pert (d.spids.idxOf spid) k) := by
            intro k hk; rw [t5, if_pos (List.mem_range.2 hk)]
          have hgood : Good compat n spid (some d :: cs) g.found ↔ Good compat n spid cs g1.found := by
            constructor
            · intro h
              refine ⟨fun e he => h.1 e (by simp [he]), fun k hk p hp' q hq => ?_⟩
              rw [hfd k hk] at hp' hq
              refine h.2 k hk p ?_ q ?_
              · rw [hpt]; simp only [Option.toList_some, List.cons_append, List.nil_append] at hp'; simp only [List.mem_append]; exact Or.inr hp'
              · rw [hpt]; simp only [Option.toList_some, List.cons_append, List.nil_append] at hq; simp only [List.mem_append]; exact Or.inr hq
            · intro h
              refine ⟨fun e he hme k hk => ?_, fun k hk p hp' q hq => ?_⟩
              · rcases List.mem_cons.1 he with he | he
                · injection he with he; rw [he]; exact (hc k (List.mem_range.2 hk)).1
                · exact h.1 e he hme k hk
              · have hmem : ∀ x ∈ (g.found.getD k none).toList ++ perts spid k (some d :: cs), x ∈ (g1.found.getD k none).toList ++ perts spid k cs := by
                  intro x hx
                  rw [hfd k hk]
                  rw [hpt] at hx
                  rcases List.mem_append.1 hx with hx | hx
                  · rw [Option.mem_toList] at hx
                    have := (hc k (List.mem_range.2 hk)).2 x hx
                    rw [this]; simp
                  · simpa using hx
                exact h.2 k hk p (hmem p hp') q (hmem q hq)
          refine ⟨fun h => ?_, fun h => this.2 (fun h' => h (hgood.2 h'))⟩
          obtain ⟨ind', g', r1, r2, r3, r4, r5, r6⟩ := this.1 (hgood.1 h)
          refine ⟨ind', g', r1, by rw [r2, hset], fun j hj => by rw [r3 j (by omega), hne j (by omega)], ?_, ?_, ?_⟩
          · intro i e he
            cases i with
            | zero =>
              have hcd : d = e := by simpa using he
              subst hcd
              rw [if_pos hm, Nat.add_zero, r3 ich (by omega), List.getD_eq_getElem?_getD, List.getElem?_set_self (by rw [hl]; simp)]
              rfl
            | succ i =>
              have := r4 i e (by simpa using he)
              rw [← this]; congr 1; omega
          · intro k hk
            rw [r5 k hk, List.map_cons]; simp
          · intro k hk
            rw [r6 k hk, hfd k hk, hpt]
            cases hg : g.found.getD k none with
            | none => simp
            | some p =>
              have := (hc k (List.mem_range.2 hk)).2 p hg
              simp [this]
        · rw [ht.2 hc]
          refine ⟨fun h => absurd ?_ hc, fun _ => rfl⟩
          intro k hk
          have hk := List.mem_range.1 hk
          refine ⟨h.1 d (by simp) hm k hk, fun p hp' => ?_⟩
          apply h.2 k hk p _ _
          · simp only [perts, List.mem_append]
            exact Or.inr (List.mem_filterMap.2 ⟨some d, by simp, by simp [hm]⟩)
          · rw [hp']; simp
      · simp only [if_neg hm]
        exact pass (indices.set ich (below d.spids spid)) (by simp) (fun j hj => by
          rw [List.getD_eq_getElem?_getD, List.getElem?_set_ne (fun h => hj h.symm), List.getD_eq_getElem?_getD]) (fun e he => by
          injection he with he; subst he
          rw [List.getD_eq_getElem?_getD, List.getElem?_set_self (by rw [hl]; simp)]; rfl) (fun e he => by injection he with he; subst he; exact hm)

/-! ## All parameters -/

/-- Evaluating the sets. -/
theorem evalSets_spec (f : List (Option V) → Res W) (g : Gather V) : ∀ l : List Nat, (∀ k ∈ l, (g.found.getD k none).isSome = true) →
    (∀ row, evalSets f g l = .ok row → row.length = l.length ∧ ∀ (i k : Nat), l[i]? = some k → ∃ p v, row[i]? = some (p, v) ∧ g.found.getD k none = some p ∧
      f (g.vals.getD k []) = .ok v) ∧
    ((∀ k ∈ l, ∃ v, f (g.vals.getD k []) = .ok v) → ∃ row, evalSets f g l = .ok row) ∧
    ((∀ vs, f vs ≠ .ub) → evalSets f g l ≠ .ub) := by
  intro l
  induction l with
  | nil =>
    intro _
    refine ⟨fun row h => ?_, fun _ => ⟨[], rfl⟩, fun _ h => by cases h⟩
    injection h with h
    subst h
    exact ⟨rfl, fun i k h => by simp at h⟩
  | cons k l ih =>
    intro hf
    obtain ⟨i1, i2, i3⟩ := ih (fun j hj => hf j (by simp [hj]))
    obtain ⟨p, hp⟩ := Option.isSome_iff_exists.1 (hf k (by simp))
    unfold evalSets
    rw [hp]
    simp only
    cases hv : f (g.vals.getD k []) with
    | ok v =>
      simp only [Res.bind]
      cases hr : evalSets f g l with
      | ok row' =>
        refine ⟨fun row h => ?_, fun _ => ⟨_, rfl⟩, fun _ h => by cases h⟩
        injection h with h
        subst h
        obtain ⟨j1, j2⟩ := i1 row' hr
        refine ⟨by simp [j1], fun i k' h => ?_⟩
        cases i with
        | zero =>
          have : k = k' := by simpa using h
          subst this
          exact ⟨p, v, by simp, hp, hv⟩
        | succ i =>
          obtain ⟨p', v', h1, h2, h3⟩ := j2 i k' (by simpa using h)
          exact ⟨p', v', by simpa using h1, h2, h3⟩
      | err =>
        refine ⟨(fun row h => by cases h), fun h => ?_, fun _ h => by cases h⟩
        obtain ⟨r, e⟩ := i2 (fun j hj => h j (by simp [hj]))
        rw [hr] at e; cases e
      | ub =>
        refine ⟨(fun row h => by cases h), fun h => ?_, fun h _ => i3 h hr⟩
        obtain ⟨r, e⟩ := i2 (fun j hj => h j (by simp [hj]))
        rw [hr] at e; cases e
    | err =>
      refine ⟨(fun row h => by cases h), fun h => ?_, fun _ h => by cases h⟩
      obtain ⟨v, e⟩ := h k (by simp)
      rw [hv] at e; cases e
    | ub =>
      refine ⟨(fun row h => by cases h), fun h => ?_, fun h _ => h _ hv⟩
      obtain ⟨v, e⟩ := h k (by simp)
      rw [hv] at e; cases e

/-- One row of the result. -/
def RowOk (f : List (Option V) → Res W) (n : Nat) (ch : List (Option (Plane V F))) (spid : Int) (row : List (ℚ × W)) : Prop :=
  ∀ k < n, ∃ p v, row[k]? = some (p, v) ∧ f (ch.map (pertVal spid k)) = .ok v ∧ ∀ q ∈ perts spid k ch, p = q

theorem spidLoop_spec (compat : V → Bool) (f : List (Option V) → Res W) (n : Nat) (ch : List (Option (Plane V F))) (hw : ∀ c, some c ∈ ch → PlaneWf n c) :
    ∀ (spids : List Int) (indices : List Nat), Increasing spids → indices.length = ch.length →
    (∀ s ∈ spids, Depends ch s) →
    (∀ (i : Nat) (c : Plane V F), ch[i]? = some (some c) → ∀ s l, spids = s :: l → indices.getD i 0 = below c.spids s) →
    (∀ c, some c ∈ ch → ∀ x ∈ c.spids, (∃ s l, spids = s :: l ∧ x < s) ∨ x ∈ spids ∨ spids = []) →
    (∀ rows, spidLoop compat f n ch (ch.map mainVal) spids indices = .ok rows → rows.length = spids.length ∧
      ∀ (i : Nat) (s : Int), spids[i]? = some s → Good compat n s ch [] ∧ ∃ row, rows[i]? = some row ∧ RowOk f n ch s row) ∧
    ((∀ s ∈ spids, Good compat n s ch [] ∧ ∀ k < n, ∃ v, f (ch.map (pertVal s k)) = .ok v) →
      ∃ rows, spidLoop compat f n ch (ch.map mainVal) spids indices = .ok rows) ∧
    ((∀ vs, f vs ≠ .ub) → spidLoop compat f n ch (ch.map mainVal) spids indices ≠ .ub) := by
  intro spids
  induction spids with
  | nil =>
    intro indices _ _ _ _ _
    refine ⟨fun rows h => ?_, fun _ => ⟨[], rfl⟩, fun _ h => by cases h⟩
    injection h with h
    subst h
    exact ⟨rfl, fun i s h => by simp at h⟩
  | cons s l ih =>
    intro indices hinc hlen hdep hind hcov
    have hinc' := List.pairwise_cons.1 hinc
    have hG := gather_spec compat n s ch 0 indices ⟨List.replicate n (ch.map mainVal), List.replicate n none⟩ (fun _ => []) hw (by omega)
      (fun i c hc => by rw [Nat.zero_add]; exact hind i c hc s l rfl) (by simp) (by simp) (fun _ _ => rfl) (fun k hk => by
        rw [List.getD_eq_getElem?_getD, List.getElem?_replicate, if_pos hk]; rfl)
    have hfn : ∀ k, (List.replicate n (none : Option ℚ)).getD k none = ([] : List (Option ℚ)).getD k none := by
      intro k
      rw [List.getD_eq_getElem?_getD, List.getElem?_replicate]
      split <;> rfl
    have hgood : Good compat n s ch (List.replicate n none) ↔ Good compat n s ch [] := by
      unfold Good; simp only [hfn]
    simp only at hG
    rw [hgood] at hG
    unfold spidLoop
    by_cases hg : Good compat n s ch []
    · obtain ⟨ind', g', e, r2, _, r4, r5, r6⟩ := hG.1 hg
      rw [e]
      simp only [Res.bind]
      have hfound : ∀ k < n, ∃ p, g'.found.getD k none = some p ∧ ∀ q ∈ perts s k ch, p = q := by
        intro k hk
        rw [r6 k hk, hfn]
        simp only [List.getD_nil, Option.toList_none, List.nil_append]
        obtain ⟨c, hc, hm⟩ := hdep s (by simp)
        have hin : c.pert (c.spids.idxOf s) k ∈ perts s k ch := List.mem_filterMap.2 ⟨some c, hc, by simp [hm]⟩
        have hh := hg.2 k hk
        simp only [List.getD_nil, Option.toList_none, List.nil_append] at hh
        cases hps : perts s k ch with
        | nil => rw [hps] at hin; cases hin
        | cons p ps =>
          rw [hps] at hh
          exact ⟨p, rfl, fun q hq => hh p (by simp) q hq⟩
      have hvals : ∀ k < n, g'.vals.getD k [] = ch.map (pertVal s k) := by
        intro k hk
        rw [r5 k hk]; rfl
      obtain ⟨v1, v2, v3⟩ := evalSets_spec f g' (List.range n) (fun k hk => by
        obtain ⟨p, hp, _⟩ := hfound k (List.mem_range.1 hk); rw [hp]; rfl)
      obtain ⟨w1, w2, w3⟩ := ih ind' hinc'.2 (by rw [r2, hlen]) (fun t ht => hdep t (by simp [ht])) (by
        intro i c hc t l' hl
        have hwc := hw c (List.mem_of_getElem? hc)
        rw [← Nat.zero_add i, r4 i c hc]
        refine (below_next c.spids s t hwc.1.1 (hinc'.1 t (by rw [hl]; simp)) ?_).symm
        intro x hx
        rcases hcov c (List.mem_of_getElem? hc) x hx with ⟨s', l'', e, hlt⟩ | hmem | hnil
        · injection e with e _; rw [← e] at hlt; exact Or.inl (by omega)
        · rcases List.mem_cons.1 hmem with h | h
          · exact Or.inl (by omega)
          · rw [hl] at h hinc'
            rcases List.mem_cons.1 h with h | h
            · exact Or.inr (by omega)
            · have := (List.pairwise_cons.1 hinc'.2).1 x h
              exact Or.inr (by omega)
        · cases hnil) (by
        intro c hc x hx
        cases l with
        | nil => exact Or.inr (Or.inr rfl)
        | cons t l' =>
          rcases hcov c hc x hx with ⟨s', l'', e, hlt⟩ | hmem | hnil
          · injection e with e _
            rw [← e] at hlt
            have := hinc'.1 t (by simp)
            exact Or.inl ⟨t, l', rfl, by omega⟩
          · rcases List.mem_cons.1 hmem with h | h
            · have := hinc'.1 t (by simp)
              exact Or.inl ⟨t, l', rfl, by omega⟩
            · exact Or.inr (Or.inl h)
          · cases hnil)
      cases hr : evalSets f g' (List.range n) with
      | ok row =>
        simp only
        obtain ⟨_, q2⟩ := v1 row hr
        have hrow : RowOk f n ch s row := by
          intro k hk
          obtain ⟨p, v, a1, a2, a3⟩ := q2 k k (by rw [List.getElem?_range hk])
          obtain ⟨p', b1, b2⟩ := hfound k hk
          rw [a2] at b1
          injection b1 with b1
          rw [hvals k hk] at a3
          exact ⟨p, v, a1, a3, fun q hq => by rw [b1]; exact b2 q hq⟩
        cases hrs : spidLoop compat f n ch (ch.map mainVal) l ind' with
        | ok rows' =>
          simp only
          refine ⟨fun rows h => ?_, fun _ => ⟨_, rfl⟩, fun _ h => by cases h⟩
          injection h with h
          subst h
          obtain ⟨x1, x2⟩ := w1 rows' hrs
          refine ⟨by simp [x1], fun i t ht => ?_⟩
          cases i with
          | zero =>
            have : s = t := by simpa using ht
            subst this
            exact ⟨hg, row, by simp, hrow⟩
          | succ i =>
            obtain ⟨y1, rw', y2, y3⟩ := x2 i t (by simpa using ht)
            exact ⟨y1, rw', by simpa using y2, y3⟩
        | err =>
          refine ⟨(fun rows h => by cases h), fun h => ?_, fun _ h => by cases h⟩
          obtain ⟨r, e⟩ := w2 (fun t ht => h t (by simp [ht]))
          rw [hrs] at e; cases e
        | ub =>
          refine ⟨(fun rows h => by cases h), fun h => ?_, fun h _ => w3 h hrs⟩
          obtain ⟨r, e⟩ := w2 (fun t ht => h t (by simp [ht]))
          rw [hrs] at e; cases e
      | err =>
        refine ⟨(fun rows h => by cases h), fun h => ?_, fun _ h => by cases h⟩
        obtain ⟨r, e⟩ := v2 (fun k hk => by rw [hvals k (List.mem_range.1 hk)]; exact (h s (by simp)).2 k (List.mem_range.1 hk))
        rw [hr] at e; cases e
      | ub =>
        refine ⟨(fun rows h => by cases h), fun h => ?_, fun h _ => v3 h hr⟩
        obtain ⟨r, e⟩ := v2 (fun k hk => by rw [hvals k (List.mem_range.1 hk)]; exact (h s (by simp)).2 k (List.mem_range.1 hk))
        rw [hr] at e; cases e
    · rw [hG.2 hg]
      exact ⟨(fun rows h => by cases h), (fun h => absurd (h s (by simp)).1 hg), (fun _ h => by cases h)⟩

theorem mem_perts (spid : Int) (k : Nat) (ch : List (Option (Plane V F))) (q : ℚ) (hw : ∀ c, some c ∈ ch → Increasing c.spids) :
    q ∈ perts spid k ch ↔ ∃ c : Plane V F, some c ∈ ch ∧ ∃ j : Nat, c.spids[j]? = some spid ∧ q = c.pert j k := by
  unfold perts
  rw [List.mem_filterMap]
  constructor
  · rintro ⟨c, hc, e⟩
    cases c with
    | none => cases e
    | some c =>
      simp only [Option.bind_some] at e
      split at e
      · rename_i hm
        injection e with e
        exact ⟨c, hc, c.spids.idxOf spid, by rw [List.getElem?_eq_getElem (List.idxOf_lt_length_iff.2 hm)]; simp, e.symm⟩
      · cases e
  · rintro ⟨c, hc, j, hj, rfl⟩
    refine ⟨some c, hc, ?_⟩
    have hm := List.mem_of_getElem? hj
    simp only [Option.bind_some, if_pos hm]
    have hnd : c.spids.Nodup := (hw c hc).imp (fun h => by omega)
    obtain ⟨hl, he⟩ := List.getElem?_eq_some_iff.1 hj
    rw [← he, hnd.idxOf_getElem]

theorem good_iff (compat : V → Bool) (n : Nat) (ch : List (Option (Plane V F))) (hw : ∀ c, some c ∈ ch → Increasing c.spids) :
    (∀ s, Depends ch s → Good compat n s ch []) ↔ PertCompat compat n ch ∧ Agree n ch := by
  constructor
  · intro h
    refine ⟨fun c hc i hi k hk => ?_, fun c d hc hd i j spid h1 h2 k hk => ?_⟩
    · have hnd : c.spids.Nodup := (hw c hc).imp (fun h => by omega)
      have := (h c.spids[i] ⟨c, hc, by simp⟩).1 c hc (by simp) k hk
      rw [hnd.idxOf_getElem] at this
      exact this
    · have := (h spid ⟨c, hc, List.mem_of_getElem? h1⟩).2 k hk
      simp only [List.getD_nil, Option.toList_none, List.nil_append] at this
      exact this _ ((mem_perts spid k ch _ hw).2 ⟨c, hc, i, h1, rfl⟩) _ ((mem_perts spid k ch _ hw).2 ⟨d, hd, j, h2, rfl⟩)
  · rintro ⟨h1, h2⟩ s _
    refine ⟨fun c hc hm k hk => h1 c hc _ (List.idxOf_lt_length_iff.2 hm) k hk, fun k hk p hp q hq => ?_⟩
    simp only [List.getD_nil, Option.toList_none, List.nil_append] at hp hq
    obtain ⟨c, hc, i, hi, rfl⟩ := (mem_perts s k ch p hw).1 hp
    obtain ⟨d, hd, j, hj, rfl⟩ := (mem_perts s k ch q hw).1 hq
    exact h2 c d hc hd i j s hi hj k hk

theorem foldl_max_le (l : List Nat) (a n : Nat) (ha : a ≤ n) (h : ∀ x ∈ l, x ≤ n) : l.foldl max a ≤ n := by
  induction l generalizing a with
  | nil => exact ha
  | cons x l ih => exact ih (max a x) (by have := h x (by simp); omega) (fun y hy => h y (by simp [hy]))

theorem le_foldl_max (l : List Nat) (a n : Nat) (h : n ≤ a ∨ n ∈ l) : n ≤ l.foldl max a := by
  induction l generalizing a with
  | nil => rcases h with h | h; exact h; cases h
  | cons x l ih =>
    apply ih
    rcases h with h | h
    · exact Or.inl (by omega)
    · rcases List.mem_cons.1 h with h | h
      · exact Or.inl (by omega)
      · exact Or.inr h

/-- All children with ids have the same number of sets, which is that of the result. -/
theorem maxSets_eq (n : Nat) (ch : List (Option (Plane V F))) (hw : ∀ c, some c ∈ ch → PlaneWf n c) (s : Int) (h : Depends ch s) : maxSets ch = n := by
  obtain ⟨c, hc, hm⟩ := h
  have hne : c.spids ≠ [] := fun h => by rw [h] at hm; cases hm
  unfold maxSets
  rw [if_neg]
  · apply Nat.le_antisymm
    · apply foldl_max_le _ _ _ (by omega)
      intro x hx
      obtain ⟨d, hd, e⟩ := List.mem_filterMap.1 hx
      cases d with
      | none => cases e
      | some d => simp at e; rw [← e]; exact (hw d hd).2.2.2
    · apply le_foldl_max
      refine Or.inr (List.mem_filterMap.2 ⟨some c, hc, ?_⟩)
      simp [(hw c hc).2.2.1 hne]
  · have : c.spids ∈ idsOf ch := List.mem_filterMap.2 ⟨some c, hc, rfl⟩
    have h2 := len_le_sum _ _ this
    have := List.length_pos_iff.2 hne
    omega

/-- What is known about the loop over the ids. -/
theorem evalPlane_loop (compat : V → Bool) (f : List (Option V) → Res W) (n : Nat) (ch : List (Option (Plane V F)))
    (hw : ∀ c, some c ∈ ch → PlaneWf n c) : ∃ u, findSpids (idsOf ch) = .ok u ∧ IdsWf u ∧ (∀ x, x ∈ u ↔ Depends ch x) ∧
    (u ≠ [] → maxSets ch = n) ∧
    (∀ rows, spidLoop compat f (maxSets ch) ch (ch.map mainVal) u (List.replicate ch.length 0) = .ok rows → rows.length = u.length ∧
      ∀ (i : Nat) (s : Int), u[i]? = some s → Good compat n s ch [] ∧ ∃ row, rows[i]? = some row ∧ RowOk f n ch s row) ∧
    ((∀ s ∈ u, Good compat n s ch [] ∧ ∀ k < n, ∃ v, f (ch.map (pertVal s k)) = .ok v) →
      ∃ rows, spidLoop compat f (maxSets ch) ch (ch.map mainVal) u (List.replicate ch.length 0) = .ok rows) ∧
    ((∀ vs, f vs ≠ .ub) → spidLoop compat f (maxSets ch) ch (ch.map mainVal) u (List.replicate ch.length 0) ≠ .ub) := by
  have hids : ∀ l ∈ idsOf ch, IdsWf l := by
    intro l hl
    obtain ⟨c, hc, e⟩ := List.mem_filterMap.1 hl
    cases c with
    | none => cases e
    | some c => simp at e; rw [← e]; exact (hw c hc).1
  obtain ⟨u, e, hu, hm⟩ := findSpids_spec (idsOf ch) hids
  have hdep : ∀ x, x ∈ u ↔ Depends ch x := by
    intro x
    rw [hm]
    constructor
    · rintro ⟨l, hl, hx⟩
      obtain ⟨c, hc, e⟩ := List.mem_filterMap.1 hl
      cases c with
      | none => cases e
      | some c => simp at e; rw [← e] at hx; exact ⟨c, hc, hx⟩
    · rintro ⟨c, hc, hx⟩
      exact ⟨c.spids, List.mem_filterMap.2 ⟨some c, hc, rfl⟩, hx⟩
  have hmax : u ≠ [] → maxSets ch = n := by
    intro h
    obtain ⟨x, hx⟩ := List.exists_mem_of_ne_nil u h
    exact maxSets_eq n ch hw x ((hdep x).1 hx)
  refine ⟨u, e, hu, hdep, hmax, ?_⟩
  have hN : spidLoop compat f (maxSets ch) ch (ch.map mainVal) u (List.replicate ch.length 0) =
      spidLoop compat f n ch (ch.map mainVal) u (List.replicate ch.length 0) := by
    by_cases h : u = []
    · rw [h]; rfl
    · rw [hmax h]
  rw [hN]
  refine spidLoop_spec compat f n ch hw u _ hu.1 (by simp) (fun s hs => (hdep s).1 hs) ?_ ?_
  · intro i c hc s l hl
    have hlow : below c.spids s = 0 := by
      unfold below
      rw [List.length_eq_zero_iff, List.filter_eq_nil_iff]
      intro x hx
      have hxu : x ∈ u := (hdep x).2 ⟨c, List.mem_of_getElem? hc, hx⟩
      rw [hl] at hxu
      have hinc := hu.1
      rw [hl] at hinc
      rcases List.mem_cons.1 hxu with h | h
      · simp; omega
      · have := (List.pairwise_cons.1 hinc).1 x h
        simp; omega
    rw [hlow, List.getD_eq_getElem?_getD, List.getElem?_replicate]
    split <;> rfl
  · intro c hc x hx
    exact Or.inr (Or.inl ((hdep x).2 ⟨c, hc, hx⟩))

theorem evalPlane_eq [Inhabited V] (compat : V → Bool) (f : List (Option V) → Res V) (ch : List (Option (Plane V F))) :
    evalPlane compat f ch = (findSpids (idsOf ch)).bind fun spids => (f (ch.map mainVal)).bind fun v =>
      (spidLoop compat f (maxSets ch) ch (ch.map mainVal) spids (List.replicate ch.length 0)).bind fun rows =>
        .ok ⟨none, some v, spids, maxSets ch, fun i k => ((rows.getD i []).getD k (0, v)).1, fun i k => ((rows.getD i []).getD k (0, v)).2⟩ := rfl

/-- A plane for examples. -/
def exPlane (v : Int) (spids : List Int) (npert : Nat) (pval : Nat → Nat → Int) : Plane Int Unit := ⟨none, some v, spids, npert, fun _ _ => 1, pval⟩

/-- The sum of the values that are there. -/
def exSum (vs : List (Option Int)) : Res Int := .ok (vs.foldl (fun a v => a + v.getD 0) 0)

theorem mapRes_ok {α β : Type} (f : α → Res β) : ∀ (l : List α) (r : List β), mapRes f l = .ok r ↔
    r.length = l.length ∧ ∀ (i : Nat) (a : α), l[i]? = some a → ∃ b, r[i]? = some b ∧ f a = .ok b := by
  intro l
  induction l with
  | nil =>
    intro r
    unfold mapRes
    constructor
    · intro h; injection h with h; subst h; exact ⟨rfl, fun i a h => by simp at h⟩
    · rintro ⟨h, _⟩
      rw [List.length_nil, List.length_eq_zero_iff] at h
      rw [h]
  | cons a l ih =>
    intro r
    unfold mapRes
    constructor
    · intro h
      cases hb : f a with
      | err => rw [hb] at h; cases h
      | ub => rw [hb] at h; cases h
      | ok b =>
        rw [hb] at h
        simp only [Res.bind] at h
        cases hr : mapRes f l with
        | err => rw [hr] at h; cases h
        | ub => rw [hr] at h; cases h
        | ok r' =>
          rw [hr] at h
          simp only at h
          injection h with h
          subst h
          obtain ⟨h1, h2⟩ := (ih r').1 hr
          refine ⟨by simp [h1], fun i x hx => ?_⟩
          cases i with
          | zero => simp at hx; subst hx; exact ⟨b, by simp, hb⟩
          | succ i =>
            obtain ⟨b', e1, e2⟩ := h2 i x (by simpa using hx)
            exact ⟨b', by simpa using e1, e2⟩
    · rintro ⟨h1, h2⟩
      cases r with
      | nil => simp at h1
      | cons b r =>
        obtain ⟨b', e1, e2⟩ := h2 0 a (by simp)
        simp at e1
        subst e1
        rw [e2]
        simp only [Res.bind]
        rw [(ih r).2 ⟨by simpa using h1, fun i x hx => by
          obtain ⟨b', e1, e2⟩ := h2 (i + 1) x (by simpa using hx)
          exact ⟨b', by simpa using e1, e2⟩⟩]

theorem mapRes_exists {α β : Type} (f : α → Res β) (l : List α) (h : ∀ a ∈ l, ∃ b, f a = .ok b) : ∃ r, mapRes f l = .ok r := by
  induction l with
  | nil => exact ⟨[], rfl⟩
  | cons a l ih =>
    obtain ⟨b, hb⟩ := h a (by simp)
    obtain ⟨r, hr⟩ := ih (fun x hx => h x (by simp [hx]))
    exact ⟨b :: r, by rw [mapRes, hb]; simp only [Res.bind]; rw [hr]⟩

theorem addFails_eq (cur : Option (List F)) (fs : List F) : addFails cur fs = match fs.getLast? with | none => cur | some x => some [x] := by
  unfold addFails
  induction fs using List.reverseRecOn with
  | nil => rfl
  | append_singleton l x _ => simp

theorem collect_spec (compat : V → Bool) : ∀ (ch : List (Plane V F)) (cur : Option (List F)),
    (ValuesFit compat ch → collect compat ch cur = .ok (match (failsOf ch).getLast? with | none => cur | some x => some [x], ch.map argOf)) ∧
    (¬ ValuesFit compat ch → collect compat ch cur = .err) := by
  intro ch
  induction ch with
  | nil => intro cur; exact ⟨fun _ => rfl, fun h => absurd (fun c hc => by cases hc) h⟩
  | cons c l ih =>
    intro cur
    unfold collect
    cases hf : c.fail with
    | some fs =>
      simp only
      have hiff : ValuesFit compat (c :: l) ↔ ValuesFit compat l := by
        constructor
        · intro h d hd; exact h d (by simp [hd])
        · intro h d hd
          rcases List.mem_cons.1 hd with rfl | hd
          · intro h; rw [hf] at h; cases h
          · exact h d hd
      have harg : argOf c = none := by unfold argOf; rw [hf]
      obtain ⟨i1, i2⟩ := ih (addFails cur fs)
      constructor
      · intro h
        rw [i1 (hiff.1 h)]
        simp only [Res.bind, List.map_cons, harg]
        rw [addFails_eq]
        have : failsOf (c :: l) = fs ++ failsOf l := by simp [failsOf, hf]
        rw [this, List.getLast?_append]
        cases (failsOf l).getLast? with
        | some x => rfl
        | none => simp
      · intro h
        rw [i2 (fun h' => h (hiff.2 h'))]
        rfl
    | none =>
      simp only
      have hfo : failsOf (c :: l) = failsOf l := by simp [failsOf, hf]
      obtain ⟨i1, i2⟩ := ih cur
      cases hv : c.value with
      | none =>
        simp only
        have hiff : ValuesFit compat (c :: l) ↔ ValuesFit compat l := by
          constructor
          · intro h d hd; exact h d (by simp [hd])
          · intro h d hd
            rcases List.mem_cons.1 hd with rfl | hd
            · intro _ v h; rw [hv] at h; cases h
            · exact h d hd
        have harg : argOf c = none := by unfold argOf; rw [hf, hv]
        constructor
        · intro h; rw [i1 (hiff.1 h), hfo]; simp only [Res.bind, List.map_cons, harg]
        · intro h; rw [i2 (fun h' => h (hiff.2 h'))]; rfl
      | some v =>
        simp only
        have harg : argOf c = some c := by unfold argOf; rw [hf, hv]
        by_cases hc : compat v = true
        · rw [if_neg (by simp [hc])]
          have hiff : ValuesFit compat (c :: l) ↔ ValuesFit compat l := by
            constructor
            · intro h d hd; exact h d (by simp [hd])
            · intro h d hd
              rcases List.mem_cons.1 hd with rfl | hd
              · intro _ w h; rw [hv] at h; injection h with h; rw [← h]; exact hc
              · exact h d hd
          constructor
          · intro h; rw [i1 (hiff.1 h), hfo]; simp only [Res.bind, List.map_cons, harg]
          · intro h; rw [i2 (fun h' => h (hiff.2 h'))]; rfl
        · rw [if_pos (by simp [hc])]
          exact ⟨fun h => absurd (h c (by simp) hf v hv) hc, fun _ => rfl⟩

theorem lacking_iff (allowMissing : Bool) (args : List (Option (Plane V F))) (m : Nat) (hm : m = args.length) :
    ((args.filter Option.isNone).length ≠ 0 ∧ ((args.filter Option.isNone).length = m ∨ allowMissing = false)) ↔ Lacking allowMissing args := by
  subst hm
  unfold Lacking
  have h1 : (args.filter Option.isNone).length ≠ 0 ↔ none ∈ args := by
    rw [Ne, List.length_eq_zero_iff, List.filter_eq_nil_iff]
    constructor
    · intro h
      by_contra hn
      apply h
      intro a ha
      cases a with
      | none => exact absurd ha hn
      | some a => simp
    · intro h h'
      exact h' none h rfl
  have h2 : (args.filter Option.isNone).length = args.length ↔ ∀ a ∈ args, a = none := by
    rw [List.length_filter_eq_length_iff]
    simp only [Option.isNone_iff_eq_none]
  rw [h1, h2]

/-- See `C78_plane`. -/
theorem plane_cases [Inhabited V] (compat : V → Bool) (f : List (Option V) → Res V) (allowMissing : Bool) (exc : F) (ch : List (Plane V F)) :
    (¬ ValuesFit compat ch → planeResult compat f allowMissing exc ch = .err) ∧
    (ValuesFit compat ch → Lacking allowMissing (ch.map argOf) →
      planeResult compat f allowMissing exc ch = .ok (failPlane ((failsOf ch).getLast?.map fun x => [x]), .missing)) ∧
    (ValuesFit compat ch → ¬ Lacking allowMissing (ch.map argOf) → ∀ x, (failsOf ch).getLast? = some x →
      planeResult compat f allowMissing exc ch = .ok (failPlane (some [x]), .failed)) ∧
    (ValuesFit compat ch → ¬ Lacking allowMissing (ch.map argOf) → failsOf ch = [] →
      (∀ p, evalPlane compat f (ch.map argOf) = .ok p → planeResult compat f allowMissing exc ch = .ok (p, .good)) ∧
      (evalPlane compat f (ch.map argOf) = .err → planeResult compat f allowMissing exc ch = .ok (failPlane (some [exc]), .failed)) ∧
      (evalPlane compat f (ch.map argOf) = .ub → planeResult compat f allowMissing exc ch = .ub)) := by
  have hlen : ch.length = (ch.map argOf).length := by simp
  unfold planeResult
  refine ⟨fun h => ?_, fun h hl => ?_, fun h hl x hx => ?_, fun h hl hx => ?_⟩
  · rw [(collect_spec compat ch none).2 h]; rfl
  · rw [(collect_spec compat ch none).1 h]
    simp only [Res.bind]
    rw [if_pos ((lacking_iff allowMissing (ch.map argOf) ch.length hlen).2 hl)]
    cases (failsOf ch).getLast? <;> rfl
  · rw [(collect_spec compat ch none).1 h]
    simp only [Res.bind]
    rw [if_neg (fun h => hl ((lacking_iff allowMissing (ch.map argOf) ch.length hlen).1 h)), hx]
  · rw [(collect_spec compat ch none).1 h]
    simp only [Res.bind]
    rw [if_neg (fun h => hl ((lacking_iff allowMissing (ch.map argOf) ch.length hlen).1 h)), hx]
    simp only [List.getLast?_nil]
    refine ⟨fun p hp => ?_, fun hp => ?_, fun hp => ?_⟩ <;> rw [hp]

theorem dimsLoop_spec : ∀ (l : List (ChildRes V F)) (d : List Nat), (∀ c ∈ l, c.planes ≠ []) →
    (∀ r, dimsLoop l d = .ok r → (d ≠ [] → r = d) ∧ (∀ c ∈ l, c.dims ≠ [] → r = c.dims) ∧ (r = d ∨ ∃ c ∈ l, r = c.dims)) ∧
    ((∀ c ∈ l, ∀ c' ∈ l, c.dims ≠ [] → c'.dims ≠ [] → c.dims = c'.dims) → (∀ c ∈ l, c.dims ≠ [] → d ≠ [] → c.dims = d) → ∃ r, dimsLoop l d = .ok r) ∧
    dimsLoop l d ≠ .ub := by
  intro l
  induction l with
  | nil =>
    intro d _
    refine ⟨fun r h => ?_, fun _ _ => ⟨d, rfl⟩, fun h => by cases h⟩
    injection h with h
    subst h
    exact ⟨fun _ => rfl, (fun c hc => by cases hc), Or.inl rfl⟩
  | cons c l ih =>
    intro d hp
    have hc := hp c (by simp)
    have hp' : ∀ c ∈ l, c.planes ≠ [] := fun x hx => hp x (by simp [hx])
    unfold dimsLoop
    rw [if_neg (by rw [List.length_eq_zero_iff]; exact hc)]
    by_cases hd : c.dims = []
    · rw [if_neg (by simp [hd])]
      obtain ⟨i1, i2, i3⟩ := ih d hp'
      refine ⟨fun r h => ?_, fun h1 h2 => i2 (fun x hx y hy => h1 x (by simp [hx]) y (by simp [hy])) (fun x hx => h2 x (by simp [hx])), i3⟩
      obtain ⟨a1, a2, a3⟩ := i1 r h
      refine ⟨a1, fun x hx hx' => ?_, ?_⟩
      · rcases List.mem_cons.1 hx with rfl | hx
        · exact absurd hd hx'
        · exact a2 x hx hx'
      · rcases a3 with h | ⟨x, hx, h⟩
        · exact Or.inl h
        · exact Or.inr ⟨x, by simp [hx], h⟩
    · rw [if_pos (List.length_pos_iff.2 hd)]
      by_cases hd0 : d = []
      · rw [if_pos hd0]
        obtain ⟨i1, i2, i3⟩ := ih c.dims hp'
        refine ⟨fun r h => ?_, fun h1 _ => i2 (fun x hx y hy => h1 x (by simp [hx]) y (by simp [hy])) (fun x hx hx' _ => h1 x (by simp [hx]) c (by simp) hx' hd), i3⟩
        obtain ⟨a1, a2, a3⟩ := i1 r h
        refine ⟨fun h => absurd hd0 h, fun x hx hx' => ?_, ?_⟩
        · rcases List.mem_cons.1 hx with rfl | hx
          · exact a1 hd
          · exact a2 x hx hx'
        · exact Or.inr ⟨c, by simp, a1 hd⟩
      · rw [if_neg hd0]
        by_cases he : c.dims = d
        · rw [if_neg (by simp [he])]
          obtain ⟨i1, i2, i3⟩ := ih d hp'
          refine ⟨fun r h => ?_, fun h1 h2 => i2 (fun x hx y hy => h1 x (by simp [hx]) y (by simp [hy])) (fun x hx => h2 x (by simp [hx])), i3⟩
          obtain ⟨a1, a2, a3⟩ := i1 r h
          refine ⟨a1, fun x hx hx' => ?_, Or.inl (a1 hd0)⟩
          rcases List.mem_cons.1 hx with rfl | hx
          · rw [he]; exact a1 hd0
          · exact a2 x hx hx'
        · rw [if_pos he]
          refine ⟨(fun r h => by cases h), (fun _ h2 => absurd (h2 c (by simp) hd hd0) he), (fun h => by cases h)⟩

theorem outDims_spec (ch : List (ChildRes V F)) (hp : ∀ c ∈ ch, c.planes ≠ []) :
    (∀ r, outDims ch = .ok r → (∀ c ∈ ch, c.dims ≠ [] → r = c.dims) ∧ (r = [] ∨ ∃ c ∈ ch, r = c.dims)) ∧
    ((∀ c ∈ ch, ∀ c' ∈ ch, c.dims ≠ [] → c'.dims ≠ [] → c.dims = c'.dims) → ∃ r, outDims ch = .ok r) := by
  cases ch with
  | nil =>
    refine ⟨fun r h => ?_, fun _ => ⟨[], rfl⟩⟩
    injection h with h
    subst h
    exact ⟨(fun c hc => by cases hc), Or.inl rfl⟩
  | cons c l =>
    simp only [outDims]
    rw [if_neg (by rw [List.length_eq_zero_iff]; exact hp c (by simp))]
    obtain ⟨i1, i2, _⟩ := dimsLoop_spec l c.dims (fun x hx => hp x (by simp [hx]))
    refine ⟨fun r h => ?_, fun h => i2 (fun x hx y hy => h x (by simp [hx]) y (by simp [hy])) (fun x hx hx' hc => h x (by simp [hx]) c (by simp) hx' hc)⟩
    obtain ⟨a1, a2, a3⟩ := i1 r h
    refine ⟨fun x hx hx' => ?_, ?_⟩
    · rcases List.mem_cons.1 hx with rfl | hx
      · exact a1 hx'
      · exact a2 x hx hx'
    · rcases a3 with h | ⟨x, hx, h⟩
      · exact Or.inr ⟨c, by simp, h⟩
      · exact Or.inr ⟨x, by simp [hx], h⟩

theorem prod_pos_of (ch : List (ChildRes V F)) (hw : ∀ c ∈ ch, ResWf c) (d : List Nat) (h : d = [] ∨ ∃ c ∈ ch, d = c.dims) :
    0 < d.foldr (· * ·) 1 ∧ normDims d = d := by
  have key : 0 < d.foldr (· * ·) 1 ∧ (d.foldr (· * ·) 1 = 1 → d = []) := by
    rcases h with h | ⟨c, hc, h⟩
    · subst h; exact ⟨by decide, fun _ => rfl⟩
    · obtain ⟨w1, w2, w3⟩ := hw c hc
      subst h
      rw [← w1]
      exact ⟨List.length_pos_iff.2 w2, w3⟩
  refine ⟨key.1, ?_⟩
  unfold normDims
  split
  · rename_i h; exact (key.2 h).symm
  · rfl

theorem childPlane_eq [Inhabited V] (i : Nat) (c : ChildRes V F) (h : (if c.dims = [] then 0 else i) < c.planes.length) :
    childPlane i c = .ok (planeOf i c) := by
  have e : (if 0 < c.dims.length then i else 0) = (if c.dims = [] then 0 else i) := by
    by_cases hd : c.dims = []
    · rw [if_pos hd, if_neg (by simp [hd])]
    · rw [if_neg hd, if_pos (List.length_pos_iff.2 hd)]
  unfold childPlane planeOf
  rw [e, List.getElem?_eq_getElem h, List.getD_eq_getElem?_getD, List.getElem?_eq_getElem h]
  rfl

theorem childPlanes_eq [Inhabited V] (i : Nat) (ch : List (ChildRes V F)) (h : ∀ c ∈ ch, (if c.dims = [] then 0 else i) < c.planes.length) :
    mapRes (childPlane i) ch = .ok (ch.map (planeOf i)) := by
  rw [mapRes_ok]
  refine ⟨by simp, fun j a ha => ⟨planeOf i a, by simp [ha], childPlane_eq i a (h a (List.mem_of_getElem? ha))⟩⟩

theorem inRange (ch : List (ChildRes V F)) (hw : ∀ c ∈ ch, ResWf c) (d : List Nat) (hd : ∀ c ∈ ch, c.dims ≠ [] → d = c.dims) (i : Nat)
    (hi : i < d.foldr (· * ·) 1) : ∀ c ∈ ch, (if c.dims = [] then 0 else i) < c.planes.length := by
  intro c hc
  obtain ⟨w1, w2, _⟩ := hw c hc
  by_cases h : c.dims = []
  · rw [if_pos h]; exact List.length_pos_iff.2 w2
  · rw [if_neg h, w1, ← hd c hc h]; exact hi

theorem codeOf_fail (kinds : List Kind) : codeOf kinds = .fail ↔ ∀ k ∈ kinds, k = .failed := by
  unfold codeOf
  have h : (kinds.filter (· = .failed)).length = kinds.length ↔ ∀ k ∈ kinds, k = .failed := by
    rw [List.length_filter_eq_length_iff]
    simp
  rw [← h]
  split_ifs with c1 c2
  · simp [c1]
  · simp [c1]
  · simp [c1]

theorem codeOf_missing (kinds : List Kind) (hne : kinds ≠ []) : codeOf kinds = .missing ↔ ∀ k ∈ kinds, k = .missing := by
  unfold codeOf
  have h : (kinds.filter (· = .failed)).length = kinds.length ↔ ∀ k ∈ kinds, k = .failed := by
    rw [List.length_filter_eq_length_iff]
    simp
  have h' : (kinds.filter (· = .missing)).length = kinds.length ↔ ∀ k ∈ kinds, k = .missing := by
    rw [List.length_filter_eq_length_iff]
    simp
  rw [← h']
  split_ifs with c1 c2
  · constructor
    · intro h; cases h
    · intro h2
      obtain ⟨k, hk⟩ := List.exists_mem_of_ne_nil kinds hne
      have e1 := h.1 c1 k hk
      have e2 := h'.1 h2 k hk
      rw [e1] at e2; cases e2
  · simp [c2]
  · simp [c2]

/-- What the ways to count a plane mean. -/
theorem plane_kind [Inhabited V] (compat : V → Bool) (f : List (Option V) → Res V) (allowMissing : Bool) (exc : F) (ch : List (Plane V F))
    (p : Plane V F) (k : Kind) (h : planeResult compat f allowMissing exc ch = .ok (p, k)) :
    (k = .failed → p.fail.isSome = true ∧ p.value = none) ∧ (k = .good → p.fail = none ∧ p.value.isSome = true) ∧
    (k = .missing → p.value = none ∧ (p.fail.isSome = true ↔ failsOf ch ≠ [])) := by
  obtain ⟨p1, p2, p3, p4⟩ := plane_cases compat f allowMissing exc ch
  by_cases hV : ValuesFit compat ch
  · by_cases hl : Lacking allowMissing (ch.map argOf)
    · rw [p2 hV hl] at h
      injection h with h
      injection h with h1 h2
      subst h1 h2
      refine ⟨(fun h => by cases h), (fun h => by cases h), (fun _ => ⟨rfl, ?_⟩)⟩
      simp [failPlane]
    · cases hx : (failsOf ch).getLast? with
      | some x =>
        rw [p3 hV hl x hx] at h
        injection h with h
        injection h with h1 h2
        subst h1 h2
        exact ⟨(fun _ => ⟨rfl, rfl⟩), (fun h => by cases h), (fun h => by cases h)⟩
      | none =>
        rw [List.getLast?_eq_none_iff] at hx
        obtain ⟨q1, q2, q3⟩ := p4 hV hl hx
        cases he : evalPlane compat f (ch.map argOf) with
        | ok p' =>
          rw [q1 p' he] at h
          injection h with h
          injection h with h1 h2
          subst h1 h2
          refine ⟨(fun h => by cases h), (fun _ => ?_), (fun h => by cases h)⟩
          rw [evalPlane_eq] at he
          cases e1 : findSpids (idsOf (ch.map argOf)) with
          | err => rw [e1] at he; cases he
          | ub => rw [e1] at he; cases he
          | ok u =>
            rw [e1] at he
            simp only [Res.bind] at he
            cases e2 : f ((ch.map argOf).map mainVal) with
            | err => rw [e2] at he; cases he
            | ub => rw [e2] at he; cases he
            | ok v =>
              rw [e2] at he
              simp only at he
              cases e3 : spidLoop compat f (maxSets (ch.map argOf)) (ch.map argOf) ((ch.map argOf).map mainVal) u (List.replicate (ch.map argOf).length 0) with
              | err => rw [e3] at he; cases he
              | ub => rw [e3] at he; cases he
              | ok rows =>
                rw [e3] at he
                simp only at he
                injection he with he
                subst he
                exact ⟨rfl, rfl⟩
        | err =>
          rw [q2 he] at h
          injection h with h
          injection h with h1 h2
          subst h1 h2
          exact ⟨(fun _ => ⟨rfl, rfl⟩), (fun h => by cases h), (fun h => by cases h)⟩
        | ub => rw [q3 he] at h; cases h
  · rw [p1 hV] at h; cases h

end Verif.Func
