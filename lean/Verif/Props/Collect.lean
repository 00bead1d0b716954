import Verif.Proof.Collect

/-!
# Properties C235-C238: nodes that collect data, and flags of events
-/
namespace Verif.Collect

variable {α ρ ν : Type}

/-! ### C235: histories -/

/-- With a fixed limit the history has the last items found since it was cleared, up to the limit; without limit,
all of them. -/
theorem C235_last (m : Int) (ops : List (HOp α)) (h : ∀ m', HOp.setMax m' ∉ ops) :
    (0 < m → history m ops = (found [] ops).drop ((found [] ops).length - m.toNat)) ∧
    (m ≤ 0 → history m ops = found [] ops) := by
  have := history_last m ops h [] ⟨[], m⟩ rfl (by simp)
  unfold history
  rw [this]
  exact ⟨fun h => by rw [if_pos h], fun h => by rw [if_neg (by omega)]⟩

/-- Whatever the limits were, the history has the last ones of the items found, without gaps, and if any was found
then the latest. -/
theorem C235_suffix (m : Int) (ops : List (HOp α)) :
    history m ops <:+ found [] ops ∧ (found [] ops ≠ [] → history m ops ≠ []) :=
  history_suffix ops [] ⟨[], m⟩ (List.suffix_refl _) (fun h => absurd rfl h)

/-- After a new item the history is within the limit, if there is one. -/
theorem C235_limit (m m' : Int) (hm : 0 < m') (ops : List (HOp α)) (os : List (HOp α)) (x : α)
    (h : ∀ k, HOp.setMax k ∉ os) :
    ((history m (ops ++ [HOp.setMax m'] ++ os ++ [.result (some x)])).length : Int) ≤ m' := by
  unfold history
  rw [List.foldl_append, List.foldl_cons, List.foldl_nil]
  have hmax : ∀ (os : List (HOp α)) (s : Hist α), (∀ k, HOp.setMax k ∉ os) → (os.foldl hstep s).max = s.max := by
    intro os
    induction os with
    | nil => intro s _; rfl
    | cons o os ih =>
      intro s hs
      rw [List.foldl_cons, ih _ (fun k hk => hs k (by simp [hk]))]
      cases o with
      | result i =>
        cases i with
        | none => rfl
        | some x => exact (hstep_list s x).2
      | setMax k => exact absurd (by simp) (hs k)
      | clear => rfl
      | reset => rfl
  have hs : ((ops ++ [HOp.setMax m'] ++ os).foldl hstep (⟨[], m⟩ : Hist α)).max = m' := by
    rw [List.foldl_append, hmax _ _ h, List.foldl_append]
    rfl
  generalize (ops ++ [HOp.setMax m'] ++ os).foldl hstep (⟨[], m⟩ : Hist α) = s at hs
  rw [(hstep_list s x).1, hs, if_pos hm, List.length_drop]
  simp
  omega

example : history 2 [.result (some 1), .result none, .result (some 2), .result (some 3)] = [2, 3] ∧
    history 0 [.result (some 1), .clear, .result (some 2), .result (some 3)] = [2, 3] := by decide

/-! ### C236: data of children -/

/-- The list has one entry for each child, in their order, that shows all the child gave: the item itself if there
is one, else a list of the items, which is empty if there are none. -/
theorem C236_entries (cs : List (ChildRes ρ ν)) : List.Forall₂ Shown cs (collect [] cs) := by
  obtain ⟨es, h1, h2⟩ := collect_eq cs []
  rw [h1]
  exact h2

/-- So it has as many entries as there are children. -/
theorem C236_aligned (cs : List (ChildRes ρ ν)) : (collect [] cs).length = cs.length :=
  (C236_entries cs).length_eq.symm

example : collect [] [⟨none, [some 1]⟩, ⟨none, [none]⟩, ⟨some true, []⟩, ⟨some false, [some 2, none, some 3]⟩] =
    [.one (.value 1), .list [], .one (.plot true), .list [.plot false, .value 2, .value 3]] := by decide

/-! ### C237: joined data -/

/-- The values are those of the children, one after the other; there are labels if a child has any, as many as
values, with those of the children in their places and empty ones for the others; the attributes are the node's
own, else those of the first child that has some. -/
theorem C237_joined (own : Option α) (cs : List (Option (Plot α ν))) (r : Plot α ν) (h : concat own cs = .ok r) :
    r.values = (cs.filterMap id).flatMap Plot.values ∧
    (r.labels = none ↔ ∀ p, some p ∈ cs → ¬ HasLabels p) ∧
    (∀ ls, r.labels = some ls → ls.length = r.values.length ∧
      ∃ parts, ls = parts.flatten ∧ List.Forall₂ LabelsOf (cs.filterMap id) parts) ∧
    r.attrib = own.or ((cs.filterMap id).findSome? Plot.attrib) := by
  obtain ⟨g1, g2, g3⟩ := gather_eq cs [] false own
  unfold concat at h
  dsimp only at h
  by_cases hl : (gather [] false own cs).2.1 = true
  · rw [if_pos hl] at h
    have hex : ∃ p, some p ∈ cs ∧ HasLabels p := by
      rcases g2.1 hl with e | e
      · cases e
      · exact e
    rcases label_eq cs [] with ⟨ps, h1, h2⟩ | ⟨_, h2⟩
    · rw [h2] at h
      cases h
      refine ⟨by rw [g1]; rfl, ⟨fun e => (by cases e), fun hno => ?_⟩, fun ls hls => ?_, g3⟩
      · obtain ⟨p, hp, hh⟩ := hex
        exact absurd hh (hno p hp)
      · cases hls
        refine ⟨?_, ps, rfl, h1⟩
        show (ps.flatten).length = (gather [] false own cs).1.length
        rw [g1, List.nil_append]
        clear h2 hex g1 g2 g3 hl
        generalize cs.filterMap id = qs at h1 ⊢
        induction h1 with
        | nil => rfl
        | cons x _ ih => simp [x.1, ih]
    · rw [h2] at h; cases h
  · rw [if_neg hl] at h
    cases h
    refine ⟨by rw [g1]; rfl, ⟨fun _ p hp hh => hl (g2.2 (.inr ⟨p, hp, hh⟩)), fun _ => rfl⟩, fun ls hls => (by cases hls), g3⟩

/-- It fails only if a child has labels, but not one for each value. -/
theorem C237_fails (own : Option α) (cs : List (Option (Plot α ν))) :
    (∃ r, concat own cs = .ok r) ∨
    (concat own cs = .err ∧ ∃ p, some p ∈ cs ∧ ∃ s l, p.labels = some (s :: l) ∧ (s :: l).length ≠ p.values.length) := by
  unfold concat
  dsimp only
  split
  · rcases label_eq cs [] with ⟨ps, _, h2⟩ | ⟨h1, h2⟩
    · rw [h2]; exact .inl ⟨_, rfl⟩
    · rw [h2]; exact .inr ⟨rfl, h1⟩
  · exact .inl ⟨_, rfl⟩

/-- And then it does fail. -/
theorem C237_checked (own : Option α) (cs : List (Option (Plot α ν))) (p : Plot α ν) (hp : some p ∈ cs) (s : String)
    (l : List String) (hl : p.labels = some (s :: l)) (hne : (s :: l).length ≠ p.values.length) :
    concat own cs = .err := by
  rcases C237_fails own cs with ⟨r, hr⟩ | ⟨h, _⟩
  · exfalso
    obtain ⟨_, h2, h3, _⟩ := C237_joined own cs r hr
    cases hlr : r.labels with
    | none => exact h2.1 hlr p hp ⟨s, l, hl⟩
    | some ls =>
      obtain ⟨_, ps, hps, h4⟩ := h3 ls hlr
      have hmem : p ∈ cs.filterMap id := List.mem_filterMap.2 ⟨some p, hp, rfl⟩
      clear hps h3 hlr h2
      generalize cs.filterMap id = qs at h4 hmem
      induction h4 with
      | nil => cases hmem
      | cons x _ ih =>
        rcases List.mem_cons.1 hmem with rfl | hm
        · rcases x.2 with ⟨s', l', e, e'⟩ | ⟨e | e, _⟩
          · rw [hl] at e
            cases e
            rw [e'] at x
            exact hne x.1
          · rw [hl] at e; cases e
          · rw [hl] at e; cases e
        · exact ih hm
  · exact h

/-- What nodes of C236 with a label for each child give can be joined. -/
theorem C237_collected (own : Option α) (css : List (List String × List (ChildRes ρ ν)))
    (h : ∀ c ∈ css, c.1.length = c.2.length) :
    ∃ r, concat own (css.map (fun c => some ⟨collect [] c.2, some c.1, (none : Option α)⟩)) = .ok r := by
  rcases C237_fails own (css.map (fun c => some ⟨collect [] c.2, some c.1, (none : Option α)⟩)) with hr | ⟨_, p, hp, s, l, h1, h2⟩
  · exact hr
  · exfalso
    obtain ⟨c, hc, e⟩ := List.mem_map.1 hp
    cases e
    simp only [Option.some.injEq] at h1
    rw [← h1] at h2
    exact h2 (by rw [h c hc, C236_aligned])

example : (match concat (none : Option Nat) [some ⟨[1, 2], none, none⟩, none, some ⟨[3], some ["a"], some 7⟩] with
    | .ok r => (r.values, r.labels, r.attrib) | _ => ([], none, none)) = ([1, 2, 3], some ["", "", "a"], some 7) := by
  decide

/-! ### C238: flags of events -/

/-- The flag is raised if and only if one of its sources was raised and not cleared since, and then a call of
`wait` does not wait; sources do not disturb each other, up to the largest number of sources. -/
theorem C238_raised (ops : List FOp) :
    (isRaised (frun ⟨0, 0⟩ ops) = true ↔ ∃ k, k < 32 ∧ raised 0 k false ops = true) ∧
    (ready (frun ⟨0, 0⟩ ops) = true ↔ ∃ k, k < 32 ∧ raised 0 k false ops = true) := by
  obtain ⟨n, h⟩ := frun_inv ops 0 (fun _ => false) ⟨0, 0⟩ new_inv
  constructor
  · unfold isRaised
    rw [word_ne]
    constructor
    · rintro ⟨i, hi, hb⟩
      rw [h.bits i hi] at hb
      exact ⟨min i 31, by omega, hb⟩
    · rintro ⟨k, hk, hb⟩
      refine ⟨k, by omega, ?_⟩
      rw [h.bits k (by omega), show min k 31 = k by omega]
      exact hb
  · unfold ready
    rw [word_ne]
    constructor
    · rintro ⟨i, hi, hb⟩
      rw [BitVec.getLsbD_and, h.bits i hi, Bool.and_eq_true] at hb
      exact ⟨min i 31, by omega, hb.1⟩
    · rintro ⟨k, hk, hb⟩
      refine ⟨k, by omega, ?_⟩
      rw [BitVec.getLsbD_and, h.bits k (by omega), show min k 31 = k by omega, mask_get k (by omega)]
      simp [hk, hb]

/-- One can wait for one of the sources: this does not wait if and only if that source is raised. -/
theorem C238_source (ops : List FOp) (k : Nat) (hk : k < 32) :
    readyFor (frun ⟨0, 0⟩ ops) k = true ↔ raised 0 k false ops = true := by
  obtain ⟨n, h⟩ := frun_inv ops 0 (fun _ => false) ⟨0, 0⟩ new_inv
  unfold readyFor
  rw [word_ne]
  constructor
  · rintro ⟨i, hi, hb⟩
    rw [BitVec.getLsbD_and, h.bits i hi, (bit_get k i hk hi).1, Bool.and_eq_true, decide_eq_true_eq] at hb
    have e : min i 31 = k := by omega
    rw [e] at hb
    exact hb.1
  · intro hb
    refine ⟨k, by omega, ?_⟩
    rw [BitVec.getLsbD_and, h.bits k (by omega), (bit_get k k hk (by omega)).1, show min k 31 = k by omega]
    simp [hb]

example : readyFor (frun ⟨0, 0⟩ (List.replicate 32 .add ++ [.raise 31])) 31 = true ∧
    readyFor (frun ⟨0, 0⟩ (List.replicate 32 .add ++ [.raise 30])) 31 = false := by decide +kernel

/-- Sources are numbered 0, 1, ... up to 31; a further one is refused, and so is the use of one that does not
exist. -/
theorem C238_sources (ops : List FOp) (n : Int) :
    (frun ⟨0, 0⟩ ops).nsources = min 32 (ops.countP (fun o => match o with | .add => true | _ => false)) ∧
    ((n < 0 ∨ (frun ⟨0, 0⟩ ops).nsources ≤ n) → fstep (frun ⟨0, 0⟩ ops) (.raise n) = .err ∧
      fstep (frun ⟨0, 0⟩ ops) (.clear n) = .err) := by
  constructor
  · have : ∀ (ops : List FOp) (s : Flag), s.nsources ≤ 32 →
        (frun s ops).nsources = min 32 (s.nsources + ops.countP (fun o => match o with | .add => true | _ => false)) := by
      intro ops
      induction ops with
      | nil => intro s h; simp [frun]; omega
      | cons o os ih =>
        intro s h
        unfold frun fstep
        cases o with
        | add =>
          dsimp only
          by_cases hn : s.nsources ≥ 32
          · rw [if_pos hn]
            dsimp only
            rw [ih s h]
            simp
            omega
          · rw [if_neg hn]
            dsimp only
            rw [ih _ (by dsimp only; omega)]
            simp
            omega
        | raise m =>
          dsimp only
          by_cases hm : m < 0 ∨ (s.nsources : Int) ≤ m
          · rw [if_pos hm]; dsimp only; rw [ih _ h]; simp
          · rw [if_neg hm]; dsimp only; rw [ih _ (by dsimp only; exact h)]; simp
        | clear m =>
          dsimp only
          by_cases hm : m < 0 ∨ (s.nsources : Int) ≤ m
          · rw [if_pos hm]; dsimp only; rw [ih _ h]; simp
          · rw [if_neg hm]; dsimp only; rw [ih _ (by dsimp only; exact h)]; simp
    have := this ops ⟨0, 0⟩ (by decide)
    simpa using this
  · intro h
    unfold fstep
    exact ⟨if_pos h, if_pos h⟩

/-- Source 31 is raised and cleared as the others are, although `1<<31` is negative. -/
example : isRaised (frun ⟨0, 0⟩ (List.replicate 32 .add ++ [.raise 31, .raise 3, .clear 3])) = true ∧
    isRaised (frun ⟨0, 0⟩ (List.replicate 32 .add ++ [.raise 31, .raise 3, .clear 3, .clear 31])) = false := by
  decide +kernel

end Verif.Collect
