import Verif.Proof.AxisMap
/-!
# C184–C186: names of axes, domains as records
-/
namespace Verif.AxisMap

/-! ## C184 -/

/-- **C184, in full**: whatever names were given to axes, the name of an axis leads back to it, and the axes used for time and frequency are those called so. -/
def C184_full : Prop := ∀ ops : List Op, Faithful (after ops)

/-- With a map of one name, the name it had for another axis stays there, and the axis of time is now called frequency. -/
theorem C184_stale : axis (after [.setVec [.str "Freq"]]) ((after [.setVec [.str "Freq"]]).names 1) = some 0 ∧
    (after [.setVec [.str "Freq"]]).names (after [.setVec [.str "Freq"]]).time = .str "Freq" := by decide +kernel

theorem C184_refuted : ¬ C184_full := by
  intro h
  have h1 := (h [.setVec [.str "Freq"]]).1 1 (by decide)
  rw [C184_stale.1] at h1
  cases h1

/-- **C184, in part**: it is so if axes are only ever added to the default ones, and the default ones restored.  Missing: maps that are set. -/
theorem C184_partial (ops : List Op) (h : ∀ o ∈ ops, o = .reset ∨ ∃ nm, o = .addAxis nm) : Faithful (after ops) :=
  good_faithful _ (good_after ops h)

/-- A map of different names that is set, and accepted, holds for the axes it names; other axes keep their names. -/
theorem C184_setVec (m m' : AMap) (l : List Nm) (hd : Distinct l) (h : setVec m l = (m', true)) :
    (∀ (i : Nat) (s : String), l[i]? = some (.str s) → m'.names i = .str s ∧ axis m' (.str s) = some i) ∧
      (∀ i : Nat, (∀ s, l[i]? ≠ some (.str s)) → m'.names i = m.names i) ∧
      (∀ i : Nat, l[i]? = some (.str "Time") → m'.time = i) ∧ (∀ i : Nat, l[i]? = some (.str "Freq") → m'.freq = i) ∧ m'.dflt = false := by
  obtain ⟨h1, h2, h3, h4, h5⟩ := setVec_spec m m' l hd h
  exact ⟨h2, h3, h4, h5, h1⟩

theorem C184_setIter (m m' : AMap) (l : List Nm) (hd : Distinct l) (h : setIter m l = (m', true)) :
    (∀ (i : Nat) (s : String), l[i]? = some (.str s) → m'.names i = .str s ∧ axis m' (.str s) = some i) ∧
      (∀ i : Nat, (∀ s, l[i]? ≠ some (.str s)) → m'.names i = m.names i) ∧
      (∀ i : Nat, l[i]? = some (.str "Time") → m'.time = i) ∧ (∀ i : Nat, l[i]? = some (.str "Freq") → m'.freq = i) ∧ m'.dflt = false := by
  obtain ⟨h1, h2, h3, h4, h5⟩ := setIter_spec m m' l hd h
  exact ⟨h2, h3, h4, h5, h1⟩

/-- The same for records, with the names in them. -/
theorem C184_setRecords (m m' : AMap) (l : List Nm) (hd : Distinct l) (h : setRecords m (l.map some) = (m', true)) :
    (∀ (i : Nat) (s : String), l[i]? = some (.str s) → m'.names i = .str s ∧ axis m' (.str s) = some i) ∧
      (∀ i : Nat, (∀ s, l[i]? ≠ some (.str s)) → m'.names i = m.names i) ∧
      (∀ i : Nat, l[i]? = some (.str "Time") → m'.time = i) ∧ (∀ i : Nat, l[i]? = some (.str "Freq") → m'.freq = i) ∧ m'.dflt = false := by
  have e : ((List.range (l.map some).length).map fun i => ((l.map some).getD i none).getD (Nm.num i)) = l := by
    apply List.ext_getElem
    · simp
    · intro i h1 h2; simp [List.getD, h2]
  obtain ⟨h1, h2, h3, h4, h5⟩ := setRecords_spec m m' (l.map some) (by rw [e]; exact hd) h
  rw [e] at h2 h3 h4 h5
  exact ⟨h2, h3, h4, h5, h1⟩

/-- Which maps are accepted: those of no more than eight names, in which a number stands only in its own place. -/
theorem C184_accepts (m : AMap) (l : List Nm) : (setVec m l).2 = true ↔ l.length ≤ 8 ∧ ∀ (i j : Nat), l[i]? = some (.num j) → j = i := by
  unfold setVec
  by_cases hl : maxAxis < l.length
  · rw [if_pos hl]
    unfold maxAxis at hl
    simp only [Bool.false_eq_true, false_iff, not_and]
    omega
  · rw [if_neg hl]
    have hl' : l.length ≤ 8 := by unfold maxAxis at hl; omega
    have h := defineFrom_ok l m 0
    simp only [Nat.zero_add] at h
    rw [and_iff_right hl', ← h]
    unfold notDefault
    split <;> simp_all

/-- Adding an axis: a name that is known, or a number, changes nothing; another is given to an axis that has none, if there is one, and is then known. -/
theorem C184_add (ops : List Op) (s : String) :
    (∀ i, (after ops).nums s = some i → addAxis (after ops) (.str s) = (after ops, true)) ∧
      ((after ops).nums s = none → (∃ i < 8, (after ops).names i = .num i) →
        ∃ i < 8, (after ops).names i = .num i ∧ (addAxis (after ops) (.str s)).2 = true ∧ (addAxis (after ops) (.str s)).1.names i = .str s ∧
          axis (addAxis (after ops) (.str s)).1 (.str s) = some i ∧ (addAxis (after ops) (.str s)).1.dflt = false ∧
          ∀ j, j ≠ i → (addAxis (after ops) (.str s)).1.names j = (after ops).names j) ∧
      ((after ops).nums s = none → (∀ i < 8, (after ops).names i ≠ .num i) → addAxis (after ops) (.str s) = (after ops, false)) := by
  generalize after ops = m
  refine ⟨?_, ?_, ?_⟩
  · intro i hi
    unfold addAxis
    rw [if_pos (by simp [axis, hi])]
  · intro hn ⟨i, hi, hfree⟩
    unfold addAxis
    rw [if_neg (by simp [axis, hn])]
    cases hf : (List.range maxAxis).find? fun i => decide (m.names i = .num i) with
    | none =>
      exfalso
      have := List.find?_eq_none.mp hf i (List.mem_range.mpr hi)
      simp [hfree] at this
    | some k =>
      have hk : k < 8 := List.mem_range.mp (List.mem_of_find?_eq_some hf)
      have hfk : m.names k = .num k := by simpa using List.find?_some hf
      refine ⟨k, hk, hfk, rfl, ?_, ?_, ?_, ?_⟩
      · simp [define]
      · simp [define, axis]
      · simp [define]
      · intro j hj; simp [define, hj]
  · intro hn hall
    unfold addAxis
    rw [if_neg (by simp [axis, hn])]
    have : (List.range maxAxis).find? (fun i => decide (m.names i = .num i)) = none := by
      rw [List.find?_eq_none]
      intro i hi
      simpa using hall i (List.mem_range.mp hi)
    rw [this]

/-- The default names. -/
theorem C184_reset (ops : List Op) : (after (.reset :: ops)).names 0 = .str "Time" ∧ (after (.reset :: ops)).names 1 = .str "Freq" ∧
    (after (.reset :: ops)).names 2 = .str "L" ∧ (after (.reset :: ops)).names 3 = .str "M" ∧ (∀ i, 3 < i → (after (.reset :: ops)).names i = .num i) ∧
    (after (.reset :: ops)).dflt = true := by
  obtain ⟨h1, _, _, _, h5⟩ := reset_eq (after ops)
  refine ⟨h1 0, h1 1, h1 2, h1 3, ?_, h5⟩
  intro i hi
  have := h1 i
  rw [if_neg (by omega), if_neg (by omega), if_neg (by omega), if_neg (by omega)] at this
  exact this

example : (after [.addAxis (.str "V"), .addAxis (.str "L"), .addAxis (.str "U")]).names 5 = .str "V" ∧
    axis (after [.addAxis (.str "V"), .addAxis (.str "L"), .addAxis (.str "U")]) (.str "U") = some 4 := by decide +kernel

example : (setVec AMap.init [.str "Freq", .str "Time", .num 2, .str "M"]).2 = true ∧ Distinct [.str "Freq", .str "Time", .num 2, .str "M"] := by
  refine ⟨by decide +kernel, ?_⟩
  intro i j s hi hj
  match i, j with
  | 0, 0 | 1, 1 | 3, 3 => rfl
  | 2, _ | _, 2 => simp at hi hj
  | 0, 1 | 0, 3 | 1, 0 | 1, 3 | 3, 0 | 3, 1 => simp at hi hj; rw [← hi] at hj; simp at hj
  | i + 4, _ => simp at hi
  | _, j + 4 => simp at hj

example : ((setVec AMap.init [.str "Freq", .str "Time", .num 2, .str "M"]).1.time, (setVec AMap.init [.str "Freq", .str "Time", .num 2, .str "M"]).1.freq) = (1, 0) := by
  decide +kernel

/-! ## C185 -/

/-- **C185, in full**: a domain that is sent as a record is received as the same domain, whatever names axes have on either side. -/
def C185_full : Prop := ∀ (ops ops' : List Op) (d : Dom), Proper d → (fromRec (after ops') (toRec (after ops) d)).2 = .ok d

/-- Time from 0 to 1, frequency from 5 to 6. -/
def tf : Dom := fun i => if i = 0 then some (0, 1) else if i = 1 then some (5, 6) else none

theorem tf_proper : Proper tf := by
  constructor
  · intro i hi
    unfold maxAxis at hi
    unfold tf
    rw [if_neg (by omega), if_neg (by omega)]
  · intro i a b h
    unfold tf at h
    split at h
    · cases h; decide +kernel
    · split at h
      · cases h; decide +kernel
      · cases h

/-- The default names are not sent along.  A receiver with other names takes the axes for each other. -/
theorem C185_swapped : (match (fromRec (after [.setVec [.str "Freq", .str "Time"]]) (toRec (after []) tf)).2 with | .ok d => (d 0, d 1) | _ => (none, none)) =
    (some (5, 6), some (0, 1)) := by decide +kernel

theorem C185_refuted : ¬ C185_full := by
  intro h
  have h1 := h [] [.setVec [.str "Freq", .str "Time"]] tf tf_proper
  have h2 := C185_swapped
  rw [h1] at h2
  revert h2
  decide +kernel

/-- **C185, in part**: if the sender's names are different from each other and are not the default ones, whatever the receiver's are; or if the receiver gives
the sender's names the same meaning.  Missing: a sender with the default names and a receiver with others; names given twice. -/
theorem C185_partial (ops ops' : List Op) (d : Dom) (hd : Proper d)
    (hdist : ∀ i < 8, ∀ j < 8, (after ops).names i = (after ops).names j → i = j)
    (hknow : (after ops).dflt = false ∨
      ((after ops).dflt = true ∧ ∀ i < 8, d i ≠ none → axis (after ops') ((after ops).names i) = some i)) :
    (fromRec (after ops') (toRec (after ops) d)).2 = .ok d := by
  have hs := sane_after ops
  generalize after ops = m at *
  generalize after ops' = m' at *
  have hf := toRec_fields m d maxAxis (fun i j hi hj => hdist i hi j hj)
  have key : ∀ m'' : AMap, (∀ i < 8, d i ≠ none → axis m'' (m.names i) = some i) → readFields m'' (toRec m d).fields (fun _ => none) = .ok d := by
    intro m'' hk
    have hfields : (toRec m d).fields = (List.range maxAxis).filterMap fun i => (d i).map fun r => (m.names i, r) := hf
    have hmem : ∀ f ∈ (toRec m d).fields, ∃ i < 8, d i = some f.2 ∧ f.1 = m.names i := by
      intro f hfm
      rw [hfields] at hfm
      obtain ⟨i, hi, e⟩ := List.mem_filterMap.mp hfm
      refine ⟨i, List.mem_range.mp hi, ?_⟩
      cases hdi : d i with
      | none => rw [hdi] at e; cases e
      | some q => rw [hdi] at e; cases e; exact ⟨rfl, rfl⟩
    obtain ⟨d', e1, e2, e3⟩ := readFields_spec m'' (toRec m d).fields (fun _ => none) (by
      intro f hfm
      obtain ⟨i, hi, h1, h2⟩ := hmem f hfm
      refine ⟨hd.2 i f.2.1 f.2.2 h1, i, hi, ?_⟩
      rw [h2]
      exact hk i hi (by rw [h1]; simp))
    rw [e1]
    congr 1
    funext i
    by_cases hi : i < 8
    · cases hdi : d i with
      | none =>
        refine e2 i ?_
        intro f hfm ha
        obtain ⟨j, hj, h1, h2⟩ := hmem f hfm
        rw [h2, hk j hj (by rw [h1]; simp)] at ha
        cases ha
        rw [hdi] at h1
        cases h1
      | some r =>
        have hfm : (m.names i, r) ∈ (toRec m d).fields := by
          rw [hfields]
          refine List.mem_filterMap.mpr ⟨i, List.mem_range.mpr hi, by rw [hdi]; rfl⟩
        refine e3 _ hfm i (hk i hi (by rw [hdi]; simp)) ?_
        intro g hg ha
        obtain ⟨j, hj, h1, h2⟩ := hmem g hg
        rw [h2, hk j hj (by rw [h1]; simp)] at ha
        cases ha
        rw [hdi] at h1
        cases h1
        exact Prod.ext h2 rfl
    · rw [hd.1 i (by unfold maxAxis; omega)]
      refine e2 i ?_
      intro f hfm ha
      obtain ⟨j, hj, h1, h2⟩ := hmem f hfm
      rw [h2, hk j hj (by rw [h1]; simp)] at ha
      cases ha
      exact hi hj
  rcases hknow with hdf | ⟨hdf, hk⟩
  · have hmap : (toRec m d).map = some ((List.range maxAxis).map m.names) := by
      unfold toRec; rw [hdf]; rfl
    unfold fromRec
    rw [hmap]
    dsimp only
    have hget : ∀ i nm, ((List.range maxAxis).map m.names)[i]? = some nm → i < 8 ∧ m.names i = nm := by
      intro i nm h
      rw [List.getElem?_map, Option.map_eq_some_iff] at h
      obtain ⟨k, hk, e⟩ := h
      obtain ⟨hlt, hk'⟩ := List.getElem?_eq_some_iff.mp hk
      simp at hlt hk'
      subst hk'
      exact ⟨hlt, e⟩
    have hacc : (setVec m' ((List.range maxAxis).map m.names)).2 = true := by
      rw [C184_accepts]
      refine ⟨by simp [maxAxis], ?_⟩
      intro i j h
      obtain ⟨h1, h2⟩ := hget i _ h
      rcases hs.own i h1 with e | ⟨s, e⟩
      · rw [e] at h2; cases h2; rfl
      · rw [e] at h2; cases h2
    rw [if_pos hacc]
    refine key _ ?_
    intro i hi _
    have hdl : Distinct ((List.range maxAxis).map m.names) := by
      intro a b s ha hb
      obtain ⟨a1, a2⟩ := hget a _ ha
      obtain ⟨b1, b2⟩ := hget b _ hb
      exact hdist a a1 b b1 (a2.trans b2.symm)
    have hset := C184_setVec m' _ _ hdl (Prod.ext rfl hacc)
    rcases hs.own i hi with e | ⟨s, e⟩
    · rw [e]; rfl
    · rw [e]
      refine (hset.1 i s ?_).2
      rw [List.getElem?_map, List.getElem?_range (show i < maxAxis from hi)]
      simp [e]
  · have hmap : (toRec m d).map = none := by unfold toRec; rw [hdf]; rfl
    unfold fromRec
    rw [hmap]
    exact key m' hk

/-- Non-vacuity: the sender has the axes the other way round, the receiver has the default ones, and one more. -/
example : (match (fromRec (after [.addAxis (.str "U")]) (toRec (after [.setVec [.str "Freq", .str "Time"]]) tf)).2 with | .ok d => (d 0, d 1) | _ => (none, none)) =
    (some (0, 1), some (5, 6)) := by decide +kernel

example : (after [.setVec [.str "Freq", .str "Time"]]).dflt = false ∧
    ∀ i < 8, ∀ j < 8, (after [.setVec [.str "Freq", .str "Time"]]).names i = (after [.setVec [.str "Freq", .str "Time"]]).names j → i = j := by
  decide +kernel

/-- A map that is refused may have changed names, which still count as the default ones: a domain sent then is received with its axes mixed up. -/
theorem C185_halfway : (setVec AMap.init [.str "Freq", .str "Time", .num 7]).2 = false ∧
    (match (fromRec (after []) (toRec (after [.setVec [.str "Freq", .str "Time", .num 7]]) tf)).2 with | .ok d => (d 0, d 1) | _ => (none, none)) =
      (some (5, 6), some (0, 1)) := by decide +kernel

/-! ## C186 -/

/-- **C186, in full**: a domain record, whatever is in it, is accepted or refused. -/
def C186_full : Prop := ∀ (ops : List Op) (r : Rec), (fromRec (after ops) r).2 ≠ .ub

/-- A field called `8` is written behind the end of the array of ranges. -/
theorem C186_refuted : ¬ C186_full := by
  intro h
  refine h [] ⟨[(.num 8, (0, 1))], none⟩ ?_
  unfold fromRec readFields
  dsimp only [axis]
  rw [if_neg (by decide +kernel), if_pos (by decide)]

/-- **C186, in part**: if no field is called by a number above 7.  Missing: such records. -/
theorem C186_partial (ops : List Op) (r : Rec) (hr : ∀ f ∈ r.fields, ∀ k, f.1 = .num k → k < 8) : (fromRec (after ops) r).2 ≠ .ub := by
  have hs := sane_after ops
  unfold fromRec
  split
  · exact readFields_no_ub _ hs _ _ hr
  · rename_i l _
    dsimp only
    split
    · exact readFields_no_ub _ (sane_setVec _ l hs) _ _ hr
    · simp

/-- Empty ranges and unknown names are refused. -/
theorem C186_refuses (ops : List Op) (r : Rec) (hr : ∀ f ∈ r.fields, ∀ k, f.1 = .num k → k < 8) (hm : r.map = none)
    (f : Nm × (ℚ × ℚ)) (hf : f ∈ r.fields) (h : f.2.2 ≤ f.2.1 ∨ axis (after ops) f.1 = none) : (fromRec (after ops) r).2 = .err := by
  have hs := sane_after ops
  unfold fromRec
  rw [hm]
  dsimp only
  generalize (fun _ => none : Dom) = d
  generalize r.fields = fs at *
  induction fs generalizing d with
  | nil => cases hf
  | cons g fs ih =>
    obtain ⟨nm, q⟩ := g
    unfold readFields
    cases ha : axis (after ops) nm with
    | none => rfl
    | some i =>
      dsimp only
      have hi : i < maxAxis := by
        cases nm with
        | empty => cases ha
        | num k => cases ha; exact hr (Nm.num i, q) (by simp) i rfl
        | str s => exact hs.bnd s i ha
      by_cases hq : q.2 ≤ q.1
      · rw [if_pos hq]
      · rw [if_neg hq, if_neg (by omega)]
        rcases List.mem_cons.mp hf with e | e
        · subst e
          rcases h with h | h
          · exact absurd h hq
          · dsimp only at h; rw [ha] at h; cases h
        · exact ih _ (fun g hg => hr g (by simp [hg])) e

example : (match (fromRec (after []) ⟨[(.str "Freq", (5, 6)), (.num 4, (0, 1))], none⟩).2 with | .ok d => (d 1, d 4) | _ => (none, none)) =
    (some (5, 6), some (0, 1)) := by decide +kernel

end Verif.AxisMap
