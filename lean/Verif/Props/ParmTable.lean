import Verif.Proof.ParmTable
/-!
# Properties of parameter tables

C48 (a table returns what was stored), C84 (domain numbers across restarts), C85 (keys), C86 (records).
-/
namespace Verif.ParmTable

open Verif

/-! ## C48 -/

/-- C48: what is stored for a parameter is returned for it under the number that the call returned, as `restored` says; the
number stands for a domain that is the same within the tolerance. -/
theorem C48_stored (t : Table) (name : Bytes) (f : Funk) :
    ∃ d, (put t name f).1.doms[(put t name f).2]? = some d ∧ Close d f.dom ∧
      get (put t name f).1 name (put t name f).2 = .ok (some (restored f (put t name f).2 d)) := by
  have hd : ∃ d, (put t name f).1.doms[(put t name f).2]? = some d ∧ d.matches f.dom = true := by
    unfold put
    split
    · rename_i i hi
      exact findDom_some hi
    · refine ⟨f.dom.entry, by simp, matches_refl fun i hi => ?_⟩
      exact entry_axis f.dom hi
  obtain ⟨d, hd1, hd2⟩ := hd
  refine ⟨d, hd1, (matches_iff _ _).1 hd2, ?_⟩
  unfold get
  rw [put_db, Assoc.find_set, if_pos rfl]
  simp only [dataOf, restored]
  split
  · simp only [load, hd1, Res.bind]
  · simp only [load, Res.bind]

/-- C48: other funklets are not affected by a call. -/
theorem C48_other (t : Table) (h : Reachable t) (op : Op) (ho : OpWf op) (h' : (step t op).doms.length < 2 ^ 31) (name : Bytes) (i : Nat)
    (hi : i < 2 ^ 31) (hu : ¬ Touches t name i op) : get (step t op) name i = get t name i := by
  have hinv := reachable_inv h
  obtain ⟨-, h2, h3, h4⟩ := step_find hinv.1 op
  have hfind : Assoc.find (step t op).db (makeKey name i) = Assoc.find t.db (makeKey name i) := by
    cases op with
    | put n f =>
      rw [h2 n f rfl, if_neg]
      intro hk
      have hp := put_lt t n f
      have h'' : (put t n f).1.doms.length < 2 ^ 31 := h'
      obtain ⟨e1, e2⟩ := makeKey_inj hi (by omega) hk
      exact hu ⟨e1.symm, e2.symm⟩
    | del n j =>
      rw [h3 n j rfl, if_neg]
      intro hk
      obtain ⟨e1, e2⟩ := makeKey_inj hi ho hk
      exact hu ⟨e1.symm, e2.symm⟩
    | delAll n =>
      rw [h4 n rfl, if_neg]
      rintro ⟨j, hj, hk⟩
      have hl := h.1
      obtain ⟨e1, -⟩ := makeKey_inj hi (by have := List.mem_range.1 hj; omega) hk
      exact hu e1.symm
  obtain ⟨l, hd⟩ := step_doms t op
  unfold get
  rw [hfind]
  cases hx : Assoc.find t.db (makeKey name i) with
  | none => rfl
  | some x =>
    have hlt := hinv.2 name i x hi hx
    cases x with
    | full f => rfl
    | const c =>
      simp only [load]
      rw [hd, List.getElem?_append_left hlt]

/-- C48: a stored funklet is returned after any series of calls that do not store or delete it again. -/
theorem C48_kept (ops : List Op) : ∀ (t : Table) (_ : Reachable t) (_ : ∀ op ∈ ops, OpWf op) (_ : (run t ops).doms.length < 2 ^ 31)
    (name : Bytes) (i : Nat) (_ : i < 2 ^ 31) (_ : Untouched name i t ops), get (run t ops) name i = get t name i := by
  induction ops with
  | nil => intros; rfl
  | cons op ops ih =>
    intro t ht hw hl name i hi hu
    have e : run t (op :: ops) = run (step t op) ops := rfl
    rw [e] at hl ⊢
    obtain ⟨l, hd⟩ := run_doms ops (step t op)
    have hle : (step t op).doms.length ≤ (run (step t op) ops).doms.length := by rw [hd]; simp
    have hr : Reachable (step t op) := by
      obtain ⟨_, ops', rfl⟩ := ht
      exact ⟨by omega, ops' ++ [op], by simp [run]⟩
    rw [ih (step t op) hr (fun o h => hw o (List.mem_cons_of_mem _ h)) hl name i hi hu.2]
    exact C48_other t ht op (hw op List.mem_cons_self) (by omega) name i hi hu.1

/-- C48: a deleted funklet is not returned any more; deleting what is not there fails. -/
theorem C48_deleted (t : Table) (h : Reachable t) (name : Bytes) (i : Nat) (hi : i < 2 ^ 31) :
    (∀ t', delete t name i = .ok t' → get t' name i = .ok none) ∧ (delete t name i = .err ↔ get t name i = .ok none) ∧
    get (deleteAll t name) name i = .ok none := by
  have hinv := reachable_inv h
  refine ⟨fun t' ht' => ?_, ?_, ?_⟩
  · have hs : step t (.del name i) = t' := by simp only [step, ht']
    have := (step_find hinv.1 (.del name i)).2.2.1 name i rfl (makeKey name i)
    rw [hs, if_pos rfl] at this
    simp only [get, this]
  · unfold delete get
    cases hx : Assoc.find t.db (makeKey name i) with
    | none => simp
    | some x =>
      have hlt := hinv.2 name i x hi hx
      cases x with
      | full f => simp [load, Res.bind]
      | const c => simp [load, Res.bind, List.getElem?_eq_getElem hlt]
  · have := (step_find hinv.1 (.delAll name)).2.2.2 name rfl (makeKey name i)
    simp only [step] at this
    unfold get
    rw [this]
    by_cases hlt : i < t.doms.length
    · rw [if_pos ⟨i, by simpa using hlt, rfl⟩]
    · split
      · rename_i hx
        split at hx
        · rfl
        · cases hy : Assoc.find t.db (makeKey name i) with
          | none => rfl
          | some y => exact (hlt (hinv.2 name i y hi hy)).elim
      · rename_i x hx
        split at hx
        · cases hx
        · exact (hlt (hinv.2 name i x hi hx)).elim

/-- C48: a lookup for a domain returns, in the order of their numbers, the funklets of all domains that overlap with it. -/
theorem C48_lookup (t : Table) (h : Reachable t) (name : Bytes) (d : Dom) :
    ∃ (ids : List Nat) (fs : List Funk), getAll t name d = .ok fs ∧ ids.Pairwise (· < ·) ∧
      (∀ i, i ∈ ids ↔ ∃ e f, t.doms[i]? = some e ∧ Overlap e d ∧ get t name i = .ok (some f)) ∧
      ids.map (get t name) = fs.map fun f => .ok (some f) := by
  have hinv := reachable_inv h
  have hget : ∀ i, i < t.doms.length → (Assoc.find t.db (makeKey name i)).isSome = true → ∃ f, get t name i = .ok (some f) := by
    intro i hi hs
    obtain ⟨x, hx⟩ := Option.isSome_iff_exists.1 hs
    unfold get
    rw [hx]
    cases x with
    | full f => exact ⟨f, rfl⟩
    | const c => simp [load, Res.bind, List.getElem?_eq_getElem hi]
  have hload : ∀ l : List Nat, (∀ i ∈ l, ∃ f, get t name i = .ok (some f)) →
      ∃ fs, loadAll t name l = .ok fs ∧ l.map (get t name) = fs.map fun f => .ok (some f) := by
    intro l
    induction l with
    | nil => intro _; exact ⟨[], rfl, rfl⟩
    | cons i l ih =>
      intro hl
      obtain ⟨f, hf⟩ := hl i List.mem_cons_self
      obtain ⟨fs, h1, h2⟩ := ih (fun j hj => hl j (List.mem_cons_of_mem _ hj))
      exact ⟨f :: fs, by simp [loadAll, hf, h1, Res.bind], by simp [hf, h2]⟩
  have hmem : ∀ i, i ∈ (List.range t.doms.length).filter (fun i =>
      match t.doms[i]? with | none => false | some e => e.overlaps d && (Assoc.find t.db (makeKey name i)).isSome) ↔
      ∃ e f, t.doms[i]? = some e ∧ Overlap e d ∧ get t name i = .ok (some f) := by
    intro i
    rw [List.mem_filter, List.mem_range]
    constructor
    · rintro ⟨hi, hp⟩
      rw [List.getElem?_eq_getElem hi] at hp
      simp only [Bool.and_eq_true] at hp
      obtain ⟨f, hf⟩ := hget i hi hp.2
      exact ⟨t.doms[i], f, List.getElem?_eq_getElem hi, (overlaps_iff _ _).1 hp.1, hf⟩
    · rintro ⟨e, f, he, hov, hf⟩
      have hi := (List.getElem?_eq_some_iff.1 he).1
      refine ⟨hi, ?_⟩
      rw [he]
      simp only [Bool.and_eq_true]
      refine ⟨(overlaps_iff _ _).2 hov, ?_⟩
      unfold get at hf
      cases hx : Assoc.find t.db (makeKey name i) with
      | none => rw [hx] at hf; simp at hf
      | some x => rfl
  obtain ⟨fs, h1, h2⟩ := hload _ (fun i hi => by
    obtain ⟨e, f, _, _, hf⟩ := (hmem i).1 hi
    exact ⟨f, hf⟩)
  exact ⟨_, fs, h1, List.Pairwise.filter _ (by simpa using List.pairwise_lt_range), hmem, h2⟩

/-- C48: domain numbers keep their meaning. -/
theorem C48_domains (t : Table) (ops : List Op) (i : Nat) (hi : i < t.doms.length) : (run t ops).doms[i]? = t.doms[i]? := by
  obtain ⟨l, hl⟩ := run_doms ops t
  rw [hl, List.getElem?_append_left hi]

/-- C48, all together: a stored funklet is among those returned for any domain that overlaps with the one it was stored for,
after any history that does not replace or delete it. -/
theorem C48_returned (t : Table) (h : Reachable t) (name : Bytes) (f : Funk) (ops : List Op) (hw : ∀ op ∈ ops, OpWf op)
    (hl : (run (put t name f).1 ops).doms.length < 2 ^ 31) (hu : Untouched name (put t name f).2 (put t name f).1 ops) :
    ∃ d, Close d f.dom ∧ ∀ q, Overlap d q →
      ∃ fs, getAll (run (put t name f).1 ops) name q = .ok fs ∧ restored f (put t name f).2 d ∈ fs := by
  obtain ⟨d, h1, h2, h3⟩ := C48_stored t name f
  refine ⟨d, h2, fun q hq => ?_⟩
  have hlt := (List.getElem?_eq_some_iff.1 h1).1
  obtain ⟨l, hd⟩ := run_doms ops (put t name f).1
  have hle : (put t name f).1.doms.length ≤ (run (put t name f).1 ops).doms.length := by rw [hd]; simp
  have hr : Reachable (put t name f).1 := by
    obtain ⟨_, ops', rfl⟩ := h
    exact ⟨by omega, ops' ++ [.put name f], by simp [run, step]⟩
  have hr' : Reachable (run (put t name f).1 ops) := by
    obtain ⟨_, ops', e⟩ := hr
    rw [e] at hl ⊢
    exact ⟨hl, ops' ++ ops, by simp [run]⟩
  have hk := C48_kept ops _ hr hw hl name _ (by omega) hu
  rw [h3] at hk
  have hdd := C48_domains (put t name f).1 ops _ hlt
  rw [h1] at hdd
  obtain ⟨ids, fs, g1, -, g2, g3⟩ := C48_lookup _ hr' name q
  refine ⟨fs, g1, ?_⟩
  have hm := (g2 _).2 ⟨d, _, hdd, hq, hk⟩
  have := List.mem_map_of_mem (f := get (run (put t name f).1 ops) name) hm
  rw [g3, hk, List.mem_map] at this
  obtain ⟨x, hx, hx'⟩ := this
  injection hx' with hx'
  injection hx' with hx'
  rw [← hx']; exact hx

/-- What C48 says about the funklet returned: it is the one that was stored, but for its number. -/
def C48_full : Prop := ∀ (t : Table) (name : Bytes) (f : Funk), Reachable t → (put t name f).1.doms.length < 2 ^ 31 →
  ∃ n, get (put t name f).1 name (put t name f).2 = .ok (some { f with dbid := n })

/-- C48 in full for funklets other than constant polynomials. -/
theorem C48_full_partial (t : Table) (name : Bytes) (f : Funk)
    (hf : f.polc = false ∨ 1 < f.ncoeff) : get (put t name f).1 name (put t name f).2 = .ok (some f) := by
  obtain ⟨d, -, -, hg⟩ := C48_stored t name f
  rw [hg]
  unfold restored
  rw [if_neg]
  rintro ⟨h1, h2⟩
  rcases hf with hf | hf
  · rw [hf] at h1; cases h1
  · omega

/-- C48 fails for constants: the perturbation is lost. -/
theorem C48_refuted : ¬ C48_full := by
  intro h
  obtain ⟨n, hn⟩ := h ⟨[], []⟩ [65] ⟨⟨[some (0, 1)]⟩, -1, true, 1, 5, 1 / 100, 1, 0⟩ ⟨by decide, [], rfl⟩ (by decide +kernel)
  have : get (put ⟨[], []⟩ [65] ⟨⟨[some (0, 1)]⟩, -1, true, 1, 5, 1 / 100, 1, 0⟩).1 [65] (put ⟨[], []⟩ [65] ⟨⟨[some (0, 1)]⟩, -1, true, 1, 5, 1 / 100, 1, 0⟩).2 =
      .ok (some ⟨⟨[some (0, 1), none, none, none, none, none, none, none]⟩, 0, true, 1, 5, 1 / 10 ^ 6, 1, 0⟩) := by decide +kernel
  rw [this] at hn
  injection hn with hn
  injection hn with hn
  have := congrArg Funk.pert hn
  simp only at this
  norm_num at this

/-- What C48 says about storing again: a funklet for the same domain replaces the earlier one. -/
def C48_replaced_full : Prop := ∀ (t : Table) (name : Bytes) (f g : Funk), Reachable t → SameDom f.dom g.dom →
  (put (put t name f).1 name g).2 = (put t name f).2

/-- C48: with domains that are kept apart by the comparison, a domain always has the same number. -/
theorem C48_replaced_partial (S : Dom → Prop) (hS : Apart S) (ops ops' : List Op) (hin : OpsIn S ops) (hin' : OpsIn S ops') (name name' : Bytes)
    (f g : Funk) (hf : S f.dom) (hg : S g.dom) (hs : SameDom f.dom g.dom) :
    (put (run (put (run ⟨[], []⟩ ops) name f).1 ops') name' g).2 = (put (run ⟨[], []⟩ ops) name f).2 := by
  have e : run (put (run ⟨[], []⟩ ops) name f).1 ops' = run ⟨[], []⟩ (ops ++ Op.put name f :: ops') := by simp [run, step]
  have hall : OpsIn S (ops ++ Op.put name f :: ops') := by
    intro n k hk
    rcases List.mem_append.1 hk with hk | hk
    · exact hin n k hk
    · rcases List.mem_cons.1 hk with hk | hk
      · injection hk with _ hk
        subst hk; exact hf
      · exact hin' n k hk
  obtain ⟨h1, h2⟩ := run_apart _ hall
  -- the entry for f
  have hd : ∃ d, (put (run ⟨[], []⟩ ops) name f).1.doms[(put (run ⟨[], []⟩ ops) name f).2]? = some d ∧ d.matches f.dom = true := by
    unfold put
    split
    · rename_i i hi
      exact findDom_some hi
    · refine ⟨f.dom.entry, by simp, matches_refl fun i hi => ?_⟩
      exact entry_axis f.dom hi
  obtain ⟨d, hd1, hd2⟩ := hd
  have hlt := (List.getElem?_eq_some_iff.1 hd1).1
  have hd1' := C48_domains (put (run ⟨[], []⟩ ops) name f).1 ops' _ hlt
  rw [hd1] at hd1'
  rw [e] at hd1' ⊢
  generalize run ⟨[], []⟩ (ops ++ Op.put name f :: ops') = t at *
  generalize (put (run ⟨[], []⟩ ops) name f).2 = i at *
  -- entries matching a domain of S are equal to it
  have hex : ∀ (j : Nat) (x : Dom), t.doms[j]? = some x → ∀ y, S y → x.matches y = true → SameDom x y := by
    intro j x hx y hy hm
    obtain ⟨z, hz, rfl⟩ := h2 x (List.mem_of_getElem? hx)
    have : z.matches y = true := by
      rw [matches_iff] at hm ⊢
      intro k hk
      have := hm k hk
      rwa [entry_axis z hk] at this
    intro k hk
    rw [entry_axis z hk]
    exact hS z y hz hy ((matches_iff _ _).1 this) k hk
  have hdg : d.matches g.dom = true := by
    have := hex i d hd1' f.dom hf hd2
    exact matches_refl fun k hk => by rw [this k hk, hs k hk]
  unfold put
  split
  · rename_i j hj
    obtain ⟨x, hx, hm⟩ := findDom_some hj
    have h3 := hex j x hx g.dom hg hm
    have h4 := hex i d hd1' g.dom hg hdg
    simp only
    by_contra hne
    have hj' := (List.getElem?_eq_some_iff.1 hx)
    have hi' := (List.getElem?_eq_some_iff.1 hd1')
    obtain ⟨hjl, hjx⟩ := hj'
    obtain ⟨hil, hid⟩ := hi'
    rcases Nat.lt_or_gt_of_ne hne with h | h
    · have := List.pairwise_iff_getElem.1 h1 j i hjl hil h
      exact this fun k hk => by rw [hjx, hid, h3 k hk, h4 k hk]
    · have := List.pairwise_iff_getElem.1 h1 i j hil hjl h
      exact this fun k hk => by rw [hjx, hid, h3 k hk, h4 k hk]
  · rename_i hnone
    have := findDom_none hnone i d hd1'
    rw [hdg] at this; cases this

/-- A domain with one axis that starts at `x`. -/
def at0 (x : ℚ) : Dom := ⟨[some (x, 1)]⟩

/-- C48 fails for domains within the tolerance of two others: the earlier funklet stays. -/
theorem C48_replaced_refuted : ¬ C48_replaced_full := by
  intro h
  have := h (run ⟨[], []⟩ [.put [65] ⟨at0 0, -1, true, 1, 1, 1, 1, 0⟩, .put [65] ⟨at0 (15 / 10 ^ 17), -1, true, 1, 1, 1, 1, 0⟩]) [65]
    ⟨at0 (8 / 10 ^ 17), 0, true, 1, 2, 1, 1, 0⟩ ⟨at0 (8 / 10 ^ 17), -1, true, 1, 3, 1, 1, 0⟩ ⟨by decide +kernel, _, rfl⟩ (fun i _ => rfl)
  revert this
  decide +kernel

example : Apart (fun d => ∃ n : Nat, d = at0 n) := by
  rintro d e ⟨n, rfl⟩ ⟨m, rfl⟩ h i hi
  rcases h 0 (by decide) with ⟨h1, -⟩ | ⟨r, s, h1, h2, h3, -⟩
  · simp [at0, Dom.axis] at h1
  · simp only [at0, Dom.axis, List.getD_cons_zero, Option.some.injEq] at h1 h2
    subst h1 h2
    have : n = m := by
      by_contra hne
      have h4 : (1 : ℚ) ≤ |(n : ℚ) - m| := by
        rcases Nat.lt_or_gt_of_ne hne with h | h
        · have : (n : ℚ) + 1 ≤ m := by exact_mod_cast h
          rw [abs_sub_comm, abs_of_nonneg (by linarith)]; linarith
        · have : (m : ℚ) + 1 ≤ n := by exact_mod_cast h
          rw [abs_of_nonneg (by linarith)]; linarith
      have : (1 : ℚ) / 10 ^ 16 < 1 := by norm_num
      simp only at h3
      linarith
    rw [this]

example : Reachable (run ⟨[], []⟩ [.put [65] ⟨at0 0, -1, false, 1, 1, 1, 1, 0⟩, .put [66] ⟨at0 2, -1, true, 1, 7, 1, 1, 0⟩]) ∧
    getAll (run ⟨[], []⟩ [.put [65] ⟨at0 0, -1, false, 1, 1, 1, 1, 0⟩, .put [66] ⟨at0 (-1), -1, true, 1, 7, 1, 1, 0⟩]) [66] (at0 (1 / 2)) =
      .ok [⟨(at0 (-1)).entry, 1, true, 1, 7, 1 / 10 ^ 6, 1, 0⟩] := by
  exact ⟨⟨by decide +kernel, _, rfl⟩, by decide +kernel⟩

/-! ## C84 -/

/-- C84: however often the table is closed and opened again, the domains are those that were added, in order. -/
theorem C84_restart (ops : List DOp) : (ops.foldl dstep emptyDisk).doms = (added ops).map fun d => some d.entry := by
  have key : (ops.foldl dstep emptyDisk).doms = (added ops).map (fun d => some d.entry) ∧
      (ops.foldl dstep emptyDisk).file = ((added ops).map fun d => entryBytes d.entry).flatten := by
    induction ops using List.reverseRecOn with
    | nil => exact ⟨rfl, rfl⟩
    | append_singleton ops op ih =>
      have hadd : ∀ l : List DOp, added (l ++ [op]) = added l ++ added [op] := by
        intro l
        induction l with
        | nil => rfl
        | cons o l ih => cases o <;> simp [added, ih]
      obtain ⟨h1, h2⟩ := ih
      rw [List.foldl_append, hadd]
      cases op with
      | add d => simp [dstep, Disk.add, added, h1, h2]
      | reopen =>
        simp only [List.foldl_cons, List.foldl_nil, dstep, added, List.append_nil]
        refine ⟨?_, h2⟩
        rw [h2]
        have := open_entries ((added ops).map Dom.entry) [] (by decide)
        rw [List.append_nil, List.map_map, List.map_map] at this
        exact this
  exact key.1

/-- C84, in full: after a crash that leaves the first part of the file, the whole entries of that part are still there, and
domains added later are as well after the next restart. -/
def C84_full : Prop := ∀ (ds es : List Dom) (n : Nat),
  (Disk.open ((es.foldl Disk.add ((ds.foldl Disk.add emptyDisk).crash n)).file)).doms =
    (ds.take (n / entrySize) ++ es).map fun d => some d.entry

/-- C84: a crash loses at most the last domains. -/
theorem C84_crash (ds : List Dom) (n : Nat) :
    ((ds.foldl Disk.add emptyDisk).crash n).doms = (ds.take (n / entrySize)).map fun d => some d.entry := by
  obtain ⟨h1, -⟩ := add_file ds emptyDisk
  obtain ⟨tail, t1, t2, -⟩ := take_entries (ds.map Dom.entry) n
  simp only [Disk.crash]
  rw [h1]
  have e : emptyDisk.file ++ (ds.map fun d => entryBytes d.entry).flatten = ((ds.map Dom.entry).map entryBytes).flatten := by
    simp [emptyDisk, Function.comp_def]
  rw [e, t2, open_entries _ _ t1, ← List.map_take, List.map_map]
  rfl

/-- C84 when the crash leaves whole entries. -/
theorem C84_resume_partial (ds es : List Dom) (n : Nat) (hn : n % entrySize = 0) :
    (Disk.open ((es.foldl Disk.add ((ds.foldl Disk.add emptyDisk).crash n)).file)).doms =
      (ds.take (n / entrySize) ++ es).map fun d => some d.entry := by
  obtain ⟨h1, -⟩ := add_file ds emptyDisk
  obtain ⟨h2, -⟩ := add_file es ((ds.foldl Disk.add emptyDisk).crash n)
  obtain ⟨tail, -, t2, t3⟩ := take_entries (ds.map Dom.entry) n
  rw [h2]
  have e : ((ds.foldl Disk.add emptyDisk).crash n).file = (((ds.map Dom.entry).take (n / entrySize)).map entryBytes).flatten := by
    simp only [Disk.crash, Disk.open]
    rw [h1]
    have e : emptyDisk.file ++ (ds.map fun d => entryBytes d.entry).flatten = ((ds.map Dom.entry).map entryBytes).flatten := by
      simp [emptyDisk, Function.comp_def]
    rw [e, t2, t3 hn, List.append_nil]
  rw [e]
  have := open_entries (((ds.map Dom.entry).take (n / entrySize)) ++ es.map Dom.entry) [] (by decide)
  rw [List.append_nil, List.map_append, List.flatten_append] at this
  have e2 : (es.map fun d => entryBytes d.entry) = (es.map Dom.entry).map entryBytes := by simp [Function.comp_def]
  rw [e2, this, ← List.map_take, ← List.map_append, List.map_map]
  rfl

/-- C84 fails when the crash leaves part of an entry: what is added later cannot be read. -/
theorem C84_refuted : ¬ C84_full := by
  intro h
  have := h [at0 0] [at0 2] 1
  revert this
  decide +kernel

example : ((([at0 0, at0 2].foldl Disk.add emptyDisk).crash 200)).doms = [some (at0 0).entry] := by decide +kernel

/-! ## C85 -/

/-- C85: different parameters or domains have different keys. -/
theorem C85_injective (n m : Bytes) (i j : Nat) (hi : i < 2 ^ 31) (hj : j < 2 ^ 31) : makeKey n i = makeKey m j ↔ n = m ∧ i = j :=
  ⟨makeKey_inj hi hj, fun ⟨h1, h2⟩ => by rw [h1, h2]⟩

/-- C85: a key gives back the parameter and the domain number, exactly if the name has no zero byte in it. -/
theorem C85_decompose (n : Bytes) (i : Nat) (hi : i < 2 ^ 31) : decomposeKey (makeKey n i) = (n, (i : Int)) ↔ (0 : UInt8) ∉ n := by
  have h4 : (makeKey n i).take 4 = encInt32 i := by
    simp [makeKey]
  have hd : (makeKey n i).drop 4 = n ++ [0] := by
    unfold makeKey
    rw [List.append_assoc, List.drop_append, List.drop_eq_nil_of_le (by simp)]
    simp
  have hi32 : decInt32 (encInt32 i) = i := decInt32_encInt32 _ ⟨by omega, by omega⟩
  unfold decomposeKey
  rw [h4, hd, hi32]
  simp only [Prod.mk.injEq, and_true]
  constructor
  · intro h h0
    rw [← h] at h0
    have hall := List.all_takeWhile (p := (· ≠ (0 : UInt8))) (l := n ++ [0])
    have := List.all_eq_true.1 hall 0 h0
    simp at this
  · intro h
    rw [List.takeWhile_append_of_pos (fun a ha => by
      simp only [ne_eq, decide_not, Bool.not_eq_true', decide_eq_false_iff_not]
      rintro rfl; exact h ha)]
    simp

example : decomposeKey (makeKey [71, 97] 3) = ([71, 97], 3) := by decide +kernel

/-! ## C86 -/

/-- C86: the blocks of a funklet are read back from a record as they were; it is never taken for that of a constant. -/
theorem C86_roundtrip (bs : List Bytes) (hne : bs ≠ []) (hl : bs.length < 2 ^ 28) (hs : ∀ b ∈ bs, b.length < 2 ^ 64) :
    decode (encode bs) = .ok (.blocks bs) := by
  have hlen := encode_length bs
  have hpos : 0 < bs.length := List.length_pos_iff.2 hne
  have hn : leDec ((encode bs).take 8) = bs.length := by
    unfold encode
    rw [List.append_assoc, List.take_append_of_le_length (by simp), List.take_of_length_le (by simp)]
    exact leDec_encSize _ (by omega)
  have hdrop : ∀ k, (encode bs).drop (8 * (k + 1)) = (((bs.map fun b => encSize b.length).flatten) ++ bs.flatten).drop (8 * k) := by
    intro k
    unfold encode
    rw [List.append_assoc, show 8 * (k + 1) = (encSize bs.length).length + 8 * k by rw [encSize_length]; omega, List.drop_append,
      List.drop_eq_nil_of_le (by omega), Nat.add_sub_cancel_left, List.nil_append]
  have hsizes : (List.range bs.length).map (fun i => leDec (((encode bs).drop (8 * (i + 1))).take 8)) = bs.map List.length := by
    rw [← decode_sizes bs bs.flatten hs]
    refine List.map_congr_left fun i _ => ?_
    rw [hdrop]
  simp only [decode]
  rw [if_neg (by omega), if_neg (by omega), hn, if_neg (by omega), if_neg (by omega), hsizes, if_neg (by omega), hdrop,
    show 8 * bs.length = ((bs.map fun b => encSize b.length).flatten).length from (sizes_length bs).symm, List.drop_append,
    List.drop_eq_nil_of_le (Nat.le_refl _), Nat.sub_self, List.nil_append, List.drop_zero, cut_flatten]

/-- C86 in full for records that are cut short. -/
def C86_full : Prop := ∀ (bs : List Bytes) (n : Nat), bs.length < 2 ^ 28 → (∀ b ∈ bs, b.length < 2 ^ 64) → n < (encode bs).length →
  decode ((encode bs).take n) = .err

/-- C86 fails for a record of which the first 8 bytes are left: it is read as a constant. -/
theorem C86_refuted : ¬ C86_full := by
  intro h
  have := h [[1, 2]] 8 (by decide) (by decide) (by decide)
  revert this
  decide +kernel

/-- C86: a record that is cut short after its first 8 bytes is rejected. -/
theorem C86_truncated_partial (bs : List Bytes) (hl : bs.length < 2 ^ 28) (hs : ∀ b ∈ bs, b.length < 2 ^ 64) (n : Nat) (h8 : 8 < n)
    (hn : n < (encode bs).length) : decode ((encode bs).take n) = .err := by
  have hlen := encode_length bs
  have htl : ((encode bs).take n).length = n := by rw [List.length_take]; omega
  have hnum : leDec (((encode bs).take n).take 8) = bs.length := by
    rw [List.take_take, Nat.min_eq_left (by omega)]
    unfold encode
    rw [List.append_assoc, List.take_append_of_le_length (by simp), List.take_of_length_le (by simp)]
    exact leDec_encSize _ (by omega)
  have hdrop : ∀ k, (encode bs).drop (8 * (k + 1)) = (((bs.map fun b => encSize b.length).flatten) ++ bs.flatten).drop (8 * k) := by
    intro k
    unfold encode
    rw [List.append_assoc, show 8 * (k + 1) = (encSize bs.length).length + 8 * k by rw [encSize_length]; omega, List.drop_append,
      List.drop_eq_nil_of_le (by omega), Nat.add_sub_cancel_left, List.nil_append]
  simp only [decode]
  rw [htl, if_neg (by omega), if_neg (by omega), hnum, if_neg (by omega)]
  by_cases hshort : n < 8 * (bs.length + 1)
  · rw [if_pos hshort]
  · rw [if_neg hshort]
    have hsizes : (List.range bs.length).map (fun i => leDec ((((encode bs).take n).drop (8 * (i + 1))).take 8)) = bs.map List.length := by
      rw [← decode_sizes bs bs.flatten hs]
      refine List.map_congr_left fun i hi => ?_
      have hi := List.mem_range.1 hi
      rw [List.drop_take, List.take_take, Nat.min_eq_left (by omega), hdrop]
    rw [hsizes, if_pos (by omega)]

example : decode (encode [[1, 2, 3], [], [9]]) = .ok (.blocks [[1, 2, 3], [], [9]]) ∧ decode ((encode [[1, 2, 3], [], [9]]).take 20) = .err := by
  decide +kernel

end Verif.ParmTable
