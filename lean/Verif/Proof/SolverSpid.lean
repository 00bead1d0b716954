import Verif.Proof.SolverUnk
/-! # Order of tiles, and where spids come from: proofs -/
namespace Verif.Solver
open Verif.Tiling

/-! ## One tiled axis -/

theorem div_mono_unites {k s n c c' : Nat} (h : Unites k s n) (hc : c < n) (hc' : c' < n) (hle : c / k ≤ c' / k) : c / s ≤ c' / s := by
  rw [← unites_idx h hc, ← unites_idx h hc']
  exact Nat.div_le_div_right hle

/-- Only one tile on each axis. -/
theorem one_tile : ∀ {ks ss ns : List Nat} (c : List Nat), Unites3 ks ss ns → (∀ i : Nat, ks[i]? = ns[i]?) → CellOf ns c →
    cells (grid ks ns) = 1 ∧ position (grid ks ns) (tileIdx ks ns c) = 0 ∧ cells (grid ss ns) = 1 ∧ position (grid ss ns) (tileIdx ss ns c) = 0
  | _, _, _, [], .nil, _, _ => by simp [grid, cells, position]
  | _, _, _, _ :: _, .nil, _, h => h.elim
  | _, _, _, [], .cons _ _, _, h => h.elim
  | k :: ks, s :: ss, n :: ns, c :: cs, .cons h t, hk, hc => by
    obtain ⟨a, b, d, e⟩ := one_tile cs t (fun i => by have := hk (i + 1); simpa using this) hc.2
    have hkn : k = n := by have := hk 0; simpa using this
    obtain ⟨h1, h2, h3, _⟩ := h
    have hsn : s = n := by omega
    have hn : n ≠ 0 := by omega
    have hcn : c / n = 0 := Nat.div_eq_of_lt hc.1
    have hnt : nTiles n n = 1 := by unfold nTiles; rw [Nat.mod_self, Nat.div_self (by omega)]; rfl
    subst hkn; subst hsn
    have e1 : cells (grid (s :: ks) (s :: ns)) = (if s = 0 then 1 else nTiles (tileLen s s) s) * cells (grid ks ns) := rfl
    have e2 : cells (grid (s :: ss) (s :: ns)) = (if s = 0 then 1 else nTiles (tileLen s s) s) * cells (grid ss ns) := rfl
    have hl : tileLen s s = s := by simp [tileLen]
    refine ⟨?_, ?_, ?_, ?_⟩
    · rw [e1, a, if_neg hn, hl, hnt]
    · simp only [grid, tileIdx, position, hn, if_false, hl, hcn, b, Nat.zero_mul, Nat.add_zero]
    · rw [e2, d, if_neg hn, hl, hnt]
    · simp only [grid, tileIdx, position, hn, if_false, hl, hcn, e, Nat.zero_mul, Nat.add_zero]

theorem axis_order : ∀ (a : Nat) {ks ss ns : List Nat} (c c' : List Nat), Unites3 ks ss ns → (∀ i : Nat, i ≠ a → ks[i]? = ns[i]?) → CellOf ns c → CellOf ns c' →
    position (grid ks ns) (tileIdx ks ns c) ≤ position (grid ks ns) (tileIdx ks ns c') → position (grid ss ns) (tileIdx ss ns c) ≤ position (grid ss ns) (tileIdx ss ns c')
  | _, _, _, _, [], _, .nil, _, _, _, _ => by simp [grid, position]
  | _, _, _, _, _ :: _, _, .nil, _, h, _, _ => h.elim
  | _, _, _, _, [], _, .cons _ _, _, h, _, _ => h.elim
  | _, _, _, _, _ :: _, [], .cons _ _, _, _, h, _ => h.elim
  | 0, k :: ks, s :: ss, n :: ns, c :: cs, c' :: cs', .cons h t, hk, hc, hc', hle => by
    have hk' : ∀ i : Nat, ks[i]? = ns[i]? := fun i => by have := hk (i + 1) (by omega); simpa using this
    obtain ⟨a1, b1, d1, e1⟩ := one_tile cs t hk' hc.2
    obtain ⟨a2, b2, d2, e2⟩ := one_tile cs' t hk' hc'.2
    have hn : n ≠ 0 := by have := h.1; have := h.2.1; have := h.2.2.1; omega
    have hk0 : k ≠ 0 := by have := h.1; omega
    have hs0 : s ≠ 0 := by have := h.1; have := h.2.1; omega
    simp only [grid, tileIdx, position, hn, if_false, tileLen, hk0, hs0, a1, b1, b2, d1, e1, e2, Nat.mul_one, Nat.add_zero] at hle ⊢
    exact div_mono_unites h hc.1 hc'.1 hle
  | a + 1, k :: ks, s :: ss, n :: ns, c :: cs, c' :: cs', .cons h t, hk, hc, hc', hle => by
    have hkn : k = n := by have := hk 0 (by omega); simpa using this
    obtain ⟨h1, h2, h3, _⟩ := h
    have hsn : s = n := by omega
    have hn : n ≠ 0 := by omega
    subst hkn; subst hsn
    have z1 : c / s = 0 := Nat.div_eq_of_lt hc.1
    have z2 : c' / s = 0 := Nat.div_eq_of_lt hc'.1
    simp only [grid, tileIdx, position, hn, if_false, tileLen, z1, z2, Nat.zero_mul, Nat.zero_add] at hle ⊢
    exact axis_order a cs cs' t (fun i hi => by have := hk (i + 1) (by omega); simpa using this) hc.2 hc'.2 hle

theorem oneAxis_order {nc recs s a} (g : Good nc recs) (hs : SolverSizes nc recs s) (ho : OneAxis nc recs a) {r : SpidRec} (hr : r ∈ recs) :
    SameOrder nc (sizes nc r.tile) s := by
  intro c c' p p' q q' hc hc' h1 h2 h3 h4 hle
  rw [shapeOf_pos g.defined] at hc hc'
  rw [tileNo_eq h3, tileNo_eq h4]
  rw [tileNo_eq h1, tileNo_eq h2] at hle
  exact axis_order a c c' (unites_ok g hs hr) (ho r hr) hc hc' hle

/-! ## Spids -/

theorem parmSpids_mem : ∀ (l : List Bool) (base s : Nat), s ∈ parmSpids base l ↔ ∃ i : Nat, l[i]? = some true ∧ s = base + (l.take i).count true
  | [], base, s => by simp [parmSpids]
  | true :: l, base, s => by
    rw [parmSpids, List.mem_cons, parmSpids_mem l (base + 1) s]
    constructor
    · rintro (rfl | ⟨i, h1, h2⟩)
      · exact ⟨0, rfl, by simp⟩
      · exact ⟨i + 1, by simpa using h1, by rw [h2, List.take_succ_cons, List.count_cons_self]; omega⟩
    · rintro ⟨i, h1, h2⟩
      cases i with
      | zero => left; simpa using h2
      | succ i => right; exact ⟨i, by simpa using h1, by rw [h2, List.take_succ_cons, List.count_cons_self]; omega⟩
  | false :: l, base, s => by
    rw [parmSpids, parmSpids_mem l base s]
    constructor
    · rintro ⟨i, h1, h2⟩
      exact ⟨i + 1, by simpa using h1, by rw [h2, List.take_succ_cons]; simp⟩
    · rintro ⟨i, h1, h2⟩
      cases i with
      | zero => simp at h1
      | succ i => exact ⟨i, by simpa using h1, by rw [h2, List.take_succ_cons]; simp⟩

theorem count_take_lt {l : List Bool} {i : Nat} (h : l[i]? = some true) : (l.take i).count true < l.count true := by
  have hi := (List.getElem?_eq_some_iff.1 h).1
  have e := (List.getElem?_eq_some_iff.1 h).2
  have hc : l.count true = (l.take i).count true + (l.drop i).count true := by rw [← List.count_append, List.take_append_drop]
  have : 0 < (l.drop i).count true := by
    apply List.count_pos_iff.2
    rw [List.drop_eq_getElem_cons hi, e]; simp
  omega

theorem coefSlots_get : ∀ (l : List Bool) (isp i : Nat), (coefSlots isp l)[i]? = l[i]?.map fun b => if b then some (isp + (l.take i).count true) else none
  | [], _, i => by simp [coefSlots]
  | true :: l, isp, 0 => by simp [coefSlots]
  | false :: l, isp, 0 => by simp [coefSlots]
  | true :: l, isp, i + 1 => by
    rw [coefSlots, List.getElem?_cons_succ, coefSlots_get l (isp + 1) i, List.getElem?_cons_succ, List.take_succ_cons, List.count_cons_self]
    have : isp + 1 + (l.take i).count true = isp + ((l.take i).count true + 1) := by omega
    rw [this]
  | false :: l, isp, i + 1 => by
    rw [coefSlots, List.getElem?_cons_succ, coefSlots_get l isp i, List.getElem?_cons_succ, List.take_succ_cons]
    simp

theorem parmRecs_mem {q : ParmNode} {r : SpidRec} : r ∈ parmRecs q ↔ ∃ i j, Coefficient q i j ∧ r = ⟨256 * q.index + j, q.index, q.group, q.tile⟩ := by
  unfold parmRecs Coefficient
  by_cases hq : q.solvable = true
  · simp only [hq, if_true, List.mem_map, parmSpids_mem, true_and]
    constructor
    · rintro ⟨s, ⟨i, h1, h2⟩, rfl⟩
      exact ⟨i, _, ⟨h1, rfl⟩, by rw [h2]⟩
    · rintro ⟨i, j, ⟨h1, h2⟩, rfl⟩
      exact ⟨_, ⟨i, h1, rfl⟩, by rw [h2]⟩
  · simp [hq]

theorem mergeRecs_nodup : ∀ (l m : List SpidRec), (m.map (·.spid)).Nodup → ((mergeRecs m l).map (·.spid)).Nodup
  | [], _, h => h
  | r :: l, m, h => by
    rw [mergeRecs]
    apply mergeRecs_nodup l
    by_cases hr : r.spid ∈ m.map (·.spid)
    · rw [if_pos hr]; exact h
    · rw [if_neg hr, List.map_append]
      exact List.nodup_append.2 ⟨h, by simp, by
        intro a ha b hb
        simp at hb
        subst hb
        rintro rfl
        exact hr ha⟩

theorem mergeRecs_mem : ∀ (l m : List SpidRec), (∀ a ∈ l, ∀ b ∈ m ++ l, a.spid = b.spid → a = b) → ∀ r, r ∈ mergeRecs m l ↔ r ∈ m ∨ r ∈ l
  | [], m, _, r => by simp [mergeRecs]
  | x :: l, m, h, r => by
    rw [mergeRecs]
    by_cases hx : x.spid ∈ m.map (·.spid)
    · rw [if_pos hx, mergeRecs_mem l m (fun a ha b hb => h a (by simp [ha]) b (by
        rcases List.mem_append.1 hb with h | h <;> simp [h])) r]
      obtain ⟨y, hy, hye⟩ := List.mem_map.1 hx
      have : x = y := h x (by simp) y (by simp [hy]) hye.symm
      subst this
      constructor
      · rintro (h | h)
        · exact Or.inl h
        · exact Or.inr (by simp [h])
      · rintro (h | h)
        · exact Or.inl h
        · rcases List.mem_cons.1 h with rfl | h
          · exact Or.inl hy
          · exact Or.inr h
    · rw [if_neg hx, mergeRecs_mem l (m ++ [x]) (fun a ha b hb => h a (by simp [ha]) b (by
        simp only [List.append_assoc, List.singleton_append] at hb; exact hb)) r]
      simp [or_assoc]

theorem spidMap_ok : ∀ (ps done : List ParmNode) (m : List SpidRec), ((done ++ ps).map (·.index)).Nodup → (∀ q ∈ done ++ ps, q.mask.count true ≤ 256) →
    (m.map (·.spid)).Nodup → (∀ r, r ∈ m ↔ ∃ q ∈ done, r ∈ parmRecs q) →
    ((spidMap m ps).map (·.spid)).Nodup ∧ ∀ r, r ∈ spidMap m ps ↔ ∃ q ∈ done ++ ps, r ∈ parmRecs q
  | [], done, m, _, _, h1, h2 => by simpa [spidMap] using ⟨h1, h2⟩
  | q :: ps, done, m, hn, hc, h1, h2 => by
    rw [spidMap]
    have key : ∀ a ∈ parmRecs q, ∀ b ∈ m ++ parmRecs q, a.spid = b.spid → a = b := by
      intro a ha b hb hab
      have hb' : ∃ q' ∈ done ++ q :: ps, b ∈ parmRecs q' := by
        rcases List.mem_append.1 hb with h | h
        · obtain ⟨q', hq', hr⟩ := (h2 b).1 h
          exact ⟨q', by simp [hq'], hr⟩
        · exact ⟨q, by simp, h⟩
      obtain ⟨q', hq', hr'⟩ := hb'
      obtain ⟨i, j, ⟨_, c1, c2⟩, rfl⟩ := parmRecs_mem.1 ha
      obtain ⟨i', j', ⟨_, d1, d2⟩, rfl⟩ := parmRecs_mem.1 hr'
      have l1 := count_take_lt c1
      have l2 := count_take_lt d1
      have m1 := hc q (by simp)
      have m2 := hc q' hq'
      dsimp only at hab
      have hidx : q.index = q'.index := by omega
      have : q = q' := inj_of_nodup_map hn (by simp) hq' hidx
      subst this
      have : j = j' := by omega
      rw [this]
    have hmem := mergeRecs_mem (parmRecs q) m key
    have := spidMap_ok ps (done ++ [q]) (mergeRecs m (parmRecs q)) (by simpa using hn) (by simpa using hc) (mergeRecs_nodup _ _ h1) (by
      intro r
      rw [hmem r, h2 r]
      constructor
      · rintro (⟨q', hq', hr⟩ | hr)
        · exact ⟨q', by simp [hq'], hr⟩
        · exact ⟨q, by simp, hr⟩
      · rintro ⟨q', hq', hr⟩
        rcases List.mem_append.1 hq' with h | h
        · exact Or.inl ⟨q', h, hr⟩
        · simp at h; subst h; exact Or.inr hr)
    simpa using this

theorem parmSpids_eq : ∀ (l : List Bool) (base : Nat), parmSpids base l = List.range' base (l.count true)
  | [], _ => rfl
  | true :: l, base => by rw [parmSpids, parmSpids_eq l (base + 1), List.count_cons_self, List.range'_succ]
  | false :: l, base => by rw [parmSpids, parmSpids_eq l base]; simp

theorem rank_spidMap (ps : List ParmNode) (hn : (ps.map (·.index)).Nodup) (hc : ∀ q ∈ ps, q.mask.count true ≤ 256) {q : ParmNode} (hq : q ∈ ps) {i j : Nat}
    (h : Coefficient q i j) : RankOf (spidMap [] ps) ⟨256 * q.index + j, q.index, q.group, q.tile⟩ j := by
  obtain ⟨h1, h2⟩ := spidMap_ok ps [] [] hn hc (by simp) (by simp)
  obtain ⟨hs, hi, hj⟩ := h
  have hlt := count_take_lt hi
  unfold RankOf
  have hp : (((spidMap [] ps).filter fun x => decide (x.node = q.index ∧ x.spid < 256 * q.index + j)).map (·.spid)).Perm (List.range' (256 * q.index) j) := by
    rw [List.perm_ext_iff_of_nodup]
    · intro x
      rw [List.mem_range'_1, List.mem_map]
      constructor
      · rintro ⟨r, hr, rfl⟩
        obtain ⟨hr1, hr2⟩ := List.mem_filter.1 hr
        simp at hr2
        obtain ⟨q', hq', hm⟩ := (h2 r).1 hr1
        obtain ⟨i', j', _, rfl⟩ := parmRecs_mem.1 hm
        dsimp only at hr2 ⊢
        omega
      · rintro ⟨hx1, hx2⟩
        refine ⟨⟨x, q.index, q.group, q.tile⟩, List.mem_filter.2 ⟨(h2 _).2 ⟨q, by simpa using hq, ?_⟩, by simp; omega⟩, rfl⟩
        unfold parmRecs
        rw [if_pos hs]
        refine List.mem_map.2 ⟨x, ?_, rfl⟩
        rw [parmSpids_eq, List.mem_range'_1]
        omega
    · exact (h1.sublist (List.filter_sublist.map _))
    · exact List.nodup_range'
  have := hp.length_eq
  simp only [List.length_map, List.length_range'] at this
  exact this.symm

end Verif.Solver
