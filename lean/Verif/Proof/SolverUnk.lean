import Verif.Proof.SolverPlan
/-! # The solver's unknowns, end to end: proofs -/
namespace Verif.Solver
open Verif.Tiling

theorem tileNo_eq {nc ts c : List Nat} {q : Nat} (h : TileNo nc ts c q) : q = position (grid ts nc) (tileIdx ts nc c) := by
  obtain ⟨g, k, h1, h2, rfl⟩ := h
  rw [gridOf_unique h1, inTile_unique h2]

theorem tileNo_of {nc ts c : List Nat} (hl : ts.length = nc.length) (hc : CellOf (shapeOf nc) c) : TileNo nc ts c (position (grid ts nc) (tileIdx ts nc c)) :=
  ⟨_, _, grid_ok ts nc hl, inTile_idx ts nc c hl hc, rfl⟩

theorem tilesOf_eq {nc ts : List Nat} {n : Nat} (h : TilesOf nc ts n) : n = cells (grid ts nc) := by
  obtain ⟨g, h1, rfl⟩ := h
  rw [gridOf_unique h1]

theorem tilesOf_of {nc ts : List Nat} (hl : ts.length = nc.length) : TilesOf nc ts (cells (grid ts nc)) := ⟨_, grid_ok ts nc hl, rfl⟩

/-- Every tile has a cell. -/
theorem tile_cell {nc recs} {s : List Nat} (g : Good nc recs) (hs : SolverSizes nc recs s) {r : SpidRec} (hr : r ∈ recs) {f : Nat} (hf : f < cells (grid (sizes nc r.tile) nc)) :
    ∃ c, CellOf nc c ∧ position (grid (sizes nc r.tile) nc) (tileIdx (sizes nc r.tile) nc c) = f := by
  obtain ⟨k, hk, rfl⟩ := exists_cell _ f hf
  obtain ⟨h1, h2⟩ := corner_ok k (unites_ok g hs hr) hk
  exact ⟨_, h1, by rw [h2]⟩

/-- The unknown of a tile as the plan has it. -/
def unkOf (p : Plan) (s f : Nat) : Nat × Nat :=
  match p.uks.find? fun u => u.info.spid == s with
  | some u => (u.info.group * p.T + u.super.getD f 0, u.uk.getD f 0)
  | none => (0, 0)

theorem unkOf_eq {nc recs p gs} (g : Good nc recs) (h : PlanOk nc recs p gs) {r : SpidRec} {u : Uks} (hu : u ∈ p.uks)
    (he : u.info = infoOf nc gs r) (f : Nat) : unkOf p r.spid f = (gs.idxOf r.group * p.T + u.super.getD f 0, u.uk.getD f 0) := by
  unfold unkOf
  have hf : (p.uks.find? fun u => u.info.spid == r.spid) = some u := by
    cases hf : (p.uks.find? fun u => u.info.spid == r.spid) with
    | none =>
      have := List.find?_eq_none.1 hf _ hu
      rw [he] at this
      simp [infoOf] at this
    | some v =>
      have hv := List.mem_of_find?_eq_some hf
      have hs := List.find?_some hf
      have : v = u := entry_unique g h hv hu (by rw [he]; simpa [infoOf] using hs)
      rw [this]
  rw [hf]
  simp [he, infoOf]

theorem getD_some {l : List Nat} {i x : Nat} (h : l[i]? = some x) : l.getD i 0 = x := by rw [List.getD_eq_getElem?_getD, h]; rfl

/-- The solver tile of a tile is below the number of solver tiles. -/
theorem super_lt {nc recs p gs} (g : Good nc recs) (h : PlanOk nc recs p gs) {r : SpidRec} (hr : r ∈ recs) {u : Uks} (hu : u ∈ p.uks)
    (he : u.info = infoOf nc gs r) {f s : Nat} (hf : u.super[f]? = some s) : s < p.T := by
  obtain ⟨a, b, c⟩ := entry_super g h hr hu he
  have hlt := (List.getElem?_eq_some_iff.1 hf).1
  obtain ⟨cs, h1, h2⟩ := tile_cell g h.solver hr (by omega : f < cells (grid (sizes nc r.tile) nc))
  have := c cs h1
  rw [h2, hf] at this
  rw [Option.some.inj this]
  exact stile_lt g h h1

theorem base_inj {T a b s t : Nat} (hs : s < T) (ht : t < T) (h : a * T + s = b * T + t) : a = b ∧ s = t := by
  have hT : 0 < T := by omega
  have e1 : (a * T + s) / T = a := by rw [Nat.mul_comm, Nat.mul_add_div hT, Nat.div_eq_of_lt hs]; rfl
  have e2 : (b * T + t) / T = b := by rw [Nat.mul_comm, Nat.mul_add_div hT, Nat.div_eq_of_lt ht]; rfl
  have : a = b := by rw [← e1, ← e2, h]
  subst this
  exact ⟨rfl, by omega⟩

theorem group_inj {nc recs p gs} (h : PlanOk nc recs p gs) {r r' : SpidRec} (hr : r ∈ recs) : gs.idxOf r.group = gs.idxOf r'.group ↔ r.group = r'.group := by
  constructor
  · exact fun hh => (List.idxOf_inj ((h.gsMem _).2 ⟨r, hr, rfl⟩)).1 hh
  · intro hh; rw [hh]

theorem subsolver_ok {nc recs p gs} (g : Good nc recs) (h : PlanOk nc recs p gs) : SubsolverRight nc recs p.solverKey (unkOf p) := by
  intro r hr r' hr' c c' f f' q q' hc hc' hf hf' hq hq'
  rw [shapeOf_pos g.defined] at hc hc'
  obtain ⟨u, hu, he⟩ := entry_exists h hr
  obtain ⟨u', hu', he'⟩ := entry_exists h hr'
  rw [unkOf_eq g h hu he, unkOf_eq g h hu' he']
  obtain ⟨_, _, h1⟩ := entry_super g h hr hu he
  obtain ⟨_, _, h1'⟩ := entry_super g h hr' hu' he'
  have k1 := h1 c hc
  have k1' := h1' c' hc'
  rw [← tileNo_eq hf, ← tileNo_eq hq] at k1
  rw [← tileNo_eq hf', ← tileNo_eq hq'] at k1'
  have l1 := super_lt g h hr hu he k1
  have l1' := super_lt g h hr' hu' he' k1'
  rw [getD_some k1, getD_some k1']
  constructor
  · intro hh
    obtain ⟨a, b⟩ := base_inj l1 l1' hh
    exact ⟨(group_inj h hr).1 a, b⟩
  · rintro ⟨a, b⟩
    dsimp only
    rw [a, b]

theorem pairwise_of_ne {A : Type} {R : A → A → Prop} : ∀ {l : List A}, l.Pairwise R → ∀ {a b : A}, a ∈ l → b ∈ l → a ≠ b → R a b ∨ R b a
  | [], _, _, _, ha, _, _ => by simp at ha
  | x :: l, h, a, b, ha, hb, hne => by
    obtain ⟨h1, h2⟩ := List.pairwise_cons.1 h
    rcases List.mem_cons.1 ha with rfl | ha'
    · rcases List.mem_cons.1 hb with rfl | hb'
      · exact absurd rfl hne
      · exact Or.inl (h1 b hb')
    · rcases List.mem_cons.1 hb with rfl | hb'
      · exact Or.inr (h1 a ha')
      · exact pairwise_of_ne h2 ha' hb' hne

theorem distinct_ok {nc recs p gs} (g : Good nc recs) (h : PlanOk nc recs p gs) : Distinct nc recs (unkOf p) := by
  intro r hr r' hr' n n' f f' hn hn' hf hf' heq
  obtain ⟨u, hu, he⟩ := entry_exists h hr
  obtain ⟨u', hu', he'⟩ := entry_exists h hr'
  rw [unkOf_eq g h hu he, unkOf_eq g h hu' he'] at heq
  obtain ⟨a1, a2, _⟩ := entry_super g h hr hu he
  obtain ⟨b1, b2, _⟩ := entry_super g h hr' hu' he'
  rw [tilesOf_eq hn] at hf
  rw [tilesOf_eq hn'] at hf'
  have k1 : u.super[f]? = some (u.super.getD f 0) := getD_of_lt (by omega)
  have k2 : u'.super[f']? = some (u'.super.getD f' 0) := getD_of_lt (by omega)
  have k3 : u.uk[f]? = some (u.uk.getD f 0) := getD_of_lt (by omega)
  have k4 : u'.uk[f']? = some (u'.uk.getD f' 0) := getD_of_lt (by omega)
  have e1 : gs.idxOf r.group * p.T + u.super.getD f 0 = gs.idxOf r'.group * p.T + u'.super.getD f' 0 := (Prod.mk.inj heq).1
  have e2 : u.uk.getD f 0 = u'.uk.getD f' 0 := (Prod.mk.inj heq).2
  by_cases huu : u = u'
  · subst huu
    have hrr : r = r' := by
      apply inj_of_nodup_map g.spids hr hr'
      have := he.symm.trans he'
      exact congrArg Info.spid this
    subst hrr
    refine ⟨rfl, ?_⟩
    obtain ⟨m, _, m2, _⟩ := allocated_mem h.alloc u hu
    have es : u.super.getD f' 0 = u.super.getD f 0 := by omega
    rw [es] at k2
    rw [← e2] at k4
    rw [m2] at k3 k4
    exact uk_inj k1 k2 k3 k4
  · exfalso
    have hg : u.info.group = gs.idxOf r.group := by rw [he]; rfl
    have hg' : u'.info.group = gs.idxOf r'.group := by rw [he']; rfl
    rcases pairwise_of_ne (allocated_disjoint h.alloc) hu hu' huu with hd | hd
    · exact hd f f' _ _ _ k1 k2 (by rw [hg, hg']; exact e1) k3 (by rw [k4, ← e2])
    · exact hd f' f _ _ _ k2 k1 (by rw [hg, hg']; exact e1.symm) k4 (by rw [k3, e2])

theorem numbered_ok {nc recs p gs} (g : Good nc recs) (h : PlanOk nc recs p gs) : Numbered nc recs p (unkOf p) := by
  refine ⟨?_, ?_, ?_⟩
  · intro r hr
    obtain ⟨u, hu, he⟩ := entry_exists h hr
    obtain ⟨a, b, _⟩ := entry_super g h hr hu he
    refine ⟨u, ⟨hu, by rw [he]; rfl, by rw [he]; rfl⟩, by rw [b, a]; exact tilesOf_of (sizes_length _ _), ?_⟩
    intro f hf
    rw [unkOf_eq g h hu he]
    exact getD_of_lt hf
  · intro r hr n f hn hf
    obtain ⟨u, hu, he⟩ := entry_exists h hr
    obtain ⟨a, b, _⟩ := entry_super g h hr hu he
    rw [tilesOf_eq hn] at hf
    rw [unkOf_eq g h hu he]
    obtain ⟨m, _, m2, _, _, m5⟩ := allocated_mem h.alloc u hu
    have hg : u.info.group = gs.idxOf r.group := by rw [he]; rfl
    have k1 : u.super[f]? = some (u.super.getD f 0) := getD_of_lt (by omega)
    have k3 : u.uk[f]? = some (u.uk.getD f 0) := getD_of_lt (by omega)
    have := uk_range (base := u.info.group * p.T) (n := m) k1 (by rw [← m2]; exact k3)
    have h5 := m5 (u.info.group * p.T + u.super.getD f 0)
    rw [hg] at this h5
    dsimp only
    omega
  · intro j x hx
    obtain ⟨u, hu, k, s, h1, h2, h3⟩ := allocated_surj h.alloc j x (Nat.zero_le _) hx
    obtain ⟨r, hr, he⟩ := rec_exists h hu
    obtain ⟨a, b, _⟩ := entry_super g h hr hu he
    refine ⟨r, hr, _, k, tilesOf_of (sizes_length _ _), by rw [← a]; exact (List.getElem?_eq_some_iff.1 h1).1, ?_⟩
    rw [unkOf_eq g h hu he, getD_some h1, getD_some h3, ← h2]
    have hg : u.info.group = gs.idxOf r.group := by rw [he]; rfl
    rw [hg]

theorem super_ok {nc recs p gs} (g : Good nc recs) (h : PlanOk nc recs p gs) : SuperRight nc recs p p.solverKey := by
  refine ⟨by rw [h.total]; exact tilesOf_of h.solver.1, ?_⟩
  intro r hr
  obtain ⟨u, hu, he⟩ := entry_exists h hr
  obtain ⟨a, b, c⟩ := entry_super g h hr hu he
  refine ⟨u, ⟨hu, by rw [he]; rfl, by rw [he]; rfl⟩, by rw [a]; exact tilesOf_of (sizes_length _ _), ?_⟩
  intro cs f q hc hf hq
  rw [shapeOf_pos g.defined] at hc
  rw [tileNo_eq hf, tileNo_eq hq]
  exact c cs hc

theorem entries_choose {nc recs p gs} (h : PlanOk nc recs p gs) : ∃ ent : SpidRec → Uks, ∀ r ∈ recs, ent r ∈ p.uks ∧ (ent r).info = infoOf nc gs r := by
  have hex : ∀ r : SpidRec, ∃ u, r ∈ recs → u ∈ p.uks ∧ u.info = infoOf nc gs r := by
    intro r
    by_cases hr : r ∈ recs
    · obtain ⟨u, a, b⟩ := entry_exists h hr
      exact ⟨u, fun _ => ⟨a, b⟩⟩
    · exact ⟨⟨⟨0, 0, 0, []⟩, [], [], []⟩, fun x => absurd x hr⟩
  choose ent hent using hex
  exact ⟨ent, hent⟩

theorem points_ok {nc recs p gs} (g : Good nc recs) (h : PlanOk nc recs p gs) : PointsRight nc recs p p.solverKey := by
  refine ⟨gs, fun r c => gs.idxOf r.group * p.T + stile p nc c, ⟨h.gsNodup, h.gsMem⟩, ?_, ?_⟩
  · intro r hr r' hr' c c' q q' hc hc' hq hq'
    rw [shapeOf_pos g.defined] at hc hc'
    have e : stile p nc c = q := (tileNo_eq hq).symm
    have e' : stile p nc c' = q' := (tileNo_eq hq').symm
    have l := stile_lt g h hc
    have l' := stile_lt g h hc'
    dsimp only
    rw [e, e'] at *
    constructor
    · intro hh
      obtain ⟨a, b⟩ := base_inj l l' hh
      exact ⟨(group_inj h hr).1 a, b⟩
    · rintro ⟨a, b⟩
      rw [a, b]
  · intro α β num conv mask d rs cs hrs hsp hlen hcs
    obtain ⟨ent, hent⟩ := entries_choose h
    exact ⟨_, fillEquations_ok g h ent hent num conv mask d rs hrs hsp hlen cs hcs⟩

/-! ## Delivery -/

theorem flatMap_get {A B : Type} (F : A → List B) (nf : Nat) : ∀ (l : List A), (∀ x ∈ l, (F x).length = nf) → ∀ (i f : Nat) (u : A), l[i]? = some u → f < nf →
    (l.flatMap F)[i * nf + f]? = (F u)[f]?
  | [], _, i, f, u, hi, _ => by simp at hi
  | x :: l, h, 0, f, u, hi, hf => by
    simp at hi; subst hi
    rw [List.flatMap_cons, Nat.zero_mul, Nat.zero_add, List.getElem?_append_left (by rw [h x (by simp)]; exact hf)]
  | x :: l, h, i + 1, f, u, hi, hf => by
    have hx := h x (by simp)
    rw [List.flatMap_cons, List.getElem?_append_right (by rw [hx, Nat.add_mul]; omega), hx]
    have e : (i + 1) * nf + f - nf = i * nf + f := by rw [Nat.add_mul]; omega
    rw [e]
    exact flatMap_get F nf l (fun y hy => h y (by simp [hy])) i f u (by simpa using hi) hf

theorem sorted_index : ∀ {l : List Uks} {u : Uks}, (l.Pairwise fun a b => a.info.spid < b.info.spid) → u ∈ l →
    l[(l.filter fun v => decide (v.info.spid < u.info.spid)).length]? = some u
  | [], _, _, hu => by simp at hu
  | x :: l, u, h, hu => by
    obtain ⟨h1, h2⟩ := List.pairwise_cons.1 h
    rcases List.mem_cons.1 hu with rfl | hu'
    · have : (u :: l).filter (fun v => decide (v.info.spid < u.info.spid)) = [] := by
        rw [List.filter_eq_nil_iff]
        intro v hv
        rcases List.mem_cons.1 hv with rfl | hv'
        · simp
        · have := h1 v hv'; simp; omega
      rw [this]; rfl
    · have hlt := h1 u hu'
      rw [List.filter_cons_of_pos (by simpa using hlt), List.length_cons, List.getElem?_cons_succ]
      exact sorted_index h2 hu'

theorem uks_sorted {nc recs p gs} (g : Good nc recs) (h : PlanOk nc recs p gs) : p.uks.Pairwise fun a b => a.info.spid < b.info.spid := by
  have h1 : p.uks.Pairwise fun a b => a.info.spid ≤ b.info.spid := by
    have := h.sorted; rwa [List.pairwise_map] at this
  have h2 : p.uks.Pairwise fun a b => a.info.spid ≠ b.info.spid := by
    have := nodup_spids g h
    rwa [List.Nodup, List.pairwise_map] at this
  exact (h1.and h2).imp fun ⟨a, b⟩ => by omega

/-- The place of an entry among those of its node. -/
theorem rank_ok {nc recs p gs} (g : Good nc recs) (h : PlanOk nc recs p gs) {r : SpidRec} {i : Nat} (hi : RankOf recs r i) {u : Uks}
    (hu : u ∈ p.uks) (he : u.info = infoOf nc gs r) : (p.uks.filter fun v => v.info.node == r.node)[i]? = some u := by
  have hm : u ∈ p.uks.filter fun v => v.info.node == r.node := List.mem_filter.2 ⟨hu, by rw [he]; simp [infoOf]⟩
  have hs := sorted_index ((uks_sorted g h).filter _) hm
  have hcount : ((p.uks.filter fun v => v.info.node == r.node).filter fun v => decide (v.info.spid < u.info.spid)).length = i := by
    rw [hi, List.filter_filter]
    have hsp : u.info.spid = r.spid := by rw [he]; rfl
    have hp := h.perm.countP_eq (fun a => decide (a.node = r.node ∧ a.spid < r.spid))
    rw [List.countP_map, List.countP_map] at hp
    rw [← List.countP_eq_length_filter, ← List.countP_eq_length_filter]
    have e2 : List.countP (fun q => decide (q.node = r.node ∧ q.spid < r.spid)) recs =
        List.countP ((fun a => decide (a.node = r.node ∧ a.spid < r.spid)) ∘ infoOf nc gs) recs := rfl
    rw [e2, ← hp]
    congr 1
    funext v
    rw [hsp]
    simp only [Function.comp, Bool.decide_and, Bool.and_comm]
    congr 1
  rw [hcount] at hs
  exact hs

theorem updates_ok {nc recs p gs} (g : Good nc recs) (h : PlanOk nc recs p gs) (hnode : NodesAlike recs) (hord : ∀ r ∈ recs, SameOrder nc (sizes nc r.tile) p.solverKey) :
    UpdatesRight nc recs p (unkOf p) := by
  intro α sol r hr n i f hn hi hf
  have hn' := tilesOf_eq hn
  obtain ⟨u, hu, he⟩ := entry_exists h hr
  -- every entry of the node
  have hsp : ∀ v ∈ p.uks.filter (fun v => v.info.node == r.node), v.super.length = n ∧ v.uk.length = n ∧
      spidUpdates p.T sol v = List.zipWith (fun s x => sol (v.info.group * p.T + s) x) v.super v.uk := by
    intro v hv
    obtain ⟨hv1, hv2⟩ := List.mem_filter.1 hv
    obtain ⟨r', hr', he'⟩ := rec_exists h hv1
    have hnd : r.node = r'.node := by rw [he'] at hv2; simp [infoOf] at hv2; exact hv2.symm
    have htile := hnode r hr r' hr' hnd
    obtain ⟨a, b, c⟩ := entry_super g h hr' hv1 he'
    rw [← htile] at a c
    refine ⟨by omega, by omega, ?_⟩
    obtain ⟨m, _, m2, m3, _⟩ := allocated_mem h.alloc v hv1
    rw [spidUpdates_eq sol m3, m2]
    apply alloc_sorted
    · rw [List.pairwise_iff_getElem]
      intro x y hx hy hxy
      obtain ⟨c1, d1, d2⟩ := tile_cell g h.solver hr (by omega : x < cells (grid (sizes nc r.tile) nc))
      obtain ⟨c2, d3, d4⟩ := tile_cell g h.solver hr (by omega : y < cells (grid (sizes nc r.tile) nc))
      have e1 := c c1 d1
      have e2 := c c2 d3
      rw [d2] at e1
      rw [d4] at e2
      have e1' := (List.getElem?_eq_some_iff.1 e1).2
      have e2' := (List.getElem?_eq_some_iff.1 e2).2
      rw [e1', e2']
      have s1 : CellOf (shapeOf nc) c1 := by rw [shapeOf_pos g.defined]; exact d1
      have s2 : CellOf (shapeOf nc) c2 := by rw [shapeOf_pos g.defined]; exact d3
      exact hord r hr c1 c2 _ _ _ _ s1 s2 (tileNo_of (sizes_length _ _) s1) (tileNo_of (sizes_length _ _) s2) (tileNo_of h.solver.1 s1) (tileNo_of h.solver.1 s2) (by omega)
    · intro s hs
      obtain ⟨k, hk⟩ := List.mem_iff_getElem?.1 hs
      exact super_lt g h hr' hv1 he' hk
  have hrank := rank_ok g h hi hu he
  obtain ⟨q1, q2, q3⟩ := hsp u (List.mem_of_getElem? hrank)
  have hget := flatMap_get (spidUpdates p.T sol) n _ (fun v hv => by
    obtain ⟨a, b, c⟩ := hsp v hv
    rw [c, List.length_zipWith]; omega) i f u hrank hf
  unfold applied updates
  rw [hget, q3, List.getElem?_zipWith, getD_of_lt (show f < u.super.length by omega), getD_of_lt (show f < u.uk.length by omega), unkOf_eq g h hu he]
  have : u.info.group = gs.idxOf r.group := by rw [he]; rfl
  simp [this]

/-! ## All parameters tiled in the same way -/

theorem lcm_const {k l : Nat} {ts : List Nat} (hne : ts ≠ []) (hk : 0 < k) (h : ∀ t ∈ ts, t = k) (hl : IsLcm l ts) : l = k := by
  have : IsLcm k ts := by
    refine ⟨hk, fun t ht => by rw [h t ht], fun m hm hall => ?_⟩
    obtain ⟨t, ht⟩ := List.exists_mem_of_ne_nil ts hne
    have := hall t ht
    rw [h t ht] at this
    exact Nat.le_of_dvd hm this
  exact lcm_unique hl this

theorem uniform_solver {nc recs s} (g : Good nc recs) (hs : SolverSizes nc recs s) {r : SpidRec} (hr : r ∈ recs)
    (hall : ∀ r' ∈ recs, sizes nc r'.tile = sizes nc r.tile) : s = sizes nc r.tile := by
  apply List.ext_getElem?
  intro i
  by_cases hi : i < nc.length
  · obtain ⟨l, h1, h2⟩ := hs.2 i nc[i] (List.getElem?_eq_getElem hi) (g.defined _ (List.getElem_mem hi))
    have hlt : i < (sizes nc r.tile).length := by rw [sizes_length]; exact hi
    have hk := getD_of_lt hlt
    have hkp : 0 < (sizes nc r.tile).getD i 0 := sizes_pos nc r.tile g.defined _ (List.mem_of_getElem? hk)
    have hl := lcm_const (by simpa using g.some) hkp (by
      intro t ht
      obtain ⟨r', hr', rfl⟩ := List.mem_map.1 ht
      rw [hall r' hr']) h1
    have hle : (sizes nc r.tile).getD i 0 ≤ nc[i] := by
      have h2 := List.forall₂_iff_get.1 (sizes_le nc r.tile (g.fits r hr))
      have := h2.2 i hlt hi
      change (sizes nc r.tile)[i] ≤ nc[i] at this
      have e := (List.getElem?_eq_some_iff.1 hk).2
      omega
    rw [h2, hk, hl, Nat.min_eq_left hle]
  · rw [List.getElem?_eq_none (by rw [hs.1]; omega), List.getElem?_eq_none (by rw [sizes_length]; omega)]

theorem same_sameOrder {nc ts : List Nat} : SameOrder nc ts ts := by
  intro c c' p p' q q' _ _ h1 h2 h3 h4 hle
  rw [tileNo_eq h3, tileNo_eq h4, ← tileNo_eq h1, ← tileNo_eq h2]
  exact hle

theorem equations_ok {nc recs p gs} (g : Good nc recs) (h : PlanOk nc recs p gs) (hall : ∀ r ∈ recs, sizes nc r.tile = p.solverKey) :
    EquationsRight nc recs p (unkOf p) := by
  refine ⟨gs, ⟨h.gsNodup, h.gsMem⟩, ?_⟩
  intro α β num conv mask d rs cs tn hrs hsp hlen hcs htn
  obtain ⟨ent, hent⟩ := entries_choose h
  rw [fillEquations_ok g h ent hent num conv mask d rs hrs hsp hlen cs hcs]
  have hunk : ∀ r ∈ rs, ∀ c ∈ cs, unkOf p r.spid (tn r c) = (gs.idxOf r.group * p.T + stile p nc c, (ent r).uk.getD (stile p nc c) 0) := by
    intro r hr c hc
    obtain ⟨h1, h2⟩ := hent r (hrs r hr)
    have hcell := allCells_mem hcs hc
    rw [shapeOf_pos g.defined] at hcell
    obtain ⟨_, _, h3⟩ := entry_super g h (hrs r hr) h1 h2
    have ht := tileNo_eq (htn r (hrs r hr) c hc)
    rw [hall r (hrs r hr)] at h3 ht
    have h4 := h3 c hcell
    have es : tn r c = stile p nc c := ht
    rw [unkOf_eq g h h1 h2, es]
    rw [show position (grid p.solverKey nc) (tileIdx p.solverKey nc c) = stile p nc c from rfl] at h4
    rw [getD_some h4]
  congr 1
  unfold expected
  apply List.flatMap_congr
  intro c hc
  by_cases hU : Used num mask d c
  · rw [if_pos hU, if_pos hU]
    apply List.flatMap_congr
    intro gname _
    cases hm : rs.zipIdx.filter fun x => decide (x.1.group = gname) with
    | nil => rfl
    | cons x l =>
      have hmem : ∀ y ∈ x :: l, y.1 ∈ rs := by
        intro y hy
        rw [← hm] at hy
        exact List.fst_mem_of_mem_zipIdx (List.mem_filter.1 hy).1
      have hx1 : (unkOf p x.1.spid (tn x.1 c)).1 = gs.idxOf x.1.group * p.T + stile p nc c := by rw [hunk x.1 (hmem x (by simp)) c hc]
      dsimp only
      by_cases hcv : conv (gs.idxOf x.1.group * p.T + stile p nc c) = true
      · rw [if_pos hcv, if_pos (show conv (unkOf p x.1.spid (tn x.1 c)).1 = true by rw [hx1]; exact hcv)]
      · rw [if_neg hcv, if_neg (show ¬ conv (unkOf p x.1.spid (tn x.1 c)).1 = true by rw [hx1]; exact hcv)]
        apply List.map_congr_left
        intro f _
        rw [hx1]
        congr 1
        apply List.map_congr_left
        intro y hy
        rw [hunk y.1 (hmem y hy) c hc]
  · rw [if_neg hU, if_neg hU]

end Verif.Solver
