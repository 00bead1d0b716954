import Verif.Proof.Solver
/-! # The solver's plan, equations and updates: proofs -/
namespace Verif.Solver
open Verif.Tiling

/-- What the first loop leaves of a record. -/
def infoOf (nc : List Nat) (gs : List String) (r : SpidRec) : Info := ⟨r.spid, r.node, gs.idxOf r.group, sizes nc r.tile⟩

theorem unites3_le : ∀ {ks ss ns : List Nat}, Unites3 ks ss ns → List.Forall₂ (· ≤ ·) ks ss
  | _, _, _, .nil => .nil
  | _, _, _, .cons h t => .cons h.2.1 (unites3_le t)

/-- What is known of the plan. -/
structure PlanOk (nc : List Nat) (recs : List SpidRec) (p : Plan) (gs : List String) : Prop where
  solver : SolverSizes nc recs p.solverKey
  total : p.T = cells (grid p.solverKey nc)
  groups : p.groups = gs.length
  gsNodup : gs.Nodup
  gsMem : ∀ g, g ∈ gs ↔ ∃ r ∈ recs, r.group = g
  perm : (p.uks.map (·.info)).Perm (recs.map (infoOf nc gs))
  sorted : (p.uks.map (·.info)).Pairwise fun a b => a.spid ≤ b.spid
  alloc : Allocated p.T (superTiles nc p.solverKey p.solverKey) (p.uks.map (·.info)) (fun _ => 0) p.uks p.nuk

theorem init_total {ts ns : List Nat} (h : ts.length = ns.length) : (init ts ns).total = cells (grid ts ns) := by
  show (initAxes ts ns).2 = _
  rw [init_eq ts ns (ns.map fun _ => 0) h (by simp) (by simp)]

theorem populate_ok {nc : List Nat} {recs : List SpidRec} (g : Good nc recs) : ∃ p gs, populate nc recs = .ok p ∧ PlanOk nc recs p gs := by
  obtain ⟨q, hq, inv⟩ := popLoop_ok nc g.defined recs [] _ (popInv_start nc) (by simpa using g.fits) (by simpa using g.chain)
  rw [List.nil_append] at inv
  have hss := solverSizes_ok g inv
  set st := solverTiles q.keys 0 nc q.maxs with hst
  have ho := obtain_ok nc.length st hss.1 q.keys inv.keysLen inv.keysSorted (by
    intro a ha
    obtain ⟨r, hr, rfl⟩ := (inv.keysMem a).1 ha
    exact Or.inl (unites3_le (unites_ok g hss hr)))
  have hne : q.infos ≠ [] := by
    intro h
    have := inv.perm.length_eq
    rw [h] at this
    simp at this
    exact g.some (List.eq_nil_of_length_eq_zero (by omega))
  have hsup : ∀ i ∈ q.infos, superTiles nc st st i.key ≠ none := by
    intro i hi
    obtain ⟨r, hr, rfl⟩ := List.mem_map.1 (inv.perm.mem_iff.1 hi)
    obtain ⟨sup, h, _⟩ := superTiles_ok (unites_ok g hss hr) g.defined
    simp [h]
  obtain ⟨us, n', hal, hA⟩ := allocAll_ok (init st nc).total (superTiles nc st st) q.infos (fun _ => 0) hsup
  have hinf := allocated_infos hA
  refine ⟨⟨st, (init st nc).total, q.groups.length, us, n'⟩, q.groups, ?_, ?_⟩
  · unfold populate
    rw [hq]
    dsimp only
    rw [if_neg hne, ← hst, ho.1, hal]
  · refine ⟨hss, init_total hss.1, rfl, inv.groupsNodup, inv.groupsMem, ?_, ?_, ?_⟩
    · show (us.map (·.info)).Perm _
      rw [hinf]; exact inv.perm
    · show (us.map (·.info)).Pairwise _
      rw [hinf]; exact inv.sorted
    · show Allocated _ _ (us.map (·.info)) _ us n'
      rw [hinf]; exact hA

/-! ## Entries -/

theorem nodup_spids {nc recs p gs} (g : Good nc recs) (h : PlanOk nc recs p gs) : (p.uks.map fun u => u.info.spid).Nodup := by
  have := h.perm.map Info.spid
  rw [List.map_map, List.map_map] at this
  refine (this.nodup_iff).2 ?_
  exact g.spids

theorem entry_exists {nc recs p gs} (h : PlanOk nc recs p gs) {r : SpidRec} (hr : r ∈ recs) : ∃ u ∈ p.uks, u.info = infoOf nc gs r := by
  have : infoOf nc gs r ∈ p.uks.map (·.info) := h.perm.mem_iff.2 (List.mem_map.2 ⟨r, hr, rfl⟩)
  obtain ⟨u, hu, he⟩ := List.mem_map.1 this
  exact ⟨u, hu, he⟩

theorem rec_exists {nc recs p gs} (h : PlanOk nc recs p gs) {u : Uks} (hu : u ∈ p.uks) : ∃ r ∈ recs, u.info = infoOf nc gs r := by
  have : u.info ∈ recs.map (infoOf nc gs) := h.perm.mem_iff.1 (List.mem_map.2 ⟨u, hu, rfl⟩)
  obtain ⟨r, hr, he⟩ := List.mem_map.1 this
  exact ⟨r, hr, he.symm⟩

theorem inj_of_nodup_map {A B : Type} {f : A → B} : ∀ {l : List A}, (l.map f).Nodup → ∀ {a b : A}, a ∈ l → b ∈ l → f a = f b → a = b
  | [], _, _, _, ha, _, _ => by simp at ha
  | x :: l, h, a, b, ha, hb, he => by
    rw [List.map_cons, List.nodup_cons] at h
    rcases List.mem_cons.1 ha with rfl | ha'
    · rcases List.mem_cons.1 hb with rfl | hb'
      · rfl
      · exact absurd (List.mem_map.2 ⟨b, hb', he.symm⟩) h.1
    · rcases List.mem_cons.1 hb with rfl | hb'
      · exact absurd (List.mem_map.2 ⟨a, ha', he⟩) h.1
      · exact inj_of_nodup_map h.2 ha' hb' he

theorem entry_unique {nc recs p gs} (g : Good nc recs) (h : PlanOk nc recs p gs) {u v : Uks} (hu : u ∈ p.uks) (hv : v ∈ p.uks)
    (he : u.info.spid = v.info.spid) : u = v := inj_of_nodup_map (nodup_spids g h) hu hv he

/-- Solver tiles of an entry. -/
theorem entry_super {nc recs p gs} (g : Good nc recs) (h : PlanOk nc recs p gs) {r : SpidRec} (hr : r ∈ recs) {u : Uks} (hu : u ∈ p.uks)
    (he : u.info = infoOf nc gs r) : u.super.length = cells (grid (sizes nc r.tile) nc) ∧ u.uk.length = u.super.length ∧
    ∀ cs, CellOf nc cs → u.super[position (grid (sizes nc r.tile) nc) (tileIdx (sizes nc r.tile) nc cs)]? =
      some (position (grid p.solverKey nc) (tileIdx p.solverKey nc cs)) := by
  obtain ⟨m, h1, h2, _⟩ := allocated_mem h.alloc u hu
  obtain ⟨sup, k1, k2, k3⟩ := superTiles_ok (unites_ok g h.solver hr) g.defined
  rw [he] at h1
  change superTiles nc p.solverKey p.solverKey (sizes nc r.tile) = _ at h1
  rw [k1] at h1
  have e := Option.some.inj h1
  subst e
  exact ⟨k2, by rw [h2, alloc_length], k3⟩

theorem nTiles_anti {k s n : Nat} (h : Unites k s n) : nTiles s n ≤ nTiles k n := by
  obtain ⟨h1, h2, h3, _⟩ := h
  rw [nTiles_eq h1 (by omega), nTiles_eq (t := s) (by omega) (by omega)]
  have : (n - 1) / s ≤ (n - 1) / k := Nat.div_le_div_left h2 h1
  omega

theorem cells_anti : ∀ {ks ss ns : List Nat}, Unites3 ks ss ns → cells (grid ss ns) ≤ cells (grid ks ns)
  | _, _, _, .nil => Nat.le_refl _
  | k :: ks, s :: ss, n :: ns, .cons h t => by
    have ih := cells_anti t
    have hn := nTiles_anti h
    obtain ⟨h1, h2, h3, _⟩ := h
    have hn0 : n ≠ 0 := by omega
    have hk0 : k ≠ 0 := by omega
    have hs0 : s ≠ 0 := by omega
    simp only [grid, hn0, if_false, tileLen, hk0, hs0]
    exact Nat.mul_le_mul hn ih

/-! ## Equations -/

theorem findAll_ok {nc recs p gs} (g : Good nc recs) (h : PlanOk nc recs p gs) (ent : SpidRec → Uks)
    (hent : ∀ r ∈ recs, ent r ∈ p.uks ∧ (ent r).info = infoOf nc gs r) : ∀ (rs : List SpidRec), (∀ r ∈ rs, r ∈ recs) →
    findAll p.uks (rs.map (·.spid)) = some (rs.map ent)
  | [], _ => rfl
  | r :: rs, hr => by
    have ih := findAll_ok g h ent hent rs (fun x hx => hr x (by simp [hx]))
    obtain ⟨h1, h2⟩ := hent r (hr r (by simp))
    have hf : (p.uks.find? fun u => u.info.spid == r.spid) = some (ent r) := by
      cases hf : (p.uks.find? fun u => u.info.spid == r.spid) with
      | none =>
        have := List.find?_eq_none.1 hf _ h1
        rw [h2] at this
        simp [infoOf] at this
      | some v =>
        have hv := List.mem_of_find?_eq_some hf
        have hs := List.find?_some hf
        have : v = ent r := entry_unique g h hv h1 (by rw [h2]; simpa [infoOf] using hs)
        rw [this]
    rw [List.map_cons, findAll, hf, ih]; rfl

theorem columns_ok {β : Type} (itile : Nat) : ∀ (l : List (Uks × β)), (∀ d ∈ l, itile < d.1.uk.length) →
    columns itile l = .ok (l.map fun d => (d.1.uk.getD itile 0, d.2))
  | [], _ => rfl
  | d :: l, h => by
    have ih := columns_ok itile l (fun x hx => h x (by simp [hx]))
    have hd := getD_of_lt (h d (by simp))
    have : column d.1 itile = .ok (d.1.uk.getD itile 0) := by rw [column, hd]
    rw [columns, this, Res.bind, ih]; rfl

theorem flatMap_range {A : Type} [DecidableEq A] {B : Type} : ∀ (gs : List A), gs.Nodup → ∀ (f : Nat → List B),
    (List.range gs.length).flatMap f = gs.flatMap fun x => f (gs.idxOf x) := by
  intro gs hn f
  have : List.range gs.length = gs.map fun x => gs.idxOf x := by
    apply List.ext_getElem?
    intro i
    by_cases hi : i < gs.length
    · rw [List.getElem?_range hi, List.getElem?_map, List.getElem?_eq_getElem hi, Option.map_some, hn.idxOf_getElem i hi]
    · rw [List.getElem?_eq_none (by simpa using hi), List.getElem?_eq_none (by simpa using hi)]
  rw [this, List.flatMap_map]

theorem zipIdx_map {A B : Type} (f : A → B) : ∀ (l : List A) (n : Nat), (l.map f).zipIdx n = (l.zipIdx n).map fun x => (f x.1, x.2)
  | [], _ => rfl
  | a :: l, n => by simp [zipIdx_map f l (n + 1)]

/-- The equations of a point. -/
theorem fillEqs_ok {α β : Type} {nc recs p gs} (h : PlanOk nc recs p gs) (ent : SpidRec → Uks)
    (hent : ∀ r ∈ recs, ent r ∈ p.uks ∧ (ent r).info = infoOf nc gs r) (num : Num α β) (conv : Nat → Bool) (itile : Nat) (d : Data α β)
    (rs : List SpidRec) (hrs : ∀ r ∈ rs, r ∈ recs) (hlen : rs.length = d.spids.length) (hT : ∀ r ∈ recs, itile < (ent r).uk.length) (c : List Nat) :
    fillEqs num p conv itile ((rs.map ent).zipIdx.map fun x => (x.1, d.deriv x.2 c)) (d.weight c) (d.diff c) =
      .ok (if num.valid (d.diff c) = true ∧ ∀ i < d.spids.length, num.valid (d.deriv i c) = true then
        gs.flatMap fun g => match rs.zipIdx.filter fun x => decide (x.1.group = g) with
          | [] => []
          | x :: l => if conv (gs.idxOf x.1.group * p.T + itile) then []
            else num.parts.map fun f => ⟨gs.idxOf x.1.group * p.T + itile, (x :: l).map fun y => ((ent y.1).uk.getD itile 0, f (d.deriv y.2 c)), d.weight c, f (d.diff c)⟩
      else []) := by
  rw [zipIdx_map, List.map_map]
  unfold fillEqs
  rw [columns_ok itile _ (by
    intro x hx
    obtain ⟨y, hy, rfl⟩ := List.mem_map.1 hx
    exact hT _ (hrs _ (List.fst_mem_of_mem_zipIdx hy))), Res.bind]
  have hcond : (num.valid (d.diff c) && (List.map ((fun x => (x.1, d.deriv x.2 c)) ∘ fun x => (ent x.1, x.2)) rs.zipIdx).all fun d => num.valid d.2) = true ↔
      num.valid (d.diff c) = true ∧ ∀ i < d.spids.length, num.valid (d.deriv i c) = true := by
    rw [Bool.and_eq_true, List.all_eq_true]
    apply and_congr_right
    intro _
    constructor
    · intro hall i hi
      have hi' : i < rs.length := by omega
      exact hall (ent rs[i], d.deriv i c) (List.mem_map.2 ⟨(rs[i], i), List.mem_zipIdx_iff_getElem?.2 (by simp [hi']), rfl⟩)
    · intro hall x hx
      obtain ⟨y, hy, rfl⟩ := List.mem_map.1 hx
      have := List.mem_zipIdx_iff_getElem?.1 hy
      exact hall y.2 (by have := (List.getElem?_eq_some_iff.1 this).1; omega)
  by_cases hv : num.valid (d.diff c) = true ∧ ∀ i < d.spids.length, num.valid (d.deriv i c) = true
  · rw [if_pos (hcond.2 hv), if_pos hv]
    congr 1
    rw [h.groups, flatMap_range gs h.gsNodup]
    apply List.flatMap_congr
    intro g hg
    have hz : (List.zipWith (fun d c => (d.1, c)) (rs.zipIdx.map ((fun x => (x.1, d.deriv x.2 c)) ∘ fun x => (ent x.1, x.2)))
        ((rs.zipIdx.map ((fun x => (x.1, d.deriv x.2 c)) ∘ fun x => (ent x.1, x.2))).map fun d => (d.1.uk.getD itile 0, d.2))) =
        rs.zipIdx.map fun x => (ent x.1, (ent x.1).uk.getD itile 0, d.deriv x.2 c) := by
      rw [List.map_map, List.zipWith_map, List.zipWith_self]
      rfl
    rw [hz]
    unfold groupEqs
    have hfil : (rs.zipIdx.map fun x => (ent x.1, (ent x.1).uk.getD itile 0, d.deriv x.2 c)).filter (fun c => c.1.info.group == gs.idxOf g) =
        (rs.zipIdx.filter fun x => decide (x.1.group = g)).map fun x => (ent x.1, (ent x.1).uk.getD itile 0, d.deriv x.2 c) := by
      rw [List.filter_map]
      congr 1
      apply List.filter_congr
      intro x hx
      have hxr := hrs _ (List.fst_mem_of_mem_zipIdx hx)
      have hi := (hent _ hxr).2
      have hgx : x.1.group ∈ gs := (h.gsMem _).2 ⟨x.1, hxr, rfl⟩
      simp only [Function.comp, hi, infoOf]
      by_cases he : x.1.group = g
      · simp [he]
      · have : gs.idxOf x.1.group ≠ gs.idxOf g := fun hh => he (List.idxOf_inj hgx |>.1 hh)
        simp [he, this]
    dsimp only
    rw [hfil]
    cases hm : rs.zipIdx.filter fun x => decide (x.1.group = g) with
    | nil => rfl
    | cons x l =>
      have hx : x.1.group = g := by
        have := List.mem_filter.1 (hm ▸ List.mem_cons_self : x ∈ rs.zipIdx.filter fun x => decide (x.1.group = g))
        simpa using this.2
      dsimp only
      rw [hx]
      simp only [List.map_cons, List.isEmpty_cons, Bool.false_or, List.map_map]
      rfl
  · rw [if_neg (fun hh => hv (hcond.1 hh)), if_neg hv]

/-- The number of the solver tile of a cell. -/
def stile (p : Plan) (nc c : List Nat) : Nat := position (grid p.solverKey nc) (tileIdx p.solverKey nc c)

theorem stile_lt {nc recs p gs} (g : Good nc recs) (h : PlanOk nc recs p gs) {c : List Nat} (hc : CellOf nc c) : stile p nc c < p.T := by
  rw [h.total]
  exact position_lt (cellOf_tileIdx _ _ _ h.solver.1 (by rw [shapeOf_pos g.defined]; exact hc))

theorem stile_uk {nc recs p gs} (g : Good nc recs) (h : PlanOk nc recs p gs) {r : SpidRec} (hr : r ∈ recs) {u : Uks} (hu : u ∈ p.uks)
    (he : u.info = infoOf nc gs r) {c : List Nat} (hc : CellOf nc c) : stile p nc c < u.uk.length := by
  have h1 := stile_lt g h hc
  obtain ⟨a, b, _⟩ := entry_super g h hr hu he
  have := cells_anti (unites_ok g h.solver hr)
  rw [h.total] at h1
  omega

theorem fillLoop_ok {α β : Type} {nc recs p gs} (g : Good nc recs) (h : PlanOk nc recs p gs) (ent : SpidRec → Uks)
    (hent : ∀ r ∈ recs, ent r ∈ p.uks ∧ (ent r).info = infoOf nc gs r) (num : Num α β) (conv : Nat → Bool) (mask : Nat) (d : Data α β)
    (rs : List SpidRec) (hrs : ∀ r ∈ rs, r ∈ recs) (hlen : rs.length = d.spids.length) : ∀ (cs : List (List Nat)), (∀ c ∈ cs, CellOf nc c) →
    fillLoop num p conv mask (rs.map ent) d (cs.map fun c => (c, (stile p nc c : Int))) =
      .ok (expected num conv mask d rs gs cs (fun r c => gs.idxOf r.group * p.T + stile p nc c) fun r c => (ent r).uk.getD (stile p nc c) 0)
  | [], _ => rfl
  | c :: cs, hcs => by
    have ih := fillLoop_ok g h ent hent num conv mask d rs hrs hlen cs (fun x hx => hcs x (by simp [hx]))
    have hc := hcs c (by simp)
    rw [List.map_cons, fillLoop, ih]
    unfold expected
    rw [List.flatMap_cons]
    have key := fillEqs_ok h ent hent num conv (stile p nc c) d rs hrs hlen (fun r hr => stile_uk g h hr (hent r hr).1 (hent r hr).2 hc) c
    by_cases hf : ((d.flags c &&& mask == 0) && num.positive (d.weight c)) = true
    · rw [if_pos hf, Int.toNat_natCast, key]
      have hf' : d.flags c &&& mask = 0 ∧ num.positive (d.weight c) = true := by simpa using hf
      have hu : Used num mask d c ↔ num.valid (d.diff c) = true ∧ ∀ i < d.spids.length, num.valid (d.deriv i c) = true := by
        unfold Used
        constructor
        · exact fun x => x.2.2
        · exact fun x => ⟨hf'.1, hf'.2, x⟩
      simp only [Res.bind]
      by_cases hv : num.valid (d.diff c) = true ∧ ∀ i < d.spids.length, num.valid (d.deriv i c) = true
      · rw [if_pos hv, if_pos (hu.2 hv)]; rfl
      · rw [if_neg hv, if_neg (fun x => hv (hu.1 x))]
    · rw [if_neg hf]
      have hu : ¬ Used num mask d c := by
        rintro ⟨a, b, _⟩
        exact hf (by simp [a, b])
      rw [if_neg hu]; rfl

theorem allCells_mem {nc : List Nat} {cs : List (List Nat)} (h : AllCells nc cs) {c : List Nat} (hc : c ∈ cs) : CellOf (shapeOf nc) c := by
  obtain ⟨i, hi⟩ := List.mem_iff_getElem?.1 hc
  exact (h.2 i c hi).1

theorem walkAll_eq {nc st : List Nat} {cs : List (List Nat)} (hlen : st.length = nc.length) (hcs : AllCells nc cs) :
    walkAll (shapeOf nc) (init st nc) = some (cs.map fun c => (c, (position (grid st nc) (tileIdx st nc c) : Int))) := by
  have hinit := init_eq st nc (nc.map fun _ => 0) hlen (by simp) (by simp)
  have hz : (shapeOf nc).map (fun _ => 0) = nc.map fun _ => 0 := by rw [shapeOf, List.map_map]; rfl
  have hpos : ∀ m ∈ shapeOf nc, m ≠ 0 := by
    intro m hm
    obtain ⟨n, _, rfl⟩ := List.mem_map.1 hm
    split <;> omega
  obtain ⟨w, h1, h2, h3⟩ := walk_ok st nc hlen (cells (shapeOf nc)) ((shapeOf nc).map fun _ => 0) (init st nc) (cellOf_zeros hpos)
    (by rw [position_zero]; simp) (by rw [hz]; show (initAxes _ _).1 = _; rw [hinit]) (by rw [hz, tileIdx_zero]; rfl)
  have : walkAll (shapeOf nc) (init st nc) = some w := h1
  rw [this]
  congr 1
  apply List.ext_getElem?
  intro i
  by_cases hi : i < w.length
  · have hi' : i < cs.length := by rw [hcs.1]; omega
    obtain ⟨a, b, c⟩ := h3 i w[i].1 w[i].2 (List.getElem?_eq_getElem hi)
    obtain ⟨a', b'⟩ := hcs.2 i cs[i] (List.getElem?_eq_getElem hi')
    rw [position_zero, Nat.zero_add] at b
    have e := position_inj a a' (by omega)
    rw [List.getElem?_map, List.getElem?_eq_getElem hi, List.getElem?_eq_getElem hi', Option.map_some, ← e, ← c]
  · have hi' : ¬ i < cs.length := by rw [hcs.1]; omega
    rw [List.getElem?_eq_none (by omega), List.getElem?_eq_none (by simp; omega)]

theorem fillEquations_ok {α β : Type} {nc recs p gs} (g : Good nc recs) (h : PlanOk nc recs p gs) (ent : SpidRec → Uks)
    (hent : ∀ r ∈ recs, ent r ∈ p.uks ∧ (ent r).info = infoOf nc gs r) (num : Num α β) (conv : Nat → Bool) (mask : Nat) (d : Data α β)
    (rs : List SpidRec) (hrs : ∀ r ∈ rs, r ∈ recs) (hsp : rs.map (·.spid) = d.spids) (hn : rs.length ≤ recs.length) (cs : List (List Nat)) (hcs : AllCells nc cs) :
    fillEquations num nc p conv mask d =
      .ok (expected num conv mask d rs gs cs (fun r c => gs.idxOf r.group * p.T + stile p nc c) fun r c => (ent r).uk.getD (stile p nc c) 0) := by
  have hl : rs.length = d.spids.length := by rw [← hsp]; simp
  have hul : p.uks.length = recs.length := by have := h.perm.length_eq; simpa using this
  unfold fillEquations
  rw [if_neg (by omega), ← hsp, findAll_ok g h ent hent rs hrs]
  dsimp only
  have hw := walkAll_eq h.solver.1 hcs
  change walkAll (nc.map fun n => if n = 0 then 1 else n) _ = _ at hw
  rw [hw]
  exact fillLoop_ok g h ent hent num conv mask d rs hrs hl cs (fun c hc => by
    have := allCells_mem hcs hc
    rwa [shapeOf_pos g.defined] at this)

/-! ## Updates -/

theorem alloc_sorted {α : Type} (sol : Nat → Nat → α) (base T : Nat) : ∀ (sup : List Nat) (n : Nat → Nat), sup.Pairwise (· ≤ ·) → (∀ s ∈ sup, s < T) →
    ((List.range T).flatMap fun j => (List.range' (n (base + j)) (sup.count j)).map fun k => sol (base + j) k) =
      List.zipWith (fun s x => sol (base + s) x) sup (alloc base sup n).1
  | [], n, _, _ => by simp
  | s :: sup, n, hs, hT => by
    obtain ⟨h1, h2⟩ := List.pairwise_cons.1 hs
    have ih := alloc_sorted sol base T sup (fun j => if j = base + s then n j + 1 else n j) h2 (fun x hx => hT x (by simp [hx]))
    have hsT := hT s (by simp)
    rw [alloc]
    simp only [List.zipWith_cons_cons]
    rw [← ih]
    have hr : List.range T = List.range s ++ s :: List.range' (s + 1) (T - s - 1) := by
      rw [List.range_eq_range', List.range_eq_range']
      have e : s :: List.range' (s + 1) (T - s - 1) = List.range' s (T - s - 1 + 1) := by rw [List.range'_succ]
      rw [e, show T = s + (T - s - 1 + 1) by omega]
      have := List.range'_append_1 (s := 0) (m := s) (n := T - s - 1 + 1)
      rw [Nat.zero_add] at this
      rw [show s + (T - s - 1 + 1) - s - 1 = T - s - 1 by omega]
      exact this.symm
    rw [hr, List.flatMap_append, List.flatMap_append, List.flatMap_cons, List.flatMap_cons]
    have hnil : ∀ (m : Nat → Nat) (l : List Nat), (∀ x ∈ l, s ≤ x) →
        ((List.range s).flatMap fun j => (List.range' (m (base + j)) (l.count j)).map fun k => sol (base + j) k) = [] := by
      intro m l hl
      rw [List.flatMap_eq_nil_iff]
      intro j hj
      have hj' : j < s := List.mem_range.1 hj
      have : l.count j = 0 := by
        rw [List.count_eq_zero]
        intro hm
        have := hl j hm
        omega
      rw [this]; rfl
    rw [hnil n (s :: sup) (by
      intro x hx
      rcases List.mem_cons.1 hx with rfl | hx
      · exact Nat.le_refl _
      · exact h1 x hx)]
    have := hnil (fun j => if j = base + s then n j + 1 else n j) sup h1
    rw [this]
    simp only [List.nil_append, List.count_cons_self, List.range'_succ, List.map_cons, List.cons_append, if_true]
    congr 2
    apply List.flatMap_congr
    intro j hj
    have hj' : s + 1 ≤ j := (List.mem_range'_1.1 hj).1
    have e1 : (s :: sup).count j = sup.count j := by rw [List.count_cons]; have : ¬ (s == j) = true := by simp; omega
                                                     simp [this]
    have e2 : ¬ base + j = base + s := by omega
    rw [e1, if_neg e2]

theorem zipIdx_range_map {A : Type} (f : Nat → A) (T : Nat) : ((List.range T).map f).zipIdx = (List.range T).map fun j => (f j, j) := by
  apply List.ext_getElem?
  intro i
  by_cases hi : i < T
  · simp [hi]
  · simp [hi]

theorem spidUpdates_eq {α : Type} {T : Nat} (sol : Nat → Nat → α) {u : Uks} {m : Nat → Nat}
    (hs : u.slice = (List.range T).map (fun j => (m (u.info.group * T + j), (alloc (u.info.group * T) u.super m).2 (u.info.group * T + j)))) :
    spidUpdates T sol u = (List.range T).flatMap fun j => (List.range' (m (u.info.group * T + j)) (u.super.count j)).map fun k => sol (u.info.group * T + j) k := by
  unfold spidUpdates
  rw [hs, zipIdx_range_map, List.flatMap_map]
  apply List.flatMap_congr
  intro j _
  dsimp only
  rw [alloc_nuk]
  have e : u.info.group * T + j - u.info.group * T = j := by omega
  simp only [Nat.le_add_right, if_true, e, Nat.add_sub_cancel_left]

end Verif.Solver
