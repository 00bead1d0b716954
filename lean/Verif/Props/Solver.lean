import Verif.Proof.SolverSpid
/-! # C119 - C124: the solver's unknowns, equations and updates -/
namespace Verif.Solver
open Verif.Tiling

/-! ## C119: solver tiles -/

/-- Full C119: whatever tile sizes the parameters have, solving is set up, with solver tiles as small as possible but each made of
whole tiles of all parameters, and each tile of each parameter is put in the solver tile it lies in. -/
def C119_full : Prop := ∀ nc recs, Sound nc recs → ∃ p st, populate nc recs = .ok p ∧ SolverSizes nc recs st ∧ SuperRight nc recs p st

/-- C119, when all axes are defined, no tile is larger than the grid, and of any two parameters' tiles one is nowhere larger. -/
theorem C119_partial {nc recs} (g : Good nc recs) : ∃ p st, populate nc recs = .ok p ∧ SolverSizes nc recs st ∧ SuperRight nc recs p st := by
  obtain ⟨p, gs, hp, h⟩ := populate_ok g
  exact ⟨p, p.solverKey, hp, h.solver, super_ok g h⟩

/-- Two cells in the same tile of a parameter are in the same solver tile. -/
theorem C119_whole_tiles {nc recs st} (g : Good nc recs) (hs : SolverSizes nc recs st) {r : SpidRec} (hr : r ∈ recs) {c c' : List Nat} {f q q' : Nat}
    (hc : CellOf nc c) (hc' : CellOf nc c') (h1 : TileNo nc (sizes nc r.tile) c f) (h2 : TileNo nc (sizes nc r.tile) c' f) (h3 : TileNo nc st c q)
    (h4 : TileNo nc st c' q') : q = q' := by
  obtain ⟨sup, _, _, k⟩ := superTiles_ok (unites_ok g hs hr) g.defined
  have e1 := k c hc
  have e2 := k c' hc'
  rw [← tileNo_eq h1, ← tileNo_eq h3] at e1
  rw [← tileNo_eq h2, ← tileNo_eq h4] at e2
  rw [e1] at e2
  exact Option.some.inj e2

/-- A parameter not tiled and one tiled in frequency, on a grid with no time axis: a division by zero (Solver.cc:437). -/
theorem C119_refuted : ¬ C119_full := by
  intro h
  obtain ⟨p, st, hp, _⟩ := h [0, 4] [⟨256, 1, "a", []⟩, ⟨512, 2, "a", [0, 2]⟩]
    ⟨by simp, by simp, by
      intro r hr i t ht h0
      rcases List.mem_cons.1 hr with rfl | hr
      · simp at ht
      · simp at hr; subst hr
        match i with
        | 0 => simp at ht; exact absurd ht.symm h0
        | 1 => exact ⟨4, rfl, by simp⟩
        | i + 2 => simp at ht⟩
  have : populate [0, 4] [⟨256, 1, "a", []⟩, ⟨512, 2, "a", [0, 2]⟩] = .ub := by rfl
  rw [this] at hp
  cases hp

theorem good_one : Good [4] [⟨256, 1, "a", [1]⟩, ⟨257, 1, "a", [1]⟩, ⟨512, 2, "a", [2]⟩, ⟨768, 3, "b", []⟩] where
  some := by simp
  spids := by simp
  defined := by simp
  fits := by simp [Fits]
  chain := by simp [Comparable, sizes, tileLen]

theorem good_two : Good [4, 6] [⟨256, 1, "a", [2, 3]⟩, ⟨512, 2, "a", [4, 3]⟩] where
  some := by simp
  spids := by simp
  defined := by simp
  fits := by simp [Fits]
  chain := by simp [Comparable, sizes, tileLen]

example : ∃ p st, populate [4, 6] [⟨256, 1, "a", [2, 3]⟩, ⟨512, 2, "a", [4, 3]⟩] = .ok p ∧
    SolverSizes [4, 6] [⟨256, 1, "a", [2, 3]⟩, ⟨512, 2, "a", [4, 3]⟩] st ∧ SuperRight [4, 6] [⟨256, 1, "a", [2, 3]⟩, ⟨512, 2, "a", [4, 3]⟩] p st :=
  C119_partial good_two

example : (match populate [12] [⟨256, 1, "a", [2]⟩, ⟨512, 2, "a", [3]⟩] with | .ok p => (p.solverKey, p.uks.map (·.super)) | _ => ([], [])) =
    ([6], [[0, 0, 0, 1, 1, 1], [0, 0, 1, 1]]) := by decide +kernel

/-! ## C120: numbers of unknowns -/

/-- Full C120: each tile of each parameter has an unknown of its own, the unknowns of a subsolver are numbered from zero without
gaps, and tiles are in the same subsolver if they have the same solve group and lie in the same solver tile. -/
def C120_full : Prop := ∀ nc recs, Sound nc recs → ∃ p st unk, populate nc recs = .ok p ∧ SolverSizes nc recs st ∧ Numbered nc recs p unk ∧
  Distinct nc recs unk ∧ SubsolverRight nc recs st unk

theorem C120_partial {nc recs} (g : Good nc recs) : ∃ p st unk, populate nc recs = .ok p ∧ SolverSizes nc recs st ∧ Numbered nc recs p unk ∧
    Distinct nc recs unk ∧ SubsolverRight nc recs st unk := by
  obtain ⟨p, gs, hp, h⟩ := populate_ok g
  exact ⟨p, p.solverKey, unkOf p, hp, h.solver, numbered_ok g h, distinct_ok g h, subsolver_ok g h⟩

/-- One parameter tiled in time and another in frequency: the second gets the tiles of the first. -/
theorem C120_refuted : ¬ C120_full := by
  intro h
  obtain ⟨p, st, unk, hp, _, ⟨hn, _⟩, _⟩ := h [2, 3] [⟨256, 1, "a", [1, 0]⟩, ⟨512, 2, "a", [0, 1]⟩]
    ⟨by simp, by simp, by
      intro r hr i t ht h0
      match i with
      | 0 => exact ⟨2, rfl, by simp⟩
      | 1 => exact ⟨3, rfl, by simp⟩
      | i + 2 =>
        rcases List.mem_cons.1 hr with rfl | hr
        · simp at ht
        · simp at hr; subst hr; simp at ht⟩
  obtain ⟨u, ⟨hu, hs, _⟩, ht, _⟩ := hn ⟨512, 2, "a", [0, 1]⟩ (by simp)
  have hc : (match populate [2, 3] [⟨256, 1, "a", [1, 0]⟩, ⟨512, 2, "a", [0, 1]⟩] with
    | .ok p => p.uks.all fun u => u.info.spid == 256 || u.uk.length == 2 | _ => false) = true := by decide +kernel
  rw [hp] at hc
  have := List.all_eq_true.1 hc u hu
  rw [hs] at this
  simp at this
  rw [this] at ht
  have := tilesOf_eq ht
  revert this
  decide

example : ∃ p st unk, populate [4] [⟨256, 1, "a", [1]⟩, ⟨257, 1, "a", [1]⟩, ⟨512, 2, "a", [2]⟩, ⟨768, 3, "b", []⟩] = .ok p ∧
    SolverSizes [4] [⟨256, 1, "a", [1]⟩, ⟨257, 1, "a", [1]⟩, ⟨512, 2, "a", [2]⟩, ⟨768, 3, "b", []⟩] st ∧
    Numbered [4] [⟨256, 1, "a", [1]⟩, ⟨257, 1, "a", [1]⟩, ⟨512, 2, "a", [2]⟩, ⟨768, 3, "b", []⟩] p unk ∧
    Distinct [4] [⟨256, 1, "a", [1]⟩, ⟨257, 1, "a", [1]⟩, ⟨512, 2, "a", [2]⟩, ⟨768, 3, "b", []⟩] unk ∧
    SubsolverRight [4] [⟨256, 1, "a", [1]⟩, ⟨257, 1, "a", [1]⟩, ⟨512, 2, "a", [2]⟩, ⟨768, 3, "b", []⟩] st unk := C120_partial good_one

/-! ## C121: which points make equations -/

/-- Full C121: a child's result adds an equation (two if complex) for each point that is not flagged by the mask, has positive weight
and valid numbers, for each solve group it has derivatives for, unless that subsolver has converged, and no others. -/
def C121_full : Prop := ∀ nc recs, Sound nc recs → ∃ p st, populate nc recs = .ok p ∧ SolverSizes nc recs st ∧ PointsRight nc recs p st

theorem C121_partial {nc recs} (g : Good nc recs) : ∃ p st, populate nc recs = .ok p ∧ SolverSizes nc recs st ∧ PointsRight nc recs p st := by
  obtain ⟨p, gs, hp, h⟩ := populate_ok g
  exact ⟨p, p.solverKey, hp, h.solver, points_ok g h⟩

/-- No equations are made at all when setting up fails. -/
theorem C121_refuted : ¬ C121_full := by
  intro h
  obtain ⟨p, st, hp, _⟩ := h [0, 4] [⟨256, 1, "a", []⟩, ⟨512, 2, "a", [0, 2]⟩]
    ⟨by simp, by simp, by
      intro r hr i t ht h0
      rcases List.mem_cons.1 hr with rfl | hr
      · simp at ht
      · simp at hr; subst hr
        match i with
        | 0 => simp at ht; exact absurd ht.symm h0
        | 1 => exact ⟨4, rfl, by simp⟩
        | i + 2 => simp at ht⟩
  have : populate [0, 4] [⟨256, 1, "a", []⟩, ⟨512, 2, "a", [0, 2]⟩] = .ub := by rfl
  rw [this] at hp
  cases hp

/-- A result that depends on a parameter which the solver does not know is refused. -/
theorem C121_unknown {α β : Type} (num : Num α β) (nc : List Nat) (p : Plan) (conv : Nat → Bool) (mask : Nat) (d : Data α β)
    (h : ∃ s ∈ d.spids, ∀ u ∈ p.uks, u.info.spid ≠ s) : fillEquations num nc p conv mask d = .err := by
  have key : ∀ l : List Nat, (∃ s ∈ l, ∀ u ∈ p.uks, u.info.spid ≠ s) → findAll p.uks l = none := by
    intro l
    induction l with
    | nil => rintro ⟨s, hs, _⟩; simp at hs
    | cons a l ih =>
      rintro ⟨s, hs, hne⟩
      rw [findAll]
      cases hf : p.uks.find? fun u => u.info.spid == a with
      | none => rfl
      | some u =>
        rcases List.mem_cons.1 hs with rfl | hs
        · have h1 := List.find?_some hf
          exact absurd (by simpa using h1) (hne u (List.mem_of_find?_eq_some hf))
        · rw [Option.bind_some, ih ⟨s, hs, hne⟩]; rfl
  unfold fillEquations
  rw [key _ h]
  split <;> rfl

example : ∃ p st, populate [4] [⟨256, 1, "a", [1]⟩, ⟨257, 1, "a", [1]⟩, ⟨512, 2, "a", [2]⟩, ⟨768, 3, "b", []⟩] = .ok p ∧
    SolverSizes [4] [⟨256, 1, "a", [1]⟩, ⟨257, 1, "a", [1]⟩, ⟨512, 2, "a", [2]⟩, ⟨768, 3, "b", []⟩] st ∧
    PointsRight [4] [⟨256, 1, "a", [1]⟩, ⟨257, 1, "a", [1]⟩, ⟨512, 2, "a", [2]⟩, ⟨768, 3, "b", []⟩] p st := C121_partial good_one

/-! ## C122: from the point to the update -/

/-- Full C122: unknowns can be given to the tiles so that every derivative of an equation is put on the unknown of the tile its
point is in, and the solution for an unknown is what that tile is updated by. -/
def C122_full : Prop := ∀ nc recs, Good nc recs → NodesAlike recs → ∃ p unk, populate nc recs = .ok p ∧ Distinct nc recs unk ∧
  EquationsRight nc recs p unk ∧ UpdatesRight nc recs p unk

/-- C122 if all parameters have the same tile sizes. -/
theorem C122_partial {nc recs} (g : Good nc recs) (hn : NodesAlike recs) (hall : ∀ r ∈ recs, ∀ r' ∈ recs, sizes nc r.tile = sizes nc r'.tile) :
    ∃ p unk, populate nc recs = .ok p ∧ Distinct nc recs unk ∧ EquationsRight nc recs p unk ∧ UpdatesRight nc recs p unk := by
  obtain ⟨p, gs, hp, h⟩ := populate_ok g
  have he : ∀ r ∈ recs, sizes nc r.tile = p.solverKey := fun r hr => (uniform_solver g h.solver hr fun r' hr' => hall r' hr' r hr).symm
  exact ⟨p, unkOf p, hp, distinct_ok g h, equations_ok g h he, updates_ok g h hn fun r hr => by rw [he r hr]; exact same_sameOrder⟩

theorem allGroups_one {recs : List SpidRec} {gs : List String} {x : String} (hne : recs ≠ []) (h : ∀ r ∈ recs, r.group = x) (hg : AllGroups recs gs) : gs = [x] := by
  obtain ⟨h1, h2⟩ := hg
  have hall : ∀ g ∈ gs, g = x := by
    intro g hgm
    obtain ⟨r, hr, rfl⟩ := (h2 g).1 hgm
    exact h r hr
  obtain ⟨r, hr⟩ := List.exists_mem_of_ne_nil recs hne
  have hx : x ∈ gs := (h2 x).2 ⟨r, hr, h r hr⟩
  match gs, h1, hall, hx with
  | [a], _, hall, _ => rw [hall a (by simp)]
  | a :: b :: l, h1, hall, _ =>
    have ha := hall a (by simp)
    have hb := hall b (by simp)
    simp [ha, hb] at h1

/-- A parameter with a tile per cell next to one that is not tiled: the equations of both cells are put on the first tile. -/
theorem C122_refuted : ¬ C122_full := by
  intro h
  obtain ⟨p, unk, hp, hd, ⟨gs, hgs, he⟩, _⟩ := h [2] [⟨256, 1, "a", [1]⟩, ⟨512, 2, "a", []⟩]
    ⟨by simp, by simp, by simp, by simp [Fits], by simp [Comparable, sizes, tileLen]⟩ (by simp [NodesAlike])
  have hg1 := allGroups_one (x := "a") (by simp) (by simp) hgs
  subst hg1
  have hc : (match populate [2] [⟨256, 1, "a", [1]⟩, ⟨512, 2, "a", []⟩] with
    | .ok p => (p.solverKey, p.T, p.groups, p.uks) | _ => ([], 0, 0, [])) =
      ([2], 1, 1, [⟨⟨256, 1, 0, [1]⟩, [0, 0], [0, 1], [(0, 2)]⟩, ⟨⟨512, 2, 0, [2]⟩, [0], [2], [(2, 3)]⟩]) := by decide +kernel
  rw [hp] at hc
  obtain ⟨a, b, c, d, e⟩ := p
  simp only [Prod.mk.injEq] at hc
  obtain ⟨rfl, rfl, rfl, rfl⟩ := hc
  have ht : ∀ c ∈ [[0], [1]], TileNo [2] [1] c (c.headD 0) := by
    intro c hc
    simp at hc
    rcases hc with rfl | rfl
    · exact tileNo_of (nc := [2]) (ts := [1]) (c := [0]) rfl ⟨by simp, trivial⟩
    · exact tileNo_of (nc := [2]) (ts := [1]) (c := [1]) rfl ⟨by simp, trivial⟩
  have ht' : ∀ c ∈ [[0], [1]], TileNo [2] [2] c 0 := by
    intro c hc
    simp at hc
    rcases hc with rfl | rfl
    · exact tileNo_of (nc := [2]) (ts := [2]) (c := [0]) rfl ⟨by simp, trivial⟩
    · exact tileNo_of (nc := [2]) (ts := [2]) (c := [1]) rfl ⟨by simp, trivial⟩
  have hx := he Nat Nat ⟨[id], fun _ => true, fun _ => true⟩ (fun _ => false) 0 ⟨[256], fun _ => 1, fun _ _ => 1, fun _ => 0, fun _ => 1⟩
    [⟨256, 1, "a", [1]⟩] [[0], [1]] (fun r c => if r.spid = 256 then c.headD 0 else 0) (by simp) rfl (by simp)
    ⟨rfl, by
      intro i c hi
      match i with
      | 0 => simp at hi; subst hi; exact ⟨⟨by simp, trivial⟩, rfl⟩
      | 1 => simp at hi; subst hi; exact ⟨⟨by simp, trivial⟩, rfl⟩
      | i + 2 => simp at hi⟩
    (by
      intro r hr c hcm
      rcases List.mem_cons.1 hr with rfl | hr
      · exact ht c hcm
      · simp at hr; subst hr; exact ht' c hcm)
  have hl : fillEquations (⟨[id], fun _ => true, fun _ => true⟩ : Num Nat Nat) [2]
      ⟨[2], 1, 1, [⟨⟨256, 1, 0, [1]⟩, [0, 0], [0, 1], [(0, 2)]⟩, ⟨⟨512, 2, 0, [2]⟩, [0], [2], [(2, 3)]⟩], e⟩ (fun _ => false) 0
      ⟨[256], fun _ => 1, fun _ _ => 1, fun _ => 0, fun _ => 1⟩ = .ok [⟨0, [(0, 1)], 1, 1⟩, ⟨0, [(0, 1)], 1, 1⟩] := by rfl
  rw [hl] at hx
  simp [expected, Used] at hx
  obtain ⟨⟨h1, h2⟩, h3, h4⟩ := hx
  have := (hd ⟨256, 1, "a", [1]⟩ (by simp) ⟨256, 1, "a", [1]⟩ (by simp) 2 2 0 1 (tilesOf_of (nc := [2]) (ts := [1]) rfl)
    (tilesOf_of (nc := [2]) (ts := [1]) rfl) (by omega) (by omega) (Prod.ext (h1.symm.trans h3) (h2.symm.trans h4))).2
  omega

example : ∃ p unk, populate [4, 6] [⟨256, 1, "a", [2, 3]⟩, ⟨257, 1, "a", [2, 3]⟩, ⟨512, 2, "b", [2, 3]⟩] = .ok p ∧
    Distinct [4, 6] [⟨256, 1, "a", [2, 3]⟩, ⟨257, 1, "a", [2, 3]⟩, ⟨512, 2, "b", [2, 3]⟩] unk ∧
    EquationsRight [4, 6] [⟨256, 1, "a", [2, 3]⟩, ⟨257, 1, "a", [2, 3]⟩, ⟨512, 2, "b", [2, 3]⟩] p unk ∧
    UpdatesRight [4, 6] [⟨256, 1, "a", [2, 3]⟩, ⟨257, 1, "a", [2, 3]⟩, ⟨512, 2, "b", [2, 3]⟩] p unk :=
  C122_partial ⟨by simp, by simp, by simp, by simp [Fits], by simp [Comparable, sizes, tileLen]⟩ (by simp [NodesAlike]) (by simp)

/-! ## C123: delivery of updates -/

/-- Full C123: every tile is updated by the solution for its own unknown, which is in the subsolver of its solve group and solver tile. -/
def C123_full : Prop := ∀ nc recs, Good nc recs → NodesAlike recs → ∃ p st unk, populate nc recs = .ok p ∧ SolverSizes nc recs st ∧
  Distinct nc recs unk ∧ SubsolverRight nc recs st unk ∧ UpdatesRight nc recs p unk

/-- C123 if the tiles of each parameter come in the order of their solver tiles. -/
theorem C123_partial {nc recs} (g : Good nc recs) (hn : NodesAlike recs) (ho : ∀ st, SolverSizes nc recs st → ∀ r ∈ recs, SameOrder nc (sizes nc r.tile) st) :
    ∃ p st unk, populate nc recs = .ok p ∧ SolverSizes nc recs st ∧ Distinct nc recs unk ∧ SubsolverRight nc recs st unk ∧ UpdatesRight nc recs p unk := by
  obtain ⟨p, gs, hp, h⟩ := populate_ok g
  exact ⟨p, p.solverKey, unkOf p, hp, h.solver, distinct_ok g h, subsolver_ok g h, updates_ok g h hn (ho _ h.solver)⟩

/-- Which is so if only one axis is tiled. -/
theorem C123_one_axis {nc recs a} (g : Good nc recs) (hn : NodesAlike recs) (ho : OneAxis nc recs a) :
    ∃ p st unk, populate nc recs = .ok p ∧ SolverSizes nc recs st ∧ Distinct nc recs unk ∧ SubsolverRight nc recs st unk ∧ UpdatesRight nc recs p unk :=
  C123_partial g hn fun _ hs _ hr => oneAxis_order g hs ho hr

/-- Tiles of one cell with a parameter whose tiles are as long as the grid: of the four updates two are exchanged. -/
theorem C123_refuted : ¬ C123_full := by
  intro h
  obtain ⟨p, st, unk, hp, hst, _, hs, hu⟩ := h [2, 2] [⟨256, 1, "a", [1, 1]⟩, ⟨512, 2, "a", [2, 1]⟩]
    ⟨by simp, by simp, by simp, by simp [Fits], by simp [Comparable, sizes, tileLen]⟩ (by simp [NodesAlike])
  have hc : (match populate [2, 2] [⟨256, 1, "a", [1, 1]⟩, ⟨512, 2, "a", [2, 1]⟩] with
    | .ok p => (p.solverKey, p.T, p.groups, p.uks) | _ => ([], 0, 0, [])) =
      ([2, 1], 2, 1, [⟨⟨256, 1, 0, [1, 1]⟩, [0, 1, 0, 1], [0, 0, 1, 1], [(0, 2), (0, 2)]⟩, ⟨⟨512, 2, 0, [2, 1]⟩, [0, 1], [2, 2], [(2, 3), (2, 3)]⟩]) := by
    decide +kernel
  have hgood : Good [2, 2] [⟨256, 1, "a", [1, 1]⟩, ⟨512, 2, "a", [2, 1]⟩] :=
    ⟨by simp, by simp, by simp, by simp [Fits], by simp [Comparable, sizes, tileLen]⟩
  obtain ⟨p', gs', hp', hok⟩ := populate_ok hgood
  rw [hp] at hp' hc
  cases hp'
  have hst' : st = [2, 1] := by
    have e : p.solverKey = [2, 1] := (Prod.mk.inj hc).1
    have h2 := hok.solver
    rw [e] at h2
    apply List.ext_getElem?
    intro i
    match i with
    | 0 =>
      obtain ⟨l, a, b⟩ := hst.2 0 2 rfl (by simp)
      obtain ⟨l', a', b'⟩ := h2.2 0 2 rfl (by simp)
      rw [b, b', lcm_unique a a']
    | 1 =>
      obtain ⟨l, a, b⟩ := hst.2 1 2 rfl (by simp)
      obtain ⟨l', a', b'⟩ := h2.2 1 2 rfl (by simp)
      rw [b, b', lcm_unique a a']
    | i + 2 => rw [List.getElem?_eq_none (by rw [hst.1]; simp), List.getElem?_eq_none (by simp)]
  subst hst'
  obtain ⟨a, b, c, d, e⟩ := p
  simp only [Prod.mk.injEq] at hc
  obtain ⟨rfl, rfl, rfl, rfl⟩ := hc
  have k0 := hu (Nat × Nat) (fun j k => (j, k)) ⟨256, 1, "a", [1, 1]⟩ (by simp) 4 0 0 (tilesOf_of (nc := [2, 2]) (ts := [1, 1]) rfl) (by simp [RankOf]) (by omega)
  have k1 := hu (Nat × Nat) (fun j k => (j, k)) ⟨256, 1, "a", [1, 1]⟩ (by simp) 4 0 1 (tilesOf_of (nc := [2, 2]) (ts := [1, 1]) rfl) (by simp [RankOf]) (by omega)
  have r0 : applied (updates (⟨[2, 1], 2, 1, [⟨⟨256, 1, 0, [1, 1]⟩, [0, 1, 0, 1], [0, 0, 1, 1], [(0, 2), (0, 2)]⟩, ⟨⟨512, 2, 0, [2, 1]⟩, [0, 1], [2, 2], [(2, 3), (2, 3)]⟩], e⟩ : Plan)
    (fun j k => (j, k)) 1) 4 0 0 = .ok (0, 0) := by rfl
  have r1 : applied (updates (⟨[2, 1], 2, 1, [⟨⟨256, 1, 0, [1, 1]⟩, [0, 1, 0, 1], [0, 0, 1, 1], [(0, 2), (0, 2)]⟩, ⟨⟨512, 2, 0, [2, 1]⟩, [0, 1], [2, 2], [(2, 3), (2, 3)]⟩], e⟩ : Plan)
    (fun j k => (j, k)) 1) 4 0 1 = .ok (0, 1) := by rfl
  rw [r0] at k0
  rw [r1] at k1
  have e0 : (unk 256 0).1 = 0 := (congrArg Prod.fst (Res.ok.inj k0)).symm
  have e1 : (unk 256 1).1 = 0 := (congrArg Prod.fst (Res.ok.inj k1)).symm
  have := (hs ⟨256, 1, "a", [1, 1]⟩ (by simp) ⟨256, 1, "a", [1, 1]⟩ (by simp) [0, 0] [0, 1] 0 1 0 1 ⟨by simp, by simp, trivial⟩ ⟨by simp, by simp, trivial⟩
    (tileNo_of (nc := [2, 2]) (ts := [1, 1]) (c := [0, 0]) rfl ⟨by simp, by simp, trivial⟩) (tileNo_of (nc := [2, 2]) (ts := [1, 1]) (c := [0, 1]) rfl ⟨by simp, by simp, trivial⟩)
    (tileNo_of (nc := [2, 2]) (ts := [2, 1]) (c := [0, 0]) rfl ⟨by simp, by simp, trivial⟩) (tileNo_of (nc := [2, 2]) (ts := [2, 1]) (c := [0, 1]) rfl ⟨by simp, by simp, trivial⟩)).1
    (e0.trans e1.symm)
  exact absurd this.2 (by omega)

example : ∃ p st unk, populate [4] [⟨256, 1, "a", [1]⟩, ⟨257, 1, "a", [1]⟩, ⟨512, 2, "a", [2]⟩, ⟨768, 3, "b", []⟩] = .ok p ∧
    SolverSizes [4] [⟨256, 1, "a", [1]⟩, ⟨257, 1, "a", [1]⟩, ⟨512, 2, "a", [2]⟩, ⟨768, 3, "b", []⟩] st ∧
    Distinct [4] [⟨256, 1, "a", [1]⟩, ⟨257, 1, "a", [1]⟩, ⟨512, 2, "a", [2]⟩, ⟨768, 3, "b", []⟩] unk ∧
    SubsolverRight [4] [⟨256, 1, "a", [1]⟩, ⟨257, 1, "a", [1]⟩, ⟨512, 2, "a", [2]⟩, ⟨768, 3, "b", []⟩] st unk ∧
    UpdatesRight [4] [⟨256, 1, "a", [1]⟩, ⟨257, 1, "a", [1]⟩, ⟨512, 2, "a", [2]⟩, ⟨768, 3, "b", []⟩] p unk :=
  C123_one_axis (a := 0) good_one (by simp [NodesAlike]) (by
    intro r _ i hi
    match i with
    | i + 1 =>
      have : (sizes [4] r.tile).length = 1 := sizes_length _ _
      rw [List.getElem?_eq_none (by omega), List.getElem?_eq_none (by simp)])

/-! ## C124: spids -/

/-- Full C124: every solvable coefficient of every parameter has an entry of its own in the spid map. -/
def C124_full : Prop := ∀ ps : List ParmNode, (ps.map (·.index)).Nodup → ((spidMap [] ps).map (·.spid)).Nodup ∧
  ∀ r, r ∈ spidMap [] ps ↔ ∃ q ∈ ps, ∃ i j, Coefficient q i j ∧ r = ⟨256 * q.index + j, q.index, q.group, q.tile⟩

/-- C124 if no parameter has more than 256 solvable coefficients. -/
theorem C124_partial (ps : List ParmNode) (hn : (ps.map (·.index)).Nodup) (hc : ∀ q ∈ ps, q.mask.count true ≤ 256) :
    ((spidMap [] ps).map (·.spid)).Nodup ∧
      ∀ r, r ∈ spidMap [] ps ↔ ∃ q ∈ ps, ∃ i j, Coefficient q i j ∧ r = ⟨256 * q.index + j, q.index, q.group, q.tile⟩ := by
  have := spidMap_ok ps [] [] hn hc (by simp) (by simp)
  refine ⟨this.1, fun r => ?_⟩
  rw [this.2 r]
  simp only [parmRecs_mem, List.nil_append]

/-- With 257, the last one takes the spid of the first coefficient of the next node, which is then not solved for. -/
theorem C124_refuted : ¬ C124_full := by
  intro h
  have h1 := (h [⟨1, true, List.replicate 257 true, "a", []⟩, ⟨2, true, [true], "a", []⟩] (by decide)).2 ⟨512, 2, "a", []⟩
  have h2 : (⟨512, 2, "a", []⟩ : SpidRec) ∈ spidMap [] [⟨1, true, List.replicate 257 true, "a", []⟩, ⟨2, true, [true], "a", []⟩] :=
    h1.2 ⟨⟨2, true, [true], "a", []⟩, List.mem_cons_of_mem _ List.mem_cons_self, 0, 0, ⟨rfl, rfl, rfl⟩, rfl⟩
  have h3 : ((spidMap [] [⟨1, true, List.replicate 257 true, "a", []⟩, ⟨2, true, [true], "a", []⟩]).all fun r => r.node == 1) = true := by decide +kernel
  have := List.all_eq_true.1 h3 _ h2
  simp at this

/-- The place in the update array is that of the spid. -/
theorem C124_slot (q : ParmNode) (i : Nat) (b : Bool) (h : q.mask[i]? = some b) :
    (b = true → ∃ j, j = (q.mask.take i).count true ∧ (coefSlots 0 q.mask)[i]? = some (some j)) ∧ (b = false → (coefSlots 0 q.mask)[i]? = some none) := by
  rw [coefSlots_get, h]
  constructor
  · rintro rfl; exact ⟨_, rfl, by simp⟩
  · rintro rfl; rfl

/-- And that is the place of the entry among those of its node, which is where its updates are (C123). -/
theorem C124_rank (ps : List ParmNode) (hn : (ps.map (·.index)).Nodup) (hc : ∀ q ∈ ps, q.mask.count true ≤ 256) (q : ParmNode) (hq : q ∈ ps) (i j : Nat)
    (h : Coefficient q i j) : RankOf (spidMap [] ps) ⟨256 * q.index + j, q.index, q.group, q.tile⟩ j := rank_spidMap ps hn hc hq h

example : (spidMap [] [⟨3, true, [true, false, true], "a", [2]⟩, ⟨1, false, [true], "a", []⟩, ⟨2, true, [true], "b", []⟩]) =
    [⟨768, 3, "a", [2]⟩, ⟨769, 3, "a", [2]⟩, ⟨512, 2, "b", []⟩] := by decide +kernel

end Verif.Solver
