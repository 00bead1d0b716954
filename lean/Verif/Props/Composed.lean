import Verif.Proof.Composed
import Mathlib.Tactic.FinCases
import Mathlib.Tactic.NormNum
/-!
# C134 - C137: tiles and composed funklets

Small examples: three cells in time and two in frequency.
-/
namespace Verif.Composed

/-- Example: cells [0,1], [1,2], [2,3]. -/
def tg : List Cell := [⟨0, 1 / 2, 1⟩, ⟨1, 3 / 2, 2⟩, ⟨2, 5 / 2, 3⟩]

/-- Example: cells [10,20], [20,30]. -/
def fg : List Cell := [⟨10, 15, 20⟩, ⟨20, 25, 30⟩]

/-- The domain of the example. -/
def td : Dom := ⟨some (0, 3), some (10, 30)⟩

theorem ordered_tg : Ordered tg := ⟨by intro c hc; fin_cases hc <;> norm_num, by simp [tg]⟩
theorem ordered_fg : Ordered fg := ⟨by intro c hc; fin_cases hc <;> norm_num, by simp [fg]⟩
theorem whole_tg : Whole td.x tg := ⟨(0, 3), rfl, by intro c hc; fin_cases hc <;> norm_num⟩
theorem whole_fg : Whole td.y fg := ⟨(10, 30), rfl, by intro c hc; fin_cases hc <;> norm_num⟩

/-- A constant funklet. -/
def konst (d : Dom) (c : ℚ) : Fk := ⟨d, false, false, 1, c, fun _ _ => c⟩

theorem konst_sound (d : Dom) (c : ℚ) : Sound (konst d c) := ⟨fun _ _ _ _ => rfl, fun _ _ _ _ => rfl, fun _ _ _ _ => rfl⟩

/-- A funklet linear in time. -/
def slope (d : Dom) (c : ℚ) : Fk := ⟨d, true, false, 2, c, fun t _ => c + t⟩

theorem slope_sound (d : Dom) (c : ℚ) : Sound (slope d c) := ⟨(by intro h; cases h), fun _ _ _ _ => rfl, (by intro h; cases h)⟩

/-- **C134.** A grid of cells is divided into tiles of `tx` cells of time by `ty` of frequency (0 or less: not divided).  There are as
many tile domains as tiles, in order of time and then frequency; the domain of a tile goes from the start of its first cell to the
end of its last; and the centre of a cell is in the domain of the tile it lies in, and in no other. -/
theorem C134_tiles (tx ty : Int) (gx gy : List Cell) (d : Dom) (hox : Ordered gx) (hoy : Ordered gy) (hnx : gx ≠ []) (hny : gy ≠ [])
    (hx : Whole d.x gx) (hy : Whole d.y gy) :
    (tiledDomains tx ty gx gy d).length = tiles tx gx.length * tiles ty gy.length ∧
    (∀ i j, i < tiles tx gx.length → j < tiles ty gy.length → ∃ D, (tiledDomains tx ty gx gy d)[i * tiles ty gy.length + j]? = some D ∧
      TileRange tx gx d.x i D.x ∧ TileRange ty gy d.y j D.y) ∧
    ∀ p q a b, gx[p]? = some a → gy[q]? = some b →
      tileOf tx p < tiles tx gx.length ∧ tileOf ty q < tiles ty gy.length ∧
      ∀ k D, (tiledDomains tx ty gx gy d)[k]? = some D → (Has D.x a.mid ∧ Has D.y b.mid ↔ k = tileOf tx p * tiles ty gy.length + tileOf ty q) := by
  refine ⟨tile_length tx ty hnx hny d, ?_, ?_⟩
  · intro i j hi hj
    exact ⟨_, tile_get tx ty hnx hny d hi hj, tr_range hi, tr_range hj⟩
  · intro p q a b ha hb
    have hp := (List.getElem?_eq_some_iff.1 ha).1
    have hq := (List.getElem?_eq_some_iff.1 hb).1
    refine ⟨tileOf_lt hp, tileOf_lt hq, ?_⟩
    intro k D hk
    have hkl := (List.getElem?_eq_some_iff.1 hk).1
    rw [tile_length tx ty hnx hny d] at hkl
    obtain ⟨k1, k2, k3⟩ := index_split hkl
    have hD := tile_get tx ty hnx hny d k1 k2
    rw [← k3, hk] at hD
    cases hD
    rw [tile_has hox hx k1 ha, tile_has hoy hy k2 hb]
    constructor
    · rintro ⟨h1, h2⟩
      rw [← h1, ← h2]; exact k3
    · intro h
      have hm : tileOf ty q < tiles ty gy.length := tileOf_lt hq
      have hpos : 0 < tiles ty gy.length := by omega
      subst h
      constructor
      · rw [Nat.mul_comm, Nat.mul_add_div hpos, Nat.div_eq_of_lt hm, Nat.add_zero]
      · rw [Nat.mul_comm, Nat.mul_add_mod, Nat.mod_eq_of_lt hm]

/-- Tiles of two cells of time and one of frequency: four, the later ones shorter. -/
example : tiledDomains 2 1 tg fg td = [⟨some (0, 2), some (10, 20)⟩, ⟨some (0, 2), some (20, 30)⟩, ⟨some (2, 3), some (10, 20)⟩, ⟨some (2, 3), some (20, 30)⟩] ∧
    tiles 2 tg.length * tiles 1 fg.length = 4 ∧ tileOf 2 1 * tiles 1 fg.length + tileOf 1 1 = 1 := by decide +kernel

/-- What the values of a composed funklet should be: for each cell that of a funklet whose domain has the centre, the default if there is
none. -/
def C135_full : Prop :=
  ∀ (fs : List Fk) (default : ℚ) (gx gy : List Cell), Ordered gx → Ordered gy → (∀ f ∈ fs, Sound f) →
    (∀ f ∈ fs, (∃ a, f.dom.x = some a) ∧ ∃ a, f.dom.y = some a) →
    ∀ p q, p < gx.length → q < gy.length → Composes fs default gx gy p q (valueAt (evaluate (compose fs default) gx gy) p q)

/-- **C135, part.** So it is if no domain ends before the first centre, and funklets that all have the same range along an axis, and no
dependence on it, have the whole grid in that range. -/
theorem C135_composed_partial (fs : List Fk) (default : ℚ) (gx gy : List Cell) (hox : Ordered gx) (hoy : Ordered gy) (hs : ∀ f ∈ fs, Sound f)
    (hr : ∀ f ∈ fs, Reaches gx gy f) (hsx : Spread gx (fs.map fun f => (f.dom.x, f.sx))) (hsy : Spread gy (fs.map fun f => (f.dom.y, f.sy))) :
    (evaluate (compose fs default) gx gy).2.2.length = (evaluate (compose fs default) gx gy).1 * (evaluate (compose fs default) gx gy).2.1 ∧
    ∀ p q, p < gx.length → q < gy.length → Composes fs default gx gy p q (valueAt (evaluate (compose fs default) gx gy) p q) :=
  ⟨evaluate_length _ _ _, fun _ _ hp hq => compose_value default hox hoy hs hr hsx hsy hp hq⟩

/-- Two funklets, one linear in time, one constant, and a cell that is in neither. -/
example :
    let fs := [slope ⟨some (1, 2), some (0, 40)⟩ 100, konst ⟨some (0, 1), some (0, 20)⟩ 7]
    (∀ f ∈ fs, Sound f) ∧ (∀ f ∈ fs, Reaches tg fg f) ∧ Spread tg (fs.map fun f => (f.dom.x, f.sx)) ∧ Spread fg (fs.map fun f => (f.dom.y, f.sy)) ∧
    evaluate (compose fs 5) tg fg = (3, 2, [7, 5, 203 / 2, 203 / 2, 5, 5]) := by
  refine ⟨?_, ?_, ?_, ?_, by decide +kernel⟩
  · intro f hf
    fin_cases hf
    · exact slope_sound _ _
    · exact konst_sound _ _
  · intro f hf
    fin_cases hf
    · exact ⟨_, _, rfl, rfl, by intro c hc; simp [tg] at hc; subst hc; norm_num, by intro c hc; simp [fg] at hc; subst hc; norm_num⟩
    · exact ⟨_, _, rfl, rfl, by intro c hc; simp [tg] at hc; subst hc; norm_num, by intro c hc; simp [fg] at hc; subst hc; norm_num⟩
  · intro h
    exact absurd (h _ List.mem_cons_self) (by simp [slope])
  · intro _ h
    have := h (some (0, 40), false) (by simp [slope]) (some (0, 20), false) (by simp [konst])
    norm_num at this

/-- **C135, refuted in full.** Two constant funklets for [0,1] and [1,2] of time, a grid that starts after: its first cell still gets the
value of one of them. -/
theorem C135_refuted : ¬ C135_full := by
  intro h
  have := h [konst ⟨some (0, 1), some (10, 30)⟩ 7, konst ⟨some (1, 2), some (10, 30)⟩ 8] 5 [⟨4, 5, 6⟩, ⟨6, 7, 8⟩] fg
    ⟨by intro c hc; fin_cases hc <;> norm_num, by simp⟩ ordered_fg
    (by intro f hf; fin_cases hf <;> exact konst_sound _ _) (by intro f hf; fin_cases hf <;> exact ⟨⟨_, rfl⟩, _, rfl⟩) 0 0 (by decide) (by decide)
  have hv : valueAt (evaluate (compose [konst ⟨some (0, 1), some (10, 30)⟩ 7, konst ⟨some (1, 2), some (10, 30)⟩ 8] 5) [⟨4, 5, 6⟩, ⟨6, 7, 8⟩] fg) 0 0 = some 8 := by
    decide +kernel
  rw [hv] at this
  rcases this with ⟨f, hf, y, ⟨a, b, ha, hb, hc, _⟩, _⟩ | ⟨_, h⟩
  · simp at ha
    subst ha
    fin_cases hf
    · have := hc.2; norm_num at this
    · have := hc.2; norm_num at this
  · norm_num at h

/-- Nor without the second condition: one constant funklet for [1,3] of time; the first centre is not in it, and the default is the value
everywhere. -/
example : let fs := [konst ⟨some (1, 3), some (10, 30)⟩ 7]
    (∀ f ∈ fs, Reaches tg fg f) ∧ Covers tg fg 1 0 (konst ⟨some (1, 3), some (10, 30)⟩ 7) ∧ valueAt (evaluate (compose fs 5) tg fg) 1 0 = some 5 := by
  refine ⟨?_, ⟨⟨1, 3 / 2, 2⟩, ⟨10, 15, 20⟩, rfl, rfl, ⟨by norm_num, by norm_num⟩, ⟨by norm_num, by norm_num⟩⟩, by decide +kernel⟩
  intro f hf
  fin_cases hf
  exact ⟨_, _, rfl, rfl, by intro c hc; simp [tg] at hc; subst hc; norm_num, by intro c hc; simp [fg] at hc; subst hc; norm_num⟩

/-- **C136.** A composed funklet made of one funklet for each tile keeps them in order of the tiles, if cells are wider than the
tolerance; and the value of a cell is that of the funklet of its tile. -/
theorem C136_tiled_value (tx ty : Int) (gx gy : List Cell) (d : Dom) (default : ℚ) (fs : List Fk) (hox : Ordered gx) (hoy : Ordered gy) (hnx : gx ≠ [])
    (hny : gy ≠ []) (hx : Whole d.x gx) (hy : Whole d.y gy) (hs : ∀ f ∈ fs, Sound f) (hd : fs.map (·.dom) = tiledDomains tx ty gx gy d) :
    ((∀ c ∈ gx, 1 / 10 ^ 16 < c.hi - c.lo) → (∀ c ∈ gy, 1 / 10 ^ 16 < c.hi - c.lo) → (compose fs default).parts = fs) ∧
    ∀ p q, p < gx.length → q < gy.length → ∃ f z, fs[tileOf tx p * tiles ty gy.length + tileOf ty q]? = some f ∧ Value gx gy p q f z ∧
      valueAt (evaluate (compose fs default) gx gy) p q = some z :=
  ⟨fun hwx hwy => tiles_sorted hnx hny hox hoy hwx hwy hd, fun _ _ hp hq => tiled_value hox hoy hx hy hs hd default hp hq⟩

/-- Three tiles of time, each a slope of its own. -/
example : let fs := [slope ⟨some (0, 1), some (10, 30)⟩ 0, slope ⟨some (1, 2), some (10, 30)⟩ 10, slope ⟨some (2, 3), some (10, 30)⟩ 20]
    fs.map (·.dom) = tiledDomains 1 0 tg fg td ∧ evaluate (compose fs 5) tg fg = (3, 1, [1 / 2, 23 / 2, 45 / 2]) := by
  decide +kernel

/-- **C136.** Preparing a funklet for tiles gives a composed funklet with one part for each tile, in order, with the tile's domain and the
same number of coefficients: a single funklet is repeated; a composed one is kept if it fits, else its first part is repeated. -/
theorem C136_init (tx ty : Int) (gx gy : List Cell) (d : Dom) (default : ℚ) (f r : Funk) (hox : Ordered gx) (hoy : Ordered gy) (hnx : gx ≠ [])
    (hny : gy ≠ []) (hx : Whole d.x gx) (hy : Whole d.y gy) (hwx : ∀ c ∈ gx, 1 / 10 ^ 16 < c.hi - c.lo) (hwy : ∀ c ∈ gy, 1 / 10 ^ 16 < c.hi - c.lo)
    (hdef : ∀ c, f = .composed c → ∀ g ∈ c.parts, (∃ a, g.dom.x = some a) ∧ ∃ a, g.dom.y = some a)
    (hmany : 1 < tiles tx gx.length * tiles ty gy.length) (h : initTiled tx ty gx gy d default f = some r) :
    ∃ c, r = .composed c ∧ Fits (tiledDomains tx ty gx gy d) c.parts ∧
      (f = .composed c ∨ ∃ g, (f = .single g ∨ ∃ c' l, f = .composed c' ∧ c'.parts = g :: l) ∧ c.default = default ∧
        ∀ k ∈ c.parts, k.n = g.n ∧ k.sx = g.sx ∧ k.sy = g.sy ∧ k.c0 = g.c0 ∧ k.v = g.v) := by
  have hlen := tile_length tx ty hnx hny d
  unfold initTiled at h
  dsimp only at h
  rw [if_neg (by omega)] at h
  have hdd : ∀ D ∈ tiledDomains tx ty gx gy d, (∃ a, D.x = some a) ∧ ∃ a, D.y = some a := by
    intro D hD
    obtain ⟨k, hk, rfl⟩ := List.mem_iff_getElem.1 hD
    obtain ⟨k1, k2, k3⟩ := index_split (hlen ▸ hk)
    have hD := tile_get tx ty hnx hny d k1 k2
    rw [← k3, List.getElem?_eq_getElem hk] at hD
    obtain ⟨a, ha, _⟩ := tile_some hox hx k1
    obtain ⟨b, hb, _⟩ := tile_some hoy hy k2
    rw [Option.some.inj hD]
    exact ⟨⟨a, ha⟩, b, hb⟩
  have near_self : ∀ a : Option (ℚ × ℚ), (∃ b, a = some b) → Near a a := by
    rintro a ⟨b, rfl⟩
    exact ⟨b, b, rfl, rfl, by simp, by simp⟩
  have built : ∀ g : Fk, ∃ c, compose ((tiledDomains tx ty gx gy d).map fun D => { g with dom := D }) default = c ∧
      Fits (tiledDomains tx ty gx gy d) c.parts ∧ c.default = default ∧
        ∀ k ∈ c.parts, k.n = g.n ∧ k.sx = g.sx ∧ k.sy = g.sy ∧ k.c0 = g.c0 ∧ k.v = g.v := by
    intro g
    have hp : (compose ((tiledDomains tx ty gx gy d).map fun D => { g with dom := D }) default).parts =
        (tiledDomains tx ty gx gy d).map fun D => { g with dom := D } := by
      refine tiles_sorted hnx hny hox hoy hwx hwy (tx := tx) (ty := ty) (d := d) ?_
      rw [List.map_map]
      exact List.map_id _
    have hall : ∀ k ∈ (compose ((tiledDomains tx ty gx gy d).map fun D => { g with dom := D }) default).parts,
        k.n = g.n ∧ k.sx = g.sx ∧ k.sy = g.sy ∧ k.c0 = g.c0 ∧ k.v = g.v := by
      intro k hk
      rw [hp] at hk
      obtain ⟨D, _, rfl⟩ := List.mem_map.1 hk
      exact ⟨rfl, rfl, rfl, rfl, rfl⟩
    refine ⟨_, rfl, ⟨?_, ?_, ?_⟩, rfl, hall⟩
    · rw [hp, List.length_map]
    · intro k D f hD hf
      rw [hp, List.getElem?_map, hD] at hf
      cases hf
      have := hdd D (List.mem_of_getElem? hD)
      exact ⟨near_self _ this.1, near_self _ this.2⟩
    · intro a ha b hb
      rw [(hall a ha).1, (hall b hb).1]
  cases f with
  | single g =>
    cases h
    obtain ⟨c, hc, h1, h2, h3⟩ := built g
    exact ⟨c, by rw [← hc], h1, Or.inr ⟨g, Or.inl rfl, h2, h3⟩⟩
  | composed c' =>
    dsimp only at h
    cases hl : c'.parts with
    | nil => rw [hl] at h; cases h
    | cons g l =>
      rw [hl] at h
      dsimp only at h
      split at h
      · next hck =>
        cases h
        refine ⟨c', rfl, ?_, Or.inl rfl⟩
        rw [← hl] at hck
        exact checkTiled_fits hdd (hdef c' rfl) hck
      · cases h
        obtain ⟨c, hc, h1, h2, h3⟩ := built g
        exact ⟨c, by rw [← hc], h1, Or.inr ⟨g, Or.inr ⟨c', l, rfl, hl⟩, h2, h3⟩⟩

/-- One constant funklet made into six. -/
example : (initTiled 1 1 tg fg td 5 (.single (konst td 7))).isSome = true ∧ 1 < tiles 1 tg.length * tiles 1 fg.length ∧
    (∀ c ∈ tg, 1 / 10 ^ 16 < c.hi - c.lo) ∧ ∀ c ∈ fg, 1 / 10 ^ 16 < c.hi - c.lo := by
  refine ⟨by decide +kernel, by decide, ?_, ?_⟩
  · intro c hc; fin_cases hc <;> norm_num
  · intro c hc; fin_cases hc <;> norm_num

/-- A copy of a composed funklet, and one made from its record, should have the values it has. -/
def C137_full : Prop :=
  ∀ (c : CPolc) (gx gy : List Cell), evaluate (copy c) gx gy = evaluate c gx gy

/-- **C137, part.** They have, for cells that some part is for (under the conditions of C135). -/
theorem C137_copy_partial (fs : List Fk) (default : ℚ) (gx gy : List Cell) (hox : Ordered gx) (hoy : Ordered gy) (hs : ∀ f ∈ fs, Sound f)
    (hr : ∀ f ∈ fs, Reaches gx gy f) (hsx : Spread gx (fs.map fun f => (f.dom.x, f.sx))) (hsy : Spread gy (fs.map fun f => (f.dom.y, f.sy)))
    (p q : Nat) (hp : p < gx.length) (hq : q < gy.length) (f : Fk) (hf : f ∈ fs) (hc : Covers gx gy p q f) (huniq : ∀ g ∈ fs, Covers gx gy p q g → g = f) :
    ∃ z, Value gx gy p q f z ∧ valueAt (evaluate (compose fs default) gx gy) p q = some z ∧
      valueAt (evaluate (copy (compose fs default)) gx gy) p q = some z ∧
      valueAt (evaluate (fromRecord (compose fs default).parts) gx gy) p q = some z := by
  have key : ∀ (fs' : List Fk) (d : ℚ), fs'.Perm fs → ∃ z, Value gx gy p q f z ∧ valueAt (evaluate (compose fs' d) gx gy) p q = some z := by
    intro fs' d hpm
    have := compose_value d hox hoy (fun g hg => hs g (hpm.mem_iff.1 hg)) (fun g hg => hr g (hpm.mem_iff.1 hg))
      (spread_perm (hpm.symm.map _) hsx) (spread_perm (hpm.symm.map _) hsy) hp hq
    rcases this with ⟨g, hg, z, h1, h2, h3⟩ | ⟨h1, _⟩
    · cases huniq g (hpm.mem_iff.1 hg) h1
      exact ⟨z, h2, h3⟩
    · exact absurd hc (h1 f (hpm.mem_iff.2 hf))
  have same : ∀ z z', Value gx gy p q f z → Value gx gy p q f z' → z = z' := by
    rintro z z' ⟨a, b, ha, hb, rfl⟩ ⟨a', b', ha', hb', rfl⟩
    rw [ha] at ha'; rw [hb] at hb'; cases ha'; cases hb'; rfl
  obtain ⟨z, hz, h1⟩ := key fs default (List.Perm.refl _)
  obtain ⟨z2, hz2, h2⟩ := key fs 0 (List.Perm.refl _)
  obtain ⟨z3, hz3, h3⟩ := key (compose fs default).parts 0 (perm_sort fs)
  cases same z z2 hz hz2
  cases same z z3 hz hz3
  exact ⟨z, hz, h1, h2, h3⟩

/-- The cell [1,2] of the example for C135. -/
example : Covers tg fg 1 0 (slope ⟨some (1, 2), some (0, 40)⟩ 100) ∧ ¬ Covers tg fg 1 0 (konst ⟨some (0, 1), some (0, 20)⟩ 7) := by
  refine ⟨⟨⟨1, 3 / 2, 2⟩, ⟨10, 15, 20⟩, rfl, rfl, ⟨by norm_num, by norm_num⟩, ⟨by norm_num, by norm_num⟩⟩, ?_⟩
  rintro ⟨a, b, ha, hb, h, _⟩
  simp [tg] at ha
  subst ha
  have := h.2
  norm_num at this

/-- **C137, refuted in full.** Where no part is for a cell, a copy has 0 and not the default. -/
theorem C137_refuted : ¬ C137_full := by
  intro h
  have := h (compose [konst ⟨some (0, 1), some (10, 30)⟩ 7, konst ⟨some (1, 2), some (10, 30)⟩ 8] 5) tg fg
  revert this
  decide +kernel

end Verif.Composed
