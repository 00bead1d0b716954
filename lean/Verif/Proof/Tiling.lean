import Verif.Spec.Tiling
import Mathlib.Tactic.Ring
import Mathlib.Tactic.Linarith
/-! # Tilings: proofs -/
namespace Verif.Tiling

/-- Tiles on an axis. -/
def nTiles (t n : Nat) : Nat := n / t + (if n % t = 0 then 0 else 1)

/-- The grid, computed. -/
def grid : List Nat → List Nat → List Nat
  | t :: ts, n :: ns => (if n = 0 then 1 else nTiles (tileLen t n) n) :: grid ts ns
  | _, _ => []

/-- The tile of a cell, computed. -/
def tileIdx : List Nat → List Nat → List Nat → List Nat
  | t :: ts, n :: ns, c :: cs => (if n = 0 then 0 else c / tileLen t n) :: tileIdx ts ns cs
  | _, _, _ => []

/-- The axes when the walk is at a cell. -/
def axesAt : List Nat → List Nat → List Nat → List Axis
  | t :: ts, n :: ns, c :: cs =>
    (if n = 0 then ⟨0, t, 0, 0⟩ else ⟨nTiles (tileLen t n) n, tileLen t n, cells (grid ts ns), c % tileLen t n⟩) :: axesAt ts ns cs
  | _, _, _ => []

theorem tileLen_pos {t n : Nat} (h : n ≠ 0) : 0 < tileLen t n := by
  unfold tileLen; split <;> omega

theorem nTiles_covers {t n : Nat} (ht : 0 < t) (hn : n ≠ 0) : Covers (nTiles t n) t n := by
  unfold Covers nTiles
  have h := Nat.div_add_mod n t
  have hl := Nat.mod_lt n ht
  rw [Nat.mul_comm] at h
  by_cases h0 : n % t = 0
  · rw [if_pos h0]
    have hp : 0 < n / t := Nat.pos_of_ne_zero (by intro hz; rw [hz] at h; omega)
    refine ⟨by rw [Nat.add_zero]; omega, ?_⟩
    have : (n / t + 0 - 1) * t + t = n / t * t := by
      have : n / t = (n / t - 1) + 1 := by omega
      conv_rhs => rw [this, Nat.add_mul, Nat.one_mul]
      rfl
    omega
  · rw [if_neg h0]
    refine ⟨by rw [Nat.add_mul]; omega, by simp; omega⟩

theorem covers_unique {m m' t n : Nat} (h : Covers m t n) (h' : Covers m' t n) : m = m' := by
  have key : ∀ a b, Covers a t n → Covers b t n → a ≤ b := by
    intro a b ⟨_, ha⟩ ⟨hb, _⟩
    by_contra hlt
    have : b ≤ a - 1 := by omega
    have := Nat.mul_le_mul_right t this
    omega
  exact Nat.le_antisymm (key _ _ h h') (key _ _ h' h)

theorem nTiles_pos {t n : Nat} (ht : 0 < t) (hn : n ≠ 0) : 0 < nTiles t n := by
  have h := (nTiles_covers ht hn).1
  apply Nat.pos_of_ne_zero
  intro hz; rw [hz] at h; omega

/-- The last cell is in the last tile. -/
theorem last_tile {t n : Nat} (ht : 0 < t) (hn : n ≠ 0) : (n - 1) / t = nTiles t n - 1 := by
  have hc := nTiles_covers ht hn
  have hp := nTiles_pos ht hn
  obtain ⟨h1, h2⟩ := hc
  apply Nat.div_eq_of_lt_le
  · omega
  · have : nTiles t n - 1 + 1 = nTiles t n := by omega
    rw [this]; omega

theorem grid_ok : ∀ (ts ns : List Nat), ts.length = ns.length → GridOf ts ns (grid ts ns)
  | [], [], _ => trivial
  | t :: ts, n :: ns, h => by
    refine ⟨?_, grid_ok ts ns (by simpa using h)⟩
    by_cases hn : n = 0
    · simp [hn]
    · simp only [hn, if_false]; exact nTiles_covers (tileLen_pos hn) hn
  | [], _ :: _, h => by simp at h
  | _ :: _, [], h => by simp at h

theorem gridOf_unique : ∀ {ts ns ms : List Nat}, GridOf ts ns ms → ms = grid ts ns
  | [], [], [], _ => rfl
  | t :: ts, n :: ns, m :: ms, h => by
    obtain ⟨h1, h2⟩ := h
    rw [grid, gridOf_unique h2]
    congr 1
    by_cases hn : n = 0
    · simpa [hn] using h1
    · simp only [hn, if_false] at h1 ⊢
      exact covers_unique h1 (nTiles_covers (tileLen_pos hn) hn)
  | [], [], _ :: _, h => h.elim
  | [], _ :: _, [], h => h.elim
  | [], _ :: _, _ :: _, h => h.elim
  | _ :: _, [], [], h => h.elim
  | _ :: _, [], _ :: _, h => h.elim
  | _ :: _, _ :: _, [], h => h.elim

theorem cells_grid_pos : ∀ (ts ns : List Nat), 0 < cells (grid ts ns)
  | t :: ts, n :: ns => by
    have := cells_grid_pos ts ns
    have hd : 0 < (if n = 0 then 1 else nTiles (tileLen t n) n) := by
      by_cases hn : n = 0
      · simp [hn]
      · simp only [hn, if_false]; exact nTiles_pos (tileLen_pos hn) hn
    exact Nat.mul_pos hd this
  | [], _ => by simp [grid, cells]
  | _ :: _, [] => by simp [grid, cells]

theorem init_eq : ∀ (ts ns cs : List Nat), ts.length = ns.length → ns.length = cs.length → (∀ c ∈ cs, c = 0) →
    initAxes ts ns = (axesAt ts ns cs, cells (grid ts ns))
  | [], [], [], _, _, _ => rfl
  | t :: ts, n :: ns, c :: cs, h, h', hz => by
    have ih := init_eq ts ns cs (by simpa using h) (by simpa using h') (fun c hc => hz c (by simp [hc]))
    have hc : c = 0 := hz c (by simp)
    subst hc
    rw [initAxes, ih]
    dsimp only
    by_cases hn : n = 0
    · rw [if_pos hn]
      simp [axesAt, grid, hn, cells]
    · rw [if_neg hn]
      by_cases ht : t = 0
      · rw [if_pos ht]
        have hl : tileLen t n = n := by simp [tileLen, ht]
        have hk : nTiles n n = 1 := by
          unfold nTiles; rw [Nat.mod_self, Nat.div_self (Nat.pos_of_ne_zero hn)]; rfl
        simp only [axesAt, grid, hn, if_false, hl, hk, cells, List.foldr_cons, Nat.mul_one, Nat.one_mul, Nat.zero_mod]
      · rw [if_neg ht]
        have hl : tileLen t n = t := by simp [tileLen, ht]
        simp only [axesAt, grid, hn, if_false, hl, cells, List.foldr_cons, Nat.zero_mod, nTiles]
        rw [Nat.mul_comm]
  | [], _ :: _, _, h, _, _ => by simp at h
  | _ :: _, [], _, h, _, _ => by simp at h
  | [], [], _ :: _, _, h, _ => by simp at h
  | _ :: _, _ :: _, [], _, h, _ => by simp at h

theorem rewind_axesAt : ∀ (ts ns cs : List Nat), rewind (axesAt ts ns cs) = axesAt ts ns (cs.map fun _ => 0)
  | t :: ts, n :: ns, c :: cs => by
    have ih := rewind_axesAt ts ns cs
    unfold rewind at ih ⊢
    simp only [axesAt, List.map_cons, ih]
    by_cases hn : n = 0 <;> simp [hn]
  | [], _, _ => by simp [axesAt, rewind]
  | _ :: _, [], _ => by simp [axesAt, rewind]
  | _ :: _, _ :: _, [] => by simp [axesAt, rewind]

theorem tileIdx_zero : ∀ (ts ns cs : List Nat) (ms : List Nat), position ms (tileIdx ts ns (cs.map fun _ => 0)) = 0
  | t :: ts, n :: ns, c :: cs, m :: ms => by
    have ih := tileIdx_zero ts ns cs ms
    simp only [List.map_cons, tileIdx, position, ih]
    by_cases hn : n = 0 <;> simp [hn]
  | [], _, _, ms => by cases ms <;> simp [tileIdx, position]
  | _ :: _, [], _, ms => by cases ms <;> simp [tileIdx, position]
  | _ :: _, _ :: _, [], ms => by cases ms <;> simp [tileIdx, position]
  | _ :: _, _ :: _, _ :: _, [] => by simp [position]

theorem position_zero : ∀ (ms cs : List Nat), position ms (cs.map fun _ => 0) = 0
  | m :: ms, c :: cs => by simp [position, position_zero ms cs]
  | [], _ => by simp [position]
  | _ :: _, [] => by simp [position]

theorem cellOf_zero : ∀ {ms cs : List Nat}, CellOf ms cs → CellOf ms (cs.map fun _ => 0)
  | m :: ms, c :: cs, h => ⟨by have := h.1; show 0 < m; omega, cellOf_zero h.2⟩
  | [], [], _ => trivial
  | [], _ :: _, h => h.elim
  | _ :: _, [], h => h.elim

theorem position_lt : ∀ {ms cs : List Nat}, CellOf ms cs → position ms cs < cells ms
  | m :: ms, c :: cs, h => by
    have ih := position_lt h.2
    have h1 : c + 1 ≤ m := h.1
    have := Nat.mul_le_mul_right (cells ms) h1
    show c * cells ms + position ms cs < m * cells ms
    rw [Nat.add_mul] at this
    omega
  | [], [], _ => by simp [position, cells]
  | [], _ :: _, h => h.elim
  | _ :: _, [], h => h.elim

theorem position_inj : ∀ {ms cs cs' : List Nat}, CellOf ms cs → CellOf ms cs' → position ms cs = position ms cs' → cs = cs'
  | m :: ms, c :: cs, c' :: cs', h, h', he => by
    have l := position_lt h.2
    have l' := position_lt h'.2
    simp only [position] at he
    have hc : c = c' := by
      have e1 : (c * cells ms + position ms cs) / cells ms = c := by
        rw [Nat.mul_comm, Nat.mul_add_div (by omega), Nat.div_eq_of_lt l]; rfl
      have e2 : (c' * cells ms + position ms cs') / cells ms = c' := by
        rw [Nat.mul_comm, Nat.mul_add_div (by omega), Nat.div_eq_of_lt l']; rfl
      rw [← e1, ← e2, he]
    subst hc
    rw [position_inj h.2 h'.2 (by omega)]
  | [], [], [], _, _, _ => rfl
  | [], _ :: _, _, h, _, _ => h.elim
  | _ :: _, [], _, h, _, _ => h.elim
  | [], [], _ :: _, _, h, _ => h.elim
  | _ :: _, _ :: _, [], _, h, _ => h.elim

/-- Every position belongs to a cell. -/
theorem exists_cell : ∀ (ms : List Nat) (p : Nat), p < cells ms → ∃ cs, CellOf ms cs ∧ position ms cs = p
  | [], p, h => ⟨[], trivial, by simp [cells] at h; simp [position, h]⟩
  | m :: ms, p, h => by
    have hpos : 0 < cells ms := by
      apply Nat.pos_of_ne_zero
      intro hz
      have : cells (m :: ms) = m * cells ms := rfl
      rw [this, hz] at h; omega
    have h' : p < m * cells ms := h
    obtain ⟨cs, hcs, hp⟩ := exists_cell ms (p % cells ms) (Nat.mod_lt _ hpos)
    refine ⟨(p / cells ms) :: cs, ⟨(Nat.div_lt_iff_lt_mul hpos).2 h', hcs⟩, ?_⟩
    show p / cells ms * cells ms + position ms cs = p
    rw [hp, Nat.mul_comm]; exact Nat.div_add_mod p _

theorem inTile_idx : ∀ (ts ns cs : List Nat), ts.length = ns.length → CellOf (shapeOf ns) cs → InTile ts ns cs (tileIdx ts ns cs)
  | [], [], [], _, _ => trivial
  | t :: ts, n :: ns, c :: cs, h, hc => by
    refine ⟨?_, inTile_idx ts ns cs (by simpa using h) hc.2⟩
    by_cases hn : n = 0
    · simp [hn]
    · simp only [hn, if_false]
      have hp := tileLen_pos (t := t) hn
      refine ⟨Nat.div_mul_le_self _ _, ?_⟩
      rw [Nat.add_mul, Nat.one_mul, Nat.mul_comm]
      have h1 := Nat.div_add_mod c (tileLen t n)
      have h2 := Nat.mod_lt c hp
      omega
  | [], _ :: _, _, h, _ => by simp at h
  | _ :: _, [], _, h, _ => by simp at h
  | [], [], _ :: _, _, h => h.elim
  | _ :: _, _ :: _, [], _, h => h.elim

theorem inTile_unique : ∀ {ts ns cs ks : List Nat}, InTile ts ns cs ks → ks = tileIdx ts ns cs
  | [], [], [], [], _ => rfl
  | t :: ts, n :: ns, c :: cs, k :: ks, h => by
    obtain ⟨h1, h2⟩ := h
    rw [tileIdx, inTile_unique h2]
    congr 1
    by_cases hn : n = 0
    · simpa [hn] using h1
    · simp only [hn, if_false] at h1 ⊢
      exact (Nat.div_eq_of_lt_le h1.1 h1.2).symm
  | [], _ :: _, _, _, h => h.elim
  | _ :: _, [], _, _, h => h.elim
  | [], [], _ :: _, _, h => h.elim
  | _ :: _, _ :: _, [], _, h => h.elim
  | [], [], [], _ :: _, h => h.elim
  | _ :: _, _ :: _, _ :: _, [], h => h.elim

theorem cellOf_tileIdx : ∀ (ts ns cs : List Nat), ts.length = ns.length → CellOf (shapeOf ns) cs → CellOf (grid ts ns) (tileIdx ts ns cs)
  | [], [], [], _, _ => trivial
  | t :: ts, n :: ns, c :: cs, h, hc => by
    refine ⟨?_, cellOf_tileIdx ts ns cs (by simpa using h) hc.2⟩
    by_cases hn : n = 0
    · simp [hn]
    · have hlt : c < n := by have := hc.1; simpa [hn] using this
      simp only [hn, if_false]
      have hp := tileLen_pos (t := t) hn
      have := (nTiles_covers hp hn).1
      exact (Nat.div_lt_iff_lt_mul hp).2 (by omega)
  | [], _ :: _, _, h, _ => by simp at h
  | _ :: _, [], _, h, _ => by simp at h
  | [], [], _ :: _, _, h => h.elim
  | _ :: _, _ :: _, [], _, h => h.elim

theorem succ_div_mod {c t : Nat} (ht : 0 < t) :
    (t ≤ c % t + 1 → (c + 1) / t = c / t + 1 ∧ (c + 1) % t = 0) ∧ (¬ t ≤ c % t + 1 → (c + 1) / t = c / t ∧ (c + 1) % t = c % t + 1) := by
  have h := Nat.div_add_mod c t
  have hl := Nat.mod_lt c ht
  constructor
  · intro hge
    have e : c + 1 = t * (c / t + 1) := by rw [Nat.mul_add]; omega
    constructor
    · rw [e, Nat.mul_div_cancel_left _ ht]
    · rw [e, Nat.mul_mod_right]
  · intro hlt
    have e : c + 1 = t * (c / t) + (c % t + 1) := by omega
    constructor
    · conv_lhs => rw [e]
      rw [Nat.mul_add_div ht, Nat.div_eq_of_lt (show c % t + 1 < t by omega)]; rfl
    · conv_lhs => rw [e]
      rw [Nat.mul_add_mod, Nat.mod_eq_of_lt (by omega)]

/-- The end of the walk. -/
theorem incr_none : ∀ (ts ns cs : List Nat), ts.length = ns.length → CellOf (shapeOf ns) cs → incr (shapeOf ns) cs = none →
    position (grid ts ns) (tileIdx ts ns cs) + 1 = cells (grid ts ns) ∧ position (shapeOf ns) cs + 1 = cells (shapeOf ns)
  | [], [], [], _, _, _ => by simp [grid, tileIdx, position, cells, shapeOf]
  | t :: ts, n :: ns, c :: cs, h, hc, hi => by
    obtain ⟨hc1, hc2⟩ := hc
    change c < (if n = 0 then 1 else n) at hc1
    have hsh : shapeOf (n :: ns) = (if n = 0 then 1 else n) :: shapeOf ns := rfl
    rw [hsh, incr] at hi
    change CellOf (shapeOf ns) cs at hc2
    cases hit : incr (shapeOf ns) cs with
    | some p => rw [hit] at hi; cases hi
    | none =>
      rw [hit] at hi
      dsimp only at hi
      have ih := incr_none ts ns cs (by simpa using h) hc2 hit
      have hle : (if n = 0 then 1 else n) ≤ c + 1 := by
        by_contra hcon
        rw [if_neg hcon] at hi; cases hi
      rw [hsh]
      have hcs : ∀ (a : Nat) l, cells (a :: l) = a * cells l := fun _ _ => rfl
      by_cases hn : n = 0
      · have hc0 : c = 0 := by simp [hn] at hc1; omega
        simp only [hn, if_true, grid, tileIdx, position, hcs, hc0, Nat.zero_mul, Nat.zero_add, Nat.one_mul]
        exact ih
      · have hsz : (if n = 0 then 1 else n) = n := by simp [hn]
        rw [hsz] at hle hc1
        simp only [hn, if_false, grid, tileIdx, position, hcs]
        have hce : c = n - 1 := by omega
        have hp := tileLen_pos (t := t) hn
        have hlast := last_tile (t := tileLen t n) hp hn
        rw [← hce] at hlast
        have hnp := nTiles_pos hp hn
        constructor
        · rw [hlast]
          have : nTiles (tileLen t n) n = (nTiles (tileLen t n) n - 1) + 1 := by omega
          conv_rhs => rw [this, Nat.add_mul, Nat.one_mul]
          omega
        · have : n = c + 1 := by omega
          conv_rhs => rw [this, Nat.add_mul, Nat.one_mul]
          omega
  | [], _ :: _, _, h, _, _ => by simp at h
  | _ :: _, [], _, h, _, _ => by simp at h
  | [], [], _ :: _, _, h, _ => h.elim
  | _ :: _, _ :: _, [], _, h, _ => h.elim

/-- A step of the walk. -/
theorem incr_some : ∀ (ts ns cs cs' : List Nat) (d : Nat), ts.length = ns.length → CellOf (shapeOf ns) cs →
    incr (shapeOf ns) cs = some (cs', d) →
    CellOf (shapeOf ns) cs' ∧ position (shapeOf ns) cs' = position (shapeOf ns) cs + 1 ∧
    advanceAxes d (axesAt ts ns cs) =
      (axesAt ts ns cs', (position (grid ts ns) (tileIdx ts ns cs') : Int) - (position (grid ts ns) (tileIdx ts ns cs) : Int))
  | [], [], [], _, _, _, _, hi => by simp [shapeOf, incr] at hi
  | t :: ts, n :: ns, c :: cs, cs', d, h, hc, hi => by
    obtain ⟨hc1, hc2⟩ := hc
    change c < (if n = 0 then 1 else n) at hc1
    have hsh : shapeOf (n :: ns) = (if n = 0 then 1 else n) :: shapeOf ns := rfl
    rw [hsh, incr] at hi
    rw [hsh]
    change CellOf (shapeOf ns) cs at hc2
    have hlen : ts.length = ns.length := by simpa using h
    cases hit : incr (shapeOf ns) cs with
    | some p =>
      obtain ⟨cs1, d1⟩ := p
      rw [hit] at hi
      dsimp only at hi
      simp only [Option.some.injEq, Prod.mk.injEq] at hi
      obtain ⟨rfl, rfl⟩ := hi
      obtain ⟨i1, i2, i3⟩ := incr_some ts ns cs cs1 d1 hlen hc2 hit
      refine ⟨⟨hc1, i1⟩, ?_, ?_⟩
      · simp only [position, i2]; omega
      · simp only [axesAt, advanceAxes, i3, tileIdx, grid, position]
        refine Prod.ext rfl ?_
        push_cast
        ring
    | none =>
      rw [hit] at hi
      dsimp only at hi
      have hend := incr_none ts ns cs hlen hc2 hit
      by_cases hle : (if n = 0 then 1 else n) ≤ c + 1
      · rw [if_pos hle] at hi; cases hi
      · rw [if_neg hle] at hi
        simp only [Option.some.injEq, Prod.mk.injEq] at hi
        obtain ⟨rfl, rfl⟩ := hi
        have hn : n ≠ 0 := by intro hz; simp [hz] at hle
        have hsize : (if n = 0 then 1 else n) = n := by simp [hn]
        rw [hsize] at hle
        have hp := tileLen_pos (t := t) hn
        refine ⟨⟨by rw [hsize]; omega, cellOf_zero hc2⟩, ?_, ?_⟩
        · simp only [position, position_zero]
          rw [Nat.add_mul, Nat.one_mul]; omega
        · simp only [axesAt, hn, if_false, advanceAxes, rewind_axesAt, tileIdx, grid, position, tileIdx_zero]
          obtain ⟨s1, s2⟩ := succ_div_mod (c := c) hp
          have hz := tileIdx_zero ts ns cs (grid ts ns)
          have he : (position (grid ts ns) (tileIdx ts ns cs) : Int) = (cells (grid ts ns) : Int) - 1 := by
            have := hend.1; omega
          by_cases hw : tileLen t n ≤ c % tileLen t n + 1
          · rw [if_pos hw, (s1 hw).1, (s1 hw).2]
            refine Prod.ext rfl ?_
            push_cast
            rw [he]; ring
          · rw [if_neg hw, (s2 hw).1, (s2 hw).2]
            refine Prod.ext rfl ?_
            push_cast
            rw [he]; ring
  | [], _ :: _, _, _, _, h, _, _ => by simp at h
  | _ :: _, [], _, _, _, h, _, _ => by simp at h
  | [], [], _ :: _, _, _, _, h, _ => h.elim
  | _ :: _, _ :: _, [], _, _, _, h, _ => h.elim

/-- The whole walk from any cell. -/
theorem walk_ok (ts ns : List Nat) (hlen : ts.length = ns.length) : ∀ (fuel : Nat) (cs : List Nat) (t : Tiling),
    CellOf (shapeOf ns) cs → position (shapeOf ns) cs + fuel = cells (shapeOf ns) → t.axes = axesAt ts ns cs →
    t.cur = (position (grid ts ns) (tileIdx ts ns cs) : Int) →
    ∃ w, walk (shapeOf ns) fuel cs t = some w ∧ w.length = fuel ∧ ∀ (i : Nat) (c : List Nat) (k : Int), w[i]? = some (c, k) →
      CellOf (shapeOf ns) c ∧ position (shapeOf ns) c = position (shapeOf ns) cs + i ∧ k = (position (grid ts ns) (tileIdx ts ns c) : Int)
  | 0, cs, t, hc, hf, _, _ => by have := position_lt hc; omega
  | fuel + 1, cs, t, hc, hf, ha, hcur => by
    rw [walk]
    cases hi : incr (shapeOf ns) cs with
    | none =>
      have := (incr_none ts ns cs hlen hc hi).2
      refine ⟨[(cs, t.cur)], rfl, by simp; omega, ?_⟩
      intro i c k hw
      cases i with
      | zero => simp at hw; obtain ⟨rfl, rfl⟩ := hw; exact ⟨hc, rfl, hcur⟩
      | succ i => simp at hw
    | some p =>
      obtain ⟨cs', d⟩ := p
      obtain ⟨i1, i2, i3⟩ := incr_some ts ns cs cs' d hlen hc hi
      have ih := walk_ok ts ns hlen fuel cs' (t.advance d) i1 (by omega)
        (by show (advanceAxes d t.axes).1 = _; rw [ha, i3])
        (by show t.cur + (advanceAxes d t.axes).2 = _; rw [ha, i3, hcur]; ring)
      obtain ⟨w, hw, hl, hall⟩ := ih
      refine ⟨(cs, t.cur) :: w, by simp [hw], by simp [hl], ?_⟩
      intro i c k hik
      cases i with
      | zero => simp at hik; obtain ⟨rfl, rfl⟩ := hik; exact ⟨hc, rfl, hcur⟩
      | succ i =>
        simp at hik
        obtain ⟨a, b, e⟩ := hall i c k hik
        exact ⟨a, by omega, e⟩

end Verif.Tiling
