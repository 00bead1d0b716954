import Verif.Spec.Composed
import Mathlib.Tactic.Linarith
/-! # Lemmas for C134 - C136 -/
namespace Verif.Composed

/-! ## Filling -/

theorem fillRow_length (part : Nat → ℚ) (maxny base : Nat) : ∀ (n y ny : Nat) (vals : List ℚ), (fillRow part maxny base n y ny vals).length = vals.length
  | 0, _, _, _ => rfl
  | n + 1, y, ny, vals => by rw [fillRow, fillRow_length part maxny base n]; simp

theorem fillRow_get (part : Nat → ℚ) (maxny base : Nat) : ∀ (n y ny : Nat) (vals : List ℚ) (j : Nat), ny ≤ maxny - 1 → j < vals.length →
    (fillRow part maxny base n y ny vals)[j]? = if base + y ≤ j ∧ j < base + y + n then some (part (min (ny + (j - (base + y))) (maxny - 1))) else vals[j]?
  | 0, y, ny, vals, j, _, _ => by rw [fillRow, if_neg (by omega)]
  | n + 1, y, ny, vals, j, hny, hj => by
    rw [fillRow, fillRow_get part maxny base n (y + 1) _ _ j (by omega) (by simpa using hj)]
    by_cases h1 : base + (y + 1) ≤ j ∧ j < base + (y + 1) + n
    · rw [if_pos h1, if_pos (by omega)]
      congr 2
      omega
    · rw [if_neg h1]
      by_cases h2 : j = base + y
      · subst h2
        rw [if_pos (by omega), List.getElem?_set_self hj]
        congr 2
        omega
      · rw [if_neg (by omega), List.getElem?_set_ne (by omega)]

theorem fill_length (part : Nat → Nat → ℚ) (maxnx maxny w sy cy : Nat) : ∀ (n x nx : Nat) (vals : List ℚ), (fill part maxnx maxny w sy cy n x nx vals).length = vals.length
  | 0, _, _, _ => rfl
  | n + 1, x, nx, vals => by rw [fill, fill_length part maxnx maxny w sy cy n, fillRow_length]

theorem row_lt {w x x' q sy cy : Nat} (hq : q < w) (hw : sy + cy ≤ w) (h1 : x * w + sy ≤ x' * w + q) (h2 : x' * w + q < x * w + sy + cy) : x = x' := by
  rcases Nat.lt_trichotomy x x' with h | h | h
  · have := Nat.mul_le_mul_right w (show x + 1 ≤ x' from h)
    rw [Nat.add_mul] at this; omega
  · exact h
  · have := Nat.mul_le_mul_right w (show x' + 1 ≤ x from h)
    rw [Nat.add_mul] at this; omega

theorem fill_get (part : Nat → Nat → ℚ) (maxnx maxny w sy cy : Nat) (hw : sy + cy ≤ w) {x' q : Nat} (hq : q < w) :
    ∀ (n x nx : Nat) (vals : List ℚ), nx ≤ maxnx - 1 → x' * w + q < vals.length →
    (fill part maxnx maxny w sy cy n x nx vals)[x' * w + q]? =
      if (x ≤ x' ∧ x' < x + n) ∧ sy ≤ q ∧ q < sy + cy then some (part (min (nx + (x' - x)) (maxnx - 1)) (min (q - sy) (maxny - 1))) else vals[x' * w + q]?
  | 0, x, nx, vals, _, _ => by rw [fill, if_neg (by omega)]
  | n + 1, x, nx, vals, hnx, hj => by
    rw [fill, fill_get part maxnx maxny w sy cy hw hq n (x + 1) _ _ (by omega) (by rw [fillRow_length]; exact hj)]
    by_cases h1 : (x + 1 ≤ x' ∧ x' < x + 1 + n) ∧ sy ≤ q ∧ q < sy + cy
    · rw [if_pos h1, if_pos (by omega)]
      congr 2
      omega
    · rw [if_neg h1, fillRow_get _ _ _ _ _ _ _ _ (by omega) hj]
      by_cases h2 : x * w + sy ≤ x' * w + q ∧ x' * w + q < x * w + sy + cy
      · have hx := row_lt hq hw h2.1 h2.2
        subst hx
        rw [if_pos h2, if_pos (by omega)]
        have e1 : min (nx + (x - x)) (maxnx - 1) = nx := by omega
        have e2 : 0 + (x * w + q - (x * w + sy)) = q - sy := by omega
        rw [e1, e2]
      · rw [if_neg h2, if_neg]
        rintro ⟨h3, h4⟩
        by_cases hx : x = x'
        · subst hx; omega
        · omega

/-! ## Cells of a domain -/

theorem ordered_le {g : List Cell} (h : Ordered g) {i j : Nat} {a b : Cell} (hij : i ≤ j) (ha : g[i]? = some a) (hb : g[j]? = some b) : a.mid ≤ b.mid := by
  rcases Nat.eq_or_lt_of_le hij with rfl | hlt
  · rw [ha] at hb; cases hb; exact le_refl _
  · obtain ⟨hi, ha'⟩ := List.getElem?_eq_some_iff.1 ha
    obtain ⟨hj, hb'⟩ := List.getElem?_eq_some_iff.1 hb
    have h1 := List.pairwise_iff_getElem.1 h.2 i j hi hj hlt
    rw [ha', hb'] at h1
    have h2 := (h.1 a (List.mem_of_getElem? ha)).2
    have h3 := (h.1 b (List.mem_of_getElem? hb)).1
    linarith

theorem first_le_iff {g : List Cell} (h : Ordered g) {s : ℚ} {m i : Nat} {c : Cell} (hc : g[i]? = some c) (hi : i < m) :
    first s m g ≤ i ↔ s ≤ c.mid := by
  unfold first
  have hgi : (g.take m)[i]? = some c := by rw [List.getElem?_take, if_pos hi, hc]
  obtain ⟨hlt, hce⟩ := List.getElem?_eq_some_iff.1 hgi
  constructor
  · intro hk
    have hklt : (g.take m).findIdx (fun c => !decide (c.mid < s)) < (g.take m).length := by omega
    have hp := List.findIdx_getElem (w := hklt)
    have hk' : (g.take m)[(g.take m).findIdx (fun c => !decide (c.mid < s))]? = some (g.take m)[(g.take m).findIdx (fun c => !decide (c.mid < s))] :=
      List.getElem?_eq_getElem hklt
    rw [List.getElem?_take] at hk'
    split at hk'
    · have := ordered_le h hk hk' hc
      simp only [Bool.not_eq_true', decide_eq_false_iff_not, not_lt] at hp
      linarith
    · cases hk'
  · intro hs
    by_contra hk
    have := List.not_of_lt_findIdx (p := fun c : Cell => !decide (c.mid < s)) (xs := g.take m) (i := i) (by omega)
    rw [hce] at this
    simp at this
    linarith

theorem first_le (s : ℚ) (m : Nat) (g : List Cell) : first s m g ≤ min m g.length := by
  unfold first
  have := List.findIdx_le_length (p := fun c : Cell => !decide (c.mid < s)) (xs := g.take m)
  rw [List.length_take] at this
  exact this

theorem last_le (e : ℚ) (g : List Cell) : ∀ k, last e g k ≤ k
  | 0 => Nat.le_refl _
  | k + 1 => by rw [last]; split; exacts [Nat.le_succ_of_le (last_le e g k), Nat.le_refl _]

theorem le_last_iff {g : List Cell} (h : Ordered g) {e : ℚ} (h0 : ∀ c, g[0]? = some c → c.mid ≤ e) :
    ∀ (k i : Nat) (c : Cell), i ≤ k → k < g.length → g[i]? = some c → (i ≤ last e g k ↔ c.mid ≤ e)
  | 0, i, c, hi, _, hc => by
    have : i = 0 := by omega
    subst this
    exact ⟨fun _ => h0 c hc, fun _ => Nat.zero_le _⟩
  | k + 1, i, c, hi, hk, hc => by
    have hk1 : g[k + 1]? = some (g.getD (k + 1) ⟨0, 0, 0⟩) := by simp [List.getD_eq_getElem?_getD, List.getElem?_eq_getElem hk]
    rw [last]
    split
    · next hlt =>
      rcases Nat.lt_or_ge k i with hik | hik
      · have : i = k + 1 := by omega
        subst this
        rw [hc] at hk1
        have hcc := Option.some.inj hk1
        rw [← hcc] at hlt
        have := last_le e g k
        constructor
        · intro; omega
        · intro; linarith
      · exact le_last_iff h h0 k i c hik (by omega) hc
    · next hge =>
      have := ordered_le h hi hc hk1
      exact ⟨fun _ => le_trans this (not_lt.1 hge), fun _ => hi⟩

/-- What is asked of an axis: `w` is the size of the result, `a` the funklet's range, `s` whether it has more than one coefficient. -/
structure AxOk (g : List Cell) (w : Nat) (a : ℚ × ℚ) (s : Bool) : Prop where
  ord : Ordered g
  ne : g ≠ []
  clamp : ∀ c, g[0]? = some c → c.mid ≤ a.2
  width : w = g.length ∨ (w = 1 ∧ s = false ∧ ∀ c ∈ g, a.1 ≤ c.mid ∧ c.mid ≤ a.2)

theorem AxOk.inSpan {g : List Cell} {w : Nat} {a : ℚ × ℚ} {s : Bool} (h : AxOk g w a s) {i : Nat} {c : Cell} (hc : g[i]? = some c) :
    (if w = 1 then 0 else i) < w ∧
    (((span (some a) w g).1 ≤ (if w = 1 then 0 else i) ∧ (if w = 1 then 0 else i) < (span (some a) w g).1 + count (span (some a) w g)) ↔ a.1 ≤ c.mid ∧ c.mid ≤ a.2) ∧
    (span (some a) w g).1 + count (span (some a) w g) ≤ w := by
  have hlen := List.length_pos_iff.2 h.ne
  have hi := (List.getElem?_eq_some_iff.1 hc).1
  have hspan : (span (some a) w g) = (first a.1 (min w g.length) g, last a.2 g (min (w - 1) (g.length - 1))) := rfl
  have hf := first_le a.1 (min w g.length) g
  have hl := last_le a.2 g (min (w - 1) (g.length - 1))
  rw [hspan]
  unfold count
  dsimp only
  have hw1 : 1 ≤ w := by rcases h.width with h | h <;> omega
  rcases Nat.eq_or_lt_of_le hw1 with hw | hw
  · subst hw
    simp only [if_true]
    obtain ⟨c0, hc0⟩ : ∃ c0, g[0]? = some c0 := ⟨_, List.getElem?_eq_getElem hlen⟩
    have e : min (1 - 1) (g.length - 1) = 0 := by omega
    have hlast : last a.2 g (min (1 - 1) (g.length - 1)) = 0 := by rw [e]; rfl
    rw [hlast]
    have h1 := first_le_iff h.ord (s := a.1) (m := min 1 g.length) hc0 (by omega)
    refine ⟨by omega, ?_, by omega⟩
    rcases h.width with hl | ⟨_, _, hall⟩
    · have : i = 0 := by omega
      subst this
      rw [hc] at hc0; cases hc0
      have hcl := h.clamp c hc
      constructor
      · intro hh; exact ⟨h1.1 hh.1, hcl⟩
      · intro hh; have := h1.2 hh.1; omega
    · have := hall c (List.mem_of_getElem? hc)
      have h0 := hall c0 (List.mem_of_getElem? hc0)
      constructor
      · intro _; exact this
      · intro _; have := h1.2 h0.1; omega
  · have hwl : w = g.length := by
      rcases h.width with hl | hl
      · exact hl
      · omega
    subst hwl
    rw [if_neg (by omega)]
    have h1 := first_le_iff h.ord (s := a.1) (m := min g.length g.length) hc (by omega)
    have h2 := le_last_iff h.ord h.clamp (min (g.length - 1) (g.length - 1)) i c (by omega) (by omega) hc
    refine ⟨by omega, ?_, by omega⟩
    constructor
    · rintro ⟨h3, h4⟩; exact ⟨h1.1 h3, h2.1 (by omega)⟩
    · rintro ⟨h3, h4⟩
      have := h1.2 h3; have := h2.2 h4; omega

theorem clip_some (a : ℚ × ℚ) (g : List Cell) : clip (some a) g =
    if (g.headD ⟨0, 0, 0⟩).lo < a.1 ∨ a.2 < (g.getLastD ⟨0, 0, 0⟩).hi then
      if last a.2 g (g.length - 1) < first a.1 g.length g then none
      else some ((g.drop (first a.1 g.length g)).take (last a.2 g (g.length - 1) - first a.1 g.length g + 1))
    else some g := rfl

theorem AxOk.inClip {g : List Cell} {w : Nat} {a : ℚ × ℚ} (h : AxOk g w a true) {i : Nat} {c : Cell} (hc : g[i]? = some c) :
    (clip (some a) g = none → ¬ (a.1 ≤ c.mid ∧ c.mid ≤ a.2)) ∧
    (∀ px, clip (some a) g = some px → a.1 ≤ c.mid ∧ c.mid ≤ a.2 →
      (span (some a) w g).1 ≤ i ∧ px[min (0 + ((if w = 1 then 0 else i) - (span (some a) w g).1)) (px.length - 1)]? = some c) := by
  have hlen := List.length_pos_iff.2 h.ne
  have hi := (List.getElem?_eq_some_iff.1 hc).1
  have hwl : w = g.length := by
    rcases h.width with hl | hl
    · exact hl
    · exact absurd hl.2.1 (by simp)
  subst hwl
  have hii : (if g.length = 1 then 0 else i) = i := by split <;> omega
  rw [hii]
  have h1 := first_le_iff h.ord (s := a.1) (m := g.length) hc hi
  have h2 := le_last_iff h.ord h.clamp (g.length - 1) i c (by omega) (by omega) hc
  have hspan : (Composed.span (some a) g.length g).1 = first a.1 g.length g := by
    show first a.1 (min g.length g.length) g = _
    rw [Nat.min_self]
  rw [hspan]
  rw [clip_some]
  by_cases hin : (g.headD ⟨0, 0, 0⟩).lo < a.1 ∨ a.2 < (g.getLastD ⟨0, 0, 0⟩).hi
  · rw [if_pos hin]
    by_cases hlt : last a.2 g (g.length - 1) < first a.1 g.length g
    · rw [if_pos hlt]
      refine ⟨?_, by intro px hp; cases hp⟩
      rintro - ⟨h3, h4⟩
      have := h1.2 h3; have := h2.2 h4; omega
    · rw [if_neg hlt]
      refine ⟨(by intro hh; cases hh), ?_⟩
      rintro px hp ⟨h3, h4⟩
      cases hp
      have hk := h1.2 h3
      have hj := h2.2 h4
      have hll := last_le a.2 g (g.length - 1)
      refine ⟨hk, ?_⟩
      rw [List.length_take, List.length_drop, List.getElem?_take, if_pos (by omega), List.getElem?_drop]
      rw [← hc]
      congr 1
      omega
  · rw [if_neg hin]
    refine ⟨(by intro hh; cases hh), ?_⟩
    rintro px hp ⟨h3, h4⟩
    cases hp
    have h0 : first a.1 g.length g = 0 := by
      obtain ⟨c0, hc0⟩ : ∃ c0, g[0]? = some c0 := ⟨_, List.getElem?_eq_getElem hlen⟩
      have hlo : g.headD ⟨0, 0, 0⟩ = c0 := by
        cases g with
        | nil => simp at hlen
        | cons b g => simp at hc0 ⊢; exact hc0
      rw [hlo] at hin
      have hm := (h.ord.1 c0 (List.mem_of_getElem? hc0)).1
      have : a.1 ≤ c0.mid := by
        have := not_or.1 hin
        have := not_lt.1 this.1
        linarith
      have := (first_le_iff h.ord (s := a.1) (m := g.length) hc0 hlen).2 this
      omega
    rw [h0]
    refine ⟨Nat.zero_le _, ?_⟩
    rw [← hc]
    congr 1
    omega

/-! ## One funklet -/

theorem evalOne_length (gx gy : List Cell) (wx wy : Nat) (vals : List ℚ) (f : Fk) : (evalOne gx gy wx wy vals f).length = vals.length := by
  unfold evalOne
  dsimp only
  split
  · rw [fill_length]
  · split
    · rw [fill_length]
    · rfl

theorem evalOne_get {gx gy : List Cell} {wx wy : Nat} {f : Fk} {ax ay : ℚ × ℚ} (hs : Sound f) (hax : f.dom.x = some ax) (hay : f.dom.y = some ay)
    (hx : AxOk gx wx ax f.sx) (hy : AxOk gy wy ay f.sy) {p q : Nat} {a b : Cell} (ha : gx[p]? = some a) (hb : gy[q]? = some b) (vals : List ℚ)
    (hl : vals.length = wx * wy) :
    (evalOne gx gy wx wy vals f)[(if wx = 1 then 0 else p) * wy + (if wy = 1 then 0 else q)]? =
      if (ax.1 ≤ a.mid ∧ a.mid ≤ ax.2) ∧ ay.1 ≤ b.mid ∧ b.mid ≤ ay.2 then some (f.v a.mid b.mid)
      else vals[(if wx = 1 then 0 else p) * wy + (if wy = 1 then 0 else q)]? := by
  obtain ⟨hx1, hx2, hx3⟩ := hx.inSpan ha
  obtain ⟨hy1, hy2, hy3⟩ := hy.inSpan hb
  rcases f with ⟨⟨dx, dy⟩, sx, sy, n, c0, v⟩
  dsimp only at hax hay
  subst hax hay
  dsimp only at hx hy
  generalize hp' : (if wx = 1 then 0 else p) = p' at hx1 hx2
  generalize hq' : (if wy = 1 then 0 else q) = q' at hy1 hy2
  have hidx : p' * wy + q' < vals.length := by
    rw [hl]
    have := Nat.mul_le_mul_right wy (show p' + 1 ≤ wx from hx1)
    rw [Nat.add_mul] at this; omega
  unfold evalOne
  dsimp only
  by_cases hconst : (!sx && !sy) = true
  · rw [if_pos hconst]
    simp only [Bool.and_eq_true, Bool.not_eq_true'] at hconst
    rw [fill_get _ _ _ _ _ _ hy3 hy1 _ _ _ _ (by omega) hidx]
    by_cases hc : (ax.1 ≤ a.mid ∧ a.mid ≤ ax.2) ∧ ay.1 ≤ b.mid ∧ b.mid ≤ ay.2
    · rw [if_pos hc, if_pos ⟨hx2.2 hc.1, hy2.2 hc.2⟩]
      exact congrArg some (hs.2.2 hconst.1 hconst.2 a.mid b.mid).symm
    · rw [if_neg hc, if_neg (fun hh => hc ⟨hx2.1 hh.1, hy2.1 hh.2⟩)]
  · rw [if_neg hconst]
    cases hcx : (if sx = true then clip (some ax) gx else some []) with
    | none =>
      dsimp only
      rw [if_neg]
      rintro ⟨hh, _⟩
      cases hsx : sx
      · rw [hsx] at hcx; cases hcx
      · rw [hsx] at hcx hx
        exact (hx.inClip ha).1 hcx hh
    | some px =>
      cases hcy : (if sy = true then clip (some ay) gy else some []) with
      | none =>
        dsimp only
        rw [if_neg]
        rintro ⟨_, hh⟩
        cases hsy : sy
        · rw [hsy] at hcy; cases hcy
        · rw [hsy] at hcy hy
          exact (hy.inClip hb).1 hcy hh
      | some py =>
        dsimp only
        rw [fill_get _ _ _ _ _ _ hy3 hy1 _ _ _ _ (by omega) hidx]
        by_cases hc : (ax.1 ≤ a.mid ∧ a.mid ≤ ax.2) ∧ ay.1 ≤ b.mid ∧ b.mid ≤ ay.2
        · rw [if_pos hc, if_pos ⟨hx2.2 hc.1, hy2.2 hc.2⟩]
          congr 1
          have ex : ∀ z, v (px.getD (min (0 + (p' - (span (some ax) wx gx).1)) ((if sx = true then px.length else 1) - 1)) ⟨0, 0, 0⟩).mid z = v a.mid z := by
            intro z
            cases hsx : sx
            · exact hs.1 hsx _ _ _
            · rw [hsx] at hcx hx
              have := ((hx.inClip ha).2 px hcx hc.1).2
              rw [hp'] at this
              simp only [if_true]
              rw [List.getD_eq_getElem?_getD, this]
              rfl
          have ey : ∀ z, v z (py.getD (min (q' - (span (some ay) wy gy).1) ((if sy = true then py.length else 1) - 1)) ⟨0, 0, 0⟩).mid = v z b.mid := by
            intro z
            cases hsy : sy
            · exact hs.2.1 hsy _ _ _
            · rw [hsy] at hcy hy
              have := ((hy.inClip hb).2 py hcy hc.2).2
              rw [hq', Nat.zero_add] at this
              simp only [if_true]
              rw [List.getD_eq_getElem?_getD, this]
              rfl
          rw [ex, ey]
        · rw [if_neg hc, if_neg (fun hh => hc ⟨hx2.1 hh.1, hy2.1 hh.2⟩)]

/-! ## All funklets -/

/-- What is asked of a funklet, for the size of a result. -/
def Good (gx gy : List Cell) (wx wy : Nat) (f : Fk) : Prop :=
  Sound f ∧ ∃ ax ay, f.dom.x = some ax ∧ f.dom.y = some ay ∧ AxOk gx wx ax f.sx ∧ AxOk gy wy ay f.sy

theorem fold_length (gx gy : List Cell) (wx wy : Nat) : ∀ (fs : List Fk) (vals : List ℚ), (fs.foldl (evalOne gx gy wx wy) vals).length = vals.length
  | [], _ => rfl
  | f :: fs, vals => by rw [List.foldl_cons, fold_length gx gy wx wy fs, evalOne_length]

theorem covers_iff {gx gy : List Cell} {p q : Nat} {a b : Cell} (ha : gx[p]? = some a) (hb : gy[q]? = some b) {f : Fk} {ax ay : ℚ × ℚ}
    (hx : f.dom.x = some ax) (hy : f.dom.y = some ay) : Covers gx gy p q f ↔ (ax.1 ≤ a.mid ∧ a.mid ≤ ax.2) ∧ ay.1 ≤ b.mid ∧ b.mid ≤ ay.2 := by
  constructor
  · rintro ⟨a', b', ha', hb', h1, h2⟩
    rw [ha] at ha'; rw [hb] at hb'; cases ha'; cases hb'
    rw [hx] at h1; rw [hy] at h2
    exact ⟨h1, h2⟩
  · rintro ⟨h1, h2⟩
    exact ⟨a, b, ha, hb, by rw [hx]; exact h1, by rw [hy]; exact h2⟩

theorem fold_get {gx gy : List Cell} {wx wy : Nat} {p q : Nat} {a b : Cell} (ha : gx[p]? = some a) (hb : gy[q]? = some b) :
    ∀ (fs : List Fk), (∀ f ∈ fs, Good gx gy wx wy f) → ∀ vals : List ℚ, vals.length = wx * wy →
    (∃ f ∈ fs, ∃ y, Covers gx gy p q f ∧ Value gx gy p q f y ∧
      (fs.foldl (evalOne gx gy wx wy) vals)[(if wx = 1 then 0 else p) * wy + (if wy = 1 then 0 else q)]? = some y) ∨
    ((∀ f ∈ fs, ¬ Covers gx gy p q f) ∧ (fs.foldl (evalOne gx gy wx wy) vals)[(if wx = 1 then 0 else p) * wy + (if wy = 1 then 0 else q)]? =
      vals[(if wx = 1 then 0 else p) * wy + (if wy = 1 then 0 else q)]?)
  | [], _, vals, _ => Or.inr ⟨(by intro f hf; cases hf), rfl⟩
  | f :: fs, hg, vals, hl => by
    rw [List.foldl_cons]
    rcases fold_get ha hb fs (fun g hg' => hg g (List.mem_cons_of_mem _ hg')) (evalOne gx gy wx wy vals f) (by rw [evalOne_length]; exact hl) with h | ⟨h1, h2⟩
    · obtain ⟨g, hg', y, h⟩ := h
      exact Or.inl ⟨g, List.mem_cons_of_mem _ hg', y, h⟩
    · obtain ⟨hs, ax, ay, hax, hay, hx, hy⟩ := hg f List.mem_cons_self
      rw [evalOne_get hs hax hay hx hy ha hb vals hl] at h2
      by_cases hc : Covers gx gy p q f
      · rw [if_pos ((covers_iff ha hb hax hay).1 hc)] at h2
        exact Or.inl ⟨f, List.mem_cons_self, _, hc, ⟨a, b, ha, hb, rfl⟩, h2⟩
      · rw [if_neg (fun h => hc ((covers_iff ha hb hax hay).2 h))] at h2
        refine Or.inr ⟨?_, h2⟩
        intro g hg'
        rcases List.mem_cons.1 hg' with rfl | hg'
        · exact hc
        · exact h1 g hg'

/-! ## Whether an axis has a shape -/

theorem hasShape_some {r : ℚ × ℚ} : ∀ {l : List (Option (ℚ × ℚ) × Bool)}, (∀ f ∈ l, ∃ a, f.1 = some a) → hasShape (some r) l = false →
    ∀ f ∈ l, f.2 = false ∧ f.1 = some r
  | [], _, _ => by intro f hf; cases hf
  | f :: l, hd, h => by
    rw [hasShape] at h
    simp only [Bool.or_eq_false_iff, Option.isSome_some, Bool.true_and, decide_eq_false_iff_not, not_not] at h
    obtain ⟨⟨h1, h2⟩, h3⟩ := h
    obtain ⟨a, ha⟩ := hd f List.mem_cons_self
    rw [ha] at h2 h3
    have hra : r = a := h2
    subst hra
    have he : expand (some r) (some r) = some r := by simp [expand]
    rw [he] at h3
    intro g hg
    rcases List.mem_cons.1 hg with rfl | hg
    · exact ⟨h1, ha⟩
    · exact hasShape_some (fun f hf => hd f (List.mem_cons_of_mem _ hf)) h3 g hg

theorem hasShape_none {l : List (Option (ℚ × ℚ) × Bool)} (hd : ∀ f ∈ l, ∃ a, f.1 = some a) (h : hasShape none l = false) :
    (∀ f ∈ l, f.2 = false) ∧ ∀ f ∈ l, ∀ g ∈ l, f.1 = g.1 := by
  cases l with
  | nil => exact ⟨(by intro f hf; cases hf), (by intro f hf; cases hf)⟩
  | cons f l =>
    rw [hasShape] at h
    simp only [Bool.or_eq_false_iff] at h
    obtain ⟨⟨h1, _⟩, h3⟩ := h
    obtain ⟨a, ha⟩ := hd f List.mem_cons_self
    rw [ha] at h3
    have h3 : hasShape (some a) l = false := h3
    have h4 := hasShape_some (fun f hf => hd f (List.mem_cons_of_mem _ hf)) h3
    have h5 : ∀ g ∈ f :: l, g.2 = false ∧ g.1 = some a := by
      intro g hg
      rcases List.mem_cons.1 hg with rfl | hg
      · exact ⟨h1, ha⟩
      · exact h4 g hg
    exact ⟨fun g hg => (h5 g hg).1, fun g hg k hk => by rw [(h5 g hg).2, (h5 k hk).2]⟩

theorem whole_of_shape {g : List Cell} {l : List (Option (ℚ × ℚ) × Bool)} (hd : ∀ f ∈ l, ∃ a, f.1 = some a) (hsp : Spread g l)
    (h : hasShape none l = false) : ∀ f ∈ l, f.2 = false ∧ Whole f.1 g := by
  obtain ⟨h1, h2⟩ := hasShape_none hd h
  exact fun f hf => ⟨h1 f hf, hsp h1 h2 f hf⟩

theorem axOk_of {g : List Cell} {l : List (Option (ℚ × ℚ) × Bool)} (ho : Ordered g) (hne : g ≠ []) (hd : ∀ f ∈ l, ∃ a, f.1 = some a) (hsp : Spread g l)
    {f : Option (ℚ × ℚ) × Bool} (hf : f ∈ l) {a : ℚ × ℚ} (ha : f.1 = some a) (hcl : ∀ c, g[0]? = some c → c.mid ≤ a.2) :
    AxOk g (size (hasShape none l) g) a f.2 := by
  refine ⟨ho, hne, hcl, ?_⟩
  cases hh : hasShape none l
  · obtain ⟨h1, b, hb, h2⟩ := whole_of_shape hd hsp hh f hf
    rw [ha] at hb; cases hb
    exact Or.inr ⟨rfl, h1, h2⟩
  · exact Or.inl rfl

theorem perm_insert (f : Fk) : ∀ l : List Fk, (insert f l).Perm (f :: l)
  | [] => List.Perm.refl _
  | g :: l => by
    rw [insert]
    split
    · exact ((perm_insert f l).cons g).trans (List.Perm.swap _ _ _)
    · exact List.Perm.refl _

theorem perm_sort : ∀ l : List Fk, (sortFunklets l).Perm l
  | [] => List.Perm.refl _
  | f :: l => (perm_insert f (sortFunklets l)).trans ((perm_sort l).cons f)

theorem sort_of_pairwise : ∀ {l : List Fk}, l.Pairwise (fun f g => compareDomain g f = false) → sortFunklets l = l
  | [], _ => rfl
  | [f], _ => rfl
  | f :: g :: l, h => by
    have h' := List.pairwise_cons.1 h
    rw [sortFunklets, sort_of_pairwise h'.2, insert, if_neg (by rw [h'.1 g List.mem_cons_self]; simp)]

theorem spread_perm {g : List Cell} {l m : List (Option (ℚ × ℚ) × Bool)} (h : l.Perm m) (hs : Spread g l) : Spread g m := by
  intro h1 h2 f hf
  exact hs (fun f hf => h1 f (h.mem_iff.1 hf)) (fun f hf k hk => h2 f (h.mem_iff.1 hf) k (h.mem_iff.1 hk)) f (h.mem_iff.2 hf)

theorem getD_size {g : List Cell} {l : List (Option (ℚ × ℚ) × Bool)} (hne : g ≠ []) : 1 ≤ size (hasShape none l) g := by
  have := List.length_pos_iff.2 hne
  unfold size; split <;> omega

theorem compose_value {fs : List Fk} {gx gy : List Cell} (d : ℚ) (hox : Ordered gx) (hoy : Ordered gy) (hs : ∀ f ∈ fs, Sound f) (hr : ∀ f ∈ fs, Reaches gx gy f)
    (hsx : Spread gx (fs.map fun f => (f.dom.x, f.sx))) (hsy : Spread gy (fs.map fun f => (f.dom.y, f.sy))) {p q : Nat} (hp : p < gx.length) (hq : q < gy.length) :
    Composes fs d gx gy p q (valueAt (evaluate (compose fs d) gx gy) p q) := by
  have hnx : gx ≠ [] := by intro h; rw [h] at hp; exact absurd hp (Nat.not_lt_zero _)
  have hny : gy ≠ [] := by intro h; rw [h] at hq; exact absurd hq (Nat.not_lt_zero _)
  have hpm := perm_sort fs
  unfold valueAt evaluate compose
  dsimp only
  have hsx' := spread_perm (hpm.symm.map fun f => (f.dom.x, f.sx)) hsx
  have hsy' := spread_perm (hpm.symm.map fun f => (f.dom.y, f.sy)) hsy
  have hs' : ∀ f ∈ sortFunklets fs, Sound f := fun f hf => hs f (hpm.mem_iff.1 hf)
  have hr' : ∀ f ∈ sortFunklets fs, Reaches gx gy f := fun f hf => hr f (hpm.mem_iff.1 hf)
  have key := fold_get (gx := gx) (gy := gy) (wx := size (hasShape none ((sortFunklets fs).map fun f => (f.dom.x, f.sx))) gx)
    (wy := size (hasShape none ((sortFunklets fs).map fun f => (f.dom.y, f.sy))) gy)
    (List.getElem?_eq_getElem hp) (List.getElem?_eq_getElem hq) (sortFunklets fs) ?_
    (List.replicate (size (hasShape none ((sortFunklets fs).map fun f => (f.dom.x, f.sx))) gx * size (hasShape none ((sortFunklets fs).map fun f => (f.dom.y, f.sy))) gy) d)
    List.length_replicate
  · rcases key with ⟨f, hf, y, h1, h2, h3⟩ | ⟨h1, h2⟩
    · exact Or.inl ⟨f, hpm.mem_iff.1 hf, y, h1, h2, h3⟩
    · refine Or.inr ⟨fun f hf => h1 f (hpm.mem_iff.2 hf), ?_⟩
      rw [h2]
      have w1 := getD_size (l := (sortFunklets fs).map fun f => (f.dom.x, f.sx)) hnx
      have w2 := getD_size (l := (sortFunklets fs).map fun f => (f.dom.y, f.sy)) hny
      have l1 : ∀ (b : Bool) (g : List Cell) (i : Nat), i < g.length → (if size b g = 1 then 0 else i) < size b g := by
        intro b g i hi; unfold size; cases b <;> simp; split <;> omega
      have a1 := l1 (hasShape none ((sortFunklets fs).map fun f => (f.dom.x, f.sx))) gx p hp
      have a2 := l1 (hasShape none ((sortFunklets fs).map fun f => (f.dom.y, f.sy))) gy q hq
      refine List.getElem?_replicate_of_lt ?_
      generalize size (hasShape none ((sortFunklets fs).map fun f => (f.dom.x, f.sx))) gx = wx at *
      generalize size (hasShape none ((sortFunklets fs).map fun f => (f.dom.y, f.sy))) gy = wy at *
      generalize (if wx = 1 then 0 else p) = p' at *
      generalize (if wy = 1 then 0 else q) = q' at *
      have := Nat.mul_le_mul_right wy (show p' + 1 ≤ wx from a1)
      rw [Nat.add_mul] at this; omega
  · intro f hf
    obtain ⟨ax, ay, hax, hay, cx, cy⟩ := hr' f hf
    refine ⟨hs' f hf, ax, ay, hax, hay, ?_, ?_⟩
    · refine axOk_of (f := (f.dom.x, f.sx)) hox hnx ?_ hsx' (List.mem_map_of_mem (f := fun f : Fk => (f.dom.x, f.sx)) hf) hax cx
      intro k hk
      obtain ⟨f', hf', rfl⟩ := List.mem_map.1 hk
      obtain ⟨b, _, hb, _⟩ := hr' f' hf'
      exact ⟨b, hb⟩
    · refine axOk_of (f := (f.dom.y, f.sy)) hoy hny ?_ hsy' (List.mem_map_of_mem (f := fun f : Fk => (f.dom.y, f.sy)) hf) hay cy
      intro k hk
      obtain ⟨f', hf', rfl⟩ := List.mem_map.1 hk
      obtain ⟨_, b, _, hb, _⟩ := hr' f' hf'
      exact ⟨b, hb⟩

theorem evaluate_length (c : CPolc) (gx gy : List Cell) : (evaluate c gx gy).2.2.length = (evaluate c gx gy).1 * (evaluate c gx gy).2.1 := by
  unfold evaluate
  dsimp only
  rw [fold_length, List.length_replicate]

/-! ## Tile domains -/

/-- The range of a tile, as the model writes it. -/
def tr (t : Int) (g : List Cell) (r : Option (ℚ × ℚ)) (i : Nat) : Option (ℚ × ℚ) :=
  if t ≤ 0 then r else some ((g.getD (i * t.toNat) ⟨0, 0, 0⟩).lo, (g.getD (min (g.length - 1) ((i + 1) * t.toNat - 1)) ⟨0, 0, 0⟩).hi)

theorem tileX_eq (t : Int) {g : List Cell} (hne : g ≠ []) (d : Dom) :
    tileX t g [d] = (List.range (tiles t g.length)).map fun i => { d with x := tr t g d.x i } := by
  have hl := List.length_pos_iff.2 hne
  unfold tileX tiles tr
  by_cases ht : t ≤ 0
  · simp [ht]
  · simp only [if_neg ht, if_neg (by omega : ¬ g.length = 0)]
    simp

theorem tileY_eq (t : Int) {g : List Cell} (hne : g ≠ []) (ds : List Dom) :
    tileY t g ds = ds.flatMap fun d => (List.range (tiles t g.length)).map fun i => { d with y := tr t g d.y i } := by
  have hl := List.length_pos_iff.2 hne
  unfold tileY tiles tr
  by_cases ht : t ≤ 0
  · simp [ht]
  · simp only [if_neg ht, if_neg (by omega : ¬ g.length = 0)]

theorem tiled_eq (tx ty : Int) {gx gy : List Cell} (hx : gx ≠ []) (hy : gy ≠ []) (d : Dom) :
    tiledDomains tx ty gx gy d = (List.range (tiles tx gx.length)).flatMap fun i => (List.range (tiles ty gy.length)).map fun j =>
      ⟨tr tx gx d.x i, tr ty gy d.y j⟩ := by
  unfold tiledDomains
  rw [tileX_eq tx hx, tileY_eq ty hy, List.flatMap_map]

theorem grid_length {α : Type} (h : Nat → Nat → α) (n m : Nat) : ((List.range n).flatMap fun i => (List.range m).map fun j => h i j).length = n * m := by
  simp [List.length_flatMap, List.map_const', List.sum_replicate_nat]

theorem grid_get {α : Type} (m : Nat) : ∀ (n : Nat) (h : Nat → Nat → α) (i j : Nat), i < n → j < m →
    ((List.range n).flatMap fun i => (List.range m).map fun j => h i j)[i * m + j]? = some (h i j)
  | 0, _, i, _, hi, _ => absurd hi (Nat.not_lt_zero _)
  | n + 1, h, i, j, hi, hj => by
    rw [List.range_succ, List.flatMap_append]
    rcases Nat.lt_or_ge i n with hin | hin
    · have := Nat.mul_le_mul_right m (show i + 1 ≤ n from hin)
      rw [Nat.add_mul] at this
      rw [List.getElem?_append_left (by rw [grid_length]; omega)]
      exact grid_get m n h i j hin hj
    · have : i = n := by omega
      subst this
      rw [List.getElem?_append_right (by rw [grid_length]; omega), grid_length]
      simp [hj]

theorem tileOf_lt {t : Int} {p n : Nat} (hp : p < n) : tileOf t p < tiles t n := by
  unfold tileOf tiles
  split
  · omega
  · next h =>
    have ht : 0 < t.toNat := by omega
    rw [Nat.lt_iff_add_one_le, Nat.le_div_iff_mul_le ht, Nat.add_mul]
    have := Nat.div_mul_le_self p t.toNat
    omega

theorem tile_first_lt {t : Int} (ht : ¬ t ≤ 0) {n i : Nat} (hi : i < tiles t n) : i * t.toNat < n := by
  unfold tiles at hi
  rw [if_neg ht] at hi
  have ht' : 0 < t.toNat := by omega
  rw [Nat.lt_iff_add_one_le, Nat.le_div_iff_mul_le ht', Nat.add_mul] at hi
  omega

theorem tr_range {t : Int} {g : List Cell} {r : Option (ℚ × ℚ)} {i : Nat} (hi : i < tiles t g.length) : TileRange t g r i (tr t g r i) := by
  unfold TileRange tr
  by_cases ht : t ≤ 0
  · rw [if_pos ht, if_pos ht]
  · rw [if_neg ht, if_neg ht]
    have h1 := tile_first_lt ht hi
    refine ⟨g[i * t.toNat], g[min (g.length - 1) ((i + 1) * t.toNat - 1)]'(by omega), List.getElem?_eq_getElem _, List.getElem?_eq_getElem _, ?_⟩
    rw [List.getD_eq_getElem?_getD, List.getD_eq_getElem?_getD, List.getElem?_eq_getElem h1, List.getElem?_eq_getElem (by omega)]
    rfl

theorem ordered_getElem {g : List Cell} (h : Ordered g) {i j : Nat} {a b : Cell} (hij : i < j) (ha : g[i]? = some a) (hb : g[j]? = some b) : a.hi ≤ b.lo := by
  obtain ⟨hi, ha'⟩ := List.getElem?_eq_some_iff.1 ha
  obtain ⟨hj, hb'⟩ := List.getElem?_eq_some_iff.1 hb
  have h1 := List.pairwise_iff_getElem.1 h.2 i j hi hj hij
  rw [ha', hb'] at h1
  exact h1

/-- A tile has the centres of its cells and no others. -/
theorem tile_has {t : Int} {g : List Cell} (ho : Ordered g) {r : Option (ℚ × ℚ)} (hw : Whole r g) {i p : Nat} {c : Cell} (hi : i < tiles t g.length)
    (hc : g[p]? = some c) : Has (tr t g r i) c.mid ↔ i = tileOf t p := by
  have hp := (List.getElem?_eq_some_iff.1 hc).1
  have h := tr_range (r := r) hi
  generalize tr t g r i = s at h
  unfold TileRange at h
  unfold tileOf
  by_cases ht : t ≤ 0
  · rw [if_pos ht] at h ⊢
    subst h
    have : i = 0 := by unfold tiles at hi; rw [if_pos ht] at hi; omega
    obtain ⟨a, rfl, h2⟩ := hw
    exact ⟨fun _ => this, fun _ => h2 c (List.mem_of_getElem? hc)⟩
  · rw [if_neg ht] at h ⊢
    obtain ⟨a, b, ha, hb, rfl⟩ := h
    have ht' : 0 < t.toNat := by omega
    have hcc := ho.1 c (List.mem_of_getElem? hc)
    have haa := ho.1 a (List.mem_of_getElem? ha)
    have hbb := ho.1 b (List.mem_of_getElem? hb)
    have hmul : (i + 1) * t.toNat = i * t.toNat + t.toNat := by rw [Nat.add_mul, Nat.one_mul]
    rw [eq_comm, Nat.div_eq_iff ht']
    constructor
    · rintro ⟨h1, h2⟩
      dsimp only at h1 h2
      constructor
      · rcases Nat.lt_or_ge p (i * t.toNat) with hlt | hge
        · have := ordered_getElem ho hlt hc ha
          linarith
        · omega
      · rcases Nat.lt_or_ge (min (g.length - 1) ((i + 1) * t.toNat - 1)) p with hlt | hge
        · have := ordered_getElem ho hlt hb hc
          linarith
        · omega
    · rintro ⟨h1, h2⟩
      constructor
      · show a.lo ≤ c.mid
        have := ordered_le ho (show i * t.toNat ≤ p by omega) ha hc
        linarith
      · show c.mid ≤ b.hi
        have := ordered_le ho (show p ≤ min (g.length - 1) ((i + 1) * t.toNat - 1) by omega) hc hb
        linarith

theorem tile_some {t : Int} {g : List Cell} (ho : Ordered g) {r : Option (ℚ × ℚ)} (hw : Whole r g) {i : Nat} (hi : i < tiles t g.length) :
    ∃ a, tr t g r i = some a ∧ ∀ c, g[0]? = some c → c.mid ≤ a.2 := by
  have h := tr_range (r := r) hi
  generalize tr t g r i = s at h
  unfold TileRange at h
  split at h
  · subst h
    obtain ⟨a, rfl, h2⟩ := hw
    exact ⟨a, rfl, fun c hc => (h2 c (List.mem_of_getElem? hc)).2⟩
  · obtain ⟨a, b, ha, hb, rfl⟩ := h
    refine ⟨_, rfl, fun c hc => ?_⟩
    have := ordered_le ho (Nat.zero_le _) hc hb
    have := (ho.1 b (List.mem_of_getElem? hb)).2
    show c.mid ≤ b.hi
    linarith

theorem tile_lt {t : Int} {g : List Cell} (ho : Ordered g) (hwide : ∀ c ∈ g, 1 / 10 ^ 16 < c.hi - c.lo) {r : Option (ℚ × ℚ)} {i j : Nat} (hij : i < j)
    (hj : j < tiles t g.length) : ∃ a b, tr t g r i = some a ∧ tr t g r j = some b ∧ eps < b.1 - a.1 := by
  have hi := tr_range (r := r) (show i < tiles t g.length by omega)
  have hj' := tr_range (r := r) hj
  generalize tr t g r i = s at hi
  generalize tr t g r j = u at hj'
  unfold TileRange at hi hj'
  by_cases ht : t ≤ 0
  · unfold tiles at hj; rw [if_pos ht] at hj; omega
  · rw [if_neg ht] at hi hj'
    obtain ⟨a, b, ha, hb, rfl⟩ := hi
    obtain ⟨a', b', ha', hb', rfl⟩ := hj'
    refine ⟨_, _, rfl, rfl, ?_⟩
    have h1 : i * t.toNat < j * t.toNat := Nat.mul_lt_mul_of_pos_right hij (by omega)
    have h2 := ordered_getElem ho h1 ha ha'
    have h3 := hwide a (List.mem_of_getElem? ha)
    show (1 : ℚ) / 10 ^ 16 < a'.lo - a.lo
    linarith

/-! ## Order of the tiles -/

theorem tile_get (tx ty : Int) {gx gy : List Cell} (hx : gx ≠ []) (hy : gy ≠ []) (d : Dom) {i j : Nat} (hi : i < tiles tx gx.length) (hj : j < tiles ty gy.length) :
    (tiledDomains tx ty gx gy d)[i * tiles ty gy.length + j]? = some ⟨tr tx gx d.x i, tr ty gy d.y j⟩ := by
  rw [tiled_eq tx ty hx hy]
  exact grid_get (tiles ty gy.length) (tiles tx gx.length) (fun i j => (⟨tr tx gx d.x i, tr ty gy d.y j⟩ : Dom)) i j hi hj

theorem tile_length (tx ty : Int) {gx gy : List Cell} (hx : gx ≠ []) (hy : gy ≠ []) (d : Dom) :
    (tiledDomains tx ty gx gy d).length = tiles tx gx.length * tiles ty gy.length := by
  rw [tiled_eq tx ty hx hy, grid_length]

theorem index_split {n m k : Nat} (hk : k < n * m) : k / m < n ∧ k % m < m ∧ k = k / m * m + k % m := by
  have hm : 0 < m := by
    rcases Nat.eq_zero_or_pos m with h | h
    · subst h; simp at hk
    · exact h
  refine ⟨?_, Nat.mod_lt _ hm, ?_⟩
  · rw [Nat.div_lt_iff_lt_mul hm]; exact hk
  · have := Nat.div_add_mod k m
    rw [Nat.mul_comm] at this
    exact this.symm

theorem cmpStart_gt {a b : ℚ × ℚ} (h : eps < b.1 - a.1) : cmpStart (some b) (some a) = some false := by
  have he : (0 : ℚ) < eps := by unfold eps; norm_num
  have hab : eps < |b.1 - a.1| := lt_of_lt_of_le h (le_abs_self _)
  simp only [cmpStart, if_pos hab]
  congr 1
  simp only [decide_eq_false_iff_not, not_lt]
  linarith

theorem cmpStart_self (a : Option (ℚ × ℚ)) : cmpStart a a = none := by
  have he : (0 : ℚ) < eps := by unfold eps; norm_num
  cases a with
  | none => rfl
  | some a => simp [cmpStart, he.le]

theorem tiles_sorted {tx ty : Int} {gx gy : List Cell} (hnx : gx ≠ []) (hny : gy ≠ []) (hox : Ordered gx) (hoy : Ordered gy)
    (hwx : ∀ c ∈ gx, 1 / 10 ^ 16 < c.hi - c.lo) (hwy : ∀ c ∈ gy, 1 / 10 ^ 16 < c.hi - c.lo) {d : Dom} {fs : List Fk}
    (hd : fs.map (·.dom) = tiledDomains tx ty gx gy d) : sortFunklets fs = fs := by
  refine sort_of_pairwise ?_
  rw [List.pairwise_iff_getElem]
  intro k l hk hl hkl
  have hlen : fs.length = tiles tx gx.length * tiles ty gy.length := by
    rw [← tile_length tx ty hnx hny d, ← hd, List.length_map]
  obtain ⟨k1, k2, k3⟩ := index_split (hlen ▸ hk)
  obtain ⟨l1, l2, l3⟩ := index_split (hlen ▸ hl)
  generalize k / tiles ty gy.length = i at k1 k3
  generalize k % tiles ty gy.length = j at k2 k3
  generalize l / tiles ty gy.length = i' at l1 l3
  generalize l % tiles ty gy.length = j' at l2 l3
  have gk : fs[k].dom = ⟨tr tx gx d.x i, tr ty gy d.y j⟩ := by
    have := tile_get tx ty hnx hny d k1 k2
    rw [← k3, ← hd, List.getElem?_map, List.getElem?_eq_getElem hk] at this
    simpa using this
  have gl : fs[l].dom = ⟨tr tx gx d.x i', tr ty gy d.y j'⟩ := by
    have := tile_get tx ty hnx hny d l1 l2
    rw [← l3, ← hd, List.getElem?_map, List.getElem?_eq_getElem hl] at this
    simpa using this
  unfold compareDomain
  rw [gk, gl]
  dsimp only
  have hii : i < i' ∨ (i = i' ∧ j < j') := by
    rcases Nat.lt_trichotomy i i' with h | h | h
    · exact Or.inl h
    · subst h; exact Or.inr ⟨rfl, by omega⟩
    · have := Nat.mul_le_mul_right (tiles ty gy.length) (show i' + 1 ≤ i from h)
      rw [Nat.add_mul] at this; omega
  rcases hii with h | ⟨rfl, h⟩
  · obtain ⟨a, b, ha, hb, hab⟩ := tile_lt (r := d.x) hox hwx h l1
    rw [ha, hb, cmpStart_gt hab]
  · obtain ⟨a, b, ha, hb, hab⟩ := tile_lt (r := d.y) hoy hwy h l2
    rw [cmpStart_self, ha, hb, cmpStart_gt hab]

/-- Funklets over tiles meet the conditions of `compose_value`. -/
theorem tiles_reach {tx ty : Int} {gx gy : List Cell} (hnx : gx ≠ []) (hny : gy ≠ []) (hox : Ordered gx) (hoy : Ordered gy) {d : Dom}
    (hx : Whole d.x gx) (hy : Whole d.y gy) {fs : List Fk} (hd : fs.map (·.dom) = tiledDomains tx ty gx gy d) :
    (∀ f ∈ fs, Reaches gx gy f) ∧ Spread gx (fs.map fun f => (f.dom.x, f.sx)) ∧ Spread gy (fs.map fun f => (f.dom.y, f.sy)) := by
  have hpx := List.length_pos_iff.2 hnx
  have hpy := List.length_pos_iff.2 hny
  have hmem : ∀ f ∈ fs, ∃ i j, i < tiles tx gx.length ∧ j < tiles ty gy.length ∧ f.dom = ⟨tr tx gx d.x i, tr ty gy d.y j⟩ := by
    intro f hf
    have : f.dom ∈ tiledDomains tx ty gx gy d := by rw [← hd]; exact List.mem_map_of_mem hf
    rw [tiled_eq tx ty hnx hny] at this
    simp only [List.mem_flatMap, List.mem_map, List.mem_range] at this
    obtain ⟨i, hi, j, hj, h⟩ := this
    exact ⟨i, j, hi, hj, h.symm⟩
  have hget : ∀ i j, i < tiles tx gx.length → j < tiles ty gy.length → ∃ f ∈ fs, f.dom = ⟨tr tx gx d.x i, tr ty gy d.y j⟩ := by
    intro i j hi hj
    have := List.mem_of_getElem? (tile_get tx ty hnx hny d hi hj)
    rw [← hd] at this
    obtain ⟨f, hf, h⟩ := List.mem_map.1 this
    exact ⟨f, hf, h⟩
  refine ⟨?_, ?_, ?_⟩
  · intro f hf
    obtain ⟨i, j, hi, hj, h⟩ := hmem f hf
    obtain ⟨ax, hax, h1⟩ := tile_some hox hx hi
    obtain ⟨ay, hay, h2⟩ := tile_some hoy hy hj
    exact ⟨ax, ay, by rw [h]; exact hax, by rw [h]; exact hay, h1, h2⟩
  · intro _ hsame f hf
    obtain ⟨f, hf', rfl⟩ := List.mem_map.1 hf
    obtain ⟨i, j, hi, hj, h⟩ := hmem f hf'
    obtain ⟨ax, hax, h1⟩ := tile_some hox hx hi
    refine ⟨ax, (by show f.dom.x = some ax; rw [h]; exact hax), ?_⟩
    intro c hc
    obtain ⟨p, hp, rfl⟩ := List.mem_iff_getElem.1 hc
    obtain ⟨k, hk, hkd⟩ := hget (tileOf tx p) (tileOf ty 0) (tileOf_lt hp) (tileOf_lt hpy)
    have e : f.dom.x = k.dom.x := hsame _ hf (k.dom.x, k.sx) (List.mem_map_of_mem (f := fun f : Fk => (f.dom.x, f.sx)) hk)
    rw [h, hkd] at e
    have e : tr tx gx d.x i = tr tx gx d.x (tileOf tx p) := e
    have hh := (tile_has (t := tx) hox hx (tileOf_lt hp) (List.getElem?_eq_getElem hp)).2 rfl
    rw [← e, hax] at hh
    exact hh
  · intro _ hsame f hf
    obtain ⟨f, hf', rfl⟩ := List.mem_map.1 hf
    obtain ⟨i, j, hi, hj, h⟩ := hmem f hf'
    obtain ⟨ay, hay, h1⟩ := tile_some hoy hy hj
    refine ⟨ay, (by show f.dom.y = some ay; rw [h]; exact hay), ?_⟩
    intro c hc
    obtain ⟨q, hq, rfl⟩ := List.mem_iff_getElem.1 hc
    obtain ⟨k, hk, hkd⟩ := hget (tileOf tx 0) (tileOf ty q) (tileOf_lt hpx) (tileOf_lt hq)
    have e : f.dom.y = k.dom.y := hsame _ hf (k.dom.y, k.sy) (List.mem_map_of_mem (f := fun f : Fk => (f.dom.y, f.sy)) hk)
    rw [h, hkd] at e
    have e : tr ty gy d.y j = tr ty gy d.y (tileOf ty q) := e
    have hh := (tile_has (t := ty) hoy hy (tileOf_lt hq) (List.getElem?_eq_getElem hq)).2 rfl
    rw [← e, hay] at hh
    exact hh

theorem tiled_value {tx ty : Int} {gx gy : List Cell} (hox : Ordered gx) (hoy : Ordered gy) {d : Dom} (hx : Whole d.x gx) (hy : Whole d.y gy) {fs : List Fk}
    (hs : ∀ f ∈ fs, Sound f) (hd : fs.map (·.dom) = tiledDomains tx ty gx gy d) (default : ℚ) {p q : Nat} (hp : p < gx.length) (hq : q < gy.length) :
    ∃ f z, fs[tileOf tx p * tiles ty gy.length + tileOf ty q]? = some f ∧ Value gx gy p q f z ∧ valueAt (evaluate (compose fs default) gx gy) p q = some z := by
  have hnx : gx ≠ [] := by intro h; rw [h] at hp; exact absurd hp (Nat.not_lt_zero _)
  have hny : gy ≠ [] := by intro h; rw [h] at hq; exact absurd hq (Nat.not_lt_zero _)
  obtain ⟨hr, hsx, hsy⟩ := tiles_reach hnx hny hox hoy hx hy hd
  have ha := List.getElem?_eq_getElem hp
  have hb := List.getElem?_eq_getElem hq
  have hk := tile_get tx ty hnx hny d (tileOf_lt (t := tx) hp) (tileOf_lt (t := ty) hq)
  have hlen : fs.length = tiles tx gx.length * tiles ty gy.length := by
    rw [← tile_length tx ty hnx hny d, ← hd, List.length_map]
  rcases compose_value default hox hoy hs hr hsx hsy hp hq with ⟨f, hf, z, h1, h2, h3⟩ | ⟨h1, _⟩
  · obtain ⟨k, hk', rfl⟩ := List.mem_iff_getElem.1 hf
    obtain ⟨k1, k2, k3⟩ := index_split (hlen ▸ hk')
    have gk : fs[k].dom = ⟨tr tx gx d.x (k / tiles ty gy.length), tr ty gy d.y (k % tiles ty gy.length)⟩ := by
      have := tile_get tx ty hnx hny d k1 k2
      rw [← k3, ← hd, List.getElem?_map, List.getElem?_eq_getElem hk'] at this
      simpa using this
    obtain ⟨a, b, ha', hb', c1, c2⟩ := h1
    rw [gk] at c1 c2
    have e1 := (tile_has hox hx k1 ha').1 c1
    have e2 := (tile_has hoy hy k2 hb').1 c2
    refine ⟨fs[k], z, ?_, h2, h3⟩
    rw [← e1, ← e2, ← k3, List.getElem?_eq_getElem hk']
  · exfalso
    rw [← hd, List.getElem?_map] at hk
    cases hf : fs[tileOf tx p * tiles ty gy.length + tileOf ty q]? with
    | none => rw [hf] at hk; cases hk
    | some f =>
      rw [hf] at hk
      have hfd : f.dom = ⟨tr tx gx d.x (tileOf tx p), tr ty gy d.y (tileOf ty q)⟩ := by simpa using hk
      refine h1 f (List.mem_of_getElem? hf) ⟨_, _, ha, hb, ?_, ?_⟩
      · rw [hfd]; exact (tile_has hox hx (tileOf_lt hp) ha).2 rfl
      · rw [hfd]; exact (tile_has hoy hy (tileOf_lt hq) hb).2 rfl

theorem checkTiled_fits {fs : List Fk} {ds : List Dom} (hd : ∀ D ∈ ds, (∃ a, D.x = some a) ∧ ∃ a, D.y = some a)
    (hf : ∀ f ∈ fs, (∃ a, f.dom.x = some a) ∧ ∃ a, f.dom.y = some a) (h : checkTiled fs ds = true) : Fits ds fs := by
  unfold checkTiled at h
  simp only [Bool.and_eq_true, beq_iff_eq, List.all_eq_true, Bool.not_eq_true', Bool.or_eq_false_iff, decide_eq_false_iff_not, not_lt] at h
  obtain ⟨h1, h2⟩ := h
  have hget : ∀ (k : Nat) (D : Dom) (f : Fk), ds[k]? = some D → fs[k]? = some f → (D, f) ∈ List.zip ds fs := by
    intro k D f hD hf'
    have : (List.zip ds fs)[k]? = some (D, f) := by simp [List.getElem?_zip_eq_some, hD, hf']
    exact List.mem_of_getElem? this
  refine ⟨h1, ?_, ?_⟩
  · intro k D f hD hf'
    obtain ⟨⟨⟨⟨c1, c2⟩, c3⟩, c4⟩, _⟩ := h2 _ (hget k D f hD hf')
    obtain ⟨⟨a1, e1⟩, a2, e2⟩ := hd D (List.mem_of_getElem? hD)
    obtain ⟨⟨b1, f1⟩, b2, f2⟩ := hf f (List.mem_of_getElem? hf')
    dsimp only at c1 c2 c3 c4
    rw [e1, f1] at c1 c2
    rw [e2, f2] at c3 c4
    exact ⟨⟨a1, b1, e1, f1, c1, c2⟩, ⟨a2, b2, e2, f2, c3, c4⟩⟩
  · have hn : ∃ m, ∀ f ∈ fs, f.n = m := by
      refine ⟨fs.head?.elim 0 (·.n), fun f hf' => ?_⟩
      obtain ⟨k, hk, rfl⟩ := List.mem_iff_getElem.1 hf'
      have := (h2 _ (hget k ds[k] fs[k] (List.getElem?_eq_getElem _) (List.getElem?_eq_getElem hk))).2
      simp only [bne_eq_false_iff_eq] at this
      exact this
    obtain ⟨m, hn⟩ := hn
    intro f hf' g hg
    rw [hn f hf', hn g hg]

end Verif.Composed
