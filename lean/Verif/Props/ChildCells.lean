import Verif.Proof.ChildCells
import Mathlib.Tactic.NormNum
/-! # Properties of cells and spid maps of children (C178, C179) -/
namespace Verif.ChildCells
open Verif.Vells (ext)

/-! ## C178: the cells of a node's result fit all its children -/

/-- C178: if the cells of children are accepted, the cells that come out fit every child: along each axis on which the child varies
they have as many points as its own cells, over the same domain. -/
def C178_full : Prop := ∀ (ch : List (Option Child)) (ax : Nat → Option Ax), (∀ c, some c ∈ ch → Conforms c) →
  (∀ c d, some c ∈ ch → some d ∈ ch → c.id = d.id → c.ax = d.ax) → checkChildCells false ch = some (some ax) → ∀ c, some c ∈ ch → Right ax c

theorem mem_present (l : List (Option Child)) (c : Child) : c ∈ present l ↔ some c ∈ l := by
  unfold present
  rw [List.mem_filterMap]
  constructor
  · rintro ⟨a, ha, hb⟩
    have : a = some c := hb
    rw [← this]; exact ha
  · intro h; exact ⟨some c, h, rfl⟩

/-- Cells with four points of time from 0 to 4, and four of frequency from 0 to 1. -/
def ax1 : Nat → Option Ax
  | 0 => some ⟨4, 0, 4⟩
  | 1 => some ⟨4, 0, 1⟩
  | _ => none

/-- The same, but frequency from 5 to 6. -/
def ax2 : Nat → Option Ax
  | 0 => some ⟨4, 0, 4⟩
  | 1 => some ⟨4, 5, 6⟩
  | _ => none

theorem conf (id : Nat) (f : ℚ × ℚ) (ax : Nat → Option Ax) (sh : List Nat) (h0 : ax 0 = some ⟨4, 0, 4⟩) (h1 : ax 1 = some ⟨4, f.1, f.2⟩) (hsh : sh = [4] ∨ sh = [4, 4]) :
    Conforms ⟨id, ax, sh⟩ := by
  intro a ha
  rcases hsh with rfl | rfl
  · match a with
    | 0 => exact ⟨by simp [ext], _, h0, rfl⟩
    | a + 1 => exact absurd rfl ha
  · match a with
    | 0 => exact ⟨by simp [ext], _, h0, rfl⟩
    | 1 => exact ⟨by simp [ext], _, h1, rfl⟩
    | a + 2 => exact absurd rfl ha

/-- Two children with one cells object, of which the second only varies in frequency; the third varies over another range of frequencies.
It is accepted, and its frequencies are taken. -/
theorem C178_refuted : ¬ C178_full := by
  intro h
  have hc : ∀ c, some c ∈ [some (⟨0, ax1, [4]⟩ : Child), some ⟨0, ax1, [4, 4]⟩, some ⟨1, ax2, [4, 4]⟩] → c = ⟨0, ax1, [4]⟩ ∨ c = ⟨0, ax1, [4, 4]⟩ ∨ c = ⟨1, ax2, [4, 4]⟩ := by
    intro c hc
    simpa using hc
  have key : (checkChildCells false [some (⟨0, ax1, [4]⟩ : Child), some ⟨0, ax1, [4, 4]⟩, some ⟨1, ax2, [4, 4]⟩]).map (fun r => r.map fun ax => ax 1) = some (some (some ⟨4, 5, 6⟩)) := by decide +kernel
  cases hk : checkChildCells false [some (⟨0, ax1, [4]⟩ : Child), some ⟨0, ax1, [4, 4]⟩, some ⟨1, ax2, [4, 4]⟩] with
  | none => rw [hk] at key; cases key
  | some r =>
    cases r with
    | none => rw [hk] at key; cases key
    | some ax =>
      rw [hk] at key
      have hax : ax 1 = some ⟨4, 5, 6⟩ := by simpa using key
      have h1 := h _ ax (fun c hm => by
        rcases hc c hm with rfl | rfl | rfl
        · exact conf 0 (0, 1) _ _ rfl rfl (Or.inl rfl)
        · exact conf 0 (0, 1) _ _ rfl rfl (Or.inr rfl)
        · exact conf 1 (5, 6) _ _ rfl rfl (Or.inr rfl))
        (fun c d hm hm' he => by
          rcases hc c hm with rfl | rfl | rfl <;> rcases hc d hm' with rfl | rfl | rfl <;> first | rfl | (exact absurd he (by decide))) hk ⟨0, ax1, [4, 4]⟩ (by simp) 1 (by simp [ext])
      obtain ⟨x, y, hx, hy, -, hn, -⟩ := h1
      have hy' : y = ⟨4, 0, 1⟩ := by
        have : ax1 1 = some y := hy
        injection this.symm
      rw [hax] at hx
      cases hx
      rw [hy'] at hn
      unfold Near at hn
      norm_num [abs_of_nonneg] at hn

/-- C178 as far as it holds: the cells fit the first child with cells, and every child whose cells are another object than that one's.  If
all children have one cells object, the cells are those, and fit all. -/
theorem C178_partial (ch : List (Option Child)) (ax : Nat → Option Ax) (hc : ∀ c, some c ∈ ch → Conforms c) (h : checkChildCells false ch = some (some ax)) :
    ∃ f t, ch.filterMap id = f :: t ∧ Right ax f ∧ (∀ c, some c ∈ ch → c.id ≠ f.id → Right ax c) ∧ ((∀ c ∈ t, c.id = f.id) → ax = f.ax) := by
  rw [check_loop] at h
  cases hl : childLoop none ch with
  | none => rw [hl] at h; cases h
  | some r =>
    rw [hl] at h
    have hr : r.map Acc.ax = some ax := by simpa using h
    rcases childLoop_spec ch r (fun c hm => hc c ((mem_present ch c).1 hm)) hl with ⟨-, rfl⟩ | ⟨f, t, b, done, seen, e1, rfl, hi, e2, e3, -, e5⟩
    · cases hr
    · have hb : b.ax = ax := by simpa using hr
      subst hb
      refine ⟨f, t, e1, hi.right f e2, fun c hm hne => ?_, e5⟩
      have hm' := (mem_present ch c).2 hm
      rw [e1] at hm'
      rcases List.mem_cons.1 hm' with rfl | hm'
      · exact absurd rfl hne
      · exact hi.right c (e3 c hm' hne)

/-- The axes that come out are axes of children; and there are cells exactly if a child has some. -/
theorem C178_axes (ch : List (Option Child)) (r : Option (Nat → Option Ax)) (hc : ∀ c, some c ∈ ch → Conforms c) (h : checkChildCells false ch = some r) :
    (r = none ↔ ∀ c ∈ ch, c = none) ∧ ∀ ax, r = some ax → ∀ i x, ax i = some x → ∃ c, some c ∈ ch ∧ c.ax i = some x := by
  rw [check_loop] at h
  cases hl : childLoop none ch with
  | none => rw [hl] at h; cases h
  | some r' =>
    rw [hl] at h
    have hr : r'.map Acc.ax = r := by simpa using h
    rcases childLoop_spec ch r' (fun c hm => hc c ((mem_present ch c).1 hm)) hl with ⟨e0, rfl⟩ | ⟨f, t, b, done, seen, e1, rfl, hi, e2, -, e4, -⟩
    · subst hr
      refine ⟨⟨fun _ c hm => ?_, fun _ => rfl⟩, fun ax hax => by cases hax⟩
      cases c with
      | none => rfl
      | some c =>
        have := (mem_present ch c).2 hm
        rw [e0] at this
        cases this
    · subst hr
      refine ⟨⟨(fun hn => by cases hn), fun hall => ?_⟩, fun ax hax i x hx => ?_⟩
      · have : f ∈ present ch := by rw [e1]; simp
        have := hall _ ((mem_present ch f).1 this)
        cases this
      · cases hax
        obtain ⟨c, hm, e⟩ := hi.axes i x hx
        exact ⟨c, (mem_present ch c).1 (e4 c hm), e⟩

/-- Children that agree wherever two of them vary are accepted. -/
theorem C178_accepts (ch : List (Option Child)) (hc : ∀ c, some c ∈ ch → Conforms c)
    (hag : ∀ c d, some c ∈ ch → some d ∈ ch → ∀ i, ext c.shape i ≠ 1 → ext d.shape i ≠ 1 → d.ax i = c.ax i) : ∃ r, checkChildCells false ch = some r := by
  have hne : childLoop none ch ≠ none := by
    have hag' : ∀ c, some c ∈ ch → ∀ d, some d ∈ ch → ∀ i, ext c.shape i ≠ 1 → ext d.shape i ≠ 1 → d.ax i = c.ax i ∧ ext d.shape i = ext c.shape i := by
      intro c hcm d hdm i h1 h2
      have e := hag c d hcm hdm i h1 h2
      obtain ⟨-, y, hy, hyn⟩ := hc c hcm i h1
      obtain ⟨-, z, hz, hzn⟩ := hc d hdm i h2
      rw [hy, hz] at e
      cases e
      exact ⟨by rw [hy, hz], by rw [← hyn, ← hzn]⟩
    clear hag
    induction ch with
    | nil => simp [childLoop]
    | cons c l ih =>
      unfold childLoop
      cases c with
      | none =>
        have : childStep none none = some none := rfl
        rw [this]
        exact ih (fun d hd => hc d (List.mem_cons_of_mem _ hd)) fun d hd e he => hag' d (List.mem_cons_of_mem _ hd) e (List.mem_cons_of_mem _ he)
      | some c =>
        have : childStep none (some c) = some (some ⟨some c.id, c.ax, c.shape⟩) := rfl
        rw [this]
        refine childLoop_accepts l _ [c] [c] (fun d hd => hc d (List.mem_cons_of_mem _ ((mem_present l d).1 hd))) (cinv_first c (hc c (by simp))) fun e he d hd => ?_
        refine hag' e (List.mem_cons_of_mem _ ((mem_present l e).1 he)) d ?_
        rcases hd with hd | hd
        · rw [List.mem_singleton] at hd; subst hd; simp
        · exact List.mem_cons_of_mem _ ((mem_present l d).1 hd)
  rw [check_loop]
  cases hl : childLoop none ch with
  | none => exact absurd hl hne
  | some r => exact ⟨_, rfl⟩

/-- Two children with cells of their own that both vary along an axis are refused if their numbers of points differ there. -/
theorem C178_refuses (ch : List (Option Child)) (hc : ∀ c, some c ∈ ch → Conforms c) (c d : Child) (hcm : some c ∈ ch) (hdm : some d ∈ ch) (i : Nat)
    (h1 : ext c.shape i ≠ 1) (h2 : ext d.shape i ≠ 1) (hne : ext c.shape i ≠ ext d.shape i) (hid : ∀ e, some e ∈ ch → e ≠ c → e.id ≠ c.id) (hid' : ∀ e, some e ∈ ch → e ≠ d → e.id ≠ d.id) :
    checkChildCells false ch = none := by
  cases h : checkChildCells false ch with
  | none => rfl
  | some r =>
    exfalso
    have hax := C178_axes ch r hc h
    cases r with
    | none => have := hax.1.1 rfl _ hcm; cases this
    | some ax =>
      obtain ⟨f, t, e1, e2, e3, -⟩ := C178_partial ch ax hc h
      have hf : some f ∈ ch := (mem_present ch f).1 (by unfold present; rw [e1]; simp)
      have hr : ∀ x, some x ∈ ch → (∀ e, some e ∈ ch → e ≠ x → e.id ≠ x.id) → Right ax x := by
        intro x hx hi
        by_cases hxf : f = x
        · subst hxf; exact e2
        · exact e3 x hx fun he => hi f hf hxf he.symm
      obtain ⟨x, y, a1, a2, a3, -⟩ := hr c hcm hid i h1
      obtain ⟨x', y', b1, b2, b3, -⟩ := hr d hdm hid' i h2
      rw [a1] at b1
      cases b1
      obtain ⟨-, z, hz, hzn⟩ := hc c hcm i h1
      obtain ⟨-, z', hz', hzn'⟩ := hc d hdm i h2
      rw [a2] at hz
      rw [b2] at hz'
      cases hz; cases hz'
      exact hne (by rw [← hzn, ← hzn', ← a3, b3])

/-- Nothing is checked if it is switched off. -/
theorem C178_off (ch : List (Option Child)) : checkChildCells true ch = some none := rfl

/-- A child that varies in time and one that varies in frequency, over cells with one axis each: both axes come out. -/
example : (checkChildCells false [none, some ⟨0, fun i => if i = 0 then some ⟨4, 0, 4⟩ else none, [4]⟩, some ⟨1, fun i => if i = 1 then some ⟨3, 0, 1⟩ else none, [1, 3]⟩]).map
    (fun r => r.map fun ax => ((ax 0).map Ax.n, (ax 1).map Ax.n, (ax 2).map Ax.n)) = some (some (some 4, some 3, none)) := by decide +kernel
/-- Other numbers of points, and other domains, are refused. -/
example : (checkChildCells false [some ⟨0, ax1, [4, 4]⟩, some ⟨1, ax2, [4, 4]⟩]).isNone := by decide +kernel

/-! ## C179: the parameters found below a node -/

/-- C179: the spid map a node returns has for every spid what the first child that knows the spid says; there is a result exactly if some
child has a map; and the result is otherwise that of the first such child. -/
theorem C179 {β V : Type} (ch : List (Option (Res β V))) :
    (discoverSpids none ch = none ↔ ∀ c, some c ∈ ch → c.map = none) ∧
    ∀ r, discoverSpids none ch = some r → (∃ m, r.map = some m ∧ ∀ k, m k = firstOf k ch) ∧ ∃ pre c post, ch = pre ++ some c :: post ∧ c.map ≠ none ∧ r.rest = c.rest ∧ ∀ d, some d ∈ pre → d.map = none := by
  induction ch with
  | nil => exact ⟨by simp [discoverSpids], fun r hr => by cases hr⟩
  | cons c l ih =>
    have skip : (∀ x, c = some x → x.map = none) → discoverSpids none (c :: l) = discoverSpids none l ∧ ∀ k, firstOf k (c :: l) = firstOf k l := by
      intro hc
      cases c with
      | none => exact ⟨by rw [discoverSpids], fun k => by rw [firstOf]⟩
      | some x =>
        have hx := hc x rfl
        exact ⟨by rw [discoverSpids]; rw [hx], fun k => by rw [firstOf]; rw [hx]⟩
    by_cases hc : ∀ x, c = some x → x.map = none
    · obtain ⟨e1, e2⟩ := skip hc
      rw [e1]
      refine ⟨ih.1.trans ⟨fun h d hd => ?_, fun h d hd => h d (List.mem_cons_of_mem _ hd)⟩, fun r hr => ?_⟩
      · rcases List.mem_cons.1 hd with hd | hd
        · exact hc d hd.symm
        · exact h d hd
      · obtain ⟨⟨m, h1, h2⟩, pre, x, post, h3, h4, h5, h6⟩ := ih.2 r hr
        refine ⟨⟨m, h1, fun k => by rw [h2, e2]⟩, c :: pre, x, post, by rw [h3]; rfl, h4, h5, fun d hd => ?_⟩
        rcases List.mem_cons.1 hd with hd | hd
        · exact hc d hd.symm
        · exact h6 d hd
    · have : ∃ x m, c = some x ∧ x.map = some m := by
        by_contra hcon
        refine hc fun x hx => ?_
        cases hm : x.map with
        | none => rfl
        | some m => exact absurd ⟨x, m, hx, hm⟩ hcon
      obtain ⟨x, m, rfl, hm⟩ := this
      have e : discoverSpids none (some x :: l) = discoverSpids (some x) l := by rw [discoverSpids]; rw [hm]
      rw [e]
      obtain ⟨r', h1, h2, h3, h4⟩ := (discover_spec l (some x)).2 x rfl
      refine ⟨⟨fun h => by (rw [h1] at h; cases h), fun h => by (have := h x (by simp); rw [hm] at this; cases this)⟩, fun r hr => ?_⟩
      rw [h1] at hr
      cases hr
      refine ⟨?_, [], x, l, rfl, by rw [hm]; simp, h2, by simp⟩
      cases hr' : r'.map with
      | none => have := (h3 hr').1; rw [hm] at this; cases this
      | some m' =>
        refine ⟨m', rfl, fun k => ?_⟩
        rw [h4 m' hr' k, hm, firstOf, hm]
        dsimp only
        cases m k <;> rfl

/-- So a spid is known to the node exactly if it is known to a child. -/
theorem C179_known {β V : Type} (ch : List (Option (Res β V))) (k : Nat) : firstOf k ch ≠ none ↔ ∃ c m, some c ∈ ch ∧ c.map = some m ∧ m k ≠ none := by
  induction ch with
  | nil => simp [firstOf]
  | cons c l ih =>
    cases c with
    | none => rw [firstOf, ih]; simp
    | some c =>
      rw [firstOf]
      cases hm : c.map with
      | none =>
        dsimp only
        rw [ih]
        constructor
        · rintro ⟨d, m, h1, h2⟩; exact ⟨d, m, List.mem_cons_of_mem _ h1, h2⟩
        · rintro ⟨d, m, h1, h2, h3⟩
          rcases List.mem_cons.1 h1 with h | h
          · cases h; rw [hm] at h2; cases h2
          · exact ⟨d, m, h, h2, h3⟩
      | some m =>
        dsimp only
        cases hk : m k with
        | some v =>
          dsimp only
          exact ⟨fun _ => ⟨c, m, by simp, hm, by rw [hk]; simp⟩, fun _ => by simp⟩
        | none =>
          dsimp only
          rw [ih]
          constructor
          · rintro ⟨d, m, h1, h2⟩; exact ⟨d, m, List.mem_cons_of_mem _ h1, h2⟩
          · rintro ⟨d, m', h1, h2, h3⟩
            rcases List.mem_cons.1 h1 with h | h
            · cases h; rw [hm] at h2; cases h2; exact absurd hk h3
            · exact ⟨d, m', h, h2, h3⟩

example : (discoverSpids none [none, some (⟨none, 0⟩ : Res Nat Nat), some ⟨some fun k => if k < 2 then some 7 else none, 1⟩, some ⟨some fun k => if k < 3 then some 8 else none, 2⟩]).map
    (fun r => (r.rest, r.map.map fun m => [m 0, m 1, m 2, m 3])) = some (1, some [some 7, some 7, some 8, none]) := by decide

end Verif.ChildCells
