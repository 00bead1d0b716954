import Verif.Proof.ModRes
/-!
# Properties of the change of resolution
-/
namespace Verif.ModRes

/-- C210: whatever settings were given and requests passed on before, the cells of a request are changed as the last settings say, and other axes are
left alone. -/
def C210_full : Prop :=
  ∀ (evs : List Event) (r : Req), Proper evs → (∀ q, Event.ask q ∈ evs → q.x ≠ [] ∧ q.y ≠ []) → r.x ≠ [] → r.y ≠ [] →
    ∃ s s' r', run init evs = .ok s ∧ ask s r = .ok (s', r') ∧ Good evs r r' ∧ r'.rest = r.rest

/-- C210, if earlier requests had at least as many cells as are to be joined; other axes are lost, unless nothing is to be changed. -/
theorem C210_partial (evs : List Event) (r : Req) (hp : Proper evs)
    (hb : ∀ q, Event.ask q ∈ evs → q.x ≠ [] ∧ q.y ≠ [] ∧
      ∀ c, Event.set c ∈ evs → ∀ a b, c.down = some [a, b] → a ≤ q.x.length ∧ b ≤ q.y.length)
    (hx : r.x ≠ []) (hy : r.y ≠ []) :
    ∃ s s' r', run init evs = .ok s ∧ ask s r = .ok (s', r') ∧ Good evs r r' := by
  obtain ⟨s, h1, h2⟩ := run_inv evs hp (by
    intro q hq
    obtain ⟨q1, q2, q3⟩ := hb q hq
    refine ⟨q1, q2, ?_⟩
    intro c hc f
    cases hd : c.down with
    | none => simp [at_]
    | some l =>
      have hl := hp c hc _ (Or.inr (Or.inr rfl)) l hd
      match l, hl with
      | [a, b], _ =>
        have := q3 c hc a b hd
        refine ⟨fun h => ?_, fun h => ?_⟩
        · cases h
          exact this.1
        · cases h
          exact this.2)
  obtain ⟨s', r', h3, h4, _⟩ := ask_spec h2 hp r hx hy
  exact ⟨s, s', r', h1, h3, h4⟩

/-- Without settings a request is passed on as it is. -/
theorem C210_none (r : Req) : ask init r = .ok (init, r) := rfl

def cells (n : Nat) : List (ℚ × ℚ) := (List.range n).map (fun i => ((i : ℚ) + 1 / 2, 1))

theorem cells_ne (n : Nat) : cells (n + 1) ≠ [] := by
  intro h
  have := congrArg List.length h
  simp [cells] at this

def wide : Req := ⟨(0, 8), (0, 3), cells 8, cells 3, []⟩

/-- Upsampling by 2 of the first axis, downsampling by 2 of the second. -/
def both : Rec := ⟨none, some [2, 0], some [3, 2]⟩

example : ∃ s s' r', run init [.set both, .ask wide] = .ok s ∧ ask s wide = .ok (s', r') ∧ Divided 2 wide.x r'.x ∧ Joined 2 wide.y r'.y := by
  obtain ⟨s, s', r', h1, h2, h3⟩ := C210_partial [.set both, .ask wide] wide
    (by
      intro r hr
      simp at hr
      subst hr
      rintro f (rfl | rfl | rfl) l hl
      · simp [both] at hl
      · simp [both] at hl
        simp [← hl]
      · simp [both] at hl
        simp [← hl])
    (by
      intro q hq
      simp at hq
      subst hq
      refine ⟨cells_ne 7, cells_ne 2, ?_⟩
      intro c hc a b hab
      simp at hc
      subst hc
      simp [both] at hab
      obtain ⟨rfl, rfl⟩ := hab
      simp [wide, cells])
    (cells_ne 7) (cells_ne 2)
  refine ⟨s, s', r', h1, h2, h3.2.2.1.1 2 (by omega) rfl, h3.2.2.2.2.1 2 (by omega) ?_ rfl⟩
  intro f hf
  cases hf
  decide

theorem joined_length {k : Nat} {l l' : List (ℚ × ℚ)} (h : Joined k l l') (hk : l.length ≤ k) : l'.length ≤ 1 := by
  rcases Nat.lt_or_ge 1 l'.length with h1 | h1
  · have := (h.2 1 h1).1
    omega
  · exact h1

/-- A request with one cell makes a node forget its factor: later requests are not downsampled any more. -/
theorem C210_refuted : ¬ C210_full := by
  intro h
  obtain ⟨s, s', r', h1, h2, h3, _⟩ := h [.set ⟨none, none, some [4, 0]⟩, .ask ⟨(0, 1), (0, 1), cells 1, cells 1, []⟩] ⟨(0, 4), (0, 1), cells 4, cells 1, []⟩
    (by
      intro r hr
      simp at hr
      subst hr
      rintro f (rfl | rfl | rfl) l hl
      · simp at hl
      · simp at hl
      · simp at hl
        simp [← hl])
    (by
      intro q hq
      simp at hq
      subst hq
      simp [cells])
    (cells_ne 3) (cells_ne 0)
  have e1 : run init [.set ⟨none, none, some [4, 0]⟩, .ask ⟨(0, 1), (0, 1), cells 1, cells 1, []⟩] = .ok ⟨none, none, true, false, true, [], [1, 0]⟩ := by decide +kernel
  rw [e1] at h1
  cases h1
  have e2 : ask ⟨none, none, true, false, true, [], [1, 0]⟩ ⟨(0, 4), (0, 1), cells 4, cells 1, []⟩ =
      .ok (⟨none, none, true, false, true, [], [1, 0]⟩, ⟨(0, 4), (0, 1), cells 4, cells 1, []⟩) := by decide +kernel
  rw [e2] at h2
  cases h2
  have := joined_length (h3.2.2.1.2.1 4 (by omega) (by intro f hf; cases hf) rfl) (by simp [cells])
  simp [cells] at this

/-- A single number of cells, which is to be for both axes, leaves the other one undefined. -/
theorem C210_single (n : Int) (r : Req) : ask (setState init ⟨some [n], none, none⟩) r = .ub := by
  simp [setState, setNum, setUp, setDown, init, ask]

/-- Any change of resolution loses the other axes. -/
theorem C210_axes (s s' : St) (r r' : Req) (h : ask s r = .ok (s', r')) (hs : s.resample = true) : r'.rest = [] := by
  unfold ask at h
  rw [hs] at h
  simp only [Bool.not_true, Bool.false_eq_true, if_false] at h
  split at h
  · split at h
    · cases h
      rfl
    · cases h
  · obtain ⟨p, _, h⟩ := Res.bind_eq_ok.1 h
    obtain ⟨q, _, h⟩ := Res.bind_eq_ok.1 h
    cases h
    rfl

end Verif.ModRes
