import Verif.Proof.SolveLoop
/-! # C125 - C130: the solver's iterations -/
namespace Verif.SolveLoop

/-! ## Examples -/

/-- A child that gives one equation for each of the subsolvers listed. -/
def exReply (l : List Nat) : Reply := ⟨false, false, [(false, l)]⟩
/-- A child that fails. -/
def exFail : Reply := ⟨false, true, []⟩
/-- An iteration with these equations and fits, undisturbed. -/
def exTurn (l : List Nat) (fit : Nat → Nat × Bool) : Turn Nat := ⟨false, false, [exReply l], false, fit, false⟩
/-- Two subsolvers; the first is ready in its second iteration, the second never. -/
def exWorld : World Nat :=
  ⟨some 2, fun k => exTurn [0, 1, 0] (fun j => (10 * (k + 1) + j, decide (j = 0 ∧ k = 1))), false, false, false⟩
/-- Three iterations at most, all subsolvers have to converge, last update and saving. -/
def exCfg : Cfg := ⟨3, 1, 1, true, true⟩

/-! ## C125: the requests -/

/-- C125: the requests are one discovery, then evaluations - no more than the number of iterations asked for -, then perhaps an update.
They are numbered from 0, and each evaluation announces the number of the next request. -/
theorem C125_requests {S : Type} (c : Cfg) (hd : c.den ≠ 0) (zero : S) (w : World S) :
    Sequence (getResult c zero w).2 ∧ evals (getResult c zero w).2 ≤ c.max := by
  have hone : Sequence ([discovery] : List (Req S)) ∧ evals ([discovery] : List (Req S)) ≤ c.max := by
    refine ⟨⟨?_, ?_, ?_, ?_⟩, by simp [evals, discovery]⟩ <;> intro i r h
    all_goals
      have hi : i < 1 := by have := (List.getElem?_eq_some_iff.1 h).1; simpa using this
      have hi : i = 0 := by omega
      subst hi
      simp at h; subst h
      simp [discovery]
  rcases hs : w.subs with _ | n
  · simpa [getResult, hs] using hone
  · by_cases hn : n = 0
    · simpa [getResult, hs, hn] using hone
    · obtain ⟨m, u, hm, hl, hu⟩ := (getResult_ends hd zero w hs hn).form
      have hu : u = [] ∨ ∃ k, u = [⟨m + 1, none, .update, riderAt c zero w n k⟩] := by
        rcases hu with h | ⟨k, h, _⟩
        · exact .inl h
        · exact .inr ⟨k, h⟩
      rw [hl]
      refine ⟨⟨?_, ?_, ?_, ?_⟩, by rw [form_evals hu]; exact hm⟩
      · intro i r h
        rcases form_get hu h with ⟨rfl, rfl⟩ | ⟨k, _, rfl, rfl⟩ | ⟨rfl, _, _, rfl⟩ <;> rfl
      · intro i r h
        rcases form_get hu h with ⟨rfl, rfl⟩ | ⟨k, _, rfl, rfl⟩ | ⟨rfl, _, _, rfl⟩ <;> simp [discovery, evalReq]
      · intro i r h hk
        rcases form_get hu h with ⟨rfl, rfl⟩ | ⟨k, _, rfl, rfl⟩ | ⟨rfl, _, _, rfl⟩
        · cases hk
        · rfl
        · cases hk
      · intro i r h hk
        rcases form_get hu h with ⟨rfl, rfl⟩ | ⟨k, _, rfl, rfl⟩ | ⟨rfl, e, _, rfl⟩
        · cases hk
        · cases hk
        · rw [e]; simp

/-- C125: the number of iterations reported is the number of evaluations, or one less if the last gave no equations. -/
theorem C125_iterations {S : Type} {c : Cfg} (hd : c.den ≠ 0) {zero : S} {w : World S} {n : Nat} (hn : w.subs = some n) {r l}
    (h : getResult c zero w = (.done r, l)) :
    (evals l = r.iterations ∧ (r.iterations = c.max ∨ r.converged = true ∨ (w.turn r.iterations).intr = true)) ∨
    (evals l = r.iterations + 1 ∧ r.converged = false ∧ ¬ Work w n r.iterations) := by
  have h0 : n ≠ 0 := by rintro rfl; simp [getResult, hn] at h
  have E := getResult_ends hd zero w hn h0
  rw [h] at E
  dsimp only at E
  generalize ho : Out.done r = o at E
  generalize l = l' at E
  cases E with
  | abort => cases ho
  | after => cases ho
  | done hI h1 ha =>
    rename_i s m
    split at ho
    · cases ho
    · cases ho
      have hu : (if c.lastUpdate && (s.k == c.max || w.intrEnd || s.converged) then [(⟨m + 1, none, .update, riderAt c zero w n s.k⟩ : Req S)] else []) = [] ∨
          ∃ k, (if c.lastUpdate && (s.k == c.max || w.intrEnd || s.converged) then [(⟨m + 1, none, .update, riderAt c zero w n s.k⟩ : Req S)] else []) =
            [⟨m + 1, none, .update, riderAt c zero w n k⟩] := by
        split
        · exact .inr ⟨_, rfl⟩
        · exact .inl rfl
      rw [form_evals hu]
      rcases h1 with ⟨e, h1⟩ | ⟨e, _, h2, _, h3, _⟩
      · exact .inl ⟨e, h1⟩
      · exact .inr ⟨e, h2, h3⟩

example : evals (getResult exCfg 0 exWorld).2 = 3 ∧ (getResult exCfg 0 exWorld).2.length = 5 := by decide +kernel

/-! ## C126: the updates -/

/-- C126: the first evaluation carries no update, the next ones the solution of the iteration before, whatever happens. -/
theorem C126_each {S : Type} {c : Cfg} (hd : c.den ≠ 0) (zero : S) (w : World S) {n : Nat} (hn : w.subs = some n) {i : Nat} {r : Req S}
    (h : (getResult c zero w).2[i + 1]? = some r) (hk : r.kind = .eval) :
    r.rider.map (·.sols) = if i = 0 then none else some (rowOf zero w n (i - 1)) := by
  by_cases h0 : n = 0
  · simp [getResult, hn, h0] at h
  · obtain ⟨m, u, hm, hl, hu⟩ := (getResult_ends hd zero w hn h0).form
    have hu : u = [] ∨ ∃ k, u = [⟨m + 1, none, .update, riderAt c zero w n k⟩] := by
      rcases hu with h | ⟨k, h, _⟩
      · exact .inl h
      · exact .inr ⟨k, h⟩
    rw [hl] at h
    rcases form_get hu h with ⟨e, rfl⟩ | ⟨k, _, e, rfl⟩ | ⟨_, _, _, rfl⟩
    · cases hk
    · have : i = k := by omega
      subst this
      cases i <;> rfl
    · cases hk

/-- Full C126: if the last update is asked for, then, whatever the interrupt flag does, the parameters are sent every solution exactly
once, in order. -/
def C126_full : Prop := ∀ (c : Cfg) (w : World Nat) (r : Result Nat) (l : List (Req Nat)), c.den ≠ 0 → c.lastUpdate = true → IntrStable w →
  getResult c 0 w = (.done r, l) → delivered l = r.rows

/-- C126, if the solution is not interrupted, or the last evaluation gave equations.  Missing: an interrupt in an iteration without
equations. -/
theorem C126_delivered_partial {S : Type} {c : Cfg} (hd : c.den ≠ 0) (hu : c.lastUpdate = true) {zero : S} {w : World S} (hi : IntrStable w)
    {r l} (h : getResult c zero w = (.done r, l)) (hx : Undisturbed w ∨ evals l = r.iterations) : delivered l = r.rows := by
  rcases hn : w.subs with _ | n
  · simp [getResult, hn] at h
  have h0 : n ≠ 0 := by rintro rfl; simp [getResult, hn] at h
  have E := getResult_ends hd zero w hn h0
  rw [h] at E
  dsimp only at E
  generalize ho : Out.done r = o at E
  generalize hl : l = l' at E
  cases E with
  | abort => cases ho
  | after => cases ho
  | done hI h1 ha =>
    rename_i s m
    split at ho
    · cases ho
    · cases ho
      rcases h1 with ⟨rfl, h1⟩ | ⟨e, h1, h2, h3, _⟩
      · have hup : (c.lastUpdate && (s.k == c.max || w.intrEnd || s.converged)) = true := by
          rcases h1 with h1 | h1 | h1
          · simp [hu, h1]
          · simp [hu, h1]
          · simp [hu, hi.last _ h1]
        rw [if_pos hup, form_delivered, hI.rows]
        rcases hk : s.k with _ | k
        · rfl
        · simp only [delivered, riderAt, List.filterMap_cons, List.filterMap_nil, Option.map_some]
          rw [List.range_succ, List.map_append]; rfl
      · have hne : ¬ (c.lastUpdate && (s.k == c.max || w.intrEnd || s.converged)) = true := by
          rcases hx with hx | hx
          · simp [h2, hx.2]; intro _; omega
          · exfalso
            have hu' : (if c.lastUpdate && (s.k == c.max || w.intrEnd || s.converged) then [(⟨m + 1, none, .update, riderAt c zero w n s.k⟩ : Req S)] else []) = [] ∨
                ∃ k, (if c.lastUpdate && (s.k == c.max || w.intrEnd || s.converged) then [(⟨m + 1, none, .update, riderAt c zero w n s.k⟩ : Req S)] else []) =
                  [⟨m + 1, none, .update, riderAt c zero w n k⟩] := by
              split
              · exact .inr ⟨_, rfl⟩
              · exact .inl rfl
            rw [hl, form_evals hu'] at hx
            dsimp only at hx
            omega
        rw [if_neg hne, form_delivered, hI.rows, e]
        simp [delivered]

/-- C126: without the last update the solution of the last iteration is not sent, unless an evaluation without equations followed. -/
theorem C126_without_last {S : Type} {c : Cfg} (hd : c.den ≠ 0) (hu : c.lastUpdate = false) {zero : S} {w : World S}
    {r l} (h : getResult c zero w = (.done r, l)) : delivered l = r.rows.take (evals l - 1) := by
  rcases hn : w.subs with _ | n
  · simp [getResult, hn] at h
  have h0 : n ≠ 0 := by rintro rfl; simp [getResult, hn] at h
  have E := getResult_ends hd zero w hn h0
  rw [h] at E
  dsimp only at E
  generalize ho : Out.done r = o at E
  generalize l = l' at E
  cases E with
  | abort => cases ho
  | after => cases ho
  | done hI h1 ha =>
    rename_i s m
    split at ho
    · cases ho
    · cases ho
      rw [hu]
      simp only [Bool.false_and, Bool.false_eq_true, if_false]
      rw [form_delivered, form_evals (.inl rfl), hI.rows]
      simp only [delivered, List.filterMap_nil, List.append_nil]
      rw [← List.map_take, List.take_range]
      congr 2
      rcases h1 with ⟨e, _⟩ | ⟨e, _⟩ <;> omega

/-- The second evaluation gives no equations, and the user interrupts during it. -/
def exTwice : World Nat :=
  ⟨some 1, fun k => ⟨decide (2 ≤ k), false, if k = 0 then [exReply [0]] else [exFail], false, fun _ => (7, false), decide (2 ≤ k)⟩, false, true, false⟩

/-- The same update is sent twice (Solver.cc:1080, 1205-1216): the parameters are moved by it twice. -/
theorem C126_refuted : ¬ C126_full := by
  intro h
  have := h ⟨5, 1, 1, true, false⟩ exTwice ⟨false, 1, [[7]]⟩
    [⟨0, none, .discover, none⟩, ⟨1, some 2, .eval, none⟩, ⟨2, some 3, .eval, some ⟨[7], false, false⟩⟩, ⟨3, none, .update, some ⟨[7], false, false⟩⟩]
    (by decide) rfl
    ⟨by intro k hk; exact hk, by intro k hk; simp [exTwice] at hk ⊢; omega, by intro _ _; rfl⟩ (by decide +kernel)
  revert this; decide

example : (delivered (getResult exCfg 0 exWorld).2 = [[10, 11], [20, 21], [0, 31]]) ∧ IntrStable exWorld ∧ Undisturbed exWorld :=
  ⟨by decide +kernel, ⟨fun _ h => (nomatch h), fun _ h => (nomatch h), fun _ h => (nomatch h)⟩, fun _ => ⟨rfl, rfl⟩, rfl⟩

/-! ## C127: solutions and convergence -/

/-- C127: the rows of incremental solutions are those of the fits, with zero for a subsolver that was ready before or has no equations;
`converged` says that after the last iteration at least the quota of the subsolvers were ready or without equations, and no earlier
iteration had that. -/
theorem C127_result {S : Type} {c : Cfg} (hd : c.den ≠ 0) {zero : S} {w : World S} {n : Nat} (hn : w.subs = some n) {r l}
    (h : getResult c zero w = (.done r, l)) :
    r.rows = (List.range r.iterations).map (rowOf zero w n) ∧
    (r.converged = true ↔ ∃ k, r.iterations = k + 1 ∧ Enough c n (doneAfter w n k)) ∧
    (∀ k, k + 1 < r.iterations → ¬ Enough c n (doneAfter w n k)) ∧ ∀ k, k < r.iterations → Work w n k := by
  have h0 : n ≠ 0 := by rintro rfl; simp [getResult, hn] at h
  have E := getResult_ends hd zero w hn h0
  rw [h] at E
  dsimp only at E
  generalize ho : Out.done r = o at E
  generalize l = l' at E
  cases E with
  | abort => cases ho
  | after => cases ho
  | done hI h1 ha =>
    rename_i s m
    split at ho
    · cases ho
    · cases ho
      exact ⟨hI.rows, hI.conv, hI.before, hI.work⟩

/-- Full C127 in the words of the documentation (Solver.h:48-50): `converged` means that the quota of the subsolvers converged. -/
def C127_full : Prop := ∀ (c : Cfg) (w : World Nat) (n : Nat) (r : Result Nat) (l : List (Req Nat)), c.den ≠ 0 → w.subs = some n →
  getResult c 0 w = (.done r, l) → r.converged = true → Enough c n ((List.range n).countP fun j => decide (Retired w j r.iterations))

/-- With data for one tile of five, one iteration and a quota of 0.8, the result has converged although no fit has. -/
theorem C127_refuted : ¬ C127_full := by
  intro h
  have := h ⟨3, 4, 5, true, false⟩ ⟨some 5, fun k => exTurn [0] (fun _ => (k + 1, false)), false, false, false⟩ 5 ⟨true, 1, [[1, 0, 0, 0, 0]]⟩
    [⟨0, none, .discover, none⟩, ⟨1, some 2, .eval, none⟩, ⟨2, none, .update, some ⟨[1, 0, 0, 0, 0], false, true⟩⟩]
    (by decide) rfl (by decide +kernel) rfl
  revert this; decide +kernel

/-- C127 as documented, if the last iteration has equations for all subsolvers not ready yet. -/
theorem C127_converged_partial {S : Type} {c : Cfg} (hd : c.den ≠ 0) {zero : S} {w : World S} {n : Nat} (hn : w.subs = some n) {r l}
    (h : getResult c zero w = (.done r, l)) (hc : r.converged = true) (he : ∀ j < n, ∀ k, k + 1 = r.iterations → HasEq w j k ∨ Retired w j k) :
    Enough c n ((List.range n).countP fun j => decide (Retired w j r.iterations)) := by
  obtain ⟨_, h2, _⟩ := C127_result hd hn h
  obtain ⟨k, hk, hx⟩ := h2.1 hc
  rw [hk]
  have : doneAfter w n k = (List.range n).countP fun j => decide (Retired w j (k + 1)) := by
    unfold doneAfter
    apply List.countP_congr
    intro j hj
    have hj : j < n := by simpa using hj
    simp only [decide_eq_true_eq]
    constructor
    · rintro (h | h)
      · exact h
      · rcases he j hj k hk.symm with h' | h'
        · exact absurd h' h
        · exact (retired_succ w j k).2 (.inl h')
    · exact .inl
  rw [← this]; exact hx

example : getResult ⟨5, 1, 2, false, false⟩ 0 exWorld =
    (.done ⟨true, 2, [[10, 11], [20, 21]]⟩, [⟨0, none, .discover, none⟩, ⟨1, some 2, .eval, none⟩, ⟨2, some 3, .eval, some ⟨[10, 11], false, false⟩⟩]) := by
  decide +kernel
example : HasEq exWorld 1 1 ∧ HasEq exWorld 0 1 := by decide

/-! ## C128: aborting -/

/-- Full C128: if the abort flag is raised at some time (and stays up), the solver returns the code for an abort. -/
def C128_full : Prop := ∀ (c : Cfg) (w : World Nat), c.den ≠ 0 → (∃ n, w.subs = some (n + 1)) → AbortStable w → w.abortLast = true →
  (getResult c 0 w).1 = .abort

/-- C128: then it returns no solver result.  Missing: that it returns the code for an abort. -/
theorem C128_no_result_partial {S : Type} {c : Cfg} (hd : c.den ≠ 0) {zero : S} {w : World S} (h : w.abortEnd = true ∨ w.abortLast = true) (r : Result S) :
    (getResult c zero w).1 ≠ .done r := by
  rcases hn : w.subs with _ | n
  · simp [getResult, hn]
  by_cases h0 : n = 0
  · simp [getResult, hn, h0]
  · intro hr
    have E := getResult_ends hd zero w hn h0
    rw [hr] at E
    generalize ho : Out.done r = o at E
    generalize (getResult c zero w).2 = l at E
    cases E with
    | abort => cases ho
    | after => cases ho
    | done hI h1 ha =>
      split at ho
      · cases ho
      · rename_i hb
        rcases h with h | h
        · rw [ha] at h; cases h
        · exact hb h

/-- C128: and once it is up before the end of the loop, no update is sent any more. -/
theorem C128_no_update {S : Type} {c : Cfg} (hd : c.den ≠ 0) {zero : S} {w : World S} (h : w.abortEnd = true) {r : Req S}
    (hr : r ∈ (getResult c zero w).2) : r.kind ≠ .update := by
  rcases hn : w.subs with _ | n
  · simp [getResult, hn] at hr; subst hr; simp [discovery]
  by_cases h0 : n = 0
  · simp [getResult, hn, h0] at hr; subst hr; simp [discovery]
  · obtain ⟨m, u, hm, hl, hu⟩ := (getResult_ends hd zero w hn h0).form
    rcases hu with rfl | ⟨k, _, _, _, hx⟩
    · rw [hl] at hr
      simp only [List.append_nil, List.mem_cons, List.mem_map] at hr
      rcases hr with rfl | ⟨i, _, rfl⟩
      · simp [discovery]
      · simp [evalReq]
    · rw [h] at hx; cases hx

/-- C128: when an evaluation meets the flag it is the last request and the code is that for an abort. -/
theorem C128_in_turn {S : Type} {c : Cfg} (hd : c.den ≠ 0) {zero : S} {w : World S} {n : Nat} (hn : w.subs = some n) {k : Nat} (ha : AbortIn w k)
    (hk : k < evals (getResult c zero w).2) : (getResult c zero w).1 = .abort ∧ evals (getResult c zero w).2 = (getResult c zero w).2.length - 1 := by
  by_cases h0 : n = 0
  · simp [getResult, hn, h0, evals, discovery] at hk
  · have E := getResult_ends hd zero w hn h0
    generalize (getResult c zero w).1 = o at E
    generalize (getResult c zero w).2 = l at E hk
    cases E with
    | abort m _ _ _ =>
      refine ⟨rfl, ?_⟩
      have := form_evals (c := c) (zero := zero) (w := w) (n := n) (m := m + 1) (u := []) (.inl rfl)
      rw [List.append_nil] at this
      rw [this]; simp
    | after hI h1 hy =>
      rename_i s m
      have := form_evals (c := c) (zero := zero) (w := w) (n := n) (m := m) (u := []) (.inl rfl)
      rw [List.append_nil] at this
      rw [this] at hk
      rcases h1 with ⟨e, _⟩ | ⟨e, _, _, _, _, h5⟩
      · exact absurd ha (hI.abort k (by omega))
      · rcases Nat.lt_succ_iff_lt_or_eq.1 (e ▸ hk : k < s.k + 1) with g | g
        · exact absurd ha (hI.abort k g)
        · rw [g] at ha; exact absurd ha h5
    | done hI h1 hy =>
      rename_i s m
      rw [form_evals (by split; exacts [.inr ⟨_, rfl⟩, .inl rfl])] at hk
      rcases h1 with ⟨e, _⟩ | ⟨e, _, _, _, _, h5⟩
      · exact absurd ha (hI.abort k (by omega))
      · rcases Nat.lt_succ_iff_lt_or_eq.1 (by omega : k < s.k + 1) with g | g
        · exact absurd ha (hI.abort k g)
        · rw [g] at ha; exact absurd ha h5

/-- C128: if the flag is not raised and unknowns are found, there is a solver result. -/
theorem C128_runs {S : Type} {c : Cfg} (hd : c.den ≠ 0) {zero : S} {w : World S} {n : Nat} (hn : w.subs = some (n + 1)) (h : NoAbort w) :
    ∃ r, (getResult c zero w).1 = .done r := by
  have E := getResult_ends hd zero w hn (by omega)
  generalize (getResult c zero w).1 = o at E
  generalize (getResult c zero w).2 = l at E
  cases E with
  | abort k _ _ h1 => exact absurd h1 (h.1 k)
  | after _ _ h1 => rw [h.2.1] at h1; cases h1
  | done hI h1 ha => rw [h.2.2, if_neg (by simp)]; exact ⟨_, rfl⟩

/-- The flag raised while the last fits are made: code 0 and an empty result (Solver.cc:1168-1169). -/
theorem C128_refuted : ¬ C128_full := by
  intro h
  have := h ⟨1, 1, 1, true, true⟩ { exWorld with abortEnd := true, abortLast := true } (by decide) ⟨1, rfl⟩
    ⟨fun _ _ => rfl, fun _ => rfl⟩ rfl
  revert this; decide +kernel

example : NoAbort exWorld ∧ exWorld.subs = some 2 := by
  refine ⟨⟨?_, rfl, rfl⟩, rfl⟩
  rintro k (h | h | ⟨r, h, h'⟩)
  · cases h
  · cases h
  · simp [exWorld, exTurn, exReply] at h; subst h; cases h'

/-! ## C129: children that fail -/

/-- Full C129: if all children fail in an iteration that takes place, the solver fails. -/
def C129_full : Prop := ∀ (c : Cfg) (w : World Nat) (k : Nat), c.den ≠ 0 → NoAbort w → k < evals (getResult c 0 w).2 → AllFail w k →
  (getResult c 0 w).1 = .fail

/-- C129: children that fail, that miss data or wait count for nothing: all is as if they had not replied. -/
theorem C129_ignored_partial {S : Type} (c : Cfg) (zero : S) (w : World S) : getResult c zero (withoutFailures w) = getResult c zero w := by
  unfold getResult
  rw [show (withoutFailures w).subs = w.subs from rfl]
  simp only [withoutFailures_loop]
  rfl

/-- C129: a failure of the discovery is returned, and nothing more is sent. -/
theorem C129_discovery_partial {S : Type} (c : Cfg) (zero : S) (w : World S) (h : w.subs = none) :
    (getResult c zero w).1 = .fail ∧ (getResult c zero w).2.map (·.kind) = [.discover] := by
  simp [getResult, h, discovery]

/-- All children fail in all iterations: the solver returns a result. -/
theorem C129_refuted : ¬ C129_full := by
  intro h
  have := h ⟨3, 1, 1, true, true⟩ ⟨some 1, fun _ => ⟨false, false, [exFail], false, fun _ => (0, false), false⟩, false, false, false⟩ 0 (by decide)
    ⟨by rintro k (h | h | ⟨r, h, h'⟩) <;> simp_all [exFail], rfl, rfl⟩ (by decide +kernel) ⟨by simp, by simp [exFail]⟩
  revert this; decide +kernel

example : withoutFailures exTwice ≠ exTwice := by
  intro h
  have := congrArg (fun w => (w.turn 1).replies.length) h
  revert this; decide

/-! ## C130: saving -/

/-- Full C130: if saving is asked for and at least one iteration was made, the last request tells the parameters to save. -/
def C130_full : Prop := ∀ (c : Cfg) (w : World Nat) (r : Result Nat) (l : List (Req Nat)), c.den ≠ 0 → c.save = true → IntrStable w → Undisturbed w →
  getResult c 0 w = (.done r, l) → 0 < r.iterations → ∃ q, l.getLast? = some q ∧ Saves q

/-- C130: if the last update is asked for, all evaluations gave equations and no interrupt comes after the rider is filled, the last
request, and no other, tells to save. -/
theorem C130_partial {S : Type} {c : Cfg} (hd : c.den ≠ 0) (hs : c.save = true) (hu : c.lastUpdate = true) {zero : S} {w : World S} (hi : IntrStable w)
    (hp : Prompt w) {r l} (h : getResult c zero w = (.done r, l)) (h1 : 0 < r.iterations) (hx : evals l = r.iterations) :
    ∃ q l', l = l' ++ [q] ∧ Saves q ∧ ∀ q' ∈ l', ¬ Saves q' := by
  rcases hn : w.subs with _ | n
  · simp [getResult, hn] at h
  have h0 : n ≠ 0 := by rintro rfl; simp [getResult, hn] at h
  have E := getResult_ends hd zero w hn h0
  rw [h] at E
  dsimp only at E
  generalize ho : Out.done r = o at E
  generalize hl : l = l' at E
  cases E with
  | abort => cases ho
  | after => cases ho
  | done hI h2 ha =>
    rename_i s m
    split at ho
    · cases ho
    · cases ho
      rw [hl, form_evals (by split; exacts [.inr ⟨_, rfl⟩, .inl rfl])] at hx
      dsimp only at hx h1
      subst hx
      obtain ⟨k, hk⟩ : ∃ k, s.k = k + 1 := ⟨s.k - 1, by omega⟩
      rcases h2 with ⟨_, h2⟩ | ⟨e, _⟩
      · have hup : (c.lastUpdate && (s.k == c.max || w.intrEnd || s.converged)) = true := by
          rcases h2 with h2 | h2 | h2
          · simp [hu, h2]
          · simp [hu, h2]
          · simp [hu, hi.last _ h2]
        rw [if_pos hup]
        refine ⟨_, _, rfl, ?_, ?_⟩
        · rw [hk]
          refine ⟨_, rfl, ?_⟩
          dsimp only
          rw [hs, Bool.true_and, Bool.or_eq_true, Bool.or_eq_true, decide_eq_true_eq]
          rcases h2 with h2 | h2 | h2
          · right; omega
          · left; left
            obtain ⟨i, h3, h4⟩ := hI.conv.1 h2
            have : i = k := by omega
            subst this; simpa [convAt] using h4
          · left; right; rw [hk] at h2; exact hp k h2
        · intro q hq
          rcases List.mem_cons.1 hq with rfl | hq
          · rintro ⟨x, hx, _⟩; cases hx
          · obtain ⟨i, hi', rfl⟩ := List.mem_map.1 hq
            have hi' : i < s.k := by simpa using hi'
            rintro ⟨x, hx, hx'⟩
            cases i with
            | zero => cases hx
            | succ i =>
              cases hx
              dsimp only at hx'
              rw [hs, Bool.true_and, Bool.or_eq_true, Bool.or_eq_true, decide_eq_true_eq] at hx'
              rcases hx' with (hx' | hx') | hx'
              · exact hI.before i hi' (by simpa [convAt] using hx')
              · have := hi.next i hx'
                rw [hI.intr (i + 1) hi'] at this; cases this
              · have := hI.max; omega
      · omega

/-- C130: if saving is not asked for, no request tells to save. -/
theorem C130_not_asked {S : Type} {c : Cfg} (hd : c.den ≠ 0) (hs : c.save = false) (zero : S) (w : World S) {q : Req S}
    (hq : q ∈ (getResult c zero w).2) : ¬ Saves q := by
  have hr : ∀ n k x, riderAt c zero w n k = some x → x.save = false := by
    intro n k x h
    cases k with
    | zero => cases h
    | succ k => cases h; simp [hs]
  rcases hn : w.subs with _ | n
  · simp [getResult, hn] at hq; subst hq; rintro ⟨x, hx, _⟩; cases hx
  by_cases h0 : n = 0
  · simp [getResult, hn, h0] at hq; subst hq; rintro ⟨x, hx, _⟩; cases hx
  · obtain ⟨m, u, hm, hl, hu⟩ := (getResult_ends hd zero w hn h0).form
    rw [hl] at hq
    rintro ⟨x, hx, hx'⟩
    rcases List.mem_append.1 hq with hq | hq
    · rcases List.mem_cons.1 hq with rfl | hq
      · cases hx
      · obtain ⟨i, _, rfl⟩ := List.mem_map.1 hq
        rw [hr n i x hx] at hx'; cases hx'
    · rcases hu with rfl | ⟨k, rfl, _⟩
      · cases hq
      · simp at hq; subst hq
        rw [hr n k x hx] at hx'; cases hx'

/-- With the default (no last update) the command to save is put in a request that is never sent (Solver.cc:1115, 1205). -/
theorem C130_refuted : ¬ C130_full := by
  intro h
  obtain ⟨q, h1, x, h2, h3⟩ := h ⟨1, 1, 1, false, true⟩ exWorld ⟨false, 1, [[10, 11]]⟩ [⟨0, none, .discover, none⟩, ⟨1, some 2, .eval, none⟩] (by decide) rfl
    ⟨fun _ h => (nomatch h), fun _ h => (nomatch h), fun _ h => (nomatch h)⟩ ⟨fun _ => ⟨rfl, rfl⟩, rfl⟩ (by decide +kernel) (by decide)
  simp at h1; subst h1; cases h2

/-- With an interrupt just after the rider is filled the last update is sent, but without the command to save. -/
theorem C130_interrupt_not_saved : ∃ (w : World Nat) (r : Result Nat) (l : List (Req Nat)), IntrStable w ∧ w.intrEnd = true ∧
    getResult exCfg 0 w = (.done r, l) ∧ r.iterations = 1 ∧ evals l = 1 ∧ ∀ q ∈ l, ¬ Saves q := by
  refine ⟨{ exWorld with turn := fun k => { exWorld.turn k with intr := decide (1 ≤ k), intrFill := decide (1 ≤ k) }, intrEnd := true },
    ⟨false, 1, [[10, 11]]⟩, [⟨0, none, .discover, none⟩, ⟨1, some 2, .eval, none⟩, ⟨2, none, .update, some ⟨[10, 11], false, false⟩⟩], ⟨?_, ?_, ?_⟩,
    rfl, by decide +kernel, rfl, by decide, ?_⟩
  · intro k h; exact h
  · intro k h; simp at h ⊢
  · intro _ _; rfl
  · intro q hq
    simp at hq
    rcases hq with rfl | rfl | rfl <;> rintro ⟨x, h, h'⟩ <;> cases h
    cases h'

example : ∃ r l, getResult exCfg 0 exWorld = (.done r, l) ∧ 0 < r.iterations ∧ evals l = r.iterations ∧ Prompt exWorld :=
  ⟨⟨false, 3, [[10, 11], [20, 21], [0, 31]]⟩, (getResult exCfg 0 exWorld).2, by decide +kernel, by decide, by decide +kernel, by intro k h; cases h⟩

end Verif.SolveLoop
