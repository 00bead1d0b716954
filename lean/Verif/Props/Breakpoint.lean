import Verif.Proof.Breakpoint
/-! # Properties of breakpoints (C33) -/
namespace Verif.Breakpoint

/-- **C33.** At all times a node is flagged as having (single-shot) breakpoints iff the corresponding mask is not
empty. -/
theorem C33_flags (ops : List Op) (n : Nat) :
    (((runFrom init ops).node n).flagBp = true ↔ ((runFrom init ops).node n).bp ≠ 0) ∧
      (((runFrom init ops).node n).flagSs = true ↔ ((runFrom init ops).node n).ss ≠ 0) := by
  have : ∀ (l : List Op) s, (∀ n, Agree (s.node n)) → ∀ n, Agree ((runFrom s l).node n) := by
    intro l
    induction l with
    | nil => exact fun s h => h
    | cons op l ih => exact fun s h => ih _ (fun n => agree_step s h op n)
  exact this ops init (fun n => by simp [Agree, init]) n

/-- **C33.** Execution stops in an execution state iff it is not being aborted and some breakpoint, of the node or
global, single-shot or persistent, is set for it. -/
theorem C33_stops_iff (s : St) (n es : Nat) (f a : Bool) :
    ((step s (.event n es f a)).2.isSome = true ↔
      a = false ∧ ((s.node n).ss &&& eventMask es f ≠ 0 ∨ (s.node n).bp &&& eventMask es f ≠ 0 ∨
        s.gss &&& eventMask es f ≠ 0 ∨ s.gbp &&& eventMask es f ≠ 0)) := by
  simp only [step, event]
  cases a
  · simp only [Bool.false_eq_true, if_false, true_and]
    split
    · rename_i h; simp [h]
    split
    · rename_i h1 h2; simp [h2]
    rename_i h1 h2
    have e : (checkGlobal s (eventMask es f)).2.1 = true ↔ s.gss &&& eventMask es f ≠ 0 ∨ s.gbp &&& eventMask es f ≠ 0 := by
      unfold checkGlobal
      split
      · rename_i h3; simp [h3]
      · rename_i h3; simp only [decide_eq_true_eq]; tauto
    split
    · rename_i h3
      simp only [Option.isSome_some, true_iff]
      right; right; exact e.1 h3
    · rename_i h3
      simp only [Option.isSome_none, Bool.false_eq_true, false_iff]
      rintro (h | h | h)
      · exact h1 h
      · exact h2 h
      · exact h3 (e.2 h)
  · simp

/-- **C33.** A node stops at its single-shot breakpoints at most as often as they have been set. -/
theorem C33_single_shot (ops : List Op) (n : Nat) :
    (stops init ops).countP (isSsStop n) ≤ ops.countP (setsSs n) := by
  have := ss_count n ops init
  simpa [init] using this

/-- From any state on, a node stops at its single-shot breakpoints at most once until they are set anew. -/
theorem C33_single_shot_once (s : St) (ops : List Op) (n : Nat) (h : ∀ op ∈ ops, setsSs n op = false) :
    (stops s ops).countP (isSsStop n) ≤ 1 := by
  have h1 := ss_count n ops s
  have h2 : ops.countP (setsSs n) = 0 := List.countP_eq_zero.2 fun op ho => by simp [h op ho]
  rw [h2] at h1
  split at h1 <;> omega

/-- **C33.** The same for global single-shot breakpoints. -/
theorem C33_global_single_shot (ops : List Op) :
    (stops init ops).countP (fun e => e.2.globalSs) ≤ ops.countP setsGlobalSs := by
  have := gss_count ops init
  simpa [init] using this

/-- **C33.** A persistent breakpoint keeps firing: as long as the node's persistent breakpoints are not set or cleared,
every time it enters a state they are set for, it stops. -/
theorem C33_persistent (s : St) (ops : List Op) (n es : Nat) (f : Bool) (h : ∀ op ∈ ops, touchesBp n op = false)
    (hb : (s.node n).bp.testBit es = true) : (step (runFrom s ops) (.event n es f false)).2.isSome = true := by
  have : ((runFrom s ops).node n).bp = (s.node n).bp := by
    clear hb
    induction ops generalizing s with
    | nil => rfl
    | cons op l ih =>
      show ((runFrom (step s op).1 l).node n).bp = _
      rw [ih (step s op).1 (fun o ho => h o (List.mem_cons_of_mem _ ho)), bp_step n s op (h op List.mem_cons_self)]
  rw [C33_stops_iff]
  refine ⟨rfl, Or.inr (Or.inl ?_)⟩
  rw [this]
  intro hz
  have : ((s.node n).bp &&& eventMask es f).testBit es = true := by
    rw [Nat.testBit_and, hb, (eventMask_bit es f es).2 (Or.inl rfl)]; rfl
  rw [hz] at this
  simp at this

/-- Setting and clearing change exactly the given bits. -/
theorem C33_masks (x : Node) (m : Nat) (i : Nat) :
    (setBp x m false).bp.testBit i = (x.bp.testBit i || m.testBit i) ∧ (setBp x m false).ss = x.ss ∧
    (setBp x m true).ss.testBit i = (x.ss.testBit i || m.testBit i) ∧ (setBp x m true).bp = x.bp ∧
    (clearBp x m false).bp.testBit i = (x.bp.testBit i && !m.testBit i) ∧ (clearBp x m false).ss = x.ss ∧
    (clearBp x m true).ss.testBit i = (x.ss.testBit i && !m.testBit i) ∧ (clearBp x m true).bp = x.bp := by
  have hw : ∀ a : Nat, (without a m).testBit i = (a.testBit i && !m.testBit i) := by
    intro a
    unfold without
    rw [Nat.testBit_xor, Nat.testBit_and]
    cases a.testBit i <;> cases m.testBit i <;> rfl
  exact ⟨Nat.testBit_or .., rfl, Nat.testBit_or .., rfl, hw _, rfl, hw _, rfl⟩

/-- A single-shot and a persistent breakpoint on node 3: the first event uses up the single-shot, the second stops at the
persistent one, the third at none. -/
example : stops init [.set 3 0b10010 true, .set 3 0b100 false, .event 3 1 false false, .event 3 2 false false,
      .event 3 4 false false, .event 3 1 false false] =
    [(.event 3 1 false false, ⟨false, false, true, false⟩), (.event 3 2 false false, ⟨false, false, false, true⟩)] := by
  decide +kernel

end Verif.Breakpoint
