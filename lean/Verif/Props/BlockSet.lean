import Verif.Spec.BlockSet
import Mathlib.Tactic.Common
/-!
# Properties of block sets (C11)
-/
namespace Verif.BlockSet
open BlockSetSpec

/-- The sets hold the queues' contents and report their lengths. -/
def Sim (f : Nat → BS) (q : Nat → List Bytes) : Prop := ∀ i, (f i).refs = q i ∧ (f i).cursize = (q i).length

theorem Sim.upd {f : Nat → BS} {q : Nat → List Bytes} (h : Sim f q) (i : Nat) {s : BS} {l : List Bytes}
    (h1 : s.refs = l) (h2 : s.cursize = l.length) : Sim (upd f i s) (put q i l) := by
  intro k
  by_cases e : k = i
  · simp [BlockSet.upd, put, e, h1, h2]
  · simpa [BlockSet.upd, put, e] using h k

theorem moveLoop_spec (n : Nat) (s out : BS) (h : n ≤ s.refs.length) :
    ∃ s' out', moveLoop n s out = .ok (s', out') ∧ s'.refs = s.refs.drop n ∧ s'.cursize = s.cursize ∧
      out'.refs = out.refs ++ s.refs.take n ∧ out'.cursize = out.cursize + n := by
  induction n generalizing s out with
  | zero => exact ⟨s, out, rfl, by simp, rfl, by simp, by simp⟩
  | succ n ih =>
    obtain ⟨refs, cs, cu⟩ := s
    cases refs with
    | nil => simp at h
    | cons b rest =>
      obtain ⟨s', out', h1, h2, h3, h4, h5⟩ := ih ⟨rest, cs, afterPop cu⟩ (push out b) (by simpa using h)
      refine ⟨s', out', by simpa [moveLoop] using h1, by simpa using h2, h3, by simpa [push] using h4, ?_⟩
      rw [h5]; simp [push]; omega

theorem step_sim {f f' : Nat → BS} {q : Nat → List Bytes} {o : Op} (h : Sim f q) (ho : Ordinary o)
    (he : step f o = .ok f') : Sim f' (act q o) := by
  cases o with
  | push i b =>
    simp [step] at he; subst he
    exact h.upd i (by simp [push, (h i).1]) (by simp [push, (h i).2])
  | pushFront i b =>
    simp [step] at he; subst he
    exact h.upd i (by simp [pushFront, (h i).1]) (by simp [pushFront, (h i).2])
  | pop i =>
    simp only [step, pop] at he
    obtain ⟨h1, h2⟩ := h i
    cases hr : (f i).refs with
    | nil => simp [hr] at he
    | cons b rest =>
      simp [hr] at he; subst he
      rw [hr] at h1
      exact h.upd i (by simp [← h1]) (by rw [← h1] at h2 ⊢; simp [h2])
  | clear i => simp [step] at he; subst he; exact h.upd i rfl rfl
  | popMove i j n =>
    simp only [step, popMove] at he
    obtain ⟨h1, h2⟩ := h i
    by_cases hn : (n : Int) > (f i).cursize
    · simp [hn] at he
    · rw [if_neg hn] at he
      have hn' : n ≤ (q i).length := by omega
      obtain ⟨s', out', e1, e2, e3, e4, e5⟩ := moveLoop_spec n (f i) (f j) (by rw [h1]; exact hn')
      rw [e1] at he
      simp at he; subst he
      simp only [act, if_pos hn']
      refine Sim.upd (h.upd i ?_ ?_) j ?_ ?_
      · simp [e2, h1]
      · simp [e3, h2]; omega
      · rw [e4, h1, (h j).1]
      · rw [e5, (h j).2]; simp; omega
  | pushCopy i j =>
    simp [step] at he; subst he
    exact h.upd i (by simp [pushCopy, (h i).1, (h j).1]) (by simp [pushCopy, (h i).2, (h j).2])
  | copyAll i j =>
    simp [step] at he; subst he
    exact h.upd j (by simp [copyAll, pushCopy, new, (h i).1]) (by simp [copyAll, pushCopy, new, (h i).2])
  | initCursor i =>
    simp [step] at he; subst he
    intro k
    by_cases e : k = i
    · subst e; simpa [upd, initCursor, act] using h k
    · simpa [upd, e, act] using h k
  | getCursor i n =>
    simp only [step, getCursor] at he
    cases hc : (f i).cursor with
    | none => simp [hc] at he
    | some c =>
      simp [hc] at he; subst he
      intro k
      by_cases e : k = i
      · subst e; simpa [upd, act] using h k
      · simpa [upd, e, act] using h k
  | flush i => exact absurd ho (by simp [Ordinary])

theorem step_err {f : Nat → BS} {q : Nat → List Bytes} {o : Op} (h : Sim f q) (he : step f o = .err) :
    act q o = q := by
  cases o with
  | popMove i j n =>
    simp only [step, popMove] at he
    by_cases hn : (n : Int) > (f i).cursize
    · have : ¬ n ≤ (q i).length := by rw [(h i).2] at hn; omega
      simp [act, this]
    · rw [if_neg hn] at he
      obtain ⟨s', out', e1, _⟩ := moveLoop_spec n (f i) (f j) (by rw [(h i).1]; rw [(h i).2] at hn; omega)
      simp [e1] at he
  | pop i => simp only [step, pop] at he; cases hr : (f i).refs <;> simp [hr] at he
  | getCursor i n => simp only [step, getCursor] at he; cases hc : (f i).cursor <;> simp [hc] at he
  | flush i => simp only [step, flush] at he; cases hc : (f i).cursor <;> simp [hc] at he
  | _ => simp [step] at he

/-- **C11, partial** (no flushing).  After any history of calls, every block set holds exactly the blocks
the corresponding queue holds, in the same order, and reports their number. -/
theorem C11_block_sets_are_queues_partial (ops : List Op) (ho : ∀ o ∈ ops, Ordinary o)
    (f : Nat → BS) (he : run ops (fun _ => new) = some f) (i : Nat) :
    (f i).refs = ops.foldl act (fun _ => []) i ∧
    (f i).cursize = (ops.foldl act (fun _ => []) i).length := by
  have main : ∀ (ops : List Op), (∀ o ∈ ops, Ordinary o) → ∀ g q f, Sim g q → run ops g = some f →
      Sim f (ops.foldl act q) := by
    intro ops
    induction ops with
    | nil => intro _ g q f h he; simp [run] at he; subst he; exact h
    | cons o os ih =>
      intro ho g q f h he
      simp only [run] at he
      cases hs : step g o with
      | ok g' =>
        simp only [hs] at he
        exact ih (fun o h => ho o (by simp [h])) g' _ f (step_sim h (ho o (by simp)) hs) he
      | err =>
        simp only [hs] at he
        simp only [List.foldl_cons, step_err h hs]
        exact ih (fun o h => ho o (by simp [h])) g _ f h he
      | ub => simp [hs] at he
  exact main ops ho _ _ f (fun i => by simp [new]) he i

/-- **C11.** First in, first out: the blocks popped, followed by those still held, are the blocks pushed,
in order; popping fails to be defined only on an empty set. -/
theorem C11_fifo (es : List (Option Bytes)) (s t : BS) (out : List Bytes) (h : serve es s = .ok (out, t)) :
    out ++ t.refs = s.refs ++ es.filterMap id := by
  induction es generalizing s out with
  | nil => simp [serve] at h; obtain ⟨rfl, rfl⟩ := h; simp
  | cons e es ih =>
    cases e with
    | some b =>
      simp only [serve] at h
      have := ih _ _ h
      simp [push] at this
      simpa using this
    | none =>
      simp only [serve, pop] at h
      cases hr : s.refs with
      | nil => simp [hr] at h
      | cons b rest =>
        simp only [hr] at h
        cases hs : serve es ⟨rest, s.cursize - 1, afterPop s.cursor⟩ with
        | ok p =>
          obtain ⟨bs, u⟩ := p
          simp [hs] at h; obtain ⟨rfl, rfl⟩ := h
          have := ih _ _ hs
          simpa using this
        | err => simp [hs] at h
        | ub => simp [hs] at h

/-- Full C11 (reported size) includes flushing to the cursor. -/
def C11_full : Prop :=
  ∀ (ops : List Op) f, run ops (fun _ => new) = some f → ∀ i, (f i).cursize = (f i).refs.length

/-- **C11 is false of the code** when blocks are flushed: after reading past the first of two blocks and
flushing, one block is held but two are reported (BlockSet.cc:108 erases without adjusting `cursize`). -/
theorem C11_flush_keeps_size : ¬ C11_full := by
  intro h
  let ops : List Op := [.push 0 [1], .push 0 [2], .initCursor 0, .getCursor 0 1, .getCursor 0 1, .flush 0]
  obtain ⟨f, hf, h1, h2⟩ : ∃ f, run ops (fun _ => new) = some f ∧ (f 0).cursize = 2 ∧ (f 0).refs = [] := by
    refine ⟨_, rfl, by decide, by decide⟩
  have := h ops f hf 0
  rw [h1, h2] at this
  simp at this

/-- What is left to read at a cursor position. -/
def left (refs : List Bytes) (i o : Nat) : Bytes :=
  match refs[i]? with
  | none => []
  | some b => b.drop o ++ (refs.drop (i + 1)).flatten

theorem left_next (refs : List Bytes) (i : Nat) : left refs i 0 = (refs.drop i).flatten := by
  unfold left
  cases h : refs[i]? with
  | none => simp at h; simp [List.drop_eq_nil_of_le h]
  | some b =>
    obtain ⟨hi, hb⟩ := List.getElem?_eq_some_iff.1 h
    rw [List.drop_eq_getElem_cons hi, hb]; simp

theorem getCursorFrom_spec (refs : List Bytes) (fuel i o size : Nat) (hf : refs.length < fuel + i) :
    ((getCursorFrom refs fuel i o size).1 = none → left refs i o = [] ∧
      left refs (getCursorFrom refs fuel i o size).2.1 (getCursorFrom refs fuel i o size).2.2 = []) ∧
    (∀ d, (getCursorFrom refs fuel i o size).1 = some d →
      left refs i o = d ++ left refs (getCursorFrom refs fuel i o size).2.1 (getCursorFrom refs fuel i o size).2.2 ∧
      d.length ≤ size ∧ (0 < size → d ≠ [])) := by
  induction fuel generalizing i o with
  | zero =>
    have : refs[i]? = none := by simp; omega
    simp [getCursorFrom, left, this]
  | succ fuel ih =>
    unfold getCursorFrom
    cases h : refs[i]? with
    | none => simp [left, h]
    | some b =>
      simp only
      by_cases hb : b.length - o = 0
      · rw [if_pos hb]
        have hl : left refs i o = left refs (i + 1) 0 := by
          rw [left_next]
          simp [left, h, List.drop_eq_nil_of_le (show b.length ≤ o by omega)]
        rw [hl]
        exact ih (i + 1) 0 (by omega)
      · rw [if_neg hb]
        refine ⟨by simp, ?_⟩
        intro d hd
        simp at hd; subst hd
        refine ⟨?_, by simp; omega, ?_⟩
        · simp only [left, h]
          rw [← List.append_assoc]
          congr 1
          rw [← List.drop_drop, List.take_append_drop]
        · intro hs hn
          have := congrArg List.length hn
          simp at this
          omega

/-- **C11.** Reading through the cursor: whatever the chunk sizes, the chunks handed out are, in order, a
prefix of the concatenated blocks, each no longer than asked for; the reported total is its length; and once
the cursor reports the end of data, everything has been handed out. -/
theorem C11_cursor_reads (s : BS) (ns : List Nat) :
    (initCursor s).1 = s.refs.flatten.length ∧
    ∃ ds t, reads ns (initCursor s).2 = .ok (ds, t) ∧ ds.length = ns.length ∧
      (∃ rest, (ds.filterMap id).flatten ++ rest = s.refs.flatten ∧ (none ∈ ds → rest = [])) ∧
      (∀ (k n : Nat) d, ns[k]? = some n → ds[k]? = some (some d) → d.length ≤ n ∧ (0 < n → d ≠ [])) := by
  refine ⟨by simp [initCursor, List.length_flatten], ?_⟩
  have main : ∀ (ns : List Nat) (refs : List Bytes) (cs : Int) (i o : Nat),
      ∃ ds t, reads ns ⟨refs, cs, some (i, o)⟩ = .ok (ds, t) ∧ ds.length = ns.length ∧
      (∃ rest, (ds.filterMap id).flatten ++ rest = left refs i o ∧ (none ∈ ds → rest = [])) ∧
      (∀ (k n : Nat) d, ns[k]? = some n → ds[k]? = some (some d) → d.length ≤ n ∧ (0 < n → d ≠ [])) := by
    intro ns
    induction ns with
    | nil => intro refs cs i o; exact ⟨[], _, rfl, rfl, ⟨left refs i o, by simp, by simp⟩, by simp⟩
    | cons n ns ih =>
      intro refs cs i o
      simp only [reads, getCursor]
      have sp := getCursorFrom_spec refs (refs.length + 1) i o n (by omega)
      generalize getCursorFrom refs (refs.length + 1) i o n = r at sp
      obtain ⟨d, i', o'⟩ := r
      obtain ⟨ds, t, h1, h2, ⟨rest, h3, h4⟩, h5⟩ := ih refs cs i' o'
      simp only at sp ⊢
      rw [h1]
      refine ⟨d :: ds, t, rfl, by simp [h2], ?_, ?_⟩
      · cases d with
        | none =>
          obtain ⟨sp1, sp2⟩ := sp.1 rfl
          rw [sp2] at h3
          simp at h3
          refine ⟨[], ?_, fun _ => rfl⟩
          simp [sp1]; exact h3.1
        | some d =>
          obtain ⟨sp1, _⟩ := sp.2 d rfl
          exact ⟨rest, by rw [sp1, ← h3]; simp, by simpa using h4⟩
      · intro k n' d' hk hd
        cases k with
        | zero =>
          simp at hk hd; subst hk
          exact (sp.2 d' (by rw [hd])).2
        | succ k => exact h5 k n' d' (by simpa using hk) (by simpa using hd)
  obtain ⟨ds, t, h1, h2, h3, h4⟩ := main ns s.refs s.cursize 0 0
  rw [left_next] at h3
  exact ⟨ds, t, h1, h2, by simpa using h3, h4⟩

/-- **C11.** Flushing never drops unread data: what is left to read at the cursor is the same before and
after. -/
theorem C11_flush_keeps_unread (s t : BS) (i o : Nat) (n : Int) (hc : s.cursor = some (i, o))
    (h : flush s = .ok (n, t)) : ∃ i' o', t.cursor = some (i', o') ∧ left t.refs i' o' = left s.refs i o := by
  have main : ∀ (refs : List Bytes) fuel i o, refs.length < fuel + i →
      left (refs.drop (advance refs fuel i o).1) 0 (advance refs fuel i o).2 = left refs i o := by
    intro refs fuel
    have base : ∀ i o, left (refs.drop i) 0 o = left refs i o := by
      intro i o; simp [left, List.getElem?_drop]
    induction fuel with
    | zero => intro i o _; exact base i o
    | succ fuel ih =>
      intro i o hf
      simp only [advance]
      cases hr : refs[i]? with
      | none => exact base i o
      | some b =>
        simp only
        by_cases hb : o ≥ b.length
        · rw [if_pos hb, ih (i + 1) 0 (by omega), left_next]
          simp [left, hr, List.drop_eq_nil_of_le hb]
        · rw [if_neg hb]; exact base i o
  simp only [flush, hc] at h
  simp at h
  obtain ⟨_, rfl⟩ := h
  exact ⟨_, _, rfl, main s.refs _ i o (by omega)⟩

/-! Non-trivial cases. -/
example : (run [.push 0 [1, 2], .push 0 [3], .popMove 0 1 1, .pushCopy 1 0, .pop 0] (fun _ => new)).map
    (fun f => ((f 0).refs, (f 1).refs, (f 1).cursize)) = some ([], [[1, 2], [3]], 2) := by decide
example : serve [some [1], some [2], none, some [3], none] new = .ok ([[1], [2]], ⟨[[3]], 1, none⟩) := by decide
example : (reads [2, 5, 0, 5, 5] (initCursor (push (push (push new [1, 2, 3]) []) [4])).2) =
    .ok ([some [1, 2], some [3], some [], some [4], none], ⟨[[1, 2, 3], [], [4]], 3, some (3, 0)⟩) := by decide

end Verif.BlockSet
