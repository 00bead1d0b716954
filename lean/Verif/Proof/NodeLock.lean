import Verif.Spec.NodeLock
import Mathlib.Data.List.Basic
import Mathlib.Algebra.BigOperators.Group.Finset.Basic
import Mathlib.Algebra.Order.BigOperators.Group.Finset
/-! # Lemmas about threads at one node -/
namespace Verif.NodeLock

def hasExec : Pc → Bool
  | .wantState | .check | .checkStopped | .checkRelock | .finish | .finStopped | .finRelock | .done | .doneE | .hHold => true
  | _ => false

def hasState : Pc → Bool
  | .check | .body | .wantExec2 | .finish | .done | .doneS | .sHold => true
  | _ => false

def runs : Pc → Bool
  | .wantState | .check | .checkStopped | .checkRelock | .body | .bodyOut | .bodyRelock | .wantExec2 | .finish | .finStopped | .finRelock => true
  | _ => false

theorem runs_iff (p : Pc) : runs p = true ↔ Running p := by cases p <;> simp [runs, Running]

structure Inv (s : St) : Prop where
  exec : ∀ i, s.exec = some i ↔ hasExec (s.pcs i) = true
  state : ∀ i, s.state = some i ↔ hasState (s.pcs i) = true
  flag : s.executing = true ↔ ∃ i, runs (s.pcs i) = true
  one : ∀ i j, runs (s.pcs i) = true → runs (s.pcs j) = true → i = j
  wait : ∀ i, s.pcs i = .waiting → s.executing = true

theorem inv_init : Inv init := by
  refine ⟨fun i => ?_, fun i => ?_, ?_, fun i j h => ?_, fun i h => ?_⟩ <;> simp_all [init, hasExec, hasState, runs]

theorem put_same (f : Nat → Pc) (i : Nat) (p : Pc) : put f i p i = p := by simp [put]
theorem put_other (f : Nat → Pc) (i j : Nat) (p : Pc) (h : j ≠ i) : put f i p j = f j := by simp [put, h]

/-- How a mutex's owner may change when a thread moves. -/
def OwnerOk (has : Pc → Bool) (i : Nat) (p p' : Pc) (o o' : Option Nat) : Prop :=
  (has p' = true ∧ o' = some i ∧ (has p = true ∨ o = none)) ∨ (has p' = false ∧ has p = true ∧ o' = none) ∨ (has p' = false ∧ has p = false ∧ o' = o)

theorem owner_keep (has : Pc → Bool) (f : Nat → Pc) (o o' : Option Nat) (i : Nat) (p' : Pc) (h : ∀ j, o = some j ↔ has (f j) = true)
    (hk : OwnerOk has i (f i) p' o o') : ∀ j, o' = some j ↔ has (put f i p' j) = true := by
  intro j
  rcases hk with ⟨h1, h2, h3⟩ | ⟨h1, h2, h3⟩ | ⟨h1, h2, h3⟩
  · by_cases hj : j = i
    · subst hj; simp [put_same, h1, h2]
    · rw [put_other f i j p' hj, h2]
      constructor
      · intro e; injection e with e; exact absurd e.symm hj
      · intro e
        rcases h3 with h3 | h3
        · have := ((h i).2 h3).symm.trans ((h j).2 e)
          injection this with this; exact absurd this.symm hj
        · have := (h j).2 e; rw [h3] at this; cases this
  · by_cases hj : j = i
    · subst hj; simp [put_same, h1, h3]
    · rw [put_other f i j p' hj, h3]
      constructor
      · intro e; cases e
      · intro e
        have := ((h i).2 h2).symm.trans ((h j).2 e)
        injection this with this; exact absurd this.symm hj
  · by_cases hj : j = i
    · subst hj; rw [put_same, h1, h3, h j, h2]
    · rw [put_other f i j p' hj, h3, h j]

/-- Moves that change neither `executing_` nor whether the thread is running. -/
theorem inv_move (s : St) (i : Nat) (p' : Pc) (e' st' : Option Nat) (hs : Inv s) (he : OwnerOk hasExec i (s.pcs i) p' s.exec e')
    (hst : OwnerOk hasState i (s.pcs i) p' s.state st') (hr : runs p' = runs (s.pcs i)) (hw : p' = .waiting → s.executing = true) :
    Inv ⟨e', st', s.executing, put s.pcs i p'⟩ := by
  have hrun : ∀ j, runs (put s.pcs i p' j) = runs (s.pcs j) := by
    intro j
    by_cases hj : j = i
    · subst hj; rw [put_same, hr]
    · rw [put_other _ _ _ _ hj]
  refine ⟨owner_keep _ _ _ _ _ _ hs.exec he, owner_keep _ _ _ _ _ _ hs.state hst, ?_, ?_, ?_⟩
  · dsimp only; simp only [hrun]; exact hs.flag
  · intro a b; dsimp only; rw [hrun, hrun]; exact hs.one a b
  · intro j h
    dsimp only at h ⊢
    by_cases hj : j = i
    · subst hj; rw [put_same] at h; exact hw h
    · rw [put_other _ _ _ _ hj] at h; exact hs.wait j h

theorem inv_begin (s : St) (i : Nat) (hs : Inv s) (hp : s.pcs i = .wantExec) (he : s.exec = none) (hx : s.executing = false) :
    Inv ⟨some i, s.state, true, put s.pcs i .wantState⟩ := by
  have hno : ∀ j, runs (s.pcs j) = false := by
    intro j
    cases h : runs (s.pcs j) with
    | false => rfl
    | true => have := hs.flag.2 ⟨j, h⟩; rw [hx] at this; cases this
  refine ⟨owner_keep _ _ _ _ _ _ hs.exec (Or.inl ⟨rfl, rfl, Or.inr he⟩), owner_keep _ _ _ _ _ _ hs.state (Or.inr (Or.inr ⟨rfl, by rw [hp]; rfl, rfl⟩)), ?_, ?_, fun _ _ => rfl⟩
  · exact ⟨fun _ => ⟨i, by dsimp only; rw [put_same]; rfl⟩, fun _ => rfl⟩
  · intro a b ha hb
    dsimp only at ha hb
    by_cases h1 : a = i
    · by_cases h2 : b = i
      · rw [h1, h2]
      · rw [put_other _ _ _ _ h2, hno] at hb; cases hb
    · rw [put_other _ _ _ _ h1, hno] at ha; cases ha

theorem inv_end (s : St) (i : Nat) (hs : Inv s) (hp : s.pcs i = .finish) : Inv ⟨s.exec, s.state, false, put (wakeAll s.pcs) i .done⟩ := by
  have hw : ∀ (has : Pc → Bool), has .wantExec = has .waiting → ∀ j, has (wakeAll s.pcs j) = has (s.pcs j) := by
    intro has e j
    unfold wakeAll
    split
    · rename_i h; rw [h, e]
    · rfl
  have hE : ∀ j, s.exec = some j ↔ hasExec (wakeAll s.pcs j) = true := fun j => by rw [hw hasExec rfl]; exact hs.exec j
  have hS : ∀ j, s.state = some j ↔ hasState (wakeAll s.pcs j) = true := fun j => by rw [hw hasState rfl]; exact hs.state j
  have hi : wakeAll s.pcs i = .finish := by unfold wakeAll; rw [hp]; rfl
  have hno : ∀ j, runs (put (wakeAll s.pcs) i .done j) = false := by
    intro j
    by_cases hj : j = i
    · subst hj; rw [put_same]; rfl
    · rw [put_other _ _ _ _ hj, hw runs rfl]
      cases h : runs (s.pcs j) with
      | false => rfl
      | true => exact absurd (hs.one j i h (by rw [hp]; rfl)) hj
  refine ⟨owner_keep _ _ _ _ _ _ hE (Or.inl ⟨rfl, ((hs.exec i).2 (by rw [hp]; rfl)), Or.inl (by rw [hi]; rfl)⟩),
    owner_keep _ _ _ _ _ _ hS (Or.inl ⟨rfl, ((hs.state i).2 (by rw [hp]; rfl)), Or.inl (by rw [hi]; rfl)⟩), ?_, ?_, ?_⟩
  · dsimp only; simp [hno]
  · intro a b h; dsimp only at h; rw [hno] at h; cases h
  · intro j h
    dsimp only at h
    by_cases hj : j = i
    · subst hj; rw [put_same] at h; cases h
    · rw [put_other _ _ _ _ hj] at h
      unfold wakeAll at h
      split at h
      · cases h
      · contradiction

theorem inv_step (s s' : St) (i : Nat) (a : Act) (hs : Inv s) (h : step s i a = some s') : Inv s' := by
  have hE := hs.exec i
  have hS := hs.state i
  unfold step takeExec takeState at h
  cases hp : s.pcs i <;> cases a <;> rw [hp] at h <;> dsimp only at h <;> (try (cases h; done)) <;>
    first
    | (injection h with h; subst h
       refine inv_move s i _ _ _ hs ?_ ?_ ?_ ?_ <;> simp_all [OwnerOk, hasExec, hasState, runs] ; done)
    | (injection h with h; subst h; exact inv_end s i hs hp)
    | (split at h
       · split at h
         · injection h with h; subst h
           rename_i hx
           have := inv_move s i .waiting s.exec s.state hs
           simp_all [OwnerOk, hasExec, hasState, runs]
         · injection h with h; subst h
           exact inv_begin s i hs hp (by assumption) (by simpa using ‹¬ s.executing = true›)
       · cases h)
    | (split at h
       · injection h with h; subst h
         refine inv_move s i _ _ _ hs ?_ ?_ ?_ ?_ <;> simp_all [OwnerOk, hasExec, hasState, runs]
       · cases h)

theorem inv_run (l : List (Nat × Act)) (s s' : St) (hs : Inv s) (h : run s l = some s') : Inv s' := by
  induction l generalizing s with
  | nil => injection h with h; subst h; exact hs
  | cons e l ih =>
    obtain ⟨i, a⟩ := e
    unfold run at h
    cases hst : step s i a with
    | none => rw [hst] at h; cases h
    | some s1 => rw [hst] at h; exact ih s1 (inv_step s s1 i a hs hst) h

theorem inv_reachable (s : St) (h : Reachable s) : Inv s := by
  obtain ⟨l, hl⟩ := h
  exact inv_run l init s inv_init hl

/-! ## Progress -/

theorem held_exec (s : St) (hs : Inv s) (h : s.exec ≠ none) : ∃ i, hasExec (s.pcs i) = true := by
  cases he : s.exec with
  | none => exact absurd he h
  | some i => exact ⟨i, (hs.exec i).1 he⟩

theorem held_state (s : St) (hs : Inv s) (h : s.state ≠ none) : ∃ i, hasState (s.pcs i) = true := by
  cases he : s.state with
  | none => exact absurd he h
  | some i => exact ⟨i, (hs.state i).1 he⟩

/-- A thread that can go on, not just to sleep. -/
def CanGo (s : St) : Prop := ∃ i s', s.pcs i ≠ .idle ∧ step s i .go = some s' ∧ (s.pcs i = .wantExec → s.executing = false)

/-- A thread done or in one of the short calls can always go on. -/
theorem free_go (s : St) (i : Nat) (h : s.pcs i = .done ∨ s.pcs i = .doneE ∨ s.pcs i = .doneS ∨ s.pcs i = .hHold ∨ s.pcs i = .sHold) : CanGo s := by
  rcases h with h | h | h | h | h
  all_goals exact ⟨i, _, by rw [h]; simp, by unfold step; rw [h], by rw [h]; intro e; cases e⟩

theorem takeState_go (s : St) (i : Nat) (p : Pc) (hp : s.pcs i ≠ .idle) (hne : s.pcs i ≠ .wantExec) (hgo : step s i .go = takeState s i p)
    (hs : Inv s) (hr : runs (s.pcs i) = true ∨ s.executing = false) (hst : hasState (s.pcs i) = false) : CanGo s := by
  by_cases hf : s.state = none
  · exact ⟨i, _, hp, by rw [hgo]; unfold takeState; rw [if_pos hf], fun e => absurd e hne⟩
  · obtain ⟨j, hj⟩ := held_state s hs hf
    have hnr : runs (s.pcs j) = false := by
      cases hrj : runs (s.pcs j) with
      | false => rfl
      | true =>
        rcases hr with hr | hr
        · have := hs.one i j hr hrj
          subst this; rw [hst] at hj; cases hj
        · have := hs.flag.2 ⟨j, hrj⟩; rw [hr] at this; cases this
    refine free_go s j ?_
    cases hpj : s.pcs j <;> rw [hpj] at hj hnr <;> simp_all [hasState, runs]

theorem takeExec_go (s : St) (i : Nat) (p : Pc) (hp : s.pcs i ≠ .idle) (hne : s.pcs i ≠ .wantExec) (hgo : step s i .go = takeExec s i p)
    (hs : Inv s) (hr : runs (s.pcs i) = true ∨ s.executing = false) (hst : hasExec (s.pcs i) = false) : CanGo s := by
  by_cases hf : s.exec = none
  · exact ⟨i, _, hp, by rw [hgo]; unfold takeExec; rw [if_pos hf], fun e => absurd e hne⟩
  · obtain ⟨j, hj⟩ := held_exec s hs hf
    have hnr : runs (s.pcs j) = false := by
      cases hrj : runs (s.pcs j) with
      | false => rfl
      | true =>
        rcases hr with hr | hr
        · have := hs.one i j hr hrj
          subst this; rw [hst] at hj; cases hj
        · have := hs.flag.2 ⟨j, hrj⟩; rw [hr] at this; cases this
    refine free_go s j ?_
    cases hpj : s.pcs j <;> rw [hpj] at hj hnr <;> simp_all [hasExec, runs]

theorem progress (s : St) (hs : Inv s) (j : Nat) (hj : s.pcs j ≠ .idle) : CanGo s := by
  cases hx : s.executing with
  | true =>
    obtain ⟨i, hi⟩ := hs.flag.1 hx
    cases hp : s.pcs i <;> rw [hp] at hi <;> (try (cases hi; done))
    case wantState => exact takeState_go s i .check (by rw [hp]; simp) (by rw [hp]; simp) (by unfold step; rw [hp]) hs (Or.inl (by rw [hp]; rfl)) (by rw [hp]; rfl)
    case checkRelock => exact takeState_go s i .check (by rw [hp]; simp) (by rw [hp]; simp) (by unfold step; rw [hp]) hs (Or.inl (by rw [hp]; rfl)) (by rw [hp]; rfl)
    case bodyRelock => exact takeState_go s i .body (by rw [hp]; simp) (by rw [hp]; simp) (by unfold step; rw [hp]) hs (Or.inl (by rw [hp]; rfl)) (by rw [hp]; rfl)
    case finRelock => exact takeState_go s i .finish (by rw [hp]; simp) (by rw [hp]; simp) (by unfold step; rw [hp]) hs (Or.inl (by rw [hp]; rfl)) (by rw [hp]; rfl)
    case wantExec2 => exact takeExec_go s i .finish (by rw [hp]; simp) (by rw [hp]; simp) (by unfold step; rw [hp]) hs (Or.inl (by rw [hp]; rfl)) (by rw [hp]; rfl)
    all_goals exact ⟨i, _, by rw [hp]; simp, by unfold step; rw [hp], by rw [hp]; intro e; cases e⟩
  | false =>
    have hnr : ∀ i, runs (s.pcs i) = false := by
      intro i
      cases h : runs (s.pcs i) with
      | false => rfl
      | true => have := hs.flag.2 ⟨i, h⟩; rw [hx] at this; cases this
    have hn := hnr j
    cases hp : s.pcs j <;> rw [hp] at hn <;> (try (cases hn; done))
    case idle => exact absurd hp hj
    case waiting => have := hs.wait j hp; rw [hx] at this; cases this
    case wantExec =>
      by_cases hf : s.exec = none
      · exact ⟨j, _, hj, by unfold step; rw [hp]; dsimp only; rw [if_pos hf, if_neg (by rw [hx]; simp)], fun _ => hx⟩
      · obtain ⟨k, hk⟩ := held_exec s hs hf
        refine free_go s k ?_
        have := hnr k
        cases hpk : s.pcs k <;> rw [hpk] at hk this <;> simp_all [hasExec, runs]
    case hWant => exact takeExec_go s j .hHold hj (by rw [hp]; simp) (by unfold step; rw [hp]) hs (Or.inr hx) (by rw [hp]; rfl)
    case sWant => exact takeState_go s j .sHold hj (by rw [hp]; simp) (by unfold step; rw [hp]) hs (Or.inr hx) (by rw [hp]; rfl)
    all_goals exact free_go s j (by rw [hp]; simp)

/-! ## Ending -/

/-- Executions not ended yet. -/
def toRun : Pc → Nat
  | .wantExec | .waiting => 1
  | p => if runs p then 1 else 0

/-- Steps to come. -/
def left : Pc → Nat
  | .idle => 0
  | .doneE | .doneS | .hHold | .sHold => 1
  | .done | .hWant | .sWant => 2
  | .finish => 3
  | .finRelock | .wantExec2 => 4
  | .finStopped | .body => 5
  | .bodyRelock | .check => 6
  | .bodyOut | .checkRelock | .wantState => 7
  | .checkStopped | .waiting => 8
  | .wantExec => 9

/-- The measure. -/
def meas (n : Nat) (s : St) : Nat := (∑ i ∈ Finset.range n, toRun (s.pcs i)) * (9 * n + 1) + ∑ i ∈ Finset.range n, left (s.pcs i)

theorem left_le (p : Pc) : left p ≤ 9 := by cases p <;> simp [left]

theorem meas_move (n : Nat) (s : St) (f : Nat → Pc) (e' st' : Option Nat) (x' : Bool) (i : Nat) (hi : i < n)
    (h1 : ∀ j, toRun (f j) ≤ toRun (s.pcs j)) (h2 : ∀ j, left (f j) ≤ left (s.pcs j)) (h3 : left (f i) < left (s.pcs i)) :
    meas n ⟨e', st', x', f⟩ < meas n s := by
  unfold meas
  dsimp only
  have a1 : (∑ j ∈ Finset.range n, toRun (f j)) ≤ ∑ j ∈ Finset.range n, toRun (s.pcs j) := Finset.sum_le_sum fun j _ => h1 j
  have a2 : (∑ j ∈ Finset.range n, left (f j)) < ∑ j ∈ Finset.range n, left (s.pcs j) :=
    Finset.sum_lt_sum (fun j _ => h2 j) ⟨i, Finset.mem_range.2 hi, h3⟩
  have := Nat.mul_le_mul_right (9 * n + 1) a1
  omega

theorem meas_end (n : Nat) (s : St) (f : Nat → Pc) (e' st' : Option Nat) (x' : Bool) (i : Nat) (hi : i < n)
    (h1 : ∀ j, toRun (f j) ≤ toRun (s.pcs j)) (h3 : toRun (f i) < toRun (s.pcs i)) : meas n ⟨e', st', x', f⟩ < meas n s := by
  unfold meas
  dsimp only
  have a1 : (∑ j ∈ Finset.range n, toRun (f j)) + 1 ≤ ∑ j ∈ Finset.range n, toRun (s.pcs j) :=
    Finset.sum_lt_sum (fun j _ => h1 j) ⟨i, Finset.mem_range.2 hi, h3⟩
  have a2 : (∑ j ∈ Finset.range n, left (f j)) ≤ n * 9 := by
    calc (∑ j ∈ Finset.range n, left (f j)) ≤ ∑ _j ∈ Finset.range n, 9 := Finset.sum_le_sum fun j _ => left_le _
      _ = n * 9 := by simp
  have := Nat.mul_le_mul_right (9 * n + 1) a1
  rw [Nat.add_mul] at this
  omega

theorem put_le (g : Pc → Nat) (f : Nat → Pc) (i : Nat) (p : Pc) (h : g p ≤ g (f i)) : ∀ j, g (put f i p j) ≤ g (f j) := by
  intro j
  by_cases hj : j = i
  · subst hj; rw [put_same]; exact h
  · rw [put_other _ _ _ _ hj]

set_option maxHeartbeats 2000000 in
/-- Steps that are not new calls, stops or idle wake-ups bring the end nearer. -/
theorem meas_step (n : Nat) (s s' : St) (i : Nat) (a : Act) (hn : ∀ j, n ≤ j → s.pcs j = .idle) (ha : a = .go ∨ a = .hit ∨ a = .alt)
    (h : step s i a = some s') : meas n s' < meas n s ∧ ∀ j, n ≤ j → s'.pcs j = .idle := by
  have hi : s.pcs i ≠ .idle := by
    intro hp
    unfold step at h
    rw [hp] at h
    rcases ha with rfl | rfl | rfl <;> cases h
  have hin : i < n := by
    by_contra hc
    exact hi (hn i (by omega))
  have hidle : ∀ p, ∀ j, n ≤ j → put s.pcs i p j = .idle := fun p j hj => by rw [put_other _ _ _ _ (by omega)]; exact hn j hj
  have key : ∀ p e' st' x', toRun p ≤ toRun (s.pcs i) → left p < left (s.pcs i) →
      meas n ⟨e', st', x', put s.pcs i p⟩ < meas n s ∧ ∀ j, n ≤ j → put s.pcs i p j = .idle := by
    intro p e' st' x' h1 h2
    exact ⟨meas_move n s _ _ _ _ i hin (put_le toRun _ _ _ h1) (put_le left _ _ _ (le_of_lt h2)) (by rw [put_same]; exact h2), hidle p⟩
  unfold step takeExec takeState at h
  rcases ha with rfl | rfl | rfl
  all_goals
    cases hp : s.pcs i <;> rw [hp] at h <;> dsimp only at h <;> (try (cases h; done)) <;>
    first
    | (injection h with h; subst h; exact key _ _ _ _ (by rw [hp]; decide) (by rw [hp]; decide))
    | (split at h
       · split at h
         · injection h with h; subst h; exact key _ _ _ _ (by rw [hp]; decide) (by rw [hp]; decide)
         · injection h with h; subst h; exact key _ _ _ _ (by rw [hp]; decide) (by rw [hp]; decide)
       · cases h)
    | (split at h
       · injection h with h; subst h; exact key _ _ _ _ (by rw [hp]; decide) (by rw [hp]; decide)
       · cases h)
    | (injection h with h; subst h
       have hw : ∀ j, toRun (wakeAll s.pcs j) ≤ toRun (s.pcs j) := by
         intro j
         unfold wakeAll
         split
         · rename_i hj; rw [hj]; decide
         · exact le_refl _
       refine ⟨meas_end n s _ _ _ _ i hin (fun j => ?_) (by rw [put_same, hp]; decide), fun j hj => ?_⟩
       · by_cases hj : j = i
         · subst hj; rw [put_same, hp]; decide
         · rw [put_other _ _ _ _ hj]; exact hw j
       · dsimp only
         rw [put_other _ _ _ _ (by omega)]
         unfold wakeAll
         rw [hn j hj]; rfl)

set_option maxHeartbeats 2000000 in
/-- In a reachable state all but some threads are outside. -/
theorem reach_bound (l : List (Nat × Act)) (s s' : St) (n : Nat) (hn : ∀ j, n ≤ j → s.pcs j = .idle) (h : run s l = some s') : ∃ n', ∀ j, n' ≤ j → s'.pcs j = .idle := by
  induction l generalizing s n with
  | nil => injection h with h; subst h; exact ⟨n, hn⟩
  | cons e l ih =>
    obtain ⟨i, a⟩ := e
    unfold run at h
    cases hst : step s i a with
    | none => rw [hst] at h; cases h
    | some s1 =>
      rw [hst] at h
      refine ih s1 (max n (i + 1)) (fun j hj => ?_) h
      have hj1 : n ≤ j := le_trans (le_max_left _ _) hj
      have hj2 : j ≠ i := by
        have := le_trans (le_max_right n (i + 1)) hj
        omega
      have hnj := hn j hj1
      have hput : ∀ p, put s.pcs i p j = .idle := fun p => by rw [put_other _ _ _ _ hj2]; exact hnj
      have hputw : ∀ p, put (wakeAll s.pcs) i p j = .idle := fun p => by
        rw [put_other _ _ _ _ hj2]; unfold wakeAll; rw [hnj]; rfl
      unfold step takeExec takeState at hst
      cases hp : s.pcs i <;> cases a <;> rw [hp] at hst <;> dsimp only at hst <;> (try (cases hst; done)) <;>
        first
        | (injection hst with hst; subst hst; exact hput _)
        | (injection hst with hst; subst hst; exact hputw _)
        | (split at hst
           · split at hst
             · injection hst with hst; subst hst; exact hput _
             · injection hst with hst; subst hst; exact hput _
           · cases hst)
        | (split at hst
           · injection hst with hst; subst hst; exact hput _
           · cases hst)

end Verif.NodeLock
