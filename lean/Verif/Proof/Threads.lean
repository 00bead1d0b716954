import Verif.Spec.Threads
import Mathlib.Algebra.BigOperators.Group.Finset.Basic
import Mathlib.Algebra.Order.BigOperators.Group.Finset
import Mathlib.Tactic.Linarith
/-! # Invariants of locks -/
namespace Verif.Threads

theorem upd_same {α : Type} (f : Nat → α) (i : Nat) (v : α) : upd f i v i = v := by simp [upd]
theorem upd_other {α : Type} (f : Nat → α) (i : Nat) (v : α) (j : Nat) (h : j ≠ i) : upd f i v j = f j := by simp [upd, h]

/-! ## Lock objects -/

structure LInv (n : Nat) (th : Nat → Nat) (N : Nat) (s : Locks) : Prop where
  count : ∀ m t, s.held m t = pointing th s m t N
  out : ∀ l, N ≤ l → s.obj l = none
  excl : ∀ m t u, t < n → u < n → s.held m t ≠ 0 → s.held m u ≠ 0 → t = u

theorem pointing_setObj (th : Nat → Nat) (s : Locks) (l : Nat) (p : Option Nat) (m t N : Nat) (h : l < N) :
    pointing th (setObj s l p) m t N + (if s.obj l = some m ∧ th l = t then 1 else 0) = pointing th s m t N + (if p = some m ∧ th l = t then 1 else 0) := by
  induction N with
  | zero => omega
  | succ N ih =>
    unfold pointing
    by_cases hl : l = N
    · subst hl
      have hsame : ∀ M, M ≤ l → pointing th (setObj s l p) m t M = pointing th s m t M := by
        intro M
        induction M with
        | zero => intro _; rfl
        | succ M ihM =>
          intro hM
          unfold pointing
          rw [ihM (by omega)]
          have : (setObj s l p).obj M = s.obj M := by unfold setObj; exact upd_other _ _ _ _ (by omega)
          rw [this]
      rw [hsame l (le_refl _)]
      have : (setObj s l p).obj l = p := by unfold setObj; exact upd_same _ _ _
      rw [this]
      omega
    · have := ih (by omega)
      have h2 : (setObj s l p).obj N = s.obj N := by unfold setObj; exact upd_other _ _ _ _ (by omega)
      rw [h2]
      omega

theorem pointing_obj (th : Nat → Nat) (s s' : Locks) (m t N : Nat) (h : s'.obj = s.obj) : pointing th s' m t N = pointing th s m t N := by
  induction N with
  | zero => rfl
  | succ N ih => unfold pointing; rw [ih, h]

theorem pointing_pos (th : Nat → Nat) (s : Locks) (m l N : Nat) (h : l < N) (ho : s.obj l = some m) : 0 < pointing th s m (th l) N := by
  induction N with
  | zero => omega
  | succ N ih =>
    unfold pointing
    by_cases hl : l = N
    · subst hl
      rw [if_pos ⟨ho, rfl⟩]; omega
    · have := ih (by omega); omega

theorem held_upd (f : Nat → Nat → Nat) (m t v m' t' : Nat) : upd f m (upd (f m) t v) m' t' = if m' = m ∧ t' = t then v else f m' t' := by
  by_cases h1 : m' = m
  · subst h1
    rw [upd_same]
    by_cases h2 : t' = t
    · subst h2; rw [upd_same]; simp
    · rw [upd_other _ _ _ _ h2]; simp [h2]
  · rw [upd_other _ _ _ _ h1]; simp [h1]

theorem plock_spec (n : Nat) (s s' : Locks) (m t : Nat) (h : plock n s m t = some s') :
    s'.obj = s.obj ∧ (∀ m' t', s'.held m' t' = if m' = m ∧ t' = t then s.held m t + 1 else s.held m' t') ∧ ∀ u, u < n → u ≠ t → s.held m u = 0 := by
  unfold plock at h
  split at h
  · cases h
  · rename_i hany
    cases h
    refine ⟨rfl, fun m' t' => held_upd _ _ _ _ _ _, fun u hu hne => ?_⟩
    by_contra hc
    apply hany
    rw [List.any_eq_true]
    exact ⟨u, List.mem_range.2 hu, by simp [hne, hc]⟩

/-- Unlocking what an object points to, and pointing it elsewhere or nowhere. -/
theorem linv_release (n : Nat) (th : Nat → Nat) (N : Nat) (s : Locks) (l : Nat) (hl : l < N) (hs : LInv n th N s) : LInv n th N (setObj (unlockObj s (s.obj l) (th l)) l none) := by
  cases ho : s.obj l with
  | none =>
    have : setObj (unlockObj s none (th l)) l none = s := by
      unfold unlockObj setObj
      have : upd s.obj l none = s.obj := by
        funext j
        by_cases hj : j = l
        · subst hj; rw [upd_same, ho]
        · rw [upd_other _ _ _ _ hj]
      rw [this]
    rw [this]; exact hs
  | some m =>
    have hpos := pointing_pos th s m l N hl ho
    have hheld : ∀ m' t', (setObj (unlockObj s (some m) (th l)) l none).held m' t' = if m' = m ∧ t' = th l then s.held m (th l) - 1 else s.held m' t' := by
      intro m' t'
      exact held_upd _ _ _ _ _ _
    refine ⟨fun m' t' => ?_, fun k hk => ?_, fun m' t u ht hu h1 h2 => ?_⟩
    · rw [hheld]
      have e := pointing_setObj th (unlockObj s (some m) (th l)) l none m' t' N hl
      have e2 : pointing th (unlockObj s (some m) (th l)) m' t' N = pointing th s m' t' N := pointing_obj _ _ _ _ _ _ rfl
      have e3 : (unlockObj s (some m) (th l)).obj l = some m := ho
      rw [e2, e3] at e
      by_cases hc : m' = m ∧ t' = th l
      · obtain ⟨rfl, rfl⟩ := hc
        have := hs.count m' (th l)
        simp at e ⊢
        omega
      · have := hs.count m' t'
        rw [if_neg hc]
        have hc2 : ¬ (some m = some m' ∧ th l = t') := by
          rintro ⟨h1, h2⟩
          injection h1 with h1
          exact hc ⟨h1.symm, h2.symm⟩
        rw [if_neg hc2] at e
        simp at e
        omega
    · have : (setObj (unlockObj s (some m) (th l)) l none).obj k = s.obj k := upd_other _ _ _ _ (by omega)
      rw [this]; exact hs.out k hk
    · rw [hheld] at h1 h2
      refine hs.excl m' t u ht hu ?_ ?_
      · split at h1
        · rename_i hc; obtain ⟨rfl, rfl⟩ := hc; omega
        · exact h1
      · split at h2
        · rename_i hc; obtain ⟨rfl, rfl⟩ := hc; omega
        · exact h2

/-- Locking with an object that points to nothing. -/
theorem linv_init (n : Nat) (th : Nat → Nat) (N : Nat) (s s' : Locks) (l m : Nat) (hl : l < N) (hs : LInv n th N s) (ho : s.obj l = none)
    (h : initLock n s l m (th l) false = some s') : LInv n th N s' := by
  unfold initLock at h
  rw [if_neg (by simp)] at h
  cases hp : plock n s m (th l) with
  | none => rw [hp] at h; cases h
  | some s1 =>
    rw [hp] at h
    cases h
    obtain ⟨p1, p2, p3⟩ := plock_spec n s s1 m (th l) hp
    show LInv n th N (setObj s1 l (some m))
    have hheld : ∀ m' t', (setObj s1 l (some m)).held m' t' = if m' = m ∧ t' = th l then s.held m (th l) + 1 else s.held m' t' := p2
    refine ⟨fun m' t' => ?_, fun k hk => ?_, fun m' t u ht hu h1 h2 => ?_⟩
    · rw [hheld]
      have e := pointing_setObj th s1 l (some m) m' t' N hl
      rw [pointing_obj th s s1 m' t' N p1, p1, ho] at e
      by_cases hc : m' = m ∧ t' = th l
      · obtain ⟨rfl, rfl⟩ := hc
        have := hs.count m' (th l)
        simp at e ⊢
        omega
      · have := hs.count m' t'
        rw [if_neg hc]
        have hc2 : ¬ (some m = some m' ∧ th l = t') := by
          rintro ⟨h1, h2⟩
          injection h1 with h1
          exact hc ⟨h1.symm, h2.symm⟩
        rw [if_neg hc2] at e
        simp at e
        omega
    · have : (setObj s1 l (some m)).obj k = s1.obj k := upd_other _ _ _ _ (by omega)
      rw [this, p1]; exact hs.out k hk
    · rw [hheld] at h1 h2
      by_cases hm : m' = m
      · subst hm
        have a1 : t = th l := by
          by_contra hc
          rw [if_neg (by simp [hc]), p3 t ht hc] at h1
          exact h1 rfl
        have a2 : u = th l := by
          by_contra hc
          rw [if_neg (by simp [hc]), p3 u hu hc] at h2
          exact h2 rfl
        rw [a1, a2]
      · rw [if_neg (by simp [hm])] at h1 h2
        exact hs.excl m' t u ht hu h1 h2

theorem unlockObj_setObj (s : Locks) (p q : Option Nat) (l t : Nat) : setObj (unlockObj s p t) l q = unlockObj (setObj s l q) p t := by
  cases p <;> rfl

theorem setObj_setObj (s : Locks) (l : Nat) (p q : Option Nat) : setObj (setObj s l p) l q = setObj s l q := by
  unfold setObj
  congr 1
  funext j
  by_cases hj : j = l
  · subst hj; rw [upd_same, upd_same]
  · rw [upd_other _ _ _ _ hj, upd_other _ _ _ _ hj]
    exact upd_other _ _ _ _ hj

theorem plock_setObj (n : Nat) (s : Locks) (l m t : Nat) (p : Option Nat) : plock n (setObj s l p) m t = (plock n s m t).map fun s' => setObj s' l p := by
  unfold plock setObj
  dsimp only
  split <;> rfl

/-- The object's old pointer does not matter when it is initialised. -/
theorem initLock_setObj (n : Nat) (s : Locks) (l m t : Nat) (p : Option Nat) : initLock n (setObj s l p) l m t false = initLock n s l m t false := by
  unfold initLock
  rw [if_neg (by simp), if_neg (by simp), plock_setObj]
  cases plock n s m t with
  | none => rfl
  | some s1 => exact congrArg some (setObj_setObj _ _ _ _)

/-- `relock` comes out as locking with a new object and giving the old one up. -/
theorem linv_relock (n : Nat) (th : Nat → Nat) (N : Nat) (s s' : Locks) (l m : Nat) (hl : l < N) (hs : LInv n th N s)
    (h : lstep n th s (.relock l m) = some s') : LInv n th N s' := by
  unfold lstep at h
  dsimp only at h
  unfold initLock at h
  rw [if_neg (by simp)] at h
  cases hp : plock n s m (th l) with
  | none => rw [hp] at h; cases h
  | some s1 =>
    rw [hp] at h
    cases h
    obtain ⟨p1, p2, p3⟩ := plock_spec n s s1 m (th l) hp
    have hobj : (unlockObj (setObj s1 l (some m)) (s.obj l) (th l)).obj = (setObj s1 l (some m)).obj := by cases s.obj l <;> rfl
    refine ⟨fun m' t' => ?_, fun k hk => ?_, fun m' t u ht hu h1 h2 => ?_⟩
    · rw [pointing_obj th (setObj s1 l (some m)) _ m' t' N hobj]
      have e := pointing_setObj th s1 l (some m) m' t' N hl
      rw [pointing_obj th s s1 m' t' N p1, p1] at e
      have hc := hs.count m' t'
      cases ho : s.obj l with
      | none =>
        rw [ho] at e
        have hh : (unlockObj (setObj s1 l (some m)) none (th l)).held m' t' = s1.held m' t' := rfl
        rw [hh, p2]
        have hcm := hs.count m (th l)
        by_cases hq : m' = m ∧ t' = th l
        · obtain ⟨rfl, rfl⟩ := hq
          simp at e ⊢
          omega
        · rw [if_neg hq]
          have hq2 : ¬ (some m = some m' ∧ th l = t') := by
            rintro ⟨h1, h2⟩
            injection h1 with h1
            exact hq ⟨h1.symm, h2.symm⟩
          rw [if_neg hq2] at e
          simp at e
          omega
      | some m0 =>
        rw [ho] at e
        have hpos := pointing_pos th s m0 l N hl ho
        have hc0 := hs.count m0 (th l)
        have hcm := hs.count m (th l)
        have hh : (unlockObj (setObj s1 l (some m)) (some m0) (th l)).held m' t' = if m' = m0 ∧ t' = th l then s1.held m0 (th l) - 1 else s1.held m' t' := held_upd _ _ _ _ _ _
        rw [hh, p2 m' t', p2 m0 (th l)]
        by_cases ht : t' = th l
        · subst ht
          by_cases hm0 : m' = m0
          · subst hm0
            by_cases hm : m' = m
            · subst hm; simp at e ⊢; omega
            · simp [hm] at e ⊢
              have : ¬ m = m' := fun h => hm h.symm
              simp [this] at e
              omega
          · by_cases hm : m' = m
            · subst hm
              have : ¬ m0 = m' := fun h => hm0 h.symm
              simp [this, hm0] at e ⊢
              omega
            · have h1 : ¬ m0 = m' := fun h => hm0 h.symm
              have h2 : ¬ m = m' := fun h => hm h.symm
              simp [h1, h2, hm0, hm] at e ⊢
              omega
        · have h1 : ¬ th l = t' := fun h => ht h.symm
          simp [h1, ht] at e ⊢
          omega
    · rw [hobj]
      have : (setObj s1 l (some m)).obj k = s1.obj k := upd_other _ _ _ _ (by omega)
      rw [this, p1]; exact hs.out k hk
    · -- the counts only went down from those after locking
      have hle : ∀ m' t', (unlockObj (setObj s1 l (some m)) (s.obj l) (th l)).held m' t' ≠ 0 → s1.held m' t' ≠ 0 := by
        intro m' t' hne
        cases ho : s.obj l with
        | none => rw [ho] at hne; exact hne
        | some m0 =>
          rw [ho] at hne
          have hh : (unlockObj (setObj s1 l (some m)) (some m0) (th l)).held m' t' = if m' = m0 ∧ t' = th l then s1.held m0 (th l) - 1 else s1.held m' t' := held_upd _ _ _ _ _ _
          rw [hh] at hne
          split at hne
          · rename_i hc; obtain ⟨rfl, rfl⟩ := hc; omega
          · exact hne
      have b1 := hle _ _ h1
      have b2 := hle _ _ h2
      rw [p2] at b1 b2
      by_cases hm : m' = m
      · subst hm
        have a1 : t = th l := by
          by_contra hc
          rw [if_neg (by simp [hc]), p3 t ht hc] at b1
          exact b1 rfl
        have a2 : u = th l := by
          by_contra hc
          rw [if_neg (by simp [hc]), p3 u hu hc] at b2
          exact b2 rfl
        rw [a1, a2]
      · rw [if_neg (by simp [hm])] at b1 b2
        exact hs.excl m' t u ht hu b1 b2

theorem linv_step (n : Nat) (th : Nat → Nat) (N : Nat) (s s' : Locks) (o : LOp) (ho : NoTry o) (hon : On N o) (hs : LInv n th N s)
    (h : lstep n th s o = some s') : LInv n th N s' := by
  cases o with
  | make l m t =>
    cases t with
    | true => exact absurd ho (by simp [NoTry])
    | false =>
      unfold lstep at h
      dsimp only at h
      split at h
      · rename_i hobj; exact linv_init n th N s s' l m hon hs hobj h
      · cases h
  | copy l k =>
    unfold lstep at h
    dsimp only at h
    split at h
    · rename_i hobj
      cases hk : s.obj k with
      | none => rw [hk] at h; cases h; exact hs
      | some m => rw [hk] at h; exact linv_init n th N s s' l m hon hs hobj h
    · cases h
  | release l => cases h; exact linv_release n th N s l hon hs
  | relock l m => exact linv_relock n th N s s' l m hon hs h
  | lock l m =>
    unfold lstep at h
    dsimp only at h
    exact linv_init n th N _ s' l m hon (linv_release n th N s l hon hs) (by unfold setObj; exact upd_same _ _ _) h
  | assign l k =>
    unfold lstep at h
    dsimp only at h
    cases hk : s.obj k with
    | none => rw [hk] at h; cases h
    | some m =>
      rw [hk] at h
      dsimp only at h
      rw [← initLock_setObj n (unlockObj s (s.obj l) (th l)) l m (th l) none] at h
      exact linv_init n th N _ s' l m hon (linv_release n th N s l hon hs) (by unfold setObj; exact upd_same _ _ _) h

theorem linv_start (n : Nat) (th : Nat → Nat) (N : Nat) : LInv n th N Locks.init := by
  refine ⟨fun m t => ?_, fun _ _ => rfl, fun m t u _ _ h => absurd rfl h⟩
  induction N with
  | zero => rfl
  | succ N ih => unfold pointing; rw [← ih]; rfl

theorem linv_run (n : Nat) (th : Nat → Nat) (N : Nat) (l : List LOp) (s s' : Locks) (hl : ∀ o ∈ l, NoTry o ∧ On N o) (hs : LInv n th N s)
    (h : lrun n th s l = some s') : LInv n th N s' := by
  induction l generalizing s with
  | nil => cases h; exact hs
  | cons o l ih =>
    unfold lrun at h
    cases hst : lstep n th s o with
    | none => rw [hst] at h; cases h
    | some s1 =>
      rw [hst] at h
      exact ih s1 (fun o ho => hl o (List.mem_cons_of_mem _ ho)) (linv_step n th N s s1 o (hl o (by simp)).1 (hl o (by simp)).2 hs hst) h

/-! ## `SmartLock` -/

def tot (n : Nat) (f : Nat → Nat) : Nat := ∑ j ∈ Finset.range n, f j

theorem tot_upd (n : Nat) (f : Nat → Nat) (i v : Nat) (h : i < n) : tot n (upd f i v) + f i = tot n f + v := by
  unfold tot
  have hm : i ∈ Finset.range n := Finset.mem_range.2 h
  rw [← Finset.add_sum_erase _ _ hm, ← Finset.add_sum_erase (Finset.range n) f hm, upd_same]
  have : ∑ j ∈ (Finset.range n).erase i, upd f i v j = ∑ j ∈ (Finset.range n).erase i, f j :=
    Finset.sum_congr rfl fun j hj => upd_other _ _ _ _ (Finset.ne_of_mem_erase hj)
  omega

theorem tot_le (n : Nat) (f : Nat → Nat) (i : Nat) (h : i < n) : f i ≤ tot n f :=
  Finset.single_le_sum (f := f) (fun _ _ => Nat.zero_le _) (Finset.mem_range.2 h)

theorem tot_two (n : Nat) (f : Nat → Nat) (i j : Nat) (hi : i < n) (hj : j < n) (hne : j ≠ i) : f i + f j ≤ tot n f := by
  have h1 := tot_upd n f i 0 hi
  have h2 := tot_le n (upd f i 0) j hj
  rw [upd_other _ _ _ _ hne] at h2
  omega

theorem tot_pos (n : Nat) (f : Nat → Nat) (h : tot n f ≠ 0) : ∃ i, i < n ∧ 0 < f i := by
  by_contra hc
  apply h
  exact Finset.sum_eq_zero fun i hi => by
    by_contra h0
    exact hc ⟨i, Finset.mem_range.1 hi, by omega⟩

theorem tot_zero (n : Nat) (f : Nat → Nat) (h : ∀ i, i < n → f i = 0) : tot n f = 0 :=
  Finset.sum_eq_zero fun i hi => h i (Finset.mem_range.1 hi)

structure SInv (n : Nat) (s : SL) : Prop where
  sumr : s.readers = tot n s.rh
  sumw : s.writers = tot n s.wh
  wr : ∀ i, s.writer = some i → i < n ∧ 0 < s.wh i
  excl : ∀ i j, i < n → j < n → i ≠ j → 0 < s.wh i → s.rh j = 0 ∧ s.wh j = 0
  up : ∀ i, i < n → (s.pcs i = .wantU ∨ s.pcs i = .sleepU) → 0 < s.rh i ∨ s.writer = some i

/-- Only the thread's place changes, and not to a place in `wlock_upgrade`. -/
theorem sinv_pc (n : Nat) (s : SL) (i : Nat) (p : Pc) (hs : SInv n s) (hp : p ≠ .wantU ∧ p ≠ .sleepU) : SInv n ⟨s.readers, s.writers, s.writer, s.rh, s.wh, upd s.pcs i p⟩ := by
  refine ⟨hs.sumr, hs.sumw, hs.wr, hs.excl, fun j hj h => ?_⟩
  by_cases hji : j = i
  · subst hji
    dsimp only at h
    rw [upd_same] at h
    rcases h with h | h
    · exact absurd h hp.1
    · exact absurd h hp.2
  · dsimp only at h
    rw [upd_other _ _ _ _ hji] at h
    exact hs.up j hj h

theorem sinv_pcU (n : Nat) (s : SL) (i : Nat) (p : Pc) (hs : SInv n s) (hu : 0 < s.rh i ∨ s.writer = some i) : SInv n ⟨s.readers, s.writers, s.writer, s.rh, s.wh, upd s.pcs i p⟩ := by
  refine ⟨hs.sumr, hs.sumw, hs.wr, hs.excl, fun j hj h => ?_⟩
  by_cases hji : j = i
  · subst hji; exact hu
  · dsimp only at h
    rw [upd_other _ _ _ _ hji] at h
    exact hs.up j hj h

theorem sinv_signal (n : Nat) (s s' : SL) (w : Option Nat) (hs : SInv n s) (h : signal n s w = some s') : SInv n s' := by
  unfold signal at h
  cases w with
  | none =>
    dsimp only at h
    split at h
    · cases h
    · cases h; exact hs
  | some u =>
    dsimp only at h
    split at h
    · rename_i hu
      cases h
      cases hp : s.pcs u with
      | sleepU => exact sinv_pcU n s u _ hs (hs.up u hu.1 (Or.inr hp))
      | wantU => exact sinv_pcU n s u _ hs (hs.up u hu.1 (Or.inl hp))
      | idle => exact sinv_pc n s u _ hs ⟨by simp [woken], by simp [woken]⟩
      | wantR => exact sinv_pc n s u _ hs ⟨by simp [woken], by simp [woken]⟩
      | sleepR => exact sinv_pc n s u _ hs ⟨by simp [woken], by simp [woken]⟩
      | wantW => exact sinv_pc n s u _ hs ⟨by simp [woken], by simp [woken]⟩
      | sleepW => exact sinv_pc n s u _ hs ⟨by simp [woken], by simp [woken]⟩
    · cases h

/-- Another reader. -/
theorem sinv_read (n : Nat) (s : SL) (i : Nat) (hi : i < n) (hs : SInv n s) (hw : ¬ (s.writer ≠ some i ∧ s.writers ≠ 0)) :
    SInv n ⟨s.readers + 1, s.writers, s.writer, upd s.rh i (s.rh i + 1), s.wh, upd s.pcs i .idle⟩ := by
  have hno : ∀ j, j < n → j ≠ i → s.wh j = 0 := by
    intro j hj hne
    by_cases hwr : s.writer = some i
    · exact (hs.excl i j hi hj (fun h => hne h.symm) (hs.wr i hwr).2).2
    · have : s.writers = 0 := by by_contra hc; exact hw ⟨hwr, hc⟩
      have h2 := tot_le n s.wh j hj
      rw [← hs.sumw] at h2
      omega
  refine ⟨?_, hs.sumw, hs.wr, fun a b ha hb hab hwa => ?_, fun j hj h => ?_⟩
  · have := tot_upd n s.rh i (s.rh i + 1) hi
    have := hs.sumr
    dsimp only
    omega
  · dsimp only at hwa ⊢
    have hai : a = i := by by_contra hc; have := hno a ha hc; omega
    subst hai
    rw [upd_other _ _ _ _ (fun h => hab h.symm)]
    exact hs.excl a b ha hb hab hwa
  · dsimp only at h ⊢
    by_cases hji : j = i
    · subst hji; rw [upd_same] at h; rcases h with h | h <;> cases h
    · rw [upd_other _ _ _ _ hji] at h ⊢
      exact hs.up j hj h

/-- Another write lock of the writer. -/
theorem sinv_again (n : Nat) (s : SL) (i : Nat) (hi : i < n) (hs : SInv n s) (hw : s.writer = some i) :
    SInv n ⟨s.readers, s.writers + 1, s.writer, s.rh, upd s.wh i (s.wh i + 1), upd s.pcs i .idle⟩ := by
  refine ⟨hs.sumr, ?_, fun j hj => ?_, fun a b ha hb hab hwa => ?_, fun j hj h => ?_⟩
  · have := tot_upd n s.wh i (s.wh i + 1) hi
    have := hs.sumw
    dsimp only
    omega
  · dsimp only at hj ⊢
    have := hs.wr j hj
    rw [hw] at hj
    cases hj
    rw [upd_same]
    exact ⟨hi, by omega⟩
  · dsimp only at hwa ⊢
    have hai : a = i := by
      by_contra hc
      rw [upd_other _ _ _ _ hc] at hwa
      have := (hs.excl i a hi ha (fun h => hc h.symm) (hs.wr i hw).2).2
      omega
    subst hai
    rw [upd_other _ _ _ _ (fun h => hab h.symm)]
    exact hs.excl a b ha hb hab (hs.wr a hw).2
  · dsimp only at h ⊢
    by_cases hji : j = i
    · subst hji; exact Or.inr hw
    · rw [upd_other _ _ _ _ hji] at h; exact hs.up j hj h

/-- A new writer, which gives up `k` read locks of its own so that none is left. -/
theorem sinv_write (n : Nat) (s : SL) (i k : Nat) (hi : i < n) (hs : SInv n s) (hk : k ≤ s.rh i) (hr : s.readers = k) (hw : s.writers = 0) :
    SInv n ⟨s.readers - k, s.writers + 1, some i, upd s.rh i (s.rh i - k), upd s.wh i (s.wh i + 1), upd s.pcs i .idle⟩ := by
  have hnr : ∀ j, j < n → j ≠ i → s.rh j = 0 := by
    intro j hj hne
    have := tot_two n s.rh i j hi hj hne
    rw [← hs.sumr] at this
    omega
  have hnw : ∀ j, j < n → s.wh j = 0 := by
    intro j hj
    have := tot_le n s.wh j hj
    rw [← hs.sumw] at this
    omega
  have hnone : s.writer = none := by
    cases hx : s.writer with
    | none => rfl
    | some a =>
      have h1 := hs.wr a hx
      have h2 := hnw a h1.1
      omega
  refine ⟨?_, ?_, fun j hj => ?_, fun a b ha hb hab hwa => ?_, fun j hj h => ?_⟩
  · have := tot_upd n s.rh i (s.rh i - k) hi
    have := hs.sumr
    dsimp only
    omega
  · have := tot_upd n s.wh i (s.wh i + 1) hi
    have := hs.sumw
    dsimp only
    omega
  · dsimp only at hj ⊢
    cases hj
    rw [upd_same]
    exact ⟨hi, by omega⟩
  · dsimp only at hwa ⊢
    have hai : a = i := by
      by_contra hc
      rw [upd_other _ _ _ _ hc, hnw a ha] at hwa
      omega
    subst hai
    rw [upd_other _ _ _ _ (fun h => hab h.symm), upd_other _ _ _ _ (fun h => hab h.symm)]
    exact ⟨hnr b hb (fun h => hab h.symm), hnw b hb⟩
  · dsimp only at h ⊢
    by_cases hji : j = i
    · subst hji; exact Or.inr rfl
    · rw [upd_other _ _ _ _ hji] at h ⊢
      have := hs.up j hj h
      rw [hnone] at this
      rcases this with h1 | h1
      · exact Or.inl h1
      · cases h1

theorem sinv_runlock (n : Nat) (s : SL) (i : Nat) (hi : i < n) (hs : SInv n s) (hp : s.pcs i = .idle) (h : 0 < s.rh i) :
    SInv n ⟨s.readers - 1, s.writers, s.writer, upd s.rh i (s.rh i - 1), s.wh, s.pcs⟩ := by
  have hle := tot_le n s.rh i hi
  refine ⟨?_, hs.sumw, hs.wr, fun a b ha hb hab hwa => ?_, fun j hj hu => ?_⟩
  · have := tot_upd n s.rh i (s.rh i - 1) hi
    have := hs.sumr
    dsimp only
    omega
  · dsimp only at hwa ⊢
    have := hs.excl a b ha hb hab hwa
    by_cases hbi : b = i
    · subst hbi; omega
    · rw [upd_other _ _ _ _ hbi]; exact this
  · dsimp only at hu ⊢
    by_cases hji : j = i
    · subst hji; rw [hp] at hu; rcases hu with hu | hu <;> cases hu
    · rw [upd_other _ _ _ _ hji]; exact hs.up j hj hu

/-- A write lock less, perhaps a read lock `k` more; the writer is gone if `gone`. -/
theorem sinv_wunlock (n : Nat) (s : SL) (i k : Nat) (gone : Bool) (hi : i < n) (hs : SInv n s) (hp : s.pcs i = .idle) (h : 0 < s.wh i) (hg : gone = false → s.writers - 1 ≠ 0) :
    SInv n ⟨s.readers + k, s.writers - 1, if gone then none else s.writer, upd s.rh i (s.rh i + k), upd s.wh i (s.wh i - 1), s.pcs⟩ := by
  have hle := tot_le n s.wh i hi
  have hother : ∀ j, j < n → j ≠ i → s.rh j = 0 ∧ s.wh j = 0 := fun j hj hne => hs.excl i j hi hj (fun h => hne h.symm) h
  have hwi : ∀ j, s.writer = some j → j = i := by
    intro j hj
    by_contra hc
    have h1 := hs.wr j hj
    have := (hother j h1.1 hc).2
    omega
  have hall : tot n s.wh = s.wh i := by
    have h1 := tot_upd n s.wh i 0 hi
    have h2 : tot n (upd s.wh i 0) = 0 := tot_zero n _ fun j hj => by
      by_cases hc : j = i
      · subst hc; exact upd_same _ _ _
      · rw [upd_other _ _ _ _ hc]; exact (hother j hj hc).2
    omega
  refine ⟨?_, ?_, fun j hj => ?_, fun a b ha hb hab hwa => ?_, fun j hj hu => ?_⟩
  · have := tot_upd n s.rh i (s.rh i + k) hi
    have := hs.sumr
    dsimp only
    omega
  · have := tot_upd n s.wh i (s.wh i - 1) hi
    have := hs.sumw
    dsimp only
    omega
  · cases gone with
    | true => cases hj
    | false =>
      dsimp only at hj ⊢
      have hj' : s.writer = some j := by simpa using hj
      have := hwi j hj'
      subst this
      have h3 := hg rfl
      have h4 := hs.sumw
      rw [upd_same]
      exact ⟨hi, by omega⟩
  · dsimp only at hwa ⊢
    have hai : a = i := by
      by_contra hc
      rw [upd_other _ _ _ _ hc, (hother a ha hc).2] at hwa
      omega
    subst hai
    rw [upd_other _ _ _ _ (fun h => hab h.symm), upd_other _ _ _ _ (fun h => hab h.symm)]
    exact hother b hb (fun h => hab h.symm)
  · dsimp only at hu ⊢
    by_cases hji : j = i
    · subst hji; rw [hp] at hu; rcases hu with hu | hu <;> cases hu
    · rcases hs.up j hj hu with h1 | h1
      · have := (hother j hj hji).1; omega
      · exact absurd (hwi j h1) hji

theorem upd_self {α : Type} (f : Nat → α) (i : Nat) : upd f i (f i) = f := by
  funext j
  by_cases h : j = i
  · subst h; exact upd_same _ _ _
  · exact upd_other _ _ _ _ h

theorem sinv_step (n : Nat) (s s' : SL) (i : Nat) (a : Act) (hs : SInv n s) (h : sstep n s i a = some s') : SInv n s' := by
  unfold sstep at h
  split at h
  swap
  · cases h
  rename_i hi
  cases hp : s.pcs i <;> cases a <;> rw [hp] at h <;> dsimp only at h <;> try (cases h; done)
  · cases h; exact sinv_pc n s i _ hs ⟨by simp, by simp⟩
  · cases h; exact sinv_pc n s i _ hs ⟨by simp, by simp⟩
  · split at h
    · rename_i hu; cases h; exact sinv_pcU n s i _ hs hu
    · cases h
  · split at h
    · rename_i hr
      split at h
      · exact sinv_signal n _ s' _ (sinv_runlock n s i hi hs hp hr) h
      · cases h; exact sinv_runlock n s i hi hs hp hr
    · cases h
  · split at h
    · rename_i hw
      split at h
      · have h1 := sinv_wunlock n s i 0 true hi hs hp hw (fun h => by cases h)
        rw [Nat.add_zero, Nat.add_zero, upd_self] at h1
        exact sinv_signal n _ s' _ h1 h
      · rename_i h0
        cases h
        have h1 := sinv_wunlock n s i 0 false hi hs hp hw (fun _ => h0)
        rw [Nat.add_zero, Nat.add_zero, upd_self] at h1
        exact h1
    · cases h
  · split at h
    · rename_i hw
      exact sinv_signal n _ s' _ (sinv_wunlock n s i 1 true hi hs hp (hs.wr i hw).2 (fun h => by cases h)) h
    · cases h; exact hs
  · split at h
    · cases h; exact sinv_pc n s i _ hs ⟨by simp, by simp⟩
    · rename_i hc; cases h; exact sinv_read n s i hi hs hc
  · cases h; exact sinv_pc n s i _ hs ⟨by simp, by simp⟩
  · split at h
    · rename_i hw; cases h; exact sinv_again n s i hi hs hw
    · split at h
      · cases h; exact sinv_pc n s i _ hs ⟨by simp, by simp⟩
      · rename_i hc
        have h1 := sinv_write n s i 0 hi hs (Nat.zero_le _) (by omega) (by omega)
        rw [Nat.sub_zero, Nat.sub_zero, upd_self] at h1
        cases h; exact h1
  · cases h; exact sinv_pc n s i _ hs ⟨by simp, by simp⟩
  · split at h
    · rename_i hw; cases h; exact sinv_again n s i hi hs hw
    · rename_i hnw
      split at h
      · cases h; exact sinv_pcU n s i _ hs (hs.up i hi (Or.inl hp))
      · rename_i hc
        have hrh : 0 < s.rh i := by
          rcases hs.up i hi (Or.inl hp) with h1 | h1
          · exact h1
          · exact absurd h1 hnw
        have hle := tot_le n s.rh i hi
        have hsr := hs.sumr
        have h1 := sinv_write n s i 1 hi hs (by omega) (by omega) (by omega)
        cases h; exact h1
  · cases h; exact sinv_pcU n s i _ hs (hs.up i hi (Or.inr hp))

theorem sinv_start (n : Nat) : SInv n SL.init := by
  refine ⟨?_, ?_, (fun i h => by cases h), fun i j _ _ _ h => absurd h (Nat.lt_irrefl 0), fun i _ h => by rcases h with h | h <;> cases h⟩
  · exact (tot_zero n _ fun _ _ => rfl).symm
  · exact (tot_zero n _ fun _ _ => rfl).symm

/-- Induction over schedules. -/
theorem srun_ind (n : Nat) (P : Act → Prop) (Q : SL → Prop) (hstep : ∀ s s' i a, Q s → P a → sstep n s i a = some s' → Q s') (l : List (Nat × Act)) (s s' : SL)
    (hl : ∀ p ∈ l, P p.2) (hs : Q s) (h : srun n s l = some s') : Q s' := by
  induction l generalizing s with
  | nil => cases h; exact hs
  | cons p l ih =>
    obtain ⟨i, a⟩ := p
    unfold srun at h
    cases hst : sstep n s i a with
    | none => rw [hst] at h; cases h
    | some s1 =>
      rw [hst] at h
      exact ih s1 (fun p hp => hl p (List.mem_cons_of_mem _ hp)) (hstep s s1 i a hs (hl (i, a) (by simp)) hst) h

theorem sinv_reachable (P : Act → Prop) (n : Nat) (s : SL) (h : ReachableBy P n s) : SInv n s := by
  obtain ⟨l, hl, hr⟩ := h
  exact srun_ind n P (SInv n) (fun s s' i a hs _ h => sinv_step n s s' i a hs h) l _ s hl (sinv_start n) hr

/-! ### Without downgrades, who has a write lock is the writer -/

theorem signal_fields (n : Nat) (s s' : SL) (w : Option Nat) (h : signal n s w = some s') :
    s'.readers = s.readers ∧ s'.writers = s.writers ∧ s'.writer = s.writer ∧ s'.rh = s.rh ∧ s'.wh = s.wh := by
  unfold signal at h
  cases w <;> dsimp only at h <;> split at h <;> cases h <;> exact ⟨rfl, rfl, rfl, rfl, rfl⟩

def WInv (n : Nat) (s : SL) : Prop := ∀ i, i < n → 0 < s.wh i → s.writer = some i

theorem winv_step (n : Nat) (s s' : SL) (i : Nat) (a : Act) (hs : SInv n s ∧ WInv n s) (ha : NoDowngrade a) (h : sstep n s i a = some s') : SInv n s' ∧ WInv n s' := by
  refine ⟨sinv_step n s s' i a hs.1 h, ?_⟩
  obtain ⟨hs, hw⟩ := hs
  have hnone : s.writers = 0 → ∀ j, j < n → s.wh j = 0 := by
    intro h0 j hj
    have h1 := tot_le n s.wh j hj
    have h2 := hs.sumw
    omega
  unfold sstep at h
  split at h
  swap
  · cases h
  rename_i hi
  cases hp : s.pcs i <;> cases a <;> rw [hp] at h <;> dsimp only at h <;> try (cases h; done)
  · cases h; exact hw
  · cases h; exact hw
  · split at h
    · cases h; exact hw
    · cases h
  · split at h
    · split at h
      · obtain ⟨-, -, e3, -, e5⟩ := signal_fields n _ s' _ h
        intro j hj hpos
        rw [e5] at hpos
        rw [e3]
        exact hw j hj hpos
      · cases h; exact hw
    · cases h
  · split at h
    · rename_i hwi
      split at h
      · rename_i h0
        obtain ⟨-, -, e3, -, e5⟩ := signal_fields n _ s' _ h
        intro j hj hpos
        rw [e5] at hpos
        dsimp only at hpos
        have h1 := tot_upd n s.wh i (s.wh i - 1) hi
        have h2 := tot_le n (upd s.wh i (s.wh i - 1)) j hj
        have h3 := hs.sumw
        omega
      · cases h
        intro j hj hpos
        dsimp only at hpos ⊢
        by_cases hji : j = i
        · subst hji; exact hw j hj hwi
        · rw [upd_other _ _ _ _ hji] at hpos; exact hw j hj hpos
    · cases h
  · exact absurd ha (by simp [NoDowngrade])
  · split at h
    · cases h; exact hw
    · cases h; exact hw
  · cases h; exact hw
  · split at h
    · rename_i hwr
      cases h
      intro j hj hpos
      dsimp only at hpos ⊢
      by_cases hji : j = i
      · subst hji; exact hwr
      · rw [upd_other _ _ _ _ hji] at hpos; exact hw j hj hpos
    · split at h
      · cases h; exact hw
      · rename_i hc
        cases h
        intro j hj hpos
        dsimp only at hpos ⊢
        by_cases hji : j = i
        · subst hji; rfl
        · rw [upd_other _ _ _ _ hji, hnone (by omega) j hj] at hpos; omega
  · cases h; exact hw
  · split at h
    · rename_i hwr
      cases h
      intro j hj hpos
      dsimp only at hpos ⊢
      by_cases hji : j = i
      · subst hji; exact hwr
      · rw [upd_other _ _ _ _ hji] at hpos; exact hw j hj hpos
    · split at h
      · cases h; exact hw
      · rename_i hc
        cases h
        intro j hj hpos
        dsimp only at hpos ⊢
        by_cases hji : j = i
        · subst hji; rfl
        · rw [upd_other _ _ _ _ hji, hnone (by omega) j hj] at hpos; omega
  · cases h; exact hw

theorem winv_reachable (n : Nat) (s : SL) (h : ReachableBy NoDowngrade n s) : SInv n s ∧ WInv n s := by
  obtain ⟨l, hl, hr⟩ := h
  exact srun_ind n NoDowngrade (fun s => SInv n s ∧ WInv n s) (fun s s' i a hs ha h => winv_step n s s' i a hs ha h) l _ s hl
    ⟨sinv_start n, fun i _ h => absurd h (Nat.lt_irrefl 0)⟩ hr

/-! ### Nobody sleeps at a free lock -/

def NInv (n : Nat) (s : SL) : Prop := (∃ i, i < n ∧ Asleep (s.pcs i)) → (∃ j, j < n ∧ Awake (s.pcs j)) ∨ s.readers ≠ 0 ∨ s.writers ≠ 0

theorem asleep_iff (p : Pc) : asleep p = true ↔ Asleep p := by cases p <;> simp [asleep, Asleep]

theorem awake_woken (p : Pc) (h : asleep p = true) : Awake (woken p) := by cases p <;> simp_all [asleep, woken, Awake]

theorem ninv_signal (n : Nat) (s s' : SL) (w : Option Nat) (h : signal n s w = some s') : NInv n s' := by
  unfold signal at h
  cases w with
  | none =>
    dsimp only at h
    split at h
    · cases h
    · rename_i hany
      cases h
      rintro ⟨i, hi, ha⟩
      exact absurd (List.any_eq_true.2 ⟨i, List.mem_range.2 hi, (asleep_iff _).2 ha⟩) hany
  | some u =>
    dsimp only at h
    split at h
    · rename_i hu
      cases h
      intro _
      refine Or.inl ⟨u, hu.1, ?_⟩
      dsimp only
      rw [upd_same]
      exact awake_woken _ hu.2
    · cases h

theorem ninv_step (n : Nat) (s s' : SL) (i : Nat) (a : Act) (hs : NInv n s) (h : sstep n s i a = some s') : NInv n s' := by
  unfold sstep at h
  split at h
  swap
  · cases h
  rename_i hi
  have hwoke : ∀ p r w wr rh wh, Awake p → NInv n ⟨r, w, wr, rh, wh, upd s.pcs i p⟩ := by
    intro p r w wr rh wh hp _
    refine Or.inl ⟨i, hi, ?_⟩
    dsimp only
    rw [upd_same]
    exact hp
  cases hp : s.pcs i <;> cases a <;> rw [hp] at h <;> dsimp only at h <;> try (cases h; done)
  · cases h; exact hwoke _ _ _ _ _ _ (by simp [Awake])
  · cases h; exact hwoke _ _ _ _ _ _ (by simp [Awake])
  · split at h
    · cases h; exact hwoke _ _ _ _ _ _ (by simp [Awake])
    · cases h
  · split at h
    · split at h
      · exact ninv_signal n _ s' _ h
      · rename_i h0; cases h; intro _; exact Or.inr (Or.inl h0)
    · cases h
  · split at h
    · split at h
      · exact ninv_signal n _ s' _ h
      · rename_i h0; cases h; intro _; exact Or.inr (Or.inr h0)
    · cases h
  · split at h
    · exact ninv_signal n _ s' _ h
    · cases h; exact hs
  · split at h
    · rename_i hc; cases h; intro _; exact Or.inr (Or.inr hc.2)
    · cases h; intro _; exact Or.inr (Or.inl (Nat.succ_ne_zero _))
  · cases h; exact hwoke _ _ _ _ _ _ (by simp [Awake])
  · split at h
    · cases h; intro _; exact Or.inr (Or.inr (Nat.succ_ne_zero _))
    · split at h
      · rename_i hc; cases h; intro _; exact Or.inr hc
      · cases h; intro _; exact Or.inr (Or.inr (Nat.succ_ne_zero _))
  · cases h; exact hwoke _ _ _ _ _ _ (by simp [Awake])
  · split at h
    · cases h; intro _; exact Or.inr (Or.inr (Nat.succ_ne_zero _))
    · split at h
      · rename_i hc; cases h; intro _
        refine Or.inr ?_
        rcases hc with hc | hc
        · exact Or.inl (by dsimp only; omega)
        · exact Or.inr hc
      · cases h; intro _; exact Or.inr (Or.inr (Nat.succ_ne_zero _))
  · cases h; exact hwoke _ _ _ _ _ _ (by simp [Awake])

theorem ninv_reachable (P : Act → Prop) (n : Nat) (s : SL) (h : ReachableBy P n s) : NInv n s := by
  obtain ⟨l, hl, hr⟩ := h
  refine srun_ind n P (NInv n) (fun s s' i a hs _ h => ninv_step n s s' i a hs h) l _ s hl ?_ hr
  rintro ⟨i, _, h⟩
  exact absurd h (by simp [SL.init, Asleep])

end Verif.Threads
