import Verif.Spec.SolveWorkers
/-! # Lemmas for C131 - C133 -/
namespace Verif.SolveWorkers
variable {S X : Type}

/-! ## Jobs -/

def job : WPc X → Option (Nat × Option (Except X Bool))
  | .solving j => some (j, none)
  | .solved j r => some (j, some r)
  | _ => none

def jobM : MPc X → Option (Nat × Option (Except X Bool))
  | .solving j => some (j, none)
  | .solved j r => some (j, some r)
  | _ => none

def jobsW (w : List (W X)) : List (Nat × Option (Except X Bool)) := w.filterMap fun x => job x.pc
def jobs (m : MPc X) (w : List (W X)) : List (Nat × Option (Except X Bool)) := (jobM m).toList ++ jobsW w

theorem split_set {A : Type} : ∀ {l : List A} {i : Nat} {x : A}, l[i]? = some x → ∃ a b, l = a ++ x :: b ∧ ∀ y, l.set i y = a ++ y :: b := by
  intro l
  induction l with
  | nil => intro i x h; simp at h
  | cons c l ih =>
    intro i x h
    cases i with
    | zero => simp at h; subst h; exact ⟨[], l, rfl, fun _ => rfl⟩
    | succ i =>
      obtain ⟨a, b, h1, h2⟩ := ih (by simpa using h)
      exact ⟨c :: a, b, by rw [h1]; rfl, fun y => by simp [h2]⟩

theorem jobs_set {m : MPc X} {w : List (W X)} {i : Nat} {x : W X} (h : w[i]? = some x) :
    ∃ rest, (jobs m w).Perm ((job x.pc).toList ++ rest) ∧ ∀ y, (jobs m (w.set i y)).Perm ((job y.pc).toList ++ rest) := by
  obtain ⟨a, b, h1, h2⟩ := split_set h
  refine ⟨(jobM m).toList ++ (jobsW a ++ jobsW b), ?_⟩
  have key : ∀ y, (jobs m (a ++ y :: b)).Perm ((job y.pc).toList ++ ((jobM m).toList ++ (jobsW a ++ jobsW b))) := by
    intro y
    have : jobsW (a ++ y :: b) = jobsW a ++ ((job y.pc).toList ++ jobsW b) := by
      simp only [jobsW, List.filterMap_append, List.filterMap_cons]
      cases job y.pc <;> rfl
    rw [jobs, this]
    refine List.Perm.trans ?_ (List.perm_append_comm_assoc _ _ _)
    exact List.Perm.append_left _ (List.perm_append_comm_assoc _ _ _)
  exact ⟨by rw [h1]; exact key x, fun y => by rw [h2]; exact key y⟩

/-! ## What the work amounts to -/

def out (zero : S) (f : Nat → Except X (S × Bool)) (o : List (SolveLoop.Sub S)) (j : Nat) : Except X Bool :=
  match o[j]? with
  | some a => (trySolve zero f j a).2
  | none => .ok false

def isT : Except X Bool → Bool
  | .ok true => true
  | _ => false

def isE [DecidableEq X] (e : X) : Except X Bool → Bool
  | .error e' => decide (e' = e)
  | _ => false

structure Core (zero : S) (f : Nat → Except X (S × Bool)) (o : List (SolveLoop.Sub S)) (J : List (Nat × Option (Except X Bool)))
    (num conv : Nat) (exc : List X) (subs : List (SolveLoop.Sub S)) : Prop where
  len : subs.length = o.length
  numLe : num ≤ o.length
  nodup : (J.map Prod.fst).Nodup
  low : ∀ p ∈ J, p.1 < num
  res : ∀ j r, (j, some r) ∈ J → r = out zero f o j
  fresh : ∀ j, (num ≤ j ∨ (j, none) ∈ J) → subs[j]? = o[j]?
  done : ∀ j, j < num → (j, none) ∉ J → subs[j]? = o[j]?.map fun a => (trySolve zero f j a).1
  convEq : conv + J.countP (fun p => isT (out zero f o p.1)) = (List.range num).countP fun j => isT (out zero f o j)
  excEq : ∀ [DecidableEq X] (e : X), exc.count e + J.countP (fun p => isE e (out zero f o p.1)) = (List.range num).countP fun j => isE e (out zero f o j)

variable {zero : S} {f : Nat → Except X (S × Bool)} {o subs : List (SolveLoop.Sub S)} {J J' : List (Nat × Option (Except X Bool))}
  {num conv : Nat} {exc : List X}

theorem Core.perm (h : Core zero f o J num conv exc subs) (p : J.Perm J') : Core zero f o J' num conv exc subs where
  len := h.len
  numLe := h.numLe
  nodup := (p.map Prod.fst).nodup_iff.1 h.nodup
  low q hq := h.low q (p.mem_iff.2 hq)
  res j r hq := h.res j r (p.mem_iff.2 hq)
  fresh j hq := h.fresh j (hq.imp_right p.mem_iff.2)
  done j hj hq := h.done j hj (fun hx => hq (p.mem_iff.1 hx))
  convEq := by rw [← p.countP_eq]; exact h.convEq
  excEq e := by rw [← p.countP_eq]; exact h.excEq e

theorem core_start (zero : S) (f : Nat → Except X (S × Bool)) (o : List (SolveLoop.Sub S)) : Core zero f o [] 0 0 [] o where
  len := rfl
  numLe := by omega
  nodup := by simp
  low := by simp
  res := by simp
  fresh := by simp
  done := by intro j h; omega
  convEq := by simp
  excEq := by simp

theorem core_skip (h : Core zero f o J num conv exc subs) {a} (hs : subs[num]? = some a) (hc : a.converged = true) :
    Core zero f o J (num + 1) (conv + 1) exc (subs.set num { a with sol := zero }) := by
  have ho : o[num]? = some a := by rw [← h.fresh num (.inl (by omega))]; exact hs
  have hlt : num < subs.length := (List.getElem?_eq_some_iff.1 hs).1
  have hout : out zero f o num = .ok true := by simp [out, ho, trySolve, hc]
  have hnm : ∀ p ∈ J, p.1 ≠ num := by intro p hp hx; have := h.low p hp; omega
  refine ⟨by simp [h.len], by have := h.len; omega, h.nodup, ?_, h.res, ?_, ?_, ?_, ?_⟩
  · intro p hp; have := h.low p hp; omega
  · intro j hj
    have hne : num ≠ j := by
      rcases hj with hj | hj
      · omega
      · exact fun e => hnm _ hj e.symm
    rw [List.getElem?_set_ne hne]
    exact h.fresh j (hj.imp_left (by omega))
  · intro j hj hn
    by_cases he : j = num
    · subst he
      rw [List.getElem?_set_self hlt, ho]
      simp [trySolve, hc]
    · rw [List.getElem?_set_ne (Ne.symm he)]
      exact h.done j (by omega) hn
  · rw [List.range_succ, List.countP_append, ← h.convEq]
    simp [hout, isT]; omega
  · intro _ e
    rw [List.range_succ, List.countP_append, ← h.excEq e]
    simp [hout, isE]

theorem core_grab (h : Core zero f o J num conv exc subs) {a} (hs : subs[num]? = some a) : Core zero f o ((num, none) :: J) (num + 1) conv exc subs := by
  have hlt : num < subs.length := (List.getElem?_eq_some_iff.1 hs).1
  have hnm : ∀ p ∈ J, p.1 ≠ num := by intro p hp hx; have := h.low p hp; omega
  refine ⟨h.len, by have := h.len; omega, ?_, ?_, ?_, ?_, ?_, ?_, ?_⟩
  · rw [List.map_cons, List.nodup_cons]
    refine ⟨?_, h.nodup⟩
    intro hx
    obtain ⟨p, hp, e⟩ := List.mem_map.1 hx
    exact hnm p hp e
  · intro p hp
    rcases List.mem_cons.1 hp with rfl | hp
    · dsimp only; omega
    · have := h.low p hp; omega
  · intro j r hp
    rcases List.mem_cons.1 hp with e | hp
    · cases e
    · exact h.res j r hp
  · intro j hj
    apply h.fresh
    rcases hj with hj | hj
    · left; omega
    · rcases List.mem_cons.1 hj with e | hj
      · cases e; left; omega
      · exact .inr hj
  · intro j hj hn
    refine h.done j ?_ (fun hx => hn (List.mem_cons_of_mem _ hx))
    have : j ≠ num := by rintro rfl; exact hn (List.mem_cons_self ..)
    omega
  · rw [List.range_succ, List.countP_append, ← h.convEq, List.countP_cons]
    simp only [List.countP_cons, List.countP_nil]; omega
  · intro _ e
    rw [List.range_succ, List.countP_append, ← h.excEq e, List.countP_cons]
    simp only [List.countP_cons, List.countP_nil]; omega

theorem core_solve {j : Nat} (h : Core zero f o ((j, none) :: J) num conv exc subs) {a} (hs : subs[j]? = some a) :
    Core zero f o ((j, some (trySolve zero f j a).2) :: J) num conv exc (subs.set j (trySolve zero f j a).1) := by
  have ho : o[j]? = some a := by rw [← h.fresh j (.inr (List.mem_cons_self ..))]; exact hs
  have hlt : j < subs.length := (List.getElem?_eq_some_iff.1 hs).1
  have hnd := h.nodup
  rw [List.map_cons, List.nodup_cons] at hnd
  have hnm : ∀ p ∈ J, p.1 ≠ j := by intro p hp hx; exact hnd.1 (List.mem_map.2 ⟨p, hp, hx⟩)
  have hjn : j < num := h.low (j, none) (List.mem_cons_self ..)
  refine ⟨by simp [h.len], h.numLe, h.nodup, ?_, ?_, ?_, ?_, ?_, ?_⟩
  · intro p hp
    rcases List.mem_cons.1 hp with rfl | hp
    · exact hjn
    · exact h.low p (List.mem_cons_of_mem _ hp)
  · intro i r hp
    rcases List.mem_cons.1 hp with e | hp
    · cases e; simp [out, ho]
    · exact h.res i r (List.mem_cons_of_mem _ hp)
  · intro i hi
    have hne : j ≠ i := by
      rintro rfl
      rcases hi with hi | hi
      · omega
      · rcases List.mem_cons.1 hi with e | hi
        · cases e
        · exact hnm _ hi rfl
    rw [List.getElem?_set_ne hne]
    apply h.fresh
    rcases hi with hi | hi
    · exact .inl hi
    · rcases List.mem_cons.1 hi with e | hi
      · cases e
      · exact .inr (List.mem_cons_of_mem _ hi)
  · intro i hi hn
    by_cases he : i = j
    · subst he; rw [List.getElem?_set_self hlt, ho]; rfl
    · rw [List.getElem?_set_ne (Ne.symm he)]
      refine h.done i hi ?_
      intro hx
      rcases List.mem_cons.1 hx with e | hx
      · cases e; exact he rfl
      · exact hn (List.mem_cons_of_mem _ hx)
  · rw [← h.convEq]; simp only [List.countP_cons]
  · intro _ e; rw [← h.excEq e]; simp only [List.countP_cons]

theorem core_drop {j : Nat} {r : Except X Bool} (h : Core zero f o ((j, some r) :: J) num conv exc subs) {conv' : Nat} {exc' : List X}
    (hc : conv' = conv + if isT r then 1 else 0) (he : ∀ [DecidableEq X] (e : X), exc'.count e = exc.count e + if isE e r then 1 else 0) :
    Core zero f o J num conv' exc' subs := by
  have hr := h.res j r (List.mem_cons_self ..)
  have hnd := h.nodup
  rw [List.map_cons, List.nodup_cons] at hnd
  refine ⟨h.len, h.numLe, hnd.2, ?_, ?_, ?_, ?_, ?_, ?_⟩
  · intro p hp; exact h.low p (List.mem_cons_of_mem _ hp)
  · intro i r hp; exact h.res i r (List.mem_cons_of_mem _ hp)
  · intro i hi; exact h.fresh i (hi.imp_right (List.mem_cons_of_mem _))
  · intro i hi hn
    refine h.done i hi ?_
    intro hx
    rcases List.mem_cons.1 hx with e | hx
    · cases e
    · exact hn hx
  · rw [← h.convEq, hc, List.countP_cons, ← hr]; omega
  · intro _ e; rw [← h.excEq e, he, List.countP_cons, ← hr]; omega

theorem core_ok {j : Nat} {b : Bool} (h : Core zero f o ((j, some (.ok b)) :: J) num conv exc subs) :
    Core zero f o J num (if b then conv + 1 else conv) exc subs := by
  refine core_drop h ?_ (by intro _ e; simp [isE])
  cases b <;> simp [isT]

theorem core_err {j : Nat} {e : X} (h : Core zero f o ((j, some (.error e)) :: J) num conv exc subs) :
    Core zero f o J num conv (exc ++ [e]) subs := by
  refine core_drop h (by simp [isT]) ?_
  intro _ e'
  rw [List.count_append, List.count_singleton]
  simp [isE]

/-! ## Locks and flags -/

def holds (x : W X) : Bool := match x.pc with | .loop => true | _ => false
def mW : MPc X → Nat | .wantE | .loop => 1 | _ => 0
def mE : MPc X → Bool | .loop | .solving _ | .solved _ _ | .toWait => true | _ => false
def Out : MPc X → Prop | .idle | .wantW | .wantE => True | _ => False

def fits (x : W X) : Prop :=
  match x.pc with
  | .relock => True
  | .asleep | .stopped => x.active = false
  | _ => x.active = true

structure Base (N : Nat) (s : St S X) : Prop where
  len : s.w.length = N
  wl : s.w.countP holds + mW s.m = if s.wl then 1 else 0
  el : s.el = mE s.m
  fits : ∀ x ∈ s.w, fits x
  quiet : Out s.m → ∀ x ∈ s.w, x.active = false
  full : mE s.m = true → ∀ x ∈ s.w, x.active = true
  awake : s.m = .asleep → ∃ x ∈ s.w, x.active = true
  stop : s.stop = true → s.m = .idle
  ended : ∀ x ∈ s.w, x.pc = .stopped → s.stop = true

theorem base_init (N : Nat) (fit : Nat → Except X (S × Bool)) : Base N (St.init N fit) where
  len := by simp [St.init]
  wl := by simp [St.init, mW, holds, List.countP_eq_zero, List.mem_replicate]
  el := rfl
  fits := by intro x hx; simp [St.init, List.mem_replicate] at hx; rw [hx.2]; trivial
  quiet := by intro _ x hx; simp [St.init, List.mem_replicate] at hx; rw [hx.2]
  full := by intro h; cases h
  awake := by intro h; cases h
  stop := by intro h; cases h
  ended := by intro x hx h; simp [St.init, List.mem_replicate] at hx; rw [hx.2] at h; cases h

theorem rouse_active (x : W X) : (rouse x).active = x.active := by
  unfold rouse; split <;> rfl

theorem rouse_holds (x : W X) : holds (rouse x) = holds x := by
  unfold rouse; split
  · next h => simp [holds, h]
  · rfl

theorem rouse_fits {x : W X} (h : fits x) : fits (rouse x) := by
  unfold rouse; split
  · trivial
  · exact h

theorem rouse_job (x : W X) : job (rouse x).pc = job x.pc := by
  unfold rouse; split
  · next h => simp [job, h]
  · rfl

/-- Replacing a worker by one that is just as active and holds the mutex to the same extent. -/
theorem Base.replace {N : Nat} {s s' : St S X} (h : Base N s) {i : Nat} {x y : W X} (hx : s.w[i]? = some x) (hw : s'.w = s.w.set i y)
    (hm : s'.m = s.m) (hel : s'.el = s.el) (hst : s'.stop = s.stop) (ha : y.active = x.active) (hf : SolveWorkers.fits y)
    (he : y.pc = .stopped → s.stop = true)
    (hl : s.w.countP holds + (if holds y then 1 else 0) + mW s.m = (if s'.wl then 1 else 0) + (if holds x then 1 else 0)) : Base N s' := by
  obtain ⟨a, b, h1, h2⟩ := split_set hx
  have hw' : s'.w = a ++ y :: b := by rw [hw, h2]
  have hmem : ∀ z ∈ s'.w, z = y ∨ z ∈ s.w := by
    intro z hz; rw [hw'] at hz; rw [h1]
    simp only [List.mem_append, List.mem_cons] at hz ⊢; tauto
  have hxm : x ∈ s.w := List.mem_of_getElem? hx
  refine ⟨by rw [hw, List.length_set]; exact h.len, ?_, by rw [hel, hm]; exact h.el, ?_, ?_, ?_, ?_, by rw [hst, hm]; exact h.stop, ?_⟩
  · have e1 : s.w.countP holds = a.countP holds + (b.countP holds + if holds x then 1 else 0) := by
      rw [h1, List.countP_append, List.countP_cons]
    have e2 : s'.w.countP holds = a.countP holds + (b.countP holds + if holds y then 1 else 0) := by
      rw [hw', List.countP_append, List.countP_cons]
    rw [hm]; omega
  · intro z hz
    rcases hmem z hz with rfl | hz
    · exact hf
    · exact h.fits z hz
  · rw [hm]; intro hq z hz
    rcases hmem z hz with rfl | hz
    · rw [ha]; exact h.quiet hq x hxm
    · exact h.quiet hq z hz
  · rw [hm]; intro hq z hz
    rcases hmem z hz with rfl | hz
    · rw [ha]; exact h.full hq x hxm
    · exact h.full hq z hz
  · rw [hm]; intro hq
    obtain ⟨z, hz, hz'⟩ := h.awake hq
    rw [h1] at hz
    simp only [List.mem_append, List.mem_cons] at hz
    rcases hz with hz | rfl | hz
    · exact ⟨z, by rw [hw']; simp [hz], hz'⟩
    · exact ⟨y, by rw [hw']; simp, by rw [ha]; exact hz'⟩
    · exact ⟨z, by rw [hw']; simp [hz], hz'⟩
  · intro z hz hz'
    rw [hst]
    rcases hmem z hz with rfl | hz
    · exact he hz'
    · exact h.ended z hz hz'

theorem base_wstep {N : Nat} {s : St S X} (h : Base N s) (i : Nat) : Base N (wstep zero s i) := by
  unfold wstep
  rcases hx : s.w[i]? with _ | x
  · exact h
  have hxm : x ∈ s.w := List.mem_of_getElem? hx
  have hfx := h.fits x hxm
  have hwl := h.wl
  dsimp only
  rcases hpc : x.pc with _ | _ | _ | j | ⟨j, r⟩ | _ | _ <;> dsimp only
  · exact h
  · split
    · exact h
    next hw =>
    have hw : s.wl = false := by simpa using hw
    rw [hw] at hwl
    have hhx : holds x = false := by simp [holds, hpc]
    split
    · next hst =>
      refine h.replace hx rfl rfl rfl rfl rfl ?_ (fun _ => hst) ?_
      · exact h.quiet (by rw [h.stop hst]; trivial) x hxm
      · revert hwl; generalize List.countP holds s.w = c; simp only [holds, hpc, hw]; simp
    split
    · next ha =>
      refine h.replace hx rfl rfl rfl rfl rfl (by simpa [SolveWorkers.fits] using ha) (by intro hq; cases hq) ?_
      revert hwl; generalize List.countP holds s.w = c; simp only [holds, hpc, hw]; simp
    next ha =>
    have ha : x.active = true := by simpa using ha
    split
    · refine h.replace hx rfl rfl rfl rfl rfl (by simpa [SolveWorkers.fits] using ha) (by intro hq; cases hq) ?_
      revert hwl; generalize List.countP holds s.w = c; simp only [holds, hpc]; simp; intros; omega
    · refine h.replace hx rfl rfl rfl rfl rfl (by simpa [SolveWorkers.fits] using ha) (by intro hq; cases hq) ?_
      revert hwl; generalize List.countP holds s.w = c; simp only [holds, hpc, hw]; simp
  · have hhx : holds x = true := by simp [holds, hpc]
    have hwlt : s.wl = true := by
      by_contra hc
      have hc : s.wl = false := by simpa using hc
      rw [hc] at hwl
      have : 0 < s.w.countP holds := List.countP_pos_iff.2 ⟨x, hxm, hhx⟩
      rw [if_neg (by simp)] at hwl; omega
    have ha : x.active = true := by simpa [SolveWorkers.fits, hpc] using hfx
    rw [hwlt] at hwl
    split
    · split
      · exact ⟨h.len, by simpa [hwlt] using h.wl, h.el, h.fits, h.quiet, h.full, h.awake, h.stop, h.ended⟩
      · refine h.replace hx rfl rfl rfl rfl rfl (by simpa [SolveWorkers.fits] using ha) (by intro hq; cases hq) ?_
        revert hwl; generalize List.countP holds s.w = c; simp only [holds, hpc]; simp
    · refine h.replace hx rfl rfl rfl rfl rfl (by simpa [SolveWorkers.fits] using ha) (by intro hq; cases hq) ?_
      revert hwl; generalize List.countP holds s.w = c; simp only [holds, hpc]; simp
  · have ha : x.active = true := by simpa [SolveWorkers.fits, hpc] using hfx
    split
    · refine h.replace hx rfl rfl rfl rfl rfl (by simpa [SolveWorkers.fits] using ha) (by intro hq; cases hq) ?_
      revert hwl; generalize List.countP holds s.w = c; simp only [holds, hpc]; simp
    · exact h
  · have ha : x.active = true := by simpa [SolveWorkers.fits, hpc] using hfx
    split
    · exact h
    next hw =>
    have hw : s.wl = false := by simpa using hw
    rw [hw] at hwl
    split
    · refine h.replace hx rfl rfl rfl rfl rfl (by simpa [SolveWorkers.fits] using ha) (by intro hq; cases hq) ?_
      revert hwl; generalize List.countP holds s.w = c; simp only [holds, hpc]; simp; intros; omega
    · refine h.replace hx rfl rfl rfl rfl rfl (by simpa [SolveWorkers.fits] using ha) (by intro hq; cases hq) ?_
      revert hwl; generalize List.countP holds s.w = c; simp only [holds, hpc, hw]; simp
  · split
    · exact h
    next hel =>
    have hel : s.el = false := by simpa using hel
    have hmE : mE s.m = false := by rw [← h.el]; exact hel
    have ha : x.active = true := by simpa [SolveWorkers.fits, hpc] using hfx
    have hnq : ¬ Out s.m := by intro hq; rw [h.quiet hq x hxm] at ha; cases ha
    obtain ⟨a, b, h1, h2⟩ := split_set hx
    have hmem : ∀ z ∈ s.w.set i ⟨.relock, false⟩, z = ⟨.relock, false⟩ ∨ z ∈ s.w := by
      intro z hz; rw [h2] at hz; rw [h1]
      simp only [List.mem_append, List.mem_cons] at hz ⊢; tauto
    have hcnt : (s.w.set i (⟨.relock, false⟩ : W X)).countP holds = s.w.countP holds := by
      rw [h2, h1, List.countP_append, List.countP_append, List.countP_cons, List.countP_cons]
      simp [holds, hpc]
    unfold leave
    dsimp only
    have hm : ∀ m', (m' = s.m ∨ (s.m = .asleep ∧ m' = .relock)) → (m' = .asleep → ∃ z ∈ s.w.set i ⟨.relock, false⟩, z.active = true) →
        Base N { s with w := s.w.set i ⟨.relock, false⟩, m := m' } := by
      intro m' hm hd
      refine ⟨by simp [h.len], ?_, ?_, ?_, ?_, ?_, ?_, ?_, ?_⟩
      · dsimp only; rw [hcnt]
        rcases hm with rfl | ⟨e, rfl⟩
        · exact hwl
        · rw [e] at hwl; exact hwl
      · dsimp only; rw [hel]
        rcases hm with rfl | ⟨e, rfl⟩
        · exact hmE.symm
        · rfl
      · intro z hz
        rcases hmem z hz with rfl | hz
        · trivial
        · exact h.fits z hz
      · dsimp only; intro hq
        rcases hm with rfl | ⟨e, rfl⟩
        · exact absurd hq hnq
        · exact absurd hq (by simp [Out])
      · dsimp only; intro hq
        rcases hm with rfl | ⟨e, rfl⟩
        · rw [hmE] at hq; cases hq
        · cases hq
      · exact hd
      · dsimp only; intro hq
        have := h.stop hq
        exact absurd (show Out s.m by rw [this]; trivial) hnq
      · intro z hz hz'
        rcases hmem z hz with rfl | hz
        · cases hz'
        · exact h.ended z hz hz'
    split
    · cases hsm : s.m <;> dsimp only
      all_goals first
        | exact hm _ (.inl hsm.symm) (by intro hh; cases hh)
        | exact hm _ (.inr ⟨hsm, rfl⟩) (by intro hh; cases hh)
    · next hall =>
      refine hm _ (.inl rfl) ?_
      intro _
      simp only [List.all_eq_true, Bool.not_eq_true', not_forall] at hall
      obtain ⟨z, hz, hz'⟩ := hall
      exact ⟨z, hz, by simpa using hz'⟩
  · exact h

theorem base_mstep {N : Nat} (hN : 0 < N) {s : St S X} (h : Base N s) : Base N (mstep zero s) := by
  have hwl := h.wl
  have hel := h.el
  have hne : ∃ x, x ∈ s.w := by
    rcases hs : s.w with _ | ⟨x, l⟩
    · have := h.len; rw [hs] at this; simp at this; omega
    · exact ⟨x, List.mem_cons_self ..⟩
  -- a step that changes the main thread's place and perhaps the first mutex
  have go : ∀ m' wl' el' (num' conv' : Nat) exc' loop' subs' rets', s.m ≠ .idle → mW s.m + (if wl' then 1 else 0) = mW m' + (if s.wl then 1 else 0) → el' = mE m' →
      (Out m' → Out s.m ∨ ∀ x ∈ s.w, x.active = false) → (mE m' = true → mE s.m = true) → (m' = .asleep → mE s.m = true ∨ ∃ x ∈ s.w, x.active = true) →
      Base N { s with m := m', wl := wl', el := el', num := num', conv := conv', exc := exc', loop := loop', subs := subs', rets := rets' } := by
    intro m' wl' el' _ _ _ _ _ _ h0 h1 h2 h3 h4 h5
    refine ⟨h.len, ?_, h2, h.fits, ?_, fun hq => h.full (h4 hq), ?_, fun hq => absurd (h.stop hq) h0, h.ended⟩
    · dsimp only; omega
    · intro hq
      rcases h3 hq with hq | hq
      · exact h.quiet hq
      · exact hq
    · intro hq
      rcases h5 hq with hq | hq
      · obtain ⟨x, hx⟩ := hne
        exact ⟨x, hx, h.full hq x hx⟩
      · exact hq
  have wlt : mW s.m = 1 → s.wl = true := by
    intro hq
    by_contra hc
    have hc : s.wl = false := by simpa using hc
    rw [hc] at hwl; simp at hwl; omega
  unfold mstep
  rcases hm : s.m with _ | _ | _ | _ | j | ⟨j, r⟩ | _ | _ | _ <;> dsimp only <;> rw [hm] at go hel
  · exact h
  · split
    · exact h
    · next hw =>
      have hw : s.wl = false := by simpa using hw
      exact go .wantE true s.el s.num s.conv s.exc s.loop s.subs s.rets (by simp) (by simp [mW, hw]) hel (fun _ => .inl trivial) (by intro hq; cases hq) (by intro hq; cases hq)
  · split
    · exact h
    · have hns : s.stop = false := by
        by_contra hq
        have := h.stop (by simpa using hq)
        rw [hm] at this; cases this
      refine ⟨by simp [h.len], ?_, rfl, ?_, (by intro hq; cases hq), ?_, (by intro hq; cases hq), (by intro hq; rw [show s.stop = false from hns] at hq; cases hq), ?_⟩
      · dsimp only
        rw [List.countP_map]
        rw [hm] at hwl
        rw [← hwl]
        congr 1
        apply List.countP_congr
        intro x _
        have := rouse_holds x
        simp only [Function.comp, holds] at this ⊢
        rw [this]
      · intro x hx
        obtain ⟨y, hy, rfl⟩ := List.mem_map.1 hx
        have he := h.ended y hy
        unfold rouse
        rcases hpc : y.pc with _ | _ | _ | j | ⟨j, r⟩ | _ | _ <;> simp [SolveWorkers.fits, hpc] at he ⊢
        rw [hns] at he; cases he
      · intro _ x hx
        obtain ⟨y, hy, rfl⟩ := List.mem_map.1 hx
        rfl
      · intro x hx hp
        obtain ⟨y, hy, rfl⟩ := List.mem_map.1 hx
        refine h.ended y hy ?_
        unfold rouse at hp
        split at hp
        · cases hp
        · exact hp
  · have hw := wlt (by rw [hm]; rfl)
    split
    · split
      · exact go .loop s.wl s.el (s.num + 1) (s.conv + 1) s.exc s.loop _ s.rets (by simp) rfl hel (by intro hq; cases hq) (fun _ => rfl) (by intro hq; cases hq)
      · exact go (.solving s.num) false s.el (s.num + 1) s.conv s.exc s.loop s.subs s.rets (by simp) (by simp [mW, hw]) hel (by intro hq; cases hq) (fun _ => rfl) (by intro hq; cases hq)
    · exact go .toWait false s.el s.num s.conv s.exc false s.subs s.rets (by simp) (by simp [mW, hw]) hel (by intro hq; cases hq) (fun _ => rfl) (by intro hq; cases hq)
  · split
    · exact go _ s.wl s.el s.num s.conv s.exc s.loop _ s.rets (by simp) rfl hel (by intro hq; cases hq) (fun _ => rfl) (by intro hq; cases hq)
    · exact h
  · split
    · exact h
    · next hw =>
      have hw : s.wl = false := by simpa using hw
      split
      · exact go .loop true s.el s.num _ s.exc s.loop s.subs s.rets (by simp) (by simp [mW, hw]) hel (by intro hq; cases hq) (fun _ => rfl) (by intro hq; cases hq)
      · exact go .toWait s.wl s.el s.num s.conv _ false s.subs s.rets (by simp) (by simp [mW]) hel (by intro hq; cases hq) (fun _ => rfl) (by intro hq; cases hq)
  · exact go .asleep s.wl false s.num s.conv s.exc s.loop s.subs s.rets (by simp) (by simp [mW]) rfl (by intro hq; cases hq) (by intro hq; cases hq) (fun _ => .inl rfl)
  · exact h
  · split
    · exact h
    · split
      · next ha =>
        refine go .asleep s.wl s.el s.num s.conv s.exc s.loop s.subs s.rets (by simp) rfl hel (by intro hq; cases hq) (by intro hq; cases hq) (fun _ => .inr ?_)
        simpa using ha
      · next ha =>
        refine go .idle s.wl s.el s.num s.conv s.exc s.loop s.subs _ (by simp) rfl hel (fun _ => .inr ?_) (by intro hq; cases hq) (by intro hq; cases hq)
        simpa using ha

theorem base_step {N : Nat} (hN : 0 < N) {s : St S X} (h : Base N s) (a : Act S X) : Base N (step zero s a) := by
  cases a with
  | main => exact base_mstep hN h
  | worker i => exact base_wstep h i
  | call subs fit =>
    rw [step]
    split
    · next hm =>
      split
      · exact h
      · next hs =>
        exact ⟨h.len, by simpa [hm, mW] using h.wl, by simpa [hm, mE] using h.el, h.fits, fun _ => h.quiet (by rw [hm]; trivial), (by intro hq; cases hq),
          (by intro hq; cases hq), fun hq => absurd hq hs, h.ended⟩
    · exact h
  | spurious i =>
    rw [step]
    rcases hx : s.w[i]? with _ | x
    · exact h
    · refine h.replace hx rfl rfl rfl rfl (rouse_active x) (rouse_fits (h.fits x (List.mem_of_getElem? hx))) ?_ ?_
      · intro hq
        refine h.ended x (List.mem_of_getElem? hx) ?_
        unfold rouse at hq
        split at hq
        · cases hq
        · exact hq
      · rw [rouse_holds]; have := h.wl; dsimp only; omega
  | spuriousMain =>
    rw [step]
    split
    · next hm =>
      have hwl := h.wl
      have hel := h.el
      rw [hm] at hwl hel
      exact ⟨h.len, hwl, hel, h.fits, (by intro hq; cases hq), (by intro hq; cases hq), (by intro hq; cases hq), (fun hq => by have := h.stop hq; rw [hm] at this; cases this), h.ended⟩
    · exact h
  | stop =>
    rw [step]
    split
    · next hm =>
      split
      · exact h
      · refine ⟨by simp [h.len], ?_, h.el, ?_, ?_, ?_, ?_, fun _ => hm, fun _ _ _ => rfl⟩
        · dsimp only
          rw [List.countP_map, ← h.wl]
          congr 1
          apply List.countP_congr
          intro x _
          simp only [Function.comp, rouse_holds]
        · intro x hx
          obtain ⟨y, hy, rfl⟩ := List.mem_map.1 hx
          exact rouse_fits (h.fits y hy)
        · intro hq x hx
          obtain ⟨y, hy, rfl⟩ := List.mem_map.1 hx
          rw [rouse_active]; exact h.quiet hq y hy
        · intro hq; rw [show ({ s with stop := true, w := s.w.map rouse } : St S X).m = s.m from rfl, hm] at hq; cases hq
        · intro hq; rw [show ({ s with stop := true, w := s.w.map rouse } : St S X).m = s.m from rfl, hm] at hq; cases hq
    · exact h

theorem base_run {N : Nat} (hN : 0 < N) : ∀ (l : List (Act S X)) {s : St S X}, Base N s → Base N (run zero s l) := by
  intro l
  induction l with
  | nil => intro s h; exact h
  | cons a l ih => intro s h; exact ih (base_step hN h a)

theorem base_reach {N : Nat} (hN : 0 < N) {s : St S X} (h : Reachable zero N s) : Base N s := by
  obtain ⟨fit, acts, rfl⟩ := h
  exact base_run hN acts (base_init N fit)

/-! ## A call -/

def CoreS (zero : S) (f : Nat → Except X (S × Bool)) (o : List (SolveLoop.Sub S)) (s : St S X) : Prop :=
  Core zero f o (jobs s.m s.w) s.num s.conv s.exc s.subs

def Fin (o : List (SolveLoop.Sub S)) (s : St S X) : Prop := s.num = o.length ∨ s.exc ≠ []

def retOf (s : St S X) : Ret X := if s.exc.isEmpty then .ok s.conv else .thrown s.exc

def Phase (zero : S) (f : Nat → Except X (S × Bool)) (o : List (SolveLoop.Sub S)) (R : List (Ret X)) (s : St S X) : Prop :=
  s.fit = f ∧
  match s.m with
  | .wantW | .wantE => s.subs = o ∧ s.rets = R
  | .loop | .solving _ | .solved _ _ => s.rets = R ∧ CoreS zero f o s
  | .toWait | .asleep | .relock => s.rets = R ∧ CoreS zero f o s ∧ Fin o s
  | .idle => s.rets = R ++ [retOf s] ∧ CoreS zero f o s ∧ Fin o s

theorem job_quiet {x : W X} (h : fits x) (ha : x.active = false) : job x.pc = none ∧ (x.pc = .relock ∨ x.pc = .asleep ∨ x.pc = .stopped) := by
  unfold fits at h
  rcases hpc : x.pc with _ | _ | _ | j | ⟨j, r⟩ | _ | _ <;> simp_all [job]

theorem jobs_quiet {N : Nat} {s : St S X} (h : Base N s) (hq : ∀ x ∈ s.w, x.active = false) : jobsW s.w = [] := by
  unfold jobsW
  rw [List.filterMap_eq_nil_iff]
  intro x hx
  exact (job_quiet (h.fits x hx) (hq x hx)).1

/-- A step of an inactive worker changes only where it is. -/
theorem wstep_quiet {N : Nat} {s : St S X} (h : Base N s) (hq : ∀ x ∈ s.w, x.active = false) (i : Nat) :
    ∃ w', wstep zero s i = { s with w := w' } := by
  unfold wstep
  rcases hx : s.w[i]? with _ | x
  · exact ⟨s.w, rfl⟩
  · have hxm := List.mem_of_getElem? hx
    obtain ⟨_, hp⟩ := job_quiet (h.fits x hxm) (hq x hxm)
    dsimp only
    rcases hp with hp | hp | hp <;> rw [hp] <;> dsimp only
    · rw [hq x hxm]
      split
      · exact ⟨s.w, rfl⟩
      · split
        · exact ⟨_, rfl⟩
        · exact ⟨_, rfl⟩
    · exact ⟨s.w, rfl⟩
    · exact ⟨s.w, rfl⟩

theorem wstep_keeps (s : St S X) (i : Nat) : (wstep zero s i).fit = s.fit ∧ (wstep zero s i).rets = s.rets ∧
    ((wstep zero s i).m = s.m ∨ (s.m = .asleep ∧ (wstep zero s i).m = .relock)) := by
  unfold wstep leave
  repeat' split
  all_goals first
    | exact ⟨rfl, rfl, .inl rfl⟩
    | (refine ⟨rfl, rfl, ?_⟩; dsimp only; split <;> first | exact .inl rfl | skip)
  all_goals simp_all

theorem wstep_core {s : St S X} {f : Nat → Except X (S × Bool)} {o : List (SolveLoop.Sub S)} (hf : s.fit = f) (hc : CoreS zero f o s) (i : Nat) :
    CoreS zero f o (wstep zero s i) ∧ (Fin o s → Fin o (wstep zero s i)) := by
  unfold wstep
  rcases hx : s.w[i]? with _ | x
  · exact ⟨hc, id⟩
  obtain ⟨rest, p1, p2⟩ := jobs_set (m := s.m) hx
  dsimp only
  unfold CoreS at hc
  have hc' := hc.perm p1
  -- a worker replaced by another with the same job
  have same : ∀ y : W X, job y.pc = job x.pc → Core zero f o (jobs s.m (s.w.set i y)) s.num s.conv s.exc s.subs := by
    intro y hy
    refine hc.perm (p1.trans ?_)
    rw [← hy]; exact (p2 y).symm
  rcases hpc : x.pc with _ | _ | _ | j | ⟨j, r⟩ | _ | _ <;> dsimp only <;> rw [hpc] at hc' same
  · exact ⟨hc, id⟩
  · split
    · exact ⟨hc, id⟩
    split
    · exact ⟨same _ rfl, id⟩
    split
    · exact ⟨same _ rfl, id⟩
    split
    · exact ⟨same _ rfl, id⟩
    · exact ⟨same _ rfl, id⟩
  · split
    · next sub hsub =>
      have hlt : s.num < o.length := by rw [← hc.len]; exact (List.getElem?_eq_some_iff.1 hsub).1
      split
      · next hcv => exact ⟨core_skip hc hsub hcv, fun hfin => hfin.imp (by intro hh; omega) id⟩
      · refine ⟨?_, fun hfin => hfin.imp (by intro hh; omega) id⟩
        exact (core_grab (J := rest) hc' hsub).perm (p2 ⟨.solving s.num, x.active⟩).symm
    · exact ⟨same _ rfl, id⟩
  · split
    · next sub hsub =>
      refine ⟨?_, id⟩
      rw [hf]
      exact (core_solve (J := rest) hc' hsub).perm (p2 ⟨.solved j (trySolve zero f j sub).2, x.active⟩).symm
    · exact ⟨hc, id⟩
  · split
    · exact ⟨hc, id⟩
    split
    · exact ⟨(core_ok (J := rest) hc').perm (p2 ⟨.loop, x.active⟩).symm, id⟩
    · exact ⟨(core_err (J := rest) hc').perm (p2 ⟨.leaving, x.active⟩).symm, fun _ => .inr (by simp)⟩
  · split
    · exact ⟨hc, id⟩
    · refine ⟨?_, id⟩
      have hj : jobs (leave s i).m (leave s i).w = jobs s.m (s.w.set i ⟨.relock, false⟩) := by
        unfold leave jobs
        dsimp only
        split
        · cases s.m <;> rfl
        · rfl
      unfold CoreS
      rw [hj]
      exact same _ rfl
  · exact ⟨hc, id⟩

theorem phase_wstep {N : Nat} {s : St S X} (h : Base N s) {f : Nat → Except X (S × Bool)} {o : List (SolveLoop.Sub S)} {R : List (Ret X)} (hp : Phase zero f o R s) (i : Nat) :
    Phase zero f o R (wstep zero s i) := by
  obtain ⟨hf, hp⟩ := hp
  by_cases hq : Out s.m
  · obtain ⟨w', hw⟩ := wstep_quiet (zero := zero) h (h.quiet hq) i
    have hb := base_wstep (zero := zero) h i
    have hcore : CoreS zero f o s → CoreS zero f o (wstep zero s i) := fun hc => (wstep_core hf hc i).1
    refine ⟨by rw [hw]; exact hf, ?_⟩
    rw [hw] at hcore ⊢
    dsimp only
    cases hm : s.m <;> rw [hm] at hp hq hcore <;> dsimp only at hp ⊢
    · exact ⟨hp.1, hcore hp.2.1, hp.2.2⟩
    · exact hp
    · exact hp
    all_goals exact hq.elim
  · obtain ⟨k1, k2, k3⟩ := wstep_keeps (zero := zero) s i
    refine ⟨by rw [k1]; exact hf, ?_⟩
    rcases k3 with k3 | ⟨k3, k4⟩
    · rw [k3]
      cases hm : s.m <;> rw [hm] at hp hq <;> dsimp only at hp ⊢
      case idle => exact absurd trivial hq
      case wantW => exact absurd trivial hq
      case wantE => exact absurd trivial hq
      all_goals rw [k2]
      all_goals first
        | exact ⟨hp.1, (wstep_core hf hp.2 i).1⟩
        | exact ⟨hp.1, (wstep_core hf hp.2.1 i).1, (wstep_core hf hp.2.1 i).2 hp.2.2⟩
    · rw [k4]
      rw [k3] at hp
      dsimp only at hp ⊢
      rw [k2]
      exact ⟨hp.1, (wstep_core hf hp.2.1 i).1, (wstep_core hf hp.2.1 i).2 hp.2.2⟩

theorem phase_mstep {N : Nat} {s : St S X} (h : Base N s) {f : Nat → Except X (S × Bool)} {o : List (SolveLoop.Sub S)} {R : List (Ret X)} (hp : Phase zero f o R s) :
    Phase zero f o R (mstep zero s) := by
  have hp0 := hp
  obtain ⟨hf, hp⟩ := hp
  unfold mstep
  rcases hm : s.m with _ | _ | _ | _ | j | ⟨j, r⟩ | _ | _ | _ <;> rw [hm] at hp <;> dsimp only at hp ⊢
  · exact hp0
  · split
    · exact hp0
    · exact ⟨hf, hp⟩
  · split
    · exact hp0
    · refine ⟨hf, hp.2, ?_⟩
      have hq := h.quiet (by rw [hm]; trivial)
      unfold CoreS
      dsimp only
      have : jobs .loop (s.w.map fun x => { rouse x with active := true }) = [] := by
        unfold jobs jobsW
        simp only [jobM, Option.toList_none, List.nil_append]
        rw [List.filterMap_eq_nil_iff]
        intro x hx
        obtain ⟨y, hy, rfl⟩ := List.mem_map.1 hx
        dsimp only
        rw [rouse_job]
        exact (job_quiet (h.fits y hy) (hq y hy)).1
      rw [this, hp.1]
      exact core_start zero f o
  · obtain ⟨hr, hc⟩ := hp
    unfold CoreS at hc
    rw [hm] at hc
    split
    · next sub hsub =>
      split
      · next hcv =>
        exact ⟨hf, hr, core_skip hc hsub hcv⟩
      · exact ⟨hf, hr, core_grab hc hsub⟩
    · next hnone =>
      refine ⟨hf, hr, hc, .inl ?_⟩
      have := List.getElem?_eq_none_iff.1 hnone
      rw [hc.len] at this
      exact Nat.le_antisymm hc.numLe this
  · obtain ⟨hr, hc⟩ := hp
    unfold CoreS at hc
    rw [hm] at hc
    split
    · next sub hsub =>
      refine ⟨hf, hr, ?_⟩
      unfold CoreS
      dsimp only
      rw [hf]
      exact core_solve (J := jobsW s.w) hc hsub
    · exact hp0
  · obtain ⟨hr, hc⟩ := hp
    unfold CoreS at hc
    rw [hm] at hc
    split
    · exact hp0
    split
    · exact ⟨hf, hr, core_ok (J := jobsW s.w) hc⟩
    · exact ⟨hf, hr, core_err (J := jobsW s.w) hc, .inr (by simp)⟩
  · obtain ⟨hr, hc, hfin⟩ := hp
    unfold CoreS at hc
    rw [hm] at hc
    exact ⟨hf, hr, hc, hfin⟩
  · exact hp0
  · obtain ⟨hr, hc, hfin⟩ := hp
    unfold CoreS at hc
    rw [hm] at hc
    split
    · exact hp0
    split
    · exact ⟨hf, hr, hc, hfin⟩
    · refine ⟨hf, ?_, hc, hfin⟩
      dsimp only
      rw [hr]; rfl

theorem phase_threads {N : Nat} {s : St S X} (h : Base N s) {f : Nat → Except X (S × Bool)} {o : List (SolveLoop.Sub S)} {R : List (Ret X)} (hp : Phase zero f o R s)
    {a : Act S X} (ha : Threads a) : Phase zero f o R (step zero s a) := by
  cases a with
  | main => exact phase_mstep h hp
  | worker i => exact phase_wstep h hp i
  | call => exact ha.elim
  | stop => exact ha.elim
  | spurious i =>
    rw [step]
    rcases hx : s.w[i]? with _ | x
    · exact hp
    · dsimp only
      obtain ⟨rest, p1, p2⟩ := jobs_set (m := s.m) hx
      have hcore : CoreS zero f o s → CoreS zero f o { s with w := s.w.set i (rouse x) } := by
        intro hc
        refine Core.perm hc (p1.trans ?_)
        rw [← rouse_job]; exact (p2 _).symm
      obtain ⟨hf, hp⟩ := hp
      refine ⟨hf, ?_⟩
      dsimp only
      cases hm : s.m <;> rw [hm] at hp hcore <;> dsimp only at hp ⊢
      case idle => exact ⟨hp.1, hcore hp.2.1, hp.2.2⟩
      case wantW => exact hp
      case wantE => exact hp
      case loop => exact ⟨hp.1, hcore hp.2⟩
      case solving => exact ⟨hp.1, hcore hp.2⟩
      case solved => exact ⟨hp.1, hcore hp.2⟩
      all_goals exact ⟨hp.1, hcore hp.2.1, hp.2.2⟩
  | spuriousMain =>
    rw [step]
    split
    · next hm =>
      obtain ⟨hf, hp⟩ := hp
      rw [hm] at hp
      dsimp only at hp
      obtain ⟨hr, hc, hfin⟩ := hp
      unfold CoreS at hc
      rw [hm] at hc
      exact ⟨hf, hr, hc, hfin⟩
    · exact hp

theorem phase_run {N : Nat} (hN : 0 < N) {f : Nat → Except X (S × Bool)} {o : List (SolveLoop.Sub S)} {R : List (Ret X)} : ∀ (l : List (Act S X)) {s : St S X}, Base N s →
    Phase zero f o R s → (∀ a ∈ l, Threads a) → Phase zero f o R (run zero s l) := by
  intro l
  induction l with
  | nil => intro s _ h _; exact h
  | cons a l ih =>
    intro s hb h ha
    exact ih (base_step hN hb a) (phase_threads hb h (ha a (List.mem_cons_self ..))) fun b hb => ha b (List.mem_cons_of_mem _ hb)

theorem call_phase {N : Nat} (hN : 0 < N) {s s' : St S X} {subs fit acts} (c : Call zero N s subs fit acts s') :
    Base N s' ∧ Phase zero fit subs s.rets s' := by
  have hb := base_reach hN c.reach
  have hs : step zero s (.call subs fit) = { s with subs := subs, fit := fit, m := .wantW } := by
    rw [step, c.outside]; dsimp only; rw [if_neg (by simp [c.running])]
  rw [c.run]
  exact ⟨base_run hN _ (base_step hN hb _), phase_run hN acts (base_step hN hb _) (by rw [hs]; exact ⟨rfl, rfl, rfl⟩) c.threads⟩

end Verif.SolveWorkers
