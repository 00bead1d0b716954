import Verif.Proof.SolveWorkers
/-! # Lemmas for C133: the call returns -/
namespace Verif.SolveWorkers
variable {S X : Type} {zero : S}

def wt (x : W X) : Nat :=
  match x.pc with
  | .asleep => 0
  | .stopped => 0
  | .relock => if x.active then 5 else 1
  | .leaving => 3
  | .loop => 4
  | .solved _ _ => 5
  | .solving _ => 6

def mt (N n : Nat) : MPc X → Nat
  | .idle => 0
  | .asleep => 0
  | .relock => 1
  | .toWait => 2
  | .loop => 3
  | .solved _ _ => 4
  | .solving _ => 5
  | .wantE => 10 + 5 * N + 3 * n
  | .wantW => 11 + 5 * N + 3 * n

def mu (s : St S X) : Nat := mt s.w.length s.subs.length s.m + (s.w.map wt).sum + 3 * (s.subs.length - s.num)

theorem sum_set {w : List (W X)} {i : Nat} {x : W X} (h : w[i]? = some x) (y : W X) :
    ((w.set i y).map wt).sum + wt x = (w.map wt).sum + wt y := by
  obtain ⟨a, b, h1, h2⟩ := split_set h
  rw [h2 y]
  conv_rhs => rw [h1]
  simp; omega

theorem mu_wstep (s : St S X) (i : Nat) : wstep zero s i = s ∨ mu (wstep zero s i) < mu s := by
  unfold wstep
  rcases hx : s.w[i]? with _ | x
  · exact .inl rfl
  have key := sum_set hx
  dsimp only
  rcases hpc : x.pc with _ | _ | _ | j | ⟨j, r⟩ | _ | _ <;> dsimp only
  · exact .inl rfl
  · split
    · exact .inl rfl
    right
    have hwx : 1 ≤ wt x ∧ (x.active = true → wt x = 5) := by
      unfold wt; rw [hpc]; dsimp only; split <;> simp_all
    split
    · have := key { x with pc := .stopped }
      simp only [mu, List.length_set]
      have e : wt ({ x with pc := .stopped } : W X) = 0 := rfl
      omega
    split
    · have := key { x with pc := .asleep }
      simp only [mu, List.length_set]
      have e : wt ({ x with pc := .asleep } : W X) = 0 := rfl
      omega
    next ha =>
    have ha := hwx.2 (by simpa using ha)
    split
    · have := key { x with pc := .loop }
      simp only [mu, List.length_set]
      have e : wt ({ x with pc := .loop } : W X) = 4 := rfl
      omega
    · have := key { x with pc := .leaving }
      simp only [mu, List.length_set]
      have e : wt ({ x with pc := .leaving } : W X) = 3 := rfl
      omega
  · have hwx : wt x = 4 := by unfold wt; rw [hpc]
    right
    split
    · next sub hsub =>
      have hlt := (List.getElem?_eq_some_iff.1 hsub).1
      split
      · simp only [mu, List.length_set]; omega
      · have := key { x with pc := .solving s.num }
        simp only [mu, List.length_set]
        have e : wt ({ x with pc := .solving s.num } : W X) = 6 := rfl
        omega
    · have := key { x with pc := .leaving }
      simp only [mu, List.length_set]
      have e : wt ({ x with pc := .leaving } : W X) = 3 := rfl
      omega
  · have hwx : wt x = 6 := by unfold wt; rw [hpc]
    split
    · next sub hsub =>
      right
      have := key { x with pc := .solved j (trySolve zero s.fit j sub).2 }
      simp only [mu, List.length_set]
      have e : wt ({ x with pc := .solved j (trySolve zero s.fit j sub).2 } : W X) = 5 := rfl
      omega
    · exact .inl rfl
  · have hwx : wt x = 5 := by unfold wt; rw [hpc]
    split
    · exact .inl rfl
    right
    split
    · have := key { x with pc := .loop }
      simp only [mu, List.length_set]
      have e : wt ({ x with pc := .loop } : W X) = 4 := rfl
      omega
    · have := key { x with pc := .leaving }
      simp only [mu, List.length_set]
      have e : wt ({ x with pc := .leaving } : W X) = 3 := rfl
      omega
  · have hwx : wt x = 3 := by unfold wt; rw [hpc]
    split
    · exact .inl rfl
    right
    have := key ⟨.relock, false⟩
    have e : wt (⟨.relock, false⟩ : W X) = 1 := rfl
    have hm : ∀ N n, mt N n (leave s i).m ≤ mt N n s.m + 1 := by
      intro N n
      unfold leave
      dsimp only
      split
      · cases s.m <;> simp [mt]
      · omega
    have h1 := hm s.w.length s.subs.length
    have : mu (leave s i) = mt s.w.length s.subs.length (leave s i).m + ((s.w.set i ⟨.relock, false⟩).map wt).sum + 3 * (s.subs.length - s.num) := by
      simp only [mu, leave, List.length_set]
    rw [this]
    unfold mu
    omega
  · exact .inl rfl

theorem mu_mstep {N : Nat} {s : St S X} (h : Base N s) : mstep zero s = s ∨ mu (mstep zero s) < mu s := by
  unfold mstep
  rcases hm : s.m with _ | _ | _ | _ | j | ⟨j, r⟩ | _ | _ | _ <;> dsimp only
  · exact .inl rfl
  · split
    · exact .inl rfl
    · right; simp only [mu, hm, mt]; omega
  · split
    · exact .inl rfl
    · right
      have hsum : ((s.w.map fun x => (⟨(rouse x).pc, true⟩ : W X)).map wt).sum ≤ 5 * s.w.length := by
        have hle : ∀ x ∈ s.w, wt (⟨(rouse x).pc, true⟩ : W X) ≤ 5 := by
          intro x hx
          obtain ⟨_, hp⟩ := job_quiet (h.fits x hx) (h.quiet (by rw [hm]; trivial) x hx)
          rcases hp with hp | hp | hp <;> simp [wt, rouse, hp]
        generalize s.w = l at hle
        induction l with
        | nil => simp
        | cons a l ih =>
          have h1 := hle a (List.mem_cons_self ..)
          have h2 := ih fun x hx => hle x (List.mem_cons_of_mem _ hx)
          simp only [List.map_cons, List.sum_cons, List.length_cons]
          omega
      simp only [mu, hm, mt]
      omega
  · right
    split
    · next sub hsub =>
      have hlt := (List.getElem?_eq_some_iff.1 hsub).1
      split
      · simp only [mu, hm, List.length_set, mt]; omega
      · simp only [mu, hm, mt]; omega
    · simp only [mu, hm, mt]; omega
  · split
    · right; simp only [mu, hm, List.length_set, mt]; omega
    · exact .inl rfl
  · split
    · exact .inl rfl
    right
    split <;> simp only [mu, hm, mt] <;> omega
  · right; simp only [mu, hm, mt]; omega
  · exact .inl rfl
  · split
    · exact .inl rfl
    right
    split <;> simp only [mu, hm, mt] <;> omega

theorem mu_step {N : Nat} {s : St S X} (h : Base N s) {a : Act S X} (ha : Proper a) : step zero s a = s ∨ mu (step zero s a) < mu s := by
  cases a with
  | main => exact mu_mstep h
  | worker i => exact mu_wstep s i
  | _ => exact ha.elim

/-! ## There is always something to do -/

def Live (zero : S) (s : St S X) : Prop := s.m = .idle ∨ ∃ f o R, Phase zero f o R s

theorem live_step {N : Nat} {s : St S X} (hb : Base N s) (h : Live zero s) (a : Act S X) : Live zero (step zero s a) := by
  by_cases ht : Threads a
  · rcases h with h | ⟨f, o, R, h⟩
    · left
      cases a with
      | main => simp only [step, mstep, h]
      | worker i =>
        obtain ⟨w', hw⟩ := wstep_quiet (zero := zero) hb (hb.quiet (by rw [h]; trivial)) i
        rw [step, hw]; exact h
      | spurious i => rw [step]; split <;> exact h
      | spuriousMain =>
        rw [step]; split
        · next hm => rw [hm] at h; cases h
        · exact h
      | call => exact ht.elim
      | stop => exact ht.elim
    · exact .inr ⟨f, o, R, phase_threads hb h ht⟩
  · cases a with
    | call subs fit =>
      rw [step]
      split
      · split
        · exact h
        · exact .inr ⟨fit, subs, s.rets, rfl, rfl, rfl⟩
      · exact h
    | stop =>
      rw [step]
      split
      · next hm =>
        split
        · exact h
        · exact .inl hm
      · exact h
    | _ => exact absurd trivial ht

theorem live_run {N : Nat} (hN : 0 < N) : ∀ (l : List (Act S X)) {s : St S X}, Base N s → Live zero s → Live zero (run zero s l) := by
  intro l
  induction l with
  | nil => intro s _ h; exact h
  | cons a l ih => intro s hb h; exact ih (base_step hN hb a) (live_step hb h a)

theorem live_reach {N : Nat} (hN : 0 < N) {s : St S X} (h : Reachable zero N s) : Live zero s := by
  obtain ⟨fit, acts, rfl⟩ := h
  exact live_run hN acts (base_init N fit) (.inl rfl)

theorem phase_sub {s : St S X} {f o R} (h : Phase zero f o R s) {p} (hp : p ∈ jobs s.m s.w) (hm : ¬ Out s.m) : ∃ sub, s.subs[p.1]? = some sub := by
  have hc : CoreS zero f o s := by
    have := h.2
    cases hm' : s.m <;> rw [hm'] at this hm <;> dsimp only at this
    case idle => exact absurd trivial hm
    case wantW => exact absurd trivial hm
    case wantE => exact absurd trivial hm
    case loop => exact this.2
    case solving => exact this.2
    case solved => exact this.2
    all_goals exact this.2.1
  have h1 := hc.low p hp
  have h2 := hc.numLe
  exact ⟨_, List.getElem?_eq_getElem (by rw [hc.len]; omega)⟩

theorem set_ne {w : List (W X)} {i : Nat} {x y : W X} (h : w[i]? = some x) (hne : y.pc ≠ x.pc) : w.set i y ≠ w := by
  intro e
  have hi := (List.getElem?_eq_some_iff.1 h).1
  have : (w.set i y)[i]? = some y := List.getElem?_set_self hi
  rw [e, h] at this
  cases this
  exact hne rfl

theorem progress {N : Nat} {s : St S X} (h : Base N s) (hl : Live zero s) (hm : s.m ≠ .idle) : ∃ a : Act S X, Proper a ∧ step zero s a ≠ s := by
  have hl : ∃ f o R, Phase zero f o R s := hl.resolve_left hm
  obtain ⟨f, o, R, hp⟩ := hl
  have hwl := h.wl
  have hel := h.el
  -- a worker that holds the mutex
  have wloop : ∀ (i : Nat) (x : W X), s.w[i]? = some x → x.pc = .loop → step zero s (.worker i) ≠ s := by
    intro i x hx hpc e
    have hw : s.wl = true := by
      by_contra hc
      have hc : s.wl = false := by simpa using hc
      rw [hc] at hwl
      have : 0 < s.w.countP holds := List.countP_pos_iff.2 ⟨x, List.mem_of_getElem? hx, by simp [holds, hpc]⟩
      rw [if_neg (by simp)] at hwl; omega
    simp only [step, wstep, hx, hpc] at e
    split at e
    · split at e
      · have := congrArg St.num e; simp at this
      · have := congrArg St.num e; simp at this
    · have := congrArg St.wl e; dsimp only at this; rw [hw] at this; cases this
  by_cases hw : s.wl = true
  · by_cases hmw : mW s.m = 1
    · refine ⟨.main, trivial, ?_⟩
      intro e
      cases hm' : s.m <;> rw [hm'] at hmw hel <;> simp [mW] at hmw
      · simp only [step, mstep, hm'] at e
        rw [if_neg (by rw [hel]; simp [mE])] at e
        have := congrArg St.m e; dsimp only at this; rw [hm'] at this; cases this
      · simp only [step, mstep, hm'] at e
        split at e
        · split at e
          · have := congrArg St.num e; simp at this
          · have := congrArg St.num e; simp at this
        · have := congrArg St.m e; dsimp only at this; rw [hm'] at this; cases this
    · have hm0 : mW s.m = 0 := by cases hm' : s.m <;> rw [hm'] at hmw <;> simp [mW] at hmw ⊢
      rw [hw, hm0] at hwl
      have : 0 < s.w.countP holds := by rw [if_pos rfl] at hwl; omega
      obtain ⟨x, hx, hh⟩ := List.countP_pos_iff.1 this
      obtain ⟨i, hi⟩ := List.getElem?_of_mem hx
      refine ⟨.worker i, trivial, wloop i x hi ?_⟩
      unfold holds at hh
      split at hh
      · assumption
      · cases hh
  · have hw : s.wl = false := by simpa using hw
    rw [hw] at hwl
    rw [if_neg (by simp)] at hwl
    have hm0 : mW s.m = 0 := by omega
    by_cases has : s.m = .asleep
    · obtain ⟨x, hx, ha⟩ := h.awake has
      obtain ⟨i, hi⟩ := List.getElem?_of_mem hx
      refine ⟨.worker i, trivial, ?_⟩
      have hst : s.stop = false := by
        by_contra hc
        exact hm (h.stop (by simpa using hc))
      have hfx := h.fits x hx
      have hjob : ∀ p, job x.pc = some p → p ∈ jobs s.m s.w := by
        intro p hjp
        exact List.mem_append_right _ (List.mem_filterMap.2 ⟨x, hx, hjp⟩)
      rcases hpc : x.pc with _ | _ | _ | j | ⟨j, r⟩ | _ | _
      · simp [fits, hpc, ha] at hfx
      · intro e
        simp only [step, wstep, hi, hpc, hw, hst, ha] at e
        simp only [Bool.false_eq_true, if_false, Bool.not_true] at e
        split at e
        · exact set_ne hi (by rw [hpc]; intro hh; cases hh) (congrArg St.w e)
        · exact set_ne hi (by rw [hpc]; intro hh; cases hh) (congrArg St.w e)
      · exact wloop i x hi hpc
      · intro e
        obtain ⟨sub, hsub⟩ := phase_sub hp (hjob (j, none) (by rw [hpc]; rfl)) (by rw [has]; exact id)
        simp only [step, wstep, hi, hpc, hsub] at e
        exact set_ne hi (by rw [hpc]; intro hh; cases hh) (congrArg St.w e)
      · intro e
        simp only [step, wstep, hi, hpc, hw] at e
        simp only [Bool.false_eq_true, if_false] at e
        split at e
        · exact set_ne hi (by rw [hpc]; intro hh; cases hh) (congrArg St.w e)
        · exact set_ne hi (by rw [hpc]; intro hh; cases hh) (congrArg St.w e)
      · intro e
        simp only [step, wstep, hi, hpc] at e
        rw [if_neg (by rw [hel, has]; simp [mE])] at e
        have := congrArg St.w e
        simp only [leave] at this
        exact set_ne hi (by rw [hpc]; intro hh; cases hh) this
      · simp [fits, hpc, ha] at hfx
    · refine ⟨.main, trivial, ?_⟩
      intro e
      have e := congrArg St.m e
      rcases hm' : s.m with _ | _ | _ | _ | j | ⟨j, r⟩ | _ | _ | _
      · exact hm hm'
      · simp only [step, mstep, hm', hw] at e; cases e
      · rw [hm'] at hm0; cases hm0
      · rw [hm'] at hm0; cases hm0
      · obtain ⟨sub, hsub⟩ := phase_sub hp (p := (j, none)) (by rw [hm']; exact List.mem_append_left _ (List.mem_singleton.2 rfl)) (by rw [hm']; exact id)
        simp only [step, mstep, hm', hsub] at e; cases e
      · simp only [step, mstep, hm', hw] at e
        cases r <;> cases e
      · simp only [step, mstep, hm'] at e; cases e
      · exact has hm'
      · simp only [step, mstep, hm'] at e
        rw [if_neg (by rw [hel, hm']; simp [mE])] at e
        split at e
        · dsimp only at e; cases e
        · dsimp only at e; cases e

/-! ## Stopping -/

theorem stop_step {N : Nat} {s : St S X} (hb : Base N s) (h : s.stop = true → ∀ x ∈ s.w, x.pc ≠ .asleep) (a : Act S X) :
    (step zero s a).stop = true → ∀ x ∈ (step zero s a).w, x.pc ≠ .asleep := by
  cases a with
  | main =>
    intro hst
    have hst' : s.stop = true := by
      have : (mstep zero s).stop = s.stop := by unfold mstep; repeat' split
                                                all_goals rfl
      rw [step, this] at hst; exact hst
    have hm := hb.stop hst'
    rw [step]
    simp only [mstep, hm]
    exact h hst'
  | worker i =>
    intro hst
    have hst' : s.stop = true := by
      have : (wstep zero s i).stop = s.stop := by unfold wstep leave; repeat' split
                                                  all_goals rfl
      rw [step, this] at hst; exact hst
    have hm := hb.stop hst'
    have hq := hb.quiet (by rw [hm]; trivial)
    rw [step]
    unfold wstep
    rcases hx : s.w[i]? with _ | x
    · exact h hst'
    have hxm := List.mem_of_getElem? hx
    obtain ⟨_, hp⟩ := job_quiet (hb.fits x hxm) (hq x hxm)
    dsimp only
    rcases hp with hp | hp | hp <;> rw [hp] <;> dsimp only
    · rw [hst']
      split
      · exact h hst'
      · rw [if_pos rfl]
        intro y hy
        rcases List.mem_or_eq_of_mem_set hy with hy | rfl
        · exact h hst' y hy
        · intro hh; cases hh
    · exact h hst'
    · exact h hst'
  | call =>
    rw [step]; split
    · split <;> exact h
    · exact h
  | spurious i =>
    rw [step]; split
    · next x hx =>
      intro hst y hy
      rcases List.mem_or_eq_of_mem_set hy with hy | rfl
      · exact h hst y hy
      · unfold rouse; split
        · intro hh; cases hh
        · next hne => exact hne
    · exact h
  | spuriousMain => rw [step]; split <;> exact h
  | stop =>
    rw [step]; split
    · split
      · exact h
      · intro _ y hy
        obtain ⟨x, _, rfl⟩ := List.mem_map.1 hy
        unfold rouse; split
        · intro hh; cases hh
        · next hne => exact hne
    · exact h

theorem stop_reach {N : Nat} (hN : 0 < N) {s : St S X} (h : Reachable zero N s) : s.stop = true → ∀ x ∈ s.w, x.pc ≠ .asleep := by
  obtain ⟨fit, acts, rfl⟩ := h
  have : ∀ (l : List (Act S X)) (s : St S X), Base N s → (s.stop = true → ∀ x ∈ s.w, x.pc ≠ .asleep) →
      ((run zero s l).stop = true → ∀ x ∈ (run zero s l).w, x.pc ≠ .asleep) := by
    intro l
    induction l with
    | nil => intro s _ h; exact h
    | cons a l ih => intro s hb h; exact ih _ (base_step hN hb a) (stop_step hb h a)
  exact this acts _ (base_init N fit) (by intro h; cases h)

theorem stop_progress {N : Nat} {s : St S X} (hb : Base N s) (hs : s.stop = true) (h : ∀ x ∈ s.w, x.pc ≠ .asleep) {x : W X} (hx : x ∈ s.w) (hp : x.pc ≠ .stopped) :
    ∃ a : Act S X, Proper a ∧ step zero s a ≠ s := by
  obtain ⟨i, hi⟩ := List.getElem?_of_mem hx
  have hm := hb.stop hs
  obtain ⟨_, hpc⟩ := job_quiet (hb.fits x hx) (hb.quiet (by rw [hm]; trivial) x hx)
  have hpc : x.pc = .relock := by
    rcases hpc with hpc | hpc | hpc
    · exact hpc
    · exact absurd hpc (h x hx)
    · exact absurd hpc hp
  have hw : s.wl = false := by
    by_contra hc
    have hc : s.wl = true := by simpa using hc
    have hwl := hb.wl
    rw [hm, hc, if_pos rfl] at hwl
    have : 0 < s.w.countP holds := by simp only [mW] at hwl; omega
    obtain ⟨y, hy, hh⟩ := List.countP_pos_iff.1 this
    obtain ⟨_, hq⟩ := job_quiet (hb.fits y hy) (hb.quiet (by rw [hm]; trivial) y hy)
    rcases hq with hq | hq | hq <;> simp [holds, hq] at hh
  refine ⟨.worker i, trivial, ?_⟩
  intro e
  simp only [step, wstep, hi, hpc, hw, hs] at e
  simp only [Bool.false_eq_true, if_false, if_true] at e
  exact set_ne hi (by rw [hpc]; intro hh; cases hh) (congrArg St.w e)

end Verif.SolveWorkers
