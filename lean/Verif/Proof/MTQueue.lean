import Verif.Spec.MTQueue
import Mathlib.Tactic.Ring
/-! # Threaded channels: lemmas -/
set_option linter.unusedSectionVars false
namespace Verif.MTQueue
variable {E X : Type}

/-! ## Broadcasts -/

@[simp] theorem bcast_closed (s : St E X) : (bcast s).closed = s.closed := rfl
@[simp] theorem bcast_aborted (s : St E X) : (bcast s).aborted = s.aborted := rfl
@[simp] theorem bcast_rclosed (s : St E X) : (bcast s).rclosed = s.rclosed := rfl
@[simp] theorem bcast_rinit (s : St E X) : (bcast s).rinit = s.rinit := rfl
@[simp] theorem bcast_gone (s : St E X) : (bcast s).gone = s.gone := rfl
@[simp] theorem bcast_post (s : St E X) : (bcast s).post = s.post := rfl
@[simp] theorem bcast_get (s : St E X) : (bcast s).get = s.get := rfl
@[simp] theorem bcast_err (s : St E X) : (bcast s).err = s.err := rfl
@[simp] theorem bcast_accepted (s : St E X) : (bcast s).accepted = s.accepted := rfl
@[simp] theorem bcast_sent (s : St E X) : (bcast s).sent = s.sent := rfl
@[simp] theorem bcast_produced (s : St E X) : (bcast s).produced = s.produced := rfl
@[simp] theorem bcast_raised (s : St E X) : (bcast s).raised = s.raised := rfl
@[simp] theorem bcast_log (s : St E X) : (bcast s).log = s.log := rfl

/-- What a broadcast does to a state of the worker. -/
def wk : WPc E X → WPc E X
  | .asleep k => .woken k
  | w => w

/-- What a broadcast does to a state of the application. -/
def mk : MPc E X → MPc E X
  | .asleep p => .want p
  | m => m

@[simp] theorem bcast_w (s : St E X) : (bcast s).w = wk s.w := by unfold bcast wk; rfl
@[simp] theorem bcast_m (s : St E X) : (bcast s).m = mk s.m := by unfold bcast mk; rfl

@[simp] theorem fly_wk (w : WPc E X) : inFlight (wk w) = inFlight w := by cases w <;> rfl

/-- Closing has got to the point where the queues have been emptied. -/
def late : MPc E X → Bool
  | .want (.close2 _) | .asleep (.close2 _) | .join _ => true
  | _ => false

@[simp] theorem late_mk (m : MPc E X) : late (mk m) = late m := by
  cases m with
  | asleep p => cases p <;> rfl
  | _ => rfl

theorem wk_fetch (w : WPc E X) : wk w = .fetch ↔ w = .fetch := by cases w <;> simp [wk]
theorem wk_start (w : WPc E X) : wk w = .start ↔ w = .start := by cases w <;> simp [wk]
theorem wk_done (w : WPc E X) : wk w = .done ↔ w = .done := by cases w <;> simp [wk]
theorem mk_join (m : MPc E X) (r : Ret E X) : mk m = .join r ↔ m = .join r := by cases m <;> simp [mk]

@[simp] theorem postedOf_app (l : List (Ret E X)) (r : Ret E X) : postedOf (l ++ [r]) = postedOf l ++ (match r with | .posted e => [e] | _ => []) := by
  unfold postedOf; rw [List.filterMap_append]; cases r <;> rfl
@[simp] theorem gotOf_app (l : List (Ret E X)) (r : Ret E X) : gotOf (l ++ [r]) = gotOf l ++ (match r with | .got e => [e] | _ => []) := by
  unfold gotOf; rw [List.filterMap_append]; cases r <;> rfl
@[simp] theorem thrownOf_app (l : List (Ret E X)) (r : Ret E X) : thrownOf (l ++ [r]) = thrownOf l ++ (match r with | .thrown l => l | _ => []) := by
  unfold thrownOf; rw [List.flatMap_append]; cases r <;> simp

/-! ## The invariant -/

/-- What holds in every state that can be reached. -/
structure Inv (size : Nat) (s : St E X) : Prop where
  acc : s.accepted = postedOf s.log
  exact : s.closed = false → s.rclosed = false → s.accepted = s.sent ++ inFlight s.w ++ s.post
  pre : s.sent ++ inFlight s.w <+: s.accepted
  post_le : s.post.length ≤ size
  get_le : s.get.length ≤ size
  fetch_lt : s.w = .fetch → s.get.length < size
  errs : s.raised = thrownOf s.log ++ s.err
  gone_done : s.gone = true → s.w = .done ∧ s.err = []
  done_closed : s.w = .done → s.rclosed = true
  start_open : s.w = .start → s.rclosed = false
  rinit : s.rinit = false ↔ s.w = .start
  late_empty : late s.m = true ∨ s.gone = true → s.closed = true ∧ s.get = [] ∧ s.post = [] ∧ s.w ≠ .fetch
  got : ¬ (late s.m = true ∨ s.gone = true) → s.produced = gotOf s.log ++ s.get
  got_pre : gotOf s.log <+: s.produced

theorem inv_init (size : Nat) : Inv size (St.init : St E X) := by
  constructor <;> simp [St.init, postedOf, gotOf, thrownOf, inFlight, late]

theorem inv_bcast {size : Nat} {s : St E X} (h : Inv size s) : Inv size (bcast s) := by
  obtain ⟨h1, h2, h3, h4, h5, h6, h7, h8, h9, h10, h11, h12, h13, h14⟩ := h
  constructor <;> simp only [bcast_closed, bcast_rclosed, bcast_rinit, bcast_gone, bcast_post, bcast_get, bcast_err, bcast_accepted, bcast_sent,
    bcast_produced, bcast_raised, bcast_log, bcast_w, bcast_m, fly_wk, late_mk, wk_fetch, wk_start, wk_done, ne_eq] <;> assumption

theorem inv_addErr {size : Nat} {s : St E X} (x : X) (h : Inv size s) (hg : s.w ≠ .done) : Inv size (addErr x s) := by
  unfold addErr
  apply inv_bcast
  have hgone : s.gone = false := by
    cases hgo : s.gone with
    | false => rfl
    | true => exact absurd (h.gone_done hgo).1 hg
  obtain ⟨h1, h2, h3, h4, h5, h6, h7, h8, h9, h10, h11, h12, h13, h14⟩ := h
  constructor <;> simp_all

/-- Going on to a state without special meaning. -/
theorem inv_w {size : Nat} {s : St E X} (w' : WPc E X) (h : Inv size s) (hf : inFlight w' = inFlight s.w) (h1 : w' ≠ .done) (h2 : w' ≠ .start)
    (h3 : s.w ≠ .done) (h4 : s.w ≠ .start) (h5 : w' = .fetch → s.get.length < size ∧ s.closed = false) : Inv size { s with w := w' } := by
  have hgone : s.gone = false := by
    cases hgo : s.gone with
    | false => rfl
    | true => exact absurd (h.gone_done hgo).1 h3
  obtain ⟨i1, i2, i3, i4, i5, i6, i7, i8, i9, i10, i11, i12, i13, i14⟩ := h
  have hr : s.rinit = true := by
    cases hri : s.rinit with
    | true => rfl
    | false => exact absurd (i11.1 hri) h4
  constructor
  · exact i1
  · intro a b; simp only [hf]; exact i2 a b
  · simp only [hf]; exact i3
  · exact i4
  · exact i5
  · intro a; exact (h5 a).1
  · exact i7
  · intro a; rw [hgone] at a; cases a
  · intro a; exact absurd a h1
  · intro a; exact absurd a h2
  · simp [hr, h2]
  · intro a
    obtain ⟨b1, b2, b3, _⟩ := i12 a
    refine ⟨b1, b2, b3, ?_⟩
    intro hw
    have := (h5 hw).2
    rw [this] at b1; cases b1
  · exact i13
  · exact i14

theorem inv_closeRemote {size : Nat} {s : St E X} (h : Inv size s) (h4 : s.w ≠ .start) : Inv size (closeRemote s) := by
  unfold closeRemote
  split
  · obtain ⟨i1, i2, i3, i4, i5, i6, i7, i8, i9, i10, i11, i12, i13, i14⟩ := h
    constructor <;> simp_all
  · exact h

/-- The remote channel may close. -/
theorem inv_rclosed {size : Nat} {s : St E X} (b : Bool) (h : Inv size s) (h4 : s.w ≠ .start) : Inv size { s with rclosed := s.rclosed || b } := by
  obtain ⟨i1, i2, i3, i4, i5, i6, i7, i8, i9, i10, i11, i12, i13, i14⟩ := h
  constructor
  · exact i1
  · intro a c; simp only [Bool.or_eq_false_iff] at c; exact i2 a c.1
  · exact i3
  · exact i4
  · exact i5
  · exact i6
  · exact i7
  · exact i8
  · intro a; simp [i9 a]
  · intro a; exact absurd a h4
  · exact i11
  · exact i12
  · exact i13
  · exact i14

theorem closeRemote_w (s : St E X) : (closeRemote s).w = s.w := by unfold closeRemote; split <;> rfl
theorem closeRemote_get (s : St E X) : (closeRemote s).get = s.get := by unfold closeRemote; split <;> rfl
theorem closeRemote_closed (s : St E X) : (closeRemote s).closed = s.closed := by unfold closeRemote; split <;> rfl
theorem closeRemote_post (s : St E X) : (closeRemote s).post = s.post := by unfold closeRemote; split <;> rfl
theorem closeRemote_open (s : St E X) (h : (closeRemote s).rclosed = false) : s.closed = false ∧ s.rclosed = false := by
  unfold closeRemote at h
  split at h
  · cases h
  · rename_i hc; exact ⟨by simpa using hc, h⟩

theorem inv_wstep {size : Nat} {s : St E X} (v : Env E X) (h : Inv size s) : Inv size (wstep size v s) := by
  cases hw : s.w with
  | asleep k => unfold wstep; rw [hw]; exact h
  | done => unfold wstep; rw [hw]; exact h
  | start =>
    have key : Inv size { s with rclosed := v.init.closes, rinit := true, w := .top } := by
      have hgone : s.gone = false := by
        cases hgo : s.gone with
        | false => rfl
        | true => have := (h.gone_done hgo).1; rw [hw] at this; cases this
      have ho := h.start_open hw
      obtain ⟨i1, i2, i3, i4, i5, i6, i7, i8, i9, i10, i11, i12, i13, i14⟩ := h
      constructor
      · exact i1
      · intro a b; have := i2 a ho; rw [hw] at this; exact this
      · rw [hw] at i3; exact i3
      · exact i4
      · exact i5
      · intro a; cases a
      · exact i7
      · intro a; rw [hgone] at a; cases a
      · intro a; cases a
      · intro a; cases a
      · simp
      · intro a; obtain ⟨b1, b2, b3, b4⟩ := i12 a; exact ⟨b1, b2, b3, by simp⟩
      · exact i13
      · exact i14
    unfold wstep
    rw [hw]
    simp only
    cases v.init.outcome with
    | ok _ => exact inv_bcast key
    | error x => exact inv_addErr x key (by simp)
  | top =>
    unfold wstep
    rw [hw]
    simp only
    split
    · rename_i hc
      simp only [Bool.and_eq_true] at hc
      apply inv_bcast
      have hgone : s.gone = false := by
        cases hgo : s.gone with
        | false => rfl
        | true => have := (h.gone_done hgo).1; rw [hw] at this; cases this
      obtain ⟨i1, i2, i3, i4, i5, i6, i7, i8, i9, i10, i11, i12, i13, i14⟩ := h
      rw [hw] at i3
      constructor
      · exact i1
      · intro a b; simp only at b; rw [hc.1] at b; cases b
      · exact i3
      · exact i4
      · exact i5
      · intro a; cases a
      · exact i7
      · intro a; rw [hgone] at a; cases a
      · intro _; exact hc.1
      · intro a; cases a
      · rw [hw] at i11
        have : s.rinit = true := by
          cases hri : s.rinit with
          | true => rfl
          | false => have := i11.1 hri; cases this
        simp [this]
      · intro a; obtain ⟨b1, b2, b3, b4⟩ := i12 a; exact ⟨b1, b2, b3, by simp⟩
      · exact i13
      · exact i14
    · exact inv_w _ h (by rw [hw]; rfl) (by simp) (by simp) (by rw [hw]; simp) (by rw [hw]; simp) (by simp)
  | errLoop =>
    unfold wstep
    rw [hw]
    simp only
    split
    · exact inv_w _ h (by rw [hw]; rfl) (by simp) (by simp) (by rw [hw]; simp) (by rw [hw]; simp) (by simp)
    · have h' := inv_closeRemote h (by rw [hw]; simp)
      split
      · exact h'
      · exact inv_w _ h' (by rw [closeRemote_w, hw]; rfl) (by simp) (by simp) (by rw [closeRemote_w, hw]; simp) (by rw [closeRemote_w, hw]; simp) (by simp)
  | postLoop =>
    unfold wstep
    rw [hw]
    simp only
    cases hp : s.post with
    | nil =>
      have := inv_w (s := s) .mid h (by rw [hw]; rfl) (by simp) (by simp) (by rw [hw]; simp) (by rw [hw]; simp) (by simp)
      rw [hp] at this
      exact this
    | cons e l =>
      have h' := inv_closeRemote h (by rw [hw]; simp)
      have hw' : (closeRemote s).w = .postLoop := by rw [closeRemote_w, hw]
      simp only
      split
      · rename_i hr
        have h2 : Inv size { closeRemote s with post := [] } := by
          obtain ⟨i1, i2, i3, i4, i5, i6, i7, i8, i9, i10, i11, i12, i13, i14⟩ := h'
          constructor
          · exact i1
          · intro a b; simp only at b; rw [hr] at b; cases b
          · exact i3
          · simp
          · exact i5
          · exact i6
          · exact i7
          · exact i8
          · exact i9
          · exact i10
          · exact i11
          · intro a; obtain ⟨b1, b2, b3, b4⟩ := i12 a; exact ⟨b1, b2, rfl, b4⟩
          · exact i13
          · exact i14
        exact inv_w (s := { closeRemote s with post := [] }) _ h2 (by simp only [hw']; rfl) (by simp) (by simp) (by simp only [hw']; simp) (by simp only [hw']; simp) (by simp)
      · rename_i hr
        have hr : (closeRemote s).rclosed = false := by simpa using hr
        have ho := closeRemote_open s hr
        have he : closeRemote s = s := by unfold closeRemote; rw [ho.1]; rfl
        rw [he]
        apply inv_bcast
        have hgone : s.gone = false := by
          cases hgo : s.gone with
          | false => rfl
          | true => have := (h.gone_done hgo).1; rw [hw] at this; cases this
        obtain ⟨i1, i2, i3, i4, i5, i6, i7, i8, i9, i10, i11, i12, i13, i14⟩ := h
        have hex := i2 ho.1 ho.2
        rw [hw, hp] at hex
        simp only [inFlight, List.append_nil] at hex
        constructor
        · exact i1
        · intro _ _; simp only [inFlight]; rw [hex]; simp
        · simp only [inFlight]; rw [hex]; exact ⟨l, by simp⟩
        · rw [hp] at i4; simp only [List.length_cons] at i4; simp only; omega
        · exact i5
        · intro a; cases a
        · exact i7
        · intro a; rw [hgone] at a; cases a
        · intro a; cases a
        · intro a; cases a
        · rw [hw] at i11
          have : s.rinit = true := by
            cases hri : s.rinit with
            | true => rfl
            | false => have := i11.1 hri; cases this
          simp [this]
        · intro a; obtain ⟨b1, b2, b3, b4⟩ := i12 a; rw [hp] at b3; cases b3
        · exact i13
        · exact i14
  | posting e =>
    unfold wstep
    rw [hw]
    simp only
    have hgone : s.gone = false := by
      cases hgo : s.gone with
      | false => rfl
      | true => have := (h.gone_done hgo).1; rw [hw] at this; cases this
    obtain ⟨i1, i2, i3, i4, i5, i6, i7, i8, i9, i10, i11, i12, i13, i14⟩ := h
    rw [hw] at i3
    simp only [inFlight] at i3
    constructor
    · exact i1
    · intro a b
      simp only [Bool.or_eq_false_iff] at b
      have := i2 a b.1
      rw [hw] at this
      simp only [inFlight] at this ⊢
      rw [this]; simp
    · simp only [inFlight, List.append_nil]; exact i3
    · exact i4
    · exact i5
    · intro a; cases a
    · exact i7
    · intro a; rw [hgone] at a; cases a
    · intro a; cases a
    · intro a; cases a
    · rw [hw] at i11
      have : s.rinit = true := by
        cases hri : s.rinit with
        | true => rfl
        | false => have := i11.1 hri; cases this
      simp [this]
    · intro a; obtain ⟨b1, b2, b3, b4⟩ := i12 a; exact ⟨b1, b2, b3, by simp⟩
    · exact i13
    · exact i14
  | relock x =>
    unfold wstep
    rw [hw]
    have h' := inv_w (s := s) .postLoop h (by rw [hw]; rfl) (by simp) (by simp) (by rw [hw]; simp) (by rw [hw]; simp) (by simp)
    cases x with
    | none => exact h'
    | some x => exact inv_addErr x h' (by simp)
  | mid =>
    unfold wstep
    rw [hw]
    simp only
    split
    · exact inv_w _ h (by rw [hw]; rfl) (by simp) (by simp) (by rw [hw]; simp) (by rw [hw]; simp) (by simp)
    · rename_i hlt
      have h' := inv_closeRemote h (by rw [hw]; simp)
      split
      · exact inv_w _ h' (by rw [closeRemote_w, hw]; rfl) (by simp) (by simp) (by rw [closeRemote_w, hw]; simp) (by rw [closeRemote_w, hw]; simp) (by simp)
      · rename_i hr
        have ho := closeRemote_open s (by simpa using hr)
        exact inv_w _ h' (by rw [closeRemote_w, hw]; rfl) (by simp) (by simp) (by rw [closeRemote_w, hw]; simp) (by rw [closeRemote_w, hw]; simp)
          (fun _ => by rw [closeRemote_get, closeRemote_closed]; exact ⟨by omega, ho.1⟩)
  | drain =>
    unfold wstep
    rw [hw]
    simp only
    split <;> exact inv_w _ h (by rw [hw]; rfl) (by simp) (by simp) (by rw [hw]; simp) (by rw [hw]; simp) (by simp)
  | fetch =>
    have hr := inv_rclosed (s := s) v.fetch.closes h (by rw [hw]; simp)
    have hlt := h.fetch_lt hw
    have hnl : ¬ (late s.m = true ∨ s.gone = true) := fun a => (h.late_empty a).2.2.2 hw
    have htop : Inv size { s with rclosed := s.rclosed || v.fetch.closes, w := .top } :=
      inv_w (s := { s with rclosed := s.rclosed || v.fetch.closes }) .top hr (by simp only [hw]; rfl) (by simp) (by simp) (by simp only [hw]; simp) (by simp only [hw]; simp) (by simp)
    have hfin : ∀ (g : Got E) (t : St E X), Inv size t → t.w = .top → Inv size (if (closeRemote t).rclosed then closeRemote t
        else (match g with | .wait => { closeRemote t with w := .asleep .idle } | _ => closeRemote t)) := by
      intro g t ht htw
      have h' := inv_closeRemote ht (by rw [htw]; simp)
      have hw' : (closeRemote t).w = .top := by rw [closeRemote_w, htw]
      split
      · exact h'
      · cases g with
        | wait => exact inv_w _ h' (by rw [hw']; rfl) (by simp) (by simp) (by rw [hw']; simp) (by rw [hw']; simp) (by simp)
        | _ => exact h'
    unfold wstep
    rw [hw]
    simp only
    cases v.fetch.outcome with
    | error x => exact inv_addErr x htop (by simp)
    | ok g =>
      simp only
      cases g with
      | wait => exact hfin .wait _ htop rfl
      | other => exact hfin .other _ htop rfl
      | event e =>
        refine hfin (.event e) _ ?_ rfl
        apply inv_bcast
        obtain ⟨i1, i2, i3, i4, i5, i6, i7, i8, i9, i10, i11, i12, i13, i14⟩ := htop
        constructor
        · exact i1
        · exact i2
        · exact i3
        · exact i4
        · simp only [List.length_append, List.length_cons, List.length_nil]; omega
        · intro a; cases a
        · exact i7
        · exact i8
        · intro a; cases a
        · intro a; cases a
        · exact i11
        · intro a; exact absurd a hnl
        · intro a; simp only; rw [← List.append_assoc, ← i13 a]
        · exact i14.trans (List.prefix_append _ _)
  | woken k =>
    unfold wstep
    rw [hw]
    cases k <;> exact inv_w _ h (by rw [hw]; rfl) (by simp [WW.resume]) (by simp [WW.resume]) (by rw [hw]; simp) (by rw [hw]; simp) (by simp [WW.resume])

/-- The application goes on to another state. -/
theorem inv_m {size : Nat} {s : St E X} (m' : MPc E X) (h : Inv size s) (hl : late m' = late s.m ∨ s.gone = true) : Inv size { s with m := m' } := by
  obtain ⟨i1, i2, i3, i4, i5, i6, i7, i8, i9, i10, i11, i12, i13, i14⟩ := h
  constructor
  · exact i1
  · exact i2
  · exact i3
  · exact i4
  · exact i5
  · exact i6
  · exact i7
  · exact i8
  · exact i9
  · exact i10
  · exact i11
  · intro a
    apply i12
    rcases hl with hl | hl
    · simp only [hl] at a; exact a
    · exact Or.inr hl
  · intro a
    apply i13
    rcases hl with hl | hl
    · simp only [hl] at a; exact a
    · exact absurd (Or.inr hl) a
  · exact i14

/-- The end of a call that posted, fetched and threw nothing. -/
theorem inv_ret {size : Nat} {s : St E X} (r : Ret E X) (h : Inv size s) (hl : late s.m = false ∨ s.gone = true)
    (h1 : ∀ e, r ≠ .posted e) (h2 : ∀ e, r ≠ .got e) (h3 : ∀ l, r ≠ .thrown l) : Inv size (ret r s) := by
  have h := inv_m (s := s) .idle h (by rcases hl with hl | hl; exact Or.inl (by rw [hl]; rfl); exact Or.inr hl)
  unfold ret
  obtain ⟨i1, i2, i3, i4, i5, i6, i7, i8, i9, i10, i11, i12, i13, i14⟩ := h
  have e1 : postedOf (s.log ++ [r]) = postedOf s.log := by rw [postedOf_app]; cases r <;> simp_all
  have e2 : gotOf (s.log ++ [r]) = gotOf s.log := by rw [gotOf_app]; cases r <;> simp_all
  have e3 : thrownOf (s.log ++ [r]) = thrownOf s.log := by rw [thrownOf_app]; cases r <;> simp_all
  constructor
  · simp only [e1]; exact i1
  · exact i2
  · exact i3
  · exact i4
  · exact i5
  · exact i6
  · simp only [e3]; exact i7
  · exact i8
  · exact i9
  · exact i10
  · exact i11
  · exact i12
  · simp only [e2]; exact i13
  · simp only [e2]; exact i14

/-- Throwing what is on the list. -/
theorem inv_thrown {size : Nat} {s : St E X} (h : Inv size s) (hl : late s.m = false ∨ s.gone = true) : Inv size (ret (.thrown s.err) (bcast { s with err := [] })) := by
  have h := inv_bcast (inv_m (s := s) .idle h (by rcases hl with hl | hl; exact Or.inl (by rw [hl]; rfl); exact Or.inr hl))
  unfold ret
  obtain ⟨i1, i2, i3, i4, i5, i6, i7, i8, i9, i10, i11, i12, i13, i14⟩ := h
  simp only [bcast_closed, bcast_rclosed, bcast_rinit, bcast_gone, bcast_post, bcast_get, bcast_err, bcast_accepted, bcast_sent,
    bcast_produced, bcast_raised, bcast_log, bcast_w, bcast_m] at i1 i2 i3 i4 i5 i6 i7 i8 i9 i10 i11 i12 i13 i14
  constructor <;> simp only [bcast_closed, bcast_rclosed, bcast_rinit, bcast_gone, bcast_post, bcast_get, bcast_err, bcast_accepted, bcast_sent,
    bcast_produced, bcast_raised, bcast_log, bcast_w, postedOf_app, gotOf_app, thrownOf_app, List.append_nil] <;> try assumption
  intro a; exact ⟨(i8 a).1, trivial⟩

theorem inv_checkErr {size : Nat} {s : St E X} (k : St E X → St E X) (h : Inv size s) (hl : late s.m = false ∨ s.gone = true) (hk : s.err = [] → Inv size (k s)) :
    Inv size (checkErr s k) := by
  unfold checkErr
  split
  · rename_i he; exact hk (by simpa using he)
  · exact inv_thrown h hl

theorem inv_postLoop {size : Nat} {s : St E X} (e : E) (h : Inv size s) (hl : late s.m = false) (hg : s.gone = false) : Inv size (postLoop size e s) := by
  unfold postLoop
  split
  · exact inv_m _ h (Or.inl (by rw [hl]; rfl))
  · rename_i hc
    apply inv_checkErr _ h (Or.inl hl)
    intro he
    have hlt : s.post.length < size := by
      rw [he] at hc; simp at hc; exact hc
    have hm := inv_m (s := s) .idle h (Or.inl (by rw [hl]; rfl))
    have hb : Inv size { s with post := s.post ++ [e], accepted := s.accepted ++ [e], m := .idle, log := s.log ++ [.posted e] } := by
      obtain ⟨i1, i2, i3, i4, i5, i6, i7, i8, i9, i10, i11, i12, i13, i14⟩ := hm
      constructor
      · simp only [postedOf_app]; rw [i1]
      · intro a b; simp only; rw [i2 a b]; simp
      · exact i3.trans (List.prefix_append _ _)
      · simp; omega
      · exact i5
      · exact i6
      · simp only [thrownOf_app, List.append_nil]; exact i7
      · exact i8
      · exact i9
      · exact i10
      · exact i11
      · intro a; simp only [late, hg] at a; simp at a
      · simp only [gotOf_app, List.append_nil]; exact i13
      · simp only [gotOf_app, List.append_nil]; exact i14
    have := inv_bcast hb
    have e2 : ret (.posted e) (bcast { s with post := s.post ++ [e], accepted := s.accepted ++ [e] }) =
        bcast { s with post := s.post ++ [e], accepted := s.accepted ++ [e], m := .idle, log := s.log ++ [.posted e] } := by
      unfold ret bcast; rfl
    rw [e2]; exact this

theorem inv_take {size : Nat} {s : St E X} (mask : E → Bool) (h : Inv size s) (hl : late s.m = false ∨ s.gone = true) : Inv size (take mask s) := by
  unfold take
  cases hg : s.get with
  | nil => exact inv_ret _ h hl (by simp) (by simp) (by simp)
  | cons e l =>
    have hng : s.gone = false := by
      cases hgo : s.gone with
      | false => rfl
      | true => have := (h.late_empty (Or.inr hgo)).2.1; rw [hg] at this; cases this
    have hl : late s.m = false := by rcases hl with h | h; exact h; rw [hng] at h; cases h
    simp only
    split
    · have hm := inv_m (s := s) .idle h (Or.inl (by rw [hl]; rfl))
      have hb : Inv size { s with get := l, m := .idle, log := s.log ++ [.got e] } := by
        obtain ⟨i1, i2, i3, i4, i5, i6, i7, i8, i9, i10, i11, i12, i13, i14⟩ := hm
        have hnl : ¬ (late (MPc.idle : MPc E X) = true ∨ s.gone = true) := by simp [late, hng]
        have hp := i13 hnl
        simp only at hp
        rw [hg] at hp
        constructor
        · simp only [postedOf_app, List.append_nil]; exact i1
        · exact i2
        · exact i3
        · exact i4
        · simp only at i5 ⊢; rw [hg] at i5; simp at i5; omega
        · intro a; have := i6 a; simp only at this ⊢; rw [hg] at this; simp at this; omega
        · simp only [thrownOf_app, List.append_nil]; exact i7
        · exact i8
        · exact i9
        · exact i10
        · exact i11
        · intro a; exact absurd a hnl
        · intro _; simp only [gotOf_app]; rw [hp]; simp
        · simp only [gotOf_app]; rw [hp]; exact ⟨l, by simp⟩
      have := inv_bcast hb
      have e2 : ret (.got e) (bcast { s with get := l }) = bcast { s with get := l, m := .idle, log := s.log ++ [.got e] } := by
        unfold ret bcast; rfl
      rw [e2]; exact this
    · exact inv_ret _ h (Or.inl hl) (by simp) (by simp) (by simp)

theorem inv_getLoop {size : Nat} {s : St E X} (mask : E → Bool) (h : Inv size s) (hl : late s.m = false) : Inv size (getLoop mask s) := by
  unfold getLoop
  split
  · exact inv_m _ h (Or.inl (by rw [hl]; rfl))
  · exact inv_checkErr _ h (Or.inl hl) (fun _ => inv_take mask h (Or.inl hl))

theorem inv_flushLoop {size : Nat} {s : St E X} (r : Option (Ret E X)) (h : Inv size s) (hl : late s.m = false) : Inv size (flushLoop r s) := by
  unfold flushLoop
  split
  · exact inv_m _ h (Or.inl (by rw [hl]; rfl))
  · unfold flushed
    cases r with
    | none => exact inv_ret _ h (Or.inl hl) (by simp) (by simp) (by simp)
    | some r => exact inv_m _ h (Or.inl (by rw [hl]; rfl))

/-- What `close` returns is not a thing posted, fetched or thrown; only an open channel is closed. -/
def closeRet : MPc E X → Option (Ret E X)
  | .want (.flush0 (some r)) | .want (.flush1 (some r)) | .want (.close1 r) | .want (.close2 r) => some r
  | .asleep (.flush0 (some r)) | .asleep (.flush1 (some r)) | .asleep (.close1 r) | .asleep (.close2 r) => some r
  | .closing r | .join r => some r
  | _ => none

@[simp] theorem closeRet_mk (m : MPc E X) : closeRet (mk m) = closeRet m := by
  cases m with
  | asleep p =>
    cases p with
    | flush0 r => cases r <;> rfl
    | flush1 r => cases r <;> rfl
    | _ => rfl
  | _ => rfl

/-- Which calls can be under way. -/
structure Inv2 (s : St E X) : Prop where
  plain : ∀ r, closeRet s.m = some r → (∀ e, r ≠ .posted e) ∧ (∀ e, r ≠ .got e) ∧ ∀ l, r ≠ .thrown l
  goneCalls : s.gone = true → (∃ a, s.m = .closing a) ∨ s.m = .idle ∨ (∃ e, s.m = .want (.post0 e)) ∨ (∃ b f, s.m = .want (.get0 b f)) ∨ s.m = .want (.flush0 none)
  closedCalls : s.closed = true → s.gone = true ∨ (closeRet s.m).isSome = true
  closingClosed : (closeRet s.m).isSome = true → (∃ a, s.m = .closing a) ∨ s.closed = true

theorem inv2_bcast {s : St E X} (h : Inv2 s) : Inv2 (bcast s) := by
  obtain ⟨h1, h2, h3, h4⟩ := h
  have hc : ∀ a, mk s.m = .closing a ↔ s.m = .closing a := by intro a; cases s.m <;> simp [mk]
  constructor
  · simp only [bcast_m, closeRet_mk]; exact h1
  · intro a
    rcases h2 a with ⟨b, h⟩ | h | ⟨b, h⟩ | ⟨b, f, h⟩ | h <;> simp only [bcast_m, h, mk]
    · exact Or.inl ⟨b, rfl⟩
    · exact Or.inr (Or.inl trivial)
    · exact Or.inr (Or.inr (Or.inl ⟨b, rfl⟩))
    · exact Or.inr (Or.inr (Or.inr (Or.inl ⟨b, f, rfl⟩)))
    · exact Or.inr (Or.inr (Or.inr (Or.inr trivial)))
  · simp only [bcast_m, closeRet_mk]; exact h3
  · simp only [bcast_m, closeRet_mk, hc]; exact h4

/-- A step of the worker changes nothing of the application but to wake it up. -/
theorem wstep_app (size : Nat) (v : Env E X) (s : St E X) :
    ((wstep size v s).m = s.m ∨ (wstep size v s).m = mk s.m) ∧ (wstep size v s).gone = s.gone ∧ (wstep size v s).closed = s.closed ∧ (wstep size v s).aborted = s.aborted ∧
      (wstep size v s).log = s.log ∧ (wstep size v s).accepted = s.accepted := by
  have hcr : ∀ s : St E X, (closeRemote s).m = s.m ∧ (closeRemote s).gone = s.gone ∧ (closeRemote s).closed = s.closed ∧ (closeRemote s).aborted = s.aborted ∧
      (closeRemote s).log = s.log ∧ (closeRemote s).accepted = s.accepted := by
    intro s; unfold closeRemote; split <;> simp
  unfold wstep
  cases s.w with
  | asleep k => simp
  | done => simp
  | start => simp only; cases v.init.outcome <;> simp [addErr]
  | top => simp only; split <;> simp
  | errLoop => simp only; split <;> [simp; split <;> simp [hcr]]
  | postLoop =>
    simp only
    cases s.post with
    | nil => simp
    | cons e l => simp only; split <;> simp [hcr]
  | posting e => simp
  | relock x => cases x <;> simp [addErr]
  | mid => simp only; split <;> [simp; split <;> simp [hcr]]
  | drain => simp only; split <;> simp
  | fetch =>
    simp only
    cases v.fetch.outcome with
    | error x => simp [addErr]
    | ok g =>
      cases g with
      | event e => simp only; split <;> simp [hcr]
      | wait => simp only; split <;> simp [hcr]
      | other => simp only; split <;> simp [hcr]
  | woken k => simp

theorem inv2_wstep {size : Nat} {s : St E X} (v : Env E X) (h : Inv2 s) : Inv2 (wstep size v s) := by
  obtain ⟨hm, h1, h2, _⟩ := wstep_app size v s
  have hb := inv2_bcast h
  rcases hm with hm | hm
  · obtain ⟨a1, a2, a3, a4⟩ := h
    constructor <;> simp only [hm, h1, h2] <;> assumption
  · obtain ⟨a1, a2, a3, a4⟩ := hb
    simp only [bcast_m, bcast_gone, bcast_closed] at a1 a2 a3 a4
    constructor <;> simp only [hm, h1, h2] <;> assumption

theorem closeRet_late (m : MPc E X) (h : late m = true) : (closeRet m).isSome = true := by
  cases m with
  | want p => cases p <;> simp_all [late, closeRet]
  | asleep p => cases p <;> simp_all [late, closeRet]
  | _ => simp_all [late, closeRet]

theorem inv_mbody {size : Nat} {s : St E X} (p : MP E X) (h : Inv size s) (h2 : Inv2 s) (hm : s.m = .want p) (hw : s.w.holds = false) : Inv size (mbody size p s) := by
  unfold mbody
  split
  · have hgl : ∀ p', s.m = .want p' → (∀ r, p' ≠ .close2 r) → late s.m = false := by
      intro p' h hne; rw [h]; clear hm h; cases p' <;> simp_all [late]
    cases p with
    | post0 e =>
      have hl := hgl _ hm (by simp)
      simp only
      split
      · exact inv_m _ h (Or.inl (by rw [hl]; rfl))
      · rename_i hr
        have hg : s.gone = false := by
          cases hgo : s.gone with
          | false => rfl
          | true => exact absurd (h.done_closed (h.gone_done hgo).1) hr
        exact inv_checkErr _ h (Or.inl hl) (fun _ => inv_postLoop e h hl hg)
    | post1 e =>
      have hg : s.gone = false := by
        cases hgo : s.gone with
        | false => rfl
        | true => have := h2.goneCalls hgo; rw [hm] at this; simp at this
      exact inv_postLoop e h (hgl _ hm (by simp)) hg
    | get0 b f =>
      have hl := hgl _ hm (by simp)
      simp only
      apply inv_checkErr _ h (Or.inl hl)
      intro _
      split
      · split
        · exact inv_m _ h (Or.inl (by rw [hl]; rfl))
        · split
          · exact inv_getLoop f h hl
          · exact inv_ret _ h (Or.inl hl) (by simp) (by simp) (by simp)
      · exact inv_take f h (Or.inl hl)
    | get1 f => exact inv_getLoop f h (hgl _ hm (by simp))
    | flush0 r => exact inv_flushLoop r h (hgl _ hm (by simp))
    | flush1 r => exact inv_flushLoop r h (hgl _ hm (by simp))
    | close1 r =>
      simp only
      have hc : s.closed = true := by
        rcases h2.closingClosed (by rw [hm]; rfl) with ⟨a, ha⟩ | h
        · rw [hm] at ha; cases ha
        · exact h
      have hnf : s.w ≠ .fetch := by intro a; rw [a] at hw; cases hw
      have hg : s.gone = false := by
        cases hgo : s.gone with
        | false => rfl
        | true => have := h2.goneCalls hgo; rw [hm] at this; simp at this
      have hb : ∀ m', late m' = true → Inv size { s with get := [], post := [], m := m' } := by
        intro m' hl
        obtain ⟨i1, i2, i3, i4, i5, i6, i7, i8, i9, i10, i11, i12, i13, i14⟩ := h
        constructor
        · exact i1
        · intro a; simp only at a; rw [hc] at a; cases a
        · exact i3
        · simp
        · simp
        · intro a; exact absurd a hnf
        · exact i7
        · exact i8
        · exact i9
        · exact i10
        · exact i11
        · intro _; exact ⟨hc, rfl, rfl, hnf⟩
        · intro a; exact absurd (Or.inl hl) a
        · exact i14
      have hb2 := inv_bcast (hb (.want (.close2 r)) rfl)
      unfold closeLoop
      split
      · have := inv_m (.join r) hb2 (Or.inl rfl)
        exact this
      · have := inv_m (.asleep (.close2 r)) hb2 (Or.inl rfl)
        exact this
    | close2 r =>
      simp only [closeLoop]
      split
      · exact inv_m _ h (Or.inl (by rw [hm]; rfl))
      · exact inv_m _ h (Or.inl (by rw [hm]; rfl))
  · exact inv_m _ h (Or.inl (by rw [hm]; cases p <;> rfl))

theorem inv2_idle {s : St E X} (hm : s.m = .idle) (hc : s.closed = true → s.gone = true) : Inv2 s := by
  constructor
  · rw [hm]; intro r h; cases h
  · intro _; exact Or.inr (Or.inl hm)
  · intro a; exact Or.inl (hc a)
  · rw [hm]; intro h; cases h

theorem inv2_checkErr {s : St E X} (k : St E X → St E X) (hc : s.closed = true → s.gone = true) (hk : Inv2 (k s)) : Inv2 (checkErr s k) := by
  unfold checkErr
  split
  · exact hk
  · exact inv2_idle rfl hc

theorem inv2_open {s : St E X} {m' : MPc E X} (h : Inv2 s) (h1 : closeRet s.m = none) (h2 : closeRet m' = none) (hg : s.gone = false) : Inv2 { s with m := m' } := by
  constructor
  · simp only [h2]; intro r h; cases h
  · intro a; simp only at a; rw [hg] at a; cases a
  · intro a
    rcases h.closedCalls a with h | h
    · exact Or.inl h
    · rw [h1] at h; cases h
  · simp only [h2]; intro h; cases h

theorem inv2_take {s : St E X} (mask : E → Bool) (hc : s.closed = true → s.gone = true) : Inv2 (take mask s) := by
  unfold take
  split
  · exact inv2_idle rfl hc
  · split <;> exact inv2_idle rfl hc

theorem inv2_closing {s : St E X} {r : Ret E X} (hc : s.closed = true → s.gone = true) (hr : (∀ e, r ≠ .posted e) ∧ (∀ e, r ≠ .got e) ∧ ∀ l, r ≠ .thrown l) :
    Inv2 { s with m := .closing r } := by
  constructor
  · intro r' h'; simp only [closeRet, Option.some.injEq] at h'; subst h'; exact hr
  · intro _; exact Or.inl ⟨r, rfl⟩
  · intro a; exact Or.inl (hc a)
  · intro _; exact Or.inl ⟨r, rfl⟩

theorem inv2_in {s : St E X} {r : Ret E X} {m' : MPc E X} (h : Inv2 s) (h1 : closeRet s.m = some r) (h2 : closeRet m' = some r) (hg : s.gone = false) (hc : s.closed = true) :
    Inv2 { s with m := m' } := by
  constructor
  · intro r' h'; simp only [h2, Option.some.injEq] at h'; subst h'; exact h.plain _ h1
  · intro a; simp only at a; rw [hg] at a; cases a
  · intro _; right; simp only [h2]; rfl
  · intro _; exact Or.inr hc

theorem inv2_getLoop {s : St E X} (mask : E → Bool) (h : Inv2 s) (h1 : closeRet s.m = none) (hg : s.gone = false) : Inv2 (getLoop mask s) := by
  have hc : s.closed = true → s.gone = true := by
    intro a; rcases h.closedCalls a with h | h
    · exact h
    · rw [h1] at h; cases h
  unfold getLoop
  split
  · exact inv2_open (m' := _) h h1 rfl hg
  · exact inv2_checkErr _ hc (inv2_take mask hc)

theorem inv2_postLoop {size : Nat} {s : St E X} (e : E) (h : Inv2 s) (h1 : closeRet s.m = none) (hg : s.gone = false) : Inv2 (postLoop size e s) := by
  have hc : s.closed = true → s.gone = true := by
    intro a; rcases h.closedCalls a with h | h
    · exact h
    · rw [h1] at h; cases h
  unfold postLoop
  split
  · exact inv2_open (m' := _) h h1 rfl hg
  · exact inv2_checkErr _ hc (inv2_idle rfl hc)

theorem inv2_flushLoop {s : St E X} (r : Option (Ret E X)) (h : Inv2 s) (h1 : closeRet s.m = r) (hg : s.gone = true → s.post = [] ∧ r = none) (hf : ∀ a, s.m ≠ .closing a) : Inv2 (flushLoop r s) := by
  unfold flushLoop
  by_cases hgo : s.gone = true
  · obtain ⟨hp, hr⟩ := hg hgo
    subst hr
    rw [hp]
    simp only [List.isEmpty_nil, Bool.not_true, Bool.and_false, Bool.false_eq_true, if_false, flushed]
    exact inv2_idle rfl (fun _ => hgo)
  · have hgo : s.gone = false := by simpa using hgo
    cases r with
    | none =>
      split
      · exact inv2_open h h1 rfl hgo
      · apply inv2_idle rfl
        intro a; rcases h.closedCalls a with h | h
        · exact h
        · rw [h1] at h; cases h
    | some r =>
      have hc : s.closed = true := by
        rcases h.closingClosed (by rw [h1]; rfl) with ⟨a, ha⟩ | h
        · exact absurd ha (hf a)
        · exact h
      split
      · exact inv2_in h h1 rfl hgo hc
      · exact inv2_in h h1 rfl hgo hc

theorem inv2_mbody {size : Nat} {s : St E X} (p : MP E X) (h : Inv size s) (h2 : Inv2 s) (hm : s.m = .want p) : Inv2 (mbody size p s) := by
  have hcc : closeRet s.m = none → s.closed = true → s.gone = true := by
    intro h1 a; rcases h2.closedCalls a with h | h
    · exact h
    · rw [h1] at h; cases h
  have hng : ∀ r, closeRet s.m = some r → s.gone = false := by
    intro r hr
    cases hgo : s.gone with
    | false => rfl
    | true => have := h2.goneCalls hgo; rw [hm] at this hr; cases p <;> simp_all [closeRet]
  have hcl : ∀ r, closeRet s.m = some r → s.closed = true := by
    intro r hr
    rcases h2.closingClosed (by rw [hr]; rfl) with ⟨a, ha⟩ | h
    · rw [hm] at ha; cases ha
    · exact h
  unfold mbody
  split
  · have hgp : s.gone = true → (∃ e, p = .post0 e) ∨ (∃ b f, p = .get0 b f) ∨ p = .flush0 none := by
      intro a; have := h2.goneCalls a; rw [hm] at this; simpa using this
    cases p with
    | post0 e =>
      have hcr : closeRet s.m = none := by rw [hm]; rfl
      simp only
      split
      · exact inv2_closing (hcc hcr) (by simp)
      · rename_i hr
        have hg : s.gone = false := by
          cases hgo : s.gone with
          | false => rfl
          | true => exact absurd (h.done_closed (h.gone_done hgo).1) hr
        exact inv2_checkErr _ (hcc hcr) (inv2_postLoop e h2 hcr hg)
    | post1 e =>
      have hg : s.gone = false := by
        cases hgo : s.gone with
        | false => rfl
        | true => have := hgp hgo; simp at this
      exact inv2_postLoop e h2 (by rw [hm]; rfl) hg
    | get0 b f =>
      have hcr : closeRet s.m = none := by rw [hm]; rfl
      simp only
      apply inv2_checkErr _ (hcc hcr)
      split
      · split
        · exact inv2_closing (hcc hcr) (by simp)
        · rename_i hr
          have hg : s.gone = false := by
            cases hgo : s.gone with
            | false => rfl
            | true => exact absurd (h.done_closed (h.gone_done hgo).1) hr
          split
          · exact inv2_getLoop f h2 hcr hg
          · exact inv2_idle rfl (hcc hcr)
      · exact inv2_take f (hcc hcr)
    | get1 f =>
      have hg : s.gone = false := by
        cases hgo : s.gone with
        | false => rfl
        | true => have := hgp hgo; simp at this
      exact inv2_getLoop f h2 (by rw [hm]; rfl) hg
    | flush0 r =>
      refine inv2_flushLoop r h2 ?_ ?_ (by rw [hm]; simp)
      · rw [hm]; cases r <;> rfl
      · intro a
        refine ⟨(h.late_empty (Or.inr a)).2.2.1, ?_⟩
        have := hgp a; simpa using this
    | flush1 r =>
      refine inv2_flushLoop r h2 ?_ ?_ (by rw [hm]; simp)
      · rw [hm]; cases r <;> rfl
      · intro a
        have := hgp a; simp at this
    | close1 r =>
      have hcr : closeRet s.m = some r := by rw [hm]; rfl
      have hb : Inv2 { s with get := [], post := [], m := .want (.close2 r) } := inv2_in h2 hcr rfl (hng r hcr) (hcl r hcr) |> fun h => ⟨h.1, h.2, h.3, h.4⟩
      have hb2 := inv2_bcast hb
      unfold closeLoop
      simp only
      split
      · have := inv2_in (r := r) (m' := .join r) hb2 rfl rfl (hng r hcr) (hcl r hcr)
        exact this
      · have := inv2_in (r := r) (m' := .asleep (.close2 r)) hb2 rfl rfl (hng r hcr) (hcl r hcr)
        exact this
    | close2 r =>
      have hcr : closeRet s.m = some r := by rw [hm]; rfl
      simp only [closeLoop]
      split
      · exact inv2_in h2 hcr rfl (hng r hcr) (hcl r hcr)
      · exact inv2_in h2 hcr rfl (hng r hcr) (hcl r hcr)
  · rename_i hri
    have hg : s.gone = false := by
      cases hgo : s.gone with
      | false => rfl
      | true =>
        have h1 := (h.gone_done hgo).1
        have h3 := h.rinit.1 (by simpa using hri)
        rw [h1] at h3; cases h3
    cases hcr : closeRet s.m with
    | none => exact inv2_open h2 hcr (by rw [hm] at hcr; cases p <;> simp_all [closeRet] <;> (rename_i r; cases r <;> simp_all)) hg
    | some r => exact inv2_in h2 hcr (by rw [hm] at hcr; cases p <;> simp_all [closeRet] <;> (rename_i r; cases r <;> simp_all)) hg (hcl r hcr)

/-- A step of the application keeps the invariant. -/
theorem inv_mstep {size : Nat} {s : St E X} (a : App E X) (h : Inv size s) (h2 : Inv2 s) : Inv size (mstep size a s) ∧ Inv2 (mstep size a s) := by
  unfold mstep
  cases hm : s.m with
  | idle =>
    have hcg : s.closed = true → s.gone = true := by
      intro a; rcases h2.closedCalls a with h | h
      · exact h
      · rw [hm] at h; cases h
    have hw : ∀ p : MP E X, closeRet (.want p : MPc E X) = none → (s.gone = true → (∃ e, p = .post0 e) ∨ (∃ b f, p = .get0 b f) ∨ p = .flush0 none) → Inv2 { s with m := .want p } := by
      intro p h1 h3
      constructor
      · simp only [h1]; intro r h; cases h
      · intro a; have := h3 a; simpa using this
      · intro a; exact Or.inl (hcg a)
      · simp only [h1]; intro h; cases h
    cases a with
    | post e => exact ⟨inv_m _ h (Or.inl (by rw [hm]; rfl)), hw _ rfl (by simp)⟩
    | get b f => exact ⟨inv_m _ h (Or.inl (by rw [hm]; rfl)), hw _ rfl (by simp)⟩
    | flush => exact ⟨inv_m _ h (Or.inl (by rw [hm]; rfl)), hw _ rfl (by simp)⟩
    | close => exact ⟨inv_m _ h (Or.inl (by rw [hm]; rfl)), inv2_closing hcg (by simp)⟩
    | abort =>
      have h1 := inv_m (s := s) (.closing .flushed) h (Or.inl (by rw [hm]; rfl))
      have h3 : Inv2 { s with m := .closing .flushed } := inv2_closing hcg (by simp)
      exact ⟨⟨h1.1, h1.2, h1.3, h1.4, h1.5, h1.6, h1.7, h1.8, h1.9, h1.10, h1.11, h1.12, h1.13, h1.14⟩, ⟨h3.1, h3.2, h3.3, h3.4⟩⟩
  | want p =>
    simp only
    split
    · exact ⟨h, h2⟩
    · rename_i hw
      exact ⟨inv_mbody p h h2 hm (by simpa using hw), inv2_mbody p h h2 hm⟩
  | asleep p => exact ⟨h, h2⟩
  | closing r =>
    have hcr : closeRet s.m = some r := by rw [hm]; rfl
    have hc : Inv size { s with closed := true } := by
      obtain ⟨i1, i2, i3, i4, i5, i6, i7, i8, i9, i10, i11, i12, i13, i14⟩ := h
      refine ⟨i1, ?_, i3, i4, i5, i6, i7, i8, i9, i10, i11, ?_, i13, i14⟩
      · intro a; cases a
      · intro a; obtain ⟨_, b⟩ := i12 a; exact ⟨rfl, b⟩
    have hin : ∀ m', closeRet m' = some r → s.gone = false → Inv2 { s with closed := true, m := m' } := by
      intro m' h1 hg
      constructor
      · intro r' h'; simp only [h1, Option.some.injEq] at h'; subst h'; exact h2.plain _ hcr
      · intro a; simp only at a; rw [hg] at a; cases a
      · intro _; right; simp only [h1]; rfl
      · intro _; exact Or.inr rfl
    have hp := h2.plain r hcr
    simp only
    split
    · rename_i hg
      rw [hm] at hc
      exact ⟨inv_ret r hc (Or.inr hg) hp.1 hp.2.1 hp.2.2, inv2_idle rfl (fun _ => hg)⟩
    · rename_i hg
      split
      · exact ⟨inv_m (s := { s with closed := true }) _ hc (Or.inl (by simp only [hm]; rfl)), hin _ rfl (by simpa using hg)⟩
      · exact ⟨inv_m (s := { s with closed := true }) _ hc (Or.inl (by simp only [hm]; rfl)), hin _ rfl (by simpa using hg)⟩
  | join r =>
    have hcr : closeRet s.m = some r := by rw [hm]; rfl
    have hp := h2.plain r hcr
    have hle := h.late_empty (Or.inl (by rw [hm]; rfl))
    cases hw : s.w <;> try exact ⟨h, h2⟩
    simp only
    unfold checkErr
    have hpre : ∀ r' : Ret E X, (∀ e, r' ≠ .posted e) → (∀ e, r' ≠ .got e) → (thrownOf (s.log ++ [r']) = s.raised) →
        Inv size { s with gone := true, err := [], m := .idle, log := s.log ++ [r'] } := by
      intro r' e1 e2 e3
      have e1 : postedOf (s.log ++ [r']) = postedOf s.log := by rw [postedOf_app]; cases r' <;> simp_all
      have e2 : gotOf (s.log ++ [r']) = gotOf s.log := by rw [gotOf_app]; cases r' <;> simp_all
      obtain ⟨i1, i2, i3, i4, i5, i6, i7, i8, i9, i10, i11, i12, i13, i14⟩ := h
      refine ⟨?_, i2, i3, i4, i5, i6, ?_, ?_, i9, i10, i11, ?_, ?_, ?_⟩
      · simp only [e1]; exact i1
      · simp only [e3, List.append_nil]
      · intro _; exact ⟨hw, rfl⟩
      · intro _; exact hle
      · intro a; exact absurd (Or.inr rfl) a
      · simp only [e2]; exact i14
    split
    · rename_i he
      have he : s.err = [] := by simpa using he
      refine ⟨?_, inv2_idle rfl (fun _ => rfl)⟩
      have := hpre r hp.1 hp.2.1 (by rw [h.errs, he, thrownOf_app]; have := hp.2.2; cases r <;> simp_all)
      unfold ret
      rw [hw] at this
      rw [← he] at this
      exact this
    · refine ⟨?_, inv2_idle rfl (fun _ => rfl)⟩
      have := inv_bcast (hpre (.thrown s.err) (by simp) (by simp) (by rw [thrownOf_app, h.errs]))
      have e : ret (.thrown s.err) (bcast { s with gone := true, err := [] }) = bcast { s with gone := true, err := [], m := .idle, log := s.log ++ [.thrown s.err] } := by
        unfold ret bcast; rfl
      rw [hw, hm] at e
      rw [e]
      rw [hw] at this
      exact this

theorem inv2_init : Inv2 (St.init : St E X) := inv2_idle rfl (by intro h; cases h)

/-- Every state that can be reached has the invariant. -/
theorem inv_run (size : Nat) (acts : List (Act E X)) (s : St E X) (h : Inv size s) (h2 : Inv2 s) : Inv size (run size s acts) ∧ Inv2 (run size s acts) := by
  induction acts generalizing s with
  | nil => exact ⟨h, h2⟩
  | cons a l ih =>
    show Inv size (run size (step size s a) l) ∧ Inv2 (run size (step size s a) l)
    cases a with
    | app a => exact ih _ (inv_mstep a h h2).1 (inv_mstep a h h2).2
    | worker v => exact ih _ (inv_wstep v h) (inv2_wstep v h2)
    | spurious => exact ih _ (inv_bcast h) (inv2_bcast h2)

theorem inv_reach {size : Nat} {s : St E X} (h : Reachable size s) : Inv size s ∧ Inv2 s := by
  obtain ⟨acts, rfl⟩ := h
  exact inv_run size acts _ (inv_init size) inv2_init

/-! ## What is posted before closing -/

/-- The channel was closed with nothing left to be sent. -/
structure Flushed (s : St E X) : Prop where
  post : s.post = []
  all : s.accepted = s.sent ++ inFlight s.w
  clo : s.closed = true ∨ ∃ r, s.m = .closing r

theorem flushed_wstep {size : Nat} {s : St E X} (v : Env E X) (h : Flushed s) : Flushed (wstep size v s) := by
  obtain ⟨hp, ha, hc⟩ := h
  have hclo : (wstep size v s).closed = true ∨ ∃ r, (wstep size v s).m = .closing r := by
    obtain ⟨h1, _, h2, _⟩ := wstep_app size v s
    rcases hc with hc | ⟨r, hc⟩
    · left; rw [h2]; exact hc
    · right; exact ⟨r, by rcases h1 with h1 | h1 <;> rw [h1, hc]; rfl⟩
  have hcr : ∀ s : St E X, (closeRemote s).post = s.post ∧ (closeRemote s).sent = s.sent ∧ (closeRemote s).w = s.w ∧ (closeRemote s).accepted = s.accepted := by
    intro s; unfold closeRemote; split <;> simp
  have hmain : (wstep size v s).post = [] ∧ (wstep size v s).accepted = (wstep size v s).sent ++ inFlight (wstep size v s).w := by
    unfold wstep
    cases hw : s.w with
    | asleep k => simp only; exact ⟨hp, hw ▸ ha⟩
    | done => simp only; exact ⟨hp, hw ▸ ha⟩
    | start => simp only; cases v.init.outcome <;> simp_all [addErr, inFlight, wk]
    | top => simp only; split <;> simp_all [inFlight, wk]
    | errLoop => simp only; split <;> [simp_all [inFlight]; (split <;> simp_all [inFlight])]
    | postLoop => simp_all [inFlight]
    | posting e => simp_all [inFlight]
    | relock x => cases x <;> simp_all [addErr, inFlight, wk]
    | mid => simp only; split <;> [simp_all [inFlight]; (split <;> simp_all [inFlight])]
    | drain => simp only; split <;> simp_all [inFlight]
    | fetch =>
      simp only
      cases v.fetch.outcome with
      | error x => simp_all [addErr, inFlight, wk]
      | ok g =>
        cases g with
        | event e => simp only; split <;> simp_all [inFlight, wk]
        | wait => simp only; split <;> simp_all [inFlight]
        | other => simp only; split <;> simp_all [inFlight]
    | woken k => simp only; cases k <;> simp_all [inFlight, WW.resume]
  exact ⟨hmain.1, hmain.2, hclo⟩

theorem flushed_m {s : St E X} (m' : MPc E X) (h : Flushed s) (hc : s.closed = true ∨ ∃ r, m' = .closing r) : Flushed { s with m := m' } := ⟨h.1, h.2, hc⟩

theorem flushed_bcast {s : St E X} (h : Flushed s) : Flushed (bcast s) := by
  obtain ⟨hp, ha, hc⟩ := h
  refine ⟨hp, by simpa using ha, ?_⟩
  rcases hc with hc | ⟨r, hc⟩
  · exact Or.inl hc
  · right; exact ⟨r, by simp [hc, mk]⟩

theorem flushed_ret {s : St E X} (r : Ret E X) (h : Flushed s) (hc : s.closed = true) : Flushed (ret r s) := ⟨h.1, h.2, Or.inl hc⟩

theorem flushed_checkErr {s : St E X} (k : St E X → St E X) (h : Flushed s) (hc : s.closed = true) (hk : Flushed (k s)) : Flushed (checkErr s k) := by
  unfold checkErr
  split
  · exact hk
  · have h1 : Flushed { s with err := [] } := ⟨h.1, h.2, h.3⟩
    exact flushed_ret _ (flushed_bcast h1) hc

theorem flushed_mstep {size : Nat} {s : St E X} (a : App E X) (hi : Inv size s) (h2 : Inv2 s) (h : Flushed s) : Flushed (mstep size a s) := by
  unfold mstep
  cases hm : s.m with
  | idle =>
    have hc : s.closed = true := by
      rcases h.clo with h | ⟨r, h⟩
      · exact h
      · rw [hm] at h; cases h
    cases a <;> exact ⟨h.1, h.2, Or.inl hc⟩
  | want p =>
    have hc : s.closed = true := by
      rcases h.clo with h | ⟨r, h⟩
      · exact h
      · rw [hm] at h; cases h
    simp only
    split
    · exact h
    · unfold mbody
      split
      · have hfl : ∀ r, Flushed (flushLoop r s) := by
          intro r
          unfold flushLoop flushed
          split
          · exact flushed_m _ h (Or.inl hc)
          · split
            · exact flushed_ret _ h hc
            · exact flushed_m _ h (Or.inl hc)
        have htk : ∀ f, Flushed (take f s) := by
          intro f
          unfold take
          split
          · exact flushed_ret _ h hc
          · rename_i l _
            split
            · have h1 : Flushed { s with get := l } := ⟨h.1, h.2, h.3⟩
              exact flushed_ret _ (flushed_bcast h1) hc
            · exact flushed_ret _ h hc
        have hgl : ∀ f, Flushed (getLoop f s) := by
          intro f
          unfold getLoop
          split
          · exact flushed_m _ h (Or.inl hc)
          · exact flushed_checkErr _ h hc (htk f)
        cases p with
        | post0 e =>
          simp only
          split
          · exact flushed_m _ h (Or.inl hc)
          · rename_i hr
            rcases h2.closedCalls hc with hg | hg
            · exact absurd (hi.done_closed (hi.gone_done hg).1) hr
            · rw [hm] at hg; cases hg
        | post1 e =>
          rcases h2.closedCalls hc with hg | hg
          · have := h2.goneCalls hg; rw [hm] at this; simp at this
          · rw [hm] at hg; cases hg
        | get0 b f =>
          simp only
          apply flushed_checkErr _ h hc
          split
          · split
            · exact flushed_m _ h (Or.inl hc)
            · split
              · exact hgl f
              · exact flushed_ret _ h hc
          · exact htk f
        | get1 f => exact hgl f
        | flush0 r => exact hfl r
        | flush1 r => exact hfl r
        | close1 r =>
          simp only [closeLoop]
          have h1 : Flushed { s with get := [], post := [] } := ⟨rfl, h.2, h.3⟩
          split <;> exact flushed_m _ (flushed_bcast h1) (Or.inl hc)
        | close2 r =>
          simp only [closeLoop]
          split <;> exact flushed_m _ h (Or.inl hc)
      · exact flushed_m _ h (Or.inl hc)
  | asleep p => exact h
  | closing r =>
    simp only
    split
    · exact ⟨h.1, h.2, Or.inl rfl⟩
    · split <;> exact ⟨h.1, h.2, Or.inl rfl⟩
  | join r =>
    have hc : s.closed = true := by
      rcases h.clo with h | ⟨r, h⟩
      · exact h
      · rw [hm] at h; cases h
    simp only
    split
    · have h1 : Flushed { s with gone := true } := ⟨h.1, h.2, h.3⟩
      rw [hm] at h1
      exact flushed_checkErr _ h1 hc (flushed_ret _ h1 hc)
    · exact h

theorem flushed_run (size : Nat) (acts : List (Act E X)) (s : St E X) (hi : Inv size s) (h2 : Inv2 s) (h : Flushed s) : Flushed (run size s acts) := by
  induction acts generalizing s with
  | nil => exact h
  | cons a l ih =>
    show Flushed (run size (step size s a) l)
    cases a with
    | app a => exact ih _ (inv_mstep a hi h2).1 (inv_mstep a hi h2).2 (flushed_mstep a hi h2 h)
    | worker v => exact ih _ (inv_wstep v hi) (inv2_wstep v h2) (flushed_wstep v h)
    | spurious => exact ih _ (inv_bcast hi) (inv2_bcast h2) (flushed_bcast h)

end Verif.MTQueue
