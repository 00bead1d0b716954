import Mathlib.Data.List.Count
import Mathlib.Data.List.Perm.Subperm
import Verif.Spec.AsyncPoll
/-!
# Proofs about asynchronous and background polls
-/
namespace Verif.AsyncPoll

theorem count_eraseIdx (l : List Order) (k : Nat) (w x : Order) (h : l[k]? = some w) :
    l.count x = (l.eraseIdx k).count x + [w].count x := by
  induction l generalizing k with
  | nil => simp at h
  | cons y l ih =>
    cases k with
    | zero =>
      simp only [List.getElem?_cons_zero, Option.some.injEq] at h
      subst h
      simp only [List.eraseIdx_zero, List.tail_cons, List.count_cons, List.count_nil]
      omega
    | succ k =>
      simp only [List.getElem?_cons_succ] at h
      have := ih k h
      simp only [List.eraseIdx_cons_succ, List.count_cons, List.count_nil] at this ⊢
      omega

/-- The order that the parent is filling. -/
def held : Pc → List Order
  | .busy w => [w]
  | .fbusy w => [w]
  | _ => []

/-- The parent is in `awaitChildResult`. -/
def awaiting : Pc → Bool
  | .top => true
  | .look => true
  | .busy _ => true
  | .asleep => true
  | _ => false

structure Inv (s : Poll) : Prop where
  all : s.polling = true → ∀ w, s.queue.count w + s.running.count w + (held s.pc).count w + s.filled.count w = (ordered s).count w
  off : s.polling = false → s.prog = false ∧ held s.pc = [] ∧ s.queue = [] ∧ (s.abandon = true ∨ s.num = 0)
  cnt : s.count = s.filled.length
  num : s.num = s.cur.length
  out : s.bg = false → s.prog = true → ∀ w, s.got.count w + s.retq.count w = s.filled.count w
  sub : ∀ w, s.got.count w ≤ (ordered s).count w
  fin : s.ended = true → s.prog = false ∧ ∀ w, s.got.count w = (ordered s).count w
  pcs : awaiting s.pc = true → s.prog = true ∧ s.bg = false
  slp : s.pc = .asleep ∨ s.pc = .fasleep → s.count < s.num ∧ s.polling = true

theorem inv_init : Inv Poll.init := by
  refine ⟨?_, ?_, rfl, rfl, ?_, ?_, ?_, ?_, ?_⟩ <;> simp [Poll.init, held, awaiting, ordered]

theorem ordered_length (s : Poll) : (ordered s).length = s.cur.length := by simp [ordered]

theorem inv_perm (s : Poll) (hs : Inv s) (hp : s.polling = true) :
    (s.queue ++ s.running ++ held s.pc ++ s.filled).Perm (ordered s) := by
  rw [List.perm_iff_count]
  intro w
  simp only [List.count_append]
  exact hs.all hp w

theorem inv_full (s : Poll) (hs : Inv s) (hp : s.polling = true) (h : s.num ≤ s.count) :
    s.queue = [] ∧ s.running = [] ∧ held s.pc = [] ∧ s.filled.Perm (ordered s) := by
  have hperm := inv_perm s hs hp
  have hl := hperm.length_eq
  rw [ordered_length] at hl
  simp only [List.length_append] at hl
  have h1 := hs.cnt
  have h2 := hs.num
  have a : s.queue = [] := List.length_eq_zero_iff.mp (by omega)
  have b : s.running = [] := List.length_eq_zero_iff.mp (by omega)
  have c : held s.pc = [] := List.length_eq_zero_iff.mp (by omega)
  refine ⟨a, b, c, ?_⟩
  rw [a, b, c] at hperm
  simpa using hperm

/-- `receive` by a thread that had the order `w`. -/
theorem inv_checkIn (s t : Poll) (w : Order) (hs : Inv s)
    (ht : t = { s with queue := t.queue, running := t.running, pc := t.pc })
    (hq : t.queue = s.queue)
    (hc : ∀ x, s.running.count x + (held s.pc).count x = t.running.count x + (held t.pc).count x + [w].count x)
    (hpc : t.pc = s.pc ∨ (t.pc = .top ∧ awaiting s.pc = true) ∨ t.pc = .ftop) : Inv (checkIn t w) := by
  have hheld : s.polling = false → held t.pc = [] := by
    intro hp
    rcases hpc with h | h | h
    · rw [h]; exact (hs.off hp).2.1
    · rw [h.1]; rfl
    · rw [h]; rfl
  have hpcs : awaiting t.pc = true → s.prog = true ∧ s.bg = false := by
    intro ha
    rcases hpc with h | h | h
    · rw [h] at ha; exact hs.pcs ha
    · exact hs.pcs h.2
    · rw [h] at ha; simp [awaiting] at ha
  have hslp : t.pc = .asleep ∨ t.pc = .fasleep → s.count < s.num ∧ s.polling = true := by
    intro ha
    rcases hpc with h | h | h
    · rw [h] at ha; exact hs.slp ha
    · rw [h.1] at ha; simp at ha
    · rw [h] at ha; simp at ha
  rw [ht] at hq hc hpcs hslp hheld ⊢
  generalize t.queue = tq at *
  generalize t.running = tr at *
  generalize t.pc = tp at *
  clear ht hpc t
  obtain ⟨po, cur, bg, q, r, rq, c, n, pol, ab, pr, pc, g, f, e, wa⟩ := s
  obtain ⟨all, off, cnt, num, out, sub, fin, pcs, slp⟩ := hs
  dsimp only at *
  subst hq
  simp only [ordered] at *
  cases pol with
  | false =>
    have hw : wakes ⟨po, cur, bg, tq, tr, rq, c, n, false, ab, pr, tp, g, f, e, wa⟩ = false := rfl
    unfold checkIn
    rw [hw]
    simp only [receive, Bool.false_eq_true, if_false]
    refine ⟨?_, ?_, cnt, num, out, ?_, ?_, hpcs, hslp⟩
    · simp
    · intro _; exact ⟨(off rfl).1, hheld rfl, (off rfl).2.2.1, (off rfl).2.2.2⟩
    · exact sub
    · exact fin
  | true =>
    have key : ∀ p' : Pc, held p' = held tp → (awaiting p' = true → pr = true ∧ bg = false) →
        (p' = .asleep ∨ p' = .fasleep → c + 1 < n) →
        Inv ⟨po, cur, bg, tq, tr, if bg then rq else rq ++ [w], c + 1, n, true, ab, pr, p', g, f ++ [w], e, wa⟩ := by
      intro p' hp' ha' hsl'
      refine ⟨?_, ?_, ?_, num, ?_, ?_, ?_, ?_, ?_⟩
      · intro _ x
        dsimp only [ordered]
        rw [hp', List.count_append]
        have := all rfl x
        have := hc x
        omega
      · simp
      · simp [cnt]
      · dsimp only
        intro hb hpr x
        subst hb
        rw [if_neg (by simp), List.count_append, List.count_append]
        have := out rfl hpr x
        omega
      · exact sub
      · exact fin
      · exact ha'
      · intro h; exact ⟨hsl' h, rfl⟩
    unfold checkIn wakes
    simp only [receive, if_true, Bool.true_and]
    by_cases hwk : (!bg || decide (n ≤ c + 1)) = true
    · rw [if_pos hwk]
      cases tp <;> dsimp only [awaken]
      case asleep => exact key .top rfl (fun _ => hpcs rfl) (by simp)
      case fasleep => exact key .ftop rfl (by simp [awaiting]) (by simp)
      all_goals exact key _ rfl hpcs (by simp)
    · rw [if_neg hwk]
      refine key tp rfl hpcs ?_
      intro _
      simp at hwk
      omega

theorem inv_pc (s : Poll) (p : Pc) (hs : Inv s) (hh : held s.pc = []) (hp : held p = [])
    (ha : awaiting p = true → s.prog = true ∧ s.bg = false) (hsl : p = .asleep ∨ p = .fasleep → s.count < s.num ∧ s.polling = true) :
    Inv { s with pc := p } := by
  obtain ⟨po, cur, bg, q, r, rq, c, n, pol, ab, pr, pc, g, f, e, wa⟩ := s
  obtain ⟨all, off, cnt, num, out, sub, fin, pcs, slp⟩ := hs
  dsimp only at *
  refine ⟨?_, ?_, cnt, num, out, sub, fin, ha, hsl⟩
  · intro h w; have := all h w; dsimp only; rw [hp]; rw [hh] at this; exact this
  · intro h; exact ⟨(off h).1, hp, (off h).2.2⟩

theorem inv_step (s s' : Poll) (a : Act) (hs : Inv s) (hset : Settled s a) (h : step s a = some s') : Inv s' := by
  cases a with
  | start bg ch =>
    obtain ⟨hq, hr⟩ := hset bg ch rfl
    unfold step at h
    dsimp only at h
    split at h
    · rename_i hc
      cases h
      refine ⟨?_, ?_, rfl, rfl, ?_, ?_, ?_, ?_, ?_⟩
      · intro _ w
        simp [startPoll, hq, hr, hc.1, held, ordered]
      · simp [startPoll]
      · simp [startPoll]
      · simp [startPoll]
      · simp [startPoll]
      · simp [startPoll, hc.1, awaiting]
      · simp [startPoll, hc.1]
    · cases h
  | take k =>
    unfold step at h
    dsimp only at h
    split at h
    · rename_i w hw
      cases h
      obtain ⟨all, off, cnt, num, out, sub, fin, pcs, slp⟩ := hs
      refine ⟨?_, ?_, cnt, num, out, sub, fin, pcs, slp⟩
      · intro hp x
        have := all hp x
        have := count_eraseIdx _ _ _ x hw
        dsimp only [ordered] at *
        rw [List.count_append]
        omega
      · intro hp
        have := (off hp).2.2.1
        rw [this] at hw
        simp at hw
    · cases h
  | finish k =>
    unfold step at h
    dsimp only at h
    split at h
    · rename_i w hw
      cases h
      refine inv_checkIn s _ w hs rfl rfl ?_ (Or.inl rfl)
      intro x
      have := count_eraseIdx _ _ _ x hw
      dsimp only
      omega
    · cases h
  | await =>
    unfold step at h
    dsimp only at h
    split at h
    · rename_i hc
      cases h
      exact inv_pc s .top hs (by rw [hc.1]; rfl) rfl (fun _ => hc.2) (by simp)
    · cases h
  | wait =>
    unfold step at h
    dsimp only at h
    split at h
    · rename_i hc
      cases h
      exact inv_pc s .ftop hs (by rw [hc.1]; rfl) rfl (by simp [awaiting]) (by simp)
    · cases h
  | go =>
    unfold step at h
    dsimp only at h
    split at h
    · rename_i hpc
      cases h
      obtain ⟨hprog, hbg⟩ := hs.pcs (by rw [hpc]; rfl)
      unfold awaitTop
      split
      · rename_i w hw
        have hrq : s.retq = s.retq.dropLast ++ [w] := by
          rw [List.getLast?_eq_some_iff] at hw
          obtain ⟨l, hl⟩ := hw
          rw [hl]; simp
        have hout := hs.out hbg hprog
        have hpol : s.polling = true := by
          cases hp : s.polling with
          | true => rfl
          | false => have := (hs.off hp).1; rw [hprog] at this; cases this
        obtain ⟨all, off, cnt, num, out, sub, fin, pcs, slp⟩ := hs
        rw [hpc] at all
        refine ⟨?_, ?_, cnt, num, ?_, ?_, ?_, ?_, ?_⟩
        · exact all
        · intro hp; dsimp only at hp; rw [hpol] at hp; cases hp
        · intro _ _ x
          have := hout x
          rw [hrq, List.count_append] at this
          dsimp only
          rw [List.count_append]
          omega
        · intro x
          have h1 := hout x
          rw [hrq, List.count_append] at h1
          have h2 := all hpol x
          dsimp only [ordered] at h2 ⊢
          rw [List.count_append]
          omega
        · intro he; have := (fin he).1; rw [hprog] at this; cases this
        · simp [awaiting]
        · simp
      · rename_i hn
        have hrq : s.retq = [] := by simpa using hn
        split
        · rename_i hnum
          have hpol : s.polling = true := by
            cases hp : s.polling with
            | true => rfl
            | false => have := (hs.off hp).1; rw [hprog] at this; cases this
          have hfull := inv_full s hs hpol hnum
          have hcnt := List.perm_iff_count.mp hfull.2.2.2
          have hout := hs.out hbg hprog
          obtain ⟨all, off, cnt, num, out, sub, fin, pcs, slp⟩ := hs
          rw [hpc] at all
          refine ⟨all, ?_, cnt, num, ?_, sub, ?_, ?_, ?_⟩
          · intro hp; dsimp only at hp; rw [hpol] at hp; cases hp
          · intro _ hp; cases hp
          · intro _
            refine ⟨rfl, ?_⟩
            intro x
            have h1 := hout x
            have h2 := hcnt x
            rw [hrq] at h1
            simp only [List.count_nil] at h1
            dsimp only [ordered] at *
            omega
          · simp [awaiting]
          · simp
        · exact inv_pc s .look hs (by rw [hpc]; rfl) rfl (fun _ => ⟨hprog, hbg⟩) (by simp)
    · rename_i hpc
      split at h
      · cases h
        obtain ⟨all, off, cnt, num, out, sub, fin, pcs, slp⟩ := hs
        rw [hpc] at all
        refine ⟨all, ?_, cnt, num, ?_, sub, ?_, ?_, ?_⟩
        · intro hp; exact ⟨rfl, rfl, (off hp).2.2⟩
        · intro _ hp; cases hp
        · intro he; exact ⟨rfl, (fin he).2⟩
        · simp [awaiting]
        · simp
      · cases h
    · rename_i w hpc
      cases h
      refine inv_checkIn s _ w hs rfl rfl ?_ (Or.inr (Or.inl ⟨rfl, by rw [hpc]; rfl⟩))
      intro x
      simp [hpc, held]
    · rename_i w hpc
      cases h
      refine inv_checkIn s _ w hs rfl rfl ?_ (Or.inr (Or.inr rfl))
      intro x
      simp [hpc, held]
    · cases h
  | help k =>
    unfold step at h
    dsimp only at h
    split at h
    · rename_i w hw
      have hpol : s.polling = true := by
        cases hp : s.polling with
        | true => rfl
        | false => have := (hs.off hp).2.2.1; rw [this] at hw; simp at hw
      split at h
      · rename_i hpc
        cases h
        obtain ⟨all, off, cnt, num, out, sub, fin, pcs, slp⟩ := hs
        rw [hpc] at all pcs
        refine ⟨?_, ?_, cnt, num, out, sub, fin, ?_, ?_⟩
        · intro hp x
          have := all hp x
          have := count_eraseIdx _ _ _ x hw
          dsimp only [ordered, held] at *
          simp only [List.count_nil] at *
          omega
        · intro hp; dsimp only at hp; rw [hpol] at hp; cases hp
        · intro _; exact pcs rfl
        · simp
      · rename_i hpc
        split at h
        · cases h
        · cases h
          obtain ⟨all, off, cnt, num, out, sub, fin, pcs, slp⟩ := hs
          rw [hpc] at all pcs
          refine ⟨?_, ?_, cnt, num, out, sub, fin, ?_, ?_⟩
          · intro hp x
            have := all hp x
            have := count_eraseIdx _ _ _ x hw
            dsimp only [ordered, held] at *
            simp only [List.count_nil] at *
            omega
          · intro hp; dsimp only at hp; rw [hpol] at hp; cases hp
          · simp [awaiting]
          · simp
      · cases h
    · cases h
  | none =>
    unfold step at h
    dsimp only at h
    split at h
    · rename_i hpc
      cases h
      obtain ⟨hprog, hbg⟩ := hs.pcs (by rw [hpc]; rfl)
      have hpol : s.polling = true := by
        cases hp : s.polling with
        | true => rfl
        | false => have := (hs.off hp).1; rw [hprog] at this; cases this
      by_cases hc : s.count < s.num ∧ s.abandon = false
      · rw [if_pos hc]
        exact inv_pc s .asleep hs (by rw [hpc]; rfl) rfl (fun _ => ⟨hprog, hbg⟩) (fun _ => ⟨hc.1, hpol⟩)
      · rw [if_neg hc]
        exact inv_pc s .top hs (by rw [hpc]; rfl) rfl (fun _ => ⟨hprog, hbg⟩) (by simp)
    · rename_i hpc
      split at h
      · cases h
      · rename_i hw
        cases h
        simp [waitEnds] at hw
        refine inv_pc s .fasleep hs (by rw [hpc]; rfl) rfl (by simp [awaiting]) (fun _ => ⟨hw.1, ?_⟩)
        cases hp : s.polling with
        | true => rfl
        | false =>
          rcases (hs.off hp).2.2.2 with h1 | h1
          · rw [hw.2] at h1; cases h1
          · omega
    · cases h
  | spurious =>
    unfold step at h
    dsimp only at h
    split at h
    · rename_i hpc
      cases h
      exact inv_pc s .top hs (by rw [hpc]; rfl) rfl (fun _ => hs.pcs (by rw [hpc]; rfl)) (by simp)
    · rename_i hpc
      cases h
      exact inv_pc s .ftop hs (by rw [hpc]; rfl) rfl (by simp [awaiting]) (by simp)
    · cases h
  | abort =>
    unfold step at h
    dsimp only at h
    split at h
    · rename_i hc
      cases h
      obtain ⟨all, off, cnt, num, out, sub, fin, pcs, slp⟩ := hs
      refine ⟨?_, ?_, cnt, num, ?_, sub, ?_, ?_, ?_⟩
      · simp
      · intro _; exact ⟨rfl, by rw [hc.1]; rfl, rfl, Or.inl rfl⟩
      · intro _ hp; cases hp
      · intro he; exact ⟨rfl, (fin he).2⟩
      · intro ha; dsimp only at ha; rw [hc.1] at ha; simp [awaiting] at ha
      · intro ha; dsimp only at ha; rw [hc.1] at ha; simp at ha
    · cases h

theorem inv_reach (s : Poll) (h : Reach Settled s) : Inv s := by
  induction h with
  | init => exact inv_init
  | step _ hok hst ih => exact inv_step _ _ _ ih hok hst

theorem inv_handsOut (s : Poll) (h : Inv s) : HandsOutAll s := by
  constructor
  · have hsp : s.got.Subperm (ordered s) := List.subperm_ext_iff.mpr (fun x _ => h.sub x)
    obtain ⟨m, hm, hsub⟩ := hsp
    obtain ⟨l, hl⟩ := hsub.exists_perm_append
    exact ⟨l, (List.Perm.append_right l hm).symm.trans hl.symm⟩
  · intro he
    exact List.perm_iff_count.mpr (h.fin he).2

theorem inv_sleeps (s : Poll) (h : Inv s) : SleepsSafely s := by
  intro hp
  obtain ⟨h1, h2⟩ := h.slp hp
  by_contra hcon
  simp only [ne_eq, not_or, not_not] at hcon
  have hl := (inv_perm s h h2).length_eq
  have hh : held s.pc = [] := by rcases hp with e | e <;> rw [e] <;> rfl
  rw [ordered_length, hcon.1, hcon.2, hh] at hl
  simp only [List.append_nil, List.nil_append] at hl
  have := h.cnt
  have := h.num
  omega

/-! ## Without aborts -/

structure Inv2 (s : Poll) : Prop where
  inv : Inv s
  abn : s.abandon = false
  idle : s.prog = false → s.num ≤ s.count
  wtd : s.waited = true → s.num ≤ s.count
  pol : s.polling = false → s.polls = 0 ∧ s.pc = .out ∧ s.running = [] ∧ s.filled = []

theorem inv2_quiet (s : Poll) (h : Inv2 s) (hp : s.prog = false) : s.queue = [] ∧ s.running = [] := by
  cases hpol : s.polling with
  | true => have := inv_full s h.inv hpol (h.idle hp); exact ⟨this.1, this.2.1⟩
  | false => exact ⟨(h.inv.off hpol).2.2.1, (h.pol hpol).2.2.1⟩

theorem checkIn_same (s : Poll) (w : Order) :
    (checkIn s w).abandon = s.abandon ∧ (checkIn s w).num = s.num ∧ s.count ≤ (checkIn s w).count ∧ (checkIn s w).waited = s.waited ∧
      (checkIn s w).polling = s.polling ∧ (checkIn s w).polls = s.polls ∧ (checkIn s w).prog = s.prog ∧ (checkIn s w).running = s.running ∧
      (checkIn s w).queue = s.queue ∧ (checkIn s w).bg = s.bg ∧ (checkIn s w).ended = s.ended ∧ (checkIn s w).cur = s.cur := by
  unfold checkIn receive awaken
  cases hp : s.polling <;> cases hw : wakes s <;> cases hpc : s.pc <;> simp [hpc, hp]

theorem inv2_step (s s' : Poll) (a : Act) (hs : Inv2 s) (ha : a ≠ .abort) (h : step s a = some s') : Inv2 s' := by
  have hi : Inv s' := by
    refine inv_step s s' a hs.inv ?_ h
    intro bg ch e
    subst e
    unfold step at h
    dsimp only at h
    split at h
    · rename_i hc; exact inv2_quiet s hs hc.2
    · cases h
  obtain ⟨inv, abn, idle, wtd, pol⟩ := hs
  cases a with
  | start bg ch =>
    unfold step at h
    dsimp only at h
    split at h
    · cases h
      refine ⟨hi, abn, ?_, ?_, ?_⟩
      · simp only [startPoll, Bool.or_eq_false_iff, Bool.not_eq_false']
        intro hc
        have := hc.2
        simp at this
        simp [this]
      · simp [startPoll]
      · simp [startPoll]
    · cases h
  | take k =>
    unfold step at h
    dsimp only at h
    split at h
    · rename_i w hw
      cases h
      refine ⟨hi, abn, idle, wtd, ?_⟩
      intro hp
      have := (inv.off hp).2.2.1
      rw [this] at hw
      simp at hw
    · cases h
  | finish k =>
    unfold step at h
    dsimp only at h
    split at h
    · rename_i w hw
      cases h
      obtain ⟨e1, e2, e3, e4, e5, e6, e7, e8, _⟩ := checkIn_same { s with running := s.running.eraseIdx k } w
      refine ⟨hi, by rw [e1]; exact abn, ?_, ?_, ?_⟩
      · rw [e7, e2]; intro hp; exact Nat.le_trans (idle hp) e3
      · rw [e4, e2]; intro hp; exact Nat.le_trans (wtd hp) e3
      · rw [e5]; intro hp
        have := (pol hp).2.2.1
        rw [this] at hw
        simp at hw
    · cases h
  | await =>
    unfold step at h
    dsimp only at h
    split at h
    · rename_i hc
      cases h
      refine ⟨hi, abn, idle, wtd, ?_⟩
      intro hp
      have := (inv.off hp).1
      rw [hc.2.1] at this
      cases this
    · cases h
  | wait =>
    unfold step at h
    dsimp only at h
    split at h
    · rename_i hc
      cases h
      refine ⟨hi, abn, idle, wtd, ?_⟩
      intro hp
      have := (pol hp).1
      omega
    · cases h
  | go =>
    unfold step at h
    dsimp only at h
    have hno : s.pc ≠ .out → s.polling = false → False := fun h1 h2 => h1 (pol h2).2.1
    split at h
    · rename_i hpc
      cases h
      unfold awaitTop at hi ⊢
      split
      · rename_i w hw; rw [hw] at hi; exact ⟨hi, abn, idle, wtd, fun hp => (hno (by rw [hpc]; simp) hp).elim⟩
      · rename_i hw
        rw [hw] at hi
        dsimp only at hi
        split
        · rename_i hn; rw [if_pos hn] at hi; exact ⟨hi, abn, fun _ => hn, wtd, fun hp => (hno (by rw [hpc]; simp) hp).elim⟩
        · rename_i hn; rw [if_neg hn] at hi; exact ⟨hi, abn, idle, wtd, fun hp => (hno (by rw [hpc]; simp) hp).elim⟩
    · rename_i hpc
      split at h
      · rename_i hw
        cases h
        have hn : s.num ≤ s.count := by
          simp [waitEnds, abn] at hw
          exact hw
        refine ⟨hi, abn, fun _ => hn, fun _ => hn, ?_⟩
        intro hp
        have := (pol hp).2.1
        rw [hpc] at this
        cases this
      · cases h
    · rename_i w hpc
      cases h
      obtain ⟨e1, e2, e3, e4, e5, e6, e7, e8, _⟩ := checkIn_same { s with pc := .top } w
      exact ⟨hi, by rw [e1]; exact abn, by rw [e7, e2]; exact fun hp => Nat.le_trans (idle hp) e3, by rw [e4, e2]; exact fun hp => Nat.le_trans (wtd hp) e3,
        fun hp => by rw [e5] at hp; have := (pol hp).2.1; rw [hpc] at this; cases this⟩
    · rename_i w hpc
      cases h
      obtain ⟨e1, e2, e3, e4, e5, e6, e7, e8, _⟩ := checkIn_same { s with pc := .ftop } w
      exact ⟨hi, by rw [e1]; exact abn, by rw [e7, e2]; exact fun hp => Nat.le_trans (idle hp) e3, by rw [e4, e2]; exact fun hp => Nat.le_trans (wtd hp) e3,
        fun hp => by rw [e5] at hp; have := (pol hp).2.1; rw [hpc] at this; cases this⟩
    · cases h
  | help k =>
    have hno : s.pc ≠ .out → s.polling = false → False := fun h1 h2 => h1 (pol h2).2.1
    unfold step at h
    dsimp only at h
    split at h
    · split at h
      · rename_i hpc; cases h; exact ⟨hi, abn, idle, wtd, fun hp => (hno (by rw [hpc]; simp) hp).elim⟩
      · rename_i hpc
        split at h
        · cases h
        · cases h; exact ⟨hi, abn, idle, wtd, fun hp => (hno (by rw [hpc]; simp) hp).elim⟩
      · cases h
    · cases h
  | none =>
    have hno : s.pc ≠ .out → s.polling = false → False := fun h1 h2 => h1 (pol h2).2.1
    unfold step at h
    dsimp only at h
    split at h
    · rename_i hpc; cases h; exact ⟨hi, abn, idle, wtd, fun hp => (hno (by rw [hpc]; simp) hp).elim⟩
    · rename_i hpc
      split at h
      · cases h
      · cases h; exact ⟨hi, abn, idle, wtd, fun hp => (hno (by rw [hpc]; simp) hp).elim⟩
    · cases h
  | spurious =>
    have hno : s.pc ≠ .out → s.polling = false → False := fun h1 h2 => h1 (pol h2).2.1
    unfold step at h
    dsimp only at h
    split at h
    · rename_i hpc; cases h; exact ⟨hi, abn, idle, wtd, fun hp => (hno (by rw [hpc]; simp) hp).elim⟩
    · rename_i hpc; cases h; exact ⟨hi, abn, idle, wtd, fun hp => (hno (by rw [hpc]; simp) hp).elim⟩
    · cases h
  | abort => exact absurd rfl ha
theorem inv2_init : Inv2 Poll.init := ⟨inv_init, rfl, fun _ => Nat.le_refl _, fun _ => Nat.le_refl _, fun _ => ⟨rfl, rfl, rfl, rfl⟩⟩

theorem inv2_reach (s : Poll) (h : Reach NoAbort s) : Inv2 s := by
  induction h with
  | init => exact inv2_init
  | step _ hok hst ih => exact inv2_step _ _ _ ih hok hst

theorem inv2_run (l : List Act) : ∀ (s s' : Poll), Inv2 s → (∀ a ∈ l, a ≠ .abort) → run s l = some s' → Inv2 s' := by
  induction l with
  | nil => intro s s' hs _ h; cases h; exact hs
  | cons a l ih =>
    intro s s' hs ha h
    unfold run at h
    split at h
    · rename_i t ht
      exact ih t s' (inv2_step s t a hs (ha a (by simp)) ht) (fun b hb => ha b (by simp [hb])) h
    · cases h

theorem run_append (l m : List Act) (s t u : Poll) (h1 : run s l = some t) (h2 : run t m = some u) : run s (l ++ m) = some u := by
  induction l generalizing s with
  | nil => cases h1; exact h2
  | cons a l ih =>
    unfold run at h1
    simp only [List.cons_append]
    unfold run
    split at h1
    · rename_i v hv; exact ih v h1
    · cases h1

theorem checkIn_pc (s : Poll) (w : Order) :
    awaiting (checkIn s w).pc = awaiting s.pc ∧ ((checkIn s w).pc = .out ↔ s.pc = .out) ∧ held (checkIn s w).pc = held s.pc := by
  unfold checkIn receive awaken
  cases hp : s.polling <;> cases hw : wakes s <;> cases hpc : s.pc <;> simp [hpc, awaiting, held]

/-- Two states in the same poll, with the parent in the same function. -/
def Same (s t : Poll) : Prop :=
  t.polls = s.polls ∧ t.cur = s.cur ∧ t.bg = s.bg ∧ t.prog = s.prog ∧ awaiting t.pc = awaiting s.pc ∧ (t.pc = .out ↔ s.pc = .out)

theorem same_trans {s t u : Poll} (h : Same s t) (g : Same t u) : Same s u :=
  ⟨g.1.trans h.1, g.2.1.trans h.2.1, g.2.2.1.trans h.2.2.1, g.2.2.2.1.trans h.2.2.2.1, g.2.2.2.2.1.trans h.2.2.2.2.1,
    g.2.2.2.2.2.trans h.2.2.2.2.2⟩

theorem run_one {s t : Poll} {a : Act} (h : step s a = some t) : run s [a] = some t := by
  simp [run, h]

theorem drain (n : Nat) : ∀ s : Poll, Inv2 s → 2 * s.queue.length + s.running.length + (held s.pc).length ≤ n →
    ∃ l t, (∀ a ∈ l, Within a) ∧ run s l = some t ∧ t.queue = [] ∧ t.running = [] ∧ held t.pc = [] ∧ Same s t := by
  induction n with
  | zero =>
    intro s _ h
    exact ⟨[], s, by simp, rfl, List.length_eq_zero_iff.mp (by omega), List.length_eq_zero_iff.mp (by omega), List.length_eq_zero_iff.mp (by omega),
      rfl, rfl, rfl, rfl, rfl, Iff.rfl⟩
  | succ n ih =>
    intro s hs h
    have go : ∀ a t, Within a → step s a = some t → Same s t → 2 * t.queue.length + t.running.length + (held t.pc).length ≤ n →
        ∃ l t, (∀ a ∈ l, Within a) ∧ run s l = some t ∧ t.queue = [] ∧ t.running = [] ∧ held t.pc = [] ∧ Same s t := by
      intro a t ha hst hsame hle
      obtain ⟨l, u, h1, h2, h3, h4, h5, h6⟩ := ih t (inv2_step s t a hs ha.1 hst) hle
      refine ⟨a :: l, u, ?_, ?_, h3, h4, h5, same_trans hsame h6⟩
      · intro b hb
        rcases List.mem_cons.mp hb with e | e
        · rw [e]; exact ha
        · exact h1 b e
      · unfold run; rw [hst]; exact h2
    cases hr : s.running with
    | cons w r =>
      obtain ⟨e1, e2, e3, e4, e5, e6, e7, e8, e9, e10, e11, e12⟩ := checkIn_same { s with running := s.running.eraseIdx 0 } w
      obtain ⟨f1, f2, f3⟩ := checkIn_pc { s with running := s.running.eraseIdx 0 } w
      refine go (.finish 0) (checkIn { s with running := s.running.eraseIdx 0 } w) ⟨by simp, by simp, by simp⟩ ?_ ⟨e6, e12, e10, e7, f1, f2⟩ ?_
      · unfold step; simp [hr]
      · rw [e8, e9, f3]
        rw [hr] at h ⊢
        simp only [List.length_cons, List.eraseIdx_zero, List.tail_cons] at h ⊢
        omega
    | nil =>
      cases hq : s.queue with
      | cons w q =>
        refine go (.take 0) { s with queue := s.queue.eraseIdx 0, running := s.running ++ [w] } ⟨by simp, by simp, by simp⟩ ?_
          ⟨rfl, rfl, rfl, rfl, rfl, Iff.rfl⟩ ?_
        · unfold step; simp [hq]
        · dsimp only
          rw [hq, hr] at h ⊢
          simp at h ⊢
          omega
      | nil =>
        cases hpc : s.pc with
        | busy w =>
          obtain ⟨e1, e2, e3, e4, e5, e6, e7, e8, e9, e10, e11, e12⟩ := checkIn_same { s with pc := .top } w
          obtain ⟨f1, f2, f3⟩ := checkIn_pc { s with pc := .top } w
          refine go .go (checkIn { s with pc := .top } w) ⟨by simp, by simp, by simp⟩ ?_ ⟨e6, e12, e10, e7, by rw [f1, hpc]; rfl, by rw [f2, hpc]; simp⟩ ?_
          · unfold step; simp [hpc]
          · rw [e8, e9, f3, hq, hr]; simp [held]
        | fbusy w =>
          obtain ⟨e1, e2, e3, e4, e5, e6, e7, e8, e9, e10, e11, e12⟩ := checkIn_same { s with pc := .ftop } w
          obtain ⟨f1, f2, f3⟩ := checkIn_pc { s with pc := .ftop } w
          refine go .go (checkIn { s with pc := .ftop } w) ⟨by simp, by simp, by simp⟩ ?_ ⟨e6, e12, e10, e7, by rw [f1, hpc]; rfl, by rw [f2, hpc]; simp⟩ ?_
          · unfold step; simp [hpc]
          · rw [e8, e9, f3, hq, hr]; simp [held]
        | _ => exact ⟨[], s, by simp, rfl, hq, hr, by rw [hpc]; rfl, rfl, rfl, rfl, rfl, rfl, Iff.rfl⟩

theorem settled_count (s : Poll) (hs : Inv2 s) (hq : s.queue = []) (hr : s.running = []) (hh : held s.pc = []) : s.num ≤ s.count := by
  cases hp : s.polling with
  | true =>
    have hl := (inv_perm s hs.inv hp).length_eq
    rw [ordered_length, hq, hr, hh] at hl
    simp only [List.append_nil, List.nil_append] at hl
    have := hs.inv.cnt
    have := hs.inv.num
    omega
  | false => exact hs.idle (hs.inv.off hp).1

theorem hand_out (n : Nat) : ∀ s : Poll, Inv2 s → s.queue = [] → s.running = [] → held s.pc = [] → s.prog = true → s.bg = false →
    (s.pc = .out ∨ awaiting s.pc = true) → s.retq.length ≤ n →
    ∃ l t, (∀ a ∈ l, Within a) ∧ run s l = some t ∧ t.ended = true ∧ t.polls = s.polls ∧ t.cur = s.cur := by
  induction n with
  | zero =>
    intro s hs hq hr hh hp hb hpc hlen
    have hn := settled_count s hs hq hr hh
    have hrq : s.retq = [] := List.length_eq_zero_iff.mp (by omega)
    have hnlt : ¬ (s.count < s.num) := by omega
    cases hc : s.pc with
    | out =>
      refine ⟨[.await, .go], { s with retq := [], prog := false, pc := .out, ended := true }, ?_, ?_, ?_⟩
      · simp [Within]
      · simp [run, step, hc, hp, hb, awaitTop, hrq, hn]
      · exact ⟨rfl, rfl, rfl⟩
    | top =>
      refine ⟨[.go], { s with retq := [], prog := false, pc := .out, ended := true }, ?_, ?_, ?_⟩
      · simp [Within]
      · simp [run, step, hc, awaitTop, hrq, hn]
      · exact ⟨rfl, rfl, rfl⟩
    | look =>
      refine ⟨[.none, .go], { s with retq := [], prog := false, pc := .out, ended := true }, ?_, ?_, ?_⟩
      · simp [Within]
      · simp [run, step, hc, awaitTop, hrq, hn, hnlt]
      · exact ⟨rfl, rfl, rfl⟩
    | asleep => have := (hs.inv.slp (Or.inl hc)).1; omega
    | busy w => rw [hc] at hh; cases hh
    | _ => rw [hc] at hpc; simp [awaiting] at hpc
  | succ n ih =>
    intro s hs hq hr hh hp hb hpc hlen
    have hn := settled_count s hs hq hr hh
    have hnlt : ¬ (s.count < s.num) := by omega
    cases hrq : s.retq.getLast? with
    | none =>
      have hrq : s.retq = [] := by simpa using hrq
      cases hc : s.pc with
      | out =>
        refine ⟨[.await, .go], { s with retq := [], prog := false, pc := .out, ended := true }, ?_, ?_, ?_⟩
        · simp [Within]
        · simp [run, step, hc, hp, hb, awaitTop, hrq, hn]
        · exact ⟨rfl, rfl, rfl⟩
      | top =>
        refine ⟨[.go], { s with retq := [], prog := false, pc := .out, ended := true }, ?_, ?_, ?_⟩
        · simp [Within]
        · simp [run, step, hc, awaitTop, hrq, hn]
        · exact ⟨rfl, rfl, rfl⟩
      | look =>
        refine ⟨[.none, .go], { s with retq := [], prog := false, pc := .out, ended := true }, ?_, ?_, ?_⟩
        · simp [Within]
        · simp [run, step, hc, awaitTop, hrq, hn, hnlt]
        · exact ⟨rfl, rfl, rfl⟩
      | asleep => have := (hs.inv.slp (Or.inl hc)).1; omega
      | busy w => rw [hc] at hh; cases hh
      | _ => rw [hc] at hpc; simp [awaiting] at hpc
    | some w =>
      have fin : ∀ l, (∀ a ∈ l, Within a) → run s l = some { s with retq := s.retq.dropLast, got := s.got ++ [w], pc := .out } →
          ∃ l t, (∀ a ∈ l, Within a) ∧ run s l = some t ∧ t.ended = true ∧ t.polls = s.polls ∧ t.cur = s.cur := by
        intro l hl hrun
        have hi := inv2_run l s _ hs (fun a ha => (hl a ha).1) hrun
        obtain ⟨m, t, h1, h2, h3, h4, h5⟩ := ih _ hi hq hr rfl hp hb (Or.inl rfl) (by dsimp only; rw [List.length_dropLast]; omega)
        refine ⟨l ++ m, t, ?_, run_append l m _ _ _ hrun h2, h3, h4, h5⟩
        intro a ha
        rcases List.mem_append.mp ha with e | e
        · exact hl a e
        · exact h1 a e
      cases hc : s.pc with
      | out =>
        refine fin [.await, .go] (by simp [Within]) ?_
        simp [run, step, hc, hp, hb, awaitTop, hrq]
      | top =>
        refine fin [.go] (by simp [Within]) ?_
        simp [run, step, hc, awaitTop, hrq]
      | look =>
        refine fin [.none, .go] (by simp [Within]) ?_
        simp [run, step, hc, awaitTop, hrq, hnlt]
      | asleep => have := (hs.inv.slp (Or.inl hc)).1; omega
      | busy w => rw [hc] at hh; cases hh
      | _ => rw [hc] at hpc; simp [awaiting] at hpc

theorem completes_await (s : Poll) (hs : Inv2 s) (hp : s.prog = true) (hb : s.bg = false) (hpc : s.pc = .out ∨ awaiting s.pc = true) :
    ∃ l t, (∀ a ∈ l, Within a) ∧ run s l = some t ∧ t.ended = true ∧ t.polls = s.polls ∧ t.cur = s.cur := by
  obtain ⟨l, t, h1, h2, h3, h4, h5, h6⟩ := drain _ s hs (Nat.le_refl _)
  have hi := inv2_run l s t hs (fun a ha => (h1 a ha).1) h2
  have hpc' : t.pc = .out ∨ awaiting t.pc = true := by
    rcases hpc with e | e
    · exact Or.inl (h6.2.2.2.2.2.mpr e)
    · right; rw [h6.2.2.2.2.1]; exact e
  obtain ⟨m, u, g1, g2, g3, g4, g5⟩ := hand_out _ t hi h3 h4 h5 (h6.2.2.2.1.trans hp) (h6.2.2.1.trans hb) hpc' (Nat.le_refl _)
  refine ⟨l ++ m, u, ?_, run_append l m _ _ _ h2 g2, g3, g4.trans h6.1, g5.trans h6.2.1⟩
  intro a ha
  rcases List.mem_append.mp ha with e | e
  · exact h1 a e
  · exact g1 a e

theorem completes_wait (s : Poll) (hs : Inv2 s) (hp : 0 < s.polls) (hpc : awaiting s.pc = false) :
    ∃ l t, (∀ a ∈ l, a ≠ .abort ∧ ∀ bg ch, a ≠ .start bg ch) ∧ run s l = some t ∧ t.waited = true ∧ t.polls = s.polls ∧ t.cur = s.cur := by
  obtain ⟨l, t, h1, h2, h3, h4, h5, h6⟩ := drain _ s hs (Nat.le_refl _)
  have hi := inv2_run l s t hs (fun a ha => (h1 a ha).1) h2
  have hn := settled_count t hi h3 h4 h5
  have hw : waitEnds t = true := by unfold waitEnds; simp; left; exact hn
  have fin : ∀ m u, run t m = some u → (∀ a ∈ m, a = .wait ∨ a = .go) → u.waited = true → u.polls = t.polls → u.cur = t.cur →
      ∃ l t, (∀ a ∈ l, a ≠ .abort ∧ ∀ bg ch, a ≠ .start bg ch) ∧ run s l = some t ∧ t.waited = true ∧ t.polls = s.polls ∧ t.cur = s.cur := by
    intro m u hm ha h7 h8 h9
    refine ⟨l ++ m, u, ?_, run_append l m _ _ _ h2 hm, h7, h8.trans h6.1, h9.trans h6.2.1⟩
    intro a hma
    rcases List.mem_append.mp hma with e | e
    · exact ⟨(h1 a e).1, (h1 a e).2.2⟩
    · rcases ha a e with e | e <;> rw [e] <;> simp
  cases hc : t.pc with
  | out =>
    refine fin [.wait, .go] { t with retq := [], prog := false, pc := .out, waited := true } ?_ (by simp) rfl rfl rfl
    have : 0 < t.polls := by rw [h6.1]; exact hp
    have hw' : waitEnds { t with pc := .ftop } = true := hw
    simp [run, step, hc, this, hw']
  | ftop =>
    refine fin [.go] { t with retq := [], prog := false, pc := .out, waited := true } ?_ (by simp) rfl rfl rfl
    simp [run, step, hc, hw]
  | fasleep => have := (hi.inv.slp (Or.inr hc)).1; omega
  | fbusy w => rw [hc] at h5; cases h5
  | _ => have := h6.2.2.2.2.1; rw [hpc, hc] at this; simp [awaiting] at this

/-! ## Without threads -/

theorem nextSingle_spec (order : List Nat) (enabled : Nat → Bool) (pos : Nat) :
    (nextSingle order enabled pos = none ∧ (order.drop pos).filter enabled = []) ∨
      ∃ c p, nextSingle order enabled pos = some (c, p) ∧ pos < p ∧ p ≤ order.length ∧ (order.drop pos).filter enabled = c :: (order.drop p).filter enabled := by
  induction h : order.length - pos generalizing pos with
  | zero =>
    left
    unfold nextSingle
    rw [dif_neg (by omega), List.drop_of_length_le (by omega)]
    simp
  | succ n ih =>
    have hlt : pos < order.length := by omega
    unfold nextSingle
    rw [dif_pos hlt, List.drop_eq_getElem_cons hlt]
    by_cases he : enabled order[pos] = true
    · rw [if_pos he]
      right
      exact ⟨_, _, rfl, by omega, by omega, by rw [List.filter_cons_of_pos he]⟩
    · rw [if_neg he]
      rw [List.filter_cons_of_neg he]
      rcases ih (pos + 1) (by omega) with h1 | ⟨c, p, h1, h2, h3⟩
      · left; exact h1
      · right; exact ⟨c, p, h1, by omega, h3⟩

theorem handedOut_eq (order : List Nat) (enabled : Nat → Bool) (fuel : Nat) : ∀ pos, order.length < pos + fuel →
    handedOut order enabled pos fuel = (order.drop pos).filter enabled := by
  induction fuel with
  | zero => intro pos h; unfold handedOut; rw [List.drop_of_length_le (by omega)]; rfl
  | succ n ih =>
    intro pos h
    unfold handedOut
    rcases nextSingle_spec order enabled pos with ⟨h1, h2⟩ | ⟨c, p, h1, h2, h3, h4⟩
    · rw [h1, h2]
    · rw [h1, h4]
      dsimp only
      rw [ih p (by omega)]

end Verif.AsyncPoll
