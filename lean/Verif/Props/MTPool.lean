import Verif.Proof.MTPool
/-! # Properties of the worker pool (C36) -/
namespace Verif.MTPool

/-! ## C36 -/

/-- **C36.** Under every interleaving, each order placed is in exactly one of three places: still queued, handed to a
thread, or cancelled; and it is there as often as it was placed. -/
theorem C36_exactly_once {nwork maxBusy : Nat} {r0 r : Run} (h0 : start nwork maxBusy = .ok r0) (ops : List Op)
    (hn : NoJoin ops) (h : runFrom r0 ops = .ok r) :
    (r.pool.queue ++ (r.handed ++ r.cancelled)).Perm (placed ops) := (K_all h0 ops hn h).all

/-- So an order placed once is handed out at most once, and never after it was cancelled. -/
theorem C36_at_most_once {nwork maxBusy : Nat} {r0 r : Run} (h0 : start nwork maxBusy = .ok r0) (ops : List Op)
    (hn : NoJoin ops) (h : runFrom r0 ops = .ok r) (hd : (placed ops).Nodup) :
    r.handed.Nodup ∧ (∀ w ∈ r.handed, w ∈ placed ops ∧ w ∉ r.cancelled ∧ w ∉ r.pool.queue) := by
  have hp := C36_exactly_once h0 ops hn h
  have hnd := hp.nodup_iff.2 hd
  rw [List.nodup_append] at hnd
  obtain ⟨_, h2, h3⟩ := hnd
  rw [List.nodup_append] at h2
  refine ⟨h2.1, fun w hw => ⟨hp.subset (by simp [hw]), fun hc => h2.2.2 w hw w hc rfl, fun hq =>
    h3 w hq w (List.mem_append_left _ hw) rfl⟩⟩

/-- **C36.** Orders are handed out newest first: the queue always lists what is left newest first, and the order handed
out is its first, of at least the depth asked for; everything else stays. -/
theorem C36_newest_first {nwork maxBusy : Nat} {r0 r r' : Run} (h0 : start nwork maxBusy = .ok r0) (ops : List Op)
    (hn : NoJoin ops) (h : runFrom r0 ops = .ok r) (t : Nat) (wait : Bool) (m : Nat)
    (hs : step r (.get t wait m) = .ok r') :
    r.pool.queue.Sublist (placed ops).reverse ∧
      ((r'.handed = r.handed ∧ r'.pool.queue = r.pool.queue) ∨
        ∃ w, r'.handed = r.handed ++ [w] ∧ r.pool.queue = w :: r'.pool.queue ∧ m ≤ w.depth) := by
  have hk := K_all h0 ops hn h
  refine ⟨hk.sub, ?_⟩
  obtain ⟨⟨p, o⟩, hp, he⟩ := bind_ok hs
  cases he
  obtain ⟨_, hor⟩ := J_get hk.j hp
  rcases hor with ⟨h1, h2, _⟩ | ⟨w, h1, h2, _, h4⟩
  · subst h1; exact Or.inl ⟨by simp, h2⟩
  · subst h1; exact Or.inr ⟨w, rfl, h2, h4⟩

/-- **C36.** Cancelling a client's orders removes exactly its queued orders and leaves the others in their order. -/
theorem C36_cancel (r : Run) (c : Nat) :
    ∃ r', step r (.clear c) = .ok r' ∧ r'.pool.queue = r.pool.queue.filter (fun w => decide (w.client ≠ some c)) ∧
      r'.cancelled = r.cancelled ++ r.pool.queue.filter (fun w => decide (w.client = some c)) ∧
      r'.handed = r.handed ∧ r'.pool.running = r.pool.running := ⟨_, rfl, rfl, rfl, rfl, rfl⟩

/-- **C36.** At any depth at most one more order is executed than the limit. -/
theorem C36_limit {nwork maxBusy : Nat} {r0 r : Run} (h0 : start nwork maxBusy = .ok r0) (ops : List Op)
    (hn : NoJoin ops) (h : runFrom r0 ops = .ok r) (d : Nat) : busyAt r.pool d ≤ maxBusy + 1 := by
  have hk := K_all h0 ops hn h
  have h1 := hk.j.cnt d
  have h2 := hk.j.lim d
  rw [hk.mb, (J_start h0).2.2.2.2.2] at h2
  omega

/-- **C36.** The pool's count of idle threads is right. -/
theorem C36_idle {nwork maxBusy : Nat} {r0 r : Run} (h0 : start nwork maxBusy = .ok r0) (ops : List Op)
    (hn : NoJoin ops) (h : runFrom r0 ops = .ok r) : r.pool.nidle = r.pool.workers.count true := (K_all h0 ops hn h).j.idle

/-- **C36.** The only way to undefined behaviour is to start a 129th thread. -/
theorem C36_undefined {nwork maxBusy : Nat} {r0 r : Run} (h0 : start nwork maxBusy = .ok r0) (ops : List Op)
    (hn : NoJoin ops) (h : runFrom r0 ops = .ok r) (op : Op) (hop : ∀ i d, op ≠ .join i d) (hu : step r op = .ub) :
    128 ≤ r.pool.workers.length := by
  have hj := (K_all h0 ops hn h).j
  cases op with
  | place w => cases hu
  | awaken =>
    rcases bind_ub hu with hu | ⟨_, _, hu⟩
    · exact awaken_ub (fun w hw => hj.room w (List.mem_append_left _ hw)) hu
    · cases hu
  | get t wait m =>
    rcases bind_ub hu with hu | ⟨_, _, hu⟩
    · exact get_ub hj hu
    · cases hu
  | finish w =>
    rcases bind_ub hu with hu | ⟨_, _, hu⟩
    · exact absurd hu (finish_ub hj)
    · cases hu
  | clear c => cases hu
  | join i d => exact absurd rfl (hop i d)

/-- **C36.** A thread that asks without being willing to wait, or an idle one, is refused only for a reason: no order, the
newest is not deep enough, or the limit at its depth is reached. -/
theorem C36_refused {nwork maxBusy : Nat} {r0 r r' : Run} (h0 : start nwork maxBusy = .ok r0) (ops : List Op)
    (hn : NoJoin ops) (h : runFrom r0 ops = .ok r) (t : Nat) (ht : t < r.pool.workers.length) (wait : Bool) (m : Nat)
    (hs : step r (.get t wait m) = .ok r') (hh : r'.handed = r.handed) :
    r.pool.queue = [] ∨ ∃ w q, r.pool.queue = w :: q ∧
      (w.depth < m ∨ maxBusy ≤ busyAt r.pool w.depth + (if w.depth = 0 then 1 else 0)) := by
  have hk := K_all h0 ops hn h
  have hmb : r.pool.maxBusy = maxBusy := hk.mb.trans (J_start h0).2.2.2.2.2
  cases hq : r.pool.queue with
  | nil => exact Or.inl rfl
  | cons w q =>
    refine Or.inr ⟨w, q, rfl, ?_⟩
    by_cases hm : w.depth < m
    · exact Or.inl hm
    · refine Or.inr ?_
      rw [← hk.j.cnt, ← hmb]
      obtain ⟨⟨p, o⟩, hp, he⟩ := bind_ok hs
      cases he
      simp only at hh
      have ho : o = none := by
        cases o with
        | none => rfl
        | some x => simp at hh
      subst ho
      unfold get at hp
      rw [List.getElem?_eq_getElem ht] at hp
      simp only [hq, if_neg hm] at hp
      have htake : ∀ s n, take s w q n ≠ .ok (p, none) := by
        intro s n hc
        obtain ⟨a, _, hb⟩ := bind_ok hc
        cases hb
      split at hp
      · cases hp
      · rename_i n hn'
        have hgn : r.pool.nthr.getD w.depth 0 = n := by simp [List.getD_eq_getElem?_getD, hn']
        rw [hgn]
        split at hp
        · split at hp
          · assumption
          · exact absurd hp (htake _ _)
        · split at hp
          · omega
          · exact absurd hp (htake _ _)

/-- A thread joining later can destroy the counters: after an order of depth 150 was handed out, a thread joining at depth 0
shrinks the table, and finishing the order then writes outside of it. -/
theorem C36_join_refuted : ∃ r0, start 1 1 = .ok r0 ∧ runFrom r0
    [.place ⟨1, none, 150⟩, .get 0 true 0, .join false 0, .finish ⟨1, none, 150⟩] = .ub :=
  ⟨_, rfl, by decide +kernel⟩

/-- Two orders, taken newest first by two threads; the third is cancelled. -/
example : ∃ r0 r, start 2 2 = .ok r0 ∧ runFrom r0 [.place ⟨1, some 7, 1⟩, .place ⟨2, some 8, 1⟩, .place ⟨3, some 8, 1⟩,
    .get 0 true 0, .clear 7, .get 1 true 0] = .ok r ∧ r.handed = [⟨3, some 8, 1⟩, ⟨2, some 8, 1⟩] ∧
    r.cancelled = [⟨1, some 7, 1⟩] ∧ busyAt r.pool 1 = 2 := ⟨_, _, rfl, rfl, by decide +kernel⟩

/-- The slack is used: a busy thread may take one more order than the limit. -/
example : ∃ r0 r, start 1 1 = .ok r0 ∧ runFrom r0 [.place ⟨1, none, 1⟩, .place ⟨2, none, 1⟩,
    .get 0 true 0, .get 1 false 0] = .ok r ∧ busyAt r.pool 1 = 2 := ⟨_, _, rfl, rfl, by decide +kernel⟩

end Verif.MTPool
