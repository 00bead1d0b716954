import Verif.Proof.MpiWire
import Verif.Proof.MpiHeld

/-!
# Properties of a server of several processes
-/

/-! ## C216: messages between processes -/

namespace Verif.MpiWire

/-- What is sent is what is received: for every header, every object (list of blocks) and every size of
the send buffer, sending neither fails nor writes past the buffer, the message is the count, the header
and for every block its size and its bytes, and the receiver gets the header and the blocks back. -/
theorem C216_main (cap : Nat) (hdr : Bytes) (bs : List Bytes) (hne : bs ≠ []) (hn : bs.length < 2 ^ 31)
    (hs : ∀ b ∈ bs, b.length < 2 ^ 64) :
    ∃ msg cap', send cap hdr (some bs) = .ok (msg, cap') ∧ msg.length ≤ cap' ∧ cap ≤ cap' ∧
      msg.length = 4 + hdr.length + (bs.map (fun b => 8 + b.length)).sum ∧
      decode hdr.length msg = .ok (hdr, some bs) := by
  refine ⟨_, _, send_some cap hdr bs hn, ?_, ?_, ?_, ?_⟩
  · rw [encode_length]; exact ensureBuffer_ge _ _
  · have h := ensureBuffer_ge cap (4 + hdr.length + 8 * bs.length + sumSizes bs)
    unfold ensureBuffer at h ⊢
    split
    · rename_i h1; rw [if_pos h1] at h; omega
    · exact Nat.le_refl _
  · rw [encode_length]
    have : (bs.map (fun b => 8 + b.length)).sum = 8 * bs.length + sumSizes bs := by
      clear hne hn hs
      induction bs with
      | nil => rfl
      | cons b bs ih => rw [List.map_cons, List.sum_cons, ih, List.length_cons, sumSizes]; omega
    omega
  · rw [decode_encoded hdr bs hn hs, if_neg hne]

/-- The same for a message without an object. -/
theorem C216_header (cap : Nat) (hdr : Bytes) :
    ∃ msg cap', send cap hdr none = .ok (msg, cap') ∧ msg.length ≤ cap' ∧ cap ≤ cap' ∧
      msg.length = 4 + hdr.length ∧ decode hdr.length msg = .ok (hdr, none) := by
  have hd := decode_encoded hdr [] (by decide) (fun _ h => by cases h)
  have he := encode_length hdr []
  simp only [sizeArray, body, List.append_nil, sumSizes, List.length_nil, if_true] at hd he
  refine ⟨_, _, send_none cap hdr, ?_, ?_, he, hd⟩
  · exact Nat.le_trans (Nat.le_of_eq he) (ensureBuffer_ge _ _)
  · have h := ensureBuffer_ge cap (4 + hdr.length)
    unfold ensureBuffer at h ⊢
    split
    · rename_i h1; rw [if_pos h1] at h; omega
    · exact Nat.le_refl _

/-- A message that was cut anywhere is refused (blocks below 2 GB, fewer than `2^28` of them). -/
theorem C216_truncated (cap : Nat) (hdr : Bytes) (bs : List Bytes) (hn : 8 * bs.length < 2 ^ 31)
    (hs : ∀ b ∈ bs, b.length < 2 ^ 31) (msg : Bytes) (cap' : Nat)
    (h : send cap hdr (some bs) = .ok (msg, cap')) (m t : Bytes) (ht : t ≠ []) (he : msg = m ++ t) :
    decode hdr.length m = .err := by
  rw [send_some cap hdr bs (by omega)] at h
  cases h
  exact decode_truncated hdr bs hn hs m t ht he

/-- The full claim about bytes that no sender made: whatever arrives, nothing outside the message is
read. -/
def C216_full : Prop := ∀ (hdrsize : Nat) (msg : Bytes), decode hdrsize msg ≠ .ub

/-- It is false: a block size of `2^32` becomes 0 in the check (`int(..)`), and 4 GB are copied. -/
theorem C216_refuted : ¬ C216_full := by
  intro h
  exact h 0 [1, 0, 0, 0, 0, 0, 0, 0, 1, 0, 0, 0] (by decide +kernel)

theorem readBlocks_safe (rest : Bytes) (N : Nat)
    (hs : ∀ i < N, leDec ((rest.drop (8 * i)).take 8) < 2 ^ 31) (hlen : 8 * N ≤ rest.length) :
    ∀ n i pos, i + n = N → readBlocks rest n i pos ≠ .ub := by
  intro n
  induction n with
  | zero => intro i pos _ h; cases h
  | succ n ih =>
    intro i pos hi
    unfold readBlocks
    rw [if_neg (by omega)]
    dsimp only
    have h1 := hs i (by omega)
    generalize leDec ((rest.drop (8 * i)).take 8) = sz at h1
    rw [castInt_small sz h1]
    split
    · exact fun h => by cases h
    · rw [if_neg (by omega)]
      have := ih (i + 1) (pos + sz) (by omega)
      split
      · exact fun h => by cases h
      · exact fun h => by cases h
      · rename_i h; exact absurd h this

/-- What is missing in the code is only a check of large numbers: no bytes outside the message are read
when the number of blocks is below `2^28` and the block sizes announced are below `2^31`. -/
theorem C216_partial (hdrsize : Nat) (msg : Bytes) (hn : decInt32 (msg.take 4) < 2 ^ 28)
    (hs : ∀ i : Nat, (i : Int) < decInt32 (msg.take 4) →
      leDec ((msg.drop (4 + hdrsize + 8 * i)).take 8) < 2 ^ 31) :
    decode hdrsize msg ≠ .ub := by
  unfold decode
  split
  · exact fun h => by cases h
  · dsimp only
    generalize decInt32 (msg.take 4) = k at hn hs
    split
    · exact fun h => by cases h
    · by_cases hk : k < 0
      · rw [if_pos hk]
        split <;> exact fun h => by cases h
      · rw [if_neg hk]
        have e1 : (k * 8 % 2 ^ 64).toNat = 8 * k.toNat := by omega
        rw [e1, castInt_small _ (by omega)]
        split
        · exact fun h => by cases h
        · have := readBlocks_safe (msg.drop (4 + hdrsize)) k.toNat
            (fun i hi => by rw [List.drop_drop]; exact hs i (by omega)) (by omega)
            k.toNat 0 (8 * k.toNat) (by omega)
          split
          · exact fun h => by cases h
          · exact fun h => by cases h
          · rename_i h; exact absurd h this

-- A header of two bytes with two blocks.
example : send 0 [7, 8] (some [[1, 2, 3], []])
    = .ok ([2, 0, 0, 0, 7, 8, 3, 0, 0, 0, 0, 0, 0, 0, 0, 0, 0, 0, 0, 0, 0, 0, 1, 2, 3], 1073741824) := by
  decide +kernel
-- Five of its bytes are refused as a message; so is all of it but the last.
example : decode 2 [2, 0, 0, 0, 7] = .err ∧
    decode 2 [2, 0, 0, 0, 7, 8, 3, 0, 0, 0, 0, 0, 0, 0, 0, 0, 0, 0, 0, 0, 0, 0, 1, 2] = .err := by
  decide +kernel

end Verif.MpiWire

/-! ## C217: calls and their replies -/

namespace Verif.Mpi
open Verif.MpiSpec

variable {n : Nat} {α : Type}

/-- However the threads of all processes are scheduled and whatever the nodes do: no reply is written to
memory that is not a waiting endpoint; the remote side does every call at most once, for the caller that
made it; every call returns at most once; and what it returns is what the remote side did for it. -/
theorem C217_main (has : Has n) (ops : List (Op n α)) (s : Sys n α)
    (hr : run has (Sys.init n α) ops = some s) :
    s.crashed = false ∧
    s.calls.map (fun c => (c.src, c.dst, c.cmd)) = ops.filterMap madeBy ∧
    (∀ (k : Nat) c, s.calls[k]? = some c → c.id = k) ∧
    (s.log.map Entry.id).Nodup ∧
    (∀ e ∈ s.log, (⟨e.id, e.src, e.at_, e.cmd⟩ : Call n α) ∈ s.calls ∧ Happened ops e) ∧
    (s.done.map Ret.id).Nodup ∧
    (∀ r ∈ s.done, ∃ e ∈ s.log, e.id = r.id ∧ e.src = r.proc ∧ Delivers e r) := by
  have h := safe_run hr
  refine ⟨h.ok, calls_run hr, h.ids, ?_, fun e he => ⟨h.log e he, happened_run hr e he⟩, h.nodup, ?_⟩
  · rw [List.nodup_iff_count_le_one]
    intro i
    have h1 := h.rq1 i
    have : List.count i (s.log.map Entry.id) = (s.log.filter (fun e => e.id = i)).length := by
      rw [List.count, List.countP_map, List.countP_eq_length_filter]
      congr 1
    omega
  · intro r hrm
    obtain ⟨e, he, h1, h2, h3⟩ := h.done r hrm
    refine ⟨e, he, h1, h2, ?_⟩
    unfold Delivers
    cases hcmd : e.cmd <;> cases hobj : e.obj <;>
      simp only [hcmd, hobj, isExec, if_true, proxyResult, Bool.false_eq_true, if_false, Prod.mk.injEq] at h3 <;>
      exact ⟨h3.2, h3.1⟩

/-! ## C218: every call is answered -/

/-- The full claim: once nothing is on the way and nothing is being worked on, every call that asks for
a reply has returned or is about to. -/
def C218_full : Prop :=
  ∀ (n : Nat) (α : Type) (has : Has n) (ops : List (Op n α)) (s : Sys n α),
    run has (Sys.init n α) ops = some s → Quiet s → ∀ c ∈ s.calls, AsksReply c.cmd → Answered has s c

theorem not_answered {s : Sys 2 Unit} {has : Has 2} (c : Call 2 Unit) (hd : s.done = [])
    (hr : ∀ a id ex code obj, s.ep c.src a ≠ .replied id ex code obj) : ¬ Answered has s c := by
  rintro (⟨r, hr', _⟩ | ⟨a, s', h, _⟩)
  · rw [hd] at hr'; cases hr'
  · obtain ⟨id, ex, code, obj, hw, _⟩ := await_eq h
    exact hr a _ _ _ _ hw

/-- It is false: the process that has the node drops `processCommand`, and the caller of
`MPIProxy::processCommand` waits for ever. -/
theorem C218_refuted : ¬ C218_full := by
  intro h
  have h1 := h 2 Unit (fun _ _ => true) [.command 0 1 4 7 (), .send 0, .recv 1 0 (some (0, none))] _ rfl
    ⟨(by intro p; match p with | 0 => rfl | 1 => rfl), (by intro p d; match p, d with
      | 0, 0 => rfl | 0, 1 => rfl | 1, 0 => rfl | 1, 1 => rfl), (by intro p; match p with | 0 => rfl | 1 => rfl)⟩
    ⟨0, 0, 1, .command 7 ()⟩ List.mem_cons_self trivial
  refine not_answered _ rfl ?_ h1
  intro a id ex code obj h2
  by_cases ha : a = 4
  · subst ha; cases h2
  · have : (if a = 4 then Ep.waiting 0 false else Ep.free : Ep Unit) = .replied id ex code obj := h2
    rw [if_neg ha] at this
    cases this

/-- So does the caller of `execute` for a node that the other process does not have (any more): it only
reports an error. -/
theorem C218_refuted_unknown : ¬ C218_full := by
  intro h
  have h1 := h 2 Unit (fun _ _ => false) [.execute 0 1 4 7 0 (), .send 0, .recv 1 0 none, .send 1, .recv 0 1 none] _ rfl
    ⟨(by intro p; match p with | 0 => rfl | 1 => rfl), (by intro p d; match p, d with
      | 0, 0 => rfl | 0, 1 => rfl | 1, 0 => rfl | 1, 1 => rfl), (by intro p; match p with | 0 => rfl | 1 => rfl)⟩
    ⟨0, 0, 1, .execute 7 0 ()⟩ List.mem_cons_self trivial
  refine not_answered _ rfl ?_ h1
  intro a id ex code obj h2
  by_cases ha : a = 4
  · subst ha; cases h2
  · have : (if a = 4 then Ep.waiting 0 true else Ep.free : Ep Unit) = .replied id ex code obj := h2
    rw [if_neg ha] at this
    cases this

/-- The part that holds: if calls are for nodes that exist, no call is a `processCommand`, and methods
called by communicator threads do not throw (an `execute` may), every call is answered once the threads
are idle, and until then some thread can go on. -/
theorem C218_partial (has : Has n) (ops : List (Op n α)) (s : Sys n α)
    (hg : ∀ o ∈ ops, Regular has o) (hr : run has (Sys.init n α) ops = some s) :
    (Quiet s → ∀ c ∈ s.calls, AsksReply c.cmd → Answered has s c) ∧
    (¬ Quiet s → ∃ o, internal o = true ∧ Regular has o ∧ step has s o ≠ none) := by
  refine ⟨fun hq c hc ha => ?_, progress⟩
  refine quiet_answered (safe_run hr) (held_run hr) ?_ c hc ha
  rintro p a ⟨id, ex, hw⟩
  have h1 := (live_run hg hr).one p a id ex hw
  rw [total_quiet _ _ hq.1 hq.2.1 hq.2.2] at h1
  cases h1

/-- The threads do become idle: a call costs at most seven of their steps, whatever happens. -/
theorem C218_ends (has : Has n) (ops : List (Op n α)) (s : Sys n α)
    (hr : run has (Sys.init n α) ops = some s) :
    (ops.filter internal).length ≤ 7 * (ops.filterMap madeBy).length :=
  mu_run hr

/-- Errors: every step that fails at the remote side makes exactly one report for the user of the main
server, and no other step makes one or loses one. -/
theorem C218_errors (has : Has n) (ops : List (Op n α)) (s s' : Sys n α) (o : Op n α)
    (hr : run has (Sys.init n α) ops = some s) (hs : step has s o = some s') :
    (Failing has s o → reports s' = reports s + 1) ∧ (¬ Failing has s o → reports s' = reports s) :=
  reports_step (safe_run hr) o hs

/-- Once the threads are idle, the reports have been shown. -/
theorem C218_shown (s : Sys n α) (hq : Quiet s) : reports s = s.errors := by
  rw [reports_eq, total_quiet _ _ hq.1 hq.2.1 hq.2.2]
  rfl

-- Two processes call each other at the same time; the second's `execute` throws.  Both calls return.
example : ∃ s, run (fun _ _ => true) (Sys.init 2 Nat)
      [.execute 0 1 4 7 0 5, .getState 1 0 9 3, .send 0, .send 1, .recv 1 0 (some (0, none)), .recv 0 1 (some (0, some 6)),
       .work 1 0 none, .send 0, .recv 1 0 (some (0, none)), .send 1, .send 1, .recv 0 1 (some (0, none)),
       .recv 0 1 (some (0, none)), .await 0 4, .await 1 9] = some s ∧
    s.errors = 1 ∧ s.done.map (fun r => (r.id, r.proc, r.code, r.obj)) = [(0, 0, 0x800000, none), (1, 1, 0, some 6)] :=
  ⟨_, rfl, rfl, by decide +kernel⟩

example : ∀ o ∈ ([.execute 0 1 4 7 0 5, .getState 1 0 9 3, .send 0, .send 1, .recv 1 0 (some (0, none)),
    .recv 0 1 (some (0, some 6)), .work 1 0 none] : List (Op 2 Nat)), Regular (fun _ _ => true) o := by
  simp [Regular]

/-! ## C219: settings of a remote node -/

/-- The `setState` calls of a process for a remote node are accepted by the node in the order they were
made, each once, and all of them once the threads are idle; later `execute` and `getState` calls of the
same process see them. -/
theorem C219_main (has : Has n) (ops : List (Op n α)) (s : Sys n α)
    (hg : ∀ o ∈ ops, Settable has o) (hr : run has (Sys.init n α) ops = some s) :
    (∀ p q node, settingsOf p (s.sett q node) <+: settingsMade p q node s.calls) ∧
    (Quiet s → ∀ p q node, settingsOf p (s.sett q node) = settingsMade p q node s.calls) ∧
    (∀ e ∈ s.log, ∀ node, servedNode e.cmd = some node → ∀ c ∈ s.calls, c.src = e.src → c.dst = e.at_ →
      (∃ rec, c.cmd = .setState node rec) → c.id < e.id → ∃ x ∈ e.seen, x.1 = c.id) := by
  have h := ord_run hg hr
  refine ⟨fun p q node => ⟨_, (h.eq p q node).symm⟩, ?_, h.log⟩
  intro hq p q node
  have := h.eq p q node
  unfold pipe at this
  rw [hq.1, hq.2.1] at this
  rw [this]
  exact (List.append_nil _).symm

/-- The claim for the other commands without a reply: clearing the cache, breakpoints, publishing,
dependencies on state. -/
def C219_full : Prop :=
  ∀ (n : Nat) (α : Type) (has : Has n) (ops : List (Op n α)) (s : Sys n α),
    run has (Sys.init n α) ops = some s → Quiet s → ∀ c ∈ s.calls, ∀ tag node arg,
      c.cmd = .control tag node arg → has c.dst node = true → (tag, arg) ∈ s.ctrl c.dst node

/-- It is false: the receiver has no action for them. -/
theorem C219_refuted : ¬ C219_full := by
  intro h
  have h1 := h 2 Unit (fun _ _ => true) [.control 0 1 3 7 (), .send 0, .recv 1 0 (some (0, none))] _ rfl
    ⟨(by intro p; match p with | 0 => rfl | 1 => rfl), (by intro p d; match p, d with
      | 0, 0 => rfl | 0, 1 => rfl | 1, 0 => rfl | 1, 1 => rfl), (by intro p; match p with | 0 => rfl | 1 => rfl)⟩
    ⟨0, 0, 1, .control 3 7 ()⟩ List.mem_cons_self 3 7 () rfl rfl
  cases h1

-- Two settings and an execute that sees them, with the second setting still queued at first.
example : ∃ s, run (fun _ _ => true) (Sys.init 2 Nat)
      [.setState 0 1 7 5, .send 0, .setState 0 1 7 6, .execute 0 1 4 7 0 9, .recv 1 0 (some (0, none)), .send 0, .send 0,
       .recv 1 0 (some (0, none)), .recv 1 0 (some (0, none)), .work 1 0 (some (2, some 8))] = some s ∧
    s.sett 1 7 = [(0, 0, 5), (1, 0, 6)] ∧ s.log.map (fun e => (e.id, e.code, e.seen)) = [(2, 2, [(0, 0, 5), (1, 0, 6)])] ∧
    settingsMade 0 1 7 s.calls = [(0, 5), (1, 6)] :=
  ⟨_, rfl, by decide +kernel, by decide +kernel, by decide +kernel⟩

end Verif.Mpi
