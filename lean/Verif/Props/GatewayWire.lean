import Verif.Proof.GatewayWire
import Verif.Props.Message
/-! # The connection between two processes (C90-C92) -/
namespace Verif.Gateway

/-- **C90.** Whatever the division into reads and the order in which the reader threads run, and wherever the connection is cut (`lost` never arrives),
the messages processed are the ones sent, unaltered, in order, each at most once. -/
theorem C90_in_order (pads : Nat → Pads) (hp : PadsOk pads) (unpack : List Bytes → Bool × List Bytes) (seq : Nat) (msgs : List (List Bytes))
    (hm : ∀ m ∈ msgs, Fits m ∧ unpack m = (true, [])) (stream lost : Bytes) (hs : stream ++ lost = wire pads seq (plain msgs)) (sched : List (Nat × Nat)) :
    (run unpack (.start stream) sched).out <+: msgs ∧ (run unpack (.start stream) sched).down = false := by
  obtain ⟨p, h, _⟩ := run_inv pads unpack hp (start_inv pads unpack hs (plain_ok unpack hm)) sched
  rw [good_plain unpack fun m hx => (hm m hx).2] at h
  exact ⟨inv_out pads unpack h, h.up⟩

/-- No message that has arrived completely is lost, and no thread waits for ever for a lock: whatever has happened so far, there is a way to
process all of `a`, when the cut came after it. -/
theorem C90_delivered (pads : Nat → Pads) (hp : PadsOk pads) (unpack : List Bytes → Bool × List Bytes) (seq : Nat) (a b : List (List Bytes))
    (hm : ∀ m ∈ a ++ b, Fits m ∧ unpack m = (true, [])) (stream lost : Bytes) (hs : stream ++ lost = wire pads seq (plain (a ++ b)))
    (ha : (wire pads seq (plain a)).length ≤ stream.length) (sched : List (Nat × Nat)) :
    ∃ more, a <+: (run unpack (.start stream) (sched ++ more)).out := by
  have e : plain (a ++ b) = plain a ++ plain b := by simp [plain]
  have := delivered pads unpack hp seq (plain a) (plain b) (by rw [← e]; exact plain_ok unpack hm) stream lost (by rw [hs, e]) ha sched
  rwa [good_plain unpack fun m hx => (hm m (by simp [hx])).2] at this

/-- Once everything has been read and the threads are waiting again, all messages have been processed. -/
theorem C90_complete (pads : Nat → Pads) (hp : PadsOk pads) (unpack : List Bytes → Bool × List Bytes) (seq : Nat) (msgs : List (List Bytes))
    (hm : ∀ m ∈ msgs, Fits m ∧ unpack m = (true, [])) (sched : List (Nat × Nat)) (hq : AllRead (run unpack (.start (wire pads seq (plain msgs))) sched)) :
    (run unpack (.start (wire pads seq (plain msgs))) sched).out = msgs := by
  obtain ⟨p, h, _⟩ := run_inv pads unpack hp (start_inv pads unpack (tail := []) (List.append_nil _) (plain_ok unpack hm)) sched
  rw [good_plain unpack fun m hx => (hm m hx).2] at h
  exact inv_allRead pads unpack hp h hq

/-- `Message::fromBlock` as the reader sees it; what an exception leaves is `left`. -/
def unpackMsg {P : Type} (C : Message.Payload P) (tid : Int) (left : List Bytes → List Bytes) (m : List Bytes) : Bool × List Bytes :=
  match Message.fromBlocks C tid m with
  | .ok (_, r) => (true, r)
  | _ => (false, left m)

/-- With messages instead of blocks: id, addresses, priority, state, hop count, flags, data block and payload arrive as they were sent. -/
theorem C90_messages {P : Type} (C : Message.Payload P) (hC : Message.PayloadOk C) (tid : Int) (htid : IsInt32 tid) (left : List Bytes → List Bytes)
    (pads : Nat → Pads) (hp : PadsOk pads) (seq : Nat) (msgs : List (Message.Msg P))
    (hm : ∀ m ∈ msgs, Message.Fits C m ∧ Fits (Message.toBlocks C tid m)) (stream lost : Bytes)
    (hs : stream ++ lost = wire pads seq (plain (msgs.map (Message.toBlocks C tid)))) (sched : List (Nat × Nat)) :
    (run (unpackMsg C tid left) (.start stream) sched).out.map (Message.fromBlocks C tid) <+: msgs.map fun m => .ok (m, []) := by
  have hrt : ∀ m ∈ msgs, Message.fromBlocks C tid (Message.toBlocks C tid m) = .ok (m, []) := by
    intro m h
    have := Message.C27_round_trip C hC tid htid m (hm m h).1 []
    rwa [List.append_nil] at this
  have h := (C90_in_order pads hp (unpackMsg C tid left) seq (msgs.map (Message.toBlocks C tid)) (by
    intro x hx
    rw [List.mem_map] at hx
    obtain ⟨m, h1, rfl⟩ := hx
    refine ⟨(hm m h1).2, ?_⟩
    unfold unpackMsg
    rw [hrt m h1]) stream lost hs sched).1
  have := List.IsPrefix.map (Message.fromBlocks C tid) h
  rw [List.map_map] at this
  have e : msgs.map (Message.fromBlocks C tid ∘ Message.toBlocks C tid) = msgs.map fun m => .ok (m, []) :=
    List.map_congr_left fun m h => hrt m h
  rwa [e] at this

/-- Padding with something in it. -/
def demoPads : Nat → Pads := fun n => ⟨[1, 2, 3, 4], [5, 6, 7, n.toUInt8], [9, 9, 9, 9]⟩

theorem demoPads_ok : PadsOk demoPads := fun _ => ⟨rfl, rfl, rfl⟩

/-- A message whose bytes look like a signature, and one with an empty block. -/
def demoMsgs : List (List Bytes) := [[[111, 77, 115, 1]], [[7], []]]

example : ∀ m ∈ demoMsgs, Fits m ∧ (fun _ => (true, [])) m = ((true, []) : Bool × List Bytes) := by
  intro m hm
  simp only [demoMsgs, List.mem_cons, List.not_mem_nil, or_false] at hm
  rcases hm with rfl | rfl <;> refine ⟨⟨by simp, by simp, ?_⟩, rfl⟩ <;> intro b hb <;>
    simp only [List.mem_cons, List.not_mem_nil, or_false] at hb
  · subst hb; simp [maxBlock]
  · rcases hb with rfl | rfl <;> simp [maxBlock]

/-- Two threads take turns, with reads of up to ten bytes: both messages are processed. -/
example : (run (fun _ => (true, [])) (.start (wire demoPads 0 (plain demoMsgs))) ((List.range 40).flatMap fun _ => [(0, 10), (1, 7)])).out = demoMsgs := by
  decide +kernel

/-- With one byte missing only the first is. -/
example : (run (fun _ => (true, [])) (.start (wire demoPads 0 (plain demoMsgs)).dropLast) ((List.range 40).flatMap fun _ => [(0, 10), (1, 7)])).out =
    [[[111, 77, 115, 1]]] := by
  decide +kernel

/-- Why the size of a block is limited: the sender does not check it, and after a larger block that starts with `o` (and not as a packet) nothing is
processed, neither this message nor any other. -/
theorem C90_limit (pads : Nat → Pads) (hp : PadsOk pads) (unpack : List Bytes → Bool × List Bytes) (seq : Nat) (b : Bytes) (hb : maxBlock < (b.length : Int))
    (hb2 : b.length < 2 ^ 31) (hh : Hangs (b.take 16)) (msgs : List (List Bytes)) (sched : List (Nat × Nat)) :
    (run unpack (.start (wire pads seq (plain ([b] :: msgs)))) sched).out = [] := by
  have e : ∃ r, wire pads seq (plain ([b] :: msgs)) = header (pads seq) b.length ++ (b.take 16 ++ r) := by
    have h1 : wire pads seq (plain ([b] :: msgs)) = header (pads seq) b.length ++ (b ++ (trailer (pads seq) seq 1 ++ wire pads (seq + 1) (plain msgs))) := by
      simp [plain, wire, transmit]
    rw [h1]
    generalize trailer (pads seq) seq 1 ++ wire pads (seq + 1) (plain msgs) = q
    exact ⟨b.drop 16 ++ q, by rw [← List.append_assoc (b.take 16), List.take_append_drop]⟩
  obtain ⟨r, e⟩ := e
  rw [e]
  exact (stuck_run unpack (closed_big pads hp seq b _ r hb hb2 hh) (stuck_start (Or.inl rfl)) sched).out

/-- A block of that kind. -/
example : maxBlock < ((111 :: List.replicate (2 ^ 29) 0 : Bytes).length : Int) ∧ Hangs ((111 :: List.replicate (2 ^ 29) 0 : Bytes).take 16) := by
  constructor
  · rw [List.length_cons, List.length_replicate]; decide
  · rw [List.take_succ_cons, List.take_replicate, Nat.min_eq_left (by omega)]
    unfold Hangs; decide +kernel

/-- **C91, full statement.** A reader that meets junk finds the next message after it. -/
def C91_full : Prop := ∀ (pads : Nat → Pads) (_ : PadsOk pads) (unpack : List Bytes → Bool × List Bytes) (seq : Nat) (msgs : List (Bytes × List Bytes))
    (_ : ∀ x ∈ msgs, (∀ p q, x.1 ≠ p ++ sig ++ q) ∧ Fits x.2 ∧ unpack x.2 = (true, [])) (sched : List (Nat × Nat)),
    ∃ more, (run unpack (.start (wire pads seq msgs)) (sched ++ more)).out = msgs.map (·.2)

/-- Junk without the letter `o` before any of the messages is skipped.  Missing: other junk, for which it is false. -/
theorem C91_partial (pads : Nat → Pads) (hp : PadsOk pads) (unpack : List Bytes → Bool × List Bytes) (seq : Nat) (msgs : List (Bytes × List Bytes))
    (hm : ∀ x ∈ msgs, Quiet x.1 ∧ Fits x.2 ∧ unpack x.2 = (true, [])) (sched : List (Nat × Nat)) :
    (run unpack (.start (wire pads seq msgs)) sched).out <+: msgs.map (·.2) ∧
    ∃ more, (run unpack (.start (wire pads seq msgs)) (sched ++ more)).out = msgs.map (·.2) := by
  have hok : ∀ x ∈ msgs, Quiet x.1 ∧ Fits x.2 ∧ (unpack x.2).2 = [] := fun x hx => ⟨(hm x hx).1, (hm x hx).2.1, by rw [(hm x hx).2.2]⟩
  have hg : good unpack msgs = msgs.map (·.2) := by
    unfold good
    rw [List.filter_eq_self]
    intro m hm'
    rw [List.mem_map] at hm'
    obtain ⟨x, h1, rfl⟩ := hm'
    simp only [(hm x h1).2.2]
  have hpre : ∀ sc, (run unpack (.start (wire pads seq msgs)) sc).out <+: msgs.map (·.2) := by
    intro sc
    obtain ⟨p, h, _⟩ := run_inv pads unpack hp (start_inv pads unpack (tail := []) (List.append_nil _) hok) sc
    rw [hg] at h
    exact inv_out pads unpack h
  refine ⟨hpre sched, ?_⟩
  obtain ⟨more, h⟩ := delivered pads unpack hp seq msgs [] (by simpa using hok) (wire pads seq msgs) [] (by simp) (Nat.le_refl _) sched
  rw [hg] at h
  exact ⟨more, (hpre _).eq_of_length_le h.length_le⟩

/-- After a header that starts with `o` and is not that of a data packet — a ping, an acknowledgement, a retry or an abort packet included — nothing is
processed, whatever follows and however the threads run. -/
theorem C91_hang (unpack : List Bytes → Bool × List Bytes) (h : Bytes) (hh : Hangs h) (stream : Bytes) (sched : List (Nat × Nat)) :
    (run unpack (.start (h ++ stream)) sched).out = [] :=
  (stuck_run unpack (closed_hangs hh stream) (stuck_start rfl) sched).out

/-- Junk that starts with `o`, and a ping packet. -/
example : Hangs (111 :: List.replicate 15 0) ∧ Hangs ([111, 77, 115, 0] ++ List.replicate 12 0) := by
  unfold Hangs; decide +kernel

theorem C91_refuted : ¬ C91_full := by
  intro h
  obtain ⟨more, hm⟩ := h demoPads demoPads_ok (fun _ => (true, [])) 0 [(111 :: List.replicate 15 0, [[7]])] (by
    intro x hx
    simp only [List.mem_cons, List.not_mem_nil, or_false] at hx
    subst hx
    refine ⟨?_, ⟨by simp, by simp, by intro b hb; simp only [List.mem_cons, List.not_mem_nil, or_false] at hb; subst hb; simp [maxBlock]⟩, rfl⟩
    intro p q e
    have : (77 : UInt8) ∈ 111 :: List.replicate 15 (0 : UInt8) := by
      simp only at e
      rw [e]
      simp [sig]
    simp at this) []
  have := C91_hang (fun _ => (true, [])) (111 :: List.replicate 15 0) (by unfold Hangs; decide +kernel) (transmit demoPads 1 0 [[7]]) more
  simp only [wire, List.length_cons, List.length_nil, List.append_nil, List.nil_append] at hm
  rw [this] at hm
  cases hm

/-- Junk of several kinds before two messages. -/
example : ∀ x ∈ ([([1, 2, 3], [[7]]), (List.replicate 20 77, [[111]])] : List (Bytes × List Bytes)), Quiet x.1 := by
  intro x hx
  simp only [List.mem_cons, List.not_mem_nil, or_false] at hx
  rcases hx with rfl | rfl <;> intro c hc <;> simp at hc
  · rcases hc with rfl | rfl | rfl <;> decide
  · subst hc; decide

/-- **C92, full statement.** A message that cannot be unpacked is dropped, and the others are processed as if it had not been sent. -/
def C92_full : Prop := ∀ (pads : Nat → Pads) (_ : PadsOk pads) (unpack : List Bytes → Bool × List Bytes) (seq : Nat) (msgs : List (List Bytes))
    (_ : ∀ m ∈ msgs, Fits m) (_ : ∀ m, (unpack m).1 = true → (unpack m).2 = []) (sched : List (Nat × Nat))
    (_ : AllRead (run unpack (.start (wire pads seq (plain msgs))) sched)),
    (run unpack (.start (wire pads seq (plain msgs))) sched).out = msgs.filter fun m => (unpack m).1

/-- True when the attempt to unpack a message leaves none of its blocks behind.  Missing: attempts that do, for which it is false. -/
theorem C92_partial (pads : Nat → Pads) (hp : PadsOk pads) (unpack : List Bytes → Bool × List Bytes) (seq : Nat) (msgs : List (List Bytes))
    (hm : ∀ m ∈ msgs, Fits m) (hu : ∀ m ∈ msgs, (unpack m).2 = []) (sched : List (Nat × Nat)) :
    (run unpack (.start (wire pads seq (plain msgs))) sched).out <+: msgs.filter (fun m => (unpack m).1) ∧
    (AllRead (run unpack (.start (wire pads seq (plain msgs))) sched) →
      (run unpack (.start (wire pads seq (plain msgs))) sched).out = msgs.filter fun m => (unpack m).1) := by
  have hok : ∀ x ∈ plain msgs, Quiet x.1 ∧ Fits x.2 ∧ (unpack x.2).2 = [] := by
    intro x hx
    simp only [plain, List.mem_map] at hx
    obtain ⟨m, hm', rfl⟩ := hx
    exact ⟨fun c hc => (by simp at hc), hm m hm', hu m hm'⟩
  have hg : good unpack (plain msgs) = msgs.filter fun m => (unpack m).1 := by
    simp [good, plain, List.map_map, Function.comp_def]
  obtain ⟨p, h, _⟩ := run_inv pads unpack hp (start_inv pads unpack (tail := []) (List.append_nil _) hok) sched
  rw [hg] at h
  exact ⟨inv_out pads unpack h, inv_allRead pads unpack hp h⟩

/-- A message of two blocks with a bad header, of which the second block is left, and a good one. -/
def badUnpack (m : List Bytes) : Bool × List Bytes := if m.length = 1 then (true, []) else (false, m.drop 1)

/-- The good message is dropped with the bad one: its only block is added to the block that was left. -/
theorem C92_refuted : ¬ C92_full := by
  intro h
  have := h demoPads demoPads_ok badUnpack 0 [[[1], [2]], [[3]]] (by
    intro m hm
    simp only [List.mem_cons, List.not_mem_nil, or_false] at hm
    rcases hm with rfl | rfl <;> refine ⟨by simp, by simp, ?_⟩ <;> intro b hb <;>
      simp only [List.mem_cons, List.not_mem_nil, or_false] at hb
    · rcases hb with rfl | rfl <;> simp [maxBlock]
    · subst hb; simp [maxBlock]) (by
    intro m hm
    unfold badUnpack at hm ⊢
    split at hm
    · rename_i e; rw [if_pos e]
    · cases hm) ((List.range 20).map fun _ => (0, 99)) (by
    refine ⟨by decide +kernel, ?_⟩
    intro i
    by_cases hi : i = 0
    · subst hi; decide +kernel
    · refine run_other badUnpack _ _ ?_
      intro x hx
      rw [List.mem_map] at hx
      obtain ⟨_, _, rfl⟩ := hx
      exact hi)
  revert this
  decide +kernel

end Verif.Gateway
