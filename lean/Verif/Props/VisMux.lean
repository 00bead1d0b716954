import Verif.Proof.VisMuxOut
/-! # C108 - C113: visibility streams -/
namespace Verif.VisMux

/-- Nothing throws, sinks return their tile. -/
def quiet : Env := ⟨fun _ _ => false, fun _ i => .tile ⟨0, (i : Int), 0, [true], true, i⟩, fun _ _ => false, fun _ => false, fun _ l => l⟩

/-- All children, an output, no limit. -/
def conf : Conf := ⟨true, true, true, true, none⟩

/-- A tile of baseline (a, b) with sequence number `q`. -/
def til (a b q : Int) (n : Nat) : Tile := ⟨a, b, q, [true, true], true, n⟩

/-- Three stations; nodes 7 (a sink) for baseline (0, 1) and 8 (a spigot) for (1, 2). -/
def three : St := St.init [⟨7, 3, true⟩, ⟨8, 9, false⟩]

/-- Two snippets; the antenna 5 is not known. -/
def two : Dataset := ⟨⟨3, true, 0⟩, [til 0 1 4 1, til 0 5 4 2, til 1 2 4 3, til 0 1 6 4], 0⟩

example : ifrNumber 0 1 = 3 ∧ ifrNumber 1 2 = 9 ∧ maxDid ⟨3, true, 0⟩ = 11 := by decide

/-! ## C108: baselines -/

/-- Two tiles have the same data id only if they are of the same baseline (in the same direction), and the data id of a tile is in the
tables exactly if both antennas were announced: it is never the first one after the end, the one which the check in `deliverTile` lets
through. -/
theorem C108_data_ids {h : Header} {t u : Tile} (ht : 0 ≤ t.a1 ∧ 0 ≤ t.a2) (hu : 0 ≤ u.a1 ∧ 0 ≤ u.a2) :
    (t.did = u.did ↔ t.a1 = u.a1 ∧ t.a2 = u.a2) ∧
    0 ≤ t.did ∧ (t.did < maxDid h ↔ t.a1 < h.count ∧ t.a2 < h.count) ∧ t.did ≠ maxDid h := by
  have h1 := count_pos h
  refine ⟨⟨ifr_inj ht.1 ht.2 hu.1 hu.2, fun e => by unfold Tile.did; rw [e.1, e.2]⟩, ifr_nonneg ht.1 ht.2, ?_⟩
  rw [maxDid_eq]
  by_cases hk : t.a1 < h.count ∧ t.a2 < h.count
  · have := ifr_known ht.1 ht.2 hk.1 hk.2
    have e : t.did = ifrNumber t.a1 t.a2 := rfl
    exact ⟨⟨fun _ => hk, fun _ => this⟩, by omega⟩
  · have := ifr_unknown (n := h.count) ht.1 ht.2 h1 (by omega)
    have e : t.did = ifrNumber t.a1 t.a2 := rfl
    exact ⟨⟨fun h => by omega, fun h => absurd h hk⟩, by omega⟩

example : (til 0 1 4 1).did < maxDid ⟨3, true, 0⟩ ∧ ¬ (til 0 5 4 1).did < maxDid ⟨3, true, 0⟩ := by decide

/-- No stream makes the node read or write outside its tables and arrays. -/
def C108_full : Prop := ∀ (v : Env) (c : Conf) (s : St) (l : List In) (ends : Bool), stream v c s l ends ≠ none

/-- It holds if the antennas of tiles are not negative and every tile has a row with a time; headers, sequence numbers and the order of the
events may be anything. -/
theorem C108_no_ub_partial (v : Env) (c : Conf) (s : St) (l : List In) (ends : Bool) (hl : ∀ e ∈ l, e.safe) :
    ∃ d, stream v c s l ends = some d := by
  obtain ⟨s1, h⟩ := loop_safe v c l (begin s) (fun h => by cases h) hl
  exact ⟨_, by unfold stream; rw [h]; rfl⟩

example : ∀ e ∈ two.events ++ [.tile (til 9 9 4 1), .footer 1], e.safe := by
  intro e he
  simp [two, Dataset.events] at he
  rcases he with rfl | rfl | rfl | rfl | rfl | rfl | rfl | rfl <;> simp [In.safe, til]

/-- A tile whose rows all have time 0 makes it look for one outside the array. -/
theorem C108_no_ub_refuted : ¬ C108_full := by
  intro h
  exact h quiet conf three [.header ⟨3, true, 0⟩, .tile ⟨0, 1, 4, [false, false], true, 1⟩] true (by decide +kernel)

/-- So does a negative antenna. -/
theorem C108_negative_antenna : stream quiet conf three [.header ⟨3, true, 0⟩, .tile ⟨-1, 0, 4, [true], true, 1⟩] true = none := by decide +kernel

/-! ## C109: what the tree sees of a data set -/

/-- A data set is taken apart into snippets: consecutive tiles of the same sequence number, nothing left out but tiles of unknown antennas. -/
theorem C109_snippets (d : Dataset) : d.snippets.flatten = d.tiles.filter (Tile.known d.header) ∧ Parts d.snippets :=
  group_spec _

/-- Whatever the calls do, and whatever streams came before, the calls a data set makes are: the header to all nodes; for each snippet the
start child, its tiles to the nodes of their baselines, the child before, the sinks with a tile, the child after, all with the request of
the snippet; and the footer to all nodes. -/
theorem C109_dataset_partial (v : Env) (c : Conf) (d : Dataset) (hd : d.fine) (s : St) (hb : Between s) :
    ∃ s', loop v c s d.events = some s' ∧ Between s' ∧ s'.next.dataset = s.next.dataset + 1 ∧
      tree s'.trace = tree s.trace ++
        d.calls v c (resize s.handlers (maxDid d.header)) (resize s.kids (maxDid d.header)) (s.next.dataset + 1) := by
  obtain ⟨s', h1, h2, h3, h4⟩ := dataset_run v c d hd s hb
  exact ⟨s', h1, h2.2.2, h3, h4⟩

/-- The sinks of a snippet are run once each, if the poll brings in every child it was started for once: those whose baseline has a tile
in the snippet, and no others. -/
theorem C109_sinks (v : Env) (c : Conf) (hs ks : List (List Nat)) (ds k : Nat) (d : Dataset) (ho : ∀ rq l, (v.order rq l).Perm l) :
    (∀ ts, (taken c 0 d.snippets)[k]? = some ts → (polled ⟨ds, k⟩ (d.calls v c hs ks ds)).Perm (sinksOf ks ts) ∧
      ∀ n, n ∈ polled ⟨ds, k⟩ (d.calls v c hs ks ds) ↔ ∃ i, i < ks.length ∧ n ∈ ks.getD i [] ∧ ∃ t ∈ ts, t.did = (i : Int)) ∧
    ((taken c 0 d.snippets)[k]? = none → polled ⟨ds, k⟩ (d.calls v c hs ks ds) = []) := by
  have hp := polled_calls v c hs ks ds k d
  constructor
  · intro ts h
    rw [h] at hp
    have hp' : polled ⟨ds, k⟩ (d.calls v c hs ks ds) = v.order ⟨ds, k⟩ (sinksOf ks ts) := hp
    rw [hp']
    refine ⟨ho _ _, fun n => ?_⟩
    rw [(ho _ _).mem_iff]
    unfold sinksOf
    rw [List.mem_flatMap]
    constructor
    · rintro ⟨i, hi, hn⟩
      split at hn
      · rename_i ha
        rw [List.any_eq_true] at ha
        obtain ⟨t, ht, he⟩ := ha
        exact ⟨i, List.mem_range.mp hi, hn, t, ht, by simpa using he⟩
      · simp at hn
    · rintro ⟨i, hi, hn, t, ht, he⟩
      refine ⟨i, List.mem_range.mpr hi, ?_⟩
      rw [if_pos (by rw [List.any_eq_true]; exact ⟨t, ht, by simpa using he⟩)]
      exact hn
  · intro h
    rw [h] at hp
    exact hp

/-- The example: the tile of the unknown antenna is left out, the sink 7 is run twice, the spigot 8 is not. -/
example : (loop quiet conf (begin three) two.events).map (fun s => tree s.trace) = some
    [.header 7 ⟨3, true, 0⟩, .header 8 ⟨3, true, 0⟩,
     .start ⟨1, 0⟩, .tile 7 (til 0 1 4 1) ⟨1, 0⟩ (0, 1), .tile 8 (til 1 2 4 3) ⟨1, 0⟩ (0, 1), .pre ⟨1, 0⟩, .poll 7 ⟨1, 0⟩, .post ⟨1, 0⟩,
     .start ⟨1, 1⟩, .tile 7 (til 0 1 6 4) ⟨1, 1⟩ (0, 1), .pre ⟨1, 1⟩, .poll 7 ⟨1, 1⟩, .post ⟨1, 1⟩,
     .footer 7 0, .footer 8 0] := by decide +kernel

example : two.fine ∧ Between (begin three) := by
  refine ⟨⟨rfl, ?_⟩, rfl, rfl⟩
  intro t ht
  simp [two] at ht
  rcases ht with rfl | rfl | rfl | rfl <;> simp [Tile.fine, til]

/-- For every tile whose antennas and sequence number are not negative and that has a row with a time: the request it is given with is
that of its snippet. -/
def C109_requests_full : Prop := ∀ (v : Env) (c : Conf) (d : Dataset) (s s' : St), Between s → d.header.good = true →
  (∀ t ∈ d.tiles, 0 ≤ t.a1 ∧ 0 ≤ t.a2 ∧ 0 ≤ t.seq ∧ true ∈ t.rows) → loop v c s d.events = some s' →
  ∀ t rq r, (t, rq, r) ∈ tilesGiven s'.trace → (t, rq, r) ∉ tilesGiven s.trace → ∃ k, rq = ⟨s.next.dataset + 1, k⟩ ∧ ∃ ts, d.snippets[k]? = some ts ∧ t ∈ ts

/-- Not if no cells can be made of the first tile of a snippet: then its tiles are given with the request of the snippet before. -/
theorem C109_requests_refuted : ¬ C109_requests_full := by
  intro h
  have := h quiet conf ⟨⟨3, true, 0⟩, [til 0 1 4 1, ⟨0, 1, 6, [true], false, 2⟩], 0⟩ (begin three)
    ((loop quiet conf (begin three) (Dataset.events ⟨⟨3, true, 0⟩, [til 0 1 4 1, ⟨0, 1, 6, [true], false, 2⟩], 0⟩)).getD three)
    ⟨rfl, rfl⟩ rfl (by
      intro t ht
      simp at ht
      rcases ht with rfl | rfl <;> simp [til]) (by decide +kernel) ⟨0, 1, 6, [true], false, 2⟩ ⟨1, 0⟩ (0, 0) (by decide +kernel) (by decide +kernel)
  obtain ⟨k, hk, ts, h1, h2⟩ := this
  injection hk with _ hk
  subst hk
  have e : Dataset.snippets ⟨⟨3, true, 0⟩, [til 0 1 4 1, ⟨0, 1, 6, [true], false, 2⟩], 0⟩ = [[til 0 1 4 1], [⟨0, 1, 6, [true], false, 2⟩]] := by decide +kernel
  rw [e] at h1
  injection h1 with h1
  subst h1
  simp [til] at h2

/-- A tile is given together with the range of its own rows that have a time. -/
def C109_rows_full : Prop := ∀ (v : Env) (c : Conf) (d : Dataset) (s s' : St), Between s → d.fine → loop v c s d.events = some s' →
  ∀ t rq r, (t, rq, r) ∈ tilesGiven s'.trace → (t, rq, r) ∉ tilesGiven s.trace → validRows t.rows = some r

/-- Not so: the range is that of the first tile of the snippet, whatever the baseline. -/
theorem C109_rows_refuted : ¬ C109_rows_full := by
  intro h
  have := h quiet conf ⟨⟨3, true, 0⟩, [⟨1, 2, 4, [true, false], true, 1⟩, til 0 1 4 2], 0⟩ (begin three)
    ((loop quiet conf (begin three) (Dataset.events ⟨⟨3, true, 0⟩, [⟨1, 2, 4, [true, false], true, 1⟩, til 0 1 4 2], 0⟩)).getD three)
    ⟨rfl, rfl⟩ ⟨rfl, by
      intro t ht
      simp at ht
      rcases ht with rfl | rfl <;> simp [Tile.fine, til]⟩ (by decide +kernel) (til 0 1 4 2) ⟨1, 0⟩ (0, 0) (by decide +kernel) (by decide +kernel)
  revert this
  decide

/-! ## C110: what a node sees of a stream -/

/-- A node for a baseline sees, of all streams since it was attached, exactly its share of every data set whose header announces the
baseline. -/
def C110_full : Prop := ∀ (v : Env) (c : Conf) (nodes : List Node) (n : Node) (l : List Dataset), (nodes.map (·.id)).Nodup → n ∈ nodes →
  (∀ d ∈ l, d.fine) → ∃ s', loop v c (begin (St.init nodes)) (l.flatMap Dataset.events) = some s' ∧
    s'.trace.filter (Obs.isFor n.id) = nodeSeesKnown c n.id n.did 1 l

/-- It holds if all the headers announce the baseline: each header, the tiles of its baseline and no others, each with the request of its
snippet, and each footer, in order. -/
theorem C110_node_sees_partial (v : Env) (c : Conf) (nodes : List Node) (n : Node) (l : List Dataset) (hn : (nodes.map (·.id)).Nodup)
    (hm : n ∈ nodes) (hf : ∀ d ∈ l, d.fine) (hi : ∀ d ∈ l, n.did < maxDid d.header) :
    ∃ s', loop v c (begin (St.init nodes)) (l.flatMap Dataset.events) = some s' ∧
      s'.trace.filter (Obs.isFor n.id) = nodeSeesAll c n.id n.did 1 l := by
  obtain ⟨s', h1, -, -, h2⟩ := datasets_run v c n.id n.did l (begin (St.init nodes)) ⟨rfl, rfl⟩ hf hi
    (attached_holds _ nodes hn (init_holds nodes hn).1 n hm)
  exact ⟨s', h1, h2⟩

/-- And in any later stream, from the state the one before left. -/
theorem C110_next_stream_partial (v : Env) (c : Conf) (n i : Nat) (l : List Dataset) (s : St) (ha : Attached s.handlers n i)
    (hf : ∀ d ∈ l, d.fine) (hi : ∀ d ∈ l, i < maxDid d.header) :
    ∃ s', loop v c (begin s) (l.flatMap Dataset.events) = some s' ∧ Attached s'.handlers n i ∧
      s'.trace.filter (Obs.isFor n) = nodeSeesAll c n i (s.next.dataset + 1) l := by
  obtain ⟨s', h1, -, h3, h2⟩ := datasets_run v c n i l (begin s) ⟨rfl, rfl⟩ hf hi ha
  exact ⟨s', h1, h3, h2⟩

/-- Every node is attached at its data id, once. -/
theorem C110_attached (nodes : List Node) (n : Node) (hn : (nodes.map (·.id)).Nodup) (hm : n ∈ nodes) : Attached (St.init nodes).handlers n.id n.did :=
  attached_holds _ nodes hn (init_holds nodes hn).1 n hm

example : nodeSeesAll conf 7 3 1 [two, two] =
    [.header 7 ⟨3, true, 0⟩, .tile 7 (til 0 1 4 1) ⟨1, 0⟩ (0, 1), .tile 7 (til 0 1 6 4) ⟨1, 1⟩ (0, 1), .footer 7 0,
     .header 7 ⟨3, true, 0⟩, .tile 7 (til 0 1 4 1) ⟨2, 0⟩ (0, 1), .tile 7 (til 0 1 6 4) ⟨2, 1⟩ (0, 1), .footer 7 0] := by decide +kernel

/-- Not in general: a data set of one station takes the node of baseline (0, 1) out of the table for good. -/
theorem C110_refuted : ¬ C110_full := by
  intro h
  obtain ⟨s', h1, h2⟩ := h quiet conf [⟨7, 3, true⟩] ⟨7, 3, true⟩ [⟨⟨1, true, 0⟩, [], 0⟩, two] (by decide) (by decide) (by
    intro d hd
    simp at hd
    rcases hd with rfl | rfl
    · exact ⟨rfl, by simp⟩
    · refine ⟨rfl, ?_⟩
      intro t ht
      simp [two] at ht
      rcases ht with rfl | rfl | rfl | rfl <;> simp [Tile.fine, til])
  have e : (loop quiet conf (begin (St.init [⟨7, 3, true⟩])) ([⟨⟨1, true, 0⟩, [], 0⟩, two].flatMap Dataset.events)).map
      (fun s => s.trace.filter (Obs.isFor 7)) = some [] := by decide +kernel
  rw [h1] at e
  injection e with e
  have e' : List.filter (Obs.isFor (Node.mk 7 3 true).id) s'.trace = [] := e
  rw [e'] at h2
  revert h2
  decide +kernel

/-! ## C111: the output -/

/-- The output is at all times the beginning of a sequence of data sets, each a header, tiles and a footer; and it is complete when no data
set is coming in. -/
def C111_full (lone : Bool) : Prop := ∀ (v : Env) (c : Conf) (s s' : St) (l : List In), c.hasOut = true →
  (∀ p f, v.outThrows p (.footer f) = false) → (∀ e ∈ l, e.headerGood) → loop v c (begin s) l = some s' →
  outForm lone (outs s'.trace) ≠ .broken ∧ (s'.inData = false → outForm lone (outs s'.trace) = .idle)

/-- It is, if a footer without a header counts as a data set: posting headers and tiles may throw, sinks may fail, events come in any
order. -/
theorem C111_form_partial : C111_full true := by
  intro v c s s' l ho hf hg h
  have := loop_form v c l ho hf hg (begin s) s' h rfl
  unfold FormOk at this
  split at this
  · rename_i hi
    refine ⟨?_, fun h => by rw [h] at hi; cases hi⟩
    rcases this with ⟨-, h⟩ | ⟨-, h⟩ <;> rw [h] <;> intro h <;> cases h
  · exact ⟨(by rw [this]; intro h; cases h), fun _ => this⟩

/-- Without tiles written the footer comes alone. -/
theorem C111_form_refuted : ¬ C111_full false := by
  intro h
  have := (h quiet conf (St.init []) ((loop quiet conf (begin (St.init [])) two.events).getD three) two.events rfl (fun _ _ => rfl) (by
    intro e he
    simp [two, Dataset.events] at he
    rcases he with rfl | rfl | rfl | rfl | rfl | rfl <;> simp [In.headerGood]) (by decide +kernel)).1
  revert this
  decide +kernel

/-- What is written: every tile a sink returns, once, in the order the sinks come in, and before the first one after each header of the input
that header; nothing else but footers. -/
theorem C111_written (v : Env) (c : Conf) (s s' : St) (l : List In) (ho : c.hasOut = true) (hn : ∀ p e, v.outThrows p e = false)
    (hg : ∀ e ∈ l, e.headerGood) (h : loop v c (begin s) l = some s') :
    (outs s'.trace).filter Out.isData = wanted v [] none s'.trace :=
  (keepsW_loop v c ho hn l hg (begin s) s' h ⟨rfl, rfl⟩).1

example : (loop quiet conf (begin three) two.events).map (fun s => outs s.trace) = some
    [.header ⟨3, true, 0⟩, .tile ⟨0, 7, 0, [true], true, 7⟩, .tile ⟨0, 7, 0, [true], true, 7⟩, .footer 0] := by decide +kernel

/-- A header that lacks a field is reported, and then the tiles after it are written without a header. -/
theorem C111_bad_header : (loop quiet conf (begin three) (two.events ++ Dataset.events ⟨⟨3, false, 1⟩, [til 0 1 7 1], 1⟩)).map
    (fun s => (outs s.trace, outForm true (outs s.trace))) = some
    ([.header ⟨3, true, 0⟩, .tile ⟨0, 7, 0, [true], true, 7⟩, .tile ⟨0, 7, 0, [true], true, 7⟩, .footer 0,
      .tile ⟨0, 7, 0, [true], true, 7⟩, .footer 1], .broken) := by decide +kernel

/-! ## C112: errors -/

/-- If the node reports success every call it made went well, whatever the events were. -/
def C112_full : Prop := ∀ (v : Env) (c : Conf) (s : St) (l : List In) (ends : Bool) (d : Done), stream v c s l ends = some d →
  d.failed = false → AllWell v d.st.trace

/-- It holds without a limit on the number of snippets. -/
theorem C112_success_partial (v : Env) (c : Conf) (hm : c.max = none) (s : St) (l : List In) (ends : Bool) (d : Done)
    (h : stream v c s l ends = some d) (hd : d.failed = false) :
    AllWell v d.st.trace ∧ ends = true ∧ d.st.inData = false ∧ d.st.hadData = true ∧ d.closed = c.hasOut := by
  unfold stream at h
  cases hl : loop v c (begin s) l with
  | none => rw [hl] at h; cases h
  | some s1 =>
    rw [hl] at h
    injection h with h
    have hc := loop_clean v c hm l (begin s) s1 hl ⟨rfl, fun _ p o q e => by simp [begin] at e⟩
    unfold finish at h
    split at h
    · subst h; cases hd
    · rename_i h1
      split at h
      · subst h; cases hd
      · rename_i h2
        split at h
        · subst h; cases hd
        · subst h
          simp only [Bool.not_eq_true, Bool.or_eq_false_iff] at h1 h2
          exact ⟨hc.2 h2.1.1, by simpa using h1.2, h2.1.2, by simpa using h2.2, rfl⟩

/-- With a limit, the errors of the last snippet it allows are lost if there is a further one: a sink failed, and the output is closed as
if nothing had happened. -/
theorem C112_refuted : ¬ C112_full := by
  intro h
  have hs : stream ⟨fun _ _ => false, fun _ _ => .fail, fun _ _ => false, fun _ => false, fun _ l => l⟩ ⟨true, true, true, true, some 1⟩ three two.events true =
      some ⟨(loop ⟨fun _ _ => false, fun _ _ => .fail, fun _ _ => false, fun _ => false, fun _ l => l⟩ ⟨true, true, true, true, some 1⟩ (begin three) two.events).getD three, false, true⟩ := by
    decide +kernel
  have := h _ _ _ _ _ _ hs rfl
  have e : ∃ p q, ((loop ⟨fun _ _ => false, fun _ _ => .fail, fun _ _ => false, fun _ => false, fun _ l => l⟩ ⟨true, true, true, true, some 1⟩ (begin three) two.events).getD three).trace =
      p ++ .poll 7 ⟨1, 0⟩ :: q := by
    refine ⟨((loop ⟨fun _ _ => false, fun _ _ => .fail, fun _ _ => false, fun _ => false, fun _ l => l⟩ ⟨true, true, true, true, some 1⟩ (begin three) two.events).getD three).trace.take 11,
      ((loop ⟨fun _ _ => false, fun _ _ => .fail, fun _ _ => false, fun _ => false, fun _ l => l⟩ ⟨true, true, true, true, some 1⟩ (begin three) two.events).getD three).trace.drop 12, ?_⟩
    decide +kernel
  obtain ⟨p, q, e⟩ := e
  have := this p _ q e
  simp [wentWell] at this

/-- The other way round: if events are as they should be, come in order, and all calls go well, the node reports success. -/
theorem C112_failure (v : Env) (c : Conf) (s : St) (l : List In) (d : Done) (hf : ∀ e ∈ l, e.fine) (hs : s.seqnr = -1 ∨ s.req ≠ none)
    (h : stream v c s l true = some d) (hw : AllWell v d.st.trace) (hb : d.st.fatal = false ∧ d.st.inData = false ∧ d.st.hadData = true)
    (hc : v.closeThrows d.st.trace = false) : d.failed = false ∧ d.closed = c.hasOut := by
  unfold stream at h
  cases hl : loop v c (begin s) l with
  | none => rw [hl] at h; cases h
  | some s1 =>
    rw [hl] at h
    injection h with h
    have hst : d.st = s1 := by
      subst h
      unfold finish
      split
      · rfl
      · split
        · rfl
        · split <;> rfl
    rw [hst] at hw hb hc
    have hr : Ready (begin s) := by
      intro h0
      rcases hs with hs | hs
      · have : 0 ≤ s.seqnr := h0
        omega
      · exact hs
    have hff := (loop_well v c l hf (begin s) s1 hl hr rfl hw).2 rfl
    subst h
    unfold finish
    rw [hb.1, hff, hb.2.1, hb.2.2, hc]
    simp

/-- In particular for data sets one after the other. -/
theorem C112_datasets (v : Env) (c : Conf) (s : St) (l : List Dataset) (hn : l ≠ []) (hf : ∀ d ∈ l, d.fine) (hs : s.seqnr = -1 ∨ s.req ≠ none) (d : Done)
    (h : stream v c s (l.flatMap Dataset.events) true = some d) (hw : AllWell v d.st.trace) (hc : v.closeThrows d.st.trace = false) :
    d.failed = false ∧ d.closed = c.hasOut := by
  have key : ∀ (l : List Dataset) (s : St), Between s → (∀ d ∈ l, d.fine) → ∃ s', loop v c s (l.flatMap Dataset.events) = some s' ∧ Between s' ∧
      (s.hadData = true ∨ l ≠ [] → s'.hadData = true) := by
    intro l
    induction l with
    | nil => intro s hb _; exact ⟨s, rfl, hb, fun h => h.resolve_right (by simp)⟩
    | cons d l ih =>
      intro s hb hf
      obtain ⟨s1, h1, h2, -, -⟩ := dataset_run v c d (hf d (by simp)) s hb
      obtain ⟨s2, g1, g2, g3⟩ := ih s1 h2.2.2 (fun x hx => hf x (List.mem_cons_of_mem _ hx))
      refine ⟨s2, ?_, g2, fun _ => g3 (.inl ?_)⟩
      · rw [List.flatMap_cons, loop_append v c _ _ h1 h2.2.2.2]
        exact g1
      · exact loop_had v c _ s s1 h1 (.inr ⟨hb.2, _, _, rfl⟩)
  obtain ⟨s', h1, h2, h3⟩ := key l (begin s) ⟨rfl, rfl⟩ hf
  have hst : d.st = s' := by
    unfold stream at h
    rw [h1] at h
    injection h with h
    subst h
    unfold finish
    split
    · rfl
    · split
      · rfl
      · split <;> rfl
  refine C112_failure v c s _ d ?_ hs h hw (by rw [hst]; exact ⟨h2.2, h2.1, h3 (.inr hn)⟩) hc
  intro e he
  obtain ⟨x, hx, he⟩ := List.mem_flatMap.mp he
  have hx := hf x hx
  unfold Dataset.events at he
  rw [List.mem_append, List.mem_cons, List.mem_map, List.mem_singleton] at he
  rcases he with (rfl | ⟨t, ht, rfl⟩) | rfl
  · exact hx.1
  · exact hx.2 t ht
  · trivial

example : (stream quiet conf three two.events true).map (fun d => (d.failed, d.closed)) = some (false, true) := by decide +kernel

/-! ## C113: the limit -/

/-- With a limit, the snippets are the first ones up to the limit, and the footer still reaches the nodes. -/
def C113_full : Prop := ∀ (v : Env) (c : Conf) (m : Nat) (d : Dataset) (s s' : St), c.max = some m → d.fine → Between s → loop v c s d.events = some s' →
  tree s'.trace = tree s.trace ++ headers (resize s.handlers (maxDid d.header)) d.header ++
    snippets v c (resize s.handlers (maxDid d.header)) (resize s.kids (maxDid d.header)) (s.next.dataset + 1) 0 (d.snippets.take m) ++
    footers (resize s.handlers (maxDid d.header)) d.footer

/-- The tree is run for the first `m` snippets exactly; the footer reaches the nodes only if there are no more. -/
theorem C113_limit_partial (v : Env) (c : Conf) (m : Nat) (d : Dataset) (s s' : St) (hm : c.max = some m) (hd : d.fine) (hb : Between s)
    (h : loop v c s d.events = some s') :
    tree s'.trace = tree s.trace ++ headers (resize s.handlers (maxDid d.header)) d.header ++
      snippets v c (resize s.handlers (maxDid d.header)) (resize s.kids (maxDid d.header)) (s.next.dataset + 1) 0 (d.snippets.take m) ++
      (if d.snippets.length ≤ m then footers (resize s.handlers (maxDid d.header)) d.footer else []) := by
  obtain ⟨s1, h1, -, -, h4⟩ := dataset_run v c d hd s hb
  rw [h] at h1
  injection h1 with h1
  subst h1
  rw [h4]
  unfold Dataset.calls taken over
  rw [hm]
  simp only [Nat.sub_zero, List.append_assoc, List.append_cancel_left_eq]
  by_cases hle : d.snippets.length ≤ m
  · rw [if_pos hle, if_neg (by simpa using hle)]
  · rw [if_neg hle, if_pos (by simpa using hle)]

/-- A data set that is cut short ends for the nodes without a footer. -/
theorem C113_refuted : ¬ C113_full := by
  intro h
  have := h quiet ⟨true, true, true, true, some 1⟩ 1 two (begin three)
    ((loop quiet ⟨true, true, true, true, some 1⟩ (begin three) two.events).getD three) rfl (by
      refine ⟨rfl, ?_⟩
      intro t ht
      simp [two] at ht
      rcases ht with rfl | rfl | rfl | rfl <;> simp [Tile.fine, til]) ⟨rfl, rfl⟩ (by decide +kernel)
  revert this
  decide +kernel

/-- The output gets its footer all the same. -/
example : (loop quiet ⟨true, true, true, true, some 1⟩ (begin three) two.events).map (fun s => outs s.trace) = some
    [.header ⟨3, true, 0⟩, .tile ⟨0, 7, 0, [true], true, 7⟩, .footer 0] := by decide +kernel

end Verif.VisMux
