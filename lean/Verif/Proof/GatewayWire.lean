import Verif.Spec.GatewayWire
import Verif.Proof.Bytes
/-! # Lemmas about the connection between two processes -/
namespace Verif.Gateway

variable (pads : Nat → Pads) (unpack : List Bytes → Bool × List Bytes)

theorem header_length (hp : PadsOk pads) (seq n : Nat) : (header (pads seq) n).length = 16 := by
  simp [header, sig, (hp seq).1]

theorem trailer_length (hp : PadsOk pads) (seq n : Nat) : (trailer (pads seq) seq n).length = 24 := by
  simp [trailer, (hp seq).2]

/-- How far the reading of a message has come: `bs` has been read, `rem` is what is in the buffer and to come. -/
def Pos (bs : List Bytes) (rem : Bytes) (later : List (Bytes × List Bytes)) (m : List Bytes) (seq : Nat) : St → Prop
  | .header => ∃ j bl, Quiet j ∧ bl ≠ [] ∧ bs ++ bl = m ∧ rem = j ++ (transmit pads m.length seq bl ++ wire pads (seq + bl.length) later)
  | .block n => ∃ b bl, n = b.length ∧ bs ++ b :: bl = m ∧
      rem = b ++ (trailer (pads seq) seq (if bl = [] then m.length else 0) ++ (transmit pads m.length (seq + 1) bl ++ wire pads (seq + 1 + bl.length) later))
  | .trailer => ∃ bl, bs ++ bl = m ∧ bs ≠ [] ∧
      rem = trailer (pads seq) seq (if bl = [] then m.length else 0) ++ (transmit pads m.length (seq + 1) bl ++ wire pads (seq + 1 + bl.length) later)

/-- The message that is being processed. -/
def busyMsg (s : Rd) : List (List Bytes) :=
  match s.gw with
  | none => []
  | some i => match s.ph i with | .busy m => [m] | _ => []

/-- Messages of a list that can be unpacked. -/
def good (pend : List (Bytes × List Bytes)) : List (List Bytes) := (pend.map (·.2)).filter fun m => (unpack m).1

/-- What the thread with `reader_mutex` is doing. -/
def Reading (tail : Bytes) (all : List (List Bytes)) (s : Rd) (i : Nat) (pend : List (Bytes × List Bytes)) : Prop :=
  (s.ph i = .reading ∧ s.buf.length ≤ s.st.need ∧ s.out ++ (busyMsg s ++ good unpack pend) = all ∧
    ((pend = [] ∧ s.st = .header ∧ s.bset i = [] ∧ s.buf ++ (s.rest ++ tail) = []) ∨
      ∃ j m later seq, pend = (j, m) :: later ∧ Pos pads (s.bset i) (s.buf ++ (s.rest ++ tail)) later m seq s.st)) ∨
  ∃ m, s.ph i = .ready m ∧ s.bset i = [] ∧ (∃ seq, s.rest ++ tail = wire pads seq pend) ∧
    s.out ++ (busyMsg s ++ m :: good unpack pend) = all

/-- Invariant: `tail` is what was lost, `all` the messages to be processed, `pend` those not completely read. -/
structure Inv (tail : Bytes) (all : List (List Bytes)) (s : Rd) (pend : List (Bytes × List Bytes)) : Prop where
  up : s.down = false
  fits : ∀ x ∈ pend, Quiet x.1 ∧ Fits x.2 ∧ (unpack x.2).2 = []
  others : ∀ i, s.reader ≠ some i → s.bset i = [] ∧ (s.ph i = .wait ∨ ∃ m, s.ph i = .busy m)
  busy : ∀ i m, s.ph i = .busy m → s.gw = some i
  gw : ∀ i, s.gw = some i → ∃ m, s.ph i = .busy m
  free : s.reader = none → (∃ seq, s.rest ++ tail = wire pads seq pend) ∧ s.out ++ (busyMsg s ++ good unpack pend) = all
  reading : ∀ i, s.reader = some i → Reading pads unpack tail all s i pend

theorem toInt_small (n : Nat) (h : (n : Int) ≤ maxBlock) : toInt n = n := by
  unfold maxBlock at h
  unfold toInt
  rw [if_pos (by omega), Nat.mod_eq_of_lt (by omega)]

theorem findIdx_none {j : Bytes} (h : Quiet j) : j.findIdx? (fun c => c == 111) = none := by
  rw [List.findIdx?_eq_none_iff]
  intro c hc
  simpa using h c hc

theorem findIdx_junk {j : Bytes} (h : Quiet j) (r : Bytes) : (j ++ 111 :: r).findIdx? (fun c => c == 111) = some j.length := by
  induction j with
  | nil => simp [List.findIdx?_cons]
  | cons c j ih =>
    have := ih fun c hc => h c (by simp [hc])
    have hc := h c (by simp)
    simp [List.findIdx?_cons, hc, this]

theorem take_prefix {α : Type*} {buf rest a b : List α} (n : Nat) (h : buf ++ rest = a ++ b) (hn : buf.length = n) (ha : n ≤ a.length) :
    buf = a.take n := by
  have := congrArg (List.take n) h
  rw [List.take_left' hn, List.take_append_of_le_length ha] at this
  exact this

theorem pos_header (hp : PadsOk pads) {tail : Bytes} {s : Rd} {i : Nat} {later : List (Bytes × List Bytes)} {m : List Bytes} {seq : Nat} (hm : Fits m)
    (hst : s.st = .header) (hb : s.buf.length = 16) (h : Pos pads (s.bset i) (s.buf ++ (s.rest ++ tail)) later m seq s.st) :
    ∃ st buf, onHeader s = { s with st := st, buf := buf } ∧ buf.length ≤ st.need ∧ (buf.length < 16 ∧ (st = .header ∨ ∃ n, st = .block n ∧ buf = [])) ∧
      Pos pads (s.bset i) (buf ++ (s.rest ++ tail)) later m seq st := by
  rw [hst] at h
  obtain ⟨j, bl, hj, hbl, hm', hr⟩ := h
  obtain ⟨b, bl, rfl⟩ := List.exists_cons_of_ne_nil hbl
  have hhd : header (pads seq) b.length = 111 :: ([77, 115, 1] ++ (pads seq).h ++ encSize b.length) := by simp [header, sig]
  by_cases hj0 : j = []
  · subst hj0
    simp only [List.nil_append, transmit, List.append_assoc] at hr
    have hbuf : s.buf = header (pads seq) b.length := by
      have := take_prefix 16 hr hb (Nat.le_of_eq (header_length pads hp seq b.length).symm)
      rw [this, List.take_of_length_le (Nat.le_of_eq (header_length pads hp seq b.length))]
    have hrest := hr
    rw [hbuf] at hrest
    have hrest := List.append_cancel_left hrest
    have hsmall := toInt_small b.length (hm.2.2 b (by rw [← hm']; simp))
    have h8 : leDec ((s.buf.drop 8).take 8) = b.length := by
      have e : s.buf.drop 8 = encSize b.length := by
        rw [hbuf]
        have : header (pads seq) b.length = (sig ++ [1] ++ (pads seq).h) ++ encSize b.length := rfl
        rw [this, List.drop_left' (by simp [sig, (hp seq).1])]
      rw [e, List.take_of_length_le (by simp), leDec_encSize]
      have := hm.2.2 b (by rw [← hm']; simp)
      unfold maxBlock at this
      omega
    refine ⟨.block b.length, [], ?_, by simp [St.need], ⟨by simp, Or.inr ⟨_, rfl, rfl⟩⟩, b, bl, rfl, hm', ?_⟩
    · unfold onHeader
      rw [if_neg (by rw [hbuf]; simp [header, sig]), if_pos (by rw [hbuf]; simp [header, sig]), h8]
      unfold readyForData
      rw [hsmall, if_neg (by have := hm.2.2 b (by rw [← hm']; simp); omega), if_neg (by omega)]
      simp
    · rw [List.nil_append, hrest]
      simp [Nat.add_assoc, Nat.add_comm 1]
  · obtain ⟨c, j', rfl⟩ := List.exists_cons_of_ne_nil hj0
    have hc : c ≠ 111 := hj c (by simp)
    have hsig : s.buf.take 3 ≠ sig := by
      cases hs : s.buf with
      | nil => simp [sig]
      | cons x l =>
        have : x = c := by
          rw [hs] at hr
          simp only [List.cons_append, List.cons.injEq] at hr
          exact hr.1
        intro e
        simp only [sig, List.take_succ_cons, List.cons.injEq] at e
        exact hc (this ▸ e.1)
    by_cases hlong : 16 ≤ (c :: j').length
    · have hbuf := take_prefix 16 hr hb hlong
      have hq : Quiet s.buf := fun x hx => hj x (List.mem_of_mem_take (by rw [← hbuf]; exact hx))
      refine ⟨.header, [], ?_, by simp, ⟨by simp, Or.inl rfl⟩, (c :: j').drop 16, b :: bl, fun x hx => hj x (List.mem_of_mem_drop hx), hbl, hm', ?_⟩
      · unfold onHeader
        rw [if_pos (Or.inl hsig), findIdx_none hq, ← hst]
      · have e := congrArg (List.drop 16) hr
        rw [List.drop_left' hb, List.drop_append_of_le_length hlong] at e
        rw [List.nil_append, e]
    · have hlt : (c :: j').length < 16 := by omega
      have hle : s.buf = ((c :: j') ++ header (pads seq) b.length).take 16 := by
        refine take_prefix 16 (rest := s.rest ++ tail) (b := b ++ (trailer (pads seq) seq (if bl = [] then m.length else 0) ++ (transmit pads m.length (seq + 1) bl ++
          wire pads (seq + (b :: bl).length) later))) ?_ hb (by rw [List.length_append, header_length pads hp]; omega)
        rw [hr]
        simp [transmit, List.append_assoc]
      have hsplit : ∃ r, s.buf = (c :: j') ++ 111 :: r := by
        rw [hle, List.take_append, List.take_of_length_le (by omega), hhd]
        obtain ⟨q, hq⟩ : ∃ q, 16 - (c :: j').length = q + 1 := ⟨15 - (c :: j').length, by omega⟩
        rw [hq, List.take_succ_cons]
        exact ⟨_, rfl⟩
      obtain ⟨r, hrr⟩ := hsplit
      refine ⟨.header, 111 :: r, ?_, ?_, ⟨?_, Or.inl rfl⟩, [], b :: bl, fun x hx => by simp at hx, hbl, hm', ?_⟩
      · unfold onHeader
        rw [if_pos (Or.inl hsig), hrr, findIdx_junk hj]
        simp only [List.drop_left, ← hst]
      · rw [hrr, List.length_append] at hb
        simp only [St.need]
        omega
      · rw [hrr, List.length_append] at hb
        simp only [List.length_cons] at hb ⊢
        omega
      · rw [hrr, List.append_assoc] at hr
        have := List.append_cancel_left hr
        rw [this, List.nil_append]

theorem pos_block {s : Rd} {i n : Nat} {rest : Bytes} {later : List (Bytes × List Bytes)} {m : List Bytes} {seq : Nat}
    (hst : s.st = .block n) (hb : s.buf.length = n) (h : Pos pads (s.bset i) (s.buf ++ rest) later m seq s.st) :
    Pos pads (s.bset i ++ [s.buf]) rest later m seq .trailer := by
  rw [hst] at h
  obtain ⟨b, bl, hn, hm', hr⟩ := h
  obtain ⟨hbb, hr⟩ := List.append_inj hr (by omega)
  exact ⟨bl, by rw [hbb]; simpa using hm', by simp, hr⟩

theorem pos_trailer (hp : PadsOk pads) {s : Rd} {i : Nat} {rest : Bytes} {later : List (Bytes × List Bytes)} {m : List Bytes} {seq : Nat} (hm : Fits m)
    (hst : s.st = .trailer) (hb : s.buf.length = 24) (h : Pos pads (s.bset i) (s.buf ++ rest) later m seq s.st) :
    (decInt32 ((s.buf.drop 16).take 4) = 0 ∧ Pos pads (s.bset i) rest later m (seq + 1) .header) ∨
    (decInt32 ((s.buf.drop 16).take 4) = (m.length : Int) ∧ s.bset i = m ∧ ∃ seq', rest = wire pads seq' later) := by
  rw [hst] at h
  obtain ⟨bl, hm', hbs, hr⟩ := h
  obtain ⟨hbuf, hr⟩ := List.append_inj hr (by rw [hb, trailer_length pads hp])
  have hd : ∀ n : Nat, n < 2 ^ 31 → decInt32 (((trailer (pads seq) seq n).drop 16).take 4) = n := by
    intro n hn
    have : trailer (pads seq) seq n = (encInt32 seq ++ (pads seq).t1 ++ encSize 0) ++ (encInt32 n ++ (pads seq).t2) := by simp [trailer]
    rw [this, List.drop_left' (by simp [(hp seq).2]), List.take_left' (by simp), decInt32_encInt32 _ (by unfold IsInt32; omega)]
  by_cases hbl : bl = []
  · subst hbl
    refine Or.inr ⟨?_, by simpa using hm', ?_⟩
    · rw [hbuf, if_pos rfl, hd _ hm.2.1]
    · exact ⟨_, by simpa [transmit] using hr⟩
  · refine Or.inl ⟨?_, ?_⟩
    · rw [hbuf, if_neg hbl, hd 0 (by omega)]; rfl
    · exact ⟨[], bl, fun x hx => by simp at hx, hbl, hm', by simpa using hr⟩

theorem wire_cons (seq : Nat) (j : Bytes) (m : List Bytes) (later : List (Bytes × List Bytes)) (hj : Quiet j) (hm : m ≠ []) (rem : Bytes)
    (h : rem = wire pads seq ((j, m) :: later)) : Pos pads [] rem later m seq .header :=
  ⟨j, m, hj, hm, rfl, h⟩

theorem good_cons (j : Bytes) (m : List Bytes) (later : List (Bytes × List Bytes)) :
    good unpack ((j, m) :: later) = (if (unpack m).1 then m :: good unpack later else good unpack later) := by
  simp [good, List.filter_cons]

theorem busyMsg_congr {s t : Rd} (hg : t.gw = s.gw) (hp : ∀ i, s.gw = some i → t.ph i = s.ph i) : busyMsg t = busyMsg s := by
  unfold busyMsg
  rw [hg]
  cases h : s.gw with
  | none => rfl
  | some i => simp only [hp i h]

theorem all_congr {s t : Rd} {g all : List (List Bytes)} (h : s.out ++ (busyMsg s ++ g) = all) (ho : t.out = s.out) (hg : t.gw = s.gw)
    (hp : ∀ i, s.gw = some i → t.ph i = s.ph i) : t.out ++ (busyMsg t ++ g) = all := by
  rw [busyMsg_congr hg hp, ho]; exact h

theorem upd_ne {α : Type*} (f : Nat → α) {i k : Nat} (v : α) (h : k ≠ i) : Function.update f i v k = f k := Function.update_of_ne h v f

theorem upd_eq {α : Type*} (f : Nat → α) (i : Nat) (v : α) : Function.update f i v i = v := Function.update_self i v f

/-- The reading thread changes the shared state only. -/
theorem inv_of_reading {tail : Bytes} {all : List (List Bytes)} {s : Rd} {pend : List (Bytes × List Bytes)} {i : Nat} (h : Inv pads unpack tail all s pend)
    (hr : s.reader = some i) (hph : s.ph i = .reading) (st : St) (buf rest : Bytes) (bs : List Bytes) (hn : buf.length ≤ st.need)
    (hpos : (pend = [] ∧ st = .header ∧ bs = [] ∧ buf ++ (rest ++ tail) = []) ∨
      ∃ j m later seq, pend = (j, m) :: later ∧ Pos pads bs (buf ++ (rest ++ tail)) later m seq st) :
    Inv pads unpack tail all { s with st := st, buf := buf, rest := rest, bset := Function.update s.bset i bs } pend := by
  refine ⟨h.up, h.fits, ?_, h.busy, h.gw, ?_, ?_⟩
  · intro k hk
    have hk' : k ≠ i := fun e => hk (by rw [e]; exact hr)
    simp only [upd_ne _ _ hk']
    exact h.others k hk
  · intro hk
    simp only [hr] at hk
    cases hk
  · intro k hk
    have hk' : k = i := by
      simp only [hr, Option.some.injEq] at hk
      exact hk.symm
    subst hk'
    refine Or.inl ⟨hph, hn, ?_, ?_⟩
    · rcases h.reading k hr with ⟨_, _, ha, _⟩ | ⟨m, hm, _⟩
      · exact ha
      · rw [hph] at hm; cases hm
    · simpa only [upd_eq] using hpos

theorem step_inv (hp : PadsOk pads) {tail : Bytes} {all : List (List Bytes)} {s : Rd} {pend : List (Bytes × List Bytes)} (h : Inv pads unpack tail all s pend)
    (i k : Nat) : ∃ pend', Inv pads unpack tail all (step unpack s i k) pend' ∧
      ((pend' = pend ∧ (s.ph i = .reading → (step unpack s i k).ph i = .reading)) ∨
        ((∃ x, pend = x :: pend') ∧ s.ph i = .reading ∧ (step unpack s i k).ph i ≠ .reading)) := by
  unfold step
  rw [if_neg (by rw [h.up]; simp)]
  cases hph : s.ph i with
  | wait =>
    dsimp only
    by_cases hr : s.reader = none
    · rw [if_pos hr]
      refine ⟨pend, ⟨h.up, h.fits, ?_, ?_, ?_, ?_, ?_⟩, Or.inl ⟨rfl, fun e => by simp at e⟩⟩
      · intro q hq
        have hq' : q ≠ i := fun e => hq (by rw [e])
        simp only [upd_ne _ _ hq']
        exact h.others q (by rw [hr]; simp)
      · intro q m hq
        by_cases hq' : q = i
        · subst hq'; simp only [upd_eq] at hq; cases hq
        · simp only [upd_ne _ _ hq'] at hq; exact h.busy q m hq
      · intro q hq
        have hq' : q ≠ i := by
          intro e
          obtain ⟨m, hm⟩ := h.gw q hq
          rw [e, hph] at hm
          cases hm
        simp only [upd_ne _ _ hq']
        exact h.gw q hq
      · intro hq; cases hq
      · intro q hq
        have hq' : q = i := by
          simp only [Option.some.injEq] at hq
          exact hq.symm
        subst hq'
        obtain ⟨⟨seq, hw⟩, hall⟩ := h.free hr
        have hb := (h.others q (by rw [hr]; simp)).1
        refine Or.inl ⟨by simp only [upd_eq], by simp, ?_, ?_⟩
        · refine all_congr hall rfl rfl ?_
          intro r hr'
          have : r ≠ q := by
            intro e
            obtain ⟨m, hm⟩ := h.gw r hr'
            rw [e, hph] at hm
            cases hm
          simp only [upd_ne _ _ this]
        · simp only [hb, List.nil_append, hw]
          cases pend with
          | nil => exact Or.inl ⟨rfl, trivial, trivial, rfl⟩
          | cons x later =>
            obtain ⟨j, m⟩ := x
            obtain ⟨h1, h2, _⟩ := h.fits (j, m) (by simp)
            exact Or.inr ⟨j, m, later, seq, rfl, wire_cons pads seq j m later h1 h2.1 _ rfl⟩
    · rw [if_neg hr]
      exact ⟨pend, h, Or.inl ⟨rfl, fun e => by simp at e⟩⟩
  | reading =>
    dsimp only
    have hr : s.reader = some i := by
      by_contra hne
      rcases (h.others i hne).2 with h1 | ⟨m, h1⟩ <;> (rw [hph] at h1; cases h1)
    obtain ⟨-, hn, hall, hpos⟩ : s.ph i = .reading ∧ s.buf.length ≤ s.st.need ∧ s.out ++ (busyMsg s ++ good unpack pend) = all ∧
        ((pend = [] ∧ s.st = .header ∧ s.bset i = [] ∧ s.buf ++ (s.rest ++ tail) = []) ∨
          ∃ j m later seq, pend = (j, m) :: later ∧ Pos pads (s.bset i) (s.buf ++ (s.rest ++ tail)) later m seq s.st) := by
      rcases h.reading i hr with h1 | ⟨m, hm, _⟩
      · exact h1
      · rw [hph] at hm; cases hm
    by_cases hfull : s.buf.length < s.st.need
    · rw [if_pos hfull]
      by_cases hg : s.gw = none
      · rw [if_pos hg]
        refine ⟨pend, ?_, Or.inl ⟨rfl, fun _ => hph⟩⟩
        have hcat : ∀ n, (s.buf ++ s.rest.take n) ++ (s.rest.drop n ++ tail) = s.buf ++ (s.rest ++ tail) := by
          intro n
          rw [List.append_assoc, ← List.append_assoc (s.rest.take n), List.take_append_drop]
        have := inv_of_reading pads unpack h hr hph s.st (s.buf ++ s.rest.take (min k (s.st.need - s.buf.length)))
          (s.rest.drop (min k (s.st.need - s.buf.length))) (s.bset i) (by
            rw [List.length_append]
            have := List.length_take_le (min k (s.st.need - s.buf.length)) s.rest
            omega) (by rw [hcat]; exact hpos)
        rw [Function.update_eq_self] at this
        exact this
      · rw [if_neg hg]
        exact ⟨pend, h, Or.inl ⟨rfl, fun _ => hph⟩⟩
    · rw [if_neg hfull]
      have hfull : s.buf.length = s.st.need := by omega
      rcases hpos with ⟨rfl, hst, hb, hnil⟩ | ⟨j, m, later, seq, rfl, hpos⟩
      · rw [hst] at hfull
        rw [List.append_eq_nil_iff] at hnil
        rw [hnil.1] at hfull
        simp [St.need] at hfull
      obtain ⟨hj, hm, hu⟩ := h.fits (j, m) (by simp)
      simp only at hj hm hu
      unfold dispose
      cases hst : s.st with
      | header =>
        dsimp only
        obtain ⟨st, buf, he, hle, _, hpos'⟩ := pos_header pads hp (i := i) hm hst (by rw [hfull, hst]; rfl) hpos
        rw [he]
        refine ⟨_, ?_, Or.inl ⟨rfl, fun _ => hph⟩⟩
        have := inv_of_reading pads unpack h hr hph st buf s.rest (s.bset i) hle (Or.inr ⟨j, m, later, seq, rfl, hpos'⟩)
        rw [Function.update_eq_self] at this
        exact this
      | block n =>
        dsimp only
        refine ⟨_, ?_, Or.inl ⟨rfl, fun _ => hph⟩⟩
        have hpos' := pos_block pads (i := i) hst (by rw [hfull, hst]; rfl) hpos
        exact inv_of_reading pads unpack h hr hph .trailer [] s.rest (s.bset i ++ [s.buf]) (by simp) (Or.inr ⟨j, m, later, seq, rfl, hpos'⟩)
      | trailer =>
        dsimp only
        unfold onTrailer
        rcases pos_trailer pads hp (i := i) hm hst (by rw [hfull, hst]; rfl) hpos with ⟨hz, hpos'⟩ | ⟨hz, hbs, seq', hw⟩
        · simp only [hz]
          rw [if_pos trivial]
          refine ⟨_, ?_, Or.inl ⟨rfl, fun _ => hph⟩⟩
          have := inv_of_reading pads unpack h hr hph .header [] s.rest (s.bset i) (by simp) (Or.inr ⟨j, m, later, seq + 1, rfl, hpos'⟩)
          rw [Function.update_eq_self] at this
          exact this
        · have hlen : (m.length : Int) ≠ 0 := by
            have := List.length_pos_iff.2 hm.1
            omega
          simp only [hz, hbs, hu]
          rw [if_neg hlen, if_neg (fun e => e rfl)]
          have hgw : ∀ q, s.gw = some q → q ≠ i := by
            intro q hq e
            obtain ⟨m', hm'⟩ := h.gw q hq
            rw [e, hph] at hm'
            cases hm'
          rw [good_cons] at hall
          by_cases hok : (unpack m).1 = true
          · rw [if_pos hok]
            refine ⟨later, ?_, Or.inr ⟨⟨_, rfl⟩, trivial, by simp only [upd_eq]; simp⟩⟩
            rw [if_pos hok] at hall
            refine ⟨h.up, fun x hx => h.fits x (by simp [hx]), ?_, ?_, ?_, ?_, ?_⟩
            · intro q hq
              have hq' : q ≠ i := fun e => hq (by rw [e]; exact hr)
              simp only [upd_ne _ _ hq']
              exact h.others q hq
            · intro q m' hq
              by_cases hq' : q = i
              · subst hq'; simp only [upd_eq] at hq; cases hq
              · simp only [upd_ne _ _ hq'] at hq; exact h.busy q m' hq
            · intro q hq
              simp only [upd_ne _ _ (hgw q hq)]
              exact h.gw q hq
            · intro hq; simp only [hr] at hq; cases hq
            · intro q hq
              have hq' : q = i := by
                simp only [hr, Option.some.injEq] at hq
                exact hq.symm
              subst hq'
              refine Or.inr ⟨m, by simp only [upd_eq], by simp only [upd_eq], ⟨seq', hw⟩, ?_⟩
              refine all_congr hall rfl rfl ?_
              intro r hr'
              simp only [upd_ne _ _ (hgw r hr')]
          · rw [if_neg hok]
            refine ⟨later, ?_, Or.inr ⟨⟨_, rfl⟩, trivial, by simp only [upd_eq]; simp⟩⟩
            rw [if_neg hok] at hall
            refine ⟨h.up, fun x hx => h.fits x (by simp [hx]), ?_, ?_, ?_, ?_, ?_⟩
            · intro q _
              by_cases hq' : q = i
              · subst hq'; simp only [upd_eq]; exact ⟨trivial, Or.inl trivial⟩
              · simp only [upd_ne _ _ hq']
                exact h.others q (by rw [hr]; simpa using fun e : i = q => hq' e.symm)
            · intro q m' hq
              by_cases hq' : q = i
              · subst hq'; simp only [upd_eq] at hq; cases hq
              · simp only [upd_ne _ _ hq'] at hq; exact h.busy q m' hq
            · intro q hq
              simp only [upd_ne _ _ (hgw q hq)]
              exact h.gw q hq
            · intro _
              refine ⟨⟨seq', hw⟩, ?_⟩
              refine all_congr hall rfl rfl ?_
              intro r hr'
              simp only [upd_ne _ _ (hgw r hr')]
            · intro q hq; cases hq
  | ready m =>
    dsimp only
    have hr : s.reader = some i := by
      by_contra hne
      rcases (h.others i hne).2 with h1 | ⟨m, h1⟩ <;> (rw [hph] at h1; cases h1)
    obtain ⟨hb, hw, hall⟩ : s.bset i = [] ∧ (∃ seq, s.rest ++ tail = wire pads seq pend) ∧ s.out ++ (busyMsg s ++ m :: good unpack pend) = all := by
      rcases h.reading i hr with ⟨h1, _⟩ | ⟨m', hm', h1⟩
      · rw [hph] at h1; cases h1
      · rw [hph] at hm'
        injection hm' with e
        rw [e]
        exact h1
    by_cases hg : s.gw = none
    · rw [if_pos hg]
      refine ⟨pend, ⟨h.up, h.fits, ?_, ?_, ?_, ?_, ?_⟩, Or.inl ⟨rfl, fun e => by simp at e⟩⟩
      · intro q _
        by_cases hq' : q = i
        · subst hq'; simp only [upd_eq]; exact ⟨hb, Or.inr ⟨m, rfl⟩⟩
        · simp only [upd_ne _ _ hq']
          exact h.others q (by rw [hr]; simpa using fun e : i = q => hq' e.symm)
      · intro q m' hq
        by_cases hq' : q = i
        · subst hq'; rfl
        · simp only [upd_ne _ _ hq'] at hq
          have := h.busy q m' hq
          rw [hg] at this
          cases this
      · intro q hq
        simp only [Option.some.injEq] at hq
        subst hq
        exact ⟨m, by simp only [upd_eq]⟩
      · intro _
        refine ⟨hw, ?_⟩
        have e1 : busyMsg s = [] := by unfold busyMsg; rw [hg]
        rw [e1] at hall
        rw [← hall]
        simp only [busyMsg, upd_eq, List.cons_append, List.nil_append]
      · intro q hq; cases hq
    · rw [if_neg hg]
      exact ⟨pend, h, Or.inl ⟨rfl, fun e => by simp at e⟩⟩
  | busy m =>
    dsimp only
    have hg := h.busy i m hph
    have hri : s.reader ≠ some i := by
      intro hr
      rcases h.reading i hr with ⟨h1, _⟩ | ⟨m', h1, _⟩ <;> (rw [hph] at h1; cases h1)
    have e1 : busyMsg s = [m] := by unfold busyMsg; rw [hg]; simp only [hph]
    refine ⟨pend, ⟨h.up, h.fits, ?_, ?_, ?_, ?_, ?_⟩, Or.inl ⟨rfl, fun e => by simp at e⟩⟩
    · intro q hq
      by_cases hq' : q = i
      · subst hq'; simp only [upd_eq]; exact ⟨(h.others q hq).1, Or.inl trivial⟩
      · simp only [upd_ne _ _ hq']
        exact h.others q hq
    · intro q m' hq
      by_cases hq' : q = i
      · subst hq'; simp only [upd_eq] at hq; cases hq
      · simp only [upd_ne _ _ hq'] at hq
        have := h.busy q m' hq
        rw [hg] at this
        exact absurd (Option.some.inj this).symm hq'
    · intro q hq; cases hq
    · intro hq
      obtain ⟨hw, hall⟩ := h.free hq
      refine ⟨hw, ?_⟩
      rw [e1] at hall
      rw [← hall]
      simp [busyMsg]
    · intro q hq
      have hq' : q ≠ i := fun e => hri (by rw [← e]; exact hq)
      rcases h.reading q hq with ⟨h1, h2, h3, h4⟩ | ⟨m', h1, h2, h3, h4⟩
      · refine Or.inl ⟨by simp only [upd_ne _ _ hq', h1], h2, ?_, h4⟩
        rw [← h3, e1]
        simp [busyMsg]
      · refine Or.inr ⟨m', by simp only [upd_ne _ _ hq', h1], h2, h3, ?_⟩
        rw [← h4, e1]
        simp [busyMsg]

theorem run_inv (hp : PadsOk pads) {tail : Bytes} {all : List (List Bytes)} {s : Rd} {pend : List (Bytes × List Bytes)} (h : Inv pads unpack tail all s pend)
    (sched : List (Nat × Nat)) : ∃ pend', Inv pads unpack tail all (run unpack s sched) pend' ∧ ∃ d, pend = d ++ pend' := by
  induction sched generalizing s pend with
  | nil => exact ⟨pend, h, [], rfl⟩
  | cons x l ih =>
    obtain ⟨p1, h1, hp1⟩ := step_inv pads unpack hp h x.1 x.2
    obtain ⟨p2, h2, d, hd⟩ := ih h1
    refine ⟨p2, h2, ?_⟩
    rcases hp1 with ⟨rfl, _⟩ | ⟨⟨y, rfl⟩, _⟩
    · exact ⟨d, hd⟩
    · exact ⟨y :: d, by rw [hd]; rfl⟩

theorem start_inv {stream tail : Bytes} {seq : Nat} {msgs : List (Bytes × List Bytes)} (hs : stream ++ tail = wire pads seq msgs)
    (hok : ∀ x ∈ msgs, Quiet x.1 ∧ Fits x.2 ∧ (unpack x.2).2 = []) : Inv pads unpack tail (good unpack msgs) (Rd.start stream) msgs := by
  refine ⟨rfl, hok, fun _ _ => ⟨rfl, Or.inl rfl⟩, ?_, ?_, fun _ => ⟨⟨seq, hs⟩, rfl⟩, ?_⟩
  · intro i m hm; cases hm
  · intro i hi; cases hi
  · intro i hi; cases hi

theorem transmit_len (hp : PadsOk pads) (n seq seq' : Nat) (bl : List Bytes) : (transmit pads n seq bl).length = (transmit pads n seq' bl).length := by
  induction bl generalizing seq seq' with
  | nil => rfl
  | cons b bl ih => simp only [transmit, List.length_append, header_length pads hp, trailer_length pads hp, ih (seq + 1) (seq' + 1)]

theorem wire_len (hp : PadsOk pads) (seq seq' : Nat) (l : List (Bytes × List Bytes)) : (wire pads seq l).length = (wire pads seq' l).length := by
  induction l generalizing seq seq' with
  | nil => rfl
  | cons x l ih =>
    obtain ⟨j, m⟩ := x
    simp only [wire, List.length_append, transmit_len pads hp m.length seq seq' m, ih (seq + m.length) (seq' + m.length)]

theorem pos_len (hp : PadsOk pads) {bs : List Bytes} {rem : Bytes} {later : List (Bytes × List Bytes)} {m : List Bytes} {seq : Nat} {st : St}
    (h : Pos pads bs rem later m seq st) : st.need + (wire pads 0 later).length ≤ rem.length := by
  cases st with
  | header =>
    obtain ⟨j, bl, _, hbl, _, rfl⟩ := h
    obtain ⟨b, bl, rfl⟩ := List.exists_cons_of_ne_nil hbl
    simp only [transmit, List.length_append, header_length pads hp, St.need, wire_len pads hp _ 0 later]
    omega
  | block n =>
    obtain ⟨b, bl, rfl, _, rfl⟩ := h
    simp only [List.length_append, St.need, wire_len pads hp _ 0 later]
    omega
  | trailer =>
    obtain ⟨bl, _, _, rfl⟩ := h
    simp only [List.length_append, trailer_length pads hp, St.need, wire_len pads hp _ 0 later]
    omega

/-- How much there is to do. -/
def todo (s : Rd) : Nat := 2 * s.rest.length + s.buf.length + (match s.st with | .header => 0 | .block _ => 2 | .trailer => 1)

theorem reader_of_reading {tail : Bytes} {all : List (List Bytes)} {s : Rd} {pend : List (Bytes × List Bytes)} {i : Nat} (h : Inv pads unpack tail all s pend)
    (hph : s.ph i = .reading) : s.reader = some i := by
  by_contra hne
  rcases (h.others i hne).2 with h1 | ⟨m, h1⟩ <;> (rw [hph] at h1; cases h1)

theorem reading_progress (hp : PadsOk pads) {tail : Bytes} {all : List (List Bytes)} {s : Rd} {j : Bytes} {m : List Bytes} {later : List (Bytes × List Bytes)} {i : Nat}
    (h : Inv pads unpack tail all s ((j, m) :: later)) (hph : s.ph i = .reading) (hg : s.gw = none) (ht : tail.length ≤ (wire pads 0 later).length) :
    (step unpack s i 1).gw = none ∧ ((step unpack s i 1).ph i = .reading → todo (step unpack s i 1) < todo s) := by
  have hr := reader_of_reading pads unpack h hph
  obtain ⟨hn, seq, hpos⟩ : s.buf.length ≤ s.st.need ∧ ∃ seq, Pos pads (s.bset i) (s.buf ++ (s.rest ++ tail)) later m seq s.st := by
    rcases h.reading i hr with ⟨_, h2, _, h3⟩ | ⟨m', hm, _⟩
    · rcases h3 with ⟨h4, _⟩ | ⟨j', m', later', seq, he, h5⟩
      · cases h4
      · injection he with h6 h7
        injection h6 with h8 h9
        exact ⟨h2, seq, by rw [h9, h7]; exact h5⟩
    · rw [hph] at hm; cases hm
  obtain ⟨hj, hm, hu⟩ := h.fits (j, m) (by simp)
  simp only at hj hm hu
  unfold step
  rw [if_neg (by rw [h.up]; simp), hph]
  dsimp only
  by_cases hfull : s.buf.length < s.st.need
  · rw [if_pos hfull, if_pos hg]
    refine ⟨hg, fun _ => ?_⟩
    have hlen := pos_len pads hp hpos
    simp only [List.length_append] at hlen
    have h1 : min 1 (s.st.need - s.buf.length) = 1 := by omega
    unfold todo
    simp only [h1, List.length_append, List.length_take, List.length_drop]
    omega
  · rw [if_neg hfull]
    have hfull : s.buf.length = s.st.need := by omega
    unfold dispose
    cases hst : s.st with
    | header =>
      dsimp only
      have h16 : s.buf.length = 16 := by rw [hfull, hst]; rfl
      obtain ⟨st, buf, he, hle, hsm, _⟩ := pos_header pads hp (i := i) hm hst h16 hpos
      rw [he]
      refine ⟨hg, fun _ => ?_⟩
      unfold todo
      simp only [hst]
      rcases hsm with ⟨h1, h2 | ⟨n, h2, h3⟩⟩
      · simp only [h2]; omega
      · simp only [h2, h3, List.length_nil]; omega
    | block n =>
      refine ⟨hg, fun _ => ?_⟩
      unfold todo
      simp only [hst, List.length_nil]
      omega
    | trailer =>
      dsimp only
      have h24 : s.buf.length = 24 := by rw [hfull, hst]; rfl
      unfold onTrailer
      rcases pos_trailer pads hp (i := i) hm hst h24 hpos with ⟨hz, _⟩ | ⟨hz, hbs, _⟩
      · simp only [hz]
        rw [if_pos trivial]
        refine ⟨hg, fun _ => ?_⟩
        unfold todo
        simp only [hst, List.length_nil]
        omega
      · have hlen : (m.length : Int) ≠ 0 := by
          have := List.length_pos_iff.2 hm.1
          omega
        simp only [hz, hbs, hu]
        rw [if_neg hlen, if_neg (fun e => e rfl)]
        by_cases hok : (unpack m).1 = true
        · rw [if_pos hok]
          refine ⟨hg, fun e => ?_⟩
          simp only [upd_eq] at e
          cases e
        · rw [if_neg hok]
          refine ⟨hg, fun e => ?_⟩
          simp only [upd_eq] at e
          cases e

theorem run_append (s : Rd) (a b : List (Nat × Nat)) : run unpack s (a ++ b) = run unpack (run unpack s a) b := List.foldl_append

theorem run_cons (s : Rd) (x : Nat × Nat) (b : List (Nat × Nat)) : run unpack s (x :: b) = run unpack (step unpack s x.1 x.2) b := rfl

/-- A message that is completely received gets read. -/
theorem read_on (hp : PadsOk pads) {tail : Bytes} {all : List (List Bytes)} {j : Bytes} {m : List Bytes} {later : List (Bytes × List Bytes)} {i : Nat}
    (ht : tail.length ≤ (wire pads 0 later).length) (n : Nat) : ∀ s : Rd, todo s ≤ n → Inv pads unpack tail all s ((j, m) :: later) →
    s.ph i = .reading → s.gw = none → ∃ sched, Inv pads unpack tail all (run unpack s sched) later := by
  induction n with
  | zero =>
    intro s hs h hph hg
    obtain ⟨hg', hdec⟩ := reading_progress pads unpack hp h hph hg ht
    obtain ⟨p', h', hc⟩ := step_inv pads unpack hp h i 1
    rcases hc with ⟨rfl, hrd⟩ | ⟨⟨x, hx⟩, _⟩
    · have := hdec (hrd hph)
      omega
    · injection hx with _ hx
      subst hx
      exact ⟨[(i, 1)], h'⟩
  | succ n ih =>
    intro s hs h hph hg
    obtain ⟨hg', hdec⟩ := reading_progress pads unpack hp h hph hg ht
    obtain ⟨p', h', hc⟩ := step_inv pads unpack hp h i 1
    rcases hc with ⟨rfl, hrd⟩ | ⟨⟨x, hx⟩, _⟩
    · have := hdec (hrd hph)
      obtain ⟨sched, hs'⟩ := ih _ (by omega) h' (hrd hph) hg'
      exact ⟨(i, 1) :: sched, hs'⟩
    · injection hx with _ hx
      subst hx
      exact ⟨[(i, 1)], h'⟩

theorem step_keeps (hp : PadsOk pads) {tail : Bytes} {all : List (List Bytes)} {s : Rd} {pend : List (Bytes × List Bytes)} (h : Inv pads unpack tail all s pend)
    (i : Nat) (hi : s.ph i ≠ .reading) : Inv pads unpack tail all (step unpack s i 0) pend := by
  obtain ⟨p', h', ⟨rfl, _⟩ | ⟨_, e, _⟩⟩ := step_inv pads unpack hp h i 0
  · exact h'
  · exact absurd e hi

/-- A message that has been read gets processed. -/
theorem settle (hp : PadsOk pads) {tail : Bytes} {all : List (List Bytes)} {s : Rd} {pend : List (Bytes × List Bytes)} (h : Inv pads unpack tail all s pend) :
    ∃ sched, Inv pads unpack tail all (run unpack s sched) pend ∧ (run unpack s sched).gw = none ∧
      ((run unpack s sched).reader = none ∨ ∃ i, (run unpack s sched).ph i = .reading) := by
  have h1 : ∃ sched, Inv pads unpack tail all (run unpack s sched) pend ∧ (run unpack s sched).gw = none := by
    cases hg : s.gw with
    | none => exact ⟨[], h, hg⟩
    | some i =>
      obtain ⟨m, hm⟩ := h.gw i hg
      refine ⟨[(i, 0)], step_keeps pads unpack hp h i (by rw [hm]; simp), ?_⟩
      simp only [run, List.foldl_cons, List.foldl_nil, step, h.up, hm]
      simp
  obtain ⟨sc, h1, hg⟩ := h1
  cases hr : (run unpack s sc).reader with
  | none => exact ⟨sc, h1, hg, Or.inl hr⟩
  | some i =>
    rcases h1.reading i hr with ⟨h2, _⟩ | ⟨m, h2, _⟩
    · exact ⟨sc, h1, hg, Or.inr ⟨i, h2⟩⟩
    · refine ⟨sc ++ [(i, 0), (i, 0)], ?_⟩
      rw [run_append]
      generalize run unpack s sc = t at *
      have e1 : step unpack t i 0 = { t with gw := some i, reader := none, ph := Function.update t.ph i (.busy m) } := by
        simp only [step, h1.up, h2]
        rw [if_neg (by simp), if_pos hg]
      have i1 := step_keeps pads unpack hp h1 i (by rw [h2]; simp)
      have hb : (step unpack t i 0).ph i = .busy m := by rw [e1]; simp only [upd_eq]
      have i2 := step_keeps pads unpack hp i1 i (by rw [hb]; simp)
      refine ⟨i2, ?_⟩
      have e2 : step unpack (step unpack t i 0) i 0 =
          { step unpack t i 0 with out := (step unpack t i 0).out ++ [m], gw := none, ph := Function.update (step unpack t i 0).ph i .wait } := by
        rw [step]
        rw [if_neg (by rw [i1.up]; simp), hb]
      have e3 : run unpack t [(i, 0), (i, 0)] = step unpack (step unpack t i 0) i 0 := rfl
      rw [e3, e2]
      refine ⟨rfl, Or.inl ?_⟩
      rw [e1]

/-- All messages that are completely received get processed. -/
theorem finish (hp : PadsOk pads) {tail : Bytes} {all : List (List Bytes)} {b : List (Bytes × List Bytes)} (ht : tail.length ≤ (wire pads 0 b).length) :
    ∀ (a : List (Bytes × List Bytes)) (s : Rd), Inv pads unpack tail all s (a ++ b) →
      ∃ sched, Inv pads unpack tail all (run unpack s sched) b := by
  intro a
  induction a with
  | nil => exact fun s h => ⟨[], h⟩
  | cons x a ih =>
    intro s h
    obtain ⟨j, m⟩ := x
    have ht' : tail.length ≤ (wire pads 0 (a ++ b)).length := by
      refine Nat.le_trans ht ?_
      clear h ih
      induction a with
      | nil => exact Nat.le_refl _
      | cons y a ih =>
        refine Nat.le_trans ih ?_
        obtain ⟨j', m'⟩ := y
        simp only [List.cons_append, wire, List.length_append, wire_len pads hp (0 + m'.length) 0]
        omega
    obtain ⟨sc, h1, hg, hr⟩ := settle pads unpack hp h
    have h2 : ∃ sc2 i, Inv pads unpack tail all (run unpack s sc2) ((j, m) :: (a ++ b)) ∧ (run unpack s sc2).ph i = .reading ∧ (run unpack s sc2).gw = none := by
      rcases hr with hr | ⟨i, hi⟩
      · have hw : (run unpack s sc).ph 0 = .wait := by
          rcases (h1.others 0 (by rw [hr]; simp)).2 with h2 | ⟨m, h2⟩
          · exact h2
          · have := h1.busy 0 m h2
            rw [hg] at this
            cases this
        refine ⟨sc ++ [(0, 0)], 0, ?_, ?_, ?_⟩
        · rw [run_append]
          exact step_keeps pads unpack hp h1 0 (by rw [hw]; simp)
        · rw [run_append]
          simp only [run_cons, step, h1.up, hw, hr]
          simp [run]
        · rw [run_append]
          simp only [run_cons, step, h1.up, hw, hr]
          simp [run]
          exact hg
      · exact ⟨sc, i, h1, hi, hg⟩
    obtain ⟨sc2, i, h3, h4, h5⟩ := h2
    obtain ⟨sc3, h6⟩ := read_on pads unpack hp ht' (i := i) _ _ (Nat.le_refl _) h3 h4 h5
    obtain ⟨sc4, h7⟩ := ih _ h6
    exact ⟨sc2 ++ (sc3 ++ sc4), by rw [run_append, run_append]; exact h7⟩

/-- A settled state has processed everything that was read. -/
theorem settled_out {tail : Bytes} {all : List (List Bytes)} {s : Rd} {pend : List (Bytes × List Bytes)} (h : Inv pads unpack tail all s pend)
    (hg : s.gw = none) (hr : s.reader = none ∨ ∃ i, s.ph i = .reading) : s.out ++ good unpack pend = all := by
  have hb : busyMsg s = [] := by unfold busyMsg; rw [hg]
  rcases hr with hr | ⟨i, hi⟩
  · have := (h.free hr).2
    rwa [hb] at this
  · rcases h.reading i (reader_of_reading pads unpack h hi) with ⟨_, _, h1, _⟩ | ⟨m, h1, _⟩
    · rwa [hb] at h1
    · rw [hi] at h1; cases h1

theorem inv_out {tail : Bytes} {all : List (List Bytes)} {s : Rd} {pend : List (Bytes × List Bytes)} (h : Inv pads unpack tail all s pend) :
    s.out <+: all := by
  cases hr : s.reader with
  | none => exact ⟨_, (h.free hr).2⟩
  | some i =>
    rcases h.reading i hr with ⟨_, _, h1, _⟩ | ⟨m, _, _, _, h1⟩
    · exact ⟨_, h1⟩
    · exact ⟨_, h1⟩

theorem inv_allRead (hp : PadsOk pads) {all : List (List Bytes)} {s : Rd} {pend : List (Bytes × List Bytes)} (h : Inv pads unpack [] all s pend)
    (hq : AllRead s) : s.out = all := by
  have hg : s.gw = none := by
    cases hg : s.gw with
    | none => rfl
    | some i =>
      obtain ⟨m, hm⟩ := h.gw i hg
      rw [hq.2 i] at hm
      cases hm
  have hr : s.reader = none := by
    cases hr : s.reader with
    | none => rfl
    | some i => rcases h.reading i hr with ⟨h1, _⟩ | ⟨m, h1, _⟩ <;> (rw [hq.2 i] at h1; cases h1)
  obtain ⟨⟨seq, hw⟩, hall⟩ := h.free hr
  have hb : busyMsg s = [] := by unfold busyMsg; rw [hg]
  rw [hb, List.nil_append] at hall
  rw [hq.1] at hw
  have : pend = [] := by
    cases pend with
    | nil => rfl
    | cons x l =>
      obtain ⟨j, m⟩ := x
      obtain ⟨h1, h2, _⟩ := h.fits (j, m) (by simp)
      have := pos_len pads hp (wire_cons pads seq j m l h1 h2.1 _ hw)
      simp [St.need] at this
  rw [this] at hall
  simpa [good] using hall

/-- A reader with a header that hangs. -/
structure Stuck (S : Bytes → Prop) (s : Rd) : Prop where
  up : s.down = false
  out : s.out = []
  gw : s.gw = none
  ph : ∀ i, s.ph i = .wait ∨ (s.ph i = .reading ∧ s.reader = some i)
  free : s.reader = none → S s.rest
  reading : ∀ i, s.reader = some i → s.st = .header ∧ s.buf.length ≤ 16 ∧ S (s.buf ++ s.rest)

theorem stuck_header {s : Rd} (h : Hangs s.buf) : onHeader s = s := by
  obtain ⟨h1, h2, h3⟩ := h
  unfold onHeader
  by_cases hc : s.buf.take 3 ≠ sig ∨ 4 < s.buf.getD 3 0
  · rw [if_pos hc]
    cases hb : s.buf with
    | nil => rw [hb] at h2; cases h2
    | cons c r =>
      rw [hb] at h2
      simp only [List.head?_cons, Option.some.injEq] at h2
      subst h2
      have : (111 :: r : Bytes).findIdx? (fun c => c == 111) = some 0 := by simp [List.findIdx?_cons]
      rw [this]
      simp only [List.drop_zero, ← hb]
  · rw [if_neg hc]
    rw [if_neg]
    intro e
    refine h3 ⟨?_, e⟩
    by_contra hne
    exact hc (Or.inl hne)

/-- Headers that leave the reader searching for headers. -/
def Closed (S : Bytes → Prop) : Prop := ∀ s : Rd, s.st = .header → s.buf.length = 16 → S (s.buf ++ s.rest) →
  ∃ buf, onHeader s = { s with st := .header, buf := buf } ∧ buf.length ≤ 16 ∧ S (buf ++ s.rest)

theorem closed_hangs {h : Bytes} (hh : Hangs h) (stream : Bytes) : Closed (fun x => x = h ++ stream) := by
  intro s hst hb hs
  have : s.buf = h := (List.append_inj hs (by rw [hb, hh.1])).1
  exact ⟨s.buf, by rw [stuck_header (by rw [this]; exact hh), ← hst], by omega, hs⟩

theorem stuck_step {S : Bytes → Prop} {s : Rd} (hS : Closed S) (h : Stuck S s) (i k : Nat) : Stuck S (step unpack s i k) := by
  unfold step
  rw [if_neg (by rw [h.up]; simp)]
  rcases h.ph i with hph | ⟨hph, hr⟩
  · rw [hph]
    dsimp only
    by_cases hr : s.reader = none
    · rw [if_pos hr]
      refine ⟨h.up, h.out, h.gw, ?_, (by intro hq; cases hq), ?_⟩
      · intro q
        by_cases hq : q = i
        · subst hq; exact Or.inr ⟨by simp only [upd_eq], rfl⟩
        · rcases h.ph q with h1 | ⟨_, h1⟩
          · exact Or.inl (by simp only [upd_ne _ _ hq, h1])
          · rw [hr] at h1; cases h1
      · intro q _
        exact ⟨rfl, by simp, h.free hr⟩
    · rw [if_neg hr]; exact h
  · rw [hph]
    dsimp only
    obtain ⟨h1, h2, h3⟩ := h.reading i hr
    by_cases hfull : s.buf.length < s.st.need
    · rw [if_pos hfull, if_pos h.gw]
      refine ⟨h.up, h.out, h.gw, h.ph, (by intro hq; simp only [hr] at hq; cases hq), ?_⟩
      intro q _
      refine ⟨h1, ?_, ?_⟩
      · rw [List.length_append]
        have := List.length_take_le (min k (s.st.need - s.buf.length)) s.rest
        rw [h1] at this ⊢
        simp only [St.need] at this ⊢
        omega
      · simp only
        rw [List.append_assoc, List.take_append_drop]; exact h3
    · rw [if_neg hfull]
      rw [h1] at hfull
      simp only [St.need] at hfull
      obtain ⟨buf, h4, h5, h6⟩ := hS s h1 (by omega) h3
      rw [dispose, h1]
      dsimp only
      rw [h4]
      refine ⟨h.up, h.out, h.gw, h.ph, (by intro hq; simp only [hr] at hq; cases hq), ?_⟩
      intro q _
      exact ⟨rfl, h5, h6⟩

theorem closed_big (hp : PadsOk pads) (seq : Nat) (b h r : Bytes) (hb : maxBlock < (b.length : Int)) (hb2 : b.length < 2 ^ 31) (hh : Hangs h) :
    Closed (fun x => x = header (pads seq) b.length ++ (h ++ r) ∨ x = h ++ r) := by
  intro s hst hl hs
  rcases hs with hs | hs
  · have hbuf : s.buf = header (pads seq) b.length := (List.append_inj hs (by rw [hl, header_length pads hp])).1
    have hrest : s.rest = h ++ r := (List.append_inj hs (by rw [hl, header_length pads hp])).2
    have h8 : leDec ((s.buf.drop 8).take 8) = b.length := by
      have e : s.buf.drop 8 = encSize b.length := by
        rw [hbuf]
        have : header (pads seq) b.length = (sig ++ [1] ++ (pads seq).h) ++ encSize b.length := rfl
        rw [this, List.drop_left' (by simp [sig, (hp seq).1])]
      rw [e, List.take_of_length_le (by simp), leDec_encSize]
      omega
    refine ⟨[], ?_, by simp, Or.inr (by simpa using hrest)⟩
    unfold onHeader
    rw [if_neg (by rw [hbuf]; simp [header, sig]), if_pos (by rw [hbuf]; simp [header, sig]), h8]
    unfold readyForData
    rw [if_pos]
    unfold toInt
    rw [Nat.mod_eq_of_lt (by omega), if_pos hb2]
    exact hb
  · obtain ⟨buf, h1, h2, h3⟩ := closed_hangs hh r s hst hl hs
    exact ⟨buf, h1, h2, Or.inr h3⟩

theorem stuck_run {S : Bytes → Prop} {s : Rd} (hs : Closed S) (h : Stuck S s) (sched : List (Nat × Nat)) :
    Stuck S (run unpack s sched) := by
  induction sched generalizing s with
  | nil => exact h
  | cons x l ih => exact ih (stuck_step unpack hs h x.1 x.2)

theorem stuck_start {S : Bytes → Prop} {stream : Bytes} (h : S stream) : Stuck S (Rd.start stream) :=
  ⟨rfl, rfl, rfl, fun _ => Or.inl rfl, fun _ => h, fun i h => by cases h⟩

theorem wire_append (seq : Nat) (a b : List (Bytes × List Bytes)) : ∃ seq', wire pads seq (a ++ b) = wire pads seq a ++ wire pads seq' b := by
  induction a generalizing seq with
  | nil => exact ⟨seq, rfl⟩
  | cons x a ih =>
    obtain ⟨j, m⟩ := x
    obtain ⟨seq', h⟩ := ih (seq + m.length)
    exact ⟨seq', by simp only [List.cons_append, wire, h, List.append_assoc]⟩

theorem delivered (hp : PadsOk pads) (seq : Nat) (a b : List (Bytes × List Bytes)) (hm : ∀ x ∈ a ++ b, Quiet x.1 ∧ Fits x.2 ∧ (unpack x.2).2 = [])
    (stream lost : Bytes) (hs : stream ++ lost = wire pads seq (a ++ b)) (ha : (wire pads seq a).length ≤ stream.length) (sched : List (Nat × Nat)) :
    ∃ more, good unpack a <+: (run unpack (.start stream) (sched ++ more)).out := by
  have ht : lost.length ≤ (wire pads 0 b).length := by
    obtain ⟨seq', hw⟩ := wire_append pads seq a b
    rw [hw] at hs
    have := congrArg List.length hs
    simp only [List.length_append, wire_len pads hp seq' 0 b] at this
    omega
  obtain ⟨p, h, d, hd⟩ := run_inv pads unpack hp (start_inv pads unpack hs hm) sched
  have h2 : ∃ more c p', Inv pads unpack lost (good unpack (a ++ b)) (run unpack (run unpack (.start stream) sched) more) p' ∧ b = c ++ p' := by
    rcases List.append_eq_append_iff.1 hd with ⟨c, rfl, hb⟩ | ⟨c, rfl, rfl⟩
    · exact ⟨[], c, p, h, hb⟩
    · obtain ⟨more, h3⟩ := finish pads unpack hp ht c _ h
      exact ⟨more, [], b, h3, rfl⟩
  obtain ⟨more, c, p', h3, rfl⟩ := h2
  obtain ⟨more2, h4, h5, h6⟩ := settle pads unpack hp h3
  refine ⟨more ++ more2, ?_⟩
  rw [run_append, run_append]
  have h7 := settled_out pads unpack h4 h5 h6
  have e : good unpack (a ++ (c ++ p')) = good unpack a ++ good unpack c ++ good unpack p' := by simp [good]
  rw [e] at h7
  have := List.append_cancel_right h7
  rw [this]
  exact List.prefix_append _ _

theorem plain_ok {msgs : List (List Bytes)} (hm : ∀ m ∈ msgs, Fits m ∧ unpack m = (true, [])) :
    ∀ x ∈ plain msgs, Quiet x.1 ∧ Fits x.2 ∧ (unpack x.2).2 = [] := by
  intro x hx
  simp only [plain, List.mem_map] at hx
  obtain ⟨m, hm', rfl⟩ := hx
  exact ⟨fun c hc => (by simp at hc), (hm m hm').1, by rw [(hm m hm').2]⟩

theorem good_plain {msgs : List (List Bytes)} (hm : ∀ m ∈ msgs, unpack m = (true, [])) : good unpack (plain msgs) = msgs := by
  unfold good plain
  rw [List.map_map, List.filter_eq_self.2]
  · simp [Function.comp_def]
  · intro m hm'
    simp only [List.mem_map, Function.comp_apply] at hm'
    obtain ⟨m', h1, rfl⟩ := hm'
    simp [hm m' h1]

theorem step_other (s : Rd) (i k : Nat) {q : Nat} (hq : q ≠ i) : (step unpack s i k).ph q = s.ph q := by
  unfold step
  by_cases hd : s.down = true
  · rw [if_pos hd]
  rw [if_neg hd]
  cases hph : s.ph i with
  | wait => dsimp only; split <;> simp only [upd_ne _ _ hq]
  | reading =>
    dsimp only
    split
    · split <;> rfl
    · unfold dispose
      cases hst : s.st with
      | header =>
        dsimp only
        unfold onHeader
        split
        · split <;> rfl
        · split
          · unfold readyForData
            split
            · rfl
            · split <;> rfl
          · rfl
      | block n => rfl
      | trailer =>
        dsimp only
        unfold onTrailer
        dsimp only
        split
        · rfl
        · split
          · simp only [upd_ne _ _ hq]
          · split <;> simp only [upd_ne _ _ hq]
  | ready m => dsimp only; split <;> simp only [upd_ne _ _ hq]
  | busy m => simp only [upd_ne _ _ hq]

theorem run_other (s : Rd) (sched : List (Nat × Nat)) {q : Nat} (hq : ∀ x ∈ sched, q ≠ x.1) : (run unpack s sched).ph q = s.ph q := by
  induction sched generalizing s with
  | nil => rfl
  | cons x l ih =>
    rw [run_cons, ih _ fun y hy => hq y (by simp [hy]), step_other unpack s x.1 x.2 (hq x (by simp))]

end Verif.Gateway
