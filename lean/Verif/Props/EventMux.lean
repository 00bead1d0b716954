import Verif.Proof.EventMux

/-!
# Properties C231-C234: channels of events
-/
namespace Verif.EventMux

variable {δ : Type}

/-! ### C231: messages are delivered once, to the right channel -/

/-- After any history of arrivals and `getEvent`: messages no channel maps are discarded; the first other one is
given to the channel it is for, if that asks for it; all others are told that it is not their turn, or to wait if
the queue is empty. -/
theorem C231_get (maps : List (List Int → Option (List Int))) (ops : List (Op δ)) (hf : Fresh maps init ops)
    (others : Bool) (chan : Nat) (mask : List Int → Bool) (s s' : Mux δ) (out : Out δ)
    (hs : s = (run maps init ops).1) (hg : get maps others chan mask s = (out, s')) :
    ∃ xs rest, s.queue = xs ++ rest ∧ (∀ m ∈ xs, Unmapped maps m.id) ∧
      ((rest = [] ∧ out = .none (if others then .outofseq else .wait) ∧ s'.queue = []) ∨
       ∃ m q i e, rest = m :: q ∧ Goes maps m.id i e ∧
        ((i = chan ∧ mask e = true ∧ out = .event e m.data m.src ∧ s'.queue = q) ∨
         (¬ (i = chan ∧ mask e = true) ∧ out = .none .outofseq ∧ s'.queue = rest))) := by
  subst hs
  have := (get_spec (run_good ops init (init_good maps) hf) others chan mask).1
  rw [hg] at this
  exact this

/-- Over any history each message that arrived has been delivered once, or is in the queue, or was discarded as no
channel maps it; what was delivered is its event, to the first channel that maps it, with its data and sender. -/
theorem C231_once (maps : List (List Int → Option (List Int))) (ops : List (Op δ)) (hf : Fresh maps init ops) :
    ∃ discarded delivered : List (Msg δ),
      (arrivals ops).Perm (delivered ++ (run maps init ops).1.queue ++ discarded) ∧
      (∀ m ∈ discarded, Unmapped maps m.id) ∧
      List.Forall₂ (fun (m : Msg δ) (d : Nat × List Int × δ × List Int) => Goes maps m.id d.1 d.2.1 ∧ d.2.2 = (m.data, m.src))
        delivered (run maps init ops).2 :=
  run_perm ops init (init_good maps) hf

/-- Messages of one priority are delivered in the order of their arrival. -/
theorem C231_order (maps : List (List Int → Option (List Int))) (ops : List (Op δ)) (hf : Fresh maps init ops)
    (he : ∀ pos m os os', ops = os ++ .arrive pos m :: os' → (run maps init os).1.queue.length ≤ pos) :
    ∃ delivered gone : List (Msg δ),
      gone ++ (run maps init ops).1.queue = arrivals ops ∧ delivered.Sublist gone ∧
      (∀ m ∈ gone, m ∉ delivered → Unmapped maps m.id) ∧
      List.Forall₂ (fun (m : Msg δ) (d : Nat × List Int × δ × List Int) => Goes maps m.id d.1 d.2.1 ∧ d.2.2 = (m.data, m.src))
        delivered (run maps init ops).2 := by
  obtain ⟨ds, zs, h1, h2, h3, h4⟩ := run_order ops init (init_good maps) hf (fun pos m _ os os' e => he pos m os os' e)
  exact ⟨ds, zs, h3, h2, h4, h1⟩

/-- A multiplexer that was stopped gives nothing and keeps its queue. -/
theorem C231_stopped (maps : List (List Int → Option (List Int))) (s : Mux δ) (h : s.running = false) (others : Bool)
    (chan : Nat) (mask : List Int → Bool) : get maps others chan mask s = (.none .closed, s) := by
  unfold get check
  rw [h]
  rfl

/-- Ids that begin with 1 are for the first channel, those that begin with 1 or 2 for the second one. -/
def exMaps : List (List Int → Option (List Int)) :=
  [fun id => if id.head? = some 1 then some id.tail else none,
   fun id => if id.head? = some 1 ∨ id.head? = some 2 then some (7 :: id.tail) else none]

/-- A message without channel, one for the second channel, one with priority for the first one. -/
def exOps : List (Op Nat) :=
  [.arrive 0 ⟨10, [3], 30, [5]⟩, .arrive 1 ⟨11, [2, 8], 31, [5]⟩, .get 0 (fun _ => true) false,
   .arrive 0 ⟨10, [1, 9], 32, [6]⟩, .get 1 (fun _ => true) false, .get 0 (fun e => e.isEmpty) false,
   .get 0 (fun _ => true) false, .get 1 (fun _ => true) false]

example : Fresh exMaps init exOps ∧ (run exMaps init exOps).2 = [(0, [9], 32, [6]), (1, [7, 8], 31, [5])] ∧
    (run exMaps init exOps).1.queue.length = 0 := by
  refine ⟨?_, by decide, by decide⟩
  unfold exOps
  simp only [Fresh]
  decide

/-! ### C232: to ask for an event does not take it -/

/-- The full property: after `hasEvent` the queue still has all messages with a channel. -/
def C232_full : Prop :=
  ∀ (maps : List (List Int → Option (List Int))) (ops : List (Op Nat)), Fresh maps init ops →
    ∀ (chan : Nat) (mask : List Int → Bool), (has maps false chan mask (run maps init ops).1).1 = .success →
      ∃ e d f s, get maps false chan mask (has maps false chan mask (run maps init ops).1).2 = (.event e d f, s)

/-- The answer of `hasEvent` is right: it is that of `getEvent`. -/
theorem C232_answer (maps : List (List Int → Option (List Int))) (ops : List (Op δ)) (hf : Fresh maps init ops)
    (others : Bool) (chan : Nat) (mask : List Int → Bool) (s : Mux δ) (hs : s = (run maps init ops).1) :
    ((has maps others chan mask s).1 = .success ↔
      ∃ m rest xs e, s.queue = xs ++ m :: rest ∧ (∀ x ∈ xs, Unmapped maps x.id) ∧ Goes maps m.id chan e ∧ mask e = true) ∧
    ((has maps others chan mask s).1 = .wait ↔ others = false ∧ ∀ m ∈ s.queue, Unmapped maps m.id) := by
  subst hs
  have hg := run_good ops init (init_good maps) hf
  generalize (run maps init ops).1 = s at hg
  obtain ⟨xs, rest, s', h1, h2, hr, h3⟩ := check_spec hg others chan mask
  have nomap : ∀ {id i e}, Goes maps id i e → ¬ Unmapped maps id := by
    rintro id i e ⟨⟨f, hf, he⟩, _⟩ hu
    rw [hu f (List.mem_of_getElem? hf)] at he
    cases he
  have uniq : ∀ {id i j e e'}, Goes maps id i e → Goes maps id j e' → i = j ∧ e = e' := by
    rintro id i j e e' ⟨⟨f, hf, he⟩, h⟩ ⟨⟨f', hf', he'⟩, h'⟩
    have hij : i = j := by
      rcases Nat.lt_trichotomy i j with hlt | heq | hlt
      · rw [h' i f hlt hf] at he; cases he
      · exact heq
      · rw [h j f' hlt hf'] at he'; cases he'
    subst hij
    rw [hf] at hf'
    cases hf'
    rw [he] at he'
    cases he'
    exact ⟨rfl, rfl⟩
  -- the first message with a channel is unique
  have first : ∀ {m q m' q'} {ys : List (Msg δ)} {i e j e'}, xs ++ m :: q = ys ++ m' :: q' →
      (∀ x ∈ ys, Unmapped maps x.id) → Goes maps m.id i e → Goes maps m'.id j e' → m = m' := by
    intro m q m' q' ys i e j e' he hu hm hm'
    rcases List.append_eq_append_iff.1 he with ⟨a, ha, hb⟩ | ⟨a, ha, hb⟩
    · cases a with
      | nil => simp at hb; exact hb.1
      | cons x a =>
        simp at hb
        exact absurd (hu m (by rw [ha, ← hb.1]; simp)) (nomap hm)
    · cases a with
      | nil => simp at hb; exact hb.1.symm
      | cons x a =>
        simp at hb
        exact absurd (h2 m' (by rw [ha, ← hb.1]; simp)) (nomap hm')
  unfold has
  rcases h3 with ⟨e1, e2, e3, e4⟩ | ⟨m, q, i, e, e1, e2, e3, ⟨g1, g2, g3, g4⟩ | ⟨g1, g2, g3⟩⟩
  · rw [e2, h1, e1, List.append_nil]
    constructor
    · constructor
      · intro h; cases others <;> cases h
      · rintro ⟨m, r, ys, e, ha, hb, hc, _⟩
        exact absurd (h2 m (by rw [ha]; simp)) (nomap hc)
    · cases others
      · exact ⟨fun _ => ⟨rfl, h2⟩, fun _ => rfl⟩
      · exact ⟨(fun h => by cases h), fun h => by cases h.1⟩
  · rw [g3]
    constructor
    · exact ⟨fun _ => ⟨m, q, xs, e, by rw [h1, e1], h2, by rw [← g1]; exact assign_goes e2, g2⟩, fun _ => rfl⟩
    · exact ⟨(fun h => by cases h), fun h => absurd (h.2 m (by rw [h1, e1]; simp)) (nomap (assign_goes e2))⟩
  · rw [g2]
    constructor
    · refine ⟨(fun h => by cases h), ?_⟩
      rintro ⟨m', r, ys, e', ha, hb, hc, hd⟩
      have := first (by rw [← e1, ← h1, ha]) hb (assign_goes e2) hc
      subst this
      obtain ⟨a, b⟩ := uniq (assign_goes e2) hc
      exact absurd ⟨a, by rw [b]; exact hd⟩ g1
    · exact ⟨(fun h => by cases h), fun h => absurd (h.2 m (by rw [h1, e1]; simp)) (nomap (assign_goes e2))⟩

/-- Unless it has found an event, `hasEvent` takes only messages without a channel.  Missing: if it has. -/
theorem C232_kept_partial (maps : List (List Int → Option (List Int))) (ops : List (Op δ)) (hf : Fresh maps init ops)
    (others : Bool) (chan : Nat) (mask : List Int → Bool) (s s' : Mux δ) (st : Stat) (hs : s = (run maps init ops).1)
    (hh : has maps others chan mask s = (st, s')) (hst : st ≠ .success) :
    ∃ xs, s.queue = xs ++ s'.queue ∧ ∀ m ∈ xs, Unmapped maps m.id := by
  subst hs
  obtain ⟨xs, rest, s1, h1, h2, hr, h3⟩ := check_spec (run_good ops init (init_good maps) hf) others chan mask
  unfold has at hh
  rcases h3 with ⟨e1, e2, e3, e4⟩ | ⟨m, q, i, e, e1, e2, e3, ⟨g1, g2, g3, g4⟩ | ⟨g1, g2, g3⟩⟩
  · rw [e2] at hh; cases hh
    exact ⟨xs, by rw [h1, e1, e3], h2⟩
  · rw [g3] at hh; cases hh
    exact absurd rfl hst
  · rw [g2] at hh; cases hh
    exact ⟨xs, by rw [h1, g3], h2⟩

/-- One message: `hasEvent` says that there is an event; `getEvent` then gives none. -/
theorem C232_refuted : ¬ C232_full := by
  intro h
  obtain ⟨e, d, f, s, hg⟩ := h exMaps [.arrive 0 ⟨10, [1, 9], 32, [6]⟩] (by simp [Fresh, init]) 0 (fun _ => true) rfl
  have : (get exMaps false 0 (fun _ => true)
    (has exMaps false 0 (fun _ => true) (run exMaps init [.arrive 0 (⟨10, [1, 9], 32, [6]⟩ : Msg Nat)]).1).2).1 = .none .wait := rfl
  rw [hg] at this
  cases this

/-- If the next message comes at the same address, the old event is given, and that message is lost. -/
theorem C232_stale :
    (let s := (has exMaps false 0 (fun _ => true) (run exMaps init [.arrive 0 (⟨10, [1, 9], 32, [6]⟩ : Msg Nat)]).1).2
     let r := get exMaps false 0 (fun _ => true) (step exMaps s (.arrive 0 ⟨10, [2, 8], 33, [4]⟩)).1
     (r.1, r.2.queue.length)) = (.event [9] 32 [6], 0) := by decide

example : (has exMaps false 1 (fun _ => true) (run exMaps init [.arrive 0 (⟨10, [1, 9], 32, [6]⟩ : Msg Nat)]).1).1 =
    .outofseq := by decide

/-! ### C233: ids of events posted -/

/-- The full property: an event is said to be bound if and only if it is posted. -/
def C233_full : Prop := ∀ (c : Chan) (cat : Int) (id : List Int), bound c cat id = true ↔ ∃ e, post c cat id = some e

/-- So it is unless the event is disabled in the map.  Missing: that case. -/
theorem C233_bound_partial (c : Chan) (cat : Int) (id : List Int) (h : c.postMap.lookup (cat :: id) ≠ some []) :
    bound c cat id = true ↔ ∃ e, post c cat id = some e := by
  unfold bound mapPost post
  cases hl : c.postMap.lookup (cat :: id) with
  | some e =>
    rw [hl] at h
    cases e with
    | nil => exact absurd rfl h
    | cons a e => simp
  | none =>
    dsimp only
    cases c.catPrefix.lookup cat with
    | some p => cases p <;> simp
    | none => cases c.postPrefix <;> simp

/-- An event mapped by itself is posted as that; if that is nothing, it is not posted. -/
theorem C233_explicit (c : Chan) (cat : Int) (id e : List Int) (h : c.postMap.lookup (cat :: id) = some e) :
    (e ≠ [] → post c cat id = some e) ∧ (e = [] → post c cat id = none) := by
  unfold post
  rw [h]
  cases e <;> simp

/-- An event that is not mapped by itself has the prefix of its category, or the common one; without prefix it is
not posted. -/
theorem C233_prefix (c : Chan) (cat : Int) (id p : List Int) (h : c.postMap.lookup (cat :: id) = none)
    (hp : c.catPrefix.lookup cat = some p ∨ (c.catPrefix.lookup cat = none ∧ c.postPrefix = p)) :
    (p ≠ [] → post c cat id = some (p ++ id)) ∧ (p = [] → post c cat id = none) := by
  unfold post
  rw [h]
  dsimp only
  rcases hp with hp | ⟨hp, rfl⟩
  · rw [hp]
    cases p <;> simp [Hiid.cat]
  · rw [hp]
    cases hc : c.postPrefix <;> simp [Hiid.cat]

/-- A channel with the same prefix receives the event with the id it was posted with. -/
theorem C233_received (a b : Chan) (cat : Int) (id p m : List Int) (ha : a.postMap.lookup (cat :: id) = none)
    (hp : a.catPrefix.lookup cat = some p ∨ (a.catPrefix.lookup cat = none ∧ a.postPrefix = p))
    (hm : post a cat id = some m) (hb : b.recvMap.lookup m = none) (hr : b.recvPrefix = p) :
    mapReceive b m = .ok (some id) := by
  obtain ⟨h1, h2⟩ := C233_prefix a cat id p ha hp
  by_cases hpe : p = []
  · rw [h2 hpe] at hm; cases hm
  · rw [h1 hpe] at hm
    cases hm
    have hlen : p.length ≠ 0 := fun e => hpe (List.length_eq_zero_iff.1 e)
    unfold mapReceive
    rw [hb]
    dsimp only
    rw [hr, prefixed, if_pos (by simpa using hpe)]
    have : Hiid.subId (p ++ id) p.length (-1) = .ok id := by
      unfold Hiid.subId
      dsimp only
      have hl : ((p ++ id).length : Int) = p.length + id.length := by simp
      rw [if_pos (show (p.length : Int) ≥ 0 by omega), if_neg (show ¬ (-1 : Int) ≥ 0 by omega), hl, if_neg (by omega)]
      by_cases hid : id = []
      · subst hid
        rw [if_pos (by simp)]
      · have : 0 < id.length := List.length_pos_iff.2 hid
        rw [if_neg (by simp; omega)]
        congr 1
        rw [show ((p.length : Int)).toNat = p.length by omega, List.drop_left,
          List.take_of_length_le (by simp; omega)]
    rw [this]

/-- An event mapped to nothing is bound, but not posted. -/
theorem C233_refuted : ¬ C233_full := by
  intro h
  obtain ⟨e, he⟩ := (h ⟨[], [], [([1, 2], [])], [], []⟩ 1 [2]).1 (by decide)
  revert he
  rw [show post ⟨[], [], [([1, 2], [])], [], []⟩ 1 [2] = none by decide]
  intro he; cases he

example : post ⟨[], [], [([1, 2], [8])], [(3, [])], [4, 5]⟩ 1 [2] = some [8] ∧
    post ⟨[], [], [([1, 2], [8])], [(3, [])], [4, 5]⟩ 1 [6] = some [4, 5, 6] ∧
    post ⟨[], [], [([1, 2], [8])], [(3, [])], [4, 5]⟩ 3 [6] = none := by decide

/-! ### C234: events from files -/

/-- The full property: what is got matches the mask. -/
def C234_full : Prop :=
  ∀ (s : File Nat) (mask : List Int → Bool) e d f s', fileGet mask s = .ok (.event e d f, s') → mask e = true

/-- Events are got in the order of the file, each once, whatever was asked for; reading never fails if each
part of the file has an event. -/
theorem C234_order (masks : List (List Int → Bool)) : ∀ (s : File δ), (∀ c ∈ s.more, c ≠ []) →
    ∃ es s', fileRun masks s = .ok (es, s') ∧ es ++ (s'.stream ++ s'.more.flatten) = s.stream ++ s.more.flatten := by
  induction masks with
  | nil => intro s _; exact ⟨[], s, rfl, rfl⟩
  | cons m ms ih =>
    intro s h
    obtain ⟨st, mo⟩ := s
    unfold fileRun fileGet fileHas
    cases st with
    | nil =>
      cases mo with
      | nil => exact ih _ h
      | cons c cs =>
        cases c with
        | nil => exact absurd rfl (h [] (by simp))
        | cons e es =>
          dsimp only
          obtain ⟨es', s', h1, h2⟩ := ih ⟨es, cs⟩ (fun c hc => h c (by simp [hc]))
          rw [h1]
          exact ⟨_, s', rfl, by rw [List.cons_append, h2]; simp⟩
    | cons e es =>
      dsimp only
      by_cases hm : m e.id = true
      · rw [if_pos hm]
        dsimp only
        obtain ⟨es', s', h1, h2⟩ := ih ⟨es, mo⟩ h
        rw [h1]
        exact ⟨_, s', rfl, by rw [List.cons_append, h2]; simp⟩
      · rw [if_neg hm]
        dsimp only
        exact ih _ h

/-- If the channel is asked for any event and there is one, it gives one. -/
theorem C234_given (mask : List Int → Bool) (hm : ∀ e, mask e = true) (s : File δ) (h : ∀ c ∈ s.more, c ≠ []) (e : Ev δ)
    (es : List (Ev δ)) (hs : s.stream ++ s.more.flatten = e :: es) :
    ∃ s', fileGet mask s = .ok (.event e.id e.data e.src, s') ∧ s'.stream ++ s'.more.flatten = es := by
  obtain ⟨st, mo⟩ := s
  unfold fileGet fileHas
  cases st with
  | nil =>
    cases mo with
    | nil => cases hs
    | cons c cs =>
      cases c with
      | nil => exact absurd rfl (h [] (by simp))
      | cons a as =>
        simp at hs
        obtain ⟨rfl, rfl⟩ := hs
        exact ⟨_, rfl, rfl⟩
  | cons a as =>
    simp at hs
    obtain ⟨rfl, rfl⟩ := hs
    dsimp only
    rw [if_pos (hm _)]
    exact ⟨_, rfl, rfl⟩

/-- What is got matches the mask if the stream was not empty.  Missing: events got by reading the file. -/
theorem C234_mask_partial (s : File δ) (hne : s.stream ≠ []) (mask : List Int → Bool) (e : List Int) (d : δ)
    (f : List Int) (s' : File δ) (h : fileGet mask s = .ok (.event e d f, s')) : mask e = true := by
  obtain ⟨st, mo⟩ := s
  unfold fileGet fileHas at h
  cases st with
  | nil => exact absurd rfl hne
  | cons a as =>
    dsimp only at h
    by_cases hm : mask a.id = true
    · rw [if_pos hm] at h
      dsimp only at h
      cases h
      exact hm
    · rw [if_neg hm] at h
      cases h

/-- The first event of a file is given to whoever asks for another one. -/
theorem C234_refuted : ¬ C234_full := by
  intro h
  have := h ⟨[], [[⟨[1], 5, []⟩]]⟩ (fun e => e = [2]) [1] 5 [] ⟨[], []⟩ rfl
  revert this
  decide

/-- The second one is not. -/
example : (match fileRun [fun _ => true, fun e => decide (e = [2]), fun _ => true]
      (⟨[], [[⟨[1], 5, []⟩, ⟨[3], 6, []⟩], [⟨[4], 7, []⟩]]⟩ : File Nat) with
    | .ok (es, _) => es.map (fun e => e.data) | _ => []) = [5, 6] := by decide

end Verif.EventMux
