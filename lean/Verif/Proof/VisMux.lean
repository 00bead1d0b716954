import Verif.Spec.VisMux
import Mathlib.Tactic.Linarith
import Mathlib.Algebra.Group.Int.Even
/-! # Visibility streams: lemmas -/
namespace Verif.VisMux

/-! ## Baseline numbers -/

/-- `n (n + 1) / 2`. -/
def tri (n : Int) : Int := n * (n + 1) / 2

theorem tri_two (n : Int) : 2 * tri n = n * (n + 1) := by
  unfold tri
  have : (2 : Int) ∣ n * (n + 1) := (Int.even_mul_succ_self n).two_dvd
  omega

theorem tri_mono {a b : Int} (ha : 0 ≤ a) (h : a < b) : tri a + a < tri b := by
  have h1 := tri_two a
  have h2 := tri_two b
  nlinarith

theorem ifr_eq (a b : Int) : ifrNumber a b = if a < b then 2 * (tri b + a) + 1 else 2 * (tri a + b) := rfl

theorem pair_inj {a b c d : Int} (ha : 0 ≤ b) (hab : b ≤ a) (hc : 0 ≤ d) (hcd : d ≤ c) (h : tri a + b = tri c + d) :
    a = c ∧ b = d := by
  rcases lt_trichotomy a c with hl | he | hg
  · have := tri_mono (by omega) hl; omega
  · subst he; omega
  · have := tri_mono (by omega) hg; omega

theorem ifr_inj {a b c d : Int} (ha : 0 ≤ a) (hb : 0 ≤ b) (hc : 0 ≤ c) (hd : 0 ≤ d) (h : ifrNumber a b = ifrNumber c d) :
    a = c ∧ b = d := by
  rw [ifr_eq, ifr_eq] at h
  split at h <;> split at h
  · have := pair_inj ha (by omega) hc (by omega) (show tri b + a = tri d + c by omega); omega
  · omega
  · omega
  · have := pair_inj hb (by omega) hd (by omega) (show tri a + b = tri c + d by omega); omega

theorem ifr_nonneg {a b : Int} (ha : 0 ≤ a) (hb : 0 ≤ b) : 0 ≤ ifrNumber a b := by
  rw [ifr_eq]
  have h1 := tri_two a
  have h2 := tri_two b
  split
  · nlinarith
  · nlinarith

theorem ifr_known {a b n : Int} (ha : 0 ≤ a) (hb : 0 ≤ b) (han : a < n) (hbn : b < n) :
    ifrNumber a b < ifrNumber (n - 1) (n - 1) + 1 := by
  rw [ifr_eq, ifr_eq, if_neg (lt_irrefl _)]
  split
  · rename_i h
    by_cases hc : b = n - 1
    · subst hc; omega
    · have := tri_mono hb (show b < n - 1 by omega); omega
  · rename_i h
    by_cases hc : a = n - 1
    · subst hc; omega
    · have := tri_mono ha (show a < n - 1 by omega); omega

theorem ifr_unknown {a b n : Int} (ha : 0 ≤ a) (hb : 0 ≤ b) (hn : 0 < n) (h : n ≤ a ∨ n ≤ b) :
    ifrNumber (n - 1) (n - 1) + 1 < ifrNumber a b := by
  rw [ifr_eq, ifr_eq, if_neg (lt_irrefl _)]
  split
  · have := tri_mono (show 0 ≤ n - 1 by omega) (show n - 1 < b by omega); omega
  · have := tri_mono (show 0 ≤ n - 1 by omega) (show n - 1 < a by omega); omega

theorem count_pos (h : Header) : 0 < h.count := by unfold Header.count; split <;> omega

theorem maxDid_eq (h : Header) : (maxDid h : Int) = ifrNumber (h.count - 1) (h.count - 1) + 1 := by
  have := count_pos h
  have := ifr_nonneg (show 0 ≤ h.count - 1 by omega) (show 0 ≤ h.count - 1 by omega)
  unfold maxDid
  show (((ifrNumber (h.count - 1) (h.count - 1) + 1).toNat : Nat) : Int) = _
  omega

theorem known_lt {h : Header} {t : Tile} (hf : t.fine) (hk : t.known h = true) : 0 ≤ t.did ∧ t.did < maxDid h := by
  unfold Tile.known at hk
  rw [Bool.and_eq_true, decide_eq_true_eq, decide_eq_true_eq] at hk
  rw [maxDid_eq]
  exact ⟨ifr_nonneg hf.1 hf.2.1, ifr_known hf.1 hf.2.1 hk.1 hk.2⟩

theorem unknown_gt {h : Header} {t : Tile} (hf : t.fine) (hk : t.known h = false) : (maxDid h : Int) < t.did := by
  unfold Tile.known at hk
  rw [Bool.and_eq_false_iff, decide_eq_false_iff_not, decide_eq_false_iff_not] at hk
  rw [maxDid_eq]
  exact ifr_unknown hf.1 hf.2.1 (count_pos h) (by omega)

/-! ## What calls change -/

/-- `s'` comes from `s` by the calls `obs` of the tree (and others). -/
def Ext (s s' : St) (obs : List Obs) : Prop :=
  s' = { s with trace := s'.trace, cached := s'.cached, err := s'.err, fails := s'.fails } ∧ tree s'.trace = tree s.trace ++ obs

theorem Ext.refl (s : St) : Ext s s [] := ⟨rfl, by simp⟩

theorem Ext.trans {a b c : St} {l m : List Obs} (h : Ext a b l) (g : Ext b c m) : Ext a c (l ++ m) := by
  refine ⟨?_, by rw [g.2, h.2, List.append_assoc]⟩
  have h1 := h.1
  have g1 := g.1
  rw [g1, h1]

theorem ext_trace (s : St) (o : Obs) (e : Bool) : Ext s { s with trace := s.trace ++ [o], err := e } (if o.tree then [o] else []) := by
  refine ⟨rfl, ?_⟩
  show tree (s.trace ++ [o]) = _
  unfold tree
  rw [List.filter_append]
  cases h : o.tree <;> simp [h]

theorem ext_call (v : Env) (o : Obs) (s : St) : Ext s (call v o s) (if o.tree then [o] else []) := ext_trace ..

theorem ext_err (s : St) (e : Bool) : Ext s { s with err := e } [] := ⟨rfl, by simp⟩

theorem ext_calls (v : Env) (l : List Obs) (hl : ∀ o ∈ l, o.tree = true) (s : St) : Ext s (calls v l s) l := by
  induction l generalizing s with
  | nil => exact Ext.refl s
  | cons o l ih =>
    have h1 := ext_call v o s
    rw [if_pos (hl o (by simp))] at h1
    exact h1.trans (ih (fun x hx => hl x (by simp [hx])) _)

theorem ext_postOut (v : Env) (e : Out) (s : St) : Ext s (postOut v e s).1 [] := by
  unfold postOut
  split
  · exact ext_trace s (.outFails e) true
  · exact ext_trace s (.out e) s.err

theorem ext_postHeader (v : Env) (s : St) : Ext s (postHeader v s).1 [] := by
  unfold postHeader
  split
  · exact Ext.refl s
  · rename_i h _
    have := ext_postOut v (.header h) s
    dsimp only
    split
    · exact ⟨by have h1 := this.1; rw [h1], this.2⟩
    · exact this

theorem ext_pollSink (v : Env) (c : Conf) (rq : Rq) (s : St) (i : Nat) : Ext s (pollSink v c rq s i) [.poll i rq] := by
  have h0 : Ext s { s with trace := s.trace ++ [.poll i rq] } [.poll i rq] := ext_trace s (.poll i rq) s.err
  unfold pollSink
  dsimp only
  split
  · exact h0.trans (ext_err _ true)
  · exact h0
  · split
    · split
      · exact (h0.trans (ext_postHeader v _)).trans (ext_postOut v _ _)
      · exact h0.trans (ext_postHeader v _)
    · exact h0

theorem ext_polls (v : Env) (c : Conf) (rq : Rq) (l : List Nat) (s : St) :
    Ext s (l.foldl (pollSink v c rq) s) (l.map fun i => .poll i rq) := by
  induction l generalizing s with
  | nil => exact Ext.refl s
  | cons i l ih => exact (ext_pollSink v c rq s i).trans (ih _)

theorem ext_ifThere (v : Env) (b : Bool) (o : Obs) (ho : o.tree = true) (s : St) :
    Ext s (if b then call v o s else s) (ifThere b o) := by
  unfold ifThere
  cases b
  · exact Ext.refl s
  · have := ext_call v o s
    rw [if_pos ho] at this
    exact this

theorem ext_enabled {s s' : St} {l : List Obs} (h : Ext s s' l) : enabled s' = enabled s := by
  have h1 := h.1
  unfold enabled
  rw [h1]

theorem ext_end (v : Env) (c : Conf) (s : St) (rq : Rq) (h : s.req = some rq) :
    Ext s (endSnippet v c s) (ifThere c.hasPre (.pre rq) ++ (v.order rq (enabled s)).map (fun i => .poll i rq) ++ ifThere c.hasPost (.post rq)) := by
  unfold endSnippet
  rw [h]
  dsimp only
  have h1 := ext_ifThere v c.hasPre (.pre rq) rfl s
  generalize hs1 : (if c.hasPre = true then call v (.pre rq) s else s) = s1 at h1 ⊢
  rw [ext_enabled h1]
  exact (h1.trans (ext_polls v c rq _ s1)).trans (ext_ifThere v c.hasPost (.post rq) rfl _)

/-! ## A data set -/

/-- The flags of the data ids with a tile. -/
def flags (n : Nat) (ts : List Tile) : List Bool := (List.range n).map fun (i : Nat) => ts.any fun t => t.did == (i : Int)

theorem enabled_eq (s : St) (ts : List Tile) (h : s.have_ = flags s.kids.length ts) : enabled s = sinksOf s.kids ts := by
  unfold enabled sinksOf
  rw [h]
  unfold flags
  generalize s.kids = k
  have : ∀ (k : List (List Nat)) (f : Nat → Bool),
      ((k.zip ((List.range k.length).map f)).filter (·.2)).flatMap (·.1) =
        (List.range k.length).flatMap fun i => if f i then k.getD i [] else [] := by
    clear h
    intro k
    induction k with
    | nil => intro f; rfl
    | cons a k ih =>
      intro f
      rw [List.length_cons, List.range_succ_eq_map, List.map_cons, List.map_map, List.zip_cons_cons, List.filter_cons, List.flatMap_cons,
        List.flatMap_map]
      have := ih (f ∘ Nat.succ)
      cases hf : f 0 with
      | false =>
        simp only [Bool.false_eq_true, if_false, List.nil_append]
        rw [this]; simp
      | true =>
        simp only [if_true, List.flatMap_cons]
        rw [this]; simp
  exact this k _

theorem flags_length (n : Nat) (ts : List Tile) : (flags n ts).length = n := by simp [flags]

theorem flags_nil (n : Nat) : flags n [] = List.replicate n false := by
  unfold flags
  simp only [List.any_nil]
  rw [List.map_const', List.length_range]

theorem flags_add (n : Nat) (ts : List Tile) (t : Tile) (h0 : 0 ≤ t.did) :
    (flags n ts).set t.did.toNat true = flags n (ts ++ [t]) := by
  apply List.ext_getElem
  · simp [flags]
  · intro i h1 h2
    rw [List.getElem_set]
    simp only [flags, List.getElem_map, List.getElem_range, List.any_append, List.any_cons, List.any_nil, Bool.or_false]
    by_cases h : t.did.toNat = i
    · rw [if_pos h]
      have : t.did = (i : Int) := by omega
      simp [this]
    · rw [if_neg h]
      have : t.did ≠ (i : Int) := by omega
      simp [this]

theorem ext_settle (s : St) : Ext s (settle s) [] := ⟨rfl, by simp [settle]⟩

/-- In a data set, in snippet `k`, of which `ts` have been seen. -/
structure Opened (hs ks : List (List Nat)) (ds k : Nat) (ts : List Tile) (s : St) : Prop where
  handlers : s.handlers = hs
  kids : s.kids = ks
  have_ : s.have_ = flags hs.length ts
  first : ∃ t r, ts = t :: r ∧ s.seqnr = t.seq
  pos : 0 ≤ s.seqnr
  next : s.next = ⟨ds, k + 1⟩
  req : s.req = some ⟨ds, k⟩
  range : s.range = rowsOf ts
  num : s.numTiles = k + 1
  inData : s.inData = true
  fatal : s.fatal = false

theorem Opened.ext {hs ks ds k ts s s' l} (h : Opened hs ks ds k ts s) (e : Ext s s' l) : Opened hs ks ds k ts s' := by
  obtain ⟨e1, -⟩ := e
  constructor
  · rw [e1]; exact h.handlers
  · rw [e1]; exact h.kids
  · rw [e1]; exact h.have_
  · rw [e1]; exact h.first
  · rw [e1]; exact h.pos
  · rw [e1]; exact h.next
  · rw [e1]; exact h.req
  · rw [e1]; exact h.range
  · rw [e1]; exact h.num
  · rw [e1]; exact h.inData
  · rw [e1]; exact h.fatal

/-- What is given to the nodes for a tile. -/
def given (hs : List (List Nat)) (rq : Rq) (range : Nat × Nat) (t : Tile) : List Obs :=
  (nodesAt hs t.did).map fun n => .tile n t rq range

theorem rowsOf_append {ts : List Tile} (r : List Tile) (h : ∃ t l, ts = t :: l) : rowsOf (ts ++ r) = rowsOf ts := by
  obtain ⟨t, l, rfl⟩ := h
  rfl

/-- A tile handed on in its snippet. -/
theorem handTile_spec (v : Env) {hs ts s} {t : Tile} (rq : Rq) (h0 : 0 ≤ t.did) (hl : t.did < hs.length)
    (hh : s.handlers = hs) (hv : s.have_ = flags hs.length ts) (hr : s.req = some rq) :
    ∃ s1, handTile v t s = some s1 ∧ s1.have_ = flags hs.length (ts ++ [t]) ∧
      Ext { s with have_ := flags hs.length (ts ++ [t]) } s1 (given hs rq s.range t) := by
  have hlt : t.did.toNat < s.handlers.length := by rw [hh]; omega
  have hE : Ext { s with have_ := flags hs.length (ts ++ [t]) }
      (calls v ((nodesAt hs t.did).map fun n => .tile n t rq s.range) { s with have_ := flags hs.length (ts ++ [t]) })
      (given hs rq s.range t) := by
    apply ext_calls
    intro o ho
    obtain ⟨n, -, rfl⟩ := List.mem_map.mp ho
    rfl
  refine ⟨_, ?_, ?_, hE⟩
  · unfold handTile
    rw [if_neg (by omega), List.getElem?_eq_getElem hlt]
    dsimp only
    rw [hv, flags_add _ _ _ h0]
    unfold toHandlers
    have : nodesAt hs t.did = s.handlers[t.did.toNat] := by
      unfold nodesAt
      rw [if_neg (by omega)]
      subst hh
      rw [List.getD_eq_getElem?_getD, List.getElem?_eq_getElem hlt]
      rfl
    rw [this]
    simp only [hr]
  · have h1 := hE.1
    rw [h1]

theorem loop_cons (v : Env) (c : Conf) {s s1 : St} {e : In} (l : List In) (hf : s.fatal = false) (h : event v c s e = some s1) :
    loop v c s (e :: l) = loop v c s1 l := by
  rw [loop, hf, h]; rfl

theorem call_fields (v : Env) (o : Obs) (s : St) :
    (call v o s).inData = s.inData ∧ (call v o s).fatal = s.fatal ∧ (call v o s).numTiles = s.numTiles ∧ (call v o s).handlers = s.handlers ∧
      (call v o s).seqnr = s.seqnr := ⟨rfl, rfl, rfl, rfl, rfl⟩

/-- A tile that is not looked at. -/
theorem event_skip (v : Env) (c : Conf) (t : Tile) (s : St) (hd : s.inData = true)
    (h : over c s.numTiles = true ∨ (s.handlers.length : Int) < t.did) :
    ∃ s1, event v c s (.tile t) = some s1 ∧ Ext s s1 [] := by
  refine ⟨settle (call v (.pyTile t) s), ?_, ?_⟩
  · show (if s.inData then _ else _) = _
    rw [if_pos hd]
    unfold deliverTile
    by_cases ho : over c s.numTiles = true
    · rw [if_pos (show over c (call v (.pyTile t) s).numTiles = true from ho)]; rfl
    · rw [if_neg (show ¬ over c (call v (.pyTile t) s).numTiles = true from ho),
        if_pos (show ((call v (.pyTile t) s).handlers.length : Int) < t.did from h.resolve_left ho)]
      rfl
  · exact (ext_call v (.pyTile t) s).trans (ext_settle _)

/-- A tile of the snippet at hand. -/
theorem event_same (v : Env) (c : Conf) {hs ks ds k ts s} {t : Tile} (ho : Opened hs ks ds k ts s) (hov : over c (k + 1) = false)
    (h0 : 0 ≤ t.did) (hl : t.did < hs.length) (hq : t.seq = s.seqnr) :
    ∃ s1, event v c s (.tile t) = some s1 ∧ Opened hs ks ds k (ts ++ [t]) s1 ∧
      tree s1.trace = tree s.trace ++ given hs ⟨ds, k⟩ (rowsOf ts) t := by
  have hp := ho.ext (ext_call v (.pyTile t) s)
  obtain ⟨s1, h1, h2, h3⟩ := handTile_spec v ⟨ds, k⟩ h0 hl hp.handlers hp.have_ hp.req
  refine ⟨settle s1, ?_, ?_, ?_⟩
  · show (if s.inData then _ else _) = _
    rw [if_pos ho.inData]
    unfold deliverTile
    rw [hp.num, hov, if_neg (by simp), hp.handlers, if_neg (by omega), if_pos (by rw [hq]; rfl), h1]
    rfl
  · apply Opened.ext _ (h3.trans (ext_settle _))
    exact ⟨hp.handlers, hp.kids, rfl, by obtain ⟨a, r, e, q⟩ := hp.first; exact ⟨a, r ++ [t], by rw [e]; rfl, q⟩, hp.pos, hp.next,
      hp.req, by rw [rowsOf_append _ (by obtain ⟨a, r, e, q⟩ := hp.first; exact ⟨a, r, e⟩)]; exact hp.range, hp.num, hp.inData, hp.fatal⟩
  · have e1 := (h3.trans (ext_settle _)).2
    rw [hp.range, List.append_nil] at e1
    rw [e1]
    show tree (call v (.pyTile t) s).trace ++ _ = _
    rw [(ext_call v (.pyTile t) s).2]
    simp [Obs.tree]

/-- A new snippet begins. -/
theorem start_spec (v : Env) (c : Conf) {hs ks : List (List Nat)} {ds k : Nat} {s : St} {t : Tile} (hf : t.fine) (h0 : 0 ≤ t.did) (hl : t.did < hs.length)
    (hh : s.handlers = hs) (hk : s.kids = ks) (hn : s.next = ⟨ds, k⟩) (hnum : s.numTiles = k + 1) (hd : s.inData = true) (hft : s.fatal = false) :
    ∃ s1, (startSnippet v c t { s with seqnr := t.seq }).bind (handTile v t) = some s1 ∧ Opened hs ks ds k [t] s1 ∧
      tree s1.trace = tree s.trace ++ opening c hs ⟨ds, k⟩ [t] := by
  have hr : ∃ r, validRows t.rows = some r ∧ rowsOf [t] = r := by
    refine ⟨_, if_pos ?_, ?_⟩
    · rw [List.any_eq_true]; exact ⟨true, hf.2.2.2.1, rfl⟩
    · show (validRows t.rows).getD (0, 0) = _
      unfold validRows
      rw [if_pos (by rw [List.any_eq_true]; exact ⟨true, hf.2.2.2.1, rfl⟩)]
      rfl
  obtain ⟨r, hr1, hr2⟩ := hr
  have hE := ext_ifThere v c.hasStart (.start ⟨ds, k⟩) rfl
    { s with seqnr := t.seq, next := ⟨ds, k + 1⟩, range := r, req := some ⟨ds, k⟩, have_ := List.replicate s.handlers.length false }
  generalize hs2 : (if c.hasStart = true then call v (.start ⟨ds, k⟩)
    { s with seqnr := t.seq, next := ⟨ds, k + 1⟩, range := r, req := some ⟨ds, k⟩, have_ := List.replicate s.handlers.length false } else _) = s2 at hE
  have e1 := hE.1
  obtain ⟨s1, g1, g2, g3⟩ := handTile_spec v (hs := hs) (ts := []) (s := s2) ⟨ds, k⟩ h0 hl (by rw [e1]; exact hh)
    (by rw [e1, flags_nil, ← hh]) (by rw [e1])
  have hs2r : s2.range = r := by rw [e1]
  have e3 := g3.1
  refine ⟨s1, ?_, ⟨?_, ?_, g2, ⟨t, [], rfl, ?_⟩, ?_, ?_, ?_, ?_, ?_, ?_, ?_⟩, ?_⟩
  · unfold startSnippet
    simp only [hr1, hf.2.2.2.2, if_true, hn]
    rw [hs2]
    exact g1
  · rw [e3, e1]; exact hh
  · rw [e3, e1]; exact hk
  · rw [e3, e1]
  · rw [e3, e1]; exact hf.2.2.1
  · rw [e3, e1]
  · rw [e3, e1]
  · rw [e3, e1]; exact hr2.symm
  · rw [e3, e1]; exact hnum
  · rw [e3, e1]; exact hd
  · rw [e3, e1]; exact hft
  · rw [g3.2]
    show tree s2.trace ++ _ = _
    rw [hE.2, List.append_assoc]
    congr 1
    unfold opening given
    rw [hs2r, hr2]
    simp

/-- The end of a snippet. -/
theorem end_spec (v : Env) (c : Conf) {hs ks ds k ts s} (ho : Opened hs ks ds k ts s) (hlen : ks.length = hs.length) :
    Ext s (endSnippet v c s) (ending v c ks ⟨ds, k⟩ ts) := by
  have := ext_end v c s ⟨ds, k⟩ ho.req
  rw [enabled_eq s ts (by rw [ho.have_, ho.kids, hlen]), ho.kids] at this
  exact this

/-- After the last tile allowed. -/
theorem spent (v : Env) (c : Conf) (f : Nat) (l : List Tile) (s : St) (hov : over c s.numTiles = true) (hd : s.inData = true)
    (hf : s.fatal = false) :
    ∃ s1, loop v c s (l.map .tile ++ [.footer f]) = some s1 ∧ Ext { s with inData := false } s1 [] := by
  induction l generalizing s with
  | nil =>
    have hE := ext_call v (.pyFooter f) { s with inData := false }
    refine ⟨settle (deliverFooter v c f (call v (.pyFooter f) { s with inData := false })), ?_, ?_⟩
    · rw [List.map_nil, List.nil_append, loop_cons v c [] hf (s1 := _) (by
        show (if s.inData then _ else _) = _
        rw [if_pos hd])]
      rfl
    · refine Ext.trans (l := []) ?_ (ext_settle _)
      unfold deliverFooter
      dsimp only
      rw [if_pos (show over c (call v (.pyFooter f) { s with inData := false }).numTiles = true from hov)]
      split
      · exact (hE).trans (ext_postOut v _ _)
      · exact hE
  | cons t l ih =>
    obtain ⟨s1, h1, h2⟩ := event_skip v c t s hd (.inl hov)
    have e1 := h2.1
    obtain ⟨s2, g1, g2⟩ := ih s1 (by rw [e1]; exact hov) (by rw [e1]; exact hd) (by rw [e1]; exact hf)
    refine ⟨s2, ?_, ?_⟩
    · rw [List.map_cons, List.cons_append, loop_cons v c _ hf h1]
      exact g1
    · refine ⟨by have := g2.1; rw [this, e1], ?_⟩
      rw [g2.2]
      show tree s1.trace ++ [] = tree s.trace ++ []
      rw [h2.2, List.append_nil]

theorem parts_flatten_nil {l : List (List Tile)} (h : Parts l) (he : l.flatten = []) : l = [] := by
  cases l with
  | nil => rfl
  | cons a l =>
    obtain ⟨⟨t, r, rfl, -⟩, -⟩ := h
    simp at he

theorem over_mono (c : Conf) {a b : Nat} (h : a ≤ b) (ho : over c a = true) : over c b = true := by
  unfold over at *
  split at ho
  · simp at ho
  · rw [decide_eq_true_eq] at *; omega

/-- The state after a data set. -/
def After (hs ks : List (List Nat)) (s : St) : Prop := s.handlers = hs ∧ s.kids = ks ∧ Between s

/-- The rest of a data set from within a snippet. -/
theorem opened_run (v : Env) (c : Conf) (h : Header) (f : Nat) {hs ks : List (List Nat)} (hm : hs.length = maxDid h) (hlen : ks.length = hs.length) (ds : Nat)
    (l : List Tile) : ∀ (k : Nat) (ts r : List Tile) (rest : List (List Tile)) (s : St), Opened hs ks ds k ts s → over c (k + 1) = false →
    (∀ t ∈ l, t.fine) → l.filter (Tile.known h) = r ++ rest.flatten → Parts ((ts ++ r) :: rest) →
    ∃ s', loop v c s (l.map .tile ++ [.footer f]) = some s' ∧ After hs ks s' ∧ s'.next.dataset = ds ∧
      tree s'.trace = tree s.trace ++ r.flatMap (given hs ⟨ds, k⟩ (rowsOf ts)) ++ ending v c ks ⟨ds, k⟩ (ts ++ r) ++
        snippets v c hs ks ds (k + 1) (taken c (k + 1) rest) ++ (if over c (k + 1 + rest.length) then [] else footers hs f) := by
  induction l with
  | nil =>
    intro k ts r rest s ho hov _ hfl hp
    have hr : r = [] ∧ rest.flatten = [] := by
      rw [List.filter_nil] at hfl
      exact List.append_eq_nil_iff.mp hfl.symm
    obtain ⟨rfl, hrest⟩ := hr
    have := parts_flatten_nil hp.2 hrest
    subst this
    have hE := ext_call v (.pyFooter f) { s with inData := false }
    generalize hs1 : call v (.pyFooter f) { s with inData := false } = s1 at hE
    have hE' := hE.1
    have ho1 : s1.handlers = hs ∧ s1.kids = ks ∧ s1.have_ = flags hs.length ts ∧ 0 ≤ s1.seqnr ∧ s1.req = some ⟨ds, k⟩ ∧ s1.numTiles = k + 1 ∧
        s1.inData = false ∧ s1.fatal = false ∧ s1.next = ⟨ds, k + 1⟩ := by
      rw [hE']
      exact ⟨ho.handlers, ho.kids, ho.have_, ho.pos, ho.req, ho.num, rfl, ho.fatal, ho.next⟩
    have hend := ext_end v c s1 ⟨ds, k⟩ ho1.2.2.2.2.1
    rw [enabled_eq s1 ts (by rw [ho1.2.2.1, ho1.2.1, hlen]), ho1.2.1] at hend
    have hend' := hend.1
    have hfoot : Ext (endSnippet v c s1) (calls v (footers hs f) (endSnippet v c s1)) (footers hs f) := by
      apply ext_calls
      intro o hmem
      obtain ⟨n, -, rfl⟩ := List.mem_map.mp hmem
      rfl
    have hdel : Ext s1 (deliverFooter v c f s1) (ending v c ks ⟨ds, k⟩ ts ++ footers hs f) := by
      unfold deliverFooter
      dsimp only
      rw [ho1.2.2.2.2.2.1, hov, if_neg (show ¬ (false = true) by simp), if_pos ho1.2.2.2.1]
      have hh : (endSnippet v c s1).handlers = hs := by rw [hend']; exact ho1.1
      rw [hh]
      split
      · have := (hend.trans hfoot).trans (ext_postOut v (.footer f) _)
        rw [List.append_nil] at this
        exact this
      · exact hend.trans hfoot
    have hall := (hE.trans hdel).trans (ext_settle _)
    have ha := hall.1
    refine ⟨settle (deliverFooter v c f s1), ?_, ?_, ?_, ?_⟩
    · rw [List.map_nil, List.nil_append, loop_cons v c [] ho.fatal (s1 := settle (deliverFooter v c f s1)) (by
        show (if s.inData then _ else _) = _
        rw [if_pos ho.inData, hs1])]
      rfl
    · rw [ha]
      exact ⟨ho.handlers, ho.kids, rfl, ho.fatal⟩
    · rw [ha]
      show s.next.dataset = ds
      rw [ho.next]
    · rw [hall.2]
      have : over c (k + 1 + ([] : List (List Tile)).length) = false := hov
      rw [this]
      have h2 : taken c (k + 1) [] = [] := by unfold taken; split <;> simp
      rw [h2]
      simp [snippets, Obs.tree]
  | cons t l ih =>
    intro k ts r rest s ho hov hfine hfl hp
    have hft := hfine t (by simp)
    have hfl' := fun u hu => hfine u (List.mem_cons_of_mem t hu)
    rw [List.map_cons, List.cons_append]
    cases hkn : t.known h with
    | false =>
      rw [List.filter_cons_of_neg (by rw [hkn]; simp)] at hfl
      obtain ⟨s1, h1, h2⟩ := event_skip v c t s ho.inData (.inr (by rw [ho.handlers, hm]; exact unknown_gt hft hkn))
      obtain ⟨s', g1, g2, g3, g4⟩ := ih k ts r rest s1 (ho.ext h2) hov hfl' hfl hp
      refine ⟨s', by rw [loop_cons v c _ ho.fatal h1]; exact g1, g2, g3, ?_⟩
      rw [g4, h2.2, List.append_nil]
    | true =>
      rw [List.filter_cons_of_pos hkn] at hfl
      obtain ⟨hd0, hd1⟩ := known_lt hft hkn
      rw [← hm] at hd1
      cases r with
      | cons u r =>
        rw [List.cons_append] at hfl
        injection hfl with e1 e2
        subst e1
        have hq : t.seq = s.seqnr := by
          obtain ⟨a, b, e, q⟩ := ho.first
          obtain ⟨⟨x, y, e', hs', -⟩, -⟩ := hp
          rw [e, List.cons_append] at e'
          injection e' with e1 e2
          rw [q, hs' t (by rw [← e2]; simp), e1]
        obtain ⟨s1, h1, h2, h3⟩ := event_same v c ho hov hd0 hd1 hq
        obtain ⟨s', g1, g2, g3, g4⟩ := ih k (ts ++ [t]) r rest s1 h2 hov hfl' e2 (by rw [List.append_assoc]; exact hp)
        refine ⟨s', by rw [loop_cons v c _ ho.fatal h1]; exact g1, g2, g3, ?_⟩
        rw [g4, h3, rowsOf_append _ (by obtain ⟨a, b, e, -⟩ := ho.first; exact ⟨a, b, e⟩)]
        simp [List.append_assoc]
      | nil =>
        rw [List.append_nil] at hp
        rw [List.nil_append] at hfl
        cases rest with
        | nil => simp at hfl
        | cons p rest =>
          obtain ⟨⟨a, b, hts, hsame, hdiff⟩, ⟨x, y, hpx, hsame2, hdiff2⟩, hprest⟩ := hp
          subst hpx
          rw [List.flatten_cons, List.cons_append] at hfl
          injection hfl with e1 e2
          subst e1
          have hq : ¬ t.seq = s.seqnr := by
            obtain ⟨a', b', e, q⟩ := ho.first
            rw [hts] at e
            injection e with e3 e4
            rw [q, ← e3]
            exact hdiff t y rest rfl
          have hpy := ext_call v (.pyTile t) s
          rw [show (Obs.pyTile t).tree = false from rfl, if_neg (by simp)] at hpy
          have hop := ho.ext hpy
          generalize hs1 : call v (.pyTile t) s = s1 at hpy hop
          have hq1 : ¬ t.seq = s1.seqnr := by rw [hpy.1]; exact hq
          have hE := hpy.trans (end_spec v c hop hlen)
          have hoe := ho.ext hE
          rw [List.nil_append] at hE
          have hgoal : event v c s (.tile t) = (if over c (k + 2) then some { endSnippet v c s1 with numTiles := k + 2, err := s1.err }
              else (startSnippet v c t { endSnippet v c s1 with numTiles := k + 2, seqnr := t.seq }).bind (handTile v t)).map settle := by
            show (if s.inData then _ else _) = _
            rw [if_pos ho.inData, hs1]
            unfold deliverTile
            rw [hop.num, hov, if_neg (by simp), hop.handlers, if_neg (by omega), if_neg hq1, if_pos hop.pos]
            dsimp only
            rw [hoe.num]
          cases hov2 : over c (k + 2) with
          | true =>
            rw [hov2, if_pos rfl] at hgoal
            obtain ⟨s', g1, g2⟩ := spent v c f l (settle { endSnippet v c s1 with numTiles := k + 2, err := s1.err }) hov2
              hoe.inData hoe.fatal
            have ge := g2.1
            refine ⟨s', by rw [loop_cons v c _ ho.fatal hgoal]; exact g1, ?_, ?_, ?_⟩
            · rw [ge]
              exact ⟨hoe.handlers, hoe.kids, rfl, hoe.fatal⟩
            · rw [ge]
              show (endSnippet v c s1).next.dataset = ds
              rw [hoe.next]
            · rw [g2.2]
              show tree (endSnippet v c s1).trace ++ [] = _
              have ht : taken c (k + 1) ((t :: y) :: rest) = [] := by
                unfold taken
                unfold over at hov2
                cases hcm : c.max with
                | none => rw [hcm] at hov2; simp at hov2
                | some m =>
                  rw [hcm] at hov2
                  dsimp only at hov2 ⊢
                  rw [decide_eq_true_eq] at hov2
                  rw [show m - (k + 1) = 0 by omega]
                  rfl
              rw [ht, hE.2, if_pos (over_mono c (by rw [List.length_cons]; omega) hov2)]
              simp [snippets]
          | false =>
            rw [hov2, if_neg (by simp)] at hgoal
            obtain ⟨s2, h1, h2, h3⟩ := start_spec v c (s := { endSnippet v c s1 with numTiles := k + 2 }) hft hd0 hd1 hoe.handlers hoe.kids hoe.next rfl
              hoe.inData hoe.fatal
            rw [h1] at hgoal
            obtain ⟨s', g1, g2, g3, g4⟩ := ih (k + 1) [t] y rest (settle s2) (h2.ext (ext_settle _)) hov2 hfl' e2
              ⟨⟨t, y, rfl, hsame2, hdiff2⟩, hprest⟩
            refine ⟨s', by rw [loop_cons v c _ ho.fatal hgoal]; exact g1, g2, g3, ?_⟩
            rw [g4, (ext_settle _).2, h3]
            show tree (endSnippet v c s1).trace ++ _ ++ _ ++ _ ++ _ ++ _ ++ _ = _
            have ht : taken c (k + 1) ((t :: y) :: rest) = (t :: y) :: taken c (k + 2) rest := by
              unfold taken
              unfold over at hov2
              cases hcm : c.max with
              | none => rfl
              | some m =>
                rw [hcm] at hov2
                dsimp only at hov2 ⊢
                rw [decide_eq_false_iff_not] at hov2
                rw [show m - (k + 1) = (m - (k + 2)) + 1 by omega]
                rfl
            rw [ht, hE.2, snippets]
            have ho2 : opening c hs ⟨ds, k + 1⟩ (t :: y) = opening c hs ⟨ds, k + 1⟩ [t] ++ y.flatMap (given hs ⟨ds, k + 1⟩ (rowsOf [t])) := by
              unfold opening given
              simp [rowsOf]
            rw [ho2]
            have : k + 1 + 1 + rest.length = k + 1 + ((t :: y) :: rest).length := by rw [List.length_cons]; omega
            rw [this]
            simp [List.append_assoc]

end Verif.VisMux
