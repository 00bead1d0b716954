import Verif.Proof.VisMux
import Mathlib.Data.List.Basic
import Mathlib.Data.List.Induction
import Mathlib.Data.List.Nodup
/-! # Visibility streams: whole data sets -/
namespace Verif.VisMux

theorem group_cons (t : Tile) (l : List Tile) :
    (∃ u r g, group l = (u :: r) :: g ∧ u.seq = t.seq ∧ group (t :: l) = (t :: u :: r) :: g) ∨
    (group (t :: l) = [t] :: group l ∧ ∀ u r g, group l = (u :: r) :: g → u.seq ≠ t.seq) := by
  rw [group]
  split
  · rename_i u r g hg
    split
    · rename_i h; exact .inl ⟨u, r, g, hg, h, rfl⟩
    · rename_i h
      refine .inr ⟨by rw [hg], ?_⟩
      intro u' r' g' e
      rw [hg] at e
      injection e with e _
      injection e with e _
      rw [← e]; exact h
  · rename_i hg
    exact .inr ⟨rfl, fun u r g e => absurd e (hg u r g)⟩

theorem group_spec (l : List Tile) : (group l).flatten = l ∧ Parts (group l) := by
  induction l with
  | nil => exact ⟨rfl, trivial⟩
  | cons t l ih =>
    rcases group_cons t l with ⟨u, r, g, h1, h2, h3⟩ | ⟨h1, h2⟩
    · rw [h1] at ih
      rw [h3]
      refine ⟨by rw [← ih.1]; simp, ⟨t, u :: r, rfl, ?_, ?_⟩, ih.2.2⟩
      · obtain ⟨⟨a, b, e, hs, -⟩, -⟩ := ih.2
        injection e with e1 e2
        subst e1 e2
        intro x hx
        rcases List.mem_cons.mp hx with rfl | hx
        · exact h2
        · rw [hs x hx, h2]
      · obtain ⟨⟨a, b, e, -, hd⟩, -⟩ := ih.2
        injection e with e1 e2
        subst e1 e2
        intro x r' l' e
        rw [← h2]
        exact hd x r' l' e
    · rw [h1]
      exact ⟨by rw [List.flatten_cons, ih.1]; rfl, ⟨t, [], rfl, by simp, h2⟩, ih.2⟩

theorem resize_length (l : List (List Nat)) (n : Nat) : (resize l n).length = n := by
  unfold resize
  rw [List.length_append, List.length_take, List.length_replicate]
  omega

theorem over_zero (c : Conf) : over c 0 = false := by
  unfold over
  split <;> simp

/-- In a data set, before the first tile. -/
structure Fresh (hs ks : List (List Nat)) (ds : Nat) (s : St) : Prop where
  handlers : s.handlers = hs
  kids : s.kids = ks
  seqnr : s.seqnr = -1
  next : s.next = ⟨ds, 0⟩
  num : s.numTiles = 0
  inData : s.inData = true
  fatal : s.fatal = false

theorem Fresh.ext {hs ks ds s s' l} (h : Fresh hs ks ds s) (e : Ext s s' l) : Fresh hs ks ds s' := by
  obtain ⟨e1, -⟩ := e
  constructor
  · rw [e1]; exact h.handlers
  · rw [e1]; exact h.kids
  · rw [e1]; exact h.seqnr
  · rw [e1]; exact h.next
  · rw [e1]; exact h.num
  · rw [e1]; exact h.inData
  · rw [e1]; exact h.fatal

theorem ext_footers (v : Env) (hs : List (List Nat)) (f : Nat) (s : St) : Ext s (calls v (footers hs f) s) (footers hs f) := by
  apply ext_calls
  intro o hmem
  obtain ⟨n, -, rfl⟩ := List.mem_map.mp hmem
  rfl

theorem fresh_run (v : Env) (c : Conf) (h : Header) (f : Nat) {hs ks : List (List Nat)} (hm : hs.length = maxDid h) (hlen : ks.length = hs.length) (ds : Nat)
    (l : List Tile) : ∀ (rest : List (List Tile)) (s : St), Fresh hs ks ds s →
    (∀ t ∈ l, t.fine) → l.filter (Tile.known h) = rest.flatten → Parts rest →
    ∃ s', loop v c s (l.map .tile ++ [.footer f]) = some s' ∧ After hs ks s' ∧ s'.next.dataset = ds ∧
      tree s'.trace = tree s.trace ++ snippets v c hs ks ds 0 (taken c 0 rest) ++ (if over c rest.length then [] else footers hs f) := by
  induction l with
  | nil =>
    intro rest s ho _ hfl hp
    have := parts_flatten_nil hp hfl.symm
    subst this
    have hE := ext_call v (.pyFooter f) { s with inData := false }
    generalize hs1 : call v (.pyFooter f) { s with inData := false } = s1 at hE
    have hE' := hE.1
    have hdel : Ext s1 (deliverFooter v c f s1) (footers hs f) := by
      unfold deliverFooter
      dsimp only
      have h1 : s1.numTiles = 0 := by rw [hE']; exact ho.num
      have h2 : s1.seqnr = -1 := by rw [hE']; exact ho.seqnr
      have h3 : s1.handlers = hs := by rw [hE']; exact ho.handlers
      rw [h1, over_zero, if_neg (show ¬ (false = true) by simp), h2, if_neg (show ¬ ((0 : Int) ≤ -1) by omega), h3]
      split
      · have := (ext_footers v hs f s1).trans (ext_postOut v (.footer f) _)
        rw [List.append_nil] at this
        exact this
      · exact ext_footers v hs f s1
    have hall := (hE.trans hdel).trans (ext_settle _)
    have ha := hall.1
    refine ⟨settle (deliverFooter v c f s1), ?_, ?_, ?_, ?_⟩
    · rw [List.map_nil, List.nil_append, loop_cons v c [] ho.fatal (s1 := settle (deliverFooter v c f s1)) (by
        show (if s.inData then _ else _) = _
        rw [if_pos ho.inData, hs1])]
      rfl
    · rw [ha]
      exact ⟨ho.handlers, ho.kids, rfl, ho.fatal⟩
    · rw [ha]
      show s.next.dataset = ds
      rw [ho.next]
    · rw [hall.2]
      have : over c ([] : List (List Tile)).length = false := over_zero c
      rw [this]
      have h2 : taken c 0 [] = [] := by unfold taken; split <;> simp
      rw [h2]
      simp [snippets, Obs.tree]
  | cons t l ih =>
    intro rest s ho hfine hfl hp
    have hft := hfine t (by simp)
    have hfl' := fun u hu => hfine u (List.mem_cons_of_mem t hu)
    rw [List.map_cons, List.cons_append]
    cases hkn : t.known h with
    | false =>
      rw [List.filter_cons_of_neg (by rw [hkn]; simp)] at hfl
      obtain ⟨s1, h1, h2⟩ := event_skip v c t s ho.inData (.inr (by rw [ho.handlers, hm]; exact unknown_gt hft hkn))
      obtain ⟨s', g1, g2, g3, g4⟩ := ih rest s1 (ho.ext h2) hfl' hfl hp
      refine ⟨s', by rw [loop_cons v c _ ho.fatal h1]; exact g1, g2, g3, ?_⟩
      rw [g4, h2.2, List.append_nil]
    | true =>
      rw [List.filter_cons_of_pos hkn] at hfl
      obtain ⟨hd0, hd1⟩ := known_lt hft hkn
      rw [← hm] at hd1
      cases rest with
      | nil => simp at hfl
      | cons p rest =>
        obtain ⟨⟨x, y, hpx, hsame, hdiff⟩, hprest⟩ := hp
        subst hpx
        rw [List.flatten_cons, List.cons_append] at hfl
        injection hfl with e1 e2
        subst e1
        have hpy := ext_call v (.pyTile t) s
        rw [show (Obs.pyTile t).tree = false from rfl, if_neg (by simp)] at hpy
        have hop := ho.ext hpy
        generalize hs1 : call v (.pyTile t) s = s1 at hpy hop
        have hgoal : event v c s (.tile t) = (if over c 1 then some { s1 with numTiles := 1 }
            else (startSnippet v c t { s1 with numTiles := 1, seqnr := t.seq }).bind (handTile v t)).map settle := by
          show (if s.inData then _ else _) = _
          rw [if_pos ho.inData, hs1]
          unfold deliverTile
          have hq := hft.2.2.1
          have c1 : ¬ ((s1.handlers.length : Int) < t.did) := by rw [hop.handlers]; omega
          have c2 : ¬ t.seq = s1.seqnr := by rw [hop.seqnr]; omega
          have c3 : ¬ 0 ≤ s1.seqnr := by rw [hop.seqnr]; omega
          rw [if_neg (show ¬ over c s1.numTiles = true by rw [hop.num, over_zero]; simp), if_neg c1, if_neg c2, if_neg c3]
          dsimp only
          rw [hop.num]
        cases hov : over c 1 with
        | true =>
          rw [hov, if_pos rfl] at hgoal
          obtain ⟨s', g1, g2⟩ := spent v c f l (settle { s1 with numTiles := 1 }) hov hop.inData hop.fatal
          have ge := g2.1
          refine ⟨s', by rw [loop_cons v c _ ho.fatal hgoal]; exact g1, ?_, ?_, ?_⟩
          · rw [ge]
            exact ⟨hop.handlers, hop.kids, rfl, hop.fatal⟩
          · rw [ge]
            show s1.next.dataset = ds
            rw [hop.next]
          · rw [g2.2]
            show tree s1.trace ++ [] = _
            have ht : taken c 0 ((t :: y) :: rest) = [] := by
              unfold taken
              unfold over at hov
              cases hcm : c.max with
              | none => rw [hcm] at hov; simp at hov
              | some m =>
                rw [hcm] at hov
                dsimp only at hov ⊢
                rw [decide_eq_true_eq] at hov
                rw [show m - 0 = 0 by omega]
                rfl
            rw [ht, hpy.2, if_pos (over_mono c (by rw [List.length_cons]; omega) hov)]
            simp [snippets]
        | false =>
          rw [hov, if_neg (by simp)] at hgoal
          obtain ⟨s2, h1, h2, h3⟩ := start_spec v c (s := { s1 with numTiles := 1 }) hft hd0 hd1 hop.handlers hop.kids hop.next rfl
            hop.inData hop.fatal
          rw [h1] at hgoal
          obtain ⟨s', g1, g2, g3, g4⟩ := opened_run v c h f hm hlen ds l 0 [t] y rest (settle s2) (h2.ext (ext_settle _)) hov hfl' e2
            ⟨⟨t, y, rfl, hsame, hdiff⟩, hprest⟩
          refine ⟨s', by rw [loop_cons v c _ ho.fatal hgoal]; exact g1, g2, g3, ?_⟩
          rw [g4, (ext_settle _).2, h3]
          show tree s1.trace ++ _ ++ _ ++ _ ++ _ ++ _ ++ _ = _
          have ht : taken c 0 ((t :: y) :: rest) = (t :: y) :: taken c 1 rest := by
            unfold taken
            unfold over at hov
            cases hcm : c.max with
            | none => rfl
            | some m =>
              rw [hcm] at hov
              dsimp only at hov ⊢
              rw [decide_eq_false_iff_not] at hov
              rw [show m - 0 = (m - 1) + 1 by omega]
              rfl
          rw [ht, hpy.2, snippets]
          have ho2 : opening c hs ⟨ds, 0⟩ (t :: y) = opening c hs ⟨ds, 0⟩ [t] ++ y.flatMap (given hs ⟨ds, 0⟩ (rowsOf [t])) := by
            unfold opening given
            simp [rowsOf]
          rw [ho2]
          have : 0 + 1 + rest.length = ((t :: y) :: rest).length := by rw [List.length_cons]; omega
          rw [this]
          simp [List.append_assoc]

/-- A whole data set. -/
theorem dataset_run (v : Env) (c : Conf) (d : Dataset) (hd : d.fine) (s : St) (hb : Between s) :
    ∃ s', loop v c s d.events = some s' ∧ After (resize s.handlers (maxDid d.header)) (resize s.kids (maxDid d.header)) s' ∧
      s'.next.dataset = s.next.dataset + 1 ∧
      tree s'.trace = tree s.trace ++
        d.calls v c (resize s.handlers (maxDid d.header)) (resize s.kids (maxDid d.header)) (s.next.dataset + 1) := by
  have hg := group_spec (d.tiles.filter (Tile.known d.header))
  have hE0 := ext_call v (.pyHeader d.header) { s with hadData := true, inData := true }
  rw [show (Obs.pyHeader d.header).tree = false from rfl, if_neg (by simp)] at hE0
  generalize hs0 : call v (.pyHeader d.header) { s with hadData := true, inData := true } = s0 at hE0
  have e0 := hE0.1
  generalize hR : resize s.handlers (maxDid d.header) = hs
  generalize hK : resize s.kids (maxDid d.header) = ks
  have hlh : hs.length = maxDid d.header := by rw [← hR, resize_length]
  have hlk : ks.length = hs.length := by rw [hlh, ← hK, resize_length]
  have hE1 : Ext { s0 with next := ⟨s.next.dataset + 1, 0⟩, seqnr := -1, have_ := List.replicate (maxDid d.header) false, handlers := hs, kids := ks }
      (calls v (headers hs d.header)
        { s0 with next := ⟨s.next.dataset + 1, 0⟩, seqnr := -1, have_ := List.replicate (maxDid d.header) false, handlers := hs, kids := ks })
      (headers hs d.header) := by
    apply ext_calls
    intro o hmem
    obtain ⟨n, -, rfl⟩ := List.mem_map.mp hmem
    rfl
  generalize hs1 : calls v (headers hs d.header)
    { s0 with next := ⟨s.next.dataset + 1, 0⟩, seqnr := -1, have_ := List.replicate (maxDid d.header) false, handlers := hs, kids := ks } = s1 at hE1
  have e1 := hE1.1
  have hev : event v c s (.header d.header) = some (settle { s1 with cached := some d.header, numTiles := 0 }) := by
    show (if s.inData then _ else _) = _
    rw [hb.1, if_neg (by simp)]
    dsimp only
    rw [hs0]
    unfold deliverHeader
    dsimp only
    rw [if_pos hd.1]
    have h1 : s0.handlers = s.handlers := by rw [e0]
    have h2 : s0.kids = s.kids := by rw [e0]
    have h3 : s0.next = s.next := by rw [e0]
    rw [h1, h2, h3, hR, hK]
    show some (settle { calls v (headers hs d.header) _ with cached := some d.header, numTiles := 0 }) = _
    rw [hs1]
  have hF : Fresh hs ks (s.next.dataset + 1) (settle { s1 with cached := some d.header, numTiles := 0 }) := by
    constructor
    · show s1.handlers = _; rw [e1]
    · show s1.kids = _; rw [e1]
    · show s1.seqnr = _; rw [e1]
    · show s1.next = _; rw [e1]
    · rfl
    · show s1.inData = _; rw [e1]; show s0.inData = _; rw [e0]
    · show s1.fatal = _; rw [e1]; show s0.fatal = _; rw [e0]; exact hb.2
  obtain ⟨s', g1, g2, g3, g4⟩ := fresh_run v c d.header d.footer hlh hlk (s.next.dataset + 1) d.tiles d.snippets _ hF hd.2 hg.1.symm hg.2
  refine ⟨s', ?_, g2, g3, ?_⟩
  · unfold Dataset.events
    rw [List.cons_append, loop_cons v c _ hb.2 hev]
    exact g1
  · rw [g4]
    show tree s1.trace ++ _ ++ _ = _
    rw [hE1.2]
    show tree s0.trace ++ _ ++ _ ++ _ = _
    rw [hE0.2]
    unfold Dataset.calls
    simp [List.append_assoc]

theorem loop_append (v : Env) (c : Conf) (l m : List In) {s s1 : St} (h : loop v c s l = some s1) (hf : s1.fatal = false) :
    loop v c s (l ++ m) = loop v c s1 m := by
  induction l generalizing s with
  | nil => injection h with h; subst h; rfl
  | cons e l ih =>
    rw [loop] at h
    by_cases hs : s.fatal = true
    · rw [if_pos hs] at h
      injection h with h
      subst h
      rw [hs] at hf; simp at hf
    · rw [if_neg hs] at h
      rw [List.cons_append, loop, if_neg hs]
      cases he : event v c s e with
      | none => rw [he] at h; simp at h
      | some s2 =>
        rw [he] at h
        exact ih h

/-! ## One node -/

theorem resize_getD (l : List (List Nat)) (n i : Nat) (h : i < n) : (resize l n).getD i [] = l.getD i [] := by
  unfold resize
  rw [List.getD_eq_getElem?_getD, List.getD_eq_getElem?_getD]
  by_cases hi : i < l.length
  · rw [List.getElem?_append_left (by rw [List.length_take]; omega), List.getElem?_take, if_pos h]
  · rw [List.getElem?_append_right (by rw [List.length_take]; omega), List.getElem?_eq_none (by omega : l.length ≤ i)]
    cases hx : (List.replicate (n - l.length) ([] : List Nat))[i - (l.take n).length]? with
    | none => rfl
    | some x =>
      have := List.mem_of_getElem? hx
      rw [List.mem_replicate] at this
      rw [this.2]; rfl

theorem resize_count (l : List (List Nat)) (m n : Nat) : (resize l m).flatten.count n ≤ l.flatten.count n := by
  unfold resize
  rw [List.flatten_append, List.count_append]
  have : (List.replicate (m - l.length) ([] : List Nat)).flatten = [] := by simp
  rw [this, List.count_nil, Nat.add_zero]
  conv_rhs => rw [← List.take_append_drop m l, List.flatten_append, List.count_append]
  omega

theorem mem_getD_flatten {l : List (List Nat)} {n i : Nat} (h : n ∈ l.getD i []) : n ∈ l.flatten := by
  rw [List.getD_eq_getElem?_getD] at h
  cases hx : l[i]? with
  | none => rw [hx] at h; simp at h
  | some x =>
    rw [hx] at h
    exact List.mem_flatten.mpr ⟨x, List.mem_of_getElem? hx, h⟩

theorem attached_resize {hs : List (List Nat)} {n i m : Nat} (h : Attached hs n i) (hi : i < m) : Attached (resize hs m) n i := by
  have h1 : n ∈ (resize hs m).getD i [] := by rw [resize_getD _ _ _ hi]; exact h.1
  refine ⟨h1, ?_⟩
  have := resize_count hs m n
  have := List.count_pos_iff.mpr (mem_getD_flatten h1)
  have := h.2
  omega

theorem count_getD {hs : List (List Nat)} {n i : Nat} (h : Attached hs n i) (j : Nat) : (hs.getD j []).count n = if j = i then 1 else 0 := by
  obtain ⟨h1, h2⟩ := h
  have key : ∀ (hs : List (List Nat)) (i : Nat), n ∈ hs.getD i [] → hs.flatten.count n = 1 →
      ∀ j, (hs.getD j []).count n = if j = i then 1 else 0 := by
    intro hs
    induction hs with
    | nil => intro i h; simp at h
    | cons a hs ih =>
      intro i h1 h2 j
      rw [List.flatten_cons, List.count_append] at h2
      cases i with
      | zero =>
        have : 0 < a.count n := List.count_pos_iff.mpr (by simpa using h1)
        cases j with
        | zero => simp; omega
        | succ j =>
          have hz : hs.flatten.count n = 0 := by omega
          rw [if_neg (by omega)]
          by_contra hne
          have hm : n ∈ hs.getD j [] := by
            have h4 : ((a :: hs).getD (j + 1) []).count n ≠ 0 := hne
            have : 0 < (hs.getD j []).count n := by simpa using Nat.pos_of_ne_zero h4
            exact List.count_pos_iff.mp this
          have := List.count_pos_iff.mpr (mem_getD_flatten hm)
          omega
      | succ i =>
        have hm : n ∈ hs.getD i [] := by simpa using h1
        have := List.count_pos_iff.mpr (mem_getD_flatten hm)
        cases j with
        | zero => rw [if_neg (by omega)]; simp; have h5 : a.count n = 0 := by omega
                  exact h5
        | succ j =>
          have := ih i hm (by omega) j
          simp only [List.getD_cons_succ, Nat.add_right_cancel_iff]
          exact this
  exact key hs i h1 h2 j

theorem filter_count (n : Nat) (l : List Nat) : l.filter (· == n) = List.replicate (l.count n) n := by
  rw [List.filter_beq]

theorem filter_map_isFor (n : Nat) (l : List Nat) (g : Nat → Obs) (hg : ∀ m, (g m).isFor n = (m == n)) :
    (l.map g).filter (Obs.isFor n) = List.replicate (l.count n) (g n) := by
  rw [List.filter_map]
  have : (Obs.isFor n ∘ g) = fun m => m == n := by funext m; exact hg m
  rw [this, filter_count, List.map_replicate]

theorem headers_isFor {hs : List (List Nat)} {n i : Nat} (h : Attached hs n i) (hd : Header) :
    (headers hs hd).filter (Obs.isFor n) = [.header n hd] := by
  unfold headers
  rw [filter_map_isFor n _ _ (fun m => rfl), h.2]
  rfl

theorem footers_isFor {hs : List (List Nat)} {n i : Nat} (h : Attached hs n i) (f : Nat) :
    (footers hs f).filter (Obs.isFor n) = [.footer n f] := by
  unfold footers
  rw [filter_map_isFor n _ _ (fun m => rfl), h.2]
  rfl

theorem ifThere_isFor (n : Nat) (b : Bool) (o : Obs) (ho : o.isFor n = false) : (ifThere b o).filter (Obs.isFor n) = [] := by
  unfold ifThere
  cases b <;> simp [ho]

theorem snippets_isFor (v : Env) (c : Conf) {hs ks : List (List Nat)} {n i : Nat} (h : Attached hs n i) (ds : Nat) (l : List (List Tile))
    (hl : ∀ ts ∈ l, ∀ t ∈ ts, 0 ≤ t.did) :
    ∀ k, (snippets v c hs ks ds k l).filter (Obs.isFor n) = nodeTiles n i ds k l := by
  induction l with
  | nil => intro k; rfl
  | cons ts l ih =>
    intro k
    rw [snippets, nodeTiles, List.filter_append, List.filter_append, ih (fun a ha => hl a (List.mem_cons_of_mem _ ha))]
    congr 1
    have he : (ending v c ks ⟨ds, k⟩ ts).filter (Obs.isFor n) = [] := by
      unfold ending
      rw [List.filter_append, List.filter_append, ifThere_isFor n _ _ rfl, ifThere_isFor n _ _ rfl, List.nil_append, List.append_nil,
        List.filter_eq_nil_iff]
      intro o ho
      obtain ⟨x, -, rfl⟩ := List.mem_map.mp ho
      simp [Obs.isFor]
    rw [he, List.append_nil]
    unfold opening
    rw [List.filter_append, ifThere_isFor n _ _ rfl, List.nil_append]
    generalize rowsOf ts = r
    have hts := hl ts (by simp)
    clear hl ih he
    induction ts with
    | nil => rfl
    | cons t ts ih2 =>
      rw [List.flatMap_cons, List.filter_append, ih2 (fun a ha => hts a (List.mem_cons_of_mem _ ha)),
        filter_map_isFor n _ (fun m => .tile m t ⟨ds, k⟩ r) (fun m => rfl)]
      have h0 := hts t (by simp)
      unfold nodesAt
      rw [if_neg (by omega), count_getD h]
      by_cases hi : t.did.toNat = i
      · rw [if_pos hi, List.filter_cons_of_pos (by simp; omega)]; rfl
      · rw [if_neg hi, List.filter_cons_of_neg (by simp; omega)]; rfl

theorem taken_mem {c : Conf} {k : Nat} {l : List (List Tile)} {ts : List Tile} (h : ts ∈ taken c k l) : ts ∈ l := by
  unfold taken at h
  split at h
  · exact h
  · exact List.mem_of_mem_take h

theorem calls_isFor (v : Env) (c : Conf) {hs ks : List (List Nat)} {n i : Nat} (h : Attached hs n i) (ds : Nat) (d : Dataset) (hd : d.fine) :
    (d.calls v c hs ks ds).filter (Obs.isFor n) = nodeSees c n i ds d := by
  unfold Dataset.calls nodeSees
  rw [List.filter_append, List.filter_append, headers_isFor h]
  rw [snippets_isFor v c h]
  · split
    · simp
    · rw [footers_isFor h]; simp
  · intro ts hts t ht
    have hm := taken_mem hts
    have : t ∈ (group (d.tiles.filter (Tile.known d.header))).flatten := List.mem_flatten.mpr ⟨ts, hm, ht⟩
    rw [(group_spec _).1] at this
    have hf := hd.2 t (List.mem_of_mem_filter this)
    exact ifr_nonneg hf.1 hf.2.1

theorem isFor_tree {n : Nat} {o : Obs} (h : o.isFor n = true) : o.tree = true := by
  cases o <;> simp_all [Obs.isFor, Obs.tree]

theorem tree_isFor (n : Nat) (l : List Obs) : (tree l).filter (Obs.isFor n) = l.filter (Obs.isFor n) := by
  unfold tree
  rw [List.filter_filter]
  congr 1
  funext o
  cases h : o.isFor n
  · simp
  · simp [isFor_tree h]

theorem datasets_run (v : Env) (c : Conf) (n i : Nat) (l : List Dataset) : ∀ (s : St), Between s → (∀ d ∈ l, d.fine) →
    (∀ d ∈ l, i < maxDid d.header) → Attached s.handlers n i →
    ∃ s', loop v c s (l.flatMap Dataset.events) = some s' ∧ Between s' ∧ Attached s'.handlers n i ∧
      s'.trace.filter (Obs.isFor n) = s.trace.filter (Obs.isFor n) ++ nodeSeesAll c n i (s.next.dataset + 1) l := by
  induction l with
  | nil => intro s hb _ _ ha; exact ⟨s, rfl, hb, ha, by simp [nodeSeesAll]⟩
  | cons d l ih =>
    intro s hb hf hm ha
    obtain ⟨s1, h1, h2, h3, h4⟩ := dataset_run v c d (hf d (by simp)) s hb
    have hat := attached_resize ha (hm d (by simp))
    have h5 := congrArg (List.filter (Obs.isFor n)) h4
    rw [tree_isFor, List.filter_append, tree_isFor, calls_isFor v c hat _ d (hf d (by simp))] at h5
    obtain ⟨s', g1, g2, g3, g4⟩ := ih s1 h2.2.2 (fun a h => hf a (List.mem_cons_of_mem _ h)) (fun a h => hm a (List.mem_cons_of_mem _ h))
      (by rw [h2.1]; exact hat)
    refine ⟨s', ?_, g2, g3, ?_⟩
    · rw [List.flatMap_cons, loop_append v c _ _ h1 h2.2.2.2]
      exact g1
    · rw [g4, h5, h3, nodeSeesAll, List.append_assoc]

end Verif.VisMux
