import Verif.Proof.VisMuxRun
/-! # Visibility streams: tables, safety, output, errors -/
namespace Verif.VisMux

/-! ## The tables -/

theorem insertAt_getD (l : List (List Nat)) (i x j : Nat) (h : i < l.length) :
    (insertAt l i x).getD j [] = if j = i then (if x ∈ l.getD i [] then l.getD i [] else l.getD i [] ++ [x]) else l.getD j [] := by
  unfold insertAt
  simp only [List.getD_eq_getElem?_getD, List.getElem?_modify]
  by_cases hj : j = i
  · subst hj
    rw [if_pos rfl, List.getElem?_eq_getElem h]
    simp
  · rw [if_neg hj]
    have : ¬ i = j := fun h => hj h.symm
    simp [this]

theorem resize_grow_getD (l : List (List Nat)) (n i : Nat) (h : l.length ≤ n) : (resize l n).getD i [] = l.getD i [] := by
  by_cases hi : i < n
  · exact resize_getD l n i hi
  · rw [List.getD_eq_getElem?_getD, List.getD_eq_getElem?_getD, List.getElem?_eq_none (by rw [resize_length]; omega),
      List.getElem?_eq_none (by omega)]

/-- A table holds what it should of these nodes. -/
def Holds (l : List (List Nat)) (nodes : List Node) : Prop := ∀ d, l.getD d [] = idsAt nodes d

theorem attach_one (l : List (List Nat)) (nodes : List Node) (n : Node) (h : Holds l nodes) (hn : n.id ∉ nodes.map (·.id)) :
    Holds (insertAt (if l.length ≤ n.did then resize l (n.did + 100) else l) n.did n.id) (nodes ++ [n]) := by
  intro d
  have hg : ∀ d, (if l.length ≤ n.did then resize l (n.did + 100) else l).getD d [] = l.getD d [] := by
    intro d
    split
    · exact resize_grow_getD l _ d (by omega)
    · rfl
  have hl : n.did < (if l.length ≤ n.did then resize l (n.did + 100) else l).length := by
    split
    · rw [resize_length]; omega
    · omega
  rw [insertAt_getD _ _ _ _ hl, hg, hg]
  unfold idsAt
  rw [List.filter_append, List.map_append]
  by_cases hd : d = n.did
  · subst hd
    rw [if_pos rfl, if_neg]
    · rw [h]
      simp [idsAt]
    · rw [h]
      intro hmem
      apply hn
      unfold idsAt at hmem
      obtain ⟨m, hm, e⟩ := List.mem_map.mp hmem
      exact List.mem_map.mpr ⟨m, List.mem_of_mem_filter hm, e⟩
  · rw [if_neg hd, h]
    have : (n.did == d) = false := by simp; omega
    simp [idsAt, this]

theorem attach_all (nodes : List Node) (hn : (nodes.map (·.id)).Nodup) (z : List (List Nat)) (hz : ∀ d, z.getD d [] = []) :
    Holds (nodes.foldl attach (z, z)).1 nodes ∧ Holds (nodes.foldl attach (z, z)).2 (nodes.filter (·.sink)) := by
  induction nodes using List.reverseRecOn with
  | nil => exact ⟨fun d => by rw [List.foldl_nil, hz]; rfl, fun d => by rw [List.foldl_nil, hz]; rfl⟩
  | append_singleton nodes n ih =>
    rw [List.map_append, List.nodup_append] at hn
    obtain ⟨h1, h2⟩ := ih hn.1
    have hnn : n.id ∉ nodes.map (·.id) := fun hm => hn.2.2 _ hm n.id (by simp) rfl
    rw [List.foldl_append]
    refine ⟨attach_one _ nodes n h1 hnn, ?_⟩
    rw [List.filter_append]
    show Holds (if n.sink then _ else _) _
    cases hs : n.sink with
    | false => simp only [Bool.false_eq_true, if_false, List.filter_cons_of_neg, hs, List.filter_nil, not_false_eq_true, List.append_nil]; exact h2
    | true =>
      rw [if_pos rfl, List.filter_cons_of_pos (by exact hs)]
      apply attach_one _ _ n h2
      intro hm
      apply hnn
      obtain ⟨m, hm, e⟩ := List.mem_map.mp hm
      exact List.mem_map.mpr ⟨m, List.mem_of_mem_filter hm, e⟩

theorem flatten_count (hs : List (List Nat)) (n i : Nat) (h : ∀ j, (hs.getD j []).count n = if j = i then 1 else 0) :
    hs.flatten.count n = 1 := by
  induction hs generalizing i with
  | nil => have := h i; simp at this
  | cons a hs ih =>
    rw [List.flatten_cons, List.count_append]
    have h0 := h 0
    cases i with
    | zero =>
      have hz : hs.flatten.count n = 0 := by
        rw [List.count_eq_zero]
        intro hm
        obtain ⟨x, hx, hn⟩ := List.mem_flatten.mp hm
        obtain ⟨j, hj, e⟩ := List.mem_iff_getElem.mp hx
        have := h (j + 1)
        rw [if_neg (by omega), List.getD_cons_succ, List.getD_eq_getElem?_getD, List.getElem?_eq_getElem hj, e] at this
        exact absurd hn (List.count_eq_zero.mp this)
      simp at h0
      omega
    | succ i =>
      have := ih i (fun j => by have := h (j + 1); simpa using this)
      rw [if_neg (by omega)] at h0
      simp only [List.getD_cons_zero] at h0
      omega

theorem attached_holds (l : List (List Nat)) (nodes : List Node) (hn : (nodes.map (·.id)).Nodup) (h : Holds l nodes) (n : Node) (hm : n ∈ nodes) :
    Attached l n.id n.did := by
  have key : ∀ j, (l.getD j []).count n.id = if j = n.did then 1 else 0 := by
    intro j
    rw [h j]
    unfold idsAt
    by_cases hj : j = n.did
    · subst hj
      rw [if_pos rfl]
      apply List.count_eq_one_of_mem
      · exact hn.sublist (List.Sublist.map _ List.filter_sublist)
      · exact List.mem_map.mpr ⟨n, List.mem_filter.mpr ⟨hm, by simp⟩, rfl⟩
    · rw [if_neg hj, List.count_eq_zero]
      intro hmem
      obtain ⟨m, hm', e⟩ := List.mem_map.mp hmem
      rw [List.mem_filter] at hm'
      have : m = n := List.inj_on_of_nodup_map hn hm'.1 hm e
      subst this
      simp at hm'
      omega
  refine ⟨?_, flatten_count l n.id n.did key⟩
  apply List.count_pos_iff.mp
  rw [key, if_pos rfl]
  omega

theorem init_holds (nodes : List Node) (hn : (nodes.map (·.id)).Nodup) :
    Holds (St.init nodes).handlers nodes ∧ Holds (St.init nodes).kids (nodes.filter (·.sink)) := by
  apply attach_all nodes hn
  intro d
  rw [List.getD_eq_getElem?_getD, List.getElem?_replicate]
  split <;> rfl

/-! ## No undefined behaviour -/

theorem calls_handlers (v : Env) (l : List Obs) (s : St) : (calls v l s).handlers = s.handlers := by
  induction l generalizing s with
  | nil => rfl
  | cons o l ih => exact ih (call v o s)

theorem end_handlers (v : Env) (c : Conf) (s : St) : (endSnippet v c s).handlers = s.handlers ∧ (endSnippet v c s).inData = s.inData := by
  cases h : s.req with
  | none => unfold endSnippet; rw [h]; exact ⟨rfl, rfl⟩
  | some rq =>
    have := (ext_end v c s rq h).1
    rw [this]
    exact ⟨rfl, rfl⟩

theorem calls_inData (v : Env) (l : List Obs) (s : St) : (calls v l s).inData = s.inData := by
  induction l generalizing s with
  | nil => rfl
  | cons o l ih => exact ih (call v o s)

theorem toHandlers_handlers (v : Env) (t : Tile) (l : List Nat) (s : St) :
    (toHandlers v t l s).handlers = s.handlers ∧ (toHandlers v t l s).inData = s.inData := by
  unfold toHandlers
  split
  · split <;> exact ⟨rfl, rfl⟩
  · exact ⟨calls_handlers _ _ _, calls_inData _ _ _⟩

theorem handTile_safe (v : Env) (t : Tile) (s : St) (h0 : 0 ≤ t.did) (h1 : t.did < s.handlers.length) :
    ∃ s1, handTile v t s = some s1 ∧ s1.handlers = s.handlers ∧ s1.inData = s.inData := by
  have hlt : t.did.toNat < s.handlers.length := by omega
  unfold handTile
  rw [if_neg (by omega), List.getElem?_eq_getElem hlt]
  exact ⟨_, rfl, toHandlers_handlers _ _ _ _⟩

theorem start_safe (v : Env) (c : Conf) (t : Tile) (s : St) (h : true ∈ t.rows) :
    ∃ s1, startSnippet v c t s = some s1 ∧ s1.handlers = s.handlers ∧ s1.inData = s.inData := by
  unfold startSnippet
  have hv : ∃ r, validRows t.rows = some r := ⟨_, if_pos (by rw [List.any_eq_true]; exact ⟨true, h, rfl⟩)⟩
  obtain ⟨r, hr⟩ := hv
  simp only [hr]
  split
  · refine ⟨_, rfl, ?_⟩
    split <;> exact ⟨rfl, rfl⟩
  · exact ⟨_, rfl, rfl, rfl⟩

theorem deliverTile_safe (v : Env) (c : Conf) (t : Tile) (s : St) (h : Header) (hm : s.handlers.length = maxDid h) (ht : In.safe (.tile t)) :
    ∃ s1, deliverTile v c t s = some s1 ∧ s1.handlers = s.handlers ∧ s1.inData = s.inData := by
  obtain ⟨h1, h2, h3⟩ := ht
  have h0 : 0 ≤ t.did := ifr_nonneg h1 h2
  have hk : ¬ ((s.handlers.length : Int) < t.did) → t.did < s.handlers.length := by
    intro hn
    rw [hm] at hn ⊢
    by_cases hk : t.a1 < h.count ∧ t.a2 < h.count
    · rw [maxDid_eq]; exact ifr_known h1 h2 hk.1 hk.2
    · exfalso
      apply hn
      rw [maxDid_eq]
      exact ifr_unknown h1 h2 (count_pos h) (by omega)
  unfold deliverTile
  split
  · exact ⟨_, rfl, rfl, rfl⟩
  · split
    · exact ⟨_, rfl, rfl, rfl⟩
    · rename_i hn
      split
      · exact handTile_safe v t s h0 (hk hn)
      · dsimp only
        have he : (if 0 ≤ s.seqnr then endSnippet v c s else s).handlers = s.handlers ∧ (if 0 ≤ s.seqnr then endSnippet v c s else s).inData = s.inData := by
          split
          · exact end_handlers v c s
          · exact ⟨rfl, rfl⟩
        generalize (if 0 ≤ s.seqnr then endSnippet v c s else s) = s1 at he
        split
        · exact ⟨_, rfl, he.1, he.2⟩
        · obtain ⟨s2, g1, g2, g3⟩ := start_safe v c t { s1 with numTiles := s1.numTiles + 1, seqnr := t.seq } h3
          rw [g1]
          have hh : s2.handlers = s.handlers := g2.trans he.1
          obtain ⟨s3, k1, k2, k3⟩ := handTile_safe v t s2 h0 (by rw [hh]; exact hk hn)
          exact ⟨s3, k1, by rw [k2, hh], by rw [k3, g3]; exact he.2⟩

theorem event_safe (v : Env) (c : Conf) (s : St) (e : In) (hi : s.inData = true → ∃ h, s.handlers.length = maxDid h) (he : e.safe) :
    ∃ s1, event v c s e = some s1 ∧ (s1.inData = true → ∃ h, s1.handlers.length = maxDid h) := by
  cases e with
  | other => exact ⟨s, rfl, hi⟩
  | tile t =>
    show ∃ s1, (if s.inData then _ else _) = some s1 ∧ _
    split
    · rename_i hd
      obtain ⟨h, hh⟩ := hi hd
      obtain ⟨s1, g1, g2, g3⟩ := deliverTile_safe v c t (call v (.pyTile t) s) h hh he
      rw [g1]
      exact ⟨_, rfl, fun _ => ⟨h, by show s1.handlers.length = _; rw [g2]; exact hh⟩⟩
    · exact ⟨_, rfl, hi⟩
  | footer f =>
    show ∃ s1, (if s.inData then _ else _) = some s1 ∧ _
    split
    · refine ⟨_, rfl, ?_⟩
      intro hd
      exfalso
      have : ∀ s : St, (deliverFooter v c f s).inData = s.inData := by
        intro s
        unfold deliverFooter
        dsimp only
        have h2 : (if over c s.numTiles = true then s else calls v
            ((if 0 ≤ s.seqnr then endSnippet v c s else s).handlers.flatten.map fun n => .footer n f)
            (if 0 ≤ s.seqnr then endSnippet v c s else s)).inData = s.inData := by
          split
          · rfl
          · rw [calls_inData]
            split
            · exact (end_handlers v c s).2
            · rfl
        have h3 : ∀ s : St, (postOut v (.footer f) s).1.inData = s.inData := by
          intro s
          have := (ext_postOut v (.footer f) s).1
          rw [this]
        split
        · rw [h3]
          exact h2
        · exact h2
      have h3 : (deliverFooter v c f (call v (.pyFooter f) { s with inData := false })).inData = true := hd
      rw [this] at h3
      cases h3
    · exact ⟨_, rfl, hi⟩
  | header h =>
    show ∃ s1, (if s.inData then _ else _) = some s1 ∧ _
    split
    · exact ⟨_, rfl, hi⟩
    · refine ⟨_, rfl, fun _ => ⟨h, ?_⟩⟩
      show (deliverHeader v h _).handlers.length = _
      unfold deliverHeader
      dsimp only
      split
      · show (calls v _ _).handlers.length = _
        rw [calls_handlers]
        exact resize_length _ _
      · exact resize_length _ _

theorem loop_safe (v : Env) (c : Conf) (l : List In) : ∀ s, (s.inData = true → ∃ h, s.handlers.length = maxDid h) → (∀ e ∈ l, e.safe) →
    ∃ s1, loop v c s l = some s1 := by
  induction l with
  | nil => intro s _ _; exact ⟨s, rfl⟩
  | cons e l ih =>
    intro s hi he
    rw [loop]
    split
    · exact ⟨s, rfl⟩
    · obtain ⟨s1, g1, g2⟩ := event_safe v c s e hi (he e (by simp))
      rw [g1]
      exact ih s1 g2 (fun x hx => he x (List.mem_cons_of_mem _ hx))

/-! ## Sinks -/

theorem polled_append (rq : Rq) (l m : List Obs) : polled rq (l ++ m) = polled rq l ++ polled rq m := by
  unfold polled; rw [List.filterMap_append]

theorem polled_nil_of (rq : Rq) (l : List Obs) (h : ∀ o ∈ l, ∀ i r, o = .poll i r → r ≠ rq) : polled rq l = [] := by
  unfold polled
  rw [List.filterMap_eq_nil_iff]
  intro o ho
  cases o with
  | poll i r => simp only; rw [if_neg (h _ ho i r rfl)]
  | _ => rfl

theorem polled_polls (rq : Rq) (l : List Nat) : polled rq (l.map fun i => .poll i rq) = l := by
  unfold polled
  rw [List.filterMap_map]
  conv_rhs => rw [← List.filterMap_some (l := l)]
  congr 1
  funext i
  simp

theorem polled_ifThere (rq : Rq) (b : Bool) (o : Obs) (h : ∀ i r, o ≠ .poll i r) : polled rq (ifThere b o) = [] := by
  apply polled_nil_of
  intro x hx i r e
  unfold ifThere at hx
  split at hx
  · rw [List.mem_singleton] at hx; rw [hx] at e; exact absurd e (h i r)
  · simp at hx

theorem polled_snippets (v : Env) (c : Conf) (hs ks : List (List Nat)) (ds : Nat) (l : List (List Tile)) : ∀ k0 k,
    polled ⟨ds, k0 + k⟩ (snippets v c hs ks ds k0 l) = (match l[k]? with | some ts => v.order ⟨ds, k0 + k⟩ (sinksOf ks ts) | none => []) ∧
    ∀ k1, k1 < k0 → polled ⟨ds, k1⟩ (snippets v c hs ks ds k0 l) = [] := by
  induction l with
  | nil => intro k0 k; exact ⟨rfl, fun _ _ => rfl⟩
  | cons ts l ih =>
    intro k0 k
    have ho : ∀ rq' rq, polled rq' (opening c hs rq ts) = [] := by
      intro rq' rq
      unfold opening
      rw [polled_append, polled_ifThere _ _ _ (by intro i r; simp), List.nil_append]
      apply polled_nil_of
      intro o hmem i r e
      obtain ⟨t, -, hm⟩ := List.mem_flatMap.mp hmem
      obtain ⟨n, -, hm⟩ := List.mem_map.mp hm
      rw [e] at hm
      cases hm
    have he : polled ⟨ds, k0⟩ (ending v c ks ⟨ds, k0⟩ ts) = v.order ⟨ds, k0⟩ (sinksOf ks ts) := by
      unfold ending
      rw [polled_append, polled_append, polled_ifThere _ _ _ (by intro i r; simp), polled_ifThere _ _ _ (by intro i r; simp), polled_polls]
      simp
    have hne : ∀ k1, k1 ≠ k0 → polled ⟨ds, k1⟩ (ending v c ks ⟨ds, k0⟩ ts) = [] := by
      intro k1 hk
      unfold ending
      rw [polled_append, polled_append, polled_ifThere _ _ _ (by intro i r; simp), polled_ifThere _ _ _ (by intro i r; simp),
        polled_nil_of]
      · rfl
      · intro o hmem i r e
        obtain ⟨n, -, hm⟩ := List.mem_map.mp hmem
        rw [e] at hm
        injection hm with _ h2
        rw [← h2]
        intro h3
        injection h3 with _ h4
        omega
    rw [snippets]
    constructor
    · rw [polled_append, polled_append, ho, List.nil_append]
      cases k with
      | zero =>
        rw [Nat.add_zero, he, (ih (k0 + 1) 0).2 k0 (by omega), List.append_nil]
        rfl
      | succ k =>
        rw [hne _ (by omega), List.nil_append]
        have := (ih (k0 + 1) k).1
        rw [show k0 + 1 + k = k0 + (k + 1) by omega] at this
        rw [this]
        rfl
    · intro k1 hk
      rw [polled_append, polled_append, ho, List.nil_append, hne _ (by omega), (ih (k0 + 1) 0).2 k1 (by omega)]
      rfl

theorem polled_calls (v : Env) (c : Conf) (hs ks : List (List Nat)) (ds k : Nat) (d : Dataset) :
    polled ⟨ds, k⟩ (d.calls v c hs ks ds) =
      (match (taken c 0 d.snippets)[k]? with | some ts => v.order ⟨ds, k⟩ (sinksOf ks ts) | none => []) := by
  unfold Dataset.calls
  rw [polled_append, polled_append]
  have h1 : polled ⟨ds, k⟩ (headers hs d.header) = [] := by
    apply polled_nil_of
    intro o hmem i r e
    obtain ⟨n, -, hm⟩ := List.mem_map.mp hmem
    rw [e] at hm; cases hm
  have h2 : polled ⟨ds, k⟩ (if over c d.snippets.length then [] else footers hs d.footer) = [] := by
    split
    · rfl
    · apply polled_nil_of
      intro o hmem i r e
      obtain ⟨n, -, hm⟩ := List.mem_map.mp hmem
      rw [e] at hm; cases hm
  rw [h1, h2, List.nil_append, List.append_nil]
  have := (polled_snippets v c hs ks ds (taken c 0 d.snippets) 0 k).1
  rw [Nat.zero_add] at this
  exact this

end Verif.VisMux
