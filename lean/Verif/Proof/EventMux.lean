import Verif.Spec.EventMux
import Mathlib.Data.List.Forall2

namespace Verif.EventMux

variable {δ : Type}

theorem assign_some (id : List Int) : ∀ (maps : List (List Int → Option (List Int))) n i e,
    assign maps n id = some (i, e) ↔ n ≤ i ∧ Goes maps id (i - n) e := by
  intro maps
  induction maps with
  | nil => intro n i e; simp [assign, Goes]
  | cons f fs ih =>
    intro n i e
    unfold assign
    cases hf : f id with
    | some e' =>
      constructor
      · intro h
        simp at h
        obtain ⟨rfl, rfl⟩ := h
        refine ⟨Nat.le_refl _, ⟨f, by simp, hf⟩, fun j g hj => by omega⟩
      · rintro ⟨h1, ⟨g, hg, hge⟩, h3⟩
        by_cases hi : i = n
        · subst hi
          simp at hg
          subst hg
          rw [hf] at hge
          cases hge; rfl
        · have := h3 0 f (by omega) (by simp)
          rw [hf] at this; cases this
    | none =>
      dsimp only
      rw [ih]
      constructor
      · rintro ⟨h1, ⟨g, hg, hge⟩, h3⟩
        obtain ⟨d, rfl⟩ := Nat.exists_eq_add_of_le h1
        rw [show n + 1 + d - (n + 1) = d by omega] at hg h3
        refine ⟨by omega, ?_⟩
        rw [show n + 1 + d - n = d + 1 by omega]
        refine ⟨⟨g, by simpa using hg, hge⟩, fun j g' hj hg' => ?_⟩
        cases j with
        | zero => simp at hg'; subst hg'; exact hf
        | succ j => exact h3 j g' (by omega) (by simpa using hg')
      · rintro ⟨h1, ⟨g, hg, hge⟩, h3⟩
        by_cases hi : i = n
        · subst hi
          simp at hg
          subst hg
          rw [hf] at hge; cases hge
        · obtain ⟨d, rfl⟩ := Nat.exists_eq_add_of_le (show n + 1 ≤ i by omega)
          rw [show n + 1 + d - n = d + 1 by omega] at hg h3
          refine ⟨by omega, ?_⟩
          rw [show n + 1 + d - (n + 1) = d by omega]
          exact ⟨⟨g, by simpa using hg, hge⟩, fun j g' hj hg' => h3 (j + 1) g' (by omega) (by simpa using hg')⟩

theorem assign_goes {maps : List (List Int → Option (List Int))} {id i e} (h : assign maps 0 id = some (i, e)) :
    Goes maps id i e := ((assign_some id maps 0 i e).1 h).2

theorem assign_none (id : List Int) : ∀ (maps : List (List Int → Option (List Int))) n,
    assign maps n id = none → Unmapped maps id := by
  intro maps
  induction maps with
  | nil => intro n _ f hf; cases hf
  | cons f fs ih =>
    intro n h g hg
    unfold assign at h
    split at h
    · cases h
    · rename_i hf
      rcases List.mem_cons.1 hg with rfl | hg
      · exact hf
      · exact ih _ h g hg

/-- The cache is right about a message in the queue. -/
structure Good (maps : List (List Int → Option (List Int))) (s : Mux δ) : Prop where
  run : s.running = true
  nodup : (s.queue.map Msg.addr).Nodup
  cache : ∀ k, s.cache = some k → ∃ m ∈ s.queue, m.addr = k.addr ∧ assign maps 0 m.id = some (k.chan, k.ev) ∧
    k.data = m.data ∧ k.src = m.src

/-- What a call does: the messages without channel before the first one with a channel go. -/
def Did (maps : List (List Int → Option (List Int))) (others : Bool) (chan : Nat) (mask : List Int → Bool)
    (s : Mux δ) (out : Out δ) (s' : Mux δ) : Prop :=
  ∃ xs rest, s.queue = xs ++ rest ∧ (∀ m ∈ xs, Unmapped maps m.id) ∧
    ((rest = [] ∧ out = .none (if others then .outofseq else .wait) ∧ s'.queue = []) ∨
     ∃ m q i e, rest = m :: q ∧ Goes maps m.id i e ∧
      ((i = chan ∧ mask e = true ∧ out = .event e m.data m.src ∧ s'.queue = q) ∨
       (¬ (i = chan ∧ mask e = true) ∧ out = .none .outofseq ∧ s'.queue = rest)))

/-- The same for `check`: the cache has the event. -/
theorem scan_spec (maps : List (List Int → Option (List Int))) (others : Bool) (chan : Nat) (mask : List Int → Bool)
    (s : Mux δ) (hc : s.cache = none) (hrun : s.running = true) : ∀ q : List (Msg δ),
    ∃ xs rest s', q = xs ++ rest ∧ (∀ m ∈ xs, Unmapped maps m.id) ∧ s'.running = true ∧
      ((rest = [] ∧ scan maps others chan mask s q = (if others then .outofseq else .wait, s') ∧ s'.queue = [] ∧
          s'.cache = none) ∨
       ∃ m q' i e, rest = m :: q' ∧ assign maps 0 m.id = some (i, e) ∧
        s'.cache = some ⟨m.addr, i, e, m.data, m.src⟩ ∧
        ((i = chan ∧ mask e = true ∧ scan maps others chan mask s q = (.success, s') ∧ s'.queue = q') ∨
         (¬ (i = chan ∧ mask e = true) ∧ scan maps others chan mask s q = (.outofseq, s') ∧ s'.queue = rest))) := by
  intro q
  induction q with
  | nil =>
    exact ⟨[], [], { s with queue := [] }, rfl, (fun m h => by cases h), hrun, .inl ⟨rfl, rfl, rfl, hc⟩⟩
  | cons m q ih =>
    unfold scan
    cases ha : assign maps 0 m.id with
    | none =>
      obtain ⟨xs, rest, s', h1, h2, h3, h4⟩ := ih
      refine ⟨m :: xs, rest, s', by rw [h1]; rfl, ?_, h3, h4⟩
      intro m' hm'
      rcases List.mem_cons.1 hm' with rfl | hm'
      · exact assign_none _ _ _ ha
      · exact h2 m' hm'
    | some p =>
      obtain ⟨i, e⟩ := p
      dsimp only
      by_cases hp : i = chan ∧ mask e = true
      · rw [if_pos (by simp [hp])]
        exact ⟨[], m :: q, { s with queue := q, cache := some ⟨m.addr, i, e, m.data, m.src⟩ }, rfl, (fun m h => by cases h), hrun,
          .inr ⟨m, q, i, e, rfl, ha, rfl, .inl ⟨hp.1, hp.2, rfl, rfl⟩⟩⟩
      · rw [if_neg (by simpa using hp)]
        exact ⟨[], m :: q, { s with queue := m :: q, cache := some ⟨m.addr, i, e, m.data, m.src⟩ }, rfl, (fun m h => by cases h), hrun,
          .inr ⟨m, q, i, e, rfl, ha, rfl, .inr ⟨hp, rfl, rfl⟩⟩⟩

theorem check_spec {maps : List (List Int → Option (List Int))} {s : Mux δ} (h : Good maps s) (others : Bool)
    (chan : Nat) (mask : List Int → Bool) :
    ∃ xs rest s', s.queue = xs ++ rest ∧ (∀ m ∈ xs, Unmapped maps m.id) ∧ s'.running = true ∧
      ((rest = [] ∧ check maps others chan mask s = (if others then .outofseq else .wait, s') ∧ s'.queue = [] ∧
          s'.cache = none) ∨
       ∃ m q' i e, rest = m :: q' ∧ assign maps 0 m.id = some (i, e) ∧
        s'.cache = some ⟨m.addr, i, e, m.data, m.src⟩ ∧
        ((i = chan ∧ mask e = true ∧ check maps others chan mask s = (.success, s') ∧ s'.queue = q') ∨
         (¬ (i = chan ∧ mask e = true) ∧ check maps others chan mask s = (.outofseq, s') ∧ s'.queue = rest))) := by
  have hrun := h.run
  unfold check
  rw [if_neg (by simp [hrun])]
  cases hk : s.cache with
  | none =>
    dsimp only
    exact scan_spec maps others chan mask s hk hrun s.queue
  | some k =>
    dsimp only
    by_cases hh : s.queue.head?.map Msg.addr = some k.addr
    · rw [if_pos hh]
      obtain ⟨m, hm, ha, has, hd, hs⟩ := h.cache k hk
      cases hq : s.queue with
      | nil => rw [hq] at hh; simp at hh
      | cons a q =>
        have hn := h.nodup
        rw [hq] at hm hh hn
        simp at hh
        rw [List.map_cons, List.nodup_cons] at hn
        have : m = a := by
          rcases List.mem_cons.1 hm with rfl | hm
          · rfl
          · exact absurd (List.mem_map.2 ⟨m, hm, by rw [ha, hh]⟩) hn.1
        subst this
        have hck : k = ⟨m.addr, k.chan, k.ev, m.data, m.src⟩ := by
          cases k; simp at ha hd hs ⊢; exact ⟨ha.symm, hd, hs⟩
        by_cases hp : k.chan = chan ∧ mask k.ev = true
        · rw [if_pos (by simp [hp])]
          exact ⟨[], m :: q, { s with queue := q, cache := some k }, rfl, (fun m h => by cases h), hrun, .inr ⟨m, q, _, _, rfl, has,
            by rw [← hck], .inl ⟨hp.1, hp.2, rfl, rfl⟩⟩⟩
        · rw [if_neg (by simpa using hp)]
          exact ⟨[], m :: q, s, rfl, (fun m h => by cases h), hrun, .inr ⟨m, q, _, _, rfl, has, by rw [← hck]; exact hk,
            .inr ⟨hp, rfl, hq⟩⟩⟩
    · rw [if_neg hh]
      exact scan_spec maps others chan mask { s with cache := none } rfl hrun s.queue

theorem get_spec {maps : List (List Int → Option (List Int))} {s : Mux δ} (h : Good maps s) (others : Bool)
    (chan : Nat) (mask : List Int → Bool) :
    Did maps others chan mask s (get maps others chan mask s).1 (get maps others chan mask s).2 ∧
    Good maps (get maps others chan mask s).2 := by
  obtain ⟨xs, rest, s', h1, h2, hr, h3⟩ := check_spec h others chan mask
  have hn : (rest.map Msg.addr).Nodup := by
    have := h.nodup
    rw [h1, List.map_append, List.nodup_append] at this
    exact this.2.1
  unfold get
  rcases h3 with ⟨e1, e2, e3, e4⟩ | ⟨m, q, i, e, e1, e2, e3, ⟨g1, g2, g3, g4⟩ | ⟨g1, g2, g3⟩⟩
  · rw [e2]
    cases others <;>
    refine ⟨⟨xs, rest, h1, h2, .inl ⟨e1, rfl, e3⟩⟩, ⟨hr, by show (s'.queue.map Msg.addr).Nodup; rw [e3]; simp, fun k hk => by
        have hk' : s'.cache = some k := hk
        rw [e4] at hk'; cases hk'⟩⟩
  · rw [g3]
    dsimp only
    rw [e3]
    dsimp only
    refine ⟨⟨xs, rest, h1, h2, .inr ⟨m, q, i, e, e1, assign_goes e2, .inl ⟨g1, g2, rfl, g4⟩⟩⟩, ⟨hr, ?_, fun k hk => ?_⟩⟩
    · show (s'.queue.map Msg.addr).Nodup
      rw [g4]
      rw [e1, List.map_cons, List.nodup_cons] at hn
      exact hn.2
    · cases hk
  · rw [g2]
    dsimp only
    refine ⟨⟨xs, rest, h1, h2, .inr ⟨m, q, i, e, e1, assign_goes e2, .inr ⟨g1, rfl, g3⟩⟩⟩, ⟨hr, by rw [g3]; exact hn, ?_⟩⟩
    intro k hk
    rw [e3] at hk
    cases hk
    exact ⟨m, by rw [g3, e1]; simp, rfl, e2, rfl, rfl⟩

theorem arrive_good {maps : List (List Int → Option (List Int))} {s : Mux δ} (h : Good maps s) (pos : Nat) (m : Msg δ)
    (hm : m.addr ∉ s.queue.map Msg.addr) : Good maps { s with queue := s.queue.take pos ++ m :: s.queue.drop pos } := by
  have hp : (s.queue.take pos ++ m :: s.queue.drop pos).Perm (m :: s.queue) := by
    refine List.perm_middle.trans ?_
    rw [List.take_append_drop]
  refine ⟨h.run, ?_, fun k hk => ?_⟩
  · show ((s.queue.take pos ++ m :: s.queue.drop pos).map Msg.addr).Nodup
    rw [(hp.map _).nodup_iff, List.map_cons, List.nodup_cons]
    exact ⟨hm, h.nodup⟩
  · obtain ⟨m', hm', x⟩ := h.cache k hk
    exact ⟨m', hp.symm.subset (by simp [hm']), x⟩

theorem init_good (maps : List (List Int → Option (List Int))) : Good maps (init : Mux δ) :=
  ⟨rfl, by simp [init], fun k hk => by cases hk⟩

theorem run_good {maps : List (List Int → Option (List Int))} : ∀ (ops : List (Op δ)) s, Good maps s →
    Fresh maps s ops → Good maps (run maps s ops).1 := by
  intro ops
  induction ops with
  | nil => intro s h _; exact h
  | cons o os ih =>
    intro s h hf
    unfold run
    dsimp only
    cases o with
    | arrive pos m => exact ih _ (arrive_good h pos m hf.1) hf.2
    | get chan mask others =>
      refine ih _ ?_ hf
      have := (get_spec h others chan mask).2
      unfold step
      dsimp only
      split <;> rename_i heq <;> rw [heq] at this <;> exact this

/-- What a step delivers. -/
theorem step_get {maps : List (List Int → Option (List Int))} {s : Mux δ} (h : Good maps s) (others : Bool)
    (chan : Nat) (mask : List Int → Bool) :
    ∃ xs ds, s.queue = xs ++ ds ++ (step maps s (.get chan mask others)).1.queue ∧
      (∀ m ∈ xs, Unmapped maps m.id) ∧
      List.Forall₂ (fun (m : Msg δ) (d : Nat × List Int × δ × List Int) => Goes maps m.id d.1 d.2.1 ∧ d.2.2 = (m.data, m.src) ∧
        mask d.2.1 = true) ds (step maps s (.get chan mask others)).2 := by
  obtain ⟨xs, rest, h1, h2, h3⟩ := (get_spec h others chan mask).1
  unfold step
  dsimp only
  generalize get maps others chan mask s = r at h3
  obtain ⟨out, s'⟩ := r
  dsimp only at h3
  rcases h3 with ⟨e1, e2, e3⟩ | ⟨m, q, i, e, e1, e2, ⟨g1, g2, g3, g4⟩ | ⟨g1, g2, g3⟩⟩
  · subst e2
    exact ⟨xs, [], by dsimp only; rw [h1, e1, e3]; simp, h2, .nil⟩
  · subst g3
    refine ⟨xs, [m], by dsimp only; rw [h1, e1, g4]; simp, h2, .cons ⟨by rw [← g1]; exact e2, rfl, g2⟩ .nil⟩
  · subst g2
    exact ⟨xs, [], by dsimp only; rw [h1, g3, List.append_nil], h2, .nil⟩

theorem forall₂_app {α β : Type} {R : α → β → Prop} {a a' : List α} {b b' : List β} (h : List.Forall₂ R a b)
    (h' : List.Forall₂ R a' b') : List.Forall₂ R (a ++ a') (b ++ b') := by
  induction h with
  | nil => exact h'
  | cons x _ ih => exact .cons x ih

theorem run_perm {maps : List (List Int → Option (List Int))} : ∀ (ops : List (Op δ)) s, Good maps s →
    Fresh maps s ops →
    ∃ xs ds, (s.queue ++ arrivals ops).Perm (ds ++ (run maps s ops).1.queue ++ xs) ∧ (∀ m ∈ xs, Unmapped maps m.id) ∧
      List.Forall₂ (fun (m : Msg δ) (d : Nat × List Int × δ × List Int) => Goes maps m.id d.1 d.2.1 ∧ d.2.2 = (m.data, m.src))
        ds (run maps s ops).2 := by
  intro ops
  induction ops with
  | nil => intro s _ _; exact ⟨[], [], by simp [run, arrivals], by simp, .nil⟩
  | cons o os ih =>
    intro s h hf
    have hg := run_good [o] s h (by cases o <;> first | exact ⟨hf.1, trivial⟩ | trivial)
    unfold run at hg
    dsimp only [run] at hg
    cases o with
    | arrive pos m =>
      obtain ⟨xs, ds, i1, i2, i3⟩ := ih _ hg hf.2
      refine ⟨xs, ds, ?_, i2, i3⟩
      refine List.Perm.trans ?_ i1
      show (s.queue ++ m :: arrivals os).Perm ((s.queue.take pos ++ m :: s.queue.drop pos) ++ arrivals os)
      refine List.perm_middle.trans ?_
      rw [List.append_assoc, List.cons_append]
      refine List.Perm.trans ?_ List.perm_middle.symm
      rw [← List.append_assoc, List.take_append_drop]
    | get chan mask others =>
      obtain ⟨xs, ds, i1, i2, i3⟩ := ih _ hg hf
      obtain ⟨ys, es, j1, j2, j3⟩ := step_get h others chan mask
      unfold run
      dsimp only
      refine ⟨ys ++ xs, es ++ ds, ?_, ?_, ?_⟩
      · show (s.queue ++ arrivals os).Perm _
        generalize (step maps s (.get chan mask others)).1 = s1 at i1 j1
        rw [j1]
        have a : (ys ++ es ++ s1.queue ++ arrivals os).Perm (ys ++ (es ++ (s1.queue ++ arrivals os))) := by
          simp only [List.append_assoc]; exact List.Perm.refl _
        refine a.trans ?_
        refine (List.Perm.append_left ys (List.Perm.append_left es i1)).trans ?_
        simp only [List.append_assoc]
        generalize (run maps s1 os).1.queue = z
        refine List.perm_append_comm.trans ?_
        simp only [List.append_assoc]
        refine List.Perm.append_left es (List.Perm.append_left ds (List.Perm.append_left z ?_))
        exact List.perm_append_comm
      · intro m hm
        rcases List.mem_append.1 hm with hm | hm
        · exact j2 m hm
        · exact i2 m hm
      · exact forall₂_app (j3.imp (fun _ _ x => ⟨x.1, x.2.1⟩)) i3

/-- Messages that are put at the end are delivered in the order of their arrival. -/
theorem run_order {maps : List (List Int → Option (List Int))} : ∀ (ops : List (Op δ)) s, Good maps s →
    Fresh maps s ops → (∀ pos m, Op.arrive pos m ∈ ops → ∀ os os', ops = os ++ .arrive pos m :: os' →
      (run maps s os).1.queue.length ≤ pos) →
    ∃ ds zs, List.Forall₂ (fun (m : Msg δ) (d : Nat × List Int × δ × List Int) =>
        Goes maps m.id d.1 d.2.1 ∧ d.2.2 = (m.data, m.src)) ds (run maps s ops).2 ∧
      ds.Sublist zs ∧ zs ++ (run maps s ops).1.queue = s.queue ++ arrivals ops ∧
      ∀ m ∈ zs, m ∉ ds → Unmapped maps m.id := by
  intro ops
  induction ops with
  | nil => intro s _ _ _; exact ⟨[], [], .nil, .refl _, by simp [run, arrivals], by simp⟩
  | cons o os ih =>
    intro s h hf he
    have hg := run_good [o] s h (by cases o <;> first | exact ⟨hf.1, trivial⟩ | trivial)
    unfold run at hg
    dsimp only [run] at hg
    have he' : ∀ pos m, Op.arrive pos m ∈ os → ∀ os1 os', os = os1 ++ .arrive pos m :: os' →
        (run maps (step maps s o).1 os1).1.queue.length ≤ pos := by
      intro pos m hm os1 os' e
      exact he pos m (by simp [hm]) (o :: os1) os' (by rw [e]; rfl)
    cases o with
    | arrive pos m =>
      have hpos : s.queue.length ≤ pos := he pos m (by simp) [] os rfl
      obtain ⟨ds, zs, i1, i2, i3, i4⟩ := ih _ hg hf.2 he'
      refine ⟨ds, zs, i1, i2, ?_, i4⟩
      refine i3.trans ?_
      show (s.queue.take pos ++ m :: s.queue.drop pos) ++ arrivals os = s.queue ++ m :: arrivals os
      rw [List.take_of_length_le hpos, List.drop_of_length_le hpos]
      simp
    | get chan mask others =>
      obtain ⟨ds, zs, i1, i2, i3, i4⟩ := ih _ hg hf he'
      obtain ⟨ys, es, j1, j2, j3⟩ := step_get h others chan mask
      unfold run
      dsimp only
      refine ⟨es ++ ds, ys ++ es ++ zs, forall₂_app (j3.imp (fun _ _ x => ⟨x.1, x.2.1⟩)) i1, ?_, ?_, ?_⟩
      · rw [List.append_assoc]
        exact (List.Sublist.append (List.Sublist.refl es) i2).trans (List.sublist_append_right _ _)
      · rw [List.append_assoc, i3, ← List.append_assoc, ← j1]
        rfl
      · intro m hm hn
        rw [List.mem_append, List.mem_append] at hm
        rw [List.mem_append] at hn
        rcases hm with (hm | hm) | hm
        · exact j2 m hm
        · exact absurd (.inl hm) hn
        · exact i4 m hm (fun hc => hn (.inr hc))

theorem prefixed (p id : List Int) : Hiid.prefixedBy (p ++ id) p = true := by
  unfold Hiid.prefixedBy Hiid.matches_ Hiid.cat
  rw [if_neg (by decide)]
  induction p with
  | nil =>
    cases id with
    | nil => decide
    | cons a id =>
      show Hiid.matchLoop (a :: id) [Hiid.aidWild] = true
      unfold Hiid.matchLoop
      simp [Hiid.isWild]
  | cons a p ih =>
    show Hiid.matchLoop (a :: (p ++ id)) (a :: (p ++ [Hiid.aidWild])) = true
    unfold Hiid.matchLoop
    simp [Hiid.aidMatches, ih]

end Verif.EventMux
