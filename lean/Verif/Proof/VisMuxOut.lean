import Verif.Proof.VisMuxMore
import Mathlib.Logic.Relation
/-! # Visibility streams: output and errors -/
namespace Verif.VisMux

/-! ## Steps -/

/-- Calls whose outcome `throws` tells. -/
def Obs.ordinary : Obs → Bool
  | .poll .. | .out _ | .outFails _ => false
  | _ => true

/-- What the functions are made of; with `raise`, errors of the node itself are allowed. -/
inductive Atom (v : Env) (raise : Bool) : St → St → Prop
  | call (o : Obs) (s : St) (h : o.ordinary = true) : Atom v raise s (call v o s)
  | poll (i : Nat) (rq : Rq) (s : St) (h : v.sink s.trace i ≠ .fail) : Atom v raise s { s with trace := s.trace ++ [.poll i rq] }
  | pollFail (i : Nat) (rq : Rq) (s : St) (h : v.sink s.trace i = .fail) : Atom v raise s { s with trace := s.trace ++ [.poll i rq], err := true }
  | out (e : Out) (s : St) : Atom v raise s { s with trace := s.trace ++ [.out e] }
  | outFails (e : Out) (s : St) : Atom v raise s { s with trace := s.trace ++ [.outFails e], err := true }
  | silent (s s' : St) (h1 : s'.trace = s.trace) (h2 : s'.err = s.err) (h3 : s'.fails = s.fails) : Atom v raise s s'
  | raise (s : St) (h : raise = true) : Atom v raise s { s with err := true }

/-- Several of them. -/
def Steps (v : Env) (raise : Bool) : St → St → Prop := Relation.ReflTransGen (Atom v raise)

theorem Steps.one {v r s s'} (h : Atom v r s s') : Steps v r s s' := Relation.ReflTransGen.single h

theorem Steps.refl {v r} (s : St) : Steps v r s s := Relation.ReflTransGen.refl

theorem Steps.trans {v r a b c} (h : Steps v r a b) (g : Steps v r b c) : Steps v r a c := Relation.ReflTransGen.trans h g

theorem Steps.silent {v r} {s s' : St} (h1 : s'.trace = s.trace) (h2 : s'.err = s.err) (h3 : s'.fails = s.fails) : Steps v r s s' :=
  .one (.silent s s' h1 h2 h3)

theorem steps_calls (v : Env) (r : Bool) (l : List Obs) (hl : ∀ o ∈ l, o.ordinary = true) (s : St) : Steps v r s (calls v l s) := by
  induction l generalizing s with
  | nil => exact .refl s
  | cons o l ih => exact (Steps.one (.call o s (hl o (by simp)))).trans (ih (fun x hx => hl x (by simp [hx])) _)

theorem steps_postOut (v : Env) (r : Bool) (e : Out) (s : St) : Steps v r s (postOut v e s).1 := by
  unfold postOut
  split
  · exact .one (.outFails e s)
  · exact .one (.out e s)

theorem steps_postHeader (v : Env) (r : Bool) (s : St) : Steps v r s (postHeader v s).1 := by
  unfold postHeader
  split
  · exact .refl s
  · dsimp only
    split
    · exact (steps_postOut v r _ s).trans (.silent rfl rfl rfl)
    · exact steps_postOut v r _ s

theorem steps_pollSink (v : Env) (r : Bool) (c : Conf) (rq : Rq) (s : St) (i : Nat) : Steps v r s (pollSink v c rq s i) := by
  unfold pollSink
  dsimp only
  cases h : v.sink s.trace i with
  | fail => exact .one (.pollFail i rq s h)
  | nothing => exact .one (.poll i rq s (by rw [h]; simp))
  | tile t =>
    have h0 : Steps v r s { s with trace := s.trace ++ [.poll i rq] } := .one (.poll i rq s (by rw [h]; simp))
    dsimp only
    split
    · split
      · exact (h0.trans (steps_postHeader v r _)).trans (steps_postOut v r _ _)
      · exact h0.trans (steps_postHeader v r _)
    · exact h0

theorem steps_polls (v : Env) (r : Bool) (c : Conf) (rq : Rq) (l : List Nat) (s : St) : Steps v r s (l.foldl (pollSink v c rq) s) := by
  induction l generalizing s with
  | nil => exact .refl s
  | cons i l ih => exact (steps_pollSink v r c rq s i).trans (ih _)

theorem steps_end (v : Env) (r : Bool) (c : Conf) (s : St) (h : r = true ∨ s.req ≠ none) : Steps v r s (endSnippet v c s) := by
  unfold endSnippet
  split
  · rename_i hn
    exact .one (.raise s (h.resolve_right (fun h => h hn)))
  · rename_i rq _
    have hi : ∀ (b : Bool) (o : Obs), o.ordinary = true → ∀ s, Steps v r s (if b then call v o s else s) := by
      intro b o ho s
      cases b
      · exact .refl s
      · exact .one (.call o s ho)
    exact ((hi c.hasPre (.pre rq) rfl s).trans (steps_polls v r c rq _ _)).trans (hi c.hasPost (.post rq) rfl _)

theorem steps_start (v : Env) (r : Bool) (c : Conf) (t : Tile) (s s' : St) (h : startSnippet v c t s = some s') (hr : r = true ∨ t.good = true) :
    Steps v r s s' ∧ (t.good = true → s'.req ≠ none) := by
  unfold startSnippet at h
  dsimp only at h
  split at h
  · cases h
  · split at h
    · rename_i hg
      injection h with h
      subst h
      split
      · rename_i rg _ _
        exact ⟨Steps.trans (b := { s with next := ⟨s.next.dataset, s.next.domain + 1⟩, req := some s.next, range := rg, have_ := List.replicate s.handlers.length false })
          (Steps.silent rfl rfl rfl) (Steps.one (.call (.start s.next) _ rfl)), fun _ => (by intro h; cases h)⟩
      · exact ⟨.silent rfl rfl rfl, fun _ => by intro h; cases h⟩
    · rename_i hg
      injection h with h
      subst h
      exact ⟨Steps.trans (b := { s with next := ⟨s.next.dataset, s.next.domain + 1⟩, range := _ }) (.silent rfl rfl rfl)
        (.one (.raise _ (hr.resolve_right hg))), fun h => absurd h hg⟩

theorem steps_handTile (v : Env) (r : Bool) (t : Tile) (s s' : St) (h : handTile v t s = some s') (hr : r = true ∨ s.req ≠ none) :
    Steps v r s s' ∧ s'.req = s.req ∧ s'.seqnr = s.seqnr := by
  unfold handTile at h
  split at h
  · cases h
  · split at h
    · cases h
    · injection h with h
      subst h
      unfold toHandlers
      split
      · rename_i hn
        split
        · exact ⟨.silent rfl rfl rfl, rfl, rfl⟩
        · exact ⟨Steps.trans (b := { s with have_ := s.have_.set t.did.toNat true }) (.silent rfl rfl rfl)
            (.one (.raise _ (hr.resolve_right (fun h => h hn)))), rfl, rfl⟩
      · refine ⟨Steps.trans (b := { s with have_ := s.have_.set t.did.toNat true }) (.silent rfl rfl rfl) (steps_calls v r _ ?_ _), ?_⟩
        · intro o ho
          obtain ⟨n, -, rfl⟩ := List.mem_map.mp ho
          rfl
        · rename_i l _ rq _
          have : ∀ (l : List Obs) (s : St), (calls v l s).req = s.req ∧ (calls v l s).seqnr = s.seqnr := by
            intro l
            induction l with
            | nil => intro s; exact ⟨rfl, rfl⟩
            | cons o l ih => intro s; exact ih (call v o s)
          exact this _ _

/-- A snippet that has begun has a request. -/
def Ready (s : St) : Prop := 0 ≤ s.seqnr → s.req ≠ none

theorem end_req (v : Env) (c : Conf) (s : St) : (endSnippet v c s).req = s.req ∧ (endSnippet v c s).seqnr = s.seqnr ∧
    (endSnippet v c s).inData = s.inData := by
  cases h : s.req with
  | none =>
    have : endSnippet v c s = { s with err := true } := by unfold endSnippet; rw [h]
    rw [this]; exact ⟨h, rfl, rfl⟩
  | some rq =>
    have := (ext_end v c s rq h).1
    rw [this]
    exact ⟨h, rfl, rfl⟩

/-- `deliverTile`: steps, after which the errors of the snippet before may be dropped. -/
theorem steps_deliverTile (v : Env) (r : Bool) (c : Conf) (t : Tile) (s s' : St) (h : deliverTile v c t s = some s')
    (hr : r = true ∨ (t.fine ∧ Ready s)) :
    (∃ s1, Steps v r s s1 ∧ (s' = s1 ∨ (c.max ≠ none ∧ s' = { s1 with err := s.err }))) ∧ (t.fine → Ready s → Ready s') := by
  unfold deliverTile at h
  split at h
  · injection h with h; subst h; exact ⟨⟨s, .refl s, .inl rfl⟩, fun _ h => h⟩
  · split at h
    · injection h with h; subst h; exact ⟨⟨s, .refl s, .inl rfl⟩, fun _ h => h⟩
    · split at h
      · rename_i hq
        obtain ⟨h1, h2, h3⟩ := steps_handTile v r t s s' h (hr.imp id fun hf => hf.2 (by rw [← hq]; exact hf.1.2.2.1))
        exact ⟨⟨s', h1, .inl rfl⟩, fun _ hR => by unfold Ready; rw [h2, h3]; exact hR⟩
      · dsimp only at h
        have he : Steps v r s (if 0 ≤ s.seqnr then endSnippet v c s else s) ∧
            (if 0 ≤ s.seqnr then endSnippet v c s else s).req = s.req ∧ (if 0 ≤ s.seqnr then endSnippet v c s else s).seqnr = s.seqnr := by
          split
          · rename_i h0
            exact ⟨steps_end v r c s (hr.imp id fun hf => hf.2 h0), (end_req v c s).1, (end_req v c s).2.1⟩
          · exact ⟨.refl s, rfl, rfl⟩
        generalize (if 0 ≤ s.seqnr then endSnippet v c s else s) = s1 at h he
        split at h
        · rename_i ho
          injection h with h
          subst h
          refine ⟨⟨{ s1 with numTiles := s1.numTiles + 1 }, he.1.trans (.silent rfl rfl rfl), .inr ⟨?_, rfl⟩⟩, fun _ hR => ?_⟩
          · intro hm
            unfold over at ho
            rw [hm] at ho
            cases ho
          · show 0 ≤ s1.seqnr → s1.req ≠ none
            rw [he.2.1, he.2.2]; exact hR
        · cases hs : startSnippet v c t { s1 with numTiles := s1.numTiles + 1, seqnr := t.seq } with
          | none => rw [hs] at h; cases h
          | some s2 =>
            rw [hs] at h
            obtain ⟨g1, g2⟩ := steps_start v r c t _ s2 hs (hr.imp id fun hf => hf.1.2.2.2.2)
            obtain ⟨k1, k2, k3⟩ := steps_handTile v r t s2 s' h (hr.imp id fun hf => g2 hf.1.2.2.2.2)
            refine ⟨⟨s', ((he.1.trans (Steps.silent (s' := { s1 with numTiles := s1.numTiles + 1, seqnr := t.seq }) rfl rfl rfl)).trans g1).trans k1, .inl rfl⟩, fun hf _ => ?_⟩
            intro _
            rw [k2]
            exact g2 hf.2.2.2.2

theorem steps_deliverFooter (v : Env) (r : Bool) (c : Conf) (f : Nat) (s : St) (hr : r = true ∨ Ready s) :
    Steps v r s (deliverFooter v c f s) := by
  unfold deliverFooter
  dsimp only
  have h1 : Steps v r s (if over c s.numTiles = true then s else calls v
      ((if 0 ≤ s.seqnr then endSnippet v c s else s).handlers.flatten.map fun n => .footer n f)
      (if 0 ≤ s.seqnr then endSnippet v c s else s)) := by
    split
    · exact .refl s
    · have he : Steps v r s (if 0 ≤ s.seqnr then endSnippet v c s else s) := by
        split
        · rename_i h0
          exact steps_end v r c s (hr.imp id fun hf => hf h0)
        · exact .refl s
      refine he.trans (steps_calls v r _ ?_ _)
      intro o ho
      obtain ⟨n, -, rfl⟩ := List.mem_map.mp ho
      rfl
  split
  · exact h1.trans (steps_postOut v r _ _)
  · exact h1

theorem steps_deliverHeader (v : Env) (r : Bool) (h : Header) (s : St) (hr : r = true ∨ h.good = true) :
    Steps v r s (deliverHeader v h s) ∧ (deliverHeader v h s).seqnr = -1 := by
  unfold deliverHeader
  dsimp only
  split
  · refine ⟨Steps.trans (Steps.trans (b := { s with next := ⟨s.next.dataset + 1, 0⟩, seqnr := -1, have_ := List.replicate (maxDid h) false, handlers := resize s.handlers (maxDid h), kids := resize s.kids (maxDid h) }) (.silent rfl rfl rfl) (steps_calls v r _ ?_ _)) (.silent rfl rfl rfl), ?_⟩
    · intro o ho
      obtain ⟨n, -, rfl⟩ := List.mem_map.mp ho
      rfl
    · have : ∀ (l : List Obs) (s : St), (calls v l s).seqnr = s.seqnr := by
        intro l
        induction l with
        | nil => intro s; rfl
        | cons o l ih => intro s; exact ih (call v o s)
      exact this _ _
  · rename_i hg
    exact ⟨Steps.trans (b := { s with next := ⟨s.next.dataset + 1, 0⟩, seqnr := -1, have_ := List.replicate (maxDid h) false, handlers := resize s.handlers (maxDid h), kids := resize s.kids (maxDid h) }) (.silent rfl rfl rfl)
      (.one (.raise _ (hr.resolve_right hg))), rfl⟩

/-! ## Errors -/

theorem allWell_append (v : Env) (l : List Obs) (o : Obs) : AllWell v (l ++ [o]) ↔ AllWell v l ∧ wentWell v l o = true := by
  constructor
  · intro h
    refine ⟨fun p x q e => h p x (q ++ [o]) (by rw [e]; simp), h l o [] rfl⟩
  · rintro ⟨h1, h2⟩ p x q e
    rcases List.eq_nil_or_concat q with rfl | ⟨q', y, rfl⟩
    · have := List.append_inj' e rfl
      obtain ⟨e1, e2⟩ := this
      injection e2 with e2 _
      rw [← e1, ← e2]; exact h2
    · have e' : l ++ [o] = (p ++ x :: q') ++ [y] := by rw [e]; simp
      obtain ⟨e1, -⟩ := List.append_inj' e' rfl
      exact h1 p x q' e1

theorem atom_err {v r s s'} (h : Atom v r s s') :
    s'.fails = s.fails ∧ (s'.err = false → s.err = false ∧ (AllWell v s.trace → AllWell v s'.trace)) ∧
      (r = false → AllWell v s'.trace → AllWell v s.trace ∧ (s.err = false → s'.err = false)) := by
  cases h with
  | call o s h =>
    have hw : wentWell v s.trace o = !v.throws s.trace o := by cases o <;> first | rfl | cases h
    refine ⟨rfl, ?_, ?_⟩
    · intro he
      have he' : (s.err || v.throws s.trace o) = false := he
      rw [Bool.or_eq_false_iff] at he'
      exact ⟨he'.1, fun ha => (allWell_append v _ o).mpr ⟨ha, by rw [hw, he'.2]; rfl⟩⟩
    · intro _ ha
      obtain ⟨h1, h2⟩ := (allWell_append v _ o).mp ha
      refine ⟨h1, fun he => ?_⟩
      rw [hw] at h2
      show (s.err || v.throws s.trace o) = false
      rw [he]
      simpa using h2
  | poll i rq s h =>
    have hw : wentWell v s.trace (.poll i rq) = true := by simp [wentWell, h]
    exact ⟨rfl, fun he => ⟨he, fun ha => (allWell_append v _ _).mpr ⟨ha, hw⟩⟩, fun _ ha => ⟨((allWell_append v _ _).mp ha).1, fun he => he⟩⟩
  | pollFail i rq s h =>
    refine ⟨rfl, ?_, ?_⟩
    · intro he; cases he
    · intro _ ha
      have := ((allWell_append v _ _).mp ha).2
      simp [wentWell, h] at this
  | out e s =>
    exact ⟨rfl, fun he => ⟨he, fun ha => (allWell_append v _ _).mpr ⟨ha, rfl⟩⟩, fun _ ha => ⟨((allWell_append v _ _).mp ha).1, fun he => he⟩⟩
  | outFails e s =>
    refine ⟨rfl, ?_, ?_⟩
    · intro he; cases he
    · intro _ ha
      have := ((allWell_append v _ _).mp ha).2
      cases this
  | silent s s' h1 h2 h3 => rw [h1, h2]; exact ⟨h3, fun he => ⟨he, id⟩, fun _ ha => ⟨ha, id⟩⟩
  | raise s h => exact ⟨rfl, (by intro he; cases he), (by intro hr; rw [h] at hr; cases hr)⟩

theorem steps_err {v r s s'} (h : Steps v r s s') :
    s'.fails = s.fails ∧ (s'.err = false → s.err = false ∧ (AllWell v s.trace → AllWell v s'.trace)) ∧
      (r = false → AllWell v s'.trace → AllWell v s.trace ∧ (s.err = false → s'.err = false)) := by
  induction h with
  | refl => exact ⟨rfl, fun he => ⟨he, id⟩, fun _ ha => ⟨ha, id⟩⟩
  | tail _ ha ih =>
    obtain ⟨a1, a2, a3⟩ := atom_err ha
    obtain ⟨i1, i2, i3⟩ := ih
    refine ⟨a1.trans i1, ?_, ?_⟩
    · intro he
      obtain ⟨h1, h2⟩ := a2 he
      obtain ⟨h3, h4⟩ := i2 h1
      exact ⟨h3, fun hw => h2 (h4 hw)⟩
    · intro hr hw
      obtain ⟨h1, h2⟩ := a3 hr hw
      obtain ⟨h3, h4⟩ := i3 hr h1
      exact ⟨h3, fun he => h2 (h4 he)⟩

/-- Between events: no error so far means that all went well. -/
def Clean (v : Env) (s : St) : Prop := s.err = false ∧ (s.fails = false → AllWell v s.trace)

theorem clean_steps {v r s s1} (h : Clean v s) (hs : Steps v r s s1) : Clean v (settle s1) := by
  obtain ⟨h1, h2, -⟩ := steps_err hs
  refine ⟨rfl, fun hf => ?_⟩
  have hf' : (s1.fails || s1.err) = false := hf
  rw [Bool.or_eq_false_iff, h1] at hf'
  exact (h2 hf'.2).2 (h.2 hf'.1)

theorem event_clean (v : Env) (c : Conf) (hm : c.max = none) (s s' : St) (e : In) (h : event v c s e = some s') (hc : Clean v s) : Clean v s' := by
  cases e with
  | other => injection h with h; subst h; exact hc
  | tile t =>
    have h' : (if s.inData then (deliverTile v c t (call v (.pyTile t) s)).map settle else some { s with fatal := true }) = some s' := h
    split at h'
    · cases hd : deliverTile v c t (call v (.pyTile t) s) with
      | none => rw [hd] at h'; cases h'
      | some s1 =>
        rw [hd] at h'
        injection h' with h'
        subst h'
        obtain ⟨⟨s2, g1, g2⟩, -⟩ := steps_deliverTile v true c t _ s1 hd (.inl rfl)
        rcases g2 with rfl | ⟨g2, -⟩
        · exact clean_steps hc ((Steps.one (.call (.pyTile t) s rfl)).trans g1)
        · exact absurd hm g2
    · injection h' with h'; subst h'; exact hc
  | footer f =>
    have h' : (if s.inData then some (settle (deliverFooter v c f (call v (.pyFooter f) { s with inData := false }))) else some { s with fatal := true }) = some s' := h
    split at h'
    · injection h' with h'
      subst h'
      refine clean_steps (r := true) (s := { s with inData := false }) hc ?_
      exact (Steps.one (.call (.pyFooter f) _ rfl)).trans (steps_deliverFooter v true c f _ (.inl rfl))
    · injection h' with h'; subst h'; exact hc
  | header hd =>
    have h' : (if s.inData then some { s with hadData := true, fatal := true } else some (settle { deliverHeader v hd (call v (.pyHeader hd) { s with hadData := true, inData := true }) with numTiles := 0 })) = some s' := h
    split at h'
    · injection h' with h'; subst h'; exact hc
    · injection h' with h'
      subst h'
      refine clean_steps (r := true) (s := { s with hadData := true, inData := true }) hc ?_
      exact ((Steps.one (.call (.pyHeader hd) _ rfl)).trans (steps_deliverHeader v true hd _ (.inl rfl)).1).trans (.silent rfl rfl rfl)

theorem loop_clean (v : Env) (c : Conf) (hm : c.max = none) (l : List In) : ∀ s s', loop v c s l = some s' → Clean v s → Clean v s' := by
  induction l with
  | nil => intro s s' h hc; injection h with h; subst h; exact hc
  | cons e l ih =>
    intro s s' h hc
    rw [loop] at h
    split at h
    · injection h with h; subst h; exact hc
    · cases he : event v c s e with
      | none => rw [he] at h; cases h
      | some s1 => rw [he] at h; exact ih s1 s' h (event_clean v c hm s s1 e he hc)

/-- No failures before and all calls well: no failures. -/
theorem event_well (v : Env) (c : Conf) (s s' : St) (e : In) (h : event v c s e = some s') (hf : e.fine) (hR : Ready s) (h0 : s.err = false) :
    Ready s' ∧ s'.err = false ∧ (AllWell v s'.trace → AllWell v s.trace ∧ (s.fails = false → s'.fails = false)) := by
  have fin : ∀ (s0 s1 : St), s0.err = false → Steps v false s0 s1 → (settle s1).err = false ∧
      (AllWell v (settle s1).trace → AllWell v s0.trace ∧ (s0.fails = false → (settle s1).fails = false)) := by
    intro s0 s1 h0 hs
    obtain ⟨h1, -, h3⟩ := steps_err hs
    refine ⟨rfl, fun hw => ?_⟩
    obtain ⟨g1, g2⟩ := h3 rfl hw
    refine ⟨g1, fun hff => ?_⟩
    show (s1.fails || s1.err) = false
    rw [h1, hff, g2 h0]
    rfl
  cases e with
  | other => injection h with h; subst h; exact ⟨hR, h0, fun h => ⟨h, id⟩⟩
  | tile t =>
    have h' : (if s.inData then (deliverTile v c t (call v (.pyTile t) s)).map settle else some { s with fatal := true }) = some s' := h
    split at h'
    · cases hd : deliverTile v c t (call v (.pyTile t) s) with
      | none => rw [hd] at h'; cases h'
      | some s1 =>
        rw [hd] at h'
        injection h' with h'
        subst h'
        obtain ⟨⟨s2, g1, g2⟩, g3⟩ := steps_deliverTile v false c t _ s1 hd (.inr ⟨hf, hR⟩)
        have hst : Steps v false s s2 := (Steps.one (.call (.pyTile t) s rfl)).trans g1
        refine ⟨g3 hf hR, ?_⟩
        rcases g2 with rfl | ⟨-, g2⟩
        · exact fin s _ h0 hst
        · refine ⟨rfl, fun hw => ?_⟩
          have htr : s1.trace = s2.trace := by rw [g2]
          have hfl : s1.fails = s2.fails := by rw [g2]
          have her : s1.err = (call v (.pyTile t) s).err := by rw [g2]
          have hw2 : AllWell v s2.trace := by rw [← htr]; exact hw
          obtain ⟨k1, -, k3⟩ := steps_err hst
          obtain ⟨m1, -, m3⟩ := steps_err g1
          refine ⟨(k3 rfl hw2).1, fun hff => ?_⟩
          show (s1.fails || s1.err) = false
          obtain ⟨-, -, p3⟩ := steps_err (Steps.one (v := v) (r := false) (.call (.pyTile t) s rfl))
          rw [hfl, k1, hff, her, (p3 rfl (m3 rfl hw2).1).2 h0]
          rfl
    · injection h' with h'; subst h'; exact ⟨hR, h0, fun h => ⟨h, id⟩⟩
  | footer f =>
    have h' : (if s.inData then some (settle (deliverFooter v c f (call v (.pyFooter f) { s with inData := false }))) else some { s with fatal := true }) = some s' := h
    split at h'
    · injection h' with h'
      subst h'
      refine ⟨?_, fin { s with inData := false } _ h0 ?_⟩
      · have key : ∀ s : St, (deliverFooter v c f s).seqnr = s.seqnr ∧ (deliverFooter v c f s).req = s.req := by
          intro s
          unfold deliverFooter
          dsimp only
          have hc : ∀ (l : List Obs) (s : St), (calls v l s).seqnr = s.seqnr ∧ (calls v l s).req = s.req := by
            intro l
            induction l with
            | nil => intro s; exact ⟨rfl, rfl⟩
            | cons o l ih => intro s; exact ih (call v o s)
          have h2 : (if over c s.numTiles = true then s else calls v
              ((if 0 ≤ s.seqnr then endSnippet v c s else s).handlers.flatten.map fun n => .footer n f)
              (if 0 ≤ s.seqnr then endSnippet v c s else s)).seqnr = s.seqnr ∧ (if over c s.numTiles = true then s else calls v
              ((if 0 ≤ s.seqnr then endSnippet v c s else s).handlers.flatten.map fun n => .footer n f)
              (if 0 ≤ s.seqnr then endSnippet v c s else s)).req = s.req := by
            split
            · exact ⟨rfl, rfl⟩
            · rw [(hc _ _).1, (hc _ _).2]
              split
              · exact ⟨(end_req v c s).2.1, (end_req v c s).1⟩
              · exact ⟨rfl, rfl⟩
          have h3 : ∀ s : St, (postOut v (.footer f) s).1.seqnr = s.seqnr ∧ (postOut v (.footer f) s).1.req = s.req := by
            intro s
            have := (ext_postOut v (.footer f) s).1
            rw [this]
            exact ⟨rfl, rfl⟩
          split
          · rw [(h3 _).1, (h3 _).2]; exact h2
          · exact h2
        intro hp
        have hp' : 0 ≤ (deliverFooter v c f (call v (.pyFooter f) { s with inData := false })).seqnr := hp
        show (deliverFooter v c f (call v (.pyFooter f) { s with inData := false })).req ≠ none
        rw [(key _).1] at hp'
        rw [(key _).2]
        exact hR hp'
      · exact (Steps.one (.call (.pyFooter f) _ rfl)).trans (steps_deliverFooter v false c f _ (.inr hR))
    · injection h' with h'; subst h'; exact ⟨hR, h0, fun h => ⟨h, id⟩⟩
  | header hd =>
    have h' : (if s.inData then some { s with hadData := true, fatal := true } else some (settle { deliverHeader v hd (call v (.pyHeader hd) { s with hadData := true, inData := true }) with numTiles := 0 })) = some s' := h
    split at h'
    · injection h' with h'; subst h'; exact ⟨hR, h0, fun h => ⟨h, id⟩⟩
    · injection h' with h'
      subst h'
      have hst := steps_deliverHeader v false hd (call v (.pyHeader hd) { s with hadData := true, inData := true }) (.inr hf)
      refine ⟨?_, fin { s with hadData := true, inData := true } _ h0 ?_⟩
      · intro hp
        have : 0 ≤ (deliverHeader v hd (call v (.pyHeader hd) { s with hadData := true, inData := true })).seqnr := hp
        rw [hst.2] at this
        omega
      · exact ((Steps.one (.call (.pyHeader hd) _ rfl)).trans hst.1).trans (.silent rfl rfl rfl)

theorem loop_well (v : Env) (c : Conf) (l : List In) (hl : ∀ e ∈ l, e.fine) : ∀ s s', loop v c s l = some s' → Ready s → s.err = false →
    AllWell v s'.trace → AllWell v s.trace ∧ (s.fails = false → s'.fails = false) := by
  induction l with
  | nil => intro s s' h _ _ hw; injection h with h; subst h; exact ⟨hw, id⟩
  | cons e l ih =>
    intro s s' h hR h0 hw
    rw [loop] at h
    split at h
    · injection h with h; subst h; exact ⟨hw, id⟩
    · cases he : event v c s e with
      | none => rw [he] at h; cases h
      | some s1 =>
        rw [he] at h
        obtain ⟨g1, g2, g3⟩ := event_well v c s s1 e he (hl e (by simp)) hR h0
        obtain ⟨k1, k2⟩ := ih (fun x hx => hl x (List.mem_cons_of_mem _ hx)) s1 s' h g1 g2 hw
        obtain ⟨m1, m2⟩ := g3 k1
        exact ⟨m1, fun hh => k2 (m2 hh)⟩

/-! ## The form of the output -/

/-- While a data set comes in: the header is kept and nothing of the data set has been written, or it has been written. -/
def FormIn (s : St) : Prop :=
  (s.cached.isSome = true ∧ outForm true (outs s.trace) = .idle) ∨ (s.cached = none ∧ outForm true (outs s.trace) = .open_)

theorem outs_append (l m : List Obs) : outs (l ++ m) = outs l ++ outs m := by simp [outs]

theorem outForm_out (lone : Bool) (l : List Out) (e : Out) : outForm lone (l ++ [e]) = outStep lone (outForm lone l) e := by
  simp [outForm]

/-- Calls change only the trace and the error flag, and nothing in the output. -/
theorem calls_same (v : Env) (l : List Obs) (hl : ∀ o ∈ l, o.ordinary = true) (s : St) :
    (calls v l s).cached = s.cached ∧ outs (calls v l s).trace = outs s.trace ∧ (calls v l s).inData = s.inData ∧
      ((calls v l s).fatal, (calls v l s).hadData) = (s.fatal, s.hadData) := by
  induction l generalizing s with
  | nil => exact ⟨rfl, rfl, rfl, rfl⟩
  | cons o l ih =>
    have h1 : outs (call v o s).trace = outs s.trace := by
      show outs (s.trace ++ [o]) = _
      rw [outs_append]
      have := hl o (by simp)
      cases o <;> first | (cases this; done) | simp [outs]
    obtain ⟨a, b, c, d⟩ := ih (fun x hx => hl x (by simp [hx])) (call v o s)
    exact ⟨a, b.trans h1, c, d⟩

/-- A relation between states that keeps all that the form is about. -/
def Keeps (s s' : St) : Prop := (FormIn s → FormIn s') ∧ s'.inData = s.inData ∧ (s'.fatal, s'.hadData) = (s.fatal, s.hadData)

theorem Keeps.trans {a b c : St} (h : Keeps a b) (g : Keeps b c) : Keeps a c :=
  ⟨fun x => g.1 (h.1 x), g.2.1.trans h.2.1, g.2.2.trans h.2.2⟩

theorem Keeps.refl (s : St) : Keeps s s := ⟨id, rfl, rfl⟩

theorem Keeps.same {s s' : St} (h1 : s'.cached = s.cached) (h2 : outs s'.trace = outs s.trace) (h3 : s'.inData = s.inData)
    (h4 : (s'.fatal, s'.hadData) = (s.fatal, s.hadData)) : Keeps s s' := ⟨fun h => by unfold FormIn; rw [h1, h2]; exact h, h3, h4⟩

theorem keeps_call (v : Env) (o : Obs) (h : o.ordinary = true) (s : St) : Keeps s (call v o s) := by
  obtain ⟨a, b, c, d⟩ := calls_same v [o] (by simpa using h) s
  exact .same a b c d

theorem keeps_calls (v : Env) (l : List Obs) (hl : ∀ o ∈ l, o.ordinary = true) (s : St) : Keeps s (calls v l s) := by
  obtain ⟨a, b, c, d⟩ := calls_same v l hl s
  exact .same a b c d

theorem keeps_pollSink (v : Env) (c : Conf) (rq : Rq) (s : St) (i : Nat) : Keeps s (pollSink v c rq s i) := by
  have ho : outs (s.trace ++ [.poll i rq]) = outs s.trace := by simp [outs]
  unfold pollSink
  dsimp only
  cases v.sink s.trace i with
  | fail => exact .same rfl ho rfl rfl
  | nothing => exact .same rfl ho rfl rfl
  | tile t =>
    dsimp only
    split
    · unfold postHeader
      dsimp only
      cases hc : s.cached with
      | none =>
        dsimp only
        rw [if_pos rfl]
        unfold postOut
        dsimp only
        split
        · refine ⟨?_, rfl, rfl⟩
          intro h
          unfold FormIn at h ⊢
          dsimp only at h ⊢
          rw [outs_append, ho]
          rw [hc] at h
          rcases h with ⟨h, -⟩ | h
          · cases h
          · refine .inr ⟨rfl, ?_⟩
            simpa [outs] using h.2
        · refine ⟨?_, rfl, rfl⟩
          intro h
          unfold FormIn at h ⊢
          dsimp only at h ⊢
          rw [outs_append, ho]
          rw [hc] at h
          rcases h with ⟨h, -⟩ | h
          · cases h
          · refine .inr ⟨rfl, ?_⟩
            show outForm true (outs s.trace ++ [Out.tile t]) = _
            rw [outForm_out, h.2]
            rfl
      | some hd =>
        dsimp only
        unfold postOut
        dsimp only
        split
        · rw [if_neg (show ¬ (false = true) by simp), if_neg (show ¬ (false = true) by simp)]
          refine .same hc.symm ?_ rfl rfl
          dsimp only
          rw [outs_append, ho]
          simp [outs]
        · rw [if_pos rfl]
          dsimp only
          rw [if_pos rfl]
          have key : FormIn s → outForm true (outs (s.trace ++ [.poll i rq] ++ [.out (.header hd)])) = .open_ := by
            intro h
            unfold FormIn at h
            rw [hc] at h
            rcases h with ⟨-, h⟩ | ⟨h, -⟩
            · rw [outs_append, ho]
              show outForm true (outs s.trace ++ [Out.header hd]) = _
              rw [outForm_out, h]
              rfl
            · cases h
          split
          · refine ⟨fun h => .inr ⟨rfl, ?_⟩, rfl, rfl⟩
            dsimp only
            rw [outs_append, ← key h]
            simp [outs]
          · refine ⟨fun h => .inr ⟨rfl, ?_⟩, rfl, rfl⟩
            dsimp only
            rw [outs_append]
            show outForm true (_ ++ [Out.tile t]) = _
            rw [outForm_out, key h]
            rfl
    · exact .same rfl ho rfl rfl

theorem keeps_polls (v : Env) (c : Conf) (rq : Rq) (l : List Nat) (s : St) : Keeps s (l.foldl (pollSink v c rq) s) := by
  induction l generalizing s with
  | nil => exact .refl s
  | cons i l ih => exact (keeps_pollSink v c rq s i).trans (ih _)

theorem keeps_end (v : Env) (c : Conf) (s : St) : Keeps s (endSnippet v c s) := by
  unfold endSnippet
  split
  · exact .same rfl rfl rfl rfl
  · rename_i rq _
    have hi : ∀ (b : Bool) (o : Obs), o.ordinary = true → ∀ s, Keeps s (if b then call v o s else s) := by
      intro b o ho s
      cases b
      · exact .refl s
      · exact keeps_call v o ho s
    exact ((hi c.hasPre (.pre rq) rfl s).trans (keeps_polls v c rq _ _)).trans (hi c.hasPost (.post rq) rfl _)

theorem keeps_handTile (v : Env) (t : Tile) (s s' : St) (h : handTile v t s = some s') : Keeps s s' := by
  unfold handTile at h
  split at h
  · cases h
  · split at h
    · cases h
    · injection h with h
      subst h
      unfold toHandlers
      split
      · split
        · exact .same rfl rfl rfl rfl
        · exact .same rfl rfl rfl rfl
      · refine Keeps.trans (b := { s with have_ := s.have_.set t.did.toNat true }) (.same rfl rfl rfl rfl) (keeps_calls v _ ?_ _)
        intro o ho
        obtain ⟨n, -, rfl⟩ := List.mem_map.mp ho
        rfl

theorem keeps_start (v : Env) (c : Conf) (t : Tile) (s s' : St) (h : startSnippet v c t s = some s') : Keeps s s' := by
  unfold startSnippet at h
  dsimp only at h
  split at h
  · cases h
  · rename_i rg _
    split at h
    · injection h with h
      subst h
      split
      · exact Keeps.trans (b := { s with next := ⟨s.next.dataset, s.next.domain + 1⟩, req := some s.next, range := rg, have_ := List.replicate s.handlers.length false })
          (.same rfl rfl rfl rfl) (keeps_call v (.start s.next) rfl _)
      · exact .same rfl rfl rfl rfl
    · injection h with h
      subst h
      exact .same rfl rfl rfl rfl

theorem keeps_deliverTile (v : Env) (c : Conf) (t : Tile) (s s' : St) (h : deliverTile v c t s = some s') : Keeps s s' := by
  unfold deliverTile at h
  split at h
  · injection h with h; subst h; exact .refl s
  · split at h
    · injection h with h; subst h; exact .refl s
    · split at h
      · exact keeps_handTile v t s s' h
      · dsimp only at h
        have he : Keeps s (if 0 ≤ s.seqnr then endSnippet v c s else s) := by
          split
          · exact keeps_end v c s
          · exact .refl s
        generalize (if 0 ≤ s.seqnr then endSnippet v c s else s) = s1 at h he
        split at h
        · injection h with h
          subst h
          exact he.trans (.same rfl rfl rfl rfl)
        · cases hs : startSnippet v c t { s1 with numTiles := s1.numTiles + 1, seqnr := t.seq } with
          | none => rw [hs] at h; cases h
          | some s2 =>
            rw [hs] at h
            exact ((he.trans (Keeps.same (s' := { s1 with numTiles := s1.numTiles + 1, seqnr := t.seq }) rfl rfl rfl rfl)).trans
              (keeps_start v c t _ s2 hs)).trans (keeps_handTile v t s2 s' h)

/-- All the time: if the output takes headers and footers. -/
def FormOk (s : St) : Prop :=
  if s.inData then FormIn s else outForm true (outs s.trace) = .idle

theorem deliverFooter_form (v : Env) (c : Conf) (f : Nat) (s : St) (ho : c.hasOut = true) (hf : ∀ p, v.outThrows p (.footer f) = false)
    (h : FormIn s) : outForm true (outs (deliverFooter v c f s).trace) = .idle ∧ (deliverFooter v c f s).inData = s.inData := by
  unfold deliverFooter
  dsimp only
  have h1 : Keeps s (if over c s.numTiles = true then s else calls v
      ((if 0 ≤ s.seqnr then endSnippet v c s else s).handlers.flatten.map fun n => .footer n f)
      (if 0 ≤ s.seqnr then endSnippet v c s else s)) := by
    split
    · exact .refl s
    · have he : Keeps s (if 0 ≤ s.seqnr then endSnippet v c s else s) := by
        split
        · exact keeps_end v c s
        · exact .refl s
      refine he.trans (keeps_calls v _ ?_ _)
      intro o ho
      obtain ⟨n, -, rfl⟩ := List.mem_map.mp ho
      rfl
  generalize (if over c s.numTiles = true then s else calls v
      ((if 0 ≤ s.seqnr then endSnippet v c s else s).handlers.flatten.map fun n => .footer n f)
      (if 0 ≤ s.seqnr then endSnippet v c s else s)) = s1 at h1
  rw [if_pos ho]
  unfold postOut
  rw [hf, if_neg (show ¬ (false = true) by simp)]
  refine ⟨?_, h1.2.1⟩
  dsimp only
  rw [outs_append]
  show outForm true (_ ++ [Out.footer f]) = _
  rw [outForm_out]
  rcases h1.1 h with ⟨-, g⟩ | ⟨-, g⟩ <;> rw [g] <;> rfl

theorem event_form (v : Env) (c : Conf) (s s' : St) (e : In) (ho : c.hasOut = true) (hf : ∀ p f, v.outThrows p (.footer f) = false)
    (hg : e.headerGood) (h : event v c s e = some s') (hI : FormOk s) : FormOk s' := by
  cases e with
  | other => injection h with h; subst h; exact hI
  | tile t =>
    have h' : (if s.inData then (deliverTile v c t (call v (.pyTile t) s)).map settle else some { s with fatal := true }) = some s' := h
    split at h'
    · rename_i hi
      cases hd : deliverTile v c t (call v (.pyTile t) s) with
      | none => rw [hd] at h'; cases h'
      | some s1 =>
        rw [hd] at h'
        injection h' with h'
        subst h'
        have hk := (keeps_call v (.pyTile t) rfl s).trans (keeps_deliverTile v c t _ s1 hd)
        unfold FormOk at hI ⊢
        rw [if_pos hi] at hI
        have hi' : (settle s1).inData = true := by show s1.inData = true; rw [hk.2.1]; exact hi
        rw [if_pos hi']
        exact hk.1 hI
    · injection h' with h'; subst h'; exact hI
  | footer f =>
    have h' : (if s.inData then some (settle (deliverFooter v c f (call v (.pyFooter f) { s with inData := false }))) else some { s with fatal := true }) = some s' := h
    split at h'
    · rename_i hi
      injection h' with h'
      subst h'
      unfold FormOk at hI
      rw [if_pos hi] at hI
      have hk := keeps_call v (.pyFooter f) rfl { s with inData := false }
      obtain ⟨g1, g2⟩ := deliverFooter_form v c f _ ho (fun p => hf p f) (hk.1 hI)
      have hi' : (settle (deliverFooter v c f (call v (.pyFooter f) { s with inData := false }))).inData = false := g2
      unfold FormOk
      rw [hi', if_neg (show ¬ (false = true) by simp)]
      exact g1
    · injection h' with h'; subst h'; exact hI
  | header hd =>
    have h' : (if s.inData then some { s with hadData := true, fatal := true } else some (settle { deliverHeader v hd (call v (.pyHeader hd) { s with hadData := true, inData := true }) with numTiles := 0 })) = some s' := h
    split at h'
    · injection h' with h'; subst h'; exact hI
    · rename_i hi
      injection h' with h'
      subst h'
      have hi0 : s.inData = false := by simpa using hi
      unfold FormOk at hI ⊢
      rw [hi0, if_neg (show ¬ (false = true) by simp)] at hI
      have hg' : hd.good = true := hg
      unfold deliverHeader
      dsimp only
      rw [if_pos hg']
      have hk1 := calls_same v [.pyHeader hd] (by simp [Obs.ordinary]) { s with hadData := true, inData := true }
      obtain ⟨a, b, c1, d⟩ := calls_same v (List.map (fun n => Obs.header n hd) (resize (call v (.pyHeader hd) { s with hadData := true, inData := true }).handlers (maxDid hd)).flatten) (by
        intro o ho
        obtain ⟨n, -, rfl⟩ := List.mem_map.mp ho
        rfl) { call v (.pyHeader hd) { s with hadData := true, inData := true } with
          next := ⟨s.next.dataset + 1, 0⟩, seqnr := -1, have_ := List.replicate (maxDid hd) false
          handlers := resize (call v (.pyHeader hd) { s with hadData := true, inData := true }).handlers (maxDid hd)
          kids := resize (call v (.pyHeader hd) { s with hadData := true, inData := true }).kids (maxDid hd) }
      rw [if_pos (by exact c1)]
      refine .inl ⟨rfl, ?_⟩
      have e1 : outs (settle { calls v (List.map (fun n => Obs.header n hd) (resize (call v (.pyHeader hd) { s with hadData := true, inData := true }).handlers (maxDid hd)).flatten)
          { call v (.pyHeader hd) { s with hadData := true, inData := true } with
            next := ⟨s.next.dataset + 1, 0⟩, seqnr := -1, have_ := List.replicate (maxDid hd) false
            handlers := resize (call v (.pyHeader hd) { s with hadData := true, inData := true }).handlers (maxDid hd)
            kids := resize (call v (.pyHeader hd) { s with hadData := true, inData := true }).kids (maxDid hd) } with cached := some hd, numTiles := 0 }).trace =
          outs s.trace := b.trans hk1.2.1
      exact (congrArg (outForm true) e1).trans hI

theorem loop_form (v : Env) (c : Conf) (l : List In) (ho : c.hasOut = true) (hf : ∀ p f, v.outThrows p (.footer f) = false)
    (hg : ∀ e ∈ l, e.headerGood) : ∀ s s', loop v c s l = some s' → FormOk s → FormOk s' := by
  induction l with
  | nil => intro s s' h hc; injection h with h; subst h; exact hc
  | cons e l ih =>
    intro s s' h hc
    rw [loop] at h
    split at h
    · injection h with h; subst h; exact hc
    · cases he : event v c s e with
      | none => rw [he] at h; cases h
      | some s1 =>
        rw [he] at h
        exact ih (fun x hx => hg x (List.mem_cons_of_mem _ hx)) s1 s' h (event_form v c s s1 e ho hf (hg e (by simp)) he hc)

theorem deliverFooter_had (v : Env) (c : Conf) (f : Nat) (s : St) : (deliverFooter v c f s).hadData = s.hadData := by
  unfold deliverFooter
  dsimp only
  have h1 : (if over c s.numTiles = true then s else calls v
      ((if 0 ≤ s.seqnr then endSnippet v c s else s).handlers.flatten.map fun n => .footer n f)
      (if 0 ≤ s.seqnr then endSnippet v c s else s)).hadData = s.hadData := by
    have he : (if 0 ≤ s.seqnr then endSnippet v c s else s).hadData = s.hadData := by
      split
      · exact congrArg Prod.snd (keeps_end v c s).2.2
      · rfl
    have hc : ∀ (l : List Obs) (s : St), (calls v l s).hadData = s.hadData := by
      intro l
      induction l with
      | nil => intro s; rfl
      | cons o l ih => intro s; exact ih (call v o s)
    split
    · rfl
    · rw [hc, he]
  split
  · have hp : ∀ s : St, (postOut v (.footer f) s).1.hadData = s.hadData := by
      intro s
      unfold postOut
      split <;> rfl
    rw [hp]
    exact h1
  · exact h1

theorem event_had (v : Env) (c : Conf) (s s' : St) (e : In) (h : event v c s e = some s') (hh : s.hadData = true ∨ ∃ hd, e = .header hd) :
    s'.hadData = true := by
  cases e with
  | other => injection h with h; subst h; exact hh.resolve_right (by simp)
  | tile t =>
    have h' : (if s.inData then (deliverTile v c t (call v (.pyTile t) s)).map settle else some { s with fatal := true }) = some s' := h
    have hh := hh.resolve_right (by simp)
    split at h'
    · cases hd : deliverTile v c t (call v (.pyTile t) s) with
      | none => rw [hd] at h'; cases h'
      | some s1 =>
        rw [hd] at h'
        injection h' with h'
        subst h'
        exact (congrArg Prod.snd (keeps_deliverTile v c t _ s1 hd).2.2).trans hh
    · injection h' with h'; subst h'; exact hh
  | footer f =>
    have h' : (if s.inData then some (settle (deliverFooter v c f (call v (.pyFooter f) { s with inData := false }))) else some { s with fatal := true }) = some s' := h
    have hh := hh.resolve_right (by simp)
    split at h'
    · injection h' with h'
      subst h'
      exact (deliverFooter_had v c f _).trans hh
    · injection h' with h'; subst h'; exact hh
  | header hd =>
    have h' : (if s.inData then some { s with hadData := true, fatal := true } else some (settle { deliverHeader v hd (call v (.pyHeader hd) { s with hadData := true, inData := true }) with numTiles := 0 })) = some s' := h
    split at h'
    · injection h' with h'; subst h'; rfl
    · injection h' with h'
      subst h'
      have hc : ∀ (l : List Obs) (s : St), (calls v l s).hadData = s.hadData := by
        intro l
        induction l with
        | nil => intro s; rfl
        | cons o l ih => intro s; exact ih (call v o s)
      unfold deliverHeader
      dsimp only
      split
      · exact hc _ _
      · rfl

theorem loop_had (v : Env) (c : Conf) (l : List In) : ∀ s s', loop v c s l = some s' → s.hadData = true ∨ (s.fatal = false ∧ ∃ hd r, l = .header hd :: r) →
    s'.hadData = true := by
  induction l with
  | nil => intro s s' h hh; injection h with h; subst h; exact hh.resolve_right (by simp)
  | cons e l ih =>
    intro s s' h hh
    rw [loop] at h
    split at h
    · rename_i hf
      injection h with h; subst h
      refine hh.resolve_right ?_
      rintro ⟨h1, -⟩
      rw [h1] at hf
      cases hf
    · cases he : event v c s e with
      | none => rw [he] at h; cases h
      | some s1 =>
        rw [he] at h
        refine ih s1 s' h (.inl (event_had v c s s1 e he (hh.imp id ?_)))
        rintro ⟨-, hd, r, e⟩
        injection e with e _
        exact ⟨hd, e⟩

/-! ## What is written -/

/-- The header that is still to be written after the calls `l`. -/
def pend (v : Env) (p : List Obs) (x : Option Header) : List Obs → Option Header
  | [] => x
  | .pyHeader h :: l => pend v (p ++ [.pyHeader h]) (some h) l
  | .poll i rq :: l =>
    match v.sink p i with
    | .tile _ => pend v (p ++ [.poll i rq]) none l
    | _ => pend v (p ++ [.poll i rq]) x l
  | o :: l => pend v (p ++ [o]) x l

theorem wanted_append (v : Env) (l m : List Obs) : ∀ p x, wanted v p x (l ++ m) = wanted v p x l ++ wanted v (p ++ l) (pend v p x l) m ∧
    pend v p x (l ++ m) = pend v (p ++ l) (pend v p x l) m := by
  induction l with
  | nil => intro p x; simp [wanted, pend]
  | cons o l ih =>
    intro p x
    have h := ih (p ++ [o])
    simp only [List.append_assoc, List.singleton_append] at h
    cases o with
    | pyHeader a => simpa [wanted, pend] using h (some a)
    | poll i rq =>
      simp only [List.cons_append, wanted, pend]
      cases v.sink p i with
      | fail => simpa using h x
      | nothing => simpa using h x
      | tile t => simpa using h none
    | _ => simpa [wanted, pend] using h x

/-- What has been written is what should have been, and `x` is the header to be written. -/
def Written (v : Env) (s : St) (x : Option Header) : Prop :=
  (outs s.trace).filter Out.isData = wanted v [] none s.trace ∧ pend v [] none s.trace = x

/-- Calls that are not about the output. -/
def Obs.plain : Obs → Bool
  | .poll .. | .out _ | .outFails _ | .pyHeader _ => false
  | _ => true

theorem written_add (v : Env) (l : List Obs) (o : Obs) (x : Option Header) (h1 : (outs l).filter Out.isData = wanted v [] none l)
    (h2 : pend v [] none l = x) (ho : o.plain = true ∨ ∃ e, o = .out e ∧ e.isData = false) :
    (outs (l ++ [o])).filter Out.isData = wanted v [] none (l ++ [o]) ∧ pend v [] none (l ++ [o]) = x := by
  rw [(wanted_append v l [o] [] none).1, (wanted_append v l [o] [] none).2, h2, outs_append, List.filter_append, h1]
  rcases ho with ho | ⟨e, rfl, he⟩
  · cases o <;> first | (cases ho; done) | simp [wanted, pend, outs]
  · simp [wanted, pend, outs, he]

theorem written_call (v : Env) (o : Obs) (ho : o.plain = true) (s : St) (x : Option Header) (h : Written v s x) : Written v (call v o s) x :=
  written_add v s.trace o x h.1 h.2 (.inl ho)

theorem written_calls (v : Env) (l : List Obs) (hl : ∀ o ∈ l, o.plain = true) (s : St) (x : Option Header) (h : Written v s x) :
    Written v (calls v l s) x := by
  induction l generalizing s with
  | nil => exact h
  | cons o l ih => exact ih (fun y hy => hl y (by simp [hy])) _ (written_call v o (hl o (by simp)) s x h)

theorem written_poll (v : Env) (c : Conf) (ho : c.hasOut = true) (hn : ∀ p e, v.outThrows p e = false) (rq : Rq) (s : St) (i : Nat)
    (h : Written v s s.cached) : Written v (pollSink v c rq s i) (pollSink v c rq s i).cached := by
  obtain ⟨h1, h2⟩ := h
  have hp : ∀ l : List Obs, outs (s.trace ++ [.poll i rq] ++ l) = outs s.trace ++ outs l := by intro l; simp [outs]
  have ht : ∀ l : List Out, wanted v [] none (s.trace ++ [.poll i rq] ++ l.map .out) = wanted v [] none (s.trace ++ [.poll i rq]) ∧
      pend v [] none (s.trace ++ [.poll i rq] ++ l.map .out) = pend v [] none (s.trace ++ [.poll i rq]) := by
    intro l
    rw [(wanted_append v _ _ _ _).1, (wanted_append v _ (l.map .out) _ _).2]
    have : ∀ (l : List Out) p x, wanted v p x (l.map .out) = [] ∧ pend v p x (l.map .out) = x := by
      intro l
      induction l with
      | nil => intro p x; simp [wanted, pend]
      | cons e l ih => intro p x; simpa [wanted, pend] using ih (p ++ [.out e]) x
    rw [(this l _ _).1, (this l _ _).2]
    simp
  unfold pollSink
  dsimp only
  have hw := wanted_append v s.trace [.poll i rq] [] none
  rw [List.nil_append] at hw
  rw [h2] at hw
  cases hs : v.sink s.trace i with
  | fail =>
    simp only [wanted, pend, hs, List.append_nil] at hw
    refine ⟨?_, hw.2⟩
    have := hp []
    rw [List.append_nil] at this
    dsimp only
    rw [this, hw.1, ← h1]
    simp [outs]
  | nothing =>
    simp only [wanted, pend, hs, List.append_nil] at hw
    refine ⟨?_, hw.2⟩
    have := hp []
    rw [List.append_nil] at this
    dsimp only
    rw [this, hw.1, ← h1]
    simp [outs]
  | tile t =>
    simp only [wanted, pend, hs] at hw
    have hq : ∀ e s, postOut v e s = ({ s with trace := s.trace ++ [.out e] }, true) := by
      intro e s
      unfold postOut
      rw [hn, if_neg (show ¬ (false = true) by simp)]
    cases hc : s.cached with
    | none =>
      rw [hc] at hw
      have e1 : (if c.hasOut then (let p := postHeader v { s with trace := s.trace ++ [.poll i rq] }
          if p.2 then (postOut v (.tile t) p.1).1 else p.1) else { s with trace := s.trace ++ [.poll i rq] }) =
          { s with trace := s.trace ++ [.poll i rq] ++ [.out (.tile t)] } := by
        simp [postHeader, hc, hq, ho]
      show Written v (if c.hasOut then _ else _) (if c.hasOut then _ else _ : St).cached
      rw [hc] at e1
      rw [e1]
      refine ⟨?_, ?_⟩
      · dsimp only
        have := (ht [.tile t]).1
        rw [List.map_singleton] at this
        rw [hp, this, hw.1, List.filter_append, h1]
        simp [outs, Out.isData]
      · dsimp only
        have := (ht [.tile t]).2
        rw [List.map_singleton] at this
        rw [this, hw.2]
    | some hd =>
      rw [hc] at hw
      have e1 : (if c.hasOut then (let p := postHeader v { s with trace := s.trace ++ [.poll i rq] }
          if p.2 then (postOut v (.tile t) p.1).1 else p.1) else { s with trace := s.trace ++ [.poll i rq] }) =
          { s with trace := s.trace ++ [.poll i rq] ++ [.out (.header hd)] ++ [.out (.tile t)], cached := none } := by
        simp [postHeader, hc, hq, ho]
      show Written v (if c.hasOut then _ else _) (if c.hasOut then _ else _ : St).cached
      rw [hc] at e1
      rw [e1]
      have hl : s.trace ++ [.poll i rq] ++ [.out (.header hd)] ++ [.out (.tile t)] = s.trace ++ [.poll i rq] ++ [Out.header hd, .tile t].map .out := by
        simp
      refine ⟨?_, ?_⟩
      · dsimp only
        rw [hl, hp, (ht _).1, hw.1, List.filter_append, h1]
        simp [outs, Out.isData]
      · dsimp only
        rw [hl, (ht _).2, hw.2]

/-- A relation between states that keeps the output as it should be. -/
def KeepsW (v : Env) (s s' : St) : Prop := Written v s s.cached → Written v s' s'.cached

theorem KeepsW.trans {v : Env} {a b c : St} (h : KeepsW v a b) (g : KeepsW v b c) : KeepsW v a c := fun x => g (h x)

theorem KeepsW.refl (v : Env) (s : St) : KeepsW v s s := id

theorem KeepsW.same {v : Env} {s s' : St} (h1 : s'.cached = s.cached) (h2 : s'.trace = s.trace) : KeepsW v s s' := by
  intro h
  unfold Written at h ⊢
  rw [h1, h2]
  exact h

theorem keepsW_calls (v : Env) (l : List Obs) (hl : ∀ o ∈ l, o.plain = true) (s : St) : KeepsW v s (calls v l s) := by
  intro h
  have hc : (calls v l s).cached = s.cached := by
    have : ∀ (l : List Obs) (s : St), (calls v l s).cached = s.cached := by
      intro l
      induction l with
      | nil => intro s; rfl
      | cons o l ih => intro s; exact ih (call v o s)
    exact this l s
  rw [hc]
  exact written_calls v l hl s _ h

section
variable (v : Env) (c : Conf) (ho : c.hasOut = true) (hn : ∀ p e, v.outThrows p e = false)
include ho hn

theorem keepsW_end (s : St) : KeepsW v s (endSnippet v c s) := by
  unfold endSnippet
  split
  · exact .same rfl rfl
  · rename_i rq _
    have hi : ∀ (b : Bool) (o : Obs), o.plain = true → ∀ s, KeepsW v s (if b then call v o s else s) := by
      intro b o ho s
      cases b
      · exact .refl v s
      · exact keepsW_calls v [o] (by simpa using ho) s
    have hp : ∀ (l : List Nat) (s : St), KeepsW v s (l.foldl (pollSink v c rq) s) := by
      intro l
      induction l with
      | nil => intro s; exact .refl v s
      | cons i l ih => intro s; exact KeepsW.trans (written_poll v c ho hn rq s i) (ih _)
    exact ((hi c.hasPre (.pre rq) rfl s).trans (hp _ _)).trans (hi c.hasPost (.post rq) rfl _)

omit ho hn in
theorem keepsW_handTile (t : Tile) (s s' : St) (h : handTile v t s = some s') : KeepsW v s s' := by
  unfold handTile at h
  split at h
  · cases h
  · split at h
    · cases h
    · injection h with h
      subst h
      unfold toHandlers
      split
      · split
        · exact .same rfl rfl
        · exact .same rfl rfl
      · refine KeepsW.trans (b := { s with have_ := s.have_.set t.did.toNat true }) (.same rfl rfl) (keepsW_calls v _ ?_ _)
        intro o ho
        obtain ⟨n, -, rfl⟩ := List.mem_map.mp ho
        rfl

omit ho hn in
theorem keepsW_start (t : Tile) (s s' : St) (h : startSnippet v c t s = some s') : KeepsW v s s' := by
  unfold startSnippet at h
  dsimp only at h
  split at h
  · cases h
  · rename_i rg _
    split at h
    · injection h with h
      subst h
      split
      · exact KeepsW.trans (b := { s with next := ⟨s.next.dataset, s.next.domain + 1⟩, req := some s.next, range := rg, have_ := List.replicate s.handlers.length false })
          (.same rfl rfl) (keepsW_calls v [.start s.next] (by simp [Obs.plain]) _)
      · exact .same rfl rfl
    · injection h with h
      subst h
      exact .same rfl rfl

theorem keepsW_deliverTile (t : Tile) (s s' : St) (h : deliverTile v c t s = some s') : KeepsW v s s' := by
  unfold deliverTile at h
  split at h
  · injection h with h; subst h; exact .refl v s
  · split at h
    · injection h with h; subst h; exact .refl v s
    · split at h
      · exact keepsW_handTile v t s s' h
      · dsimp only at h
        have he : KeepsW v s (if 0 ≤ s.seqnr then endSnippet v c s else s) := by
          split
          · exact keepsW_end v c ho hn s
          · exact .refl v s
        generalize (if 0 ≤ s.seqnr then endSnippet v c s else s) = s1 at h he
        split at h
        · injection h with h
          subst h
          exact he.trans (.same rfl rfl)
        · cases hs : startSnippet v c t { s1 with numTiles := s1.numTiles + 1, seqnr := t.seq } with
          | none => rw [hs] at h; cases h
          | some s2 =>
            rw [hs] at h
            exact ((he.trans (KeepsW.same (s' := { s1 with numTiles := s1.numTiles + 1, seqnr := t.seq }) rfl rfl)).trans
              (keepsW_start v c t _ s2 hs)).trans (keepsW_handTile v t s2 s' h)

theorem keepsW_deliverFooter (f : Nat) (s : St) : KeepsW v s (deliverFooter v c f s) := by
  unfold deliverFooter
  dsimp only
  have h1 : KeepsW v s (if over c s.numTiles = true then s else calls v
      ((if 0 ≤ s.seqnr then endSnippet v c s else s).handlers.flatten.map fun n => .footer n f)
      (if 0 ≤ s.seqnr then endSnippet v c s else s)) := by
    split
    · exact .refl v s
    · have he : KeepsW v s (if 0 ≤ s.seqnr then endSnippet v c s else s) := by
        split
        · exact keepsW_end v c ho hn s
        · exact .refl v s
      refine he.trans (keepsW_calls v _ ?_ _)
      intro o ho
      obtain ⟨n, -, rfl⟩ := List.mem_map.mp ho
      rfl
  generalize (if over c s.numTiles = true then s else calls v
      ((if 0 ≤ s.seqnr then endSnippet v c s else s).handlers.flatten.map fun n => .footer n f)
      (if 0 ≤ s.seqnr then endSnippet v c s else s)) = s1 at h1
  rw [if_pos ho]
  refine h1.trans ?_
  intro h
  unfold postOut
  rw [hn, if_neg (show ¬ (false = true) by simp)]
  exact written_add v s1.trace (.out (.footer f)) _ h.1 h.2 (.inr ⟨_, rfl, rfl⟩)

theorem keepsW_event (s s' : St) (e : In) (hg : e.headerGood) (h : event v c s e = some s') : KeepsW v s s' := by
  cases e with
  | other => injection h with h; subst h; exact .refl v s
  | tile t =>
    have h' : (if s.inData then (deliverTile v c t (call v (.pyTile t) s)).map settle else some { s with fatal := true }) = some s' := h
    split at h'
    · cases hd : deliverTile v c t (call v (.pyTile t) s) with
      | none => rw [hd] at h'; cases h'
      | some s1 =>
        rw [hd] at h'
        injection h' with h'
        subst h'
        exact ((keepsW_calls v [.pyTile t] (by simp [Obs.plain]) s).trans (keepsW_deliverTile v c ho hn t _ s1 hd)).trans (.same rfl rfl)
    · injection h' with h'; subst h'; exact .same rfl rfl
  | footer f =>
    have h' : (if s.inData then some (settle (deliverFooter v c f (call v (.pyFooter f) { s with inData := false }))) else some { s with fatal := true }) = some s' := h
    split at h'
    · injection h' with h'
      subst h'
      exact ((KeepsW.same (v := v) (s := s) (s' := { s with inData := false }) rfl rfl).trans
        (keepsW_calls v [.pyFooter f] (by simp [Obs.plain]) { s with inData := false })).trans
        ((keepsW_deliverFooter v c ho hn f _).trans (.same rfl rfl))
    · injection h' with h'; subst h'; exact .same rfl rfl
  | header hd =>
    have h' : (if s.inData then some { s with hadData := true, fatal := true } else some (settle { deliverHeader v hd (call v (.pyHeader hd) { s with hadData := true, inData := true }) with numTiles := 0 })) = some s' := h
    split at h'
    · injection h' with h'; subst h'; exact .same rfl rfl
    · injection h' with h'
      subst h'
      intro hw
      have hg' : hd.good = true := hg
      unfold deliverHeader
      dsimp only
      rw [if_pos hg']
      have h1 : Written v { call v (.pyHeader hd) { s with hadData := true, inData := true } with
            next := ⟨s.next.dataset + 1, 0⟩, seqnr := -1, have_ := List.replicate (maxDid hd) false
            handlers := resize (call v (.pyHeader hd) { s with hadData := true, inData := true }).handlers (maxDid hd)
            kids := resize (call v (.pyHeader hd) { s with hadData := true, inData := true }).kids (maxDid hd) } (some hd) := by
        obtain ⟨g1, g2⟩ := hw
        unfold Written
        show List.filter Out.isData (outs (s.trace ++ [.pyHeader hd])) = wanted v [] none (s.trace ++ [.pyHeader hd]) ∧
          pend v [] none (s.trace ++ [.pyHeader hd]) = some hd
        rw [(wanted_append v _ _ _ _).1, (wanted_append v s.trace _ _ _).2, outs_append, List.filter_append, g1]
        simp [wanted, pend, outs]
      exact written_calls v (List.map (fun n => Obs.header n hd) (resize (call v (.pyHeader hd) { s with hadData := true, inData := true }).handlers (maxDid hd)).flatten) (by
        intro o ho
        obtain ⟨n, -, rfl⟩ := List.mem_map.mp ho
        rfl) _ _ h1

theorem keepsW_loop (l : List In) (hg : ∀ e ∈ l, e.headerGood) : ∀ s s', loop v c s l = some s' → KeepsW v s s' := by
  induction l with
  | nil => intro s s' h; injection h with h; subst h; exact .refl v s
  | cons e l ih =>
    intro s s' h
    rw [loop] at h
    split at h
    · injection h with h; subst h; exact .refl v s
    · cases he : event v c s e with
      | none => rw [he] at h; cases h
      | some s1 =>
        rw [he] at h
        exact (keepsW_event v c ho hn s s1 e (hg e (by simp)) he).trans (ih (fun x hx => hg x (List.mem_cons_of_mem _ hx)) s1 s' h)

end

end Verif.VisMux
