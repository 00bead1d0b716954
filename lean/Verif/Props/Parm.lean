import Verif.Proof.Parm
import Mathlib.Tactic.NormNum
/-!
# C138 - C143: the life of a parameter

Examples use constants: one coefficient, to which an update adds its first value.
-/
namespace Verif.Parm
variable {B : Type}

/-- Example: coefficients that are one number. -/
def num : Ops ℚ := ⟨fun b v => b + v.headD 0, fun _ => 1, fun _ b => b⟩

/-- Example: domains of time 0 to 10, 0 to 5, 5 to 10 and 20 to 30. -/
def whole : Dom := ⟨0, 10, 0, 1⟩
/-- See `whole`. -/
def left : Dom := ⟨0, 5, 0, 1⟩
/-- See `whole`. -/
def right : Dom := ⟨5, 10, 0, 1⟩
/-- See `whole`. -/
def later : Dom := ⟨20, 30, 0, 1⟩

/-- Example: a solvable parameter with a table and default value 7. -/
def solv : Cfg ℚ := ⟨true, false, 0, false, false, false, true, none, 7⟩

/-- Example: the same, not solvable. -/
def fixed : Cfg ℚ := ⟨false, false, 0, false, false, false, true, none, 7⟩

/-- Example: a table with entries for `left` and `right`. -/
def halves : Tab ℚ := ⟨[(left, some 1), (later, none), (right, some 2)], none⟩

/-- What C138 asks for: for a request with a new domain a parameter starts from what its table and settings say. -/
def C138_full : Prop :=
  ∀ (B : Type) (o : Ops B) (c : Cfg B) (t : Tab B) (l : List (Act B)) (r : Req), NotSet l → r.domId ≠ (run o c (begin t) l).domId →
    ¬ Solving c r → Start c (run o c (begin t) l) r.dom (eval o c (run o c (begin t) l) r).1

/-- **C138.** Whatever happened before, a parameter asked for its value starts from: its entry of the table for the domain (solvable
ones: the first, if there are several; others: all of them), else the table's default, else, if the settings allow, what it has, else the
initial funklet, else the default value; and gets it ready if it is to be solved for.  Missing: it must not go on with what it has
(`Keeps`), which it also does for a new domain that lies inside the one it has a funklet for. -/
theorem C138_start_partial (o : Ops B) (c : Cfg B) (t : Tab B) (l : List (Act B)) (r : Req) (h : ¬ Keeps (run o c (begin t) l) r) :
    (¬ Solving c r → Start c (run o c (begin t) l) r.dom (eval o c (run o c (begin t) l) r).1) ∧
    (Solving c r → ∃ f, Start c (run o c (begin t) l) r.dom (.single f) ∧
      (eval o c (run o c (begin t) l) r).1 = .single ⟨some r.dom, f.dbid, true, o.renorm r.dom f.body⟩) := by
  have hst := find_start c (run o c (begin t) l) r.dom (ok_proper (run_ok o c t l))
  have he := eval_new o c (run o c (begin t) l) r h
  refine ⟨fun hs => by rw [he.1 hs]; exact hst, fun hs => ?_⟩
  obtain ⟨f, h1, h2⟩ := he.2 hs
  rw [h1] at hst
  exact ⟨f, hst, h2⟩

/-- **C138.** What a parameter starts from is determined by settings, table and what it has. -/
theorem C138_determined (o : Ops B) (c : Cfg B) (t : Tab B) (l : List (Act B)) (d : Dom) (k k' : Funk B)
    (h : Start c (run o c (begin t) l) d k) (h' : Start c (run o c (begin t) l) d k') : k = k' := by
  have ne : ∀ {x y : List (Nat × Dom × B)}, Entries (run o c (begin t) l).tab d x → Entries (run o c (begin t) l).tab d y → x = y :=
    fun hx hy => (entries_unique hx).trans (entries_unique hy).symm
  have no : ∀ {x : List (Nat × Dom × B)}, NoEntry c (run o c (begin t) l).tab d → c.table = true → c.reset = false →
      Entries (run o c (begin t) l).tab d x → x = [] := by
    intro x hn ht hr hx
    rcases hn ht with h | h
    · rw [hr] at h; cases h
    · exact ne hx h
  cases h with
  | entry i e b l' ht hr he hs =>
    cases h' with
    | entry i' e' b' l'' ht' hr' he' hs' => have := ne he he'; cases this; rfl
    | entries l'' ht' hr' hs' he' hl' =>
      have := ne he he'
      subst this
      rcases hs with h | h
      · rw [hs'] at h; cases h
      · subst h; simp at hl'
    | tableDefault b' hn _ _ => exact absurd (no hn ht hr he) (by simp)
    | previous k b' hn _ _ _ _ => exact absurd (no hn ht hr he) (by simp)
    | init b' hn _ _ _ => exact absurd (no hn ht hr he) (by simp)
    | value hn _ _ _ => exact absurd (no hn ht hr he) (by simp)
  | entries l' ht hr hs he hl =>
    cases h' with
    | entry i' e' b' l'' ht' hr' he' hs' =>
      have := ne he he'
      subst this
      rcases hs' with h | h
      · rw [hs] at h; cases h
      · subst h; simp at hl
    | entries l'' ht' hr' hs' he' hl' => have := ne he he'; subst this; rfl
    | tableDefault b' hn _ _ => have := no hn ht hr he; subst this; simp at hl
    | previous k b' hn _ _ _ _ => have := no hn ht hr he; subst this; simp at hl
    | init b' hn _ _ _ => have := no hn ht hr he; subst this; simp at hl
    | value hn _ _ _ => have := no hn ht hr he; subst this; simp at hl
  | tableDefault b hn ht hd =>
    cases h' with
    | entry i' e' b' l'' ht' hr' he' hs' => exact absurd (no hn ht' hr' he') (by simp)
    | entries l'' ht' hr' hs' he' hl' => have := no hn ht' hr' he'; subst this; simp at hl'
    | tableDefault b' _ _ hd' => rw [hd] at hd'; cases hd'; rfl
    | previous k b' _ hd' _ _ _ => rw [hd' ht] at hd; cases hd
    | init b' _ hd' _ _ => rw [hd' ht] at hd; cases hd
    | value _ hd' _ _ => rw [hd' ht] at hd; cases hd
  | previous k b hn hd hm hk hh =>
    cases h' with
    | entry i' e' b' l'' ht' hr' he' hs' => exact absurd (no hn ht' hr' he') (by simp)
    | entries l'' ht' hr' hs' he' hl' => have := no hn ht' hr' he'; subst this; simp at hl'
    | tableDefault b' _ ht' hd' => rw [hd ht'] at hd'; cases hd'
    | previous k' b' _ _ _ hk' hh' =>
      rw [hk] at hk'; cases hk'
      have h1 := (head_iff k b).2 hh
      rw [(head_iff k b').2 hh'] at h1
      cases h1; rfl
    | init b' _ _ hu _ =>
      rcases hu with hu | hu
      · rw [hk] at hu; cases hu
      · exact absurd hm hu
    | value _ _ hu _ =>
      rcases hu with hu | hu
      · rw [hk] at hu; cases hu
      · exact absurd hm hu
  | init b hn hd hu hi =>
    cases h' with
    | entry i' e' b' l'' ht' hr' he' hs' => exact absurd (no hn ht' hr' he') (by simp)
    | entries l'' ht' hr' hs' he' hl' => have := no hn ht' hr' he'; subst this; simp at hl'
    | tableDefault b' _ ht' hd' => rw [hd ht'] at hd'; cases hd'
    | previous k' b' _ _ hm hk _ =>
      rcases hu with hu | hu
      · rw [hk] at hu; cases hu
      · exact absurd hm hu
    | init b' _ _ _ hi' => rw [hi] at hi'; cases hi'; rfl
    | value _ _ _ hi' => rw [hi] at hi'; cases hi'
  | value hn hd hu hi =>
    cases h' with
    | entry i' e' b' l'' ht' hr' he' hs' => exact absurd (no hn ht' hr' he') (by simp)
    | entries l'' ht' hr' hs' he' hl' => have := no hn ht' hr' he'; subst this; simp at hl'
    | tableDefault b' _ ht' hd' => rw [hd ht'] at hd'; cases hd'
    | previous k' b' _ _ hm hk _ =>
      rcases hu with hu | hu
      · rw [hk] at hu; cases hu
      · exact absurd hm hu
    | init b' _ _ _ hi' => rw [hi] at hi'; cases hi'
    | value _ _ _ _ => rfl

/-- **C138.** After the command to clear, or an update that is to clear, a parameter does not go on with what it had, for any request. -/
theorem C138_cleared (o : Ops B) (c : Cfg B) (s : St B) (q : Option (Nat × Nat)) (r : Req) (hq : NewRequest s q) :
    ¬ Keeps (command o c s q .clear).1 r ∧ (command o c s q .clear).1.fk = none ∧ (command o c s q .clear).1.tab = s.tab := by
  have : (command o c s q .clear).1 = ⟨s.conv, none, none, q, s.tab⟩ := by
    unfold command; rw [if_neg (not_skipped hq)]; rfl
  rw [this]
  exact ⟨not_keeps rfl, rfl, rfl⟩

/-- C138 is not met: after a request for `whole`, the entry of the table for `right` is not used for it. -/
theorem C138_refuted : ¬ C138_full := by
  intro h
  have hs := h ℚ num solv halves [.eval ⟨whole, some 1, false⟩] ⟨right, some 2, false⟩ (by intro b hb; simp at hb) (by decide +kernel)
    (by rintro ⟨-, h⟩; cases h)
  have hf := find_start solv (run num solv (begin halves) [.eval ⟨whole, some 1, false⟩]) right (ok_proper (run_ok _ _ _ _))
  have := C138_determined num solv halves [.eval ⟨whole, some 1, false⟩] right _ _ hs hf
  revert this
  decide +kernel

-- For `whole`, the solvable parameter takes the first entry, the other one both; for `later`, which has no coefficients, the default.
example : ¬ Keeps (run num solv (begin halves) [.eval ⟨left, some 1, true⟩]) ⟨whole, some 2, false⟩ ∧
    (eval num solv (run num solv (begin halves) [.eval ⟨left, some 1, true⟩]) ⟨whole, some 2, false⟩).1 = .single ⟨some whole, -1, false, 1⟩ ∧
    (eval num fixed (begin halves) ⟨whole, some 2, false⟩).1 = .comp [⟨some left, 0, false, 1⟩, ⟨some right, 2, false, 2⟩] ∧
    (eval num fixed (begin halves) ⟨later, some 2, false⟩).1 = .single ⟨some later, -1, false, 7⟩ := by
  refine ⟨?_, by decide +kernel, by decide +kernel, by decide +kernel⟩
  rintro (⟨-, -, h⟩ | ⟨f, h1, h2⟩)
  · revert h; decide +kernel
  · have : (run num solv (begin halves) [.eval ⟨left, some 1, true⟩]).fk = some (.single ⟨some left, 0, true, 1⟩) := by decide +kernel
    rw [this] at h1; cases h1
    have := (h2 left rfl).2.1
    revert this; decide +kernel

/-- **C139.** A parameter that is not solvable and does not cache its funklet gives for a request what it would give at the beginning,
and that is what table and settings say; whatever requests and commands came before, and it never writes to the table. -/
theorem C139_no_memory (o : Ops B) (c : Cfg B) (t : Tab B) (l : List (Act B)) (r : Req) (hs : c.solvable = false) (hc : c.cache = false)
    (hl : NotSet l) :
    (eval o c (run o c (begin t) l) r).1 = (eval o c (begin t) r).1 ∧ Start c (begin t) r.dom (eval o c (run o c (begin t) l) r).1 ∧
    (run o c (begin t) l).tab = t := by
  have hi := run_inv o c (fun s => s.fk = none ∧ s.tab = t) l
    (fun s a ha h => idle_step o c t hs hc s a (fun b hb => hl b (hb ▸ ha)) h) (begin t) ⟨rfl, rfl⟩
  have hns : ¬ Solving c r := fun h => by have := h.1; rw [hs] at this; cases this
  have h1 := (eval_new o c _ r (not_keeps hi.1)).1 hns
  have h2 := (eval_new o c (begin t) r (not_keeps rfl)).1 hns
  have h3 := find_none c (run o c (begin t) l) (begin t) r.dom hi.1 rfl hi.2
  have h4 := find_start c (begin t) r.dom (by simp [Proper, begin])
  refine ⟨by rw [h1, h2, h3], ?_, hi.2⟩
  rw [h1, h3]; exact h4

-- After other requests and a command.
example : (eval num fixed (run num fixed (begin halves) [.eval ⟨whole, some 1, false⟩, .command (some (1, 1)) .save,
    .command (some (1, 2)) (.update true (some [5]) true false)]) ⟨right, some 2, false⟩).1 = .single ⟨some right, 2, false, 2⟩ := by
  decide +kernel

/-- What C140 asks for: as long as no command is sent twice, all updates are added, in order. -/
def C140_full : Prop :=
  ∀ (B : Type) (o : Ops B) (c : Cfg B) (n D : Nat) (l : List (Act B)) (s : St B) (f : F B), c.solvable = true →
    (∀ b v, o.size b = n → v.length = n → o.size (o.upd b v) = n) → (∀ a ∈ l, InSolution n D a) → (sent l).Nodup → s.rqAll = none →
    s.domId = some D → s.fk = some (.single f) → f.solv = true → o.size f.body = n →
    ∃ g, (run o c s l).fk = some (.single g) ∧ g.body = (updates l).foldl o.upd f.body

/-- **C140.** While a parameter is being solved for, with any requests for values in between and with any saving, its coefficients are
those at the start with the updates of the commands added, each once and in order, leaving out those in commands whose request is the
same as that of the command before but for the resolution; its domain is the same, it is still being solved for, and it gives these
coefficients when asked.  Missing: an update in a request that had another command before is left out too. -/
theorem C140_updates_partial (o : Ops B) (c : Cfg B) (n D : Nat) (l : List (Act B)) (s : St B) (f : F B) (hs : c.solvable = true)
    (hsz : ∀ b v, o.size b = n → v.length = n → o.size (o.upd b v) = n) (hl : ∀ a ∈ l, InSolution n D a) (hd : s.domId = some D)
    (hk : s.fk = some (.single f)) (hf : f.solv = true) (hn : o.size f.body = n) :
    ∃ g, (run o c s l).fk = some (.single g) ∧ g.body = (newUpdates s.rqAll l).foldl o.upd f.body ∧ g.dom = f.dom ∧ g.solv = true ∧
      ∀ r, r.solve = true → r.domId = some D → (eval o c (run o c s l) r).1 = .single g := by
  have h0 : Inv D f.dom f.body s := ⟨hd, f.dbid, by rw [hk, ← hf]⟩
  have h1 := solution o c n D f.dom hs hsz l s f.body hl hn h0
  have h2 := fun r => same_eval o c (run o c s l) r h1
  obtain ⟨-, k, h3⟩ := h1
  refine ⟨_, h3, rfl, rfl, rfl, fun r hr hD => ?_⟩
  obtain ⟨h4, h5⟩ := h2 r hD
  simp only [eval, h4, hs, hr, Bool.and_self, if_true, h5]
  rw [h3]; rfl

/-- **C140.** A command whose request is that of the command before, or differs from it in the resolution only, has no effect. -/
theorem C140_once (o : Ops B) (c : Cfg B) (s : St B) (p q : Nat × Nat) (cmd : Cmd) (h : s.rqAll = some p) (hq : p.2 = q.2) :
    command o c s (some q) cmd = (⟨s.conv, s.fk, s.domId, some q, s.tab⟩, true) := by
  unfold command; rw [if_pos]
  simp [skipped, h, hq]

/-- **C140.** An update for a parameter that is not solvable, has no funklet, or with the wrong number of values is refused with an
exception; coefficients and table stay as they were. -/
theorem C140_refused (o : Ops B) (c : Cfg B) (s : St B) (q : Option (Nat × Nat)) (cv a k : Bool) (v : List ℚ) (hq : NewRequest s q)
    (h : Refused o c s v) :
    (command o c s q (.update cv (some v) a k)).2 = false ∧ (command o c s q (.update cv (some v) a k)).1.fk = s.fk ∧
    (command o c s q (.update cv (some v) a k)).1.tab = s.tab := by
  unfold command; rw [if_neg (not_skipped hq)]
  unfold doUpdate
  have h0 : applyIncr o c (if cv then { ({ s with rqAll := q } : St B) with conv := true } else { s with rqAll := q }) v = none := by
    cases cv <;> exact refused_none o c _ v h
  simp only [h0, Option.map_none]
  cases cv <;> exact ⟨trivial, rfl, rfl⟩

/-- Example: being solved for. -/
def inSolution : St ℚ := run num solv (begin ⟨[], none⟩) [.eval ⟨whole, some 1, true⟩]

/-- C140 is not met: an update after another command of the same request is lost. -/
theorem C140_refuted : ¬ C140_full := by
  intro h
  obtain ⟨g, h1, h2⟩ := h ℚ num solv 1 1 [.command (some (1, 1)) .other, .command (some (1, 1)) (.update false (some [5]) false false)] inSolution
    ⟨some whole, -1, true, 7⟩ rfl (fun _ _ _ _ => rfl)
    (by intro a ha; simp only [List.mem_cons, List.not_mem_nil, or_false] at ha; rcases ha with rfl | rfl
        · exact ⟨by simp, trivial⟩
        · exact ⟨by simp, rfl, by intro v hv; cases hv; rfl⟩)
    (by decide +kernel) (by decide +kernel) (by decide +kernel) (by decide +kernel) rfl rfl
  have : (run num solv inSolution [.command (some (1, 1)) .other, .command (some (1, 1)) (.update false (some [5]) false false)]).fk =
    some (.single ⟨some whole, -1, true, 7⟩) := by decide +kernel
  rw [this] at h1; cases h1
  revert h2; decide +kernel

-- Two values for one coefficient are refused.
example : Refused num solv inSolution [5, 6] ∧ (command num solv inSolution (some (1, 1)) (.update true (some [5, 6]) true false)).2 = false :=
  ⟨Or.inr (Or.inr ⟨⟨some whole, -1, true, 7⟩, by decide +kernel, Or.inl ⟨rfl, by decide +kernel⟩⟩), by decide +kernel⟩

-- Two updates, one sent twice, with requests in between.
example : inSolution.domId = some 1 ∧ inSolution.fk = some (.single ⟨some whole, -1, true, 7⟩) ∧
    (run num solv inSolution [.command (some (1, 1)) (.update false (some [5]) false false), .eval ⟨whole, some 1, true⟩,
      .command (some (2, 1)) (.update false (some [5]) false false), .command (some (1, 2)) (.update true (some [3]) true false)]).fk =
    some (.single ⟨some whole, 0, true, 15⟩) := by decide +kernel

/-- What C141 asks for: what has been saved for a domain is what any parameter with the table then starts from for it. -/
def C141_full : Prop :=
  ∀ (B : Type) (o : Ops B) (c c' : Cfg B) (s : St B) (q : Option (Nat × Nat)) (f : F B) (d : Dom) (r : Req), c.table = true →
    s.fk = some (.single f) → f.dom = some d → NewRequest s q → c'.table = true → c'.reset = false → ¬ Solving c' r → Meet d d → r.dom = d →
    ∃ n, (eval o c' (begin (command o c s q .save).1.tab) r).1 = .single ⟨some d, n, false, f.body⟩

/-- **C141.** The command to save writes the coefficients to one row of the table, with the domain they are for, and changes no other;
and a parameter that is then set up with the table gets them for that domain.  Missing: there may be no other entry that has an area
in common with the domain. -/
theorem C141_reload_partial (o : Ops B) (c c' : Cfg B) (s : St B) (q : Option (Nat × Nat)) (f : F B) (d : Dom) (r : Req) (ht : c.table = true)
    (hk : s.fk = some (.single f)) (hd : f.dom = some d) (hq : NewRequest s q) (ht' : c'.table = true) (hr' : c'.reset = false)
    (hs : ¬ Solving c' r) (hm : Meet d d) (hr : r.dom = d) :
    ∃ i, Wrote s.tab (command o c s q .save).1.tab i d f.body ∧
      (Alone s.tab i d → (eval o c' (begin (command o c s q .save).1.tab) r).1 = .single ⟨some d, i, false, f.body⟩) := by
  have hsk : ¬ skipped s q = true := by
    unfold skipped
    cases q with
    | none => simp
    | some a =>
      cases hb : s.rqAll with
      | none => simp
      | some b => simpa using hq a b rfl hb
  unfold command; rw [if_neg hsk]
  obtain ⟨m, t, he, hw⟩ := save_single c ⟨s.conv, s.fk, s.domId, q, s.tab⟩ f hk
  obtain ⟨i, hi⟩ := hw d ht hd
  simp only [he]
  refine ⟨i, hi, fun ha => ?_⟩
  have ha' : Alone t i d := by
    intro j e b hj hmt
    by_contra hne
    exact hne (ha j e b (by rw [← hi.2.1 j hne]; exact hj) hmt)
  have hent := alone_entries hm hi.1 ha'
  rw [(eval_new o c' (begin t) r (not_keeps rfl)).1 hs, hr]
  exact find_alone c' (begin t) d i f.body ht' hr' hent

/-- C141 is not met: the entry for `left` comes first, and is what the solvable parameter gets for `whole`. -/
theorem C141_refuted : ¬ C141_full := by
  intro h
  obtain ⟨n, hn⟩ := h ℚ num solv solv (run num solv (begin ⟨[(left, some 1)], none⟩) [.eval ⟨whole, some 1, true⟩,
    .command (some (1, 1)) (.update false (some [5]) false false)]) (some (1, 2)) ⟨some whole, -1, true, 6⟩ whole ⟨whole, some 1, false⟩ rfl
    (by decide +kernel) rfl
    (by intro a b ha hb; cases ha
        have : (run num solv (begin ⟨[(left, some 1)], none⟩) [.eval ⟨whole, some 1, true⟩,
          .command (some (1, 1)) (.update false (some [5]) false false)]).rqAll = some (1, 1) := by decide +kernel
        rw [this] at hb; cases hb; decide)
    rfl rfl (by rintro ⟨-, h⟩; cases h) (by simp [Meet, whole]) rfl
  have : (eval num solv (begin (command num solv (run num solv (begin ⟨[(left, some 1)], none⟩) [.eval ⟨whole, some 1, true⟩,
    .command (some (1, 1)) (.update false (some [5]) false false)]) (some (1, 2)) .save).1.tab) ⟨whole, some 1, false⟩).1 =
      .single ⟨some whole, -1, false, 1⟩ := by decide +kernel
  rw [this] at hn
  cases hn

-- Solved for `whole` and saved, next to an entry for `later`.
example : Alone (⟨[(later, some 1)], none⟩ : Tab ℚ) 1 whole ∧
    (eval num fixed (begin (command num solv (run num solv (begin ⟨[(later, some 1)], none⟩) [.eval ⟨whole, some 1, true⟩,
      .command (some (1, 1)) (.update false (some [5]) false false)]) (some (1, 2)) .save).1.tab) ⟨whole, some 4, false⟩).1 =
      .single ⟨some whole, 1, false, 12⟩ := by
  refine ⟨?_, by decide +kernel⟩
  intro j e b hj hm
  rcases j with _ | j
  · simp at hj
    rw [← hj.1] at hm
    have := hm.1
    revert this; decide +kernel
  · simp at hj

/-- What C142 asks for: an update that is not said to have converged is not saved, unless the settings say so. -/
def C142_full : Prop :=
  ∀ (B : Type) (o : Ops B) (c : Cfg B) (t : Tab B) (l : List (Act B)) (q : Option (Nat × Nat)) (v : Option (List ℚ)) (k : Bool),
    c.autoSave = false → c.saveAll = false →
    (command o c (run o c (begin t) l) q (.update false v true k)).1.tab = (run o c (begin t) l).tab

/-- **C142.** Unless the settings say otherwise, the table is not written as long as no command has said that the solution has converged,
or is the command to save.  Missing: after one solution has converged, later ones that have not are saved too. -/
theorem C142_not_saved_partial (o : Ops B) (c : Cfg B) (t : Tab B) (l : List (Act B)) (ha : c.autoSave = false) (hs : c.saveAll = false)
    (hn : NeverConverged l) : (run o c (begin t) l).tab = t := by
  have := run_inv o c (fun s => (s.conv = false ∧ s.tab = t) ∧ Ok c s.fk) l
    (fun s a hal h => ⟨conv_step o c t ha hs s a (fun q cmd hc => hn q cmd (hc ▸ hal)) h.1 h.2, step_ok o c s a h.2⟩) (begin t)
    ⟨⟨rfl, rfl⟩, trivial⟩
  exact this.1.2

/-- **C142.** An update that is said to have converged and is to be saved is: the coefficients with the update added are written to one
row of the table, with the domain they are for, and no other row is changed. -/
theorem C142_saved (o : Ops B) (c : Cfg B) (s : St B) (q : Option (Nat × Nat)) (v : List ℚ) (k : Bool) (f : F B) (d : Dom)
    (hs : c.solvable = true) (ht : c.table = true) (hk : s.fk = some (.single f)) (hf : f.solv = true) (hd : f.dom = some d)
    (hv : v.length = o.size f.body) (hq : NewRequest s q) :
    (command o c s q (.update true (some v) true k)).2 = true ∧
    ∃ i, Wrote s.tab (command o c s q (.update true (some v) true k)).1.tab i d (o.upd f.body v) :=
  update_saved o c s q v k f d hs ht hk hf hd hv hq

/-- **C142.** Exactly when a command to update, with or without values, writes to the table (`Saves`), and what; that it does not touch
it otherwise; that the parameter then has the coefficients with the update, or none if they are to be cleared; and what it
remembers of convergence. -/
theorem C142_decision (o : Ops B) (c : Cfg B) (s : St B) (q : Option (Nat × Nat)) (cv : Bool) (v : Option (List ℚ)) (a k : Bool) (f : F B)
    (d : Dom) (b' : B) (hs : c.solvable = true) (hk : s.fk = some (.single f)) (hf : f.solv = true) (hd : f.dom = some d)
    (hv : ∀ w, v = some w → w.length = o.size f.body) (hq : NewRequest s q) (hb : Updated o f.body v b') :
    (command o c s q (.update cv v a k)).2 = true ∧
    (Saves c s cv v a → ∃ i, Wrote s.tab (command o c s q (.update cv v a k)).1.tab i d b') ∧
    (¬ Saves c s cv v a → (command o c s q (.update cv v a k)).1.tab = s.tab) ∧
    (k = true → (command o c s q (.update cv v a k)).1.fk = none) ∧
    (k = false → ∃ n, (command o c s q (.update cv v a k)).1.fk = some (.single ⟨some d, n, true, b'⟩)) ∧
    ((command o c s q (.update cv v a k)).1.conv = true ↔ cv = true ∨ s.conv = true) :=
  update_decision o c s q cv v a k f d b' hs hk hf hd hv hq hb

/-- C142 is not met: the solution for `whole` converged, that for `later` did not, and is saved. -/
theorem C142_refuted : ¬ C142_full := by
  intro h
  have := h ℚ num solv ⟨[], none⟩ [.eval ⟨whole, some 1, true⟩, .command (some (1, 1)) (.update true (some [5]) true false),
    .eval ⟨later, some 2, true⟩] (some (1, 2)) (some [9]) false rfl rfl
  revert this; decide +kernel

-- Not saved without, saved with the flag.
example : NeverConverged ([.eval ⟨whole, some 1, true⟩, .command (some (1, 1)) (.update false (some [5]) true false)] : List (Act ℚ)) ∧
    (run num solv (begin halves) [.eval ⟨later, some 1, true⟩, .command (some (1, 1)) (.update false (some [5]) true false)]).tab = halves ∧
    (run num solv (begin halves) [.eval ⟨later, some 1, true⟩, .command (some (1, 1)) (.update true (some [5]) true false)]).tab.rows =
      [(left, some 1), (later, some 12), (right, some 2)] := by
  refine ⟨?_, by decide +kernel, by decide +kernel⟩
  intro q cmd h
  simp only [List.mem_cons, reduceCtorEq, Act.command.injEq, List.not_mem_nil, or_false, false_or] at h
  rw [h.2]
  exact ⟨by simp, by intro v s k hc; cases hc⟩

/-- What C143 asks for: after a request for values to solve with for a domain, an update that is saved is saved for that domain. -/
def C143_full : Prop :=
  ∀ (B : Type) (o : Ops B) (c : Cfg B) (t : Tab B) (l : List (Act B)) (r : Req) (q : Option (Nat × Nat)) (v : List ℚ) (k : Bool) (f : F B),
    c.table = true → NotSet l → Solving c r → r.domId ≠ (run o c (begin t) l).domId →
    (eval o c (run o c (begin t) l) r).1 = .single f → v.length = o.size f.body → NewRequest (run o c (begin t) l) q →
    ∃ i, Wrote (run o c (begin t) l).tab (command o c (eval o c (run o c (begin t) l) r).2 q (.update true (some v) true k)).1.tab i r.dom
      (o.upd f.body v)

/-- **C143.** After any history, a request for values to solve with for a domain and then an update that is saved write the
coefficients used for the request, with the update added, to a row with that domain, and no other.  Missing: if the parameter goes on
with a funklet that is still being solved for, it must be for this domain. -/
theorem C143_saved_domain_partial (o : Ops B) (c : Cfg B) (t : Tab B) (l : List (Act B)) (r : Req) (q : Option (Nat × Nat)) (v : List ℚ) (k : Bool)
    (f : F B) (ht : c.table = true) (hs : Solving c r)
    (hg : ∀ g, (run o c (begin t) l).fk = some (.single g) → g.solv = true → Keeps (run o c (begin t) l) r → g.dom = some r.dom)
    (he : (eval o c (run o c (begin t) l) r).1 = .single f) (hv : v.length = o.size f.body) (hq : NewRequest (run o c (begin t) l) q) :
    ∃ i, Wrote (run o c (begin t) l).tab (command o c (eval o c (run o c (begin t) l) r).2 q (.update true (some v) true k)).1.tab i r.dom
      (o.upd f.body v) := by
  obtain ⟨f', h1, h2, h3, h4, h5, h6⟩ := eval_dom o c (run o c (begin t) l) r (run_ok o c t l) hs hg
  rw [he] at h1; cases h1
  have hq' : NewRequest (eval o c (run o c (begin t) l) r).2 q := by intro a b ha hb; rw [h6] at hb; exact hq a b ha hb
  have := (update_saved o c _ q v k f r.dom hs.1 ht h2 h3 h4 hv hq').2
  rw [h5] at this
  exact this

/-- C143 is not met: solved and saved for `whole`, then for `right`: the entry for `whole` is overwritten. -/
theorem C143_refuted : ¬ C143_full := by
  intro h
  obtain ⟨i, h1, -⟩ := h ℚ num solv ⟨[], none⟩ [.eval ⟨whole, some 1, true⟩, .command (some (1, 1)) (.update true (some [5]) true false)]
    ⟨right, some 2, true⟩ (some (1, 2)) [9] false ⟨some whole, -1, true, 12⟩ rfl (by intro b hb; simp at hb) ⟨rfl, rfl⟩ (by decide +kernel)
    (by decide +kernel) rfl
    (by intro a b ha hb; cases ha
        have : (run num solv (begin ⟨[], none⟩) [.eval ⟨whole, some 1, true⟩,
          .command (some (1, 1)) (.update true (some [5]) true false)]).rqAll = some (1, 1) := by decide +kernel
        rw [this] at hb; cases hb; decide)
  have ht : (command num solv (eval num solv (run num solv (begin ⟨[], none⟩) [.eval ⟨whole, some 1, true⟩,
      .command (some (1, 1)) (.update true (some [5]) true false)]) ⟨right, some 2, true⟩).2 (some (1, 2))
        (.update true (some [9]) true false)).1.tab.rows = [(whole, some 21)] := by decide +kernel
  rw [ht] at h1
  rcases i with _ | i
  · simp [whole, right] at h1
  · simp at h1

-- With the funklets cleared in between, each domain gets its own entry.
example : (run num solv (begin ⟨[], none⟩) [.eval ⟨whole, some 1, true⟩, .command (some (1, 1)) (.update true (some [5]) true true),
    .eval ⟨later, some 2, true⟩, .command (some (1, 2)) (.update true (some [9]) true true)]).tab.rows =
    [(whole, some 12), (later, some 16)] := by decide +kernel

end Verif.Parm
