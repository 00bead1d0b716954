import Verif.Spec.Parm
import Mathlib.Tactic.Linarith
/-! # Lemmas for C138 - C143 -/
namespace Verif.Parm
variable {B : Type}

theorem overlaps_iff (a b : Dom) : overlaps a b = true ↔ Meet a b := by
  simp only [overlaps, Meet, Bool.and_eq_true, Bool.not_eq_true', Bool.or_eq_false_iff, decide_eq_false_iff_not, not_le]
  constructor
  · rintro ⟨⟨h1, h2⟩, h3, h4⟩; exact ⟨h1, h2, h3, h4⟩
  · rintro ⟨h1, h2, h3, h4⟩; exact ⟨⟨h1, h2⟩, h3, h4⟩

theorem superset_iff (a b : Dom) : superset a b = true ↔ Inside b a := by
  simp only [superset, Inside, Bool.not_eq_true', Bool.or_eq_false_iff, decide_eq_false_iff_not, not_lt]
  constructor
  · rintro ⟨⟨⟨h1, h2⟩, h3⟩, h4⟩; exact ⟨h1, h2, h3, h4⟩
  · rintro ⟨h1, h2, h3, h4⟩; exact ⟨⟨⟨h1, h2⟩, h3⟩, h4⟩

/-- Entries with their numbers. -/
def fnd (d : Dom) : Nat → List (Dom × Option B) → List (Nat × Dom × B)
  | _, [] => []
  | i, (_, none) :: l => fnd d (i + 1) l
  | i, (e, some b) :: l => if overlaps e d then (i, e, b) :: fnd d (i + 1) l else fnd d (i + 1) l

/-- An entry as a funklet. -/
def toF (x : Nat × Dom × B) : F B := ⟨some x.2.1, x.1, false, x.2.2⟩

theorem found_eq (d : Dom) : ∀ (l : List (Dom × Option B)) (i : Nat), found d i l = (fnd d i l).map toF
  | [], _ => rfl
  | (e, none) :: l, i => by simp only [found, fnd]; exact found_eq d l (i + 1)
  | (e, some b) :: l, i => by
    simp only [found, fnd]
    cases h : overlaps e d
    · simp only [Bool.false_eq_true, if_false]; exact found_eq d l (i + 1)
    · simp only [if_true, List.map_cons, toF]
      rw [found_eq d l (i + 1)]

theorem fnd_mem (d : Dom) : ∀ (l : List (Dom × Option B)) (i j : Nat) (e : Dom) (b : B),
    (j, e, b) ∈ fnd d i l ↔ i ≤ j ∧ l[j - i]? = some (e, some b) ∧ Meet e d
  | [], i, j, e, b => by simp [fnd]
  | (e', o) :: l, i, j, e, b => by
    have ih := fnd_mem d l (i + 1) j e b
    have key : (i + 1 ≤ j ∧ l[j - (i + 1)]? = some (e, some b) ∧ Meet e d) ↔
        (i < j ∧ ((e', o) :: l)[j - i]? = some (e, some b) ∧ Meet e d) := by
      constructor
      · rintro ⟨h1, h2, h3⟩
        refine ⟨h1, ?_, h3⟩
        have : j - i = (j - (i + 1)) + 1 := by omega
        rw [this, List.getElem?_cons_succ]; exact h2
      · rintro ⟨h1, h2, h3⟩
        refine ⟨h1, ?_, h3⟩
        have : j - i = (j - (i + 1)) + 1 := by omega
        rw [this, List.getElem?_cons_succ] at h2; exact h2
    have head : ∀ P : Prop, (P ↔ (i = j ∧ (e', o) = (e, some b) ∧ Meet e d)) →
        ((P ∨ (i < j ∧ ((e', o) :: l)[j - i]? = some (e, some b) ∧ Meet e d)) ↔
          (i ≤ j ∧ ((e', o) :: l)[j - i]? = some (e, some b) ∧ Meet e d)) := by
      intro P hP
      rw [hP]
      constructor
      · rintro (⟨rfl, h2, h3⟩ | ⟨h1, h2, h3⟩)
        · exact ⟨le_refl _, by simp [h2], h3⟩
        · exact ⟨le_of_lt h1, h2, h3⟩
      · rintro ⟨h1, h2, h3⟩
        rcases lt_or_eq_of_le h1 with h | h
        · exact Or.inr ⟨h, h2, h3⟩
        · subst h; left; simp at h2; exact ⟨rfl, by simp [h2], h3⟩
    cases o with
    | none =>
      simp only [fnd]
      rw [ih, key, ← head False (by simp)]; simp
    | some b' =>
      simp only [fnd]
      cases h : overlaps e' d
      · have hn : ¬ Meet e' d := fun hm => by rw [(overlaps_iff e' d).2 hm] at h; cases h
        simp only [Bool.false_eq_true, if_false]
        rw [ih, key, ← head False (by
          constructor
          · exact False.elim
          · rintro ⟨-, h2, h3⟩; cases h2; exact hn h3)]; simp
      · have hm := (overlaps_iff e' d).1 h
        simp only [if_true, List.mem_cons]
        rw [ih, key, head]
        constructor
        · intro h; cases h; exact ⟨rfl, rfl, hm⟩
        · rintro ⟨rfl, h2, -⟩; cases h2; rfl

theorem fnd_ordered (d : Dom) : ∀ (l : List (Dom × Option B)) (i : Nat), (fnd d i l).Pairwise fun a b => a.1 < b.1
  | [], _ => by simp [fnd]
  | (e, none) :: l, i => by simp only [fnd]; exact fnd_ordered d l (i + 1)
  | (e, some b) :: l, i => by
    simp only [fnd]
    split
    · refine List.pairwise_cons.2 ⟨?_, fnd_ordered d l (i + 1)⟩
      rintro ⟨j, e', b'⟩ hj
      exact ((fnd_mem d l (i + 1) j e' b').1 hj).1
    · exact fnd_ordered d l (i + 1)

theorem entries_fnd (t : Tab B) (d : Dom) : Entries t d (fnd d 0 t.rows) :=
  ⟨fnd_ordered d _ 0, fun i e b => by rw [fnd_mem]; simp⟩

/-- Lists in order with the same members are the same. -/
theorem ordered_ext : ∀ (l m : List (Nat × Dom × B)), l.Pairwise (fun a b => a.1 < b.1) → m.Pairwise (fun a b => a.1 < b.1) →
    (∀ x, x ∈ l ↔ x ∈ m) → l = m
  | [], [], _, _, _ => rfl
  | [], y :: m, _, _, h => absurd ((h y).2 (by simp)) (by simp)
  | x :: l, [], _, _, h => absurd ((h x).1 (by simp)) (by simp)
  | x :: l, y :: m, hl, hm, h => by
    have hl' := List.pairwise_cons.1 hl
    have hm' := List.pairwise_cons.1 hm
    have hxy : x = y := by
      rcases List.mem_cons.1 ((h x).1 (by simp)) with e | hx
      · exact e
      · rcases List.mem_cons.1 ((h y).2 (by simp)) with e | hy
        · exact e.symm
        · have h1 := hm'.1 x hx
          have h2 := hl'.1 y hy
          omega
    subst hxy
    congr 1
    refine ordered_ext l m hl'.2 hm'.2 fun z => ?_
    constructor
    · intro hz
      rcases List.mem_cons.1 ((h z).1 (List.mem_cons_of_mem _ hz)) with e | hz'
      · have := hl'.1 z hz; subst e; omega
      · exact hz'
    · intro hz
      rcases List.mem_cons.1 ((h z).2 (List.mem_cons_of_mem _ hz)) with e | hz'
      · have := hm'.1 z hz; subst e; omega
      · exact hz'

theorem entries_unique {t : Tab B} {d : Dom} {l : List (Nat × Dom × B)} (h : Entries t d l) : l = fnd d 0 t.rows :=
  ordered_ext _ _ h.ordered (entries_fnd t d).ordered fun ⟨i, e, b⟩ => by rw [h.mem, (entries_fnd t d).mem]

theorem fromDB_cases (c : Cfg B) (t : Tab B) (d : Dom) :
    (Entries t d [] ∧ fromDB c t d = none) ∨
    (∃ i e b l, Entries t d ((i, e, b) :: l) ∧ (c.solvable = true ∨ l = []) ∧
      fromDB c t d = some (.single ⟨some d, if e = d then (i : Int) else -1, false, b⟩)) ∨
    (∃ l, Entries t d l ∧ 2 ≤ l.length ∧ c.solvable = false ∧ fromDB c t d = some (.comp (l.map toF))) := by
  have he := entries_fnd t d
  have one : ∀ (i : Nat) (e : Dom) (b : B),
      (if (toF (i, e, b)).dom = some d then toF (i, e, b) else { toF (i, e, b) with dom := some d, dbid := -1 }) =
        (⟨some d, if e = d then (i : Int) else -1, false, b⟩ : F B) := by
    intro i e b
    by_cases h : e = d
    · subst h; simp [toF]
    · simp [toF, h]
  simp only [fromDB, found_eq]
  rcases hf : fnd d 0 t.rows with _ | ⟨⟨i, e, b⟩, _ | ⟨y, l⟩⟩
  · rw [hf] at he; exact Or.inl ⟨he, rfl⟩
  · rw [hf] at he
    refine Or.inr (Or.inl ⟨i, e, b, [], he, Or.inr rfl, ?_⟩)
    simp only [List.map_cons, List.map_nil]
    rw [one]
  · rw [hf] at he
    simp only [List.map_cons]
    cases hs : c.solvable
    · refine Or.inr (Or.inr ⟨_, he, by simp, rfl, ?_⟩)
      simp
    · refine Or.inr (Or.inl ⟨i, e, b, y :: l, he, Or.inl rfl, ?_⟩)
      simp only [Bool.not_true, Bool.false_eq_true, if_false]
      rw [one]

theorem head_iff (k : Funk B) (b : B) : firstBody k = some b ↔ Head k b := by
  constructor
  · intro h
    match k, h with
    | .single f, h => simp only [firstBody, Option.some.injEq] at h; subst h; exact Head.single f
    | .comp [], h => simp [firstBody] at h
    | .comp (f :: l), h => simp only [firstBody, List.head?_cons, Option.map_some, Option.some.injEq] at h; subst h; exact Head.comp f l
  · rintro (_ | _) <;> rfl

theorem may_iff (c : Cfg B) (s : St B) :
    (decide (c.usePrevious > 1) || (decide (c.usePrevious > 0) && s.conv)) = true ↔ MayUsePrevious c s := by
  simp only [MayUsePrevious, Bool.or_eq_true, Bool.and_eq_true, decide_eq_true_eq]
  constructor
  · rintro (h | ⟨h1, h2⟩)
    · exact Or.inl h
    · by_cases h : 2 ≤ c.usePrevious
      · exact Or.inl h
      · exact Or.inr ⟨by omega, h2⟩
  · rintro (h | ⟨h1, h2⟩)
    · exact Or.inl h
    · exact Or.inr ⟨by omega, h2⟩

/-- What a parameter has has coefficients. -/
def Proper (s : St B) : Prop := s.fk ≠ some (.comp [])

theorem find_start (c : Cfg B) (s : St B) (d : Dom) (hp : Proper s) : Start c s d (find c s d) := by
  have rest : NoEntry c s.tab d → Start c s d (.single ⟨some d, -1, false, fallback c s⟩) := by
    intro hn
    unfold fallback
    have fin : (c.table = true → s.tab.default = none) → (s.fk = none ∨ ¬ MayUsePrevious c s) →
        Start c s d (.single ⟨some d, -1, false, c.init.getD c.default⟩) := by
      intro hd h
      cases hi : c.init with
      | none => exact Start.value hn hd h hi
      | some b => exact Start.init b hn hd h hi
    cases hd : (if c.table then s.tab.default else none) with
    | some b =>
      cases ht : c.table
      · rw [ht] at hd; simp at hd
      · rw [ht] at hd; exact Start.tableDefault b hn ht (by simpa using hd)
    | none =>
      have hd' : c.table = true → s.tab.default = none := by intro h; rw [h] at hd; simpa using hd
      dsimp only
      cases hm : (decide (c.usePrevious > 1) || (decide (c.usePrevious > 0) && s.conv))
      · simp only [Bool.false_eq_true, if_false]
        exact fin hd' (Or.inr fun h => by rw [(may_iff c s).2 h] at hm; cases hm)
      · simp only [if_true]
        cases hk : s.fk with
        | none => simp only [Option.bind_none]; exact fin hd' (Or.inl hk)
        | some k =>
          simp only [Option.bind_some]
          cases hb : firstBody k with
          | none =>
            exfalso
            match k, hb, hk with
            | .comp [], _, hk => exact hp hk
          | some b => exact Start.previous k b hn hd' ((may_iff c s).1 hm) hk ((head_iff k b).1 hb)
  unfold find
  cases hr : c.reset
  · cases ht : c.table
    · exact rest (by intro h; rw [ht] at h; cases h)
    · rcases fromDB_cases c s.tab d with ⟨he, h⟩ | ⟨i, e, b, l, he, hs, h⟩ | ⟨l, he, hl, hs, h⟩
      · simp only [Bool.not_false, Bool.and_self, if_true, h]
        exact rest (fun _ => Or.inr he)
      · simp only [Bool.not_false, Bool.and_self, if_true, h]
        exact Start.entry i e b l ht hr he hs
      · simp only [Bool.not_false, Bool.and_self, if_true, h]
        exact Start.entries l ht hr hs he hl
  · exact rest (fun _ => Or.inl hr)

theorem find_ok (c : Cfg B) (s : St B) (d : Dom) :
    (∃ f, find c s d = .single f ∧ f.solv = false ∧ f.dom = some d) ∨
    (c.solvable = false ∧ ∃ f l, find c s d = .comp (f :: l)) := by
  unfold find
  cases hd : (if (!c.reset && c.table) = true then fromDB c s.tab d else none) with
  | none => exact Or.inl ⟨_, rfl, rfl, rfl⟩
  | some k =>
    have hk : fromDB c s.tab d = some k := by
      split at hd
      · exact hd
      · cases hd
    rcases fromDB_cases c s.tab d with ⟨-, h⟩ | ⟨i, e, b, l, -, -, h⟩ | ⟨l, -, hl, hs, h⟩
    · rw [h] at hk; cases hk
    · rw [h] at hk; cases hk; exact Or.inl ⟨_, rfl, rfl, rfl⟩
    · rw [h] at hk; cases hk
      match l, hl with
      | x :: l, _ => exact Or.inr ⟨hs, _, _, rfl⟩

theorem init_new (c : Cfg B) (s : St B) (r : Req) (h : ¬ Keeps s r) :
    initFunklet c s r = (find c s r.dom, ⟨s.conv, some (find c s r.dom), r.domId, s.rqAll, s.tab⟩) := by
  unfold initFunklet
  cases hk : s.fk with
  | none => rfl
  | some f =>
    have h1 : ¬ (r.domId.isSome && r.domId == s.domId) = true := by
      intro hc
      rw [Bool.and_eq_true] at hc
      refine h (Or.inl ⟨by rw [hk]; simp, ?_, by simpa using hc.2⟩)
      intro hn; rw [hn] at hc; simp at hc
    dsimp only
    rw [if_neg h1]
    match f, hk with
    | .comp _, _ => rfl
    | .single g, hk =>
      dsimp only
      cases hg : g.dom with
      | none => exact absurd (Or.inr ⟨g, hk, fun e he => by rw [hg] at he; cases he⟩) h
      | some e =>
        have h2 : ¬ superset e r.dom = true := fun hs =>
          h (Or.inr ⟨g, hk, fun e' he => by rw [hg] at he; cases he; exact (superset_iff e r.dom).1 hs⟩)
        dsimp only
        rw [if_neg h2]

theorem init_keep (c : Cfg B) (s : St B) (r : Req) (h : Keeps s r) :
    ∃ f f' D, s.fk = some f ∧ initFunklet c s r = (f', ⟨s.conv, some f', D, s.rqAll, s.tab⟩) ∧
      (f' = f ∨ ∃ g, f = .single g ∧ f' = .single ⟨g.dom, -1, g.solv, g.body⟩) := by
  unfold initFunklet
  cases hk : s.fk with
  | none =>
    rcases h with ⟨h, -⟩ | ⟨f, h, -⟩
    · exact absurd hk h
    · rw [hk] at h; cases h
  | some f =>
    dsimp only
    by_cases h1 : (r.domId.isSome && r.domId == s.domId) = true
    · rw [if_pos h1]
      refine ⟨f, f, s.domId, rfl, ?_, Or.inl rfl⟩
      rw [← hk]
    · rw [if_neg h1]
      rcases h with ⟨-, h2, h3⟩ | ⟨g, h2, h3⟩
      · exfalso; apply h1; rw [h3]
        cases hd : s.domId with
        | none => rw [h3, hd] at h2; exact absurd rfl h2
        | some D => simp
      · rw [hk] at h2; cases h2
        dsimp only
        cases hg : g.dom with
        | none =>
          refine ⟨_, _, r.domId, rfl, ?_, Or.inl rfl⟩
          rw [← hk]
        | some e =>
          dsimp only
          rw [if_pos ((superset_iff e r.dom).2 (h3 e hg))]
          by_cases he : e = r.dom
          · simp only [he, if_true]
            exact ⟨_, _, _, rfl, rfl, Or.inl rfl⟩
          · simp only [he, if_false]
            refine ⟨_, _, _, rfl, rfl, Or.inr ⟨g, rfl, ?_⟩⟩
            rw [hg]

/-- What a parameter can have. -/
def Ok (c : Cfg B) : Option (Funk B) → Prop
  | some (.comp l) => c.solvable = false ∧ l ≠ []
  | _ => True

theorem ok_proper {c : Cfg B} {s : St B} (h : Ok c s.fk) : Proper s := by
  intro hs; rw [hs] at h; exact h.2 rfl

theorem find_Ok (c : Cfg B) (s : St B) (d : Dom) : Ok c (some (find c s d)) := by
  rcases find_ok c s d with ⟨f, h, -⟩ | ⟨hs, f, l, h⟩
  · rw [h]; trivial
  · rw [h]; exact ⟨hs, by simp⟩

theorem init_ok (c : Cfg B) (s : St B) (r : Req) (h : Ok c s.fk) :
    Ok c (some (initFunklet c s r).1) ∧ (initFunklet c s r).2.tab = s.tab ∧ (initFunklet c s r).2.conv = s.conv := by
  by_cases hk : Keeps s r
  · obtain ⟨f, f', D, hf, he, hc⟩ := init_keep c s r hk
    rw [he]
    refine ⟨?_, rfl, rfl⟩
    rcases hc with rfl | ⟨g, -, rfl⟩
    · rw [hf] at h; exact h
    · trivial
  · rw [init_new c s r hk]; exact ⟨find_Ok c s r.dom, rfl, rfl⟩

theorem prepare_ok (o : Ops B) (c : Cfg B) (r : Req) (f : Funk B) (h : Ok c (some f)) : Ok c (some (prepare o r f)) := by
  match f, h with
  | .single g, _ => unfold prepare; dsimp only; split <;> trivial
  | .comp l, h => exact h

theorem clearSolvable_ok (c : Cfg B) (f : Funk B) (h : Ok c (some f)) : Ok c (some (clearSolvable f)) := by
  match f, h with
  | .single g, _ => trivial
  | .comp l, h => exact h

theorem saveParts_length : ∀ (l : List (F B)) (t : Tab B), (saveParts t l).2.length = l.length
  | [], _ => rfl
  | f :: l, t => by simp [saveParts, saveParts_length l]

theorem save_ok (c : Cfg B) (s : St B) (h : Ok c s.fk) : Ok c (save c s).fk := by
  unfold save
  split
  · exact h
  · cases hk : s.fk with
    | none => rw [hk] at h; dsimp only; rw [hk]; exact h
    | some f =>
      match f, hk with
      | .single g, hk => trivial
      | .comp l, hk =>
        rw [hk] at h
        refine ⟨h.1, ?_⟩
        intro hn
        have := saveParts_length l s.tab
        rw [show (saveParts s.tab l).2 = [] from hn] at this
        exact h.2 (List.length_eq_zero_iff.1 this.symm)

theorem applyIncr_some (o : Ops B) (c : Cfg B) (s s' : St B) (v : List ℚ) (h : applyIncr o c s v = some s') :
    c.solvable = true ∧ ∃ f, s.fk = some (.single f) ∧ v.length = (if f.solv then o.size f.body else 0) ∧
      s' = ⟨s.conv, some (.single ⟨f.dom, f.dbid, f.solv, o.upd f.body v⟩), s.domId, s.rqAll, s.tab⟩ := by
  unfold applyIncr at h
  cases hs : c.solvable
  · rw [hs] at h; simp at h
  · rw [hs] at h
    simp only [Bool.not_true, Bool.false_eq_true, if_false] at h
    cases hk : s.fk with
    | none => rw [hk] at h; cases h
    | some k =>
      match k, hk with
      | .comp l, hk => rw [hk] at h; cases h
      | .single f, hk =>
        rw [hk] at h
        dsimp only at h
        by_cases hn : v.length ≠ (if f.solv then o.size f.body else 0)
        · rw [if_pos hn] at h; cases h
        · rw [if_neg hn] at h
          exact ⟨rfl, f, rfl, not_not.1 hn, (Option.some.inj h).symm⟩

theorem applyIncr_ok (o : Ops B) (c : Cfg B) (s : St B) (v : List ℚ) (f : F B) (hs : c.solvable = true) (hk : s.fk = some (.single f))
    (hf : f.solv = true) (hv : v.length = o.size f.body) :
    applyIncr o c s v = some ⟨s.conv, some (.single ⟨f.dom, f.dbid, f.solv, o.upd f.body v⟩), s.domId, s.rqAll, s.tab⟩ := by
  unfold applyIncr
  rw [hs, hk]
  simp [hf, hv]

/-- Anything kept by updating, saving, clearing and noting convergence is kept by commands. -/
theorem doUpdate_inv (o : Ops B) (c : Cfg B) (P : St B → Prop) (s : St B) (cv : Bool) (v : Option (List ℚ)) (a b : Bool) (h : P s)
    (hconv : cv = true → ∀ s, P s → P ⟨true, s.fk, s.domId, s.rqAll, s.tab⟩)
    (hupd : ∀ s w s', v = some w → P s → applyIncr o c s w = some s' → P s')
    (hauto : ∀ s, c.autoSave = true → P s → P (save c s))
    (hsave : ∀ s, a = true → (s.conv = true ∨ c.saveAll = true) → P s → P (save c s)) (hclear : ∀ s, b = true → P s → P (clear s)) :
    P (doUpdate o c s cv v a b).1 := by
  unfold doUpdate
  have h1 : P (if cv then { s with conv := true } else s) := by
    cases hc : cv
    · simpa using h
    · simpa using hconv hc s h
  generalize (if cv then { s with conv := true } else s) = s1 at h1
  dsimp only
  have fin : ∀ s2 saved, P s2 → P (if b then clear (if !saved && a && c.table && (s2.conv || c.saveAll) then save c s2 else s2)
      else (if !saved && a && c.table && (s2.conv || c.saveAll) then save c s2 else s2)) := by
    intro s2 saved h2
    have h3 : P (if !saved && a && c.table && (s2.conv || c.saveAll) then save c s2 else s2) := by
      split
      · rename_i hx
        simp only [Bool.and_eq_true, Bool.or_eq_true] at hx
        exact hsave s2 hx.1.1.2 hx.2 h2
      · exact h2
    split
    · rename_i hb; exact hclear _ hb h3
    · exact h3
  cases v with
  | none => exact fin s1 false h1
  | some w =>
    dsimp only
    cases ha : applyIncr o c s1 w with
    | none => exact h1
    | some s2 =>
      have h2 := hupd s1 w s2 rfl h1 ha
      simp only [Option.map_some]
      cases hau : (c.autoSave && c.table)
      · exact fin s2 false h2
      · rw [Bool.and_eq_true] at hau
        exact fin (save c s2) true (hauto s2 hau.1 h2)

theorem step_ok (o : Ops B) (c : Cfg B) (s : St B) (a : Act B) (h : Ok c s.fk) : Ok c (step o c s a).fk := by
  cases a with
  | eval r =>
    have hi := init_ok c s r h
    simp only [step, eval]
    have hf : Ok c (some (if c.solvable && r.solve then prepare o r (initFunklet c s r).1 else clearSolvable (initFunklet c s r).1)) := by
      split
      · exact prepare_ok o c r _ hi.1
      · exact clearSolvable_ok c _ hi.1
    split
    · exact hf
    · trivial
  | discover r =>
    have hi := init_ok c s r h
    simp only [step, discover]
    split
    · exact h
    · exact prepare_ok o c r _ hi.1
  | command q cmd =>
    simp only [step]
    unfold command
    split
    · exact h
    · cases cmd with
      | save => exact save_ok c _ h
      | clear => trivial
      | other => exact h
      | update cv v a b =>
        refine doUpdate_inv o c (fun s => Ok c s.fk) _ cv v a b h (fun _ _ h => h) ?_ (fun s _ h => save_ok c s h)
          (fun s _ _ h => save_ok c s h) (fun _ _ _ => trivial)
        intro s w s' _ _ ha
        obtain ⟨-, f, -, -, rfl⟩ := applyIncr_some o c s s' w ha
        trivial
  | setFunklet b => trivial

theorem run_inv (o : Ops B) (c : Cfg B) (P : St B → Prop) (l : List (Act B)) (hs : ∀ s, ∀ a ∈ l, P s → P (step o c s a)) :
    ∀ s, P s → P (run o c s l) := by
  induction l with
  | nil => intro s h; exact h
  | cons a l ih =>
    intro s h
    exact ih (fun s x hx => hs s x (List.mem_cons_of_mem _ hx)) _ (hs s a (by simp) h)

theorem run_ok (o : Ops B) (c : Cfg B) (t : Tab B) (l : List (Act B)) : Ok c (run o c (begin t) l).fk :=
  run_inv o c (fun s => Ok c s.fk) l (fun s a _ h => step_ok o c s a h) _ trivial

theorem eval_new (o : Ops B) (c : Cfg B) (s : St B) (r : Req) (h : ¬ Keeps s r) :
    (¬ Solving c r → (eval o c s r).1 = find c s r.dom) ∧
    (Solving c r → ∃ f, find c s r.dom = .single f ∧ (eval o c s r).1 = .single ⟨some r.dom, f.dbid, true, o.renorm r.dom f.body⟩) := by
  simp only [eval, init_new c s r h, Solving]
  constructor
  · intro hs
    have : ¬ (c.solvable && r.solve) = true := by rw [Bool.and_eq_true]; exact hs
    rw [if_neg this]
    rcases find_ok c s r.dom with ⟨f, h, h1, -⟩ | ⟨-, f, l, h⟩
    · rw [h]; simp only [clearSolvable]; rw [← h1]
    · rw [h]; rfl
  · rintro ⟨h1, h2⟩
    simp only [h1, h2, Bool.and_self, if_true]
    rcases find_ok c s r.dom with ⟨f, h, h1, -⟩ | ⟨hs, -⟩
    · refine ⟨f, h, ?_⟩
      rw [h]; simp [prepare, h1]
    · rw [hs] at h1; cases h1

/-- A parameter that is neither solvable nor keeps funklets has none between requests, and does not write. -/
theorem idle_step (o : Ops B) (c : Cfg B) (t : Tab B) (hs : c.solvable = false) (hc : c.cache = false) (s : St B) (a : Act B)
    (ha : ∀ b, a ≠ .setFunklet b) (h : s.fk = none ∧ s.tab = t) : (step o c s a).fk = none ∧ (step o c s a).tab = t := by
  have hsv : ∀ s : St B, s.fk = none ∧ s.tab = t → (save c s).fk = none ∧ (save c s).tab = t := by
    intro s h
    unfold save
    split
    · exact h
    · rw [h.1]; exact h
  cases a with
  | eval r =>
    have hi := init_ok c s r (by rw [h.1]; trivial)
    simp only [step, eval, hs, hc]
    exact ⟨rfl, hi.2.1.trans h.2⟩
  | discover r => simp only [step, discover, hs, Bool.not_false, if_true]; exact h
  | command q cmd =>
    simp only [step]
    unfold command
    split
    · exact h
    · cases cmd with
      | save => exact hsv _ h
      | clear => exact ⟨rfl, h.2⟩
      | other => exact h
      | update cv v a b =>
        refine doUpdate_inv o c (fun s => s.fk = none ∧ s.tab = t) _ cv v a b h (fun _ _ h => h) ?_ (fun s _ h => hsv s h)
          (fun s _ _ h => hsv s h) (fun s _ h => ⟨rfl, h.2⟩)
        intro s w s' _ h ha
        obtain ⟨h1, -⟩ := applyIncr_some o c s s' w ha
        rw [hs] at h1; cases h1
  | setFunklet b => exact absurd rfl (ha b)

theorem find_none (c : Cfg B) (s s' : St B) (d : Dom) (h : s.fk = none) (h' : s'.fk = none) (ht : s.tab = s'.tab) :
    find c s d = find c s' d := by
  unfold find fallback
  rw [h, h', ht]
  simp

theorem not_keeps {s : St B} {r : Req} (h : s.fk = none) : ¬ Keeps s r := by
  rintro (⟨h1, -⟩ | ⟨f, h1, -⟩)
  · exact h1 h
  · rw [h] at h1; cases h1

/-! ## Saving -/

theorem lastRow_some (rows : List (Dom × Option B)) (d : Dom) : ∀ n i, lastRow rows d n = some i → rows[i]?.map (·.1) = some d
  | 0, i, h => by cases h
  | n + 1, i, h => by
    simp only [lastRow] at h
    split at h
    · cases h; assumption
    · exact lastRow_some rows d n i h

theorem wrote_set (t : Tab B) (i : Nat) (d : Dom) (b : B) (h : t.rows[i]?.map (·.1) = some d) :
    Wrote t ⟨t.rows.set i (d, some b), t.default⟩ i d b := by
  have hi : i < t.rows.length := by
    by_contra hn
    rw [List.getElem?_eq_none (by omega)] at h; cases h
  refine ⟨by simp [hi], ?_, ?_, rfl⟩
  · intro j hj
    simp only [List.getElem?_set]
    rw [if_neg (Ne.symm hj)]
  · intro e he; rw [h] at he; cases he; rfl

theorem put_wrote (t : Tab B) (d : Dom) (n : Int) (b : B) :
    Wrote t ⟨(put t.rows d n b).1, t.default⟩ (put t.rows d n b).2 d b := by
  unfold put
  split
  · rename_i h; exact wrote_set t _ d b h.2
  · split
    · rename_i i h; exact wrote_set t i d b (lastRow_some _ _ _ _ h)
    · refine ⟨by simp, ?_, ?_, rfl⟩
      · intro j hj
        rcases lt_or_gt_of_ne hj with h | h
        · exact List.getElem?_append_left h
        · rw [List.getElem?_eq_none (by simp; omega), List.getElem?_eq_none (by omega)]
      · intro e he; simp at he

theorem save_single (c : Cfg B) (s : St B) (f : F B) (h : s.fk = some (.single f)) :
    ∃ n t, save c s = ⟨s.conv, some (.single ⟨f.dom, n, f.solv, f.body⟩), s.domId, s.rqAll, t⟩ ∧
      ∀ d, c.table = true → f.dom = some d → ∃ i, Wrote s.tab t i d f.body := by
  unfold save
  cases ht : c.table
  · refine ⟨f.dbid, s.tab, ?_, by intro d h; cases h⟩
    rw [← h]; rfl
  · simp only [Bool.not_true, Bool.false_eq_true, if_false, h, saveOne]
    cases hd : f.dom with
    | none => refine ⟨f.dbid, s.tab, ?_, by intro d _ h; cases h⟩; obtain ⟨fd, fi, fs, fb⟩ := f; subst hd; rfl
    | some d =>
      refine ⟨((put s.tab.rows d f.dbid f.body).2 : Int), ⟨(put s.tab.rows d f.dbid f.body).1, s.tab.default⟩, ?_,
        fun d' _ h => by cases h; exact ⟨_, put_wrote s.tab d f.dbid f.body⟩⟩
      obtain ⟨fd, fi, fs, fb⟩ := f; subst hd; rfl

theorem alone_entries {t : Tab B} {i : Nat} {d : Dom} {b : B} (hd : Meet d d) (hi : t.rows[i]? = some (d, some b)) (ha : Alone t i d) :
    Entries t d [(i, d, b)] := by
  refine ⟨by simp, fun j e b' => ?_⟩
  simp only [List.mem_singleton]
  constructor
  · intro h; cases h; exact ⟨hi, hd⟩
  · rintro ⟨h1, h2⟩
    have := ha j e b' h1 h2
    subst this
    rw [hi] at h1; cases h1; rfl

theorem find_alone (c : Cfg B) (s : St B) (d : Dom) (i : Nat) (b : B) (ht : c.table = true) (hr : c.reset = false)
    (he : Entries s.tab d [(i, d, b)]) : find c s d = .single ⟨some d, i, false, b⟩ := by
  have hu := entries_unique he
  have : fromDB c s.tab d = some (.single ⟨some d, i, false, b⟩) := by
    simp only [fromDB, found_eq, ← hu, List.map_cons, List.map_nil, toF, if_true]
  unfold find
  simp [ht, hr, this]

/-! ## Solutions -/

theorem newUpdates_ne (q last : Option (Nat × Nat)) (s : St B) (h : s.rqAll = last) (hq : q ≠ none) :
    (last.map (·.2) = q.map (·.2) ∧ q ≠ none) ↔ skipped s q = true := by
  unfold skipped
  cases q with
  | none => exact absurd rfl hq
  | some a =>
    subst h
    cases s.rqAll with
    | none => simp
    | some b =>
      simp only [Option.map_some, Option.some.injEq, ne_eq, reduceCtorEq, not_false_eq_true, and_true, beq_iff_eq]
      exact ⟨fun h => h.symm, fun h => h.symm⟩

/-- The state in a solution. -/
def Inv (D : Nat) (d : Option Dom) (b : B) (s : St B) : Prop :=
  s.domId = some D ∧ ∃ k, s.fk = some (.single ⟨d, k, true, b⟩)

theorem same_eval (o : Ops B) (c : Cfg B) (s : St B) (r : Req) {D : Nat} {d : Option Dom} {b : B} (h : Inv D d b s)
    (hr : r.domId = some D) : initFunklet c s r = (((s.fk).getD (.comp [])), s) ∧ prepare o r ((s.fk).getD (.comp [])) = (s.fk).getD (.comp []) := by
  obtain ⟨h1, k, h2⟩ := h
  constructor
  · unfold initFunklet
    simp [h2, hr, h1]
  · simp [h2, prepare]

theorem inv_save (c : Cfg B) {D : Nat} {d : Option Dom} {b : B} {s : St B} (h : Inv D d b s) :
    Inv D d b (save c s) ∧ (save c s).rqAll = s.rqAll := by
  obtain ⟨h1, k, h2⟩ := h
  obtain ⟨m, t, he, -⟩ := save_single c s _ h2
  rw [he]
  exact ⟨⟨h1, m, rfl⟩, rfl⟩

/-- An update in a solution. -/
theorem inv_update (o : Ops B) (c : Cfg B) {D : Nat} {d : Option Dom} {b : B} {s : St B} (hs : c.solvable = true)
    (h : Inv D d b s) (cv : Bool) (v : Option (List ℚ)) (a : Bool) (hv : ∀ w, v = some w → w.length = o.size b) :
    Inv D d (v.toList.foldl o.upd b) (doUpdate o c s cv v a false).1 ∧ (doUpdate o c s cv v a false).1.rqAll = s.rqAll ∧
      (doUpdate o c s cv v a false).2 = true := by
  unfold doUpdate
  have h1 : Inv D d b (if cv then { s with conv := true } else s) ∧ (if cv then { s with conv := true } else s).rqAll = s.rqAll := by
    cases cv
    · exact ⟨h, rfl⟩
    · exact ⟨h, rfl⟩
  generalize (if cv then { s with conv := true } else s) = s1 at h1
  obtain ⟨h1, hq⟩ := h1
  dsimp only
  have fin : ∀ (b' : B) s2 saved, Inv D d b' s2 → s2.rqAll = s.rqAll →
      Inv D d b' (if !saved && a && c.table && (s2.conv || c.saveAll) then save c s2 else s2) ∧
      (if !saved && a && c.table && (s2.conv || c.saveAll) then save c s2 else s2).rqAll = s.rqAll := by
    intro b' s2 saved h2 h3
    split
    · have := inv_save c h2; exact ⟨this.1, this.2.trans h3⟩
    · exact ⟨h2, h3⟩
  cases v with
  | none =>
    have := fin b s1 false h1 hq
    exact ⟨this.1, this.2, rfl⟩
  | some w =>
    obtain ⟨h2, k, h3⟩ := h1
    dsimp only
    rw [applyIncr_ok o c s1 w _ hs h3 rfl (hv w rfl)]
    have h4 : Inv D d (o.upd b w) ⟨s1.conv, some (.single ⟨d, k, true, o.upd b w⟩), s1.domId, s1.rqAll, s1.tab⟩ := ⟨h2, k, rfl⟩
    simp only [Option.map_some]
    cases hau : (c.autoSave && c.table)
    · have := fin _ _ false h4 hq
      exact ⟨this.1, this.2, trivial⟩
    · have h5 := inv_save c h4
      have := fin _ _ true h5.1 (h5.2.trans hq)
      exact ⟨this.1, this.2, trivial⟩

theorem solution (o : Ops B) (c : Cfg B) (n D : Nat) (d : Option Dom) (hs : c.solvable = true)
    (hsz : ∀ b v, o.size b = n → v.length = n → o.size (o.upd b v) = n) :
    ∀ (l : List (Act B)) (s : St B) (b : B), (∀ a ∈ l, InSolution n D a) → o.size b = n → Inv D d b s →
      Inv D d ((newUpdates s.rqAll l).foldl o.upd b) (run o c s l) := by
  intro l
  induction l with
  | nil => intro s b _ _ h; exact h
  | cons a l ih =>
    intro s b hl hb h
    have ha := hl a (by simp)
    have hl' : ∀ a ∈ l, InSolution n D a := fun x hx => hl x (List.mem_cons_of_mem _ hx)
    show Inv D d _ (run o c (step o c s a) l)
    cases a with
    | eval r =>
      have he := same_eval o c s r h ha.2
      have hst : step o c s (.eval r) = s := by
        obtain ⟨-, k, h2⟩ := h
        simp only [step, eval, he.1, hs, ha.1, Bool.and_self, if_true, he.2, Bool.or_true]
        rw [h2]; simp only [Option.getD_some]; rw [← h2]
      rw [hst]; exact ih s b hl' hb h
    | discover r =>
      have he := same_eval o c s r h ha
      have hst : step o c s (.discover r) = s := by
        obtain ⟨-, k, h2⟩ := h
        simp only [step, discover, he.1, hs, Bool.not_true, Bool.false_eq_true, if_false, he.2]
        rw [h2]; simp only [Option.getD_some]; rw [← h2]
      rw [hst]; exact ih s b hl' hb h
    | setFunklet b => exact absurd ha (by simp [InSolution])
    | command q cmd =>
      have hq := newUpdates_ne q s.rqAll s rfl ha.1
      simp only [newUpdates, step]
      unfold command
      by_cases hk : skipped s q = true
      · rw [if_pos hk, if_pos (hq.2 hk)]
        exact ih ⟨s.conv, s.fk, s.domId, q, s.tab⟩ b hl' hb h
      · rw [if_neg hk, if_neg (fun h => hk (hq.1 h))]
        have h' : Inv D d b ⟨s.conv, s.fk, s.domId, q, s.tab⟩ := h
        cases cmd with
        | save =>
          have hv := inv_save c h'
          have := ih _ b hl' hb hv.1
          rw [hv.2] at this
          exact this
        | clear => exact absurd ha.2 (by simp)
        | other => exact ih _ b hl' hb h'
        | update cv v a k =>
          obtain ⟨hk, hv⟩ := ha.2
          subst hk
          subst hb
          have hu := inv_update o c hs h' cv v a hv
          cases v with
          | none =>
            have := ih _ b hl' rfl hu.1
            rw [hu.2.1] at this
            exact this
          | some w =>
            have := ih _ (o.upd b w) hl' (hsz b w rfl (hv w rfl)) hu.1
            rw [hu.2.1] at this
            exact this

/-! ## Convergence -/

theorem conv_step (o : Ops B) (c : Cfg B) (t : Tab B) (ha : c.autoSave = false) (hsa : c.saveAll = false) (s : St B) (a : Act B)
    (hn : ∀ q cmd, a = .command q cmd → cmd ≠ .save ∧ ∀ v s k, cmd ≠ .update true v s k)
    (h : s.conv = false ∧ s.tab = t) (hok : Ok c s.fk) : (step o c s a).conv = false ∧ (step o c s a).tab = t := by
  cases a with
  | eval r =>
    have hi := init_ok c s r hok
    simp only [step, eval]
    exact ⟨hi.2.2.trans h.1, hi.2.1.trans h.2⟩
  | discover r =>
    have hi := init_ok c s r hok
    simp only [step, discover]
    split
    · exact h
    · exact ⟨hi.2.2.trans h.1, hi.2.1.trans h.2⟩
  | setFunklet b => exact h
  | command q cmd =>
    obtain ⟨h1, h2⟩ := hn q cmd rfl
    simp only [step]
    unfold command
    split
    · exact h
    · cases cmd with
      | save => exact absurd rfl h1
      | clear => exact h
      | other => exact h
      | update cv v a b =>
        refine doUpdate_inv o c (fun s => s.conv = false ∧ s.tab = t) _ cv v a b h ?_ ?_ ?_ ?_ (fun s _ h => h)
        · intro hcv; subst hcv; exact absurd rfl (h2 v a b)
        · intro s w s' _ h hs
          obtain ⟨-, f, -, -, rfl⟩ := applyIncr_some o c s s' w hs
          exact h
        · intro s hs; rw [ha] at hs; cases hs
        · rintro s - (hs | hs) h
          · rw [h.1] at hs; cases hs
          · rw [hsa] at hs; cases hs

/-- An update that is saved. -/
theorem update_saved (o : Ops B) (c : Cfg B) (s : St B) (q : Option (Nat × Nat)) (v : List ℚ) (k : Bool) (f : F B) (d : Dom)
    (hs : c.solvable = true) (ht : c.table = true) (hk : s.fk = some (.single f)) (hf : f.solv = true) (hd : f.dom = some d)
    (hv : v.length = o.size f.body) (hq : NewRequest s q) :
    (command o c s q (.update true (some v) true k)).2 = true ∧
    ∃ i, Wrote s.tab (command o c s q (.update true (some v) true k)).1.tab i d (o.upd f.body v) := by
  have hsk : ¬ skipped s q = true := by
    unfold skipped
    cases q with
    | none => simp
    | some a =>
      cases hr : s.rqAll with
      | none => simp
      | some b => simpa using hq a b rfl hr
  unfold command; rw [if_neg hsk]
  simp only [doUpdate, if_true]
  rw [applyIncr_ok o c ⟨true, s.fk, s.domId, q, s.tab⟩ v f hs hk hf hv]
  simp only [Option.map_some, ht, Bool.and_true]
  have key := save_single c ⟨true, some (.single ⟨f.dom, f.dbid, f.solv, o.upd f.body v⟩), s.domId, q, s.tab⟩ _ rfl
  obtain ⟨m, t, he, hw⟩ := key
  obtain ⟨i, hi⟩ := hw d ht hd
  cases hau : c.autoSave
  · simp only [Bool.false_eq_true, if_false, Bool.not_false, Bool.and_self, Bool.true_or, if_true, he]
    refine ⟨trivial, i, ?_⟩
    cases k <;> exact hi
  · simp only [if_true, Bool.not_true, Bool.false_and, Bool.false_eq_true, if_false, he]
    refine ⟨trivial, i, ?_⟩
    cases k <;> exact hi

/-- A funklet that was not being solved for is then for the domain of the request. -/
theorem eval_dom (o : Ops B) (c : Cfg B) (s : St B) (r : Req) (hok : Ok c s.fk) (hs : Solving c r)
    (hg : ∀ g, s.fk = some (.single g) → g.solv = true → Keeps s r → g.dom = some r.dom) :
    ∃ f, (eval o c s r).1 = .single f ∧ (eval o c s r).2.fk = some (.single f) ∧ f.solv = true ∧ f.dom = some r.dom ∧
      (eval o c s r).2.tab = s.tab ∧ (eval o c s r).2.rqAll = s.rqAll := by
  obtain ⟨h1, h2⟩ := hs
  by_cases hk : Keeps s r
  · obtain ⟨k, k', D, hf, he, hc⟩ := init_keep c s r hk
    match k, hf with
    | .comp l, hf => rw [hf] at hok; rw [hok.1] at h1; cases h1
    | .single g, hf =>
      have hk' : ∃ n, k' = .single ⟨g.dom, n, g.solv, g.body⟩ := by
        rcases hc with rfl | ⟨g', h, rfl⟩
        · exact ⟨g.dbid, rfl⟩
        · cases h; exact ⟨-1, rfl⟩
      obtain ⟨n, rfl⟩ := hk'
      simp only [eval, he, h1, h2, Bool.and_self, if_true, Bool.or_true, prepare]
      cases hsv : g.solv
      · simp only [Bool.false_eq_true, if_false]
        exact ⟨_, rfl, rfl, rfl, rfl, trivial, trivial⟩
      · simp only [if_true]
        exact ⟨_, rfl, rfl, rfl, hg g hf hsv hk, trivial, trivial⟩
  · obtain ⟨f, -, he⟩ := (eval_new o c s r hk).2 ⟨h1, h2⟩
    refine ⟨_, he, ?_, rfl, rfl, ?_, ?_⟩
    · simp only [eval, h1, h2, Bool.and_self, if_true, Bool.or_true] at he ⊢
      rw [he]
    · simp only [eval, init_new c s r hk]
    · simp only [eval, init_new c s r hk]

theorem not_skipped {s : St B} {q : Option (Nat × Nat)} (hq : NewRequest s q) : ¬ skipped s q = true := by
  unfold skipped
  cases q with
  | none => simp
  | some a =>
    cases hr : s.rqAll with
    | none => simp
    | some b => simpa using hq a b rfl hr

theorem update_decision (o : Ops B) (c : Cfg B) (s : St B) (q : Option (Nat × Nat)) (cv : Bool) (v : Option (List ℚ)) (a k : Bool) (f : F B)
    (d : Dom) (b' : B) (hs : c.solvable = true) (hk : s.fk = some (.single f)) (hf : f.solv = true) (hd : f.dom = some d)
    (hv : ∀ w, v = some w → w.length = o.size f.body) (hq : NewRequest s q) (hb : Updated o f.body v b') :
    (command o c s q (.update cv v a k)).2 = true ∧
    (Saves c s cv v a → ∃ i, Wrote s.tab (command o c s q (.update cv v a k)).1.tab i d b') ∧
    (¬ Saves c s cv v a → (command o c s q (.update cv v a k)).1.tab = s.tab) ∧
    (k = true → (command o c s q (.update cv v a k)).1.fk = none) ∧
    (k = false → ∃ n, (command o c s q (.update cv v a k)).1.fk = some (.single ⟨some d, n, true, b'⟩)) ∧
    ((command o c s q (.update cv v a k)).1.conv = true ↔ cv = true ∨ s.conv = true) := by
  unfold command; rw [if_neg (not_skipped hq)]
  unfold doUpdate
  have hc : (if cv then { ({ s with rqAll := q } : St B) with conv := true } else { s with rqAll := q }) =
      ⟨cv || s.conv, some (.single ⟨some d, f.dbid, true, f.body⟩), s.domId, q, s.tab⟩ := by
    have : f = ⟨some d, f.dbid, true, f.body⟩ := by rw [← hd, ← hf]
    rw [← this, ← hk]
    cases cv <;> rfl
  simp only [hc]
  have key : ∀ n, ∃ m t, save c (⟨cv || s.conv, some (.single ⟨some d, n, true, b'⟩), s.domId, q, s.tab⟩ : St B) =
      ⟨cv || s.conv, some (.single ⟨some d, m, true, b'⟩), s.domId, q, t⟩ ∧ (c.table = true → ∃ i, Wrote s.tab t i d b') := by
    intro n
    obtain ⟨m, t, he, hw⟩ := save_single c (⟨cv || s.conv, some (.single ⟨some d, n, true, b'⟩), s.domId, q, s.tab⟩ : St B) _ rfl
    exact ⟨m, t, he, fun ht => hw d ht rfl⟩
  obtain ⟨m, t, he, hw⟩ := key f.dbid
  rcases hb with ⟨rfl, rfl⟩ | ⟨w, rfl, rfl⟩
  · simp only [Bool.not_false, Bool.true_and, Saves]
    cases hx : (a && c.table && ((cv || s.conv) || c.saveAll))
    · have hn : ¬ (c.table = true ∧ (((none : Option (List ℚ)) ≠ none ∧ c.autoSave = true) ∨
          (a = true ∧ (cv = true ∨ s.conv = true ∨ c.saveAll = true)))) := by
        rintro ⟨h1, ⟨h2, -⟩ | ⟨h2, h3⟩⟩
        · exact h2 rfl
        · rw [h1, h2] at hx
          rcases h3 with h | h | h <;> rw [h] at hx <;> simp at hx
      refine ⟨trivial, fun h => absurd h hn, fun _ => ?_, ?_, ?_, ?_⟩
      · cases k <;> rfl
      · rintro rfl; rfl
      · rintro rfl; exact ⟨_, rfl⟩
      · cases k <;> simp [clear]
    · simp only [Bool.and_eq_true, Bool.or_eq_true] at hx
      have hy : c.table = true ∧ (((none : Option (List ℚ)) ≠ none ∧ c.autoSave = true) ∨
          (a = true ∧ (cv = true ∨ s.conv = true ∨ c.saveAll = true))) := by
        refine ⟨hx.1.2, Or.inr ⟨hx.1.1, ?_⟩⟩
        rcases hx.2 with (h | h) | h
        · exact Or.inl h
        · exact Or.inr (Or.inl h)
        · exact Or.inr (Or.inr h)
      simp only [if_true, he]
      refine ⟨trivial, fun _ => ?_, fun h => absurd hy h, ?_, ?_, ?_⟩
      · cases k <;> exact hw hx.1.2
      · rintro rfl; rfl
      · rintro rfl; exact ⟨_, rfl⟩
      · cases k <;> simp [clear]
  · dsimp only
    rw [applyIncr_ok o c _ w ⟨some d, f.dbid, true, f.body⟩ hs rfl rfl (hv w rfl)]
    simp only [Option.map_some, Saves]
    cases hau : (c.autoSave && c.table)
    · simp only [Bool.false_eq_true, if_false, Bool.not_false, Bool.true_and]
      cases hx : (a && c.table && ((cv || s.conv) || c.saveAll))
      · have hn : ¬ (c.table = true ∧ ((some w ≠ none ∧ c.autoSave = true) ∨
            (a = true ∧ (cv = true ∨ s.conv = true ∨ c.saveAll = true)))) := by
          rintro ⟨h1, ⟨-, h2⟩ | ⟨h2, h3⟩⟩
          · rw [h1, h2] at hau; cases hau
          · rw [h1, h2] at hx
            rcases h3 with h | h | h <;> rw [h] at hx <;> simp at hx
        refine ⟨trivial, fun h => absurd h hn, fun _ => ?_, ?_, ?_, ?_⟩
        · cases k <;> rfl
        · rintro rfl; rfl
        · rintro rfl; exact ⟨_, rfl⟩
        · cases k <;> simp [clear]
      · simp only [Bool.and_eq_true, Bool.or_eq_true] at hx
        have hy : c.table = true ∧ ((some w ≠ none ∧ c.autoSave = true) ∨
            (a = true ∧ (cv = true ∨ s.conv = true ∨ c.saveAll = true))) := by
          refine ⟨hx.1.2, Or.inr ⟨hx.1.1, ?_⟩⟩
          rcases hx.2 with (h | h) | h
          · exact Or.inl h
          · exact Or.inr (Or.inl h)
          · exact Or.inr (Or.inr h)
        simp only [if_true, he]
        refine ⟨trivial, fun _ => ?_, fun h => absurd hy h, ?_, ?_, ?_⟩
        · cases k <;> exact hw hx.1.2
        · rintro rfl; rfl
        · rintro rfl; exact ⟨_, rfl⟩
        · cases k <;> simp [clear]
    · rw [Bool.and_eq_true] at hau
      simp only [if_true, Bool.not_true, Bool.false_and, Bool.false_eq_true, if_false, he]
      refine ⟨trivial, fun _ => ?_, fun h => absurd ⟨hau.2, Or.inl ⟨by simp, hau.1⟩⟩ h, ?_, ?_, ?_⟩
      · cases k <;> exact hw hau.2
      · rintro rfl; rfl
      · rintro rfl; exact ⟨_, rfl⟩
      · cases k <;> simp [clear]

theorem refused_none (o : Ops B) (c : Cfg B) (s : St B) (v : List ℚ) (h : Refused o c s v) : applyIncr o c s v = none := by
  cases ha : applyIncr o c s v with
  | none => rfl
  | some s' =>
    exfalso
    obtain ⟨h1, f, h2, h3, -⟩ := applyIncr_some o c s s' v ha
    rcases h with h | h | ⟨g, hg, h⟩
    · rw [h] at h1; cases h1
    · rw [h] at h2; cases h2
    · rw [h2] at hg; cases hg
      rcases h with ⟨hf, h⟩ | ⟨hf, h⟩
      · rw [hf] at h3; exact h h3
      · rw [hf] at h3; exact h (List.length_eq_zero_iff.1 h3)

end Verif.Parm
