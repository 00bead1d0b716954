import Verif.Spec.Config
/-!
# Lemmas on configurations
-/
namespace Verif.Config

theorem isSpace_iff (c : Nat) : isSpace c = true ↔ Space c := by
  unfold isSpace Space
  simp only [decide_eq_true_eq]
  omega

theorem find_nil (m : List Nat) : find [] m = none := rfl

theorem find_cons (a w : List Nat) (r : List (List Nat × List Nat)) (m : List Nat) : find ((a, w) :: r) m = if a = m then some w else find r m := by
  unfold find
  rw [List.find?_cons]
  by_cases h : a = m
  · simp [h]
  · simp [h]

theorem find_put (c : List (List Nat × List Nat)) (n v m : List Nat) : find (put c n v) m = if m = n then some v else find c m := by
  induction c with
  | nil =>
    simp only [put, find_cons, find_nil]
    by_cases h : n = m
    · subst h; simp
    · rw [if_neg h, if_neg (fun e => h e.symm)]
  | cons p r ih =>
    obtain ⟨a, w⟩ := p
    unfold put
    by_cases h : a = n
    · subst h
      rw [if_pos rfl, find_cons, find_cons]
      by_cases h' : a = m
      · subst h'; simp
      · rw [if_neg h', if_neg (fun e => h' e.symm), if_neg h']
    · rw [if_neg h, find_cons, find_cons, ih]
      by_cases h' : a = m
      · subst h'
        rw [if_pos rfl, if_pos rfl, if_neg h]
      · rw [if_neg h', if_neg h']

theorem find_merge1 (c : List (List Nat × List Nat)) (n v m : List Nat) :
    find (merge1 true c n v) m = if m = n then some v else find c m := by
  unfold merge1
  simp only [true_or, if_true]
  exact find_put c n v m

theorem find_remove (c : List (List Nat × List Nat)) (n m : List Nat) : find (remove c n) m = if m = n then none else find c m := by
  unfold find remove
  rw [List.find?_filter]
  by_cases h : m = n
  · subst h
    rw [if_pos rfl]
    simp
  · rw [if_neg h]
    congr 2
    funext a
    by_cases e : a.1 = m
    · simp [e, h]
    · simp [e]

theorem mergeOther_find (o : Bool) : ∀ (r c : List (List Nat × List Nat)) (m : List Nat), find (mergeOther o c r) m = (find c m).or (find r m)
  | [], c, m => by simp [mergeOther, find]
  | (n, v) :: r, c, m => by
    simp only [mergeOther]
    rw [mergeOther_find o r]
    by_cases h : find c n = none
    · simp only [h, or_true, if_true]
      rw [find_put]
      by_cases e : m = n
      · subst e; rw [if_pos rfl, h, find_cons, if_pos rfl]; rfl
      · rw [if_neg e, find_cons, if_neg (fun e' => e e'.symm)]
    · simp only [h, or_false, if_false, ite_self]
      by_cases e : m = n
      · subst e
        cases hc : find c m with
        | none => exact absurd hc h
        | some w => simp
      · rw [find_cons, if_neg (fun e' => e e'.symm)]

/-! Lines. -/

theorem takeWhile_all {l : List Nat} {p : Nat → Bool} (h : ∀ x ∈ l, p x = true) : l.takeWhile p = l := by
  induction l with
  | nil => rfl
  | cons x l ih => rw [List.takeWhile_cons, if_pos (h x List.mem_cons_self), ih (fun y hy => h y (List.mem_cons_of_mem _ hy))]

theorem cstr_self {s : List Nat} (h : 0 ∉ s) : cstr s = s := by
  unfold cstr
  refine takeWhile_all (fun x hx => ?_)
  simp only [decide_eq_true_eq]
  rintro rfl; exact h hx

theorem takeWhile_append_cons {p : Nat → Bool} {a b : List Nat} {c : Nat} (h : ∀ x ∈ a, p x = true) (hc : p c = false) :
    (a ++ c :: b).takeWhile p = a ∧ (a ++ c :: b).dropWhile p = c :: b := by
  induction a with
  | nil => simp [hc]
  | cons x a ih =>
    have hx := h x List.mem_cons_self
    obtain ⟨i1, i2⟩ := ih (fun y hy => h y (List.mem_cons_of_mem _ hy))
    simp [hx, i1, i2]

theorem dropWhile_split {p : Nat → Bool} (l : List Nat) : ∃ a, l = a ++ l.dropWhile p ∧ (∀ x ∈ a, p x = true) ∧ ∀ c r, l.dropWhile p = c :: r → p c = false := by
  induction l with
  | nil => exact ⟨[], by simp⟩
  | cons x l ih =>
    by_cases h : p x = true
    · obtain ⟨a, e1, e2, e3⟩ := ih
      refine ⟨x :: a, ?_, ?_, ?_⟩
      · simp only [List.dropWhile_cons, h, if_true, List.cons_append]; rw [← e1]
      · intro y hy
        rcases List.mem_cons.mp hy with rfl | hy
        · exact h
        · exact e2 y hy
      · simp only [List.dropWhile_cons, h, if_true]; exact e3
    · refine ⟨[], by simp [h], by simp, ?_⟩
      intro c r e
      simp only [List.dropWhile_cons, h, Bool.false_eq_true, if_false] at e
      cases e; simpa using h

theorem dropWhile_prefix {p : Nat → Bool} {a b : List Nat} (h : ∀ x ∈ a, p x = true) (hb : ∀ c r, b = c :: r → p c = false) :
    (a ++ b).dropWhile p = b := by
  induction a with
  | nil =>
    cases b with
    | nil => rfl
    | cons c r => simp [hb c r rfl]
  | cons x a ih =>
    simp only [List.cons_append, List.dropWhile_cons, h x List.mem_cons_self, if_true]
    exact ih (fun y hy => h y (List.mem_cons_of_mem _ hy))

/-- The line without its end. -/
def parse0 (s : List Nat) : Option (List Nat × List Nat) :=
  let s0 := s.dropWhile isSpace
  if s0 = [] ∨ s0.head? = some 35 then none
  else if 32 ∈ s0 then some (s0.takeWhile (· ≠ 32), ((s0.dropWhile (· ≠ 32)).tail).dropWhile isSpace)
  else none

theorem parse_line {l : List Nat} (h0 : 0 ∉ l) (h10 : 10 ∉ l) : parse l = parse0 l ∧ parse (l ++ [10]) = parse0 l := by
  have g : l.getLast? ≠ some 10 := fun e => h10 (List.mem_of_getLast? e)
  constructor
  · unfold parse
    simp only [cstr_self h0, if_neg g]
    split
    · rename_i e; subst e; rfl
    · rfl
  · unfold parse
    have h0' : 0 ∉ l ++ [10] := by simp [h0]
    simp only [cstr_self h0', List.getLast?_concat, List.dropLast_concat, if_true]
    rw [if_neg (by simp)]
    rfl

theorem parse0_iff (l n v : List Nat) : parse0 l = some (n, v) ↔ Setting l n v := by
  constructor
  · intro h
    unfold parse0 at h
    obtain ⟨w, e1, e2, e3⟩ := dropWhile_split (p := isSpace) l
    generalize hs : l.dropWhile isSpace = s at h e1 e3
    dsimp only at h
    split at h
    · cases h
    · rename_i hne
      split at h
      · rename_i h32
        simp only [Option.some.injEq, Prod.mk.injEq] at h
        obtain ⟨hn, hv⟩ := h
        obtain ⟨a, f1, f2, f3⟩ := dropWhile_split (p := fun c => decide (c ≠ 32)) s
        cases hd : s.dropWhile (fun c => decide (c ≠ 32)) with
        | nil =>
          rw [hd, List.append_nil] at f1
          rw [f1] at h32
          have := f2 32 h32
          simp at this
        | cons c r =>
          have hc : c = 32 := by have := f3 c r hd; simpa using this
          subst hc
          rw [hd] at f1
          obtain ⟨t1, t2⟩ := takeWhile_append_cons (p := fun c => decide (c ≠ 32)) (b := r) (c := 32) f2 (by simp)
          rw [f1, t1] at hn
          subst hn
          rw [hd, List.tail_cons] at hv
          obtain ⟨u, g1, g2, g3⟩ := dropWhile_split (p := isSpace) r
          rw [hv] at g1 g3
          refine ⟨w, u, ?_, fun c hc => (isSpace_iff c).mp (e2 c hc), fun c hc => (isSpace_iff c).mp (g2 c hc), ?_, ?_, ?_⟩
          · rw [e1, f1, ← g1]; simp
          · intro hm; have := f2 32 hm; simp at this
          · cases a with
            | nil =>
              simp only [List.nil_append] at f1
              have := e3 32 r f1
              simp [isSpace] at this
            | cons x a =>
              refine ⟨x, a, rfl, ?_, ?_⟩
              · intro hx
                have := e3 x (a ++ 32 :: r) (by rw [f1]; rfl)
                rw [(isSpace_iff x).mpr hx] at this
                cases this
              · rintro rfl
                apply hne
                right; rw [f1]; rfl
          · intro c r' e hc
            have := g3 c r' e
            rw [(isSpace_iff c).mpr hc] at this
            cases this
      · cases h
  · rintro ⟨w, u, rfl, h1, h2, h3, ⟨c, r, rfl, h4, h5⟩, h6⟩
    unfold parse0
    have hd : (w ++ c :: r ++ 32 :: (u ++ v)).dropWhile isSpace = c :: r ++ 32 :: (u ++ v) := by
      rw [List.append_assoc]
      refine dropWhile_prefix (fun x hx => (isSpace_iff x).mpr (h1 x hx)) (fun c' r' e => ?_)
      simp only [List.cons_append, List.cons.injEq] at e
      rw [← e.1]
      cases hh : isSpace c with
      | true => exact absurd ((isSpace_iff c).mp hh) h4
      | false => rfl
    simp only [hd]
    rw [if_neg (by simp [h5]), if_pos (by simp)]
    obtain ⟨t1, t2⟩ := takeWhile_append_cons (p := fun c => decide (c ≠ 32)) (a := c :: r) (b := u ++ v) (c := 32)
      (fun x hx => by simp only [decide_eq_true_eq]; rintro rfl; exact h3 hx) (by simp)
    rw [t1, t2, List.tail_cons]
    rw [dropWhile_prefix (fun x hx => (isSpace_iff x).mpr (h2 x hx)) (fun c' r' e => by
      cases hh : isSpace c' with
      | true => exact absurd ((isSpace_iff c').mp hh) (h6 c' r' e)
      | false => rfl)]

/-- Reading a line. -/
theorem chunks_acc (l f : List Nat) : ∀ (k : Nat) (acc : List Nat), 10 ∉ l → l.length < k →
    chunks k acc (l ++ 10 :: f) = (acc ++ l ++ [10]) :: chunks 1023 [] f := by
  induction l with
  | nil => intro k acc _ _; simp [chunks]
  | cons c l ih =>
    intro k acc h hk
    simp only [List.mem_cons, not_or] at h
    simp only [List.length_cons] at hk
    simp only [List.cons_append, chunks]
    rw [if_neg (fun e => h.1 e.symm), if_neg (by omega), ih (k - 1) (acc ++ [c]) h.2 (by omega)]
    simp

theorem chunks_full (l f : List Nat) : ∀ (k : Nat) (acc : List Nat), 10 ∉ l → l.length = k → l ≠ [] →
    chunks k acc (l ++ f) = (acc ++ l) :: chunks 1023 [] f := by
  induction l with
  | nil => intro k acc _ _ h; exact absurd rfl h
  | cons c l ih =>
    intro k acc h hk _
    simp only [List.mem_cons, not_or] at h
    simp only [List.length_cons] at hk
    simp only [List.cons_append, chunks]
    rw [if_neg (fun e => h.1 e.symm)]
    cases l with
    | nil => simp only [List.length_nil] at hk; rw [if_pos (by omega)]; simp
    | cons d l =>
      simp only [List.length_cons] at hk
      rw [if_neg (by omega), ih (k - 1) (acc ++ [c]) h.2 (by simp only [List.length_cons]; omega) (by simp)]
      simp

theorem chunks_end (l : List Nat) : ∀ (k : Nat) (acc : List Nat), 10 ∉ l → l.length < k → chunks k acc l = if acc ++ l = [] then [] else [acc ++ l] := by
  induction l with
  | nil => intro k acc _ _; simp [chunks]
  | cons c l ih =>
    intro k acc h hk
    simp only [List.mem_cons, not_or] at h
    simp only [List.length_cons] at hk
    simp only [chunks]
    rw [if_neg (fun e => h.1 e.symm), if_neg (by omega), ih (k - 1) (acc ++ [c]) h.2 (by omega)]
    simp

/-- What reading a line does. -/
def apply1 (o : Bool) (c : List (List Nat × List Nat)) (l : List Nat) : List (List Nat × List Nat) :=
  match parse0 l with
  | none => c
  | some p => merge1 o c p.1 p.2

theorem mergeFile_line (o : Bool) (c : List (List Nat × List Nat)) (l f : List Nat) (h : Line l) :
    mergeFile o c (l ++ 10 :: f) = mergeFile o (apply1 o c l) f := by
  obtain ⟨h10, h0, hl⟩ := h
  obtain ⟨p1, p2⟩ := parse_line h0 h10
  unfold mergeFile
  by_cases e : l.length < 1023
  · rw [chunks_acc l f 1023 [] h10 e]
    simp only [List.nil_append, List.foldl_cons, p2]
    rfl
  · rw [chunks_full l (10 :: f) 1023 [] h10 (by omega) (by rintro rfl; simp at e)]
    have : chunks 1023 [] (10 :: f) = [10] :: chunks 1023 [] f := by simp [chunks]
    rw [this]
    have p3 : parse [10] = none := by decide
    simp only [List.nil_append, List.foldl_cons, p1, p3]
    rfl

theorem mergeFile_lines (o : Bool) (f : List Nat) : ∀ (ls : List (List Nat)) (c : List (List Nat × List Nat)), (∀ l ∈ ls, Line l) →
    mergeFile o c (ls.flatMap (· ++ [10]) ++ f) = mergeFile o (ls.foldl (apply1 o) c) f
  | [], c, _ => rfl
  | l :: ls, c, h => by
    simp only [List.flatMap_cons, List.append_assoc, List.foldl_cons, List.cons_append, List.nil_append]
    rw [mergeFile_line o c l _ (h l List.mem_cons_self), mergeFile_lines o f ls _ (fun x hx => h x (List.mem_cons_of_mem _ hx))]

theorem mergeFile_nil (o : Bool) (c : List (List Nat × List Nat)) : mergeFile o c [] = c := by
  simp [mergeFile, chunks]

theorem mergeFile_last (o : Bool) (c : List (List Nat × List Nat)) (l : List Nat) (h : Line l) : mergeFile o c l = apply1 o c l := by
  obtain ⟨h10, h0, hl⟩ := h
  obtain ⟨p1, _⟩ := parse_line h0 h10
  by_cases e0 : l = []
  · subst e0; rw [mergeFile_nil]; rfl
  unfold mergeFile
  by_cases e : l.length < 1023
  · rw [chunks_end l 1023 [] h10 e, List.nil_append, if_neg e0]
    simp only [List.foldl_cons, List.foldl_nil, p1]
    rfl
  · have := chunks_full l [] 1023 [] h10 (by omega) e0
    rw [List.append_nil] at this
    rw [this]
    simp only [chunks, if_true, List.nil_append, List.foldl_cons, List.foldl_nil, p1]
    rfl

theorem mergeFile_text (o : Bool) (c : List (List Nat × List Nat)) {f : List Nat} {ls : List (List Nat)} (h : IsText f ls) (hl : ∀ l ∈ ls, Line l) :
    mergeFile o c f = ls.foldl (apply1 o) c := by
  rcases h with rfl | ⟨ls', l, rfl, _, rfl⟩
  · have := mergeFile_lines o [] ls c hl
    rw [List.append_nil, mergeFile_nil] at this
    exact this
  · rw [mergeFile_lines o l ls' c (fun x hx => hl x (List.mem_append_left _ hx)), mergeFile_last o _ l (hl l (by simp)), List.foldl_append]
    rfl

/-! The last one counts. -/

theorem last_append_singleton {α β : Type} {R : α → β → Prop} {l : List α} {x : α} {v : β} :
    Last R (l ++ [x]) v ↔ R x v ∨ (∀ v', ¬ R x v') ∧ Last R l v := by
  constructor
  · rintro ⟨a, y, b, e, h1, h2⟩
    rcases List.eq_nil_or_concat b with rfl | ⟨b', z, rfl⟩
    · have := List.append_inj' e rfl
      obtain ⟨_, h⟩ := this
      cases h
      exact Or.inl h1
    · have e' : l ++ [x] = (a ++ y :: b') ++ [z] := by rw [e]; simp
      obtain ⟨h3, h4⟩ := List.append_inj' e' rfl
      cases h4
      exact Or.inr ⟨h2 x (by simp), a, y, b', h3, h1, fun w hw => h2 w (by simp [hw])⟩
  · rintro (h | ⟨h, a, y, b, rfl, h1, h2⟩)
    · exact ⟨l, x, [], rfl, h, fun y hy => by cases hy⟩
    · refine ⟨a, y, b ++ [x], by simp, h1, fun w hw => ?_⟩
      rcases List.mem_append.mp hw with hw | hw
      · exact h2 w hw
      · rw [List.mem_singleton.mp hw]; exact h

theorem snocRec {α : Type} {motive : List α → Prop} (l : List α) (nil : motive []) (snoc : ∀ l x, motive l → motive (l ++ [x])) : motive l := by
  have : ∀ k : List α, motive k.reverse := by
    intro k
    induction k with
    | nil => exact nil
    | cons x k ih => rw [List.reverse_cons]; exact snoc _ _ ih
  simpa using this l.reverse

/-- A fold whose steps each give at most one setting. -/
theorem fold_last {α : Type} (g : List (List Nat × List Nat) → α → List (List Nat × List Nat)) (R : List Nat → α → List Nat → Prop)
    (hg : ∀ c x n, (∀ v, R n x v → find (g c x) n = some v) ∧ ((∀ v, ¬ R n x v) → find (g c x) n = find c n)) (n v : List Nat) (l : List α) :
    find (l.foldl g []) n = some v ↔ Last (R n) l v := by
  induction l using snocRec generalizing v with
  | nil =>
    simp only [List.foldl_nil]
    constructor
    · intro h; cases h
    · rintro ⟨a, x, b, e, _⟩; cases a <;> cases e
  | snoc l x ih =>
    rw [List.foldl_append, List.foldl_cons, List.foldl_nil, last_append_singleton]
    obtain ⟨h1, h2⟩ := hg (l.foldl g []) x n
    by_cases h : ∃ v', R n x v'
    · obtain ⟨v', hv'⟩ := h
      rw [h1 v' hv']
      constructor
      · intro e; cases e; exact Or.inl hv'
      · rintro (h | ⟨h, _⟩)
        · rw [← h1 v' hv', h1 v h]
        · exact absurd hv' (h v')
    · have h' : ∀ v', ¬ R n x v' := fun v' e => h ⟨v', e⟩
      rw [h2 h', ih]
      exact ⟨fun e => Or.inr ⟨h', e⟩, fun e => e.elim (fun e => absurd e (h' v)) (·.2)⟩

theorem apply1_gives (c : List (List Nat × List Nat)) (l n : List Nat) :
    (∀ v, Setting l n v → find (apply1 true c l) n = some v) ∧ ((∀ v, ¬ Setting l n v) → find (apply1 true c l) n = find c n) := by
  unfold apply1
  constructor
  · intro v h
    rw [(parse0_iff l n v).mpr h]
    simp only [find_merge1, if_true]
  · intro h
    cases hp : parse0 l with
    | none => rfl
    | some p =>
      obtain ⟨m, w⟩ := p
      simp only [find_merge1]
      rw [if_neg]
      rintro rfl
      exact h w ((parse0_iff l n w).mp hp)

theorem assignment_iff (a n v : List Nat) : Assignment a n v ↔ a.head? ≠ some 45 ∧ 61 ∈ a ∧ n = a.takeWhile (· ≠ 61) ∧ v = (a.dropWhile (· ≠ 61)).tail := by
  constructor
  · rintro ⟨rfl, h1, h2⟩
    obtain ⟨t1, t2⟩ := takeWhile_append_cons (p := fun c => decide (c ≠ 61)) (a := n) (b := v) (c := 61)
      (fun x hx => by simp only [decide_eq_true_eq]; rintro rfl; exact h1 hx) (by simp)
    refine ⟨?_, by simp, t1.symm, by rw [t2]; rfl⟩
    cases n with
    | nil => simp
    | cons c r =>
      simp only [List.cons_append, List.head?_cons, ne_eq, Option.some.injEq]
      rintro rfl; exact h2 r rfl
  · rintro ⟨h1, h2, rfl, rfl⟩
    obtain ⟨p, f1, f2, f3⟩ := dropWhile_split (p := fun c => decide (c ≠ 61)) a
    cases hd : a.dropWhile (fun c => decide (c ≠ 61)) with
    | nil =>
      rw [hd, List.append_nil] at f1
      rw [f1] at h2
      have := f2 61 h2
      simp at this
    | cons c r =>
      have hc : c = 61 := by have := f3 c r hd; simpa using this
      subst hc
      rw [hd] at f1
      obtain ⟨t1, t2⟩ := takeWhile_append_cons (p := fun c => decide (c ≠ 61)) (b := r) (c := 61) f2 (by simp)
      have : a.takeWhile (fun c => decide (c ≠ 61)) = p := by rw [f1]; exact t1
      rw [this, List.tail_cons]
      refine ⟨f1, ?_, ?_⟩
      · intro hm; have := f2 61 hm; simp at this
      · rintro r' rfl
        apply h1; rw [f1]; rfl

theorem mergeLine_gives (c : List (List Nat × List Nat)) (a n : List Nat) :
    (∀ v, Assignment a n v → find (mergeLine true c a) n = some v) ∧ ((∀ v, ¬ Assignment a n v) → find (mergeLine true c a) n = find c n) := by
  unfold mergeLine
  constructor
  · intro v h
    obtain ⟨h1, h2, h3, h4⟩ := (assignment_iff a n v).mp h
    rw [if_neg h1, if_pos h2, find_merge1, if_pos h3, h4]
  · intro h
    split
    · rfl
    · split
      · rename_i h1 h2
        rw [find_merge1, if_neg]
        rintro rfl
        exact h _ ((assignment_iff a _ _).mpr ⟨h1, h2, rfl, rfl⟩)
      · rfl

def apply2 (c : List (List Nat × List Nat)) : Src → List (List Nat × List Nat)
  | .line l => apply1 true c l
  | .arg a => mergeLine true c a

theorem apply2_gives (c : List (List Nat × List Nat)) (x : Src) (n : List Nat) :
    (∀ v, Gives n x v → find (apply2 c x) n = some v) ∧ ((∀ v, ¬ Gives n x v) → find (apply2 c x) n = find c n) := by
  cases x with
  | line l => exact apply1_gives c l n
  | arg a => exact mergeLine_gives c a n

/-! Saving. -/

theorem put_new {c : List (List Nat × List Nat)} {n v : List Nat} (h : n ∉ c.map (·.1)) : put c n v = c ++ [(n, v)] := by
  induction c with
  | nil => rfl
  | cons p r ih =>
    obtain ⟨m, w⟩ := p
    simp only [List.map_cons, List.mem_cons, not_or] at h
    simp only [put, if_neg (fun e : m = n => h.1 e.symm), ih h.2, List.cons_append]

theorem plain_line {n v : List Nat} (h : Plain n v) : Line (n ++ [32] ++ v) ∧ Setting (n ++ [32] ++ v) n v := by
  obtain ⟨h1, h2, h3, h4, h5, h6, h7, h8⟩ := h
  refine ⟨⟨by simp [h2, h5], by simp [h3, h6], by simp; omega⟩, [], [], by simp, by simp, by simp, h1, h4, h7⟩

theorem load_entries : ∀ (c d : List (List Nat × List Nat)), (∀ p ∈ c, Plain p.1 p.2) → Distinct (d ++ c) →
    mergeFile true d (c.flatMap (fun p => cstr p.1 ++ [32] ++ cstr p.2 ++ [10])) = d ++ c
  | [], d, _, _ => by simp [mergeFile_nil]
  | p :: c, d, hp, hd => by
    obtain ⟨n, v⟩ := p
    have hpl := hp (n, v) List.mem_cons_self
    obtain ⟨hl, hs⟩ := plain_line hpl
    have hn : n ∉ d.map (·.1) := by
      intro hm
      unfold Distinct at hd
      rw [List.map_append, List.nodup_append] at hd
      exact hd.2.2 n hm n (by simp) rfl
    simp only [List.flatMap_cons]
    rw [cstr_self hpl.2.2.1, cstr_self hpl.2.2.2.2.2.1]
    have e := mergeFile_line true d (n ++ [32] ++ v) (c.flatMap (fun p => cstr p.1 ++ [32] ++ cstr p.2 ++ [10])) hl
    rw [show n ++ [32] ++ v ++ [10] ++ c.flatMap (fun p => cstr p.1 ++ [32] ++ cstr p.2 ++ [10]) =
      n ++ [32] ++ v ++ 10 :: c.flatMap (fun p => cstr p.1 ++ [32] ++ cstr p.2 ++ [10]) by simp, e]
    have ha : apply1 true d (n ++ [32] ++ v) = d ++ [(n, v)] := by
      unfold apply1
      rw [(parse0_iff _ n v).mpr hs]
      simp only [merge1, true_or, if_true]
      exact put_new hn
    rw [ha, load_entries c (d ++ [(n, v)]) (fun q hq => hp q (List.mem_cons_of_mem _ hq)) (by simpa using hd)]
    simp

/-! Numbers. -/

theorem fold_digits : ∀ (l : List Nat), ((l.reverse.map (· + 48)).foldl (fun a c => a * 10 + (c - 48)) 0) = Nat.ofDigits 10 l
  | [] => rfl
  | d :: l => by
    rw [List.reverse_cons, List.map_append, List.foldl_append, fold_digits l]
    simp [Nat.ofDigits_cons]
    omega

theorem digits_range (n : Nat) : ∀ x ∈ (Nat.digits 10 n).reverse.map (· + 48), 48 ≤ x ∧ x ≤ 57 := by
  intro x hx
  simp only [List.mem_map, List.mem_reverse] at hx
  obtain ⟨d, hd, rfl⟩ := hx
  have := Nat.digits_lt_base (by decide : 1 < 10) hd
  omega

theorem atoi_digits {l : List Nat} (neg : Bool) (h : ∀ x ∈ l, 48 ≤ x ∧ x ≤ 57) (hne : l ≠ []) :
    atoi ((if neg then [45] else []) ++ l) =
      (let n : Nat := l.foldl (fun a c => a * 10 + (c - 48)) 0
       let v : Int := if neg then -(n : Int) else n
       if -2147483648 ≤ v ∧ v ≤ 2147483647 then .ok v else .ub) := by
  have h0 : 0 ∉ ((if neg then [45] else []) ++ l) := by
    intro hm
    rcases List.mem_append.mp hm with hm | hm
    · cases neg <;> simp at hm
    · have := h 0 hm; omega
  obtain ⟨x, r, rfl⟩ := List.exists_cons_of_ne_nil hne
  have hx := h x List.mem_cons_self
  unfold atoi
  rw [cstr_self h0]
  have ht := takeWhile_all (l := x :: r) (p := fun c => decide (48 ≤ c ∧ c ≤ 57)) (fun y hy => by simpa using h y hy)
  cases neg with
  | true =>
    have e : (([45] ++ x :: r : List Nat)).dropWhile isSpace = 45 :: x :: r := rfl
    simp only [if_true, e, List.head?_cons, true_or, List.tail_cons, ht]
  | false =>
    have hs : isSpace x = false := by
      unfold isSpace; simp only [decide_eq_false_iff_not]; omega
    have e : (([] ++ x :: r : List Nat)).dropWhile isSpace = x :: r := by simp [hs]
    simp only [Bool.false_eq_true, if_false, e, List.head?_cons, Option.some.injEq, show ¬ x = 45 by omega, show ¬ x = 43 by omega, or_self, ht]

theorem atoi_showInt (v : Int) (h1 : -2147483648 ≤ v) (h2 : v ≤ 2147483647) : atoi (showInt v) = .ok v := by
  unfold showInt
  by_cases h0 : v = 0
  · subst h0; decide
  · rw [if_neg h0]
    have hne : (Nat.digits 10 v.natAbs).reverse.map (· + 48) ≠ [] := by
      simp only [ne_eq, List.map_eq_nil_iff, List.reverse_eq_nil_iff, Nat.digits_eq_nil_iff_eq_zero]
      omega
    have := atoi_digits (decide (v < 0)) (digits_range v.natAbs) hne
    simp only [decide_eq_true_eq] at this
    rw [this, fold_digits, Nat.ofDigits_digits]
    have e : (if v < 0 then -((v.natAbs : Nat) : Int) else ((v.natAbs : Nat) : Int)) = v := by split <;> omega
    rw [e, if_pos ⟨h1, h2⟩]

/-! Starting up. -/

theorem conf_eq : bytes ".conf" = dotConf := by decide
theorem octo_eq : bytes "octopussy.conf" = octopussyConf := by decide
theorem octo_eq' : bytes "/octopussy.conf" = 47 :: octopussyConf := by decide
theorem slash_eq : bytes "/" = [47] := by decide

theorem ends_conf (a : List Nat) : (a.length > 5 ∧ a.drop (a.length - 5) = dotConf) ↔ ∃ p, p ≠ [] ∧ a = p ++ bytes ".conf" := by
  rw [conf_eq]
  constructor
  · rintro ⟨h1, h2⟩
    refine ⟨a.take (a.length - 5), ?_, ?_⟩
    · intro e
      have := congrArg List.length e
      simp at this; omega
    · rw [← h2, List.take_append_drop]
  · rintro ⟨p, hp, rfl⟩
    have : 0 < p.length := List.length_pos_iff.mpr hp
    have hl : dotConf.length = 5 := rfl
    refine ⟨by rw [List.length_append, hl]; omega, ?_⟩
    rw [List.length_append, hl, Nat.add_sub_cancel, List.drop_left]

theorem localFile_spec (args : List (List Nat)) : LocalFile args (if localFile args = [] then [] else [localFile args]) := by
  have key : (localFile args = [] ∧ ∀ a ∈ args, ∀ p, p ≠ [] → a ≠ p ++ bytes ".conf") ∨
      (localFile args ≠ [] ∧ Last (fun a f => a = f ∧ ∃ p, p ≠ [] ∧ a = p ++ bytes ".conf") args (localFile args)) := by
    induction args using snocRec with
    | nil => left; exact ⟨rfl, fun a ha => by cases ha⟩
    | snoc l x ih =>
      have e : localFile (l ++ [x]) = if x.length > 5 ∧ x.drop (x.length - 5) = dotConf then x else localFile l := by
        unfold localFile; rw [List.foldl_append]; rfl
      rw [e]
      by_cases h : x.length > 5 ∧ x.drop (x.length - 5) = dotConf
      · rw [if_pos h]
        right
        refine ⟨by rintro rfl; simp at h, ?_⟩
        rw [last_append_singleton]
        exact Or.inl ⟨rfl, (ends_conf x).mp h⟩
      · rw [if_neg h]
        have hx : ∀ p, p ≠ [] → x ≠ p ++ bytes ".conf" := fun p hp e => h ((ends_conf x).mpr ⟨p, hp, e⟩)
        rcases ih with ⟨i1, i2⟩ | ⟨i1, i2⟩
        · left
          refine ⟨i1, fun a ha => ?_⟩
          rcases List.mem_append.mp ha with ha | ha
          · exact i2 a ha
          · rw [List.mem_singleton.mp ha]; exact hx
        · right
          refine ⟨i1, ?_⟩
          rw [last_append_singleton]
          exact Or.inr ⟨fun v e => by obtain ⟨_, p, hp, e⟩ := e; exact hx p hp e, i2⟩
  rcases key with ⟨h1, h2⟩ | ⟨h1, h2⟩
  · rw [if_pos h1]; exact Or.inl ⟨rfl, h2⟩
  · rw [if_neg h1]; exact Or.inr ⟨_, rfl, h2⟩

theorem last_unique {α β : Type} {R : α → β → Prop} (hR : ∀ x v w, R x v → R x w → v = w) {l : List α} {v w : β} (h1 : Last R l v) (h2 : Last R l w) : v = w := by
  induction l using snocRec with
  | nil => obtain ⟨a, x, b, e, _⟩ := h1; cases a <;> cases e
  | snoc l x ih =>
    rw [last_append_singleton] at h1 h2
    rcases h1 with h1 | ⟨n1, h1⟩
    · rcases h2 with h2 | ⟨n2, _⟩
      · exact hR x v w h1 h2
      · exact absurd h1 (n2 v)
    · rcases h2 with h2 | ⟨_, h2⟩
      · exact absurd h2 (n1 w)
      · exact ih h1 h2

theorem localFile_unique {args loc loc' : List (List Nat)} (h : LocalFile args loc) (h' : LocalFile args loc') : loc = loc' := by
  have no : ∀ f, (∀ a ∈ args, ∀ p, p ≠ [] → a ≠ p ++ bytes ".conf") →
      ¬ Last (fun a f => a = f ∧ ∃ p, p ≠ [] ∧ a = p ++ bytes ".conf") args f := by
    rintro f hn ⟨a, x, b, rfl, ⟨_, p, hp, e⟩, _⟩
    exact hn x (by simp) p hp e
  rcases h with ⟨rfl, h⟩ | ⟨f, rfl, h⟩ <;> rcases h' with ⟨rfl, h'⟩ | ⟨f', rfl, h'⟩
  · rfl
  · exact absurd h' (no f' h)
  · exact absurd h (no f h')
  · rw [last_unique (fun x v w h1 h2 => h1.1.symm.trans h2.1) h h']

theorem appName_eq {p prog : List Nat} (h : 47 ∉ prog) (hp : p = [] ∨ ∃ q, p = q ++ [47]) : appName (p ++ prog) = prog := by
  unfold appName
  have hr : ∀ x ∈ prog.reverse, decide (x ≠ 47) = true := by
    intro x hx
    simp only [decide_eq_true_eq]
    rintro rfl; exact h (List.mem_reverse.mp hx)
  rcases hp with rfl | ⟨q, rfl⟩
  · rw [List.nil_append, takeWhile_all hr, List.reverse_reverse]
  · have := (takeWhile_append_cons (p := fun c => decide (c ≠ 47)) (a := prog.reverse) (b := q.reverse) (c := 47) hr (by simp)).1
    have e : (q ++ [47] ++ prog).reverse = prog.reverse ++ 47 :: q.reverse := by simp
    rw [e, this, List.reverse_reverse]

theorem hostName_eq {h dom : List Nat} (h1 : 46 ∉ h) (hd : dom = [] ∨ ∃ r, dom = 46 :: r) : (h ++ dom).takeWhile (· ≠ 46) = h := by
  have hr : ∀ x ∈ h, decide (x ≠ 46) = true := by
    intro x hx
    simp only [decide_eq_true_eq]
    rintro rfl; exact h1 hx
  rcases hd with rfl | ⟨r, rfl⟩
  · rw [List.append_nil, takeWhile_all hr]
  · exact (takeWhile_append_cons hr (by simp)).1

theorem fileNames_eq {d dir h dom p prog : List Nat} {rest loc : List (List Nat)} (hd : d.getLast? ≠ some 47) (hdir : dir = d ∨ dir = d ++ [47])
    (h1 : 46 ∉ h) (hdom : dom = [] ∨ ∃ r, dom = 46 :: r) (h2 : 47 ∉ prog) (hp : p = [] ∨ ∃ q, p = q ++ [47])
    (hloc : LocalFile ((p ++ prog) :: rest) loc) : fileNames dir (h ++ dom) ((p ++ prog) :: rest) = Files d h prog loc := by
  have hL := localFile_unique (localFile_spec ((p ++ prog) :: rest)) hloc
  unfold fileNames Files
  have hd' : (if dir.getLast? = some 47 then dir else dir ++ [47]) = d ++ [47] := by
    rcases hdir with rfl | rfl
    · rw [if_neg hd]
    · rw [if_pos (by simp)]
  simp only [hd', hostName_eq h1 hdom, appName_eq h2 hp, hL, conf_eq, octo_eq, octo_eq', slash_eq]
  simp

theorem fold_files (fs : List Nat → Option (List Nat)) (text : List Nat → List (List Nat))
    (ht : ∀ f t, fs f = some t → IsText t (text f) ∧ ∀ l ∈ text f, Line l) : ∀ (names : List (List Nat)) (c : List (List Nat × List Nat)),
    names.foldl (fun c f => match fs f with | none => c | some t => mergeFile true c t) c =
      (names.flatMap (fun f => if (fs f).isSome then (text f).map Src.line else [])).foldl apply2 c
  | [], c => rfl
  | f :: names, c => by
    rw [List.foldl_cons, fold_files fs text ht names, List.flatMap_cons, List.foldl_append]
    congr 1
    cases hf : fs f with
    | none => rfl
    | some t =>
      obtain ⟨t1, t2⟩ := ht f t hf
      simp only [Option.isSome_some, if_true]
      rw [mergeFile_text true c t1 t2, List.foldl_map]
      rfl

theorem fold_args : ∀ (a : List (List Nat)) (c : List (List Nat × List Nat)), mergeLines true c a = (a.map Src.arg).foldl apply2 c
  | [], _ => rfl
  | x :: a, c => by
    have := fold_args a (mergeLine true c x)
    unfold mergeLines at this ⊢
    rw [List.foldl_cons, this]
    rfl

theorem go_iff (opt v : List Nat) : ∀ (l : List (List Nat)), getOption.go opt l = some v ↔
    ∃ a x b w, l = a ++ x :: b ∧ (∀ y ∈ a, ∀ z, y ≠ opt ++ z) ∧ x = opt ++ w ∧ (w ≠ [] → v = w) ∧
      (w = [] → (∀ y r, b = y :: r → v = y) ∧ (b = [] → v = []))
  | [] => by
    simp only [getOption.go]
    constructor
    · intro h; cases h
    · rintro ⟨a, x, b, w, e, _⟩; cases a <;> cases e
  | x :: l => by
    have hpre : x.take opt.length = opt ↔ ∃ w, x = opt ++ w := by
      constructor
      · intro h
        have e := List.take_append_drop opt.length x
        rw [h] at e
        exact ⟨_, e.symm⟩
      · rintro ⟨w, rfl⟩; simp
    simp only [getOption.go]
    by_cases h : x.take opt.length = opt
    · obtain ⟨w, rfl⟩ := hpre.mp h
      rw [if_pos h]
      constructor
      · intro e
        refine ⟨[], opt ++ w, l, w, rfl, (fun y hy => by cases hy), rfl, fun hw => ?_, fun hw => ?_⟩
        · have : 0 < w.length := List.length_pos_iff.mpr hw
          rw [if_pos (by rw [List.length_append]; omega), List.drop_left] at e
          cases e; rfl
        · subst hw
          rw [if_neg (by simp)] at e
          constructor
          · rintro y r rfl; cases e; rfl
          · rintro rfl; cases e; rfl
      · rintro ⟨a, y, b, w', e, h1, rfl, h3, h4⟩
        cases a with
        | cons z a =>
          simp only [List.cons_append, List.cons.injEq] at e
          exact absurd e.1.symm (h1 z List.mem_cons_self w)
        | nil =>
          simp only [List.nil_append, List.cons.injEq] at e
          obtain ⟨e1, rfl⟩ := e
          have := List.append_cancel_left e1
          subst this
          by_cases hw : w = []
          · subst hw
            rw [if_neg (by simp)]
            obtain ⟨q1, q2⟩ := h4 rfl
            cases l with
            | nil => rw [q2 rfl]
            | cons z l => rw [q1 z l rfl]
          · have : 0 < w.length := List.length_pos_iff.mpr hw
            rw [if_pos (by rw [List.length_append]; omega), List.drop_left, h3 hw]
    · rw [if_neg h, go_iff opt v l]
      constructor
      · rintro ⟨a, y, b, w, rfl, h1, h2⟩
        refine ⟨x :: a, y, b, w, rfl, fun z hz => ?_, h2⟩
        rcases List.mem_cons.mp hz with rfl | hz
        · exact fun w' e => h (hpre.mpr ⟨w', e⟩)
        · exact h1 z hz
      · rintro ⟨a, y, b, w, e, h1, h2⟩
        cases a with
        | nil =>
          simp only [List.nil_append, List.cons.injEq] at e
          exact absurd (hpre.mpr ⟨w, e.1.trans h2.1⟩) h
        | cons z a =>
          simp only [List.cons_append, List.cons.injEq] at e
          exact ⟨a, y, b, w, e.2, fun y hy => h1 y (List.mem_cons_of_mem _ hy), h2⟩

end Verif.Config
