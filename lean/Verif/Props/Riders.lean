import Verif.Proof.Riders
/-! # Riders (C166, C167) -/
namespace Verif.Riders
variable {σ G N K A : Type}

/-! ## C166: who performs which commands -/

/-- A node performs the commands addressed to it, in order, and nothing else. -/
theorem C166_commands [DecidableEq N] (h : σ → K → A → σ × Option Nat) (n : Target G N) (r : Rider G N K A) (s : σ)
    (hv : ∀ g ∈ n.groups, ∀ gr, r g = some gr → ∀ l, gr.byIndex ≠ some (.vec l)) (s' : σ) (o : Option Nat) :
    runRider h n r s = (s', o) ↔ Performs h (addressed n r) s s' o := by
  rw [show runRider h n r s = runCmds h (addressed n r) s from runGroups_eq n r n.groups s hv]
  constructor
  · intro e
    have := runCmds_performs (h := h) (addressed n r) s
    rw [e] at this
    exact this
  · intro p
    obtain ⟨a, b⟩ := performs_det _ s _ _ _ _ (runCmds_performs (h := h) (addressed n r) s) p
    exact Prod.ext a b

/-- If there are no commands for a node's groups, it does nothing. -/
theorem C166_none [DecidableEq N] (h : σ → K → A → σ × Option Nat) (n : Target G N) (r : Rider G N K A) (s : σ) (hg : ∀ g ∈ n.groups, r g = none) :
    runRider h n r s = (s, some 0) := by
  rw [C166_commands h n r s (fun g hg' gr e => by rw [hg g hg'] at e; cases e)]
  have : addressed n r = [] := by
    unfold addressed
    rw [List.flatMap_eq_nil_iff]
    intro g hg'
    rw [hg g hg']
  rw [this]
  exact .done

/-- A rider with one entry in a list. -/
def oneEntry [DecidableEq G] (g : G) (e : Entry N K A) : Rider G N K A := fun g' => if g' = g then some ⟨none, some [e], none⟩ else none

/-- Entries with lists of names or indices that are not empty are for the listed nodes only. -/
theorem C166_listed_partial [DecidableEq N] [DecidableEq G] (h : σ → K → A → σ × Option Nat) (n : Target G N) (g : G) (e : Entry N K A) (s : σ)
    (hl : (∃ x l, e.names = some (x :: l)) ∨ ∃ x l, e.indices = some (x :: l)) (hn : ¬ Listed n e) :
    runRider h n (oneEntry g e) s = (s, some 0) := by
  rw [C166_commands h n (oneEntry g e) s (fun g' _ gr e1 l => by
    unfold oneEntry at e1
    split at e1
    · injection e1 with e1; subst e1; simp
    · cases e1)]
  have : addressed n (oneEntry g e) = [] := by
    unfold addressed
    rw [List.flatMap_eq_nil_iff]
    intro g' _
    unfold oneEntry
    by_cases hg : g' = g
    · rw [if_pos hg]
      unfold inGroup firstFor
      have : ¬ (Listed n e ∨ NoList e) := by
        rintro (h1 | h1)
        · exact hn h1
        · rcases hl with ⟨x, l, h2⟩ | ⟨x, l, h2⟩
          · have := h1.1 _ h2; cases this
          · have := h1.2 _ h2; cases this
      simp [this]
    · rw [if_neg hg]
  rw [this]
  exact .done

/-- … whether they are empty or not. -/
def C166_full : Prop :=
  ∀ (σ G N K A : Type) [DecidableEq N] [DecidableEq G] (h : σ → K → A → σ × Option Nat) (n : Target G N) (g : G) (e : Entry N K A) (s : σ),
    e.names ≠ none ∨ e.indices ≠ none → ¬ Listed n e → runRider h n (oneEntry g e) s = (s, some 0)

/-- False: an entry with an empty list of names is for every node. -/
theorem C166_refuted : ¬ C166_full := by
  intro h
  have := h Nat Nat Nat Nat Nat (fun s _ a => (s + a, some 0)) ⟨[0], 5, 7⟩ 0 ⟨some [], none, [(1, some 10)]⟩ 100 (Or.inl (by simp))
    (by unfold Listed; simp)
  revert this
  decide +kernel

/-- The first of two entries counts; another group's commands, and those for another index, are not performed. -/
example : runRider (σ := List Nat) (fun s k (a : Nat) => (s ++ [k + a], some (1 <<< k))) (⟨[0, 3], 5, 7⟩ : Target Nat Nat)
    (fun g => if g = 0 then some ⟨some [(1, some 10)], some [⟨some [5], none, [(2, some 20)]⟩, ⟨none, none, [(3, some 30)]⟩], none⟩
      else if g = 3 then some ⟨none, none, some (.table [(6, [(4, some 40)]), (7, [(5, some 50)])])⟩
      else some ⟨some [(6, some 60)], none, none⟩) [] = ([11, 22, 55], some 38) := by decide +kernel

/-! ## C167: what is sent is what is performed -/

/-- Commands for all nodes of a group, in a new rider. -/
theorem C167_all [DecidableEq G] (f : Flags) (r : Option (Rider G N K A)) (g : G) (c : Cmds K A) (hf : f.newRider = true ∨ r = none) :
    ∃ r', editAll f r g (fun _ => c) = .ok r' ∧ (∀ g gr, r' g = some gr → ∀ l, gr.byIndex ≠ some (.vec l)) ∧
      ∀ n : Target G N, n.groups.Nodup → addressed n r' = if g ∈ n.groups then c else [] := by
  have hr : getRider f r = fun _ => none := by
    unfold getRider
    rcases hf with hf | hf <;> simp [hf]
  have hg : getGroup f (fun _ => none) g = (⟨none, none, none⟩ : Group N K A) := by unfold getGroup; split <;> rfl
  refine ⟨_, rfl, ?_, ?_⟩
  · intro g' gr e l
    simp only [hr, hg, setGroup] at e
    split at e
    · injection e with e; subst e; simp
    · cases e
  · intro n hn
    rw [← flatMap_only n.groups g c hn]
    unfold addressed
    congr 1
    funext g'
    simp only [hr, hg, setGroup]
    by_cases h : g' = g
    · simp [h, inGroup, firstFor]
    · simp [h]

/-- Commands for one node, in a new rider. -/
theorem C167_index [DecidableEq G] (f : Flags) (r : Option (Rider G N K A)) (g : G) (ni : Int) (c : Cmds K A) (hf : f.newRider = true ∨ r = none) :
    ∃ r', editIndex f r g ni c = .ok r' ∧ (∀ g gr, r' g = some gr → ∀ l, gr.byIndex ≠ some (.vec l)) ∧
      ∀ n : Target G N, n.groups.Nodup → addressed n r' = if g ∈ n.groups ∧ n.index = ni then c else [] := by
  have hr : getRider f r = fun _ => none := by
    unfold getRider
    rcases hf with hf | hf <;> simp [hf]
  have hg : getGroup f (fun _ => none) g = (⟨none, none, none⟩ : Group N K A) := by unfold getGroup; split <;> rfl
  have he : editIndex f r g ni c = .ok (setGroup (fun _ => none) g ⟨none, none, some (.table [(ni, c)])⟩) := by
    unfold editIndex
    simp only [hr, hg]
    cases f.any <;> rfl
  refine ⟨_, he, ?_, ?_⟩
  · intro g' gr e l
    unfold setGroup at e
    split at e
    · injection e with e; subst e; simp
    · cases e
  · intro n hn
    have : (if g ∈ n.groups ∧ n.index = ni then c else []) = if g ∈ n.groups then (if n.index = ni then c else []) else [] := by
      by_cases h1 : g ∈ n.groups <;> simp [h1]
    rw [this, ← flatMap_only n.groups g _ hn]
    unfold addressed
    congr 1
    funext g'
    unfold setGroup
    by_cases h : g' = g
    · by_cases h2 : n.index = ni
      · simp [h, inGroup, firstFor, atIndex, h2]
      · simp [h, inGroup, firstFor, atIndex, h2, List.lookup_cons, show (n.index == ni) = false by simpa using h2]
    · simp [h]

/-- Adding to a rider leaves other groups as they were, and what there is in the group, unless a flag asks for a new group; commands for
one index replace those for the same index only. -/
theorem C167_adds [DecidableEq G] (r : Rider G N K A) (g : G) (fn : Cmds K A → Cmds K A) (ni : Int) (c : Cmds K A) :
    (∃ r', editAll ⟨false, false, false⟩ (some r) g fn = .ok r' ∧ (∀ g' ≠ g, r' g' = r g') ∧
      ∃ gr', r' g = some gr' ∧ gr'.all = some (fn (((r g).bind (·.all)).getD [])) ∧ gr'.byList = (r g).bind (·.byList) ∧ gr'.byIndex = (r g).bind (·.byIndex)) ∧
    (∀ r', editIndex ⟨false, false, false⟩ (some r) g ni c = .ok r' → (∀ g' ≠ g, r' g' = r g') ∧
      ∃ gr', r' g = some gr' ∧ gr'.all = (r g).bind (·.all) ∧ gr'.byList = (r g).bind (·.byList) ∧ ∃ t', gr'.byIndex = some (.table t') ∧
        ∀ i, atIndex i t' = if i = ni then c else match (r g).bind (·.byIndex) with | some (.table t) => atIndex i t | _ => []) ∧
    (editIndex ⟨false, false, false⟩ (some r) g ni c = .err ↔ ∃ l, (r g).bind (·.byIndex) = some (.vec l)) := by
  have hgr : getGroup ⟨false, false, false⟩ (getRider ⟨false, false, false⟩ (some r)) g = (r g).getD ⟨none, none, none⟩ := rfl
  have hrr : getRider ⟨false, false, false⟩ (some r) = r := rfl
  have hgr' : getGroup ⟨false, false, false⟩ r g = (r g).getD ⟨none, none, none⟩ := rfl
  have ha : ((r g).getD ⟨none, none, none⟩).all = (r g).bind (·.all) := by cases r g <;> rfl
  have hb : ((r g).getD ⟨none, none, none⟩).byList = (r g).bind (·.byList) := by cases r g <;> rfl
  have hc : ((r g).getD ⟨none, none, none⟩).byIndex = (r g).bind (·.byIndex) := by cases r g <;> rfl
  have hlk : ∀ (t : List (Int × Cmds K A)) (i : Int), i ≠ ni → atIndex i ((ni, c) :: t.filter fun e => e.1 != ni) = atIndex i t := by
    intro t i hi
    unfold atIndex
    rw [List.lookup_cons, show (i == ni) = false by simpa using hi]
    dsimp only
    congr 1
    induction t with
    | nil => rfl
    | cons e t ih =>
      obtain ⟨k, x⟩ := e
      by_cases hk : k = ni
      · subst hk
        rw [List.filter_cons, List.lookup_cons, show (i == k) = false by simpa using hi]
        simpa using ih
      · rw [List.filter_cons, if_pos (by simpa using hk), List.lookup_cons, List.lookup_cons, ih]
  refine ⟨⟨_, rfl, fun g' hg => by simp [setGroup, hg, hrr], _, if_pos rfl, ?_, ?_, ?_⟩, ?_, ?_⟩
  · rw [hgr, ha]; rfl
  · rw [hgr, hb]
  · rw [hgr, hc]
  · intro r' h
    unfold editIndex at h
    simp only [hrr, hgr', Flags.any, Bool.or_self, Bool.false_eq_true, if_false] at h
    rw [hc] at h
    cases hx : (r g).bind (·.byIndex) with
    | none =>
      rw [hx] at h
      injection h with h
      subst h
      refine ⟨fun g' hg => by simp [setGroup, hg], _, if_pos rfl, ha, hb, _, rfl, fun i => ?_⟩
      by_cases hi : i = ni
      · simp [hi, atIndex]
      · simp [hi, atIndex, List.lookup_cons, show (i == ni) = false by simpa using hi]
    | some x =>
      rw [hx] at h
      cases x with
      | vec l => cases h
      | table t =>
        injection h with h
        subst h
        refine ⟨fun g' hg => by simp [setGroup, hg], _, if_pos rfl, ha, hb, _, rfl, fun i => ?_⟩
        by_cases hi : i = ni
        · simp [hi, atIndex]
        · rw [if_neg hi]; exact hlk t i hi
  · unfold editIndex
    simp only [hrr, hgr', Flags.any, Bool.or_self, Bool.false_eq_true, if_false]
    rw [hc]
    cases hx : (r g).bind (·.byIndex) with
    | none => simp
    | some x => cases x <;> simp

/-- With a new record for the group (what the solver asks for), the commands are the only ones for the group; other groups stay. -/
theorem C167_new_group [DecidableEq G] (r : Rider G N K A) (g : G) (nc : Bool) (ni : Int) (c : Cmds K A) :
    ∃ r', editIndex ⟨false, true, nc⟩ (some r) g ni c = .ok r' ∧ (∀ g' ≠ g, r' g' = r g') ∧ ∃ gr', r' g = some gr' ∧
      ∀ n : Target G N, inGroup n gr' = if n.index = ni then c else [] := by
  refine ⟨setGroup r g ⟨none, none, some (.table [(ni, c)])⟩, rfl, fun g' hg => by simp [setGroup, hg], _, if_pos rfl, fun n => ?_⟩
  by_cases h : n.index = ni
  · simp [inGroup, firstFor, atIndex, h]
  · simp [inGroup, firstFor, atIndex, h, List.lookup_cons, show (n.index == ni) = false by simpa using h]

/-- An entry added to the list of a group is performed by the nodes it lists. -/
def C167_full : Prop :=
  ∀ (σ G N K A : Type) [DecidableEq N] [DecidableEq G] (h : σ → K → A → σ × Option Nat) (n : Target G N) (g : G) (e : Entry N K A) (s : σ) (r : Rider G N K A),
    n.groups = [g] → Listed n e → editList ⟨true, false, false⟩ none g e = .ok r → runRider h n r s = runCmds h e.cmds s

/-- False: the list is stored as `command_by_nodeindex`, where a node expects a record: an exception. -/
theorem C167_refuted : ¬ C167_full := by
  intro h
  have := h Nat Nat Nat Nat Nat (fun s _ a => (s + a, some 0)) ⟨[0], 5, 7⟩ 0 ⟨some [5], none, [(1, some 10)]⟩ 100 _ rfl
    (Or.inl ⟨_, rfl, by simp⟩) rfl
  revert this
  decide +kernel

/-- … for every node of the group, whatever else there is for it. -/
theorem C167_list_throws [DecidableEq N] [DecidableEq G] (h : σ → K → A → σ × Option Nat) (n : Target G N) (f : Flags) (r0 : Option (Rider G N K A)) (g : G)
    (e : Entry N K A) (s : σ) (r : Rider G N K A) (hg : g ∈ n.groups) (hr : editList f r0 g e = .ok r) : (runRider h n r s).2 = none := by
  have hx : ∃ gr l, r g = some gr ∧ gr.byIndex = some (.vec l) := by
    unfold editList at hr
    dsimp only at hr
    split at hr
    · cases hr
    · injection hr with hr; subst hr; exact ⟨_, _, if_pos rfl, rfl⟩
    · injection hr with hr; subst hr; exact ⟨_, _, if_pos rfl, rfl⟩
  obtain ⟨gr, l, h1, h2⟩ := hx
  have hand : ∀ (a : σ × Option Nat) (k : σ → σ × Option Nat), (a.2 = none ∨ ∀ s, (k s).2 = none) → (andThen a k).2 = none := by
    intro a k hk
    unfold andThen
    cases ha : a.2 with
    | none => rfl
    | some c =>
      rcases hk with hk | hk
      · rw [ha] at hk; cases hk
      · dsimp only; rw [hk]; rfl
  have hgrp : ∀ s, (runGroup h n gr s).2 = none := by
    intro s
    unfold runGroup
    refine hand _ _ (Or.inr fun s => hand _ _ (Or.inr fun s => ?_))
    rw [h2]; rfl
  unfold runRider
  generalize hgs : n.groups = gs at hg
  clear hgs
  induction gs generalizing s with
  | nil => cases hg
  | cons a l ih =>
    unfold runGroups
    rcases List.mem_cons.1 hg with rfl | hg
    · refine hand _ _ (Or.inl ?_)
      rw [h1]
      exact hgrp s
    · exact hand _ _ (Or.inr fun s => ih s hg)

/-- Commands for index 7 of group 3 are performed by that node and not by one with index 8. -/
example : ∃ r, editIndex (N := Nat) ⟨true, false, false⟩ none 3 7 [(1, some 10)] = .ok r ∧
    runRider (σ := Nat) (fun s _ a => (s + a, some 4)) (⟨[0, 3], 5, 7⟩ : Target Nat Nat) r 100 = (110, some 4) ∧
    runRider (σ := Nat) (fun s _ a => (s + a, some 4)) (⟨[0, 3], 5, 8⟩ : Target Nat Nat) r 100 = (100, some 0) :=
  ⟨_, rfl, by decide +kernel, by decide +kernel⟩

end Verif.Riders
