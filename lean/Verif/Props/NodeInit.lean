import Verif.Spec.NodeInit
import Verif.Proof.NodeInit
/-!
# Properties of the creation of nodes: C205, C206, C207
-/
namespace Verif.NodeInit

/-! ## C205: a node's children are those that its record names -/

/-- A record is accepted just if its name and its index are free and its children are as its class asks, and each child is then the node that was
named for it. Missing: two fields for the same child. -/
theorem C205_partial (f : Forest) (s : Spec) (mn : Nat) (mx : Option Nat) (ht : Takes s.cls mn mx) (hs : Single s.cls.labels s.kids) :
    ((∃ i n, make f s = .ok (i, n)) ↔ Legal s ∧ (s.name = [] ∨ ∀ (i : Nat) (n : Node), f.nodes[i]? = some (some n) → n.name ≠ s.name) ∧
      (0 < s.index → ∀ n, f.nodes[s.index.toNat]? ≠ some (some n))) ∧
    (∀ i n, make f s = .ok (i, n) → (∀ k j : Nat, n.childIdx[k]? = some (j : Int) ↔ Names s.cls.labels s.kids k j) ∧ n.name = s.name ∧
      n.stepIdx = s.step ∧ n.parentIdx = s.parents ∧ ((0 < s.index ∧ i = s.index.toNat) ∨ (s.index ≤ 0 ∧ i = f.nodes.length))) := by
  refine ⟨make_iff ht hs, fun i n h => ?_⟩
  obtain ⟨⟨a1, _, ⟨mn', mx', ha⟩, a4, a5, _⟩, _, a3⟩ := make_ok ht h
  exact ⟨attach_names (lim := ⟨mn', mx', s.cls.labels⟩) hs ha, a1, a4, a5, a3⟩

/-- The full claim: fields for the same child are refused. -/
def C205_full : Prop :=
  ∀ (f : Forest) (s : Spec) (l : List (List Int × Int)), s.kids = .fields l → ¬ Single s.cls.labels s.kids → ∀ i n, make f s ≠ .ok (i, n)

/-- A class with labels for its two children. -/
def two : Cls := ⟨2, [[-10], [-11]], -1⟩

/-- A class with labels for its two children that takes more. -/
def more : Cls := ⟨-3, [[-10], [-11]], -1⟩

/-- Children by label, and one of them by number as well: the last one is taken. -/
theorem C205_refuted : ¬ C205_full := by
  intro h
  have := h empty ⟨more, [1], 1, .fields [([-10], 5), ([-11], 6), ([0], 7)], [], [], true⟩ _ rfl (by
    intro hs
    simp only [Single, List.pairwise_cons] at hs
    exact hs.1 ([0], 7) (by simp) 0 (Or.inl ⟨rfl, by
      intro j hj
      match j, hj with
      | 1, _ => decide
      | j + 2, _ => simp [more]⟩) (Or.inr ⟨by decide, rfl⟩))
    1 ⟨[1], [[-10], [-11]], [7, 6, -1], [], [], true, [], [], [], [], true⟩
  exact this (by decide)

theorem C205_two : Takes two 2 (some 2) := ⟨2, by decide⟩

example : Legal ⟨two, [1], 1, .vector [5, 6], [], [], true⟩ :=
  ⟨2, some 2, C205_two, fun k hk => by
    match k, hk with
    | 0, _ => exact ⟨5, rfl⟩
    | 1, _ => exact ⟨6, rfl⟩, by intro m hm; cases hm; decide⟩

/-! ## C206: a batch of nodes -/

/-- If a batch on an empty forest ends without errors then there is a node for each record, at its index, and it is what the record asks for; there
are no others. Missing: forests that are not empty. -/
theorem C206_partial (l : List Spec) (f : Forest) (ht : ∀ s ∈ l, ∃ mn mx, Takes s.cls mn mx) (hs : ∀ s ∈ l, Single s.cls.labels s.kids)
    (h : batch empty l = .ok f) (he : f.errors = 0) :
    (∀ s ∈ l, ∃ (i : Nat) (n : Node), f.nodes[i]? = some (some n) ∧ (0 < s.index → i = s.index.toNat) ∧ Right f s n) ∧
    (∀ (i : Nat) (n : Node), f.nodes[i]? = some (some n) → ∃ s ∈ l, Right f s n) := by
  unfold batch at h
  rw [Res.bind_eq_ok] at h
  obtain ⟨f1, h1, h⟩ := h
  split at h
  · rename_i he1
    obtain ⟨_, b2, b3⟩ := batch_nodes ht hs h1 he1 h
    obtain ⟨_, nf⟩ := no_fails h he
    obtain ⟨i1, _, _⟩ := initAll_ok h
    have hR : ∀ (i : Nat) (n : Node), f.nodes[i]? = some (some n) → ∃ s ∈ l, Right f s n := by
      intro i n hn
      obtain ⟨s, n0, hsl, hm, hn0, rfl⟩ := b3 i n hn
      have hfr := initNode_fresh (nodes := f1.nodes) hm.2.2.2.2.2.2
      have hok := nf i n0 hn0
      rw [hfr.2 hok]
      exact ⟨s, hsl, right_done i1 hm (hs s hsl) (hfr.1.mp hok)⟩
    refine ⟨fun s hsl => ?_, hR⟩
    obtain ⟨i, n, g1, _, g3, g4, g5⟩ := b2 s hsl
    refine ⟨i, n, g1, g3, ?_⟩
    by_cases hE : RefsExist f s
    · exact g4 hE
    · obtain ⟨s', _, hr'⟩ := hR i n g1
      have := hr'.active
      rw [g5 hE] at this; cases this
  · rename_i he1
    cases h
    exact absurd he he1

/-- And records with distinct indices and names, whose children are as their classes ask and among the records, make a batch without errors. -/
theorem C206_accepts (l : List Spec) (hl : ∀ s ∈ l, Legal s ∧ Single s.cls.labels s.kids ∧ 0 < s.index)
    (hp : l.Pairwise (fun s t => s.index ≠ t.index ∧ (s.name = [] ∨ s.name ≠ t.name)))
    (hr : ∀ s ∈ l, (∀ k j, Names s.cls.labels s.kids k j → ∃ t ∈ l, t.index = j) ∧ (∀ i ∈ s.step, ∃ t ∈ l, t.index = i) ∧
      (∀ i ∈ s.parents, ∃ t ∈ l, t.index = i) ∧ s.settings = true) : ∃ f, batch empty l = .ok f ∧ f.errors = 0 :=
  batch_good hl hp hr

/-- After a batch with children a further batch, whatever is in it, always ends with errors: nodes are initialised again, and their children are
already there. -/
theorem C206_again (l l' : List Spec) (f f' : Forest) (ht : ∀ s ∈ l, ∃ mn mx, Takes s.cls mn mx) (hs : ∀ s ∈ l, Single s.cls.labels s.kids)
    (ht' : ∀ s ∈ l', ∃ mn mx, Takes s.cls mn mx) (h : batch empty l = .ok f) (he : f.errors = 0) (h' : batch f l' = .ok f')
    (i k j : Nat) (n : Node) (hn : f.nodes[i]? = some (some n)) (hk : n.kids[k]? = some (some j) ∨ n.steps[k]? = some (some j)) :
    f'.errors ≠ 0 ∧ (∀ g, createAll f l' = .ok g → g.errors = 0 → ∃ n', f'.nodes[i]? = some (some n') ∧ n'.active = false) := by
  unfold batch at h
  rw [Res.bind_eq_ok] at h
  obtain ⟨f1, h1, h⟩ := h
  split at h
  case isFalse he1 => cases h; exact absurd he he1
  rename_i he1
  obtain ⟨z, _, b3⟩ := batch_nodes ht hs h1 he1 h
  obtain ⟨_, nf⟩ := no_fails h he
  obtain ⟨s, n0, _, hm, hn0, rfl⟩ := b3 i n hn
  rw [(initNode_fresh (nodes := f1.nodes) hm.2.2.2.2.2.2).2 (nf i n0 hn0)] at hn hk
  unfold batch at h'
  rw [Res.bind_eq_ok] at h'
  obtain ⟨g, h2, h'⟩ := h'
  obtain ⟨_, _, _, c4⟩ := createAll_ok l' f g ht' z h2
  split at h'
  · rename_i hg
    have hgn := c4 i _ hn
    have hfail := again_fails (nodes := g.nodes) hk
    obtain ⟨_, a2, _⟩ := initAll_ok h'
    refine ⟨fun h0 => hfail ((no_fails h' h0).2 i _ hgn), fun g' hg' _ => ⟨_, a2 i _ hgn, initNode_fails hfail⟩⟩
  · rename_i hg
    cases h'
    refine ⟨hg, fun g' hg' he' => ?_⟩
    rw [h2] at hg'
    cases hg'
    exact absurd he' hg

/-- The full claim: after a batch without errors nodes without children, names or indices can be added. -/
def C206_full : Prop :=
  ∀ (l l' : List Spec) (f f' : Forest), batch empty l = .ok f → f.errors = 0 →
    (∀ s ∈ l', s.cls = ⟨-1, [], -1⟩ ∧ s.kids = .absent ∧ s.step = [] ∧ s.parents = [] ∧ s.name = [] ∧ s.index = 0 ∧ s.settings = true) →
    batch f l' = .ok f' → f'.errors = 0

/-- A node with any number of children. -/
def any : Cls := ⟨-1, [], -1⟩

/-- Two nodes and a parent. -/
def three : List Spec :=
  [⟨two, [1], 1, .fields [([-11], 3), ([-10], 2)], [], [], true⟩, ⟨any, [2], 2, .absent, [], [], true⟩, ⟨any, [3], 3, .vector [2], [2], [1], true⟩]

theorem C206_refuted : ¬ C206_full := by
  intro h
  exact absurd (h three [⟨any, [], 0, .absent, [], [], true⟩] _ _ rfl (by decide) (by decide) rfl) (by decide)

theorem C206_any : Takes any 0 none := ⟨0, by decide⟩

example : ∃ f, batch empty three = .ok f ∧ f.errors = 0 ∧ ((f.nodes[1]?).any (fun o => o.any (fun n => n.kids = [some 2, some 3])) = true) :=
  ⟨_, rfl, by decide, by decide⟩

example : ∀ s ∈ three, ∃ mn mx, Takes s.cls mn mx := by
  intro s hs
  simp only [three, List.mem_cons, List.not_mem_nil, or_false] at hs
  rcases hs with rfl | rfl | rfl
  · exact ⟨_, _, C205_two⟩
  · exact ⟨_, _, C206_any⟩
  · exact ⟨_, _, C206_any⟩

/-! ## C207: a node that cannot be set up does not keep others from being set up -/

/-- If all records of a batch are accepted, then each node whose references exist and whose settings are accepted is what its record asks for, every
other node is inactive, and the number of errors is that of inactive nodes. Missing: that there is a result. -/
theorem C207_partial (l : List Spec) (f1 f : Forest) (ht : ∀ s ∈ l, ∃ mn mx, Takes s.cls mn mx) (hs : ∀ s ∈ l, Single s.cls.labels s.kids)
    (h1 : createAll empty l = .ok f1) (he : f1.errors = 0) (h : batch empty l = .ok f) :
    (∀ s ∈ l, ∃ (i : Nat) (n : Node), f.nodes[i]? = some (some n) ∧ n.name = s.name ∧ (0 < s.index → i = s.index.toNat) ∧
      (RefsExist f s → Right f s n) ∧ (¬ RefsExist f s → n.active = false)) ∧
    f.errors = ((List.range f.nodes.length).filter (fun i => (f.nodes[i]?).any (fun o => o.any (fun n => !n.active)))).length := by
  unfold batch at h
  rw [h1] at h
  simp only [Res.ok_bind] at h
  rw [if_pos he] at h
  obtain ⟨_, b2, _⟩ := batch_nodes ht hs h1 he h
  exact ⟨b2, errors_inactive ht hs h1 he h⟩

/-- A record that is refused is counted, leaves the forest as it is, and no node is initialised. -/
theorem C207_refused (f : Forest) (s : Spec) (mn : Nat) (mx : Option Nat) (ht : Takes s.cls mn mx) (hs : Single s.cls.labels s.kids)
    (hr : ¬ Legal s ∨ (s.name ≠ [] ∧ ∃ (i : Nat) (n : Node), f.nodes[i]? = some (some n) ∧ n.name = s.name) ∨
      (0 < s.index ∧ ∃ n, f.nodes[s.index.toNat]? = some (some n))) :
    create f s = .ok ⟨f.nodes, f.errors + 1⟩ ∧ batch f [s] = .ok ⟨f.nodes, f.errors + 1⟩ := by
  have hno : ¬ ∃ i n, make f s = .ok (i, n) := by
    rw [make_iff ht hs]
    rintro ⟨h1, h2, h3⟩
    rcases hr with h | ⟨h, i, n, hi, hn⟩ | ⟨h, n, hn⟩
    · exact h h1
    · rcases h2 with h2 | h2
      · exact h h2
      · exact h2 i n hi hn
    · exact h3 h n hn
  have hub : make f s ≠ .ub := by
    unfold make
    rw [limits_eq ht]
    split
    · simp
    · simp only [Res.ok_bind]
      have ha := attach_not_ub ⟨mn, mx, s.cls.labels⟩ s.kids
      split
      · split
        · simp
        · simp only [Res.ok_bind]
          cases hv : attach ⟨mn, mx, s.cls.labels⟩ s.kids with
          | ok v => simp
          | err => simp
          | ub => exact absurd hv ha
      · cases hv : attach ⟨mn, mx, s.cls.labels⟩ s.kids with
        | ok v => simp
        | err => simp
        | ub => exact absurd hv ha
  have hc : create f s = .ok ⟨f.nodes, f.errors + 1⟩ := by
    unfold create
    cases hm : make f s with
    | ok p => exact absurd ⟨p.1, p.2, hm⟩ hno
    | err => rfl
    | ub => exact absurd hm hub
  refine ⟨hc, ?_⟩
  unfold batch createAll
  rw [hc]
  simp [createAll]

/-- The full claim: a batch of accepted records has a result. -/
def C207_full : Prop :=
  ∀ (l : List Spec) (f1 : Forest), (∀ s ∈ l, ∃ mn mx, Takes s.cls mn mx) → createAll empty l = .ok f1 → f1.errors = 0 → ∃ f, batch empty l = .ok f

/-- A node whose child is one beyond the last: `get` reads beyond the end of the table. -/
theorem C207_refuted : ¬ C207_full := by
  intro h
  obtain ⟨f, hf⟩ := h [⟨any, [1], 1, .vector [2], [], [], true⟩] _ (by
    intro s hs
    simp only [List.mem_singleton] at hs
    subst hs
    exact ⟨_, _, C206_any⟩) rfl (by decide)
  have : batch empty [⟨any, [1], 1, .vector [2], [], [], true⟩] = .ub := by decide
  rw [this] at hf
  cases hf

example : ∃ f, batch empty (⟨any, [4], 4, .vector [9], [], [], true⟩ :: three) = .ok f ∧ f.errors = 1 ∧
    ((f.nodes[4]?).any (fun o => o.any (fun n => n.active)) = false) := ⟨_, rfl, by decide, by decide⟩

end Verif.NodeInit
