import Verif.Spec.NodeInit
import Mathlib.Data.List.Perm.Subperm
/-!
# Proofs about the creation of nodes
-/
namespace Verif.NodeInit

/-! Labels. -/

theorem lastIndex_spec (l : List Int) : ∀ (xs : List (List Int)) (i : Nat) (r : Option Nat) (k : Nat),
    lastIndex l xs i r = some k ↔ (∃ j, k = i + j ∧ xs[j]? = some l ∧ ∀ j', j < j' → xs[j']? ≠ some l) ∨ (l ∉ xs ∧ r = some k)
  | [], i, r, k => by simp [lastIndex]
  | x :: xs, i, r, k => by
    rw [lastIndex, lastIndex_spec l xs]
    constructor
    · rintro (⟨j, rfl, h1, h2⟩ | ⟨h1, h2⟩)
      · refine Or.inl ⟨j + 1, by omega, by simpa using h1, fun j' hj => ?_⟩
        cases j' with
        | zero => omega
        | succ j' => simpa using h2 j' (by omega)
      · by_cases e : x = l
        · rw [if_pos e] at h2
          cases h2
          refine Or.inl ⟨0, by omega, by simp [e], fun j' hj => ?_⟩
          cases j' with
          | zero => omega
          | succ j' =>
            rw [List.getElem?_cons_succ]
            exact fun h => h1 (List.mem_of_getElem? h)
        · rw [if_neg e] at h2
          exact Or.inr ⟨fun h => by rcases List.mem_cons.mp h with rfl | h; exacts [e rfl, h1 h], h2⟩
    · rintro (⟨j, rfl, h1, h2⟩ | ⟨h1, h2⟩)
      · cases j with
        | zero =>
          simp only [List.getElem?_cons_zero, Option.some.injEq] at h1
          refine Or.inr ⟨fun h => ?_, by rw [if_pos h1]; simp⟩
          obtain ⟨j', hj'⟩ := List.getElem?_of_mem h
          exact h2 (j' + 1) (by omega) (by simpa using hj')
        | succ j =>
          refine Or.inl ⟨j, by omega, by simpa using h1, fun j' hj => ?_⟩
          have := h2 (j' + 1) (by omega)
          simpa using this
      · refine Or.inr ⟨fun h => h1 (List.mem_cons_of_mem _ h), ?_⟩
        rw [if_neg (fun e => h1 (by rw [e]; exact List.mem_cons_self)), h2]

theorem lastIndex_none (l : List Int) (xs : List (List Int)) (i : Nat) (r : Option Nat) : lastIndex l xs i r = none ↔ l ∉ xs ∧ r = none := by
  induction xs generalizing i r with
  | nil => simp [lastIndex]
  | cons x xs ih =>
    rw [lastIndex, ih]
    by_cases e : x = l
    · simp [e]
    · simp only [if_neg e, List.mem_cons, not_or]
      exact ⟨fun ⟨a, b⟩ => ⟨⟨fun h => e h.symm, a⟩, b⟩, fun ⟨⟨_, a⟩, b⟩ => ⟨a, b⟩⟩

theorem label_means (labels : List (List Int)) (l : List Int) (k : Nat) : labelToNumber labels l = some k ↔ Means labels l k := by
  unfold labelToNumber Means
  cases h : lastIndex l labels 0 none with
  | some i =>
    rcases (lastIndex_spec l labels 0 none i).mp h with ⟨j, e, h1, h2⟩ | ⟨_, h2⟩
    · obtain rfl : i = j := by omega
      simp only [Option.some.injEq]
      constructor
      · rintro rfl; exact Or.inl ⟨h1, h2⟩
      · rintro (⟨g1, g2⟩ | ⟨g1, _⟩)
        · rcases Nat.lt_trichotomy i k with hlt | e | hlt
          · exact absurd g1 (h2 k hlt)
          · exact e
          · exact absurd h1 (g2 i hlt)
        · exact absurd (List.mem_of_getElem? h1) g1
    · cases h2
  | none =>
    have hn := ((lastIndex_none l labels 0 none).mp h).1
    constructor
    · intro e
      right
      refine ⟨hn, ?_⟩
      match l with
      | [] => cases e
      | [a] =>
        simp only at e
        by_cases ha : 0 ≤ a
        · rw [if_pos ha] at e; cases e; rw [Int.toNat_of_nonneg ha]
        · rw [if_neg ha] at e; cases e
      | _ :: _ :: _ => cases e
    · rintro (⟨g1, _⟩ | ⟨_, rfl⟩)
      · exact absurd (List.mem_of_getElem? g1) hn
      · simp

theorem means_unique {labels : List (List Int)} {l : List Int} {k k' : Nat} (h : Means labels l k) (h' : Means labels l k') : k = k' := by
  have a := (label_means labels l k).mpr h
  have b := (label_means labels l k').mpr h'
  rw [a] at b; cases b; rfl

/-! The vector of indices. -/

theorem grow_length (n : Nat) (v : List Int) : (grow n v).length = max n v.length := by
  unfold grow; rw [List.length_append, List.length_replicate]; omega

theorem grow_get (n : Nat) (v : List Int) (k : Nat) (i : Int) (hi : 0 ≤ i) : (grow n v)[k]? = some i ↔ v[k]? = some i := by
  unfold grow
  rw [List.getElem?_append]
  split
  · rfl
  · rename_i h
    rw [List.getElem?_eq_none (by omega : v.length ≤ k)]
    constructor
    · intro e
      have := List.mem_of_getElem? e
      have := (List.mem_replicate.mp this).2
      omega
    · intro e; cases e

theorem fill_get (labels : List (List Int)) : ∀ (l : List (List Int × Int)) (v w : List Int), Single labels (.fields l) → fill labels l v = .ok w →
    ∀ (k : Nat) (i : Int), 0 ≤ i → (w[k]? = some i ↔ (∃ lab, (lab, i) ∈ l ∧ Means labels lab k) ∨
      (v[k]? = some i ∧ ∀ p ∈ l, ¬ Means labels p.1 k))
  | [], v, w, _, h, k, i, hi => by
    simp only [fill, Res.ok.injEq] at h
    subst h; simp
  | (lab, j) :: r, v, w, hs, h, k, i, hi => by
    obtain ⟨hs1, hs2⟩ := List.pairwise_cons.mp hs
    unfold fill at h
    cases hl : labelToNumber labels lab with
    | none => rw [hl] at h; cases h
    | some m =>
      rw [hl] at h
      have hm := (label_means labels lab m).mp hl
      rw [fill_get labels r _ w hs2 h k i hi, List.getElem?_set]
      have hlen : m < (grow (m + 1) v).length := by rw [grow_length]; omega
      constructor
      · rintro (⟨lab', h1, h2⟩ | ⟨h1, h2⟩)
        · exact Or.inl ⟨lab', List.mem_cons_of_mem _ h1, h2⟩
        · split at h1
          · rename_i e
            subst e
            cases h1
            exact Or.inl ⟨lab, List.mem_cons_self, hm⟩
          · rename_i e
            rw [grow_get _ _ _ _ hi] at h1
            refine Or.inr ⟨h1, fun p hp => ?_⟩
            rcases List.mem_cons.mp hp with rfl | hp
            · exact fun hk => e (means_unique hm hk)
            · exact h2 p hp
      · rintro (⟨lab', h1, h2⟩ | ⟨h1, h2⟩)
        · rcases List.mem_cons.mp h1 with e | h1
          · cases e
            obtain rfl := means_unique hm h2
            right
            rw [if_pos rfl, if_pos hlen]
            exact ⟨rfl, fun p hp => hs1 p hp m hm⟩
          · exact Or.inl ⟨lab', h1, h2⟩
        · right
          have e : m ≠ k := by rintro rfl; exact h2 _ List.mem_cons_self hm
          rw [if_neg e, grow_get _ _ _ _ hi]
          exact ⟨h1, fun p hp => h2 p (List.mem_cons_of_mem _ hp)⟩

theorem fill_ok (labels : List (List Int)) : ∀ (l : List (List Int × Int)) (v : List Int),
    (∃ w, fill labels l v = .ok w) ↔ ∀ p ∈ l, ∃ k, Means labels p.1 k
  | [], v => by simp [fill]
  | (lab, j) :: r, v => by
    unfold fill
    cases hl : labelToNumber labels lab with
    | none =>
      constructor
      · rintro ⟨w, h⟩; cases h
      · intro h
        obtain ⟨k, hk⟩ := h _ List.mem_cons_self
        rw [(label_means labels lab k).mpr hk] at hl; cases hl
    | some m =>
      simp only
      rw [fill_ok labels r]
      constructor
      · intro h p hp
        rcases List.mem_cons.mp hp with rfl | hp
        · exact ⟨m, (label_means labels lab m).mp hl⟩
        · exact h p hp
      · exact fun h p hp => h p (List.mem_cons_of_mem _ hp)

theorem fill_length (labels : List (List Int)) : ∀ (l : List (List Int × Int)) (v w : List Int), fill labels l v = .ok w →
    ∀ m : Nat, w.length ≤ m ↔ v.length ≤ m ∧ ∀ p ∈ l, ∀ k, Means labels p.1 k → k < m
  | [], v, w, h, m => by
    simp only [fill, Res.ok.injEq] at h
    subst h; simp
  | (lab, j) :: r, v, w, h, m => by
    unfold fill at h
    cases hl : labelToNumber labels lab with
    | none => rw [hl] at h; cases h
    | some q =>
      rw [hl] at h
      have hm := (label_means labels lab q).mp hl
      rw [fill_length labels r _ w h m, List.length_set, grow_length]
      constructor
      · rintro ⟨h1, h2⟩
        refine ⟨by omega, fun p hp k hk => ?_⟩
        rcases List.mem_cons.mp hp with rfl | hp
        · obtain rfl := means_unique hm hk; omega
        · exact h2 p hp k hk
      · rintro ⟨h1, h2⟩
        have := h2 _ List.mem_cons_self q hm
        exact ⟨by omega, fun p hp => h2 p (List.mem_cons_of_mem _ hp)⟩

theorem fill_not_ub (labels : List (List Int)) : ∀ (l : List (List Int × Int)) (v : List Int), fill labels l v ≠ .ub
  | [], v => by simp [fill]
  | (lab, j) :: r, v => by
    unfold fill
    split
    · intro h; cases h
    · exact fill_not_ub labels r _

/-- Different labels below a bound are at most as many as the bound. -/
theorem single_length {labels : List (List Int)} {l : List (List Int × Int)} {m : Nat} (hs : Single labels (.fields l)) (hk : ∀ p ∈ l, ∃ k, Means labels p.1 k)
    (hm : ∀ p ∈ l, ∀ k, Means labels p.1 k → k < m) : l.length ≤ m := by
  let g : List Int × Int → Nat := fun p => (labelToNumber labels p.1).getD 0
  have hg : ∀ p ∈ l, Means labels p.1 (g p) := by
    intro p hp
    obtain ⟨k, h⟩ := hk p hp
    have := (label_means labels p.1 k).mpr h
    show Means labels p.1 ((labelToNumber labels p.1).getD 0)
    rw [this]; exact h
  have hn : (l.map g).Nodup := by
    have hs' : l.Pairwise (fun p q => ∀ k, Means labels p.1 k → ¬ Means labels q.1 k) := hs
    unfold List.Nodup
    rw [List.pairwise_map]
    refine hs'.imp_of_mem ?_
    intro p q hp hq h e
    have h1 := hg p hp
    rw [e] at h1
    exact h _ h1 (hg q hq)
  have hsub : ∀ x ∈ l.map g, x ∈ List.range m := by
    intro x hx
    obtain ⟨p, hp, rfl⟩ := List.mem_map.mp hx
    exact List.mem_range.mpr (hm p hp _ (hg p hp))
  have := (List.Nodup.subperm hn hsub).length_le
  simpa using this

/-! The checks. -/

theorem limits_eq {c : Cls} {mn : Nat} {mx : Option Nat} (h : Takes c mn mx) : limits c = .ok ⟨mn, mx, c.labels⟩ := by
  obtain ⟨n, h1, h2, h3⟩ := h
  have hn : (if c.nchildren < 0 then (-(c.nchildren + 1)).toNat else c.nchildren.toNat) = n := by
    rcases h1 with ⟨h1, _⟩ | ⟨h1, _⟩
    · rw [if_neg (by omega), h1]; simp
    · rw [if_pos (by omega), h1]; omega
  have hx : (if c.nchildren < 0 then none else some n) = mx := by
    rcases h1 with ⟨h1, rfl⟩ | ⟨h1, rfl⟩
    · rw [if_neg (by omega)]
    · rw [if_pos (by omega)]
  have hm : ¬ (0 ≤ c.nmandatory ∧ (n : Int) < c.nmandatory) := by
    rcases h2 with ⟨h2, _⟩ | ⟨h2, h2'⟩ <;> omega
  have hmn : (if 0 ≤ c.nmandatory then c.nmandatory.toNat else n) = mn := by
    rcases h2 with ⟨h2, rfl⟩ | ⟨h2, h2'⟩
    · rw [if_neg (by omega)]
    · rw [if_pos (by omega), h2]; simp
  unfold limits
  simp only [hn, hx, if_neg hm, hmn]
  rcases h3 with h3 | ⟨h3, h4⟩
  · rw [if_pos h3, h3]
  · have : c.labels ≠ [] := by rintro e; rw [e] at h3; simp at h3; omega
    rw [if_neg this, if_neg (by omega), if_neg (by omega), ← h3, List.take_length]

theorem attach_bind (lim : Limits) (kids : Kids) (v : List Int) :
    attach lim kids = .ok v ↔ (match kids with
      | .absent => v = []
      | .fields l => fill lim.labels l (grow l.length []) = .ok v
      | .vector l => v = l
      | .other => False) ∧ lim.min ≤ v.length ∧ (∀ m, lim.max = some m → v.length ≤ m) ∧ ∀ k, k < lim.min → ∃ i : Int, v[k]? = some i ∧ 0 ≤ i := by
  have key : ∀ w : List Int, (if w.length < lim.min then (Res.err : Res (List Int))
      else if lim.max.any (fun m => decide (m < w.length)) then .err
      else if (w.take lim.min).any (fun i => decide (i < 0)) then .err
      else .ok w) = .ok v ↔ w = v ∧ lim.min ≤ v.length ∧ (∀ m, lim.max = some m → v.length ≤ m) ∧ ∀ k, k < lim.min → ∃ i : Int, v[k]? = some i ∧ 0 ≤ i := by
    intro w
    constructor
    · intro h
      split at h
      · cases h
      rename_i h1
      split at h
      · cases h
      rename_i h2
      split at h
      · cases h
      rename_i h3
      cases h
      refine ⟨rfl, by omega, fun m hm => ?_, fun k hk => ?_⟩
      · rw [hm] at h2; simp at h2; exact h2
      · have hlt : k < v.length := by omega
        refine ⟨v[k], List.getElem?_eq_getElem hlt, ?_⟩
        by_contra hneg
        apply h3
        rw [List.any_eq_true]
        exact ⟨v[k], by rw [List.mem_take_iff_getElem]; exact ⟨k, by omega, rfl⟩, by simp; omega⟩
    · rintro ⟨rfl, h1, h2, h3⟩
      rw [if_neg (by omega), if_neg, if_neg]
      · intro h
        rw [List.any_eq_true] at h
        obtain ⟨x, hx, hx'⟩ := h
        rw [List.mem_take_iff_getElem] at hx
        obtain ⟨k, hk, rfl⟩ := hx
        obtain ⟨i, hi, hi'⟩ := h3 k (by omega)
        rw [List.getElem?_eq_getElem (by omega : k < w.length)] at hi
        simp only [Option.some.injEq] at hi
        rw [hi] at hx'
        simp at hx'; omega
      · intro h
        cases hm : lim.max with
        | none => rw [hm] at h; cases h
        | some m =>
          rw [hm] at h; simp at h
          have := h2 m hm; omega
  unfold attach
  cases kids with
  | absent =>
    simp only [Res.ok_bind]
    rw [key]
    constructor
    · rintro ⟨rfl, h⟩; exact ⟨rfl, h⟩
    · rintro ⟨rfl, h⟩; exact ⟨rfl, h⟩
  | fields l =>
    simp only
    rw [Res.bind_eq_ok]
    constructor
    · rintro ⟨w, h1, h2⟩
      obtain ⟨rfl, h⟩ := (key w).mp h2
      exact ⟨h1, h⟩
    · rintro ⟨h1, h⟩
      exact ⟨v, h1, (key v).mpr ⟨rfl, h⟩⟩
  | vector l =>
    simp only [Res.ok_bind]
    rw [key]
    constructor
    · rintro ⟨rfl, h⟩; exact ⟨rfl, h⟩
    · rintro ⟨rfl, h⟩; exact ⟨rfl, h⟩
  | other => simp

theorem attach_names {lim : Limits} {kids : Kids} {v : List Int} (hs : Single lim.labels kids) (h : attach lim kids = .ok v) (k j : Nat) :
    v[k]? = some (j : Int) ↔ Names lim.labels kids k j := by
  obtain ⟨h1, _⟩ := (attach_bind lim kids v).mp h
  cases kids with
  | absent => simp only at h1; subst h1; simp [Names]
  | vector l => simp only at h1; subst h1; rfl
  | other => exact h1.elim
  | fields l =>
    simp only at h1
    rw [fill_get lim.labels l _ v hs h1 k j (by omega)]
    unfold Names
    constructor
    · rintro (h | ⟨h, _⟩)
      · exact h
      · rw [grow_get _ _ _ _ (by omega)] at h; simp at h
    · exact Or.inl

theorem attach_iff {lim : Limits} {l : List (List Int × Int)} (hs : Single lim.labels (.fields l)) :
    (∃ v, attach lim (.fields l) = .ok v) ↔ (∀ p ∈ l, ∃ k, Means lim.labels p.1 k) ∧
      (∀ m, lim.max = some m → ∀ p ∈ l, ∀ k, Means lim.labels p.1 k → k < m) ∧ ∀ k, k < lim.min → ∃ j, Names lim.labels (.fields l) k j := by
  constructor
  · rintro ⟨v, h⟩
    have hn := attach_names hs h
    obtain ⟨h1, h2, h3, h4⟩ := (attach_bind _ _ v).mp h
    simp only at h1
    refine ⟨(fill_ok _ _ _).mp ⟨v, h1⟩, fun m hm => ((fill_length _ _ _ v h1 m).mp (h3 m hm)).2, fun k hk => ?_⟩
    obtain ⟨i, hi, hi'⟩ := h4 k hk
    refine ⟨i.toNat, (hn k i.toNat).mp ?_⟩
    rw [hi, Int.toNat_of_nonneg hi']
  · rintro ⟨h1, h2, h3⟩
    obtain ⟨v, hv⟩ := (fill_ok lim.labels l (grow l.length [])).mpr h1
    have hg : ∀ k, k < lim.min → ∃ i : Int, v[k]? = some i ∧ 0 ≤ i := by
      intro k hk
      obtain ⟨j, lab, hj⟩ := h3 k hk
      exact ⟨j, (fill_get lim.labels l _ v hs hv k j (by omega)).mpr (Or.inl ⟨lab, hj⟩), by omega⟩
    refine ⟨v, (attach_bind _ _ v).mpr ⟨hv, ?_, fun m hm => ?_, hg⟩⟩
    · by_contra hc
      obtain ⟨i, hi, _⟩ := hg v.length (by omega)
      rw [List.getElem?_eq_none (by omega)] at hi; cases hi
    · rw [fill_length _ _ _ v hv m, grow_length]
      refine ⟨?_, h2 m hm⟩
      have := single_length hs h1 (h2 m hm)
      simpa using this

theorem attach_not_ub (lim : Limits) (kids : Kids) : attach lim kids ≠ .ub := by
  unfold attach
  cases kids with
  | fields l =>
    simp only
    cases h : fill lim.labels l (grow l.length []) with
    | ok v => simp only [Res.ok_bind]; split <;> [simp; split <;> [simp; split <;> simp]]
    | err => simp
    | ub => exact absurd h (fill_not_ub _ _ _)
  | absent => simp only [Res.ok_bind]; split <;> [simp; split <;> [simp; split <;> simp]]
  | vector l => simp only [Res.ok_bind]; split <;> [simp; split <;> [simp; split <;> simp]]
  | other => simp

/-! Linking. -/

theorem get_ok {nodes : List (Option Node)} {i : Int} {k : Nat} : get nodes i = .ok k ↔ 0 < i ∧ k = i.toNat ∧ ∃ n, nodes[i.toNat]? = some (some n) := by
  unfold get
  constructor
  · intro h
    split at h
    · cases h
    · split at h <;> first | cases h | skip
      rename_i h1 n hn
      exact ⟨by omega, rfl, n, hn⟩
  · rintro ⟨h1, rfl, n, hn⟩
    have hlt : i.toNat < nodes.length := (List.getElem?_eq_some_iff.mp hn).1
    rw [if_neg (by omega), hn]

/-- The same nodes exist. -/
def Same (a b : List (Option Node)) : Prop := a.map Option.isSome = b.map Option.isSome

theorem Same.get? {a b : List (Option Node)} (h : Same a b) (i : Nat) : (a[i]?).map Option.isSome = (b[i]?).map Option.isSome := by
  have := congrArg (fun l => l[i]?) h
  simpa using this

theorem Same.length {a b : List (Option Node)} (h : Same a b) : a.length = b.length := by
  have := congrArg List.length h
  simpa using this

theorem get_congr {a b : List (Option Node)} (h : Same a b) (i : Int) : get a i = get b i := by
  have hg := h.get? i.toNat
  unfold get
  rw [h.length]
  split
  · rfl
  · cases ha : a[i.toNat]? with
    | none =>
      rw [ha] at hg
      cases hb : b[i.toNat]? with
      | none => rfl
      | some o => rw [hb] at hg; cases hg
    | some o =>
      rw [ha] at hg
      cases hb : b[i.toNat]? with
      | none => rw [hb] at hg; cases hg
      | some o' =>
        rw [hb] at hg
        cases o <;> cases o' <;> first | rfl | simp at hg

theorem link_congr {a b : List (Option Node)} (h : Same a b) (opt : Bool) : ∀ (idx : List Int) (v : List (Option Nat)), link a opt idx v = link b opt idx v
  | [], v => by cases v <;> rfl
  | i :: r, [] => rfl
  | i :: r, o :: v => by
    unfold link
    rw [link_congr h opt r v, get_congr h i]

theorem linkParents_congr {a b : List (Option Node)} (h : Same a b) : ∀ (idx : List Int) (v : List (Option Nat)), linkParents a idx v = linkParents b idx v
  | [], v => by cases v <;> rfl
  | i :: r, [] => rfl
  | i :: r, o :: v => by
    unfold linkParents
    rw [linkParents_congr h r v, get_congr h i]

theorem initNode_congr {a b : List (Option Node)} (h : Same a b) (n : Node) : initNode a n = initNode b n := by
  unfold initNode
  rw [linkParents_congr h]
  simp only [link_congr h]

theorem same_set {nodes : List (Option Node)} {i : Nat} {n n' : Node} (h : nodes[i]? = some (some n)) : Same (nodes.set i (some n')) nodes := by
  unfold Same
  apply List.ext_getElem?
  intro k
  rw [List.getElem?_map, List.getElem?_map, List.getElem?_set]
  split
  · rename_i e
    subst e
    have hlt : i < nodes.length := (List.getElem?_eq_some_iff.mp h).1
    rw [if_pos hlt, h]; rfl
  · rfl

/-- A valid index. -/
def Ok (nodes : List (Option Node)) (i : Int) : Prop := 0 < i ∧ ∃ n, nodes[i.toNat]? = some (some n)

theorem link_fresh (nodes : List (Option Node)) (opt : Bool) : ∀ (idx : List Int) (v : List (Option Nat)), v = List.replicate idx.length none →
    ((link nodes opt idx v).2 = .ok () ↔ ∀ i ∈ idx, (opt = true ∧ i < 0) ∨ Ok nodes i) ∧
    ((link nodes opt idx v).2 = .ok () → (link nodes opt idx v).1 = idx.map (fun i => if opt = true ∧ i < 0 then none else some i.toNat))
  | [], v, h => by subst h; simp [link]
  | i :: r, v, h => by
    rw [List.length_cons, List.replicate_succ] at h
    subst h
    obtain ⟨h1, h2⟩ := link_fresh nodes opt r _ rfl
    unfold link
    by_cases ho : opt = true ∧ i < 0
    · rw [if_pos ho]
      simp only
      refine ⟨h1.trans ⟨fun h x hx => ?_, fun h x hx => h x (List.mem_cons_of_mem _ hx)⟩, fun h => ?_⟩
      · rcases List.mem_cons.mp hx with rfl | hx
        · exact Or.inl ho
        · exact h x hx
      · rw [h2 h, List.map_cons, if_pos ho]
    · rw [if_neg ho]
      cases hg : get nodes i with
      | ok k =>
        obtain ⟨g1, rfl, g2⟩ := get_ok.mp hg
        simp only [Option.isSome_none, Bool.false_eq_true, if_false]
        refine ⟨h1.trans ⟨fun h x hx => ?_, fun h x hx => h x (List.mem_cons_of_mem _ hx)⟩, fun h => ?_⟩
        · rcases List.mem_cons.mp hx with rfl | hx
          · exact Or.inr ⟨g1, g2⟩
          · exact h x hx
        · rw [h2 h, List.map_cons, if_neg ho]
      | err =>
        refine ⟨⟨(fun h => by cases h), fun h => ?_⟩, (fun h => by cases h)⟩
        rcases h i List.mem_cons_self with h | ⟨g1, g2⟩
        · exact absurd h ho
        · rw [get_ok.mpr ⟨g1, rfl, g2⟩] at hg; cases hg
      | ub =>
        refine ⟨⟨(fun h => by cases h), fun h => ?_⟩, (fun h => by cases h)⟩
        rcases h i List.mem_cons_self with h | ⟨g1, g2⟩
        · exact absurd h ho
        · rw [get_ok.mpr ⟨g1, rfl, g2⟩] at hg; cases hg

theorem linkParents_spec (nodes : List (Option Node)) : ∀ (idx : List Int) (v : List (Option Nat)), v.length = idx.length →
    ((linkParents nodes idx v).2 = .ok () ↔ ∀ i ∈ idx, Ok nodes i) ∧
    ((linkParents nodes idx v).2 = .ok () → (linkParents nodes idx v).1 = idx.map (fun i => some i.toNat))
  | [], v, h => by
    obtain rfl := List.eq_nil_of_length_eq_zero h
    simp [linkParents]
  | i :: r, [], h => by cases h
  | i :: r, o :: v, h => by
    simp only [List.length_cons, Nat.add_right_cancel_iff] at h
    obtain ⟨h1, h2⟩ := linkParents_spec nodes r v h
    unfold linkParents
    cases hg : get nodes i with
    | ok k =>
      obtain ⟨g1, rfl, g2⟩ := get_ok.mp hg
      simp only
      refine ⟨h1.trans ⟨fun h x hx => ?_, fun h x hx => h x (List.mem_cons_of_mem _ hx)⟩, fun h => ?_⟩
      · rcases List.mem_cons.mp hx with rfl | hx
        · exact ⟨g1, g2⟩
        · exact h x hx
      · rw [h2 h, List.map_cons]
    | err =>
      refine ⟨⟨(fun h => by cases h), fun h => ?_⟩, (fun h => by cases h)⟩
      obtain ⟨g1, g2⟩ := h i List.mem_cons_self
      rw [get_ok.mpr ⟨g1, rfl, g2⟩] at hg; cases hg
    | ub =>
      refine ⟨⟨(fun h => by cases h), fun h => ?_⟩, (fun h => by cases h)⟩
      obtain ⟨g1, g2⟩ := h i List.mem_cons_self
      rw [get_ok.mpr ⟨g1, rfl, g2⟩] at hg; cases hg

theorem resize_nil (n : Nat) : resize n [] = List.replicate n none := by simp [resize]

theorem resize_length (n : Nat) (v : List (Option Nat)) : (resize n v).length = n := by
  unfold resize; rw [List.length_append, List.length_take, List.length_replicate]; omega

/-- A node that was just created. -/
def Fresh (n : Node) : Prop := n.kids = [] ∧ n.steps = [] ∧ n.parents = [] ∧ n.active = true

/-- All references are valid. -/
def Refs (nodes : List (Option Node)) (n : Node) : Prop :=
  (∀ i ∈ n.childIdx, i < 0 ∨ Ok nodes i) ∧ (∀ i ∈ n.stepIdx, Ok nodes i) ∧ (∀ i ∈ n.parentIdx, Ok nodes i) ∧ n.settings = true

/-- What a node is after it was initialised. -/
def done (n : Node) : Node :=
  { n with
    parents := n.parentIdx.map (fun i => some i.toNat)
    kids := n.childIdx.map (fun i => if i < 0 then none else some i.toNat)
    kidLabels := setLabels n.labels n.childIdx
    steps := n.stepIdx.map (fun i => some i.toNat) }

theorem initNode_fresh {nodes : List (Option Node)} {n : Node} (hf : Fresh n) :
    ((initNode nodes n).2 = .ok () ↔ Refs nodes n) ∧ ((initNode nodes n).2 = .ok () → (initNode nodes n).1 = done n) := by
  obtain ⟨f1, f2, f3, f4⟩ := hf
  obtain ⟨p1, p2⟩ := linkParents_spec nodes n.parentIdx (resize n.parentIdx.length n.parents) (resize_length _ _)
  obtain ⟨k1, k2⟩ := link_fresh nodes true n.childIdx (resize n.childIdx.length n.kids) (by rw [f1, resize_nil])
  obtain ⟨s1, s2⟩ := link_fresh nodes false n.stepIdx (resize n.stepIdx.length n.steps) (by rw [f2, resize_nil])
  simp only [true_and, Bool.false_eq_true, false_and, false_or, if_false] at k1 k2 s1 s2
  unfold initNode
  simp only
  by_cases hp : (linkParents nodes n.parentIdx (resize n.parentIdx.length n.parents)).2 = .ok ()
  · rw [if_neg (by rw [hp]; simp)]
    by_cases hk : (link nodes true n.childIdx (resize n.childIdx.length n.kids)).2 = .ok ()
    · rw [if_neg (by rw [hk]; simp)]
      by_cases hs : (link nodes false n.stepIdx (resize n.stepIdx.length n.steps)).2 = .ok ()
      · rw [if_neg (by rw [hs]; simp)]
        by_cases hset : n.settings = true
        · rw [if_pos hset]
          refine ⟨⟨fun _ => ⟨k1.mp hk, s1.mp hs, p1.mp hp, hset⟩, fun _ => rfl⟩, fun _ => ?_⟩
          simp only [done, p2 hp, k2 hk, s2 hs]
        · rw [if_neg hset]
          exact ⟨⟨(fun h => by cases h), fun h => absurd h.2.2.2 hset⟩, (fun h => by cases h)⟩
      · rw [if_pos hs]
        exact ⟨⟨fun h => absurd h hs, fun h => absurd (s1.mpr h.2.1) hs⟩, fun h => absurd h hs⟩
    · rw [if_pos hk]
      exact ⟨⟨fun h => absurd h hk, fun h => absurd (k1.mpr h.1) hk⟩, fun h => absurd h hk⟩
  · rw [if_pos hp]
    exact ⟨⟨fun h => absurd h hp, fun h => absurd (p1.mpr h.2.2.1) hp⟩, fun h => absurd h hp⟩

/-- A node whose initialisation fails is not active. -/
theorem initNode_fails {nodes : List (Option Node)} {n : Node} (h : (initNode nodes n).2 ≠ .ok ()) : (initNode nodes n).1.active = false := by
  unfold initNode at h ⊢
  simp only at h ⊢
  split
  · rfl
  · rename_i e1
    rw [if_neg e1] at h
    split
    · rfl
    · rename_i e2
      rw [if_neg e2] at h
      split
      · rfl
      · rename_i e3
        rw [if_neg e3] at h
        split
        · rename_i e4
          rw [if_pos e4] at h; exact absurd rfl h
        · rfl

/-! All nodes. -/

/-- Node `i` fails. -/
def failsAt (nodes : List (Option Node)) (i : Nat) : Bool :=
  match nodes[i]? with
  | some (some n) => decide ((initNode nodes n).2 ≠ .ok ())
  | _ => false

theorem failsAt_congr {a b : List (Option Node)} {i : Nat} (h : Same a b) (hi : a[i]? = b[i]?) : failsAt a i = failsAt b i := by
  unfold failsAt
  rw [hi]
  split
  · rw [initNode_congr h]
  · rfl

theorem initFrom_ok : ∀ (l : List Nat) (f f' : Forest), l.Nodup → initFrom l f = .ok f' →
    Same f'.nodes f.nodes ∧ (∀ i n, i ∈ l → f.nodes[i]? = some (some n) → f'.nodes[i]? = some (some (initNode f.nodes n).1)) ∧
    (∀ i, i ∉ l → f'.nodes[i]? = f.nodes[i]?) ∧ f'.errors = f.errors + (l.filter (failsAt f.nodes)).length
  | [], f, f', _, h => by
    simp only [initFrom, Res.ok.injEq] at h
    subst h
    exact ⟨rfl, fun i n hi => absurd hi (by simp), fun _ _ => rfl, rfl⟩
  | i :: r, f, f', hn, h => by
    obtain ⟨hi, hr⟩ := List.nodup_cons.mp hn
    unfold initFrom at h
    have step : ∀ (n n' : Node) (e : Nat), f.nodes[i]? = some (some n) → n' = (initNode f.nodes n).1 →
        e = f.errors + (if failsAt f.nodes i then 1 else 0) → initFrom r ⟨f.nodes.set i (some n'), e⟩ = .ok f' →
        Same f'.nodes f.nodes ∧ (∀ k m, k ∈ i :: r → f.nodes[k]? = some (some m) → f'.nodes[k]? = some (some (initNode f.nodes m).1)) ∧
        (∀ k, k ∉ i :: r → f'.nodes[k]? = f.nodes[k]?) ∧ f'.errors = f.errors + ((i :: r).filter (failsAt f.nodes)).length := by
      intro n n' e hnode hn' he h
      have hsame : Same (f.nodes.set i (some n')) f.nodes := same_set hnode
      obtain ⟨q1, q2, q3, q4⟩ := initFrom_ok r _ f' hr h
      simp only at q1 q2 q3 q4
      refine ⟨q1.trans hsame, fun k m hk hm => ?_, fun k hk => ?_, ?_⟩
      · rcases List.mem_cons.mp hk with rfl | hk
        · rw [q3 k hi, List.getElem?_set, if_pos rfl, if_pos (List.getElem?_eq_some_iff.mp hnode).1]
          rw [hnode] at hm; cases hm; rw [hn']
        · have hne : i ≠ k := by rintro rfl; exact hi hk
          have := q2 k m hk (by rw [List.getElem?_set_ne hne]; exact hm)
          rw [this, initNode_congr hsame]
      · have hne : i ≠ k := by rintro rfl; exact hk List.mem_cons_self
        rw [q3 k (fun h => hk (List.mem_cons_of_mem _ h)), List.getElem?_set_ne hne]
      · rw [q4, he, List.filter_cons]
        have hc : r.filter (failsAt (f.nodes.set i (some n'))) = r.filter (failsAt f.nodes) := by
          apply List.filter_congr
          intro k hk
          have hne : i ≠ k := by rintro rfl; exact hi hk
          exact failsAt_congr hsame (List.getElem?_set_ne hne)
        rw [hc]
        split
        · rw [List.length_cons]; omega
        · rw [Nat.add_zero]
    split at h
    · rename_i n hnode
      split at h
      · cases h
      · rename_i n' he
        refine step n n' _ hnode (by rw [he]) ?_ h
        have : failsAt f.nodes i = true := by
          unfold failsAt; rw [hnode]; simp [he]
        rw [this]; rfl
      · rename_i n' he
        refine step n n' _ hnode (by rw [he]) ?_ h
        have : failsAt f.nodes i = false := by
          unfold failsAt; rw [hnode]; simp [he]
        rw [this]; rfl
    · rename_i hno
      obtain ⟨q1, q2, q3, q4⟩ := initFrom_ok r f f' hr h
      refine ⟨q1, fun k m hk hm => ?_, fun k hk => q3 k (fun h => hk (List.mem_cons_of_mem _ h)), ?_⟩
      · rcases List.mem_cons.mp hk with rfl | hk
        · exact absurd hm (hno m)
        · exact q2 k m hk hm
      · have : failsAt f.nodes i = false := by
          unfold failsAt
          split
          · rename_i n e; exact absurd e (hno n)
          · rfl
        rw [q4, List.filter_cons, this]; rfl

theorem initFrom_total : ∀ (l : List Nat) (f : Forest), (∀ i n, f.nodes[i]? = some (some n) → i ∈ l → (initNode f.nodes n).2 ≠ .ub) → l.Nodup →
    ∃ f', initFrom l f = .ok f'
  | [], f, _, _ => ⟨f, rfl⟩
  | i :: r, f, h, hn => by
    obtain ⟨hi, hr⟩ := List.nodup_cons.mp hn
    unfold initFrom
    have step : ∀ n n' e, f.nodes[i]? = some (some n) → ∃ f', initFrom r ⟨f.nodes.set i (some n'), e⟩ = .ok f' := by
      intro n n' e hnode
      have hsame : Same (f.nodes.set i (some n')) f.nodes := same_set hnode
      refine initFrom_total r _ (fun k m hk hkr => ?_) hr
      have hne : i ≠ k := by rintro rfl; exact hi hkr
      simp only at hk ⊢
      rw [List.getElem?_set_ne hne] at hk
      rw [initNode_congr hsame]
      exact h k m hk (List.mem_cons_of_mem _ hkr)
    split
    · rename_i n hnode
      split
      · rename_i he
        exact absurd (by rw [he]) (h i n hnode List.mem_cons_self)
      · exact step n _ _ hnode
      · exact step n _ _ hnode
    · exact initFrom_total r f (fun k m hk hkr => h k m hk (List.mem_cons_of_mem _ hkr)) hr

theorem initAll_ok {f f' : Forest} (h : initAll f = .ok f') :
    Same f'.nodes f.nodes ∧ (∀ (i : Nat) (n : Node), f.nodes[i]? = some (some n) → f'.nodes[i]? = some (some (initNode f.nodes n).1)) ∧
    f'.errors = f.errors + ((List.range f.nodes.length).filter (failsAt f.nodes)).length := by
  obtain ⟨h1, h2, _, h4⟩ := initFrom_ok _ f f' List.nodup_range h
  refine ⟨h1, fun i n hn => h2 i n (List.mem_range.mpr (List.getElem?_eq_some_iff.mp hn).1) hn, h4⟩

theorem no_fails {f f' : Forest} (h : initAll f = .ok f') (he : f'.errors = 0) :
    f.errors = 0 ∧ ∀ (i : Nat) (n : Node), f.nodes[i]? = some (some n) → (initNode f.nodes n).2 = .ok () := by
  obtain ⟨_, _, h3⟩ := initAll_ok h
  refine ⟨by omega, fun i n hn => ?_⟩
  have h0 : (List.range f.nodes.length).filter (failsAt f.nodes) = [] := List.eq_nil_of_length_eq_zero (by omega)
  have := List.filter_eq_nil_iff.mp h0 i (List.mem_range.mpr (List.getElem?_eq_some_iff.mp hn).1)
  unfold failsAt at this
  rw [hn] at this
  simpa using this

/-! Creation. -/

/-- The node is made from the init record. -/
def Made (s : Spec) (n : Node) : Prop :=
  n.name = s.name ∧ n.labels = s.cls.labels ∧ (∃ mn mx, attach ⟨mn, mx, s.cls.labels⟩ s.kids = .ok n.childIdx) ∧ n.stepIdx = s.step ∧
    n.parentIdx = s.parents ∧ n.settings = s.settings ∧ Fresh n

theorem make_ok {f : Forest} {s : Spec} {i : Nat} {n : Node} {mn : Nat} {mx : Option Nat} (ht : Takes s.cls mn mx) (h : make f s = .ok (i, n)) :
    Made s n ∧ (∀ m, f.nodes[i]? ≠ some (some m)) ∧ ((0 < s.index ∧ i = s.index.toNat) ∨ (s.index ≤ 0 ∧ i = f.nodes.length)) := by
  unfold make at h
  split at h
  · cases h
  · rw [limits_eq ht] at h
    simp only [Res.ok_bind] at h
    split at h
    · rename_i hpos
      rw [Res.bind_eq_ok] at h
      obtain ⟨i', hi, h⟩ := h
      rw [Res.bind_eq_ok] at h
      obtain ⟨v, hv, h⟩ := h
      simp only [Res.ok.injEq, Prod.mk.injEq] at h
      obtain ⟨rfl, rfl⟩ := h
      refine ⟨⟨rfl, rfl, ⟨mn, mx, hv⟩, rfl, rfl, rfl, rfl, rfl, rfl, rfl⟩, ?_⟩
      split at hi
      · cases hi
      · rename_i hno
        cases hi
        exact ⟨fun m hm => hno (by rw [hm]; rfl), Or.inl ⟨hpos, rfl⟩⟩
    · rename_i hpos
      rw [Res.bind_eq_ok] at h
      obtain ⟨v, hv, h⟩ := h
      simp only [Res.ok.injEq, Prod.mk.injEq] at h
      obtain ⟨rfl, rfl⟩ := h
      exact ⟨⟨rfl, rfl, ⟨mn, mx, hv⟩, rfl, rfl, rfl, rfl, rfl, rfl, rfl⟩,
        (fun m hm => by rw [List.getElem?_eq_none (Nat.le_refl _)] at hm; cases hm), Or.inr ⟨by omega, rfl⟩⟩

theorem put_get (nodes : List (Option Node)) (i : Nat) (n : Node) (k : Nat) (m : Node) :
    ((nodes ++ List.replicate (i + 1 - nodes.length) none).set i (some n))[k]? = some (some m) ↔ (k = i ∧ m = n) ∨ (k ≠ i ∧ nodes[k]? = some (some m)) := by
  rw [List.getElem?_set]
  have hlen : i < (nodes ++ List.replicate (i + 1 - nodes.length) none).length := by
    rw [List.length_append, List.length_replicate]; omega
  by_cases e : i = k
  · subst e
    rw [if_pos rfl, if_pos hlen]
    simp only [Option.some.injEq, true_and, ne_eq, not_true_eq_false, false_and, or_false]
    exact eq_comm
  · rw [if_neg e, List.getElem?_append]
    have e' : ¬ k = i := fun h => e h.symm
    simp only [e', false_and, ne_eq, not_false_eq_true, true_and, false_or]
    split
    · rfl
    · rename_i h
      rw [List.getElem?_eq_none (by omega : nodes.length ≤ k)]
      constructor
      · intro h'
        have := (List.mem_replicate.mp (List.mem_of_getElem? h')).2
        cases this
      · intro h'; cases h'

/-- Nothing at index zero. -/
def Zero (f : Forest) : Prop := 0 < f.nodes.length ∧ ∀ m, f.nodes[0]? ≠ some (some m)

theorem create_ok {f f' : Forest} {s : Spec} (ht : ∃ mn mx, Takes s.cls mn mx) (hz : Zero f) (h : create f s = .ok f') :
    Zero f' ∧ f.errors ≤ f'.errors ∧ (f'.errors = f.errors → ∃ i n, Made s n ∧ (∀ m, f.nodes[i]? ≠ some (some m)) ∧
      (0 < s.index → i = s.index.toNat) ∧ ∀ (k : Nat) (m : Node), f'.nodes[k]? = some (some m) ↔ (k = i ∧ m = n) ∨ (k ≠ i ∧ f.nodes[k]? = some (some m))) ∧
      (∀ (k : Nat) (m : Node), f.nodes[k]? = some (some m) → f'.nodes[k]? = some (some m)) := by
  obtain ⟨mn, mx, ht⟩ := ht
  unfold create at h
  split at h
  · rename_i i n hm
    obtain ⟨h1, h2, h3⟩ := make_ok ht hm
    cases h
    simp only
    have hi : i ≠ 0 := by
      rcases h3 with ⟨h3, rfl⟩ | ⟨_, rfl⟩
      · omega
      · have := hz.1; omega
    refine ⟨⟨?_, fun m hm => ?_⟩, Nat.le_refl _, fun _ => ⟨i, n, h1, h2, fun hp => ?_, fun k m => put_get _ _ _ _ _⟩, fun k m hk => ?_⟩
    · simp only; rw [List.length_set, List.length_append]; have := hz.1; omega
    · rcases (put_get _ _ _ _ _).mp hm with ⟨e, _⟩ | ⟨_, e⟩
      · exact hi e.symm
      · exact hz.2 m e
    · rcases h3 with ⟨_, h3⟩ | ⟨h3, _⟩
      · exact h3
      · omega
    · rw [put_get]
      right
      refine ⟨?_, hk⟩
      rintro rfl
      exact h2 m hk
  · cases h
    exact ⟨hz, by simp, fun h => by simp at h, fun k m hk => hk⟩
  · cases h

theorem createAll_ok : ∀ (l : List Spec) (f f' : Forest), (∀ s ∈ l, ∃ mn mx, Takes s.cls mn mx) → Zero f → createAll f l = .ok f' →
    Zero f' ∧ f.errors ≤ f'.errors ∧ (f'.errors = f.errors →
      (∀ s ∈ l, ∃ (i : Nat) (n : Node), f'.nodes[i]? = some (some n) ∧ Made s n ∧ (0 < s.index → i = s.index.toNat)) ∧
      (∀ (i : Nat) (n : Node), f'.nodes[i]? = some (some n) → f.nodes[i]? = some (some n) ∨ ∃ s ∈ l, Made s n)) ∧
      ∀ (k : Nat) (m : Node), f.nodes[k]? = some (some m) → f'.nodes[k]? = some (some m)
  | [], f, f', _, hz, h => by
    simp only [createAll, Res.ok.injEq] at h
    subst h
    exact ⟨hz, Nat.le_refl _, fun _ => ⟨fun s hs => absurd hs (by simp), fun i n hn => Or.inl hn⟩, fun _ _ h => h⟩
  | s :: l, f, f', ht, hz, h => by
    unfold createAll at h
    rw [Res.bind_eq_ok] at h
    obtain ⟨f1, h1, h2⟩ := h
    obtain ⟨a1, a2, a3, a4⟩ := create_ok (ht s List.mem_cons_self) hz h1
    obtain ⟨b1, b2, b3, b4⟩ := createAll_ok l f1 f' (fun s hs => ht s (List.mem_cons_of_mem _ hs)) a1 h2
    refine ⟨b1, by omega, fun he => ?_, fun k m hk => b4 k m (a4 k m hk)⟩
    obtain ⟨i, n, c1, _, c3, c4⟩ := a3 (by omega)
    obtain ⟨d1, d2⟩ := b3 (by omega)
    refine ⟨fun s' hs' => ?_, fun k m hk => ?_⟩
    · rcases List.mem_cons.mp hs' with rfl | hs'
      · exact ⟨i, n, b4 i n ((c4 i n).mpr (Or.inl ⟨rfl, rfl⟩)), c1, c3⟩
      · exact d1 s' hs'
    · rcases d2 k m hk with hk | ⟨s', hs', hm⟩
      · rcases (c4 k m).mp hk with ⟨_, rfl⟩ | ⟨_, hk⟩
        · exact Or.inr ⟨s, List.mem_cons_self, c1⟩
        · exact Or.inl hk
      · exact Or.inr ⟨s', List.mem_cons_of_mem _ hs', hm⟩

theorem zero_empty : Zero empty := ⟨by decide, fun m h => by simp [empty] at h⟩

theorem same_exists {a b : List (Option Node)} (h : Same a b) (i : Nat) : (∃ n, a[i]? = some (some n)) ↔ ∃ n, b[i]? = some (some n) := by
  have hg := h.get? i
  constructor
  · rintro ⟨n, hn⟩
    rw [hn] at hg
    cases hb : b[i]? with
    | none => rw [hb] at hg; cases hg
    | some o => cases o with
      | none => rw [hb] at hg; simp at hg
      | some m => exact ⟨m, rfl⟩
  · rintro ⟨n, hn⟩
    rw [hn] at hg
    cases hb : a[i]? with
    | none => rw [hb] at hg; cases hg
    | some o => cases o with
      | none => rw [hb] at hg; simp at hg
      | some m => exact ⟨m, rfl⟩

theorem refs_iff {f : Forest} {s : Spec} {n : Node} (hz : Zero f) (hm : Made s n) (hs : Single s.cls.labels s.kids) :
    Refs f.nodes n ↔ RefsExist f s := by
  obtain ⟨_, _, ⟨mn, mx, ha⟩, e1, e2, e3, _⟩ := hm
  have hn := attach_names (lim := ⟨mn, mx, s.cls.labels⟩) hs ha
  unfold Refs RefsExist Ok Exists
  rw [e1, e2, e3]
  constructor
  · rintro ⟨h1, h2, h3, h4⟩
    refine ⟨fun k j hk => ?_, h2, h3, h4⟩
    have := List.mem_of_getElem? ((hn k j).mpr hk)
    rcases h1 _ this with h | ⟨_, h⟩
    · omega
    · simpa using h
  · rintro ⟨h1, h2, h3, h4⟩
    refine ⟨fun i hi => ?_, h2, h3, h4⟩
    by_cases hneg : i < 0
    · exact Or.inl hneg
    · obtain ⟨k, hk⟩ := List.getElem?_of_mem hi
      obtain ⟨j, rfl⟩ : ∃ j : Nat, i = j := ⟨i.toNat, by omega⟩
      obtain ⟨m, hm⟩ := h1 k j ((hn k j).mp hk)
      refine Or.inr ⟨?_, m, by simpa using hm⟩
      by_contra h0
      obtain rfl : j = 0 := by omega
      exact hz.2 m hm

theorem map_some_get (l : List Int) (h : ∀ i ∈ l, 0 < i) (k j : Nat) : (l.map (fun i => some i.toNat))[k]? = some (some j) ↔ l[k]? = some (j : Int) := by
  rw [List.getElem?_map]
  cases hk : l[k]? with
  | none => simp
  | some i =>
    have := h i (List.mem_of_getElem? hk)
    simp only [Option.map_some, Option.some.injEq]
    omega

theorem right_done {f f' : Forest} {s : Spec} {n : Node} (hsame : Same f'.nodes f.nodes) (hm : Made s n) (hs : Single s.cls.labels s.kids)
    (hr : Refs f.nodes n) : Right f' s (done n) := by
  obtain ⟨e0, el, ⟨mn, mx, ha⟩, e1, e2, e3, ef⟩ := hm
  obtain ⟨r1, r2, r3, _⟩ := hr
  have hn := attach_names (lim := ⟨mn, mx, s.cls.labels⟩) hs ha
  have hkid : ∀ k j : Nat, (done n).kids[k]? = some (some j) ↔ n.childIdx[k]? = some (j : Int) := by
    intro k j
    simp only [done, List.getElem?_map]
    cases hk : n.childIdx[k]? with
    | none => simp
    | some i =>
      simp only [Option.map_some, Option.some.injEq]
      by_cases hneg : i < 0
      · rw [if_pos hneg]
        constructor
        · intro h; cases h
        · intro h; omega
      · rw [if_neg hneg]
        simp only [Option.some.injEq]
        omega
  have hex : ∀ i : Int, Ok f.nodes i → Exists f' i.toNat := fun i h => (same_exists hsame i.toNat).mpr h.2
  refine ⟨e0, ef.2.2.2, fun k j => (hkid k j).trans (hn k j), fun k j h => ?_, fun k j => ?_, ?_, fun k j => ?_, ?_, fun j h => ?_⟩
  · have hk := (hkid k j).mp h
    simp only [done, setLabels, List.getElem?_map, List.getElem?_zipIdx, hk, Option.map_some, Nat.zero_add]
    rw [if_pos (by omega), childLabel, el]
  · simp only [done]
    rw [map_some_get _ (fun i hi => (r2 i hi).1), e1]
  · simp [done, e1]
  · simp only [done]
    rw [map_some_get _ (fun i hi => (r3 i hi).1), e2]
  · simp [done, e2]
  · rcases h with h | h | h
    · obtain ⟨k, hk⟩ := List.getElem?_of_mem h
      have hk := List.mem_of_getElem? ((hkid k j).mp hk)
      rcases r1 _ hk with h | h
      · omega
      · simpa using hex _ h
    · simp only [done, List.mem_map, Option.some.injEq] at h
      obtain ⟨i, hi, rfl⟩ := h
      exact hex i (r2 i hi)
    · simp only [done, List.mem_map, Option.some.injEq] at h
      obtain ⟨i, hi, rfl⟩ := h
      exact hex i (r3 i hi)

theorem same_zero {f f' : Forest} (h : Same f'.nodes f.nodes) (hz : Zero f) : Zero f' := by
  refine ⟨by rw [h.length]; exact hz.1, fun m hm => ?_⟩
  obtain ⟨n, hn⟩ := (same_exists h 0).mp ⟨m, hm⟩
  exact hz.2 n hn

theorem refsExist_congr {f f' : Forest} (h : Same f'.nodes f.nodes) (s : Spec) : RefsExist f' s ↔ RefsExist f s := by
  unfold RefsExist Exists
  simp only [same_exists h]

/-- What a batch is after a clear start. -/
theorem batch_nodes {l : List Spec} {f1 f : Forest} (ht : ∀ s ∈ l, ∃ mn mx, Takes s.cls mn mx) (hs : ∀ s ∈ l, Single s.cls.labels s.kids)
    (h1 : createAll empty l = .ok f1) (he : f1.errors = 0) (h : initAll f1 = .ok f) :
    Zero f ∧ (∀ s ∈ l, ∃ (i : Nat) (n : Node), f.nodes[i]? = some (some n) ∧ n.name = s.name ∧ (0 < s.index → i = s.index.toNat) ∧
      (RefsExist f s → Right f s n) ∧ (¬ RefsExist f s → n.active = false)) ∧
      (∀ (i : Nat) (n : Node), f.nodes[i]? = some (some n) → ∃ s n0, s ∈ l ∧ Made s n0 ∧ f1.nodes[i]? = some (some n0) ∧ n = (initNode f1.nodes n0).1) := by
  obtain ⟨z, _, c, _⟩ := createAll_ok l empty f1 ht zero_empty h1
  obtain ⟨c1, c2⟩ := c (by rw [he]; rfl)
  obtain ⟨i1, i2, _⟩ := initAll_ok h
  refine ⟨same_zero i1 z, fun s hm => ?_, fun i n hi => ?_⟩
  · obtain ⟨i, n, g1, g2, g3⟩ := c1 s hm
    have hr := refs_iff z g2 (hs s hm)
    have hfresh := initNode_fresh (nodes := f1.nodes) g2.2.2.2.2.2.2
    refine ⟨i, _, i2 i n g1, ?_, g3, fun hR => ?_, fun hR => ?_⟩
    · rw [← g2.1]
      unfold initNode
      simp only
      split
      · rfl
      · split
        · rfl
        · split
          · rfl
          · split <;> rfl
    · rw [refsExist_congr i1] at hR
      have hok := hfresh.1.mpr (hr.mpr hR)
      rw [hfresh.2 hok]
      exact right_done i1 g2 (hs s hm) (hr.mpr hR)
    · rw [refsExist_congr i1] at hR
      exact initNode_fails (fun hok => hR (hr.mp (hfresh.1.mp hok)))
  · obtain ⟨n0, hn0⟩ := (same_exists i1 i).mp ⟨n, hi⟩
    have := i2 i n0 hn0
    rw [hi] at this
    simp only [Option.some.injEq] at this
    rcases c2 i n0 hn0 with h0 | ⟨s, hs, hm⟩
    · have : i ≠ 0 := by rintro rfl; exact zero_empty.2 _ h0
      have e0 : (empty.nodes[i]? : Option (Option Node)) = none := List.getElem?_eq_none (by simp [empty]; omega)
      rw [e0] at h0; cases h0
    · exact ⟨s, n0, hs, hm, hn0, this⟩

/-! A second time. -/

theorem link_set {nodes : List (Option Node)} {opt : Bool} : ∀ (idx : List Int) (v : List (Option Nat)), (link nodes opt idx v).2 = .ok () →
    ∀ (k j : Nat) (i : Int), v[k]? = some (some j) → idx[k]? = some i → opt = true ∧ i < 0
  | [], v, _, k, j, i, _, hi => by simp at hi
  | a :: r, [], _, k, j, i, hv, _ => by simp at hv
  | a :: r, o :: v, h, k, j, i, hv, hi => by
    unfold link at h
    by_cases ho : opt = true ∧ a < 0
    · rw [if_pos ho] at h
      cases k with
      | zero => simp only [List.getElem?_cons_zero, Option.some.injEq] at hi; subst hi; exact ho
      | succ k => exact link_set r v h k j i (by simpa using hv) (by simpa using hi)
    · rw [if_neg ho] at h
      cases hg : get nodes a with
      | ok q =>
        rw [hg] at h
        cases o with
        | some w => simp at h
        | none =>
          cases k with
          | zero => simp at hv
          | succ k => exact link_set r v h k j i (by simpa using hv) (by simpa using hi)
      | err => rw [hg] at h; cases h
      | ub => rw [hg] at h; cases h

theorem resize_self (v : List (Option Nat)) : resize v.length v = v := by simp [resize]

theorem again_fails {nodes : List (Option Node)} {n : Node} {k j : Nat} (h : ((done n).kids[k]? = some (some j)) ∨ ((done n).steps[k]? = some (some j))) :
    (initNode nodes (done n)).2 ≠ .ok () := by
  intro hok
  have hkl : (done n).kids.length = (done n).childIdx.length := by simp [done]
  have hsl : (done n).steps.length = (done n).stepIdx.length := by simp [done]
  unfold initNode at hok
  simp only at hok
  split at hok
  · rename_i e; exact e hok
  split at hok
  · rename_i e; exact e hok
  rename_i ek
  split at hok
  · rename_i e; exact e hok
  rename_i es
  rw [← hkl, resize_self] at ek
  rw [← hsl, resize_self] at es
  rcases h with h | h
  · have hi : ∃ i : Int, (done n).childIdx[k]? = some i ∧ ¬ i < 0 := by
      simp only [done, List.getElem?_map] at h ⊢
      cases hc : n.childIdx[k]? with
      | none => rw [hc] at h; cases h
      | some i =>
        rw [hc] at h
        refine ⟨i, rfl, fun hneg => ?_⟩
        simp [hneg] at h
    obtain ⟨i, hi, hneg⟩ := hi
    exact hneg (link_set _ _ (Decidable.not_not.mp ek) k j i h hi).2
  · have hi : ∃ i : Int, (done n).stepIdx[k]? = some i := by
      simp only [done, List.getElem?_map] at h ⊢
      cases hc : n.stepIdx[k]? with
      | none => rw [hc] at h; cases h
      | some i => exact ⟨i, rfl⟩
    obtain ⟨i, hi⟩ := hi
    have := (link_set _ _ (Decidable.not_not.mp es) k j i h hi).1
    cases this

/-! When records are accepted. -/

theorem takes_unique {c : Cls} {mn mn' : Nat} {mx mx' : Option Nat} (h : Takes c mn mx) (h' : Takes c mn' mx') : mn = mn' ∧ mx = mx' := by
  have a := limits_eq h
  rw [limits_eq h'] at a
  cases a
  exact ⟨rfl, rfl⟩

theorem attach_legal {s : Spec} {mn : Nat} {mx : Option Nat} (ht : Takes s.cls mn mx) (hs : Single s.cls.labels s.kids) :
    (∃ v, attach ⟨mn, mx, s.cls.labels⟩ s.kids = .ok v) ↔ Legal s := by
  have hL : Legal s ↔ (∀ k, k < mn → ∃ j, Names s.cls.labels s.kids k j) ∧
    match s.kids with
    | .absent => True
    | .fields l => (∀ p ∈ l, ∃ k, Means s.cls.labels p.1 k ∧ ∀ m, mx = some m → k < m)
    | .vector l => ∀ m, mx = some m → l.length ≤ m
    | .other => False := by
    constructor
    · rintro ⟨mn', mx', ht', h⟩
      obtain ⟨rfl, rfl⟩ := takes_unique ht ht'
      exact h
    · intro h; exact ⟨mn, mx, ht, h⟩
  rw [hL]
  cases hk : s.kids with
  | fields l =>
    rw [hk] at hs
    have h := attach_iff (lim := ⟨mn, mx, s.cls.labels⟩) hs
    rw [h]
    simp only
    constructor
    · rintro ⟨h1, h2, h3⟩
      refine ⟨h3, fun p hp => ?_⟩
      obtain ⟨k, hk⟩ := h1 p hp
      exact ⟨k, hk, fun m hm => h2 m hm p hp k hk⟩
    · rintro ⟨h3, h1⟩
      refine ⟨fun p hp => ?_, fun m hm p hp k hk => ?_, h3⟩
      · obtain ⟨k, hk, _⟩ := h1 p hp
        exact ⟨k, hk⟩
      · obtain ⟨k', hk', h'⟩ := h1 p hp
        rw [means_unique hk hk']
        exact h' m hm
  | absent =>
    simp only [Names, exists_false, and_true]
    constructor
    · rintro ⟨v, hv⟩ k hk
      obtain ⟨h1, h2, _⟩ := (attach_bind _ _ v).mp hv
      simp only at h1 h2
      subst h1; simp at h2; omega
    · intro h
      have hmn : mn = 0 := by
        by_contra hc
        exact h 0 (by omega)
      subst hmn
      exact ⟨[], (attach_bind _ _ _).mpr ⟨rfl, by simp, by simp, fun k hk => absurd hk (by simp)⟩⟩
  | vector l =>
    simp only [Names]
    constructor
    · rintro ⟨v, hv⟩
      obtain ⟨h1, h2, h3, h4⟩ := (attach_bind _ _ v).mp hv
      simp only at h1 h2 h3 h4
      subst h1
      refine ⟨fun k hk => ?_, h3⟩
      obtain ⟨i, hi, hi'⟩ := h4 k hk
      exact ⟨i.toNat, by rw [hi, Int.toNat_of_nonneg hi']⟩
    · rintro ⟨h1, h2⟩
      refine ⟨l, (attach_bind _ _ _).mpr ⟨rfl, ?_, h2, fun k hk => ?_⟩⟩
      · simp only
        by_contra hc
        obtain ⟨j, hj⟩ := h1 l.length (by omega)
        rw [List.getElem?_eq_none (by omega)] at hj; cases hj
      · obtain ⟨j, hj⟩ := h1 k hk
        exact ⟨j, hj, by omega⟩
  | other =>
    simp only [and_false, iff_false]
    rintro ⟨v, hv⟩
    exact ((attach_bind _ _ v).mp hv).1

/-- Name and index are free. -/
theorem make_iff {f : Forest} {s : Spec} {mn : Nat} {mx : Option Nat} (ht : Takes s.cls mn mx) (hs : Single s.cls.labels s.kids) :
    (∃ i n, make f s = .ok (i, n)) ↔ Legal s ∧ (s.name = [] ∨ ∀ (i : Nat) (n : Node), f.nodes[i]? = some (some n) → n.name ≠ s.name) ∧
      (0 < s.index → ∀ n, f.nodes[s.index.toNat]? ≠ some (some n)) := by
  have hname : (f.nodes.any (fun o => o.any (fun n => decide (n.name = s.name))) = true) ↔ ∃ (i : Nat) (n : Node), f.nodes[i]? = some (some n) ∧ n.name = s.name := by
    rw [List.any_eq_true]
    constructor
    · rintro ⟨o, ho, h⟩
      obtain ⟨i, hi⟩ := List.getElem?_of_mem ho
      cases o with
      | none => cases h
      | some n => exact ⟨i, n, hi, by simpa using h⟩
    · rintro ⟨i, n, hi, h⟩
      exact ⟨some n, List.mem_of_getElem? hi, by simpa using h⟩
  have hidx : ((f.nodes[s.index.toNat]?).any Option.isSome = true) ↔ ∃ n, f.nodes[s.index.toNat]? = some (some n) := by
    cases f.nodes[s.index.toNat]? with
    | none => simp
    | some o => cases o <;> simp
  rw [← attach_legal ht hs]
  unfold make
  rw [limits_eq ht]
  simp only [Res.ok_bind]
  by_cases hn : s.name ≠ [] ∧ (f.nodes.any (fun o => o.any (fun n => decide (n.name = s.name))) = true)
  · rw [if_pos hn]
    constructor
    · rintro ⟨_, _, h⟩; cases h
    · rintro ⟨_, h | h, _⟩
      · exact absurd h hn.1
      · obtain ⟨i, n, h1, h2⟩ := hname.mp hn.2
        exact absurd h2 (h i n h1)
  · rw [if_neg hn]
    have hn' : s.name = [] ∨ ∀ (i : Nat) (n : Node), f.nodes[i]? = some (some n) → n.name ≠ s.name := by
      by_cases he : s.name = []
      · exact Or.inl he
      · exact Or.inr (fun i n h1 h2 => hn ⟨he, hname.mpr ⟨i, n, h1, h2⟩⟩)
    by_cases hp : 0 < s.index
    · simp only [if_pos hp]
      by_cases hi : (f.nodes[s.index.toNat]?).any Option.isSome = true
      · rw [if_pos hi]
        constructor
        · rintro ⟨_, _, h⟩; cases h
        · rintro ⟨_, _, h⟩
          obtain ⟨n, h1⟩ := hidx.mp hi
          exact absurd h1 (h hp n)
      · rw [if_neg hi]
        simp only [Res.ok_bind]
        constructor
        · rintro ⟨i, n, h⟩
          rw [Res.bind_eq_ok] at h
          obtain ⟨v, hv, _⟩ := h
          exact ⟨⟨v, hv⟩, hn', fun _ n h => hi (hidx.mpr ⟨n, h⟩)⟩
        · rintro ⟨⟨v, hv⟩, _⟩
          rw [hv]
          exact ⟨_, _, rfl⟩
    · simp only [if_neg hp]
      constructor
      · rintro ⟨i, n, h⟩
        rw [Res.bind_eq_ok] at h
        obtain ⟨v, hv, _⟩ := h
        exact ⟨⟨v, hv⟩, hn', fun h => absurd h hp⟩
      · rintro ⟨⟨v, hv⟩, _⟩
        rw [hv]
        exact ⟨_, _, rfl⟩

theorem createAll_good : ∀ (l : List Spec) (f : Forest), Zero f → (∀ s ∈ l, Legal s ∧ Single s.cls.labels s.kids ∧ 0 < s.index) →
    l.Pairwise (fun s t => s.index ≠ t.index ∧ (s.name = [] ∨ s.name ≠ t.name)) →
    (∀ (i : Nat) (n : Node), f.nodes[i]? = some (some n) → ∀ s ∈ l, i ≠ s.index.toNat ∧ (s.name = [] ∨ n.name ≠ s.name)) →
    ∃ f', createAll f l = .ok f' ∧ f'.errors = f.errors
  | [], f, _, _, _, _ => ⟨f, rfl, rfl⟩
  | s :: l, f, hz, hl, hp, hd => by
    obtain ⟨hL, hS, hpos⟩ := hl s List.mem_cons_self
    obtain ⟨mn, mx, ht, _⟩ := id hL
    obtain ⟨i, n, hm⟩ := (make_iff (f := f) ht hS).mpr ⟨hL, by
      by_cases he : s.name = []
      · exact Or.inl he
      · exact Or.inr (fun i n h => ((hd i n h s List.mem_cons_self).2).resolve_left he), fun _ n h => (hd _ n h s List.mem_cons_self).1 rfl⟩
    have hc : ∃ f1, create f s = .ok f1 ∧ f1.errors = f.errors := by
      unfold create
      rw [hm]
      exact ⟨_, rfl, rfl⟩
    obtain ⟨f1, hc, he⟩ := hc
    obtain ⟨z1, _, a3, _⟩ := create_ok ⟨mn, mx, ht⟩ hz hc
    obtain ⟨i', n', m1, _, m3, m4⟩ := a3 he
    rw [List.pairwise_cons] at hp
    obtain ⟨f2, h2, he2⟩ := createAll_good l f1 z1 (fun t h => hl t (List.mem_cons_of_mem _ h)) hp.2 (fun k m hk t hmem => by
      rcases (m4 k m).mp hk with ⟨rfl, rfl⟩ | ⟨_, hk⟩
      · rw [m3 hpos, m1.1]
        have h1 := hp.1 t hmem
        have h2 := (hl t (List.mem_cons_of_mem _ hmem)).2.2
        refine ⟨by omega, ?_⟩
        by_cases e : t.name = []
        · exact Or.inl e
        · right
          rcases h1.2 with h | h
          · rw [h]; exact fun h => e h.symm
          · exact h
      · exact hd k m hk t (List.mem_cons_of_mem _ hmem))
    exact ⟨f2, by unfold createAll; rw [hc]; exact h2, by omega⟩

/-- What is needed of the records of a batch. -/
theorem batch_good {l : List Spec} (hl : ∀ s ∈ l, Legal s ∧ Single s.cls.labels s.kids ∧ 0 < s.index)
    (hp : l.Pairwise (fun s t => s.index ≠ t.index ∧ (s.name = [] ∨ s.name ≠ t.name)))
    (hr : ∀ s ∈ l, (∀ k j, Names s.cls.labels s.kids k j → ∃ t ∈ l, t.index = j) ∧ (∀ i ∈ s.step, ∃ t ∈ l, t.index = i) ∧
      (∀ i ∈ s.parents, ∃ t ∈ l, t.index = i) ∧ s.settings = true) : ∃ f, batch empty l = .ok f ∧ f.errors = 0 := by
  obtain ⟨f1, h1, he⟩ := createAll_good l empty zero_empty hl hp (fun i n h => by
    exfalso
    by_cases e : i = 0
    · subst e; exact zero_empty.2 _ h
    · have e0 : (empty.nodes[i]? : Option (Option Node)) = none := List.getElem?_eq_none (by simp [empty]; omega)
      rw [e0] at h; cases h)
  have he0 : f1.errors = 0 := he
  have ht : ∀ s ∈ l, ∃ mn mx, Takes s.cls mn mx := fun s hs => by
    obtain ⟨mn, mx, h, _⟩ := (hl s hs).1
    exact ⟨mn, mx, h⟩
  obtain ⟨z, _, c, _⟩ := createAll_ok l empty f1 ht zero_empty h1
  obtain ⟨c1, c2⟩ := c he
  have hex : ∀ i : Int, (∃ t ∈ l, t.index = i) → 0 < i ∧ Exists f1 i.toNat := by
    rintro i ⟨t, htl, rfl⟩
    have hpos := (hl t htl).2.2
    obtain ⟨k, n, hk, _, hk'⟩ := c1 t htl
    rw [hk' hpos] at hk
    exact ⟨hpos, n, hk⟩
  have hok : ∀ (i : Nat) (n : Node), f1.nodes[i]? = some (some n) → (initNode f1.nodes n).2 = .ok () := by
    intro i n hn
    rcases c2 i n hn with h | ⟨s, hs, hm⟩
    · exfalso
      by_cases e : i = 0
      · subst e; exact zero_empty.2 _ h
      · have e0 : (empty.nodes[i]? : Option (Option Node)) = none := List.getElem?_eq_none (by simp [empty]; omega)
        rw [e0] at h; cases h
    · apply (initNode_fresh hm.2.2.2.2.2.2).1.mpr
      rw [refs_iff z hm (hl s hs).2.1]
      obtain ⟨r1, r2, r3, r4⟩ := hr s hs
      exact ⟨fun k j h => by simpa using (hex _ (r1 k j h)).2, fun i h => hex i (r2 i h), fun i h => hex i (r3 i h), r4⟩
  obtain ⟨f, hf⟩ := initFrom_total (List.range f1.nodes.length) f1 (fun i n hn _ => by rw [hok i n hn]; simp) List.nodup_range
  refine ⟨f, ?_, ?_⟩
  · unfold batch
    rw [h1]
    simp only [Res.ok_bind]
    rw [if_pos he0]
    exact hf
  · obtain ⟨_, _, h3⟩ := initAll_ok (f := f1) hf
    have : (List.range f1.nodes.length).filter (failsAt f1.nodes) = [] := by
      rw [List.filter_eq_nil_iff]
      intro i _ hfail
      unfold failsAt at hfail
      split at hfail
      · rename_i n hn
        rw [hok i n hn] at hfail
        simp at hfail
      · cases hfail
    rw [this, he0] at h3
    simpa using h3

/-- The errors are the nodes that are not active. -/
theorem errors_inactive {l : List Spec} {f1 f : Forest} (ht : ∀ s ∈ l, ∃ mn mx, Takes s.cls mn mx)
    (hs : ∀ s ∈ l, Single s.cls.labels s.kids) (h1 : createAll empty l = .ok f1) (he : f1.errors = 0) (h : initAll f1 = .ok f) :
    f.errors = ((List.range f.nodes.length).filter (fun i => (f.nodes[i]?).any (fun o => o.any (fun n => !n.active)))).length := by
  obtain ⟨i1, i2, i3⟩ := initAll_ok h
  obtain ⟨_, _, b3⟩ := batch_nodes ht hs h1 he h
  rw [i3, he, Nat.zero_add, i1.length]
  congr 1
  apply List.filter_congr
  intro i _
  have e : ((f.nodes[i]?).any (fun o => o.any (fun n => !n.active)) = true) ↔ ∃ n, f.nodes[i]? = some (some n) ∧ n.active = false := by
    cases f.nodes[i]? with
    | none => simp
    | some o => cases o <;> simp
  rw [Bool.eq_iff_iff, e]
  constructor
  · intro hfail
    unfold failsAt at hfail
    split at hfail
    · rename_i n hn
      exact ⟨_, i2 i n hn, initNode_fails (by simpa using hfail)⟩
    · cases hfail
  · rintro ⟨n, hn, ha⟩
    obtain ⟨s, n0, _, hm, hn0, rfl⟩ := b3 i n hn
    unfold failsAt
    rw [hn0]
    simp only [decide_eq_true_iff]
    intro hok
    rw [(initNode_fresh hm.2.2.2.2.2.2).2 hok] at ha
    simp only [done] at ha
    rw [hm.2.2.2.2.2.2.2.2.2] at ha
    cases ha

end Verif.NodeInit
