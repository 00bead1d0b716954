import Verif.Spec.Solver
import Verif.Proof.Tiling
/-! # The solver's unknowns: proofs -/
namespace Verif.Solver
open Verif.Tiling

/-! ## Tile sizes -/

theorem sizes_length : ∀ (ns ts : List Nat), (sizes ns ts).length = ns.length
  | [], _ => rfl
  | n :: ns, ts => by simp [sizes, sizes_length ns ts.tail]

theorem normTiles_ok : ∀ (ns ts : List Nat), (∀ n ∈ ns, n ≠ 0) → Fits ns ts → normTiles ns ts = some (sizes ns ts)
  | [], ts, _, h => by
    have : (ts.all fun x => x == 0) = true := by rw [List.all_eq_true]; intro x hx; simpa using h x hx
    simp [normTiles, this, sizes]
  | n :: ns, [], hd, h => by
    have ih := normTiles_ok ns [] (fun m hm => hd m (by simp [hm])) h.2
    simp [normTiles, ih, sizes, tileLen]
  | n :: ns, t :: ts, hd, h => by
    have ih := normTiles_ok ns ts (fun m hm => hd m (by simp [hm])) h.2
    have hn : n ≠ 0 := hd n (by simp)
    simp [normTiles, ih, hn, sizes, tileLen]

theorem sizes_le : ∀ (ns ts : List Nat), Fits ns ts → List.Forall₂ (· ≤ ·) (sizes ns ts) ns
  | [], _, _ => .nil
  | n :: ns, ts, h => by
    refine .cons ?_ (sizes_le ns ts.tail h.2)
    have := h.1
    unfold tileLen; split <;> omega

theorem sizes_pos : ∀ (ns ts : List Nat), (∀ n ∈ ns, n ≠ 0) → ∀ k ∈ sizes ns ts, 0 < k
  | [], _, _, k, hk => by simp [sizes] at hk
  | n :: ns, ts, hd, k, hk => by
    simp only [sizes, List.mem_cons] at hk
    rcases hk with rfl | hk
    · exact tileLen_pos (hd n (by simp))
    · exact sizes_pos ns ts.tail (fun m hm => hd m (by simp [hm])) k hk

/-! ## The order on tile sizes -/

theorem less_iff : ∀ (a b : List Nat) (e : Bool), a.length = b.length →
    (less a b e = true ↔ List.Forall₂ (· ≤ ·) a b ∧ (a ≠ b ∨ e = false))
  | [], [], e, _ => by cases e <;> simp [less]
  | x :: a, y :: b, e, h => by
    rw [less]
    by_cases hlt : y < x
    · simp only [hlt, if_true]
      constructor
      · intro h; cases h
      · rintro ⟨h, _⟩; cases h; omega
    · simp only [hlt, if_false]
      rw [less_iff a b _ (by simpa using h)]
      have hle : x ≤ y := by omega
      simp only [List.forall₂_cons, hle, true_and]
      apply and_congr_right
      intro _
      by_cases hxy : x < y
      · have : x ≠ y := by omega
        simp [hxy, this]
      · have : x = y := by omega
        subst this
        simp
  | [], _ :: _, _, h => by simp at h
  | _ :: _, [], _, h => by simp at h

/-- `less` with the flag as the map uses it. -/
theorem less_true {a b : List Nat} (h : a.length = b.length) : less a b true = true ↔ List.Forall₂ (· ≤ ·) a b ∧ a ≠ b := by
  rw [less_iff a b true h]; simp

theorem forall₂_antisymm : ∀ {a b : List Nat}, List.Forall₂ (· ≤ ·) a b → List.Forall₂ (· ≤ ·) b a → a = b
  | [], [], _, _ => rfl
  | x :: a, y :: b, h, h' => by
    cases h with | cons h1 h2 => cases h' with | cons h3 h4 =>
    rw [forall₂_antisymm h2 h4, Nat.le_antisymm h1 h3]
  | [], _ :: _, h, _ => by cases h
  | _ :: _, [], h, _ => by cases h

theorem forall₂_refl : ∀ (a : List Nat), List.Forall₂ (· ≤ ·) a a
  | [] => .nil
  | x :: a => .cons (Nat.le_refl x) (forall₂_refl a)

theorem forall₂_trans : ∀ {a b c : List Nat}, List.Forall₂ (· ≤ ·) a b → List.Forall₂ (· ≤ ·) b c → List.Forall₂ (· ≤ ·) a c
  | _, _, _, .nil, .nil => .nil
  | _, _, _, .cons h t, .cons h' t' => .cons (Nat.le_trans h h') (forall₂_trans t t')

/-- The map in order. -/
def SortedKeys (m : List (List Nat)) : Prop := m.Pairwise fun a b => List.Forall₂ (· ≤ ·) a b ∧ a ≠ b

/-- With keys that can be compared, find-or-insert gives the tiling of that key. -/
theorem obtain_ok (N : Nat) (k : List Nat) (hk : k.length = N) : ∀ (m : List (List Nat)), (∀ a ∈ m, a.length = N) → SortedKeys m →
    (∀ a ∈ m, Comparable a k) → (obtain_ k m).2 = k ∧ SortedKeys (obtain_ k m).1 ∧ ∀ x, x ∈ (obtain_ k m).1 ↔ x = k ∨ x ∈ m
  | [], _, _, _ => by simp [obtain_, lookup, insert, SortedKeys]
  | a :: m, hl, hs, hc => by
    have hla : a.length = k.length := by rw [hl a (by simp), hk]
    obtain ⟨hs1, hs2⟩ := List.pairwise_cons.1 hs
    have ih := obtain_ok N k hk m (fun x hx => hl x (by simp [hx])) hs2 (fun x hx => hc x (by simp [hx]))
    by_cases h1 : less a k true = true
    · have e : obtain_ k (a :: m) = (a :: (obtain_ k m).1, (obtain_ k m).2) := by
        unfold obtain_
        rw [lookup, if_pos h1]
        cases hlk : lookup k m with
        | some x => rfl
        | none => simp [insert, h1]
      rw [e]
      refine ⟨ih.1, ?_, ?_⟩
      · refine List.pairwise_cons.2 ⟨?_, ih.2.1⟩
        intro x hx
        rcases (ih.2.2 x).1 hx with rfl | hx
        · exact (less_true hla).1 h1
        · exact hs1 x hx
      · intro x
        simp only [List.mem_cons, ih.2.2 x]
        tauto
    · have hnl : ¬ (List.Forall₂ (· ≤ ·) a k ∧ a ≠ k) := fun h => h1 ((less_true hla).2 h)
      by_cases h2 : less k a true = true
      · have e : obtain_ k (a :: m) = (k :: a :: m, k) := by
          unfold obtain_
          rw [lookup, if_neg h1, if_pos h2]
          simp [insert, h1]
        rw [e]
        have hka := (less_true hla.symm).1 h2
        refine ⟨rfl, ?_, fun x => by simp⟩
        refine List.pairwise_cons.2 ⟨?_, hs⟩
        intro x hx
        rcases List.mem_cons.1 hx with rfl | hx
        · exact hka
        · have := hs1 x hx
          refine ⟨forall₂_trans hka.1 this.1, ?_⟩
          rintro rfl
          exact this.2 (forall₂_antisymm this.1 hka.1)
      · have hnl2 : ¬ (List.Forall₂ (· ≤ ·) k a ∧ k ≠ a) := fun h => h2 ((less_true hla.symm).2 h)
        have hak : a = k := by
          by_contra hne
          rcases hc a (by simp) with h | h
          · exact hnl ⟨h, hne⟩
          · exact hnl2 ⟨h, fun h => hne h.symm⟩
        have e : obtain_ k (a :: m) = (a :: m, a) := by
          unfold obtain_
          rw [lookup, if_neg h1, if_neg h2]
        rw [e]
        refine ⟨hak, hs, ?_⟩
        intro x
        rw [hak]; simp

/-! ## The first loop -/

theorem maxTiles_length : ∀ (ns ts ms : List Nat), ms.length = ns.length → (maxTiles ns ts ms).length = ns.length
  | [], _, [], _ => rfl
  | n :: ns, ts, m :: ms, h => by simp [maxTiles, maxTiles_length ns ts.tail ms (by simpa using h)]
  | [], _, _ :: _, h => by simp at h
  | _ :: _, _, [], h => by simp at h

/-- The largest tile size of an axis is one of the tile sizes. -/
theorem maxTiles_get : ∀ (ns ts ms : List Nat), ms.length = ns.length → (∀ n ∈ ns, n ≠ 0) → ∀ i < ns.length,
    (maxTiles ns ts ms).getD i 0 = (sizes ns ts).getD i 0 ∨ (maxTiles ns ts ms).getD i 0 = ms.getD i 0 ∧ ms.getD i 0 ≠ 0
  | n :: ns, ts, m :: ms, h, hd, 0, _ => by
    have hn : n ≠ 0 := hd n (by simp)
    simp only [maxTiles, hn, if_false, sizes, tileLen, List.getD_cons_zero]
    by_cases ht : ts.headD 0 = 0
    · left; simp only [ht, if_true]
    · simp only [ht, if_false]; omega
  | n :: ns, ts, m :: ms, h, hd, i + 1, hi => by
    have := maxTiles_get ns ts.tail ms (by simpa using h) (fun x hx => hd x (by simp [hx])) i (by simpa using hi)
    simpa only [maxTiles, sizes, List.getD_cons_succ] using this
  | [], _, _, _, _, _, hi => by simp at hi
  | _ :: _, _, [], h, _, _, _ => by simp at h

/-- What holds after the records `done`. -/
structure PopInv (nc : List Nat) (done : List SpidRec) (p : Pop) : Prop where
  groupsNodup : p.groups.Nodup
  groupsMem : ∀ g, g ∈ p.groups ↔ ∃ r ∈ done, r.group = g
  keysLen : ∀ k ∈ p.keys, k.length = nc.length
  keysSorted : SortedKeys p.keys
  keysMem : ∀ k, k ∈ p.keys ↔ ∃ r ∈ done, sizes nc r.tile = k
  maxsLen : p.maxs.length = nc.length
  maxsMem : ∀ i < nc.length, (p.maxs.getD i 0 = 0 ∧ done = []) ∨ ∃ r ∈ done, p.maxs.getD i 0 = (sizes nc r.tile).getD i 0
  perm : p.infos.Perm (done.map fun r => ⟨r.spid, r.node, p.groups.idxOf r.group, sizes nc r.tile⟩)
  sorted : p.infos.Pairwise fun a b => a.spid ≤ b.spid

instance : Std.Total (fun a b : Info => a.spid ≤ b.spid) := ⟨fun _ _ => Nat.le_total _ _⟩
instance : IsTrans Info (fun a b : Info => a.spid ≤ b.spid) := ⟨fun _ _ _ h h' => Nat.le_trans h h'⟩

theorem popStep_ok (nc : List Nat) (hd : ∀ n ∈ nc, n ≠ 0) (done : List SpidRec) (r : SpidRec) (p : Pop) (inv : PopInv nc done p) (hf : Fits nc r.tile)
    (hc : ∀ r' ∈ done, Comparable (sizes nc r'.tile) (sizes nc r.tile)) : ∃ p', popStep nc p r = some p' ∧ PopInv nc (done ++ [r]) p' := by
  have ho := obtain_ok nc.length (sizes nc r.tile) (sizes_length _ _) p.keys inv.keysLen inv.keysSorted (by
    intro a ha
    obtain ⟨r', hr', rfl⟩ := (inv.keysMem a).1 ha
    exact hc r' hr')
  refine ⟨_, by rw [popStep, normTiles_ok nc r.tile hd hf]; rfl, ?_⟩
  set gs := (if r.group ∈ p.groups then p.groups else p.groups ++ [r.group]) with hgs
  have hgd : gs.Nodup := by
    rw [hgs]; split
    · exact inv.groupsNodup
    · rename_i hn
      exact List.nodup_append.2 ⟨inv.groupsNodup, by simp, by
        intro a ha b hb; simp at hb; subst hb; rintro rfl; exact hn ha⟩
  have hgm : ∀ g, g ∈ gs ↔ g = r.group ∨ g ∈ p.groups := by
    intro g
    rw [hgs]; split
    · rename_i hm
      constructor
      · exact Or.inr
      · rintro (rfl | h); exacts [hm, h]
    · simp [or_comm]
  have hidx : ∀ g ∈ p.groups, gs.idxOf g = p.groups.idxOf g := by
    intro g hg
    rw [hgs]; split
    · rfl
    · exact List.idxOf_append_of_mem hg
  refine ⟨hgd, ?_, ?_, ho.2.1, ?_, ?_, ?_, ?_, ?_⟩
  · intro g
    show g ∈ gs ↔ _
    rw [hgm g, inv.groupsMem g]
    constructor
    · rintro (rfl | ⟨r', hr', rfl⟩)
      · exact ⟨r, by simp, rfl⟩
      · exact ⟨r', by simp [hr'], rfl⟩
    · rintro ⟨r', hr', rfl⟩
      rcases List.mem_append.1 hr' with h | h
      · exact Or.inr ⟨r', h, rfl⟩
      · simp at h; subst h; exact Or.inl rfl
  · intro k hk
    rcases (ho.2.2 k).1 hk with rfl | hk
    · exact sizes_length _ _
    · exact inv.keysLen k hk
  · intro k
    show k ∈ (obtain_ _ _).1 ↔ _
    rw [ho.2.2 k, inv.keysMem k]
    constructor
    · rintro (rfl | ⟨r', hr', rfl⟩)
      · exact ⟨r, by simp, rfl⟩
      · exact ⟨r', by simp [hr'], rfl⟩
    · rintro ⟨r', hr', rfl⟩
      rcases List.mem_append.1 hr' with h | h
      · exact Or.inr ⟨r', h, rfl⟩
      · simp at h; subst h; exact Or.inl rfl
  · exact maxTiles_length nc r.tile p.maxs inv.maxsLen
  · intro i hi
    right
    show ∃ r' ∈ done ++ [r], (maxTiles nc r.tile p.maxs).getD i 0 = _
    rcases maxTiles_get nc r.tile p.maxs inv.maxsLen hd i hi with h | ⟨h, hne⟩
    · exact ⟨r, by simp, h⟩
    · rcases inv.maxsMem i hi with ⟨h0, _⟩ | ⟨r', hr', h'⟩
      · exact absurd h0 hne
      · exact ⟨r', by simp [hr'], by rw [h, h']⟩
  · show (List.orderedInsert _ (⟨r.spid, r.node, gs.idxOf r.group, (obtain_ (sizes nc r.tile) p.keys).2⟩ : Info) p.infos).Perm
      ((done ++ [r]).map fun r => ⟨r.spid, r.node, gs.idxOf r.group, sizes nc r.tile⟩)
    rw [ho.1]
    refine (List.perm_orderedInsert _ _ _).trans ?_
    rw [List.map_append]
    refine List.Perm.trans ?_ List.perm_append_comm
    refine List.Perm.cons _ ?_
    refine inv.perm.trans (List.Perm.of_eq ?_)
    apply List.map_congr_left
    intro r' hr'
    have : r'.group ∈ p.groups := (inv.groupsMem _).2 ⟨r', hr', rfl⟩
    rw [hidx _ this]
  · show (List.orderedInsert _ _ _).Pairwise _
    exact inv.sorted.orderedInsert _ _

theorem popLoop_ok (nc : List Nat) (hd : ∀ n ∈ nc, n ≠ 0) : ∀ (l done : List SpidRec) (p : Pop), PopInv nc done p → (∀ r ∈ done ++ l, Fits nc r.tile) →
    (∀ r ∈ done ++ l, ∀ r' ∈ done ++ l, Comparable (sizes nc r.tile) (sizes nc r'.tile)) → ∃ p', popLoop nc p l = some p' ∧ PopInv nc (done ++ l) p'
  | [], done, p, inv, _, _ => ⟨p, rfl, by simpa using inv⟩
  | r :: l, done, p, inv, hf, hc => by
    obtain ⟨p', h1, h2⟩ := popStep_ok nc hd done r p inv (hf r (by simp)) (fun r' hr' => hc r' (by simp [hr']) r (by simp))
    obtain ⟨p'', h3, h4⟩ := popLoop_ok nc hd l (done ++ [r]) p' h2 (by simpa using hf) (by simpa using hc)
    exact ⟨p'', by rw [popLoop, h1]; exact h3, by simpa using h4⟩

theorem popInv_start (nc : List Nat) : PopInv nc [] ⟨[], [], nc.map (fun _ => 0), []⟩ where
  groupsNodup := by simp
  groupsMem := by simp
  keysLen := by simp
  keysSorted := by simp [SortedKeys]
  keysMem := by simp
  maxsLen := by simp
  maxsMem := by
    intro i hi; left
    refine ⟨?_, rfl⟩
    simp only [List.getD_eq_getElem?_getD, List.getElem?_map]
    cases nc[i]? <;> rfl
  perm := by simp
  sorted := by simp

/-! ## The solver's tiles -/

theorem dvd_of_lcm {ts : List Nat} {l x : Nat} (h : IsLcm l ts) (hx : ∀ t ∈ ts, t ∣ x) : l ∣ x := by
  have hr : ∀ t ∈ ts, t ∣ x % l := fun t ht => (Nat.dvd_mod_iff (h.2.1 t ht)).2 (hx t ht)
  rcases Nat.eq_zero_or_pos (x % l) with h0 | h0
  · exact Nat.dvd_of_mod_eq_zero h0
  · have := h.2.2 _ h0 hr
    have := Nat.mod_lt x h.1
    omega

theorem exists_lcm : ∀ (ts : List Nat), (∀ t ∈ ts, 0 < t) → ∃ l, IsLcm l ts
  | [], _ => ⟨1, by simp [IsLcm]; omega⟩
  | t :: ts, h => by
    obtain ⟨l, hl⟩ := exists_lcm ts (fun x hx => h x (by simp [hx]))
    refine ⟨Nat.lcm t l, Nat.lcm_pos (h t (by simp)) hl.1, ?_, ?_⟩
    · intro x hx
      rcases List.mem_cons.1 hx with rfl | hx
      · exact Nat.dvd_lcm_left _ _
      · exact (hl.2.1 x hx).trans (Nat.dvd_lcm_right _ _)
    · intro m hm hall
      exact Nat.le_of_dvd hm (Nat.lcm_dvd (hall t (by simp)) (dvd_of_lcm hl fun x hx => hall x (by simp [hx])))

/-- The search gives the least common multiple, if that is less than the number of cells. -/
theorem lcmSearch_ok (ts : List Nat) (m n L : Nat) (hm : 0 < m) (hmem : m ∈ ts) (hL : IsLcm L ts) : ∀ (f l : Nat), m ∣ l → 0 < l → l ≤ L →
    n ≤ l + f * m → min (lcmSearch ts m n f l) n = min L n
  | 0, l, _, _, hle, hf => by rw [lcmSearch]; simp at hf; omega
  | f + 1, l, hd, hp, hle, hf => by
    rw [lcmSearch]
    by_cases h1 : l < n
    · rw [if_pos h1]
      by_cases h2 : (ts.all fun t => l % t == 0) = true
      · rw [if_pos h2]
        have : ∀ t ∈ ts, t ∣ l := by
          intro t ht
          have := List.all_eq_true.1 h2 t ht
          exact Nat.dvd_of_mod_eq_zero (by simpa using this)
        have := hL.2.2 l hp this
        omega
      · rw [if_neg h2]
        have hne : l ≠ L := by
          rintro rfl
          apply h2
          rw [List.all_eq_true]
          intro t ht
          simpa using Nat.mod_eq_zero_of_dvd (hL.2.1 t ht)
        have hmL : m ∣ L := hL.2.1 m hmem
        have hge : l + m ≤ L := by
          obtain ⟨a, rfl⟩ := hd
          obtain ⟨b, rfl⟩ := hmL
          have hab : a < b := by
            by_contra hc
            have : m * b ≤ m * a := Nat.mul_le_mul_left m (by omega)
            omega
          have : m * (a + 1) ≤ m * b := Nat.mul_le_mul_left m hab
          rw [Nat.mul_add] at this; omega
        exact lcmSearch_ok ts m n L hm hmem hL f (l + m) (Nat.dvd_add hd (Nat.dvd_refl m)) (by omega) hge (by rw [Nat.add_mul] at hf; omega)
    · rw [if_neg h1]; omega

theorem solverTiles_length (keys : List (List Nat)) : ∀ (i : Nat) (ns ms : List Nat), ms.length = ns.length → (solverTiles keys i ns ms).length = ns.length
  | _, [], [], _ => rfl
  | i, n :: ns, m :: ms, h => by simp [solverTiles, solverTiles_length keys (i + 1) ns ms (by simpa using h)]
  | _, [], _ :: _, h => by simp at h
  | _, _ :: _, [], h => by simp at h

theorem solverTiles_get (keys : List (List Nat)) : ∀ (i : Nat) (ns ms : List Nat) (j n m : Nat), ns[j]? = some n → ms[j]? = some m →
    (solverTiles keys i ns ms)[j]? = some (if n = 0 then m else min (lcmSearch (keys.map fun k => k.getD (i + j) 0) m n n m) n)
  | i, a :: ns, b :: ms, 0, n, m, hn, hm => by
    simp at hn hm; subst hn; subst hm; simp [solverTiles]
  | i, a :: ns, b :: ms, j + 1, n, m, hn, hm => by
    simp only [List.getElem?_cons_succ] at hn hm
    have := solverTiles_get keys (i + 1) ns ms j n m hn hm
    rw [solverTiles, List.getElem?_cons_succ, this]
    have e : i + 1 + j = i + (j + 1) := by omega
    rw [e]
  | _, [], _, _, _, _, hn, _ => by simp at hn
  | _, _ :: _, [], _, _, _, _, hm => by simp at hm

theorem getD_of_lt {l : List Nat} {i : Nat} (h : i < l.length) : l[i]? = some (l.getD i 0) := by
  rw [List.getD_eq_getElem?_getD, List.getElem?_eq_getElem h]; rfl

theorem lcm_congr {l : Nat} {ts ts' : List Nat} (h : ∀ x, x ∈ ts ↔ x ∈ ts') (hl : IsLcm l ts) : IsLcm l ts' :=
  ⟨hl.1, fun t ht => hl.2.1 t ((h t).2 ht), fun m hm hall => hl.2.2 m hm fun t ht => hall t ((h t).1 ht)⟩

theorem lcm_unique {l l' : Nat} {ts : List Nat} (h : IsLcm l ts) (h' : IsLcm l' ts) : l = l' :=
  Nat.le_antisymm (h.2.2 _ h'.1 h'.2.1) (h'.2.2 _ h.1 h.2.1)

theorem solverSizes_ok {nc : List Nat} {recs : List SpidRec} {p : Pop} (g : Good nc recs) (inv : PopInv nc recs p) :
    SolverSizes nc recs (solverTiles p.keys 0 nc p.maxs) := by
  refine ⟨solverTiles_length _ _ _ _ inv.maxsLen, ?_⟩
  intro i n hn hn0
  have hi : i < nc.length := (List.getElem?_eq_some_iff.1 hn).1
  have hpos : ∀ t ∈ recs.map (fun r => (sizes nc r.tile).getD i 0), 0 < t := by
    intro t ht
    obtain ⟨r, hr, rfl⟩ := List.mem_map.1 ht
    have hlt : i < (sizes nc r.tile).length := by rw [sizes_length]; exact hi
    exact sizes_pos nc r.tile g.defined _ (List.mem_of_getElem? (getD_of_lt hlt))
  obtain ⟨L, hL⟩ := exists_lcm _ hpos
  refine ⟨L, hL, ?_⟩
  have hm : p.maxs[i]? = some (p.maxs.getD i 0) := getD_of_lt (by rw [inv.maxsLen]; exact hi)
  rw [solverTiles_get _ 0 nc p.maxs i n _ hn hm, if_neg hn0, Nat.zero_add]
  have hmem : ∀ x, x ∈ p.keys.map (fun k => k.getD i 0) ↔ x ∈ recs.map (fun r => (sizes nc r.tile).getD i 0) := by
    intro x
    simp only [List.mem_map]
    constructor
    · rintro ⟨k, hk, rfl⟩
      obtain ⟨r, hr, rfl⟩ := (inv.keysMem k).1 hk
      exact ⟨r, hr, rfl⟩
    · rintro ⟨r, hr, rfl⟩
      exact ⟨_, (inv.keysMem _).2 ⟨r, hr, rfl⟩, rfl⟩
  have hmax : p.maxs.getD i 0 ∈ recs.map (fun r => (sizes nc r.tile).getD i 0) := by
    rcases inv.maxsMem i hi with ⟨_, h⟩ | ⟨r, hr, h⟩
    · exact absurd h g.some
    · exact List.mem_map.2 ⟨r, hr, h.symm⟩
  have hmp := hpos _ hmax
  have hLk := lcm_congr (fun x => (hmem x).symm) hL
  congr 1
  apply lcmSearch_ok _ _ _ _ hmp ((hmem _).2 hmax) hLk _ _ (Nat.dvd_refl _) hmp (Nat.le_of_dvd hL.1 (hL.2.1 _ hmax))
  have : n * 1 ≤ n * p.maxs.getD i 0 := Nat.mul_le_mul_left n hmp
  omega

/-- How the solver's tile is made of a parameter's tiles, on an axis: a multiple, or the whole axis. -/
def Unites (k s n : Nat) : Prop := 0 < k ∧ k ≤ s ∧ s ≤ n ∧ (k ∣ s ∨ s = n)

inductive Unites3 : List Nat → List Nat → List Nat → Prop
  | nil : Unites3 [] [] []
  | cons {k s n ks ss ns} : Unites k s n → Unites3 ks ss ns → Unites3 (k :: ks) (s :: ss) (n :: ns)

theorem unites3_of : ∀ (ks ss ns : List Nat), ks.length = ns.length → ss.length = ns.length →
    (∀ (i k s n : Nat), ks[i]? = some k → ss[i]? = some s → ns[i]? = some n → Unites k s n) → Unites3 ks ss ns
  | [], [], [], _, _, _ => .nil
  | k :: ks, s :: ss, n :: ns, h, h', H =>
    .cons (H 0 k s n rfl rfl rfl) (unites3_of ks ss ns (by simpa using h) (by simpa using h') fun i => H (i + 1))
  | [], _, _ :: _, h, _, _ => by simp at h
  | _ :: _, _, [], h, _, _ => by simp at h
  | [], _ :: _, [], _, h, _ => by simp at h
  | _ :: _, [], _ :: _, _, h, _ => by simp at h

theorem unites_ok {nc : List Nat} {recs : List SpidRec} {s : List Nat} (g : Good nc recs) (hs : SolverSizes nc recs s) {r : SpidRec} (hr : r ∈ recs) :
    Unites3 (sizes nc r.tile) s nc := by
  apply unites3_of _ _ _ (sizes_length _ _) hs.1
  intro i k a n hk ha hn
  obtain ⟨l, hl, he⟩ := hs.2 i n hn (g.defined n (List.mem_of_getElem? hn))
  have hae : a = min l n := by rw [ha] at he; exact Option.some.inj he
  have hkp : 0 < k := sizes_pos nc r.tile g.defined k (List.mem_of_getElem? hk)
  have hkn : k ≤ n := by
    have := sizes_le nc r.tile (g.fits r hr)
    have h2 := List.forall₂_iff_get.1 this
    have hi : i < (sizes nc r.tile).length := (List.getElem?_eq_some_iff.1 hk).1
    have hi' : i < nc.length := (List.getElem?_eq_some_iff.1 hn).1
    have := h2.2 i hi hi'
    change (sizes nc r.tile)[i] ≤ nc[i] at this
    have e1 := (List.getElem?_eq_some_iff.1 hk).2
    have e2 := (List.getElem?_eq_some_iff.1 hn).2
    omega
  have hkl : k ∣ l := hl.2.1 k (List.mem_map.2 ⟨r, hr, by rw [List.getD_eq_getElem?_getD, hk]; rfl⟩)
  have hkle : k ≤ l := Nat.le_of_dvd hl.1 hkl
  refine ⟨hkp, by omega, by omega, ?_⟩
  rcases Nat.le_total l n with h | h
  · left; rw [hae, Nat.min_eq_left h]; exact hkl
  · right; omega

/-! ## The solver tile of each tile -/

theorem nTiles_eq {t n : Nat} (ht : 0 < t) (hn : n ≠ 0) : nTiles t n = (n - 1) / t + 1 := by
  have := last_tile ht hn
  have := nTiles_pos ht hn
  omega

theorem unites_tiles {k s n : Nat} (h : Unites k s n) : nTiles (nTiles k s) (nTiles k n) = nTiles s n := by
  obtain ⟨h1, h2, h3, h4⟩ := h
  have hn : n ≠ 0 := by omega
  have hs0 : s ≠ 0 := by omega
  have hkn := nTiles_pos h1 hn
  have hks := nTiles_pos h1 hs0
  rw [nTiles_eq hks (by omega), nTiles_eq (t := s) (by omega) hn]
  rcases h4 with h4 | rfl
  · obtain ⟨q, rfl⟩ := h4
    have e : nTiles k (k * q) = q := by
      unfold nTiles; rw [Nat.mul_mod_right, Nat.mul_div_cancel_left _ h1]; rfl
    rw [e, nTiles_eq h1 hn, Nat.add_sub_cancel, Nat.div_div_eq_div_mul]
  · rw [Nat.div_eq_of_lt (by omega), Nat.div_eq_of_lt (by omega)]

theorem unites_idx {k s n c : Nat} (h : Unites k s n) (hc : c < n) : c / k / nTiles k s = c / s := by
  obtain ⟨h1, h2, h3, h4⟩ := h
  rcases h4 with h4 | rfl
  · obtain ⟨q, rfl⟩ := h4
    have e : nTiles k (k * q) = q := by
      unfold nTiles; rw [Nat.mul_mod_right, Nat.mul_div_cancel_left _ h1]; rfl
    rw [e, Nat.div_div_eq_div_mul]
  · have : c / k < nTiles k s := (Nat.div_lt_iff_lt_mul h1).2 (by have := (nTiles_covers h1 (show s ≠ 0 by omega)).1; omega)
    rw [Nat.div_eq_of_lt this, Nat.div_eq_of_lt hc]

/-- Sizes of the solver tiles in tiles, computed. -/
def subs : List Nat → List Nat → List Nat
  | k :: ks, s :: ss => nTiles k s :: subs ks ss
  | _, _ => []

theorem subSizes_ok : ∀ {ks ss ns : List Nat} (cs : List Nat), Unites3 ks ss ns → cs.length = ns.length →
    subSizes ss (axesAt ks ns cs) = some (subs ks ss)
  | _, _, _, _, .nil, _ => rfl
  | _, _, _, [], .cons _ _, hl => by simp at hl
  | k :: ks, s :: ss, n :: ns, c :: cs, .cons h t, hl => by
    have ih := subSizes_ok cs t (by simpa using hl)
    obtain ⟨h1, h2, h3, _⟩ := h
    have hn : n ≠ 0 := by omega
    have hk : k ≠ 0 := by omega
    have hl : tileLen k n = k := by simp [tileLen, hk]
    simp only [axesAt, hn, if_false, hl, subSizes, hk, ih, Option.map_some, subs, nTiles]

theorem tiles_axesAt : ∀ {ks ss ns : List Nat} (cs : List Nat), Unites3 ks ss ns → cs.length = ns.length →
    (axesAt ks ns cs).map (·.tiles) = grid ks ns
  | _, _, _, [], .nil, _ => rfl
  | _, _, _, _ :: _, .nil, hl => by simp at hl
  | _, _, _, [], .cons _ _, hl => by simp at hl
  | k :: ks, s :: ss, n :: ns, c :: cs, .cons h t, hl => by
    have ih := tiles_axesAt cs t (by simpa using hl)
    obtain ⟨h1, h2, h3, _⟩ := h
    have hn : n ≠ 0 := by omega
    simp only [axesAt, hn, if_false, List.map_cons, ih, grid]

theorem unites_grid : ∀ {ks ss ns : List Nat}, Unites3 ks ss ns → grid (subs ks ss) (grid ks ns) = grid ss ns
  | _, _, _, .nil => rfl
  | k :: ks, s :: ss, n :: ns, .cons h t => by
    have ih := unites_grid t
    have hu := unites_tiles h
    obtain ⟨h1, h2, h3, _⟩ := h
    have hn : n ≠ 0 := by omega
    have hk : k ≠ 0 := by omega
    have hs : s ≠ 0 := by omega
    have hkn : nTiles k n ≠ 0 := by have := nTiles_pos h1 hn; omega
    have hks : nTiles k s ≠ 0 := by have := nTiles_pos h1 hs; omega
    simp only [subs, grid, hn, if_false, tileLen, hk, hs, hkn, hks, ih, hu]

theorem unites_tileIdx : ∀ {ks ss ns : List Nat} (cs : List Nat), Unites3 ks ss ns → CellOf ns cs →
    tileIdx (subs ks ss) (grid ks ns) (tileIdx ks ns cs) = tileIdx ss ns cs
  | _, _, _, [], .nil, _ => rfl
  | _, _, _, _ :: _, .nil, h => h.elim
  | _, _, _, [], .cons _ _, h => h.elim
  | k :: ks, s :: ss, n :: ns, c :: cs, .cons h t, hc => by
    have ih := unites_tileIdx cs t hc.2
    have hu := unites_idx h hc.1
    obtain ⟨h1, h2, h3, _⟩ := h
    have hn : n ≠ 0 := by omega
    have hk : k ≠ 0 := by omega
    have hs : s ≠ 0 := by omega
    have hkn : nTiles k n ≠ 0 := by have := nTiles_pos h1 hn; omega
    have hks : nTiles k s ≠ 0 := by have := nTiles_pos h1 hs; omega
    simp only [subs, grid, tileIdx, hn, if_false, tileLen, hk, hs, hkn, hks, ih, hu]

theorem shapeOf_pos : ∀ {ns : List Nat}, (∀ n ∈ ns, n ≠ 0) → shapeOf ns = ns
  | [], _ => rfl
  | n :: ns, h => by
    have := shapeOf_pos (ns := ns) (fun m hm => h m (by simp [hm]))
    have hn : n ≠ 0 := h n (by simp)
    unfold shapeOf at this ⊢
    simp [hn, this]

theorem grid_ne_zero : ∀ (ts ns : List Nat), ∀ m ∈ grid ts ns, m ≠ 0
  | t :: ts, n :: ns, m, hm => by
    simp only [grid, List.mem_cons] at hm
    rcases hm with rfl | hm
    · split
      · simp
      · rename_i hn
        have := nTiles_pos (tileLen_pos (t := t) hn) hn; omega
    · exact grid_ne_zero ts ns m hm
  | [], _, m, hm => by simp [grid] at hm
  | _ :: _, [], m, hm => by simp [grid] at hm

theorem grid_length : ∀ (ts ns : List Nat), ts.length = ns.length → (grid ts ns).length = ns.length
  | [], [], _ => rfl
  | t :: ts, n :: ns, h => by simp [grid, grid_length ts ns (by simpa using h)]
  | [], _ :: _, h => by simp at h
  | _ :: _, [], h => by simp at h

theorem unites3_length : ∀ {ks ss ns : List Nat}, Unites3 ks ss ns → ks.length = ns.length ∧ ss.length = ns.length
  | _, _, _, .nil => ⟨rfl, rfl⟩
  | _, _, _, .cons _ t => by simp [(unites3_length t).1, (unites3_length t).2]

theorem subs_length : ∀ {ks ss ns : List Nat}, Unites3 ks ss ns → (subs ks ss).length = ns.length
  | _, _, _, .nil => rfl
  | _, _, _, .cons _ t => by simp [subs, subs_length t]

theorem cellOf_length : ∀ {ms cs : List Nat}, CellOf ms cs → cs.length = ms.length
  | [], [], _ => rfl
  | _ :: _, _ :: _, h => by simp [cellOf_length h.2]
  | [], _ :: _, h => h.elim
  | _ :: _, [], h => h.elim

theorem cellOf_zeros : ∀ {ms : List Nat}, (∀ m ∈ ms, m ≠ 0) → CellOf ms (ms.map fun _ => 0)
  | [], _ => trivial
  | m :: ms, h => ⟨Nat.pos_of_ne_zero (h m (by simp)), cellOf_zeros fun x hx => h x (by simp [hx])⟩

/-- A cell of a tile: its first one. -/
def corner : List Nat → List Nat → List Nat
  | t :: ts, k :: ks => (k * t) :: corner ts ks
  | _, _ => []

theorem corner_ok : ∀ {ts ss ns : List Nat} (ks : List Nat), Unites3 ts ss ns → CellOf (grid ts ns) ks → CellOf ns (corner ts ks) ∧ tileIdx ts ns (corner ts ks) = ks
  | _, _, _, [], .nil, _ => ⟨trivial, rfl⟩
  | _, _, _, _ :: _, .nil, h => h.elim
  | _, _, _, [], .cons _ _, h => h.elim
  | t :: ts, s :: ss, n :: ns, k :: ks, .cons h u, hc => by
    have ih := corner_ok ks u hc.2
    obtain ⟨h1, h2, h3, _⟩ := h
    have hn : n ≠ 0 := by omega
    have ht : t ≠ 0 := by omega
    have hlt : k < nTiles t n := by have := hc.1; simpa [hn, tileLen, ht] using this
    have hcov := (nTiles_covers h1 hn).2
    have : k * t ≤ (nTiles t n - 1) * t := Nat.mul_le_mul_right t (by omega)
    refine ⟨⟨by omega, ih.1⟩, ?_⟩
    simp only [corner, tileIdx, hn, if_false, tileLen, ht, ih.2, Nat.mul_div_cancel _ h1]

/-- The solver tiles as computed. -/
theorem superTiles_ok {ks ss ns : List Nat} (hu : Unites3 ks ss ns) (hpos : ∀ n ∈ ns, n ≠ 0) : ∃ sup, superTiles ns ss ss ks = some sup ∧
    sup.length = cells (grid ks ns) ∧ ∀ cs, CellOf ns cs → sup[position (grid ks ns) (tileIdx ks ns cs)]? = some (position (grid ss ns) (tileIdx ss ns cs)) := by
  obtain ⟨hl1, hl2⟩ := unites3_length hu
  have hinit := init_eq ks ns (ns.map fun _ => 0) hl1 (by simp) (by simp)
  have htot : (init ks ns).total = cells (grid ks ns) := by show (initAxes ks ns).2 = _; rw [hinit]
  have hax : (init ks ns).axes = axesAt ks ns (ns.map fun _ => 0) := by show (initAxes ks ns).1 = _; rw [hinit]
  unfold superTiles
  by_cases he : ks = ss
  · subst he
    refine ⟨List.range (init ks ns).total, by simp, by simp [htot], ?_⟩
    intro cs hcs
    have hlt := position_lt (cellOf_tileIdx ks ns cs hl1 (by rw [shapeOf_pos hpos]; exact hcs))
    rw [htot, List.getElem?_range hlt]
  · dsimp only
    rw [if_neg he, hax, htot, subSizes_ok _ hu (by simp), tiles_axesAt _ hu (by simp)]
    have hgpos := grid_ne_zero ks ns
    have hgsh := shapeOf_pos hgpos
    have hglen : (subs ks ss).length = (grid ks ns).length := by rw [subs_length hu, grid_length _ _ hl1]
    have hinit2 := init_eq (subs ks ss) (grid ks ns) ((grid ks ns).map fun _ => 0) hglen (by simp) (by simp)
    have hw := walk_ok (subs ks ss) (grid ks ns) hglen (cells (grid ks ns)) ((grid ks ns).map fun _ => 0) (init (subs ks ss) (grid ks ns))
      (by rw [hgsh]; exact cellOf_zeros hgpos) (by rw [hgsh, position_zero]; simp)
      (by show (initAxes _ _).1 = _; rw [hinit2])
      (by
        have := tileIdx_zero (subs ks ss) (grid ks ns) (grid ks ns) (grid (subs ks ss) (grid ks ns))
        rw [this]; rfl)
    obtain ⟨w, hw1, hw2, hw3⟩ := hw
    rw [hgsh] at hw1 hw3
    refine ⟨w.map fun x => x.2.toNat, by rw [Option.bind_some, hw1]; rfl, by simp [hw2], ?_⟩
    intro cs hcs
    have hcell := cellOf_tileIdx ks ns cs hl1 (by rw [shapeOf_pos hpos]; exact hcs)
    have hlt : position (grid ks ns) (tileIdx ks ns cs) < w.length := by rw [hw2]; exact position_lt hcell
    rw [List.getElem?_map, List.getElem?_eq_getElem hlt]
    obtain ⟨a, b, c⟩ := hw3 _ _ _ (List.getElem?_eq_getElem hlt)
    rw [position_zero, Nat.zero_add] at b
    have := position_inj a hcell b
    rw [this, unites_grid hu, unites_tileIdx cs hu hcs] at c
    change w[position (grid ks ns) (tileIdx ks ns cs)].2 = _ at c
    simp only [Option.map_some]
    rw [c]; rfl

/-! ## The unknowns -/

/-- The unknown of a tile: as many as there were, and those of earlier tiles in the same solver tile. -/
theorem alloc_uk (base : Nat) : ∀ (sup : List Nat) (n : Nat → Nat) (k : Nat), (alloc base sup n).1[k]? =
    sup[k]?.map fun s => n (base + s) + (sup.take k).count s
  | [], n, k => by simp [alloc]
  | s :: sup, n, 0 => by simp [alloc]
  | s :: sup, n, k + 1 => by
    rw [alloc]
    simp only [List.getElem?_cons_succ]
    rw [alloc_uk base sup _ k]
    cases hs : sup[k]? with
    | none => rfl
    | some x =>
      simp only [Option.map_some, List.take_succ_cons, List.count_cons]
      by_cases h : x = s
      · subst h; simp; omega
      · have h' : ¬ (s == x) = true := by simpa using fun e => h e.symm
        have h2 : ¬ (base + x = base + s) := by omega
        simp only [if_neg h2, if_neg h']; rfl

theorem alloc_length (base : Nat) : ∀ (sup : List Nat) (n : Nat → Nat), (alloc base sup n).1.length = sup.length
  | [], n => rfl
  | s :: sup, n => by simp [alloc, alloc_length base sup]

theorem alloc_nuk (base : Nat) : ∀ (sup : List Nat) (n : Nat → Nat) (j : Nat), (alloc base sup n).2 j = n j + (if base ≤ j then sup.count (j - base) else 0)
  | [], n, j => by simp [alloc]
  | s :: sup, n, j => by
    rw [alloc]
    dsimp only
    rw [alloc_nuk base sup _ j, List.count_cons]
    by_cases h : j = base + s
    · subst h
      have e : base + s - base = s := by omega
      simp only [if_true, e, Nat.le_add_right, beq_self_eq_true]; omega
    · rw [if_neg h]
      by_cases hb : base ≤ j
      · have : ¬ (s == j - base) = true := by simp; omega
        simp only [hb, if_true, if_neg this]; rfl
      · simp only [if_neg hb]

/-- What holds of the entries: `lo` and `hi` are the numbers of unknowns before and after. -/
inductive Allocated (T : Nat) (super : List Nat → Option (List Nat)) : List Info → (Nat → Nat) → List Uks → (Nat → Nat) → Prop
  | nil {n} : Allocated T super [] n [] n
  | cons {i l n u us n'} : super i.key = some u.super → u.info = i → u.uk = (alloc (i.group * T) u.super n).1 →
    u.slice = (List.range T).map (fun j => (n (i.group * T + j), (alloc (i.group * T) u.super n).2 (i.group * T + j))) →
    Allocated T super l (alloc (i.group * T) u.super n).2 us n' → Allocated T super (i :: l) n (u :: us) n'

theorem allocAll_ok (T : Nat) (super : List Nat → Option (List Nat)) : ∀ (l : List Info) (n : Nat → Nat), (∀ i ∈ l, super i.key ≠ none) →
    ∃ us n', allocAll T super l n = some (us, n') ∧ Allocated T super l n us n'
  | [], n, _ => ⟨[], n, rfl, .nil⟩
  | i :: l, n, h => by
    cases hs : super i.key with
    | none => exact absurd hs (h i (by simp))
    | some s =>
      obtain ⟨us, n', h1, h2⟩ := allocAll_ok T super l (alloc (i.group * T) s n).2 (fun x hx => h x (by simp [hx]))
      refine ⟨⟨i, s, (alloc (i.group * T) s n).1, (List.range T).map fun j => (n (i.group * T + j), (alloc (i.group * T) s n).2 (i.group * T + j))⟩ :: us, n', ?_, ?_⟩
      · rw [allocAll, hs, Option.bind_some]
        dsimp only
        rw [h1]; rfl
      · exact .cons hs rfl rfl rfl h2

theorem allocated_mono {T : Nat} {super} {l : List Info} {n us n'} (h : Allocated T super l n us n') : ∀ j, n j ≤ n' j := by
  induction h with
  | nil => intro j; omega
  | cons _ _ _ _ _ ih =>
    intro j
    have := ih j
    rw [alloc_nuk] at this
    omega

theorem allocated_infos {T : Nat} {super} {l : List Info} {n us n'} (h : Allocated T super l n us n') : us.map (·.info) = l := by
  induction h with
  | nil => rfl
  | cons _ hi _ _ _ ih => simp [hi, ih]

/-- Each entry has its unknowns between two counts. -/
theorem allocated_mem {T : Nat} {super} {l : List Info} {n us n'} (h : Allocated T super l n us n') : ∀ u ∈ us, ∃ m,
    super u.info.key = some u.super ∧ u.uk = (alloc (u.info.group * T) u.super m).1 ∧
    u.slice = (List.range T).map (fun j => (m (u.info.group * T + j), (alloc (u.info.group * T) u.super m).2 (u.info.group * T + j))) ∧
    (∀ j, n j ≤ m j) ∧ ∀ j, (alloc (u.info.group * T) u.super m).2 j ≤ n' j := by
  induction h with
  | nil => simp
  | @cons i l n u us n' hs hi hu hsl hrest ih =>
    intro v hv
    rcases List.mem_cons.1 hv with rfl | hv
    · subst hi
      exact ⟨n, hs, hu, hsl, fun j => Nat.le_refl _, allocated_mono hrest⟩
    · obtain ⟨m, a, b, c, d, e⟩ := ih v hv
      refine ⟨m, a, b, c, fun j => ?_, e⟩
      have := d j
      rw [alloc_nuk] at this
      omega

/-- The unknown of tile `k` lies in the range of the entry. -/
theorem uk_range {base : Nat} {sup : List Nat} {n : Nat → Nat} {k s x : Nat} (hs : sup[k]? = some s) (hx : (alloc base sup n).1[k]? = some x) :
    n (base + s) ≤ x ∧ x < (alloc base sup n).2 (base + s) := by
  rw [alloc_uk, hs] at hx
  simp at hx
  subst hx
  rw [alloc_nuk]
  have hk : k < sup.length := (List.getElem?_eq_some_iff.1 hs).1
  have e : base + s - base = s := by omega
  simp only [Nat.le_add_right, if_true, e]
  have hc : sup.count s = (sup.take k).count s + (sup.drop k).count s := by rw [← List.count_append, List.take_append_drop]
  have : 0 < (sup.drop k).count s := by
    apply List.count_pos_iff.2
    rw [List.drop_eq_getElem_cons hk]
    have := (List.getElem?_eq_some_iff.1 hs).2
    rw [this]; simp
  exact ⟨trivial, by omega⟩

/-- Within an entry the unknowns of the same solver tile differ. -/
theorem uk_inj {base : Nat} {sup : List Nat} {n : Nat → Nat} {k k' s x : Nat} (hs : sup[k]? = some s) (hs' : sup[k']? = some s)
    (hx : (alloc base sup n).1[k]? = some x) (hx' : (alloc base sup n).1[k']? = some x) : k = k' := by
  have key : ∀ a b : Nat, a < b → sup[a]? = some s → sup[b]? = some s → (sup.take a).count s < (sup.take b).count s := by
    intro a b hab ha hb
    have hal : a < sup.length := (List.getElem?_eq_some_iff.1 ha).1
    have h1 : (sup.take (a + 1)).count s = (sup.take a).count s + 1 := by
      rw [List.take_add_one, ha]; simp
    have h2 : (sup.take (a + 1)).count s ≤ (sup.take b).count s := (List.take_sublist_take_left (by omega)).count_le s
    omega
  rw [alloc_uk, hs] at hx
  rw [alloc_uk, hs'] at hx'
  simp at hx hx'
  rcases Nat.lt_trichotomy k k' with h | h | h
  · have := key k k' h hs hs'; omega
  · exact h
  · have := key k' k h hs' hs; omega

/-- Every number in the range is an unknown of the entry. -/
theorem uk_surj {base : Nat} : ∀ {sup : List Nat} {n : Nat → Nat} {s x : Nat}, n (base + s) ≤ x → x < (alloc base sup n).2 (base + s) →
    ∃ k : Nat, sup[k]? = some s ∧ (alloc base sup n).1[k]? = some x
  | [], n, s, x, h, h' => by simp [alloc] at h'; omega
  | a :: sup, n, s, x, h, h' => by
    rw [alloc] at h' ⊢
    by_cases he : a = s ∧ n (base + s) = x
    · obtain ⟨rfl, rfl⟩ := he
      exact ⟨0, rfl, rfl⟩
    · obtain ⟨k, h1, h2⟩ := uk_surj (sup := sup) (n := fun j => if j = base + a then n j + 1 else n j) (s := s) (x := x) (by
        by_cases has : a = s
        · subst has
          simp only [true_and] at he
          simp; omega
        · have : ¬ (base + s = base + a) := by omega
          simp only [if_neg this]; exact h) h'
      exact ⟨k + 1, h1, h2⟩

theorem allocated_disjoint {T : Nat} {super} {l : List Info} {n us n'} (h : Allocated T super l n us n') : us.Pairwise fun u v =>
    ∀ (k k' s s' x : Nat), u.super[k]? = some s → v.super[k']? = some s' → u.info.group * T + s = v.info.group * T + s' → u.uk[k]? = some x → v.uk[k']? ≠ some x := by
  induction h with
  | nil => simp
  | @cons i l n u us n' hs hi hu hsl hrest ih =>
    refine List.pairwise_cons.2 ⟨?_, ih⟩
    intro v hv k k' s s' x h1 h2 h3 h4 h5
    obtain ⟨m, a, b, c, d, e⟩ := allocated_mem hrest v hv
    subst hi
    rw [hu] at h4
    rw [b] at h5
    have r1 := uk_range h1 h4
    have r2 := uk_range h2 h5
    have := d (u.info.group * T + s)
    rw [← h3] at r2
    omega

theorem allocated_surj {T : Nat} {super} {l : List Info} {n us n'} (h : Allocated T super l n us n') : ∀ j x, n j ≤ x → x < n' j →
    ∃ u ∈ us, ∃ k s : Nat, u.super[k]? = some s ∧ u.info.group * T + s = j ∧ u.uk[k]? = some x := by
  induction h with
  | nil => intro j x h h'; omega
  | @cons i l n u us n' hs hi hu hsl hrest ih =>
    intro j x hx hx'
    by_cases hlt : x < (alloc (i.group * T) u.super n).2 j
    · have hb : i.group * T ≤ j := by
        by_contra hb
        rw [alloc_nuk, if_neg hb] at hlt; omega
      have ej : i.group * T + (j - i.group * T) = j := by omega
      obtain ⟨k, a, b⟩ := uk_surj (base := i.group * T) (sup := u.super) (n := n) (s := j - i.group * T) (x := x) (by rw [ej]; exact hx) (by rw [ej]; exact hlt)
      exact ⟨u, by simp, k, _, a, by rw [hi, ej], by rw [hu]; exact b⟩
    · obtain ⟨v, hv, k, s, a, b, c⟩ := ih j x (by omega) hx'
      exact ⟨v, by simp [hv], k, s, a, b, c⟩

end Verif.Solver
