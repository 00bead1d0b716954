import Verif.Spec.Serial
import Verif.Proof.Bytes
import Verif.Proof.Hiid
import Verif.Proof.Assoc
import Mathlib.Tactic.Common
/-! Lemmas about the conversion of containers. -/
namespace Verif.Serial
open Spec
variable {L : Type}

theorem rd_append (A B : Bytes) (x : Int) (off : Nat) (h : A.length = off) (hx : IsInt32 x) :
    rd (A ++ (encInt32 x ++ B)) off = x := by
  unfold rd
  rw [← h, List.drop_left, List.take_left' (encInt32_length x), decInt32_encInt32 x hx]

theorem slice_append (A M B : Bytes) (off n : Nat) (h : A.length = off) (hn : M.length = n) :
    ((A ++ (M ++ B)).drop off).take n = M := by
  rw [← h, List.drop_left, List.take_left' hn]

/-- Table of sizes in a record header. -/
def infos (l : List (List Int × List Bytes)) : Bytes :=
  l.flatMap (fun p => encInt32 (4 * p.1.length) ++ encInt32 p.2.length)
/-- Packed identifiers in a record header. -/
def idBytes (l : List (List Int × List Bytes)) : Bytes := l.flatMap (fun p => p.1.flatMap encInt32)
/-- Total number of blocks. -/
def total (l : List (List Int × List Bytes)) : Int := (l.map fun p => (p.2.length : Int)).sum

theorem infos_length (l : List (List Int × List Bytes)) : (infos l).length = 8 * l.length := by
  induction l with
  | nil => rfl
  | cons p l ih => simp [infos] at ih ⊢; omega

theorem flat_length (p : List Int) : (p.flatMap encInt32).length = 4 * p.length := by
  induction p with
  | nil => rfl
  | cons a p ih => simp at ih ⊢; omega

theorem recordLoop_spec (H : Bytes) (hH : H.length = 12) :
    ∀ (todo done : List (List Int × List Bytes)) (rest : List Bytes),
    ((done ++ todo).map (·.1)).Nodup →
    (∀ p ∈ todo, (4 * p.1.length < 2 ^ 31 ∧ ∀ a ∈ p.1, IsInt32 a) ∧ p.2.length < 2 ^ 31) →
    recordLoop (H ++ infos (done ++ todo) ++ idBytes (done ++ todo)) todo.length done.length
      (12 + 8 * (done ++ todo).length + (idBytes done).length) (todo.flatMap (·.2) ++ rest) (1 + total done) done
      = .ok (1 + total (done ++ todo), done ++ todo, rest) := by
  intro todo
  induction todo with
  | nil => intro done rest _ _; simp [recordLoop]
  | cons p todo ih =>
    intro done rest hnd hok
    obtain ⟨id, bl⟩ := p
    obtain ⟨⟨h4, hin⟩, hbl⟩ := hok (id, bl) (by simp)
    simp only at h4 hin hbl
    generalize hhdr : H ++ infos (done ++ (id, bl) :: todo) ++ idBytes (done ++ (id, bl) :: todo) = hdr
    have hlen : hdr.length = 12 + 8 * (done.length + (todo.length + 1))
        + ((idBytes done).length + (4 * id.length + (idBytes todo).length)) := by
      rw [← hhdr]
      simp [idBytes, infos_length, hH]
      omega
    have r1 : rd hdr (12 + 8 * done.length) = 4 * id.length := by
      rw [← hhdr]
      have : H ++ infos (done ++ (id, bl) :: todo) ++ idBytes (done ++ (id, bl) :: todo)
          = (H ++ infos done) ++ (encInt32 (4 * id.length) ++ (encInt32 bl.length ++ infos todo
            ++ idBytes (done ++ (id, bl) :: todo))) := by simp [infos]
      rw [this]
      exact rd_append _ _ _ _ (by simp [hH, infos_length]) ⟨by omega, by omega⟩
    have r2 : rd hdr (12 + 8 * done.length + 4) = bl.length := by
      rw [← hhdr]
      have : H ++ infos (done ++ (id, bl) :: todo) ++ idBytes (done ++ (id, bl) :: todo)
          = (H ++ infos done ++ encInt32 (4 * id.length)) ++ (encInt32 bl.length ++ (infos todo
            ++ idBytes (done ++ (id, bl) :: todo))) := by simp [infos]
      rw [this]
      exact rd_append _ _ _ _ (by simp [hH, infos_length]; omega) ⟨by omega, by omega⟩
    have r3 : (hdr.drop (12 + 8 * (done ++ (id, bl) :: todo).length + (idBytes done).length)).take (4 * id.length)
        = id.flatMap encInt32 := by
      rw [← hhdr]
      have : H ++ infos (done ++ (id, bl) :: todo) ++ idBytes (done ++ (id, bl) :: todo)
          = (H ++ infos (done ++ (id, bl) :: todo) ++ idBytes done) ++ (id.flatMap encInt32 ++ idBytes todo) := by
        simp [idBytes]
      rw [this]
      exact slice_append _ _ _ _ _ (by simp [hH, infos_length]; omega) (flat_length id)
    have r4 : Hiid.unpack (id.flatMap encInt32) = some id := by
      unfold Hiid.unpack
      rw [flat_length, if_neg (by omega)]
      have : 4 * id.length / 4 = id.length := by omega
      rw [this]
      have := Hiid.words_flatMap id [] hin
      rw [List.append_nil] at this
      rw [this]
    have hset : Assoc.set done id bl = done ++ [(id, bl)] := by
      have hnot : id ∉ done.map (·.1) := by
        rw [List.map_append, List.nodup_append] at hnd
        intro hm
        exact hnd.2.2 id hm id (by simp) rfl
      clear ih hhdr hlen r1 r2 r3 hnd
      induction done with
      | nil => rfl
      | cons q done ihd =>
        obtain ⟨a, b⟩ := q
        simp at hnot
        simp only [Assoc.set, if_neg (Ne.symm hnot.1), List.cons_append, List.cons.injEq, true_and]
        exact ihd (by simpa using hnot.2)
    have ih' := ih (done ++ [(id, bl)]) rest (by simpa using hnd) (fun p hp => hok p (by simp [hp]))
    simp only [List.append_assoc, List.singleton_append] at ih'
    rw [← List.append_assoc, hhdr] at ih'
    have hidb : (idBytes (done ++ [(id, bl)])).length = (idBytes done).length + 4 * id.length := by
      simp only [idBytes, List.flatMap_append, List.length_append, List.flatMap_cons, List.flatMap_nil, List.append_nil,
        flat_length]
    have htot : total (done ++ [(id, bl)]) = total done + bl.length := by simp [total]
    rw [hidb, htot] at ih'
    simp only [List.length_cons, recordLoop, r1, r2]
    have hto : (4 * (id.length : Int)).toNat = 4 * id.length := by omega
    rw [if_neg (by omega), hto, if_neg (by simp [hlen]; omega), r3, r4]
    simp only
    by_cases hb : bl = []
    · subst hb
      simp only [List.length_nil, Int.ofNat_zero, ne_eq, not_true_eq_false, if_false, hset]
      simp only [List.length_append, List.length_cons, List.length_nil] at ih'
      simp only [List.flatMap_cons, List.nil_append, List.length_append, List.length_cons]
      rw [← ih']
      congr 1
      · omega
      · simp
    · have hpos : 0 < bl.length := List.length_pos_of_ne_nil hb
      rw [if_pos (by omega), if_neg (by simp; omega), if_neg (by omega)]
      have hbt : ((bl.length : Int)).toNat = bl.length := by omega
      simp only [List.flatMap_cons, List.append_assoc, hbt, List.drop_left, List.take_left, hset]
      simp only [List.length_append, List.length_cons, List.length_nil] at ih' ⊢
      rw [← ih', Int.add_assoc]
      congr 1
      omega

theorem recordHeader_eq (tid : Int) (l : List (List Int × List Bytes)) :
    recordHeader tid l = (encInt32 tid ++ encInt32 (1 + total l) ++ encInt32 l.length) ++ infos l ++ idBytes l := rfl

theorem flatMap_total (l : List (List Int × List Bytes)) : ((l.flatMap (·.2)).length : Int) = total l := by
  induction l with
  | nil => rfl
  | cons p l ih => simp only [List.flatMap_cons, List.length_append, total, List.map_cons, List.sum_cons] at ih ⊢; omega

theorem recordFrom_spec (cons : List Bytes → Res (Obj L × List Bytes)) (tid : Int) (l : List (List Int × List Bytes))
    (rest : List Bytes) (fs : Fields L) (hnd : (l.map (·.1)).Nodup) (hl : l.length < 2 ^ 31)
    (hb : (l.flatMap (·.2)).length + 1 < 2 ^ 31)
    (hid : ∀ p ∈ l, 4 * p.1.length < 2 ^ 31 ∧ ∀ a ∈ p.1, IsInt32 a)
    (hun : unpackFields cons l = .ok fs) :
    recordFrom cons tid (recordHeader tid l) (l.flatMap (·.2) ++ rest) = .ok (.record tid fs, rest) := by
  have hfl : ∀ p ∈ l, p.2.length < 2 ^ 31 := by
    intro p hp
    have : p.2.length ≤ (l.flatMap (·.2)).length := by
      clear hun hnd hid hl hb
      induction l with
      | nil => simp at hp
      | cons q l ih =>
        simp only [List.flatMap_cons, List.length_append]
        rcases List.mem_cons.1 hp with rfl | hp
        · omega
        · have := ih hp; omega
    omega
  have ht := flatMap_total l
  have hlen : (recordHeader tid l).length = 12 + 8 * l.length + (idBytes l).length := by
    rw [recordHeader_eq]; simp [infos_length]; omega
  have h8 : rd (recordHeader tid l) 8 = l.length := by
    rw [recordHeader_eq]
    have : (encInt32 tid ++ encInt32 (1 + total l) ++ encInt32 l.length) ++ infos l ++ idBytes l
      = (encInt32 tid ++ encInt32 (1 + total l)) ++ (encInt32 l.length ++ (infos l ++ idBytes l)) := by simp
    rw [this]
    exact rd_append _ _ _ _ (by simp) ⟨by omega, by omega⟩
  have h4 : rd (recordHeader tid l) 4 = 1 + total l := by
    rw [recordHeader_eq]
    have : (encInt32 tid ++ encInt32 (1 + total l) ++ encInt32 l.length) ++ infos l ++ idBytes l
      = encInt32 tid ++ (encInt32 (1 + total l) ++ (encInt32 l.length ++ infos l ++ idBytes l)) := by simp
    rw [this]
    exact rd_append _ _ _ _ (by simp) ⟨by omega, by omega⟩
  have hloop := recordLoop_spec (encInt32 tid ++ encInt32 (1 + total l) ++ encInt32 l.length) (by simp) l [] rest
    (by simpa using hnd) (fun p hp => ⟨hid p hp, hfl p hp⟩)
  simp only [List.nil_append, List.length_nil, ← recordHeader_eq] at hloop
  have e0 : (idBytes ([] : List (List Int × List Bytes))).length = 0 := rfl
  have t0 : total ([] : List (List Int × List Bytes)) = 0 := rfl
  rw [e0, t0] at hloop
  simp only [Nat.add_zero, Int.add_zero] at hloop
  unfold recordFrom
  rw [if_neg (by omega)]
  simp only [h8, h4, Int.toNat_natCast, hloop]
  rw [if_neg (by omega)]
  simp [hun]

/-- `cons` reads back every item. -/
def GoodI (cons : List Bytes → Res (Obj L × List Bytes)) (C : Leaf L) : Items L → Prop
  | .nil => True
  | .empty r => GoodI cons C r
  | .full o r => (toBlocks C o ≠ [] ∧ ∀ rest, cons (toBlocks C o ++ rest) = .ok (o, rest)) ∧ GoodI cons C r

/-- `cons` reads back every field. -/
def GoodF (cons : List Bytes → Res (Obj L × List Bytes)) (C : Leaf L) : Fields L → Prop
  | .nil => True
  | .empty _ r => GoodF cons C r
  | .full _ o r => (toBlocks C o ≠ [] ∧ ∀ rest, cons (toBlocks C o ++ rest) = .ok (o, rest)) ∧ GoodF cons C r

theorem unpackFields_spec (cons : List Bytes → Res (Obj L × List Bytes)) (C : Leaf L) (fs : Fields L)
    (h : GoodF cons C fs) : unpackFields cons (fieldsTo C fs) = .ok fs := by
  match fs with
  | .nil => simp [fieldsTo, unpackFields]
  | .empty id r =>
    simp only [GoodF] at h
    simp [fieldsTo, unpackFields, unpackFields_spec cons C r h]
  | .full id o r =>
    simp only [GoodF] at h
    obtain ⟨⟨hne, hc⟩, hr⟩ := h
    have hc0 := hc []
    rw [List.append_nil] at hc0
    obtain ⟨b, bs, hb⟩ := List.exists_cons_of_ne_nil hne
    simp only [fieldsTo]
    rw [hb] at hc0 ⊢
    simp [unpackFields, hc0, unpackFields_spec cons C r hr]

/-- Table of block counts in a list header. -/
def bcs (l : List (List Bytes)) : Bytes := l.flatMap (fun b => encInt32 b.length)
/-- Total number of blocks. -/
def totalI (l : List (List Bytes)) : Int := (l.map fun b => (b.length : Int)).sum

theorem bcs_length (l : List (List Bytes)) : (bcs l).length = 4 * l.length := by
  induction l with
  | nil => rfl
  | cons p l ih => simp [bcs] at ih ⊢; omega

theorem listLoop_spec (cons : List Bytes → Res (Obj L × List Bytes)) (H : Bytes) (hH : H.length = 12) (C : Leaf L)
    (is : Items L) : ∀ (done : List (List Bytes)) (rest : List Bytes) (nref : Int),
    (∀ b ∈ itemsTo C is, b.length < 2 ^ 31) → GoodI cons C is →
    listLoop cons (H ++ bcs (done ++ itemsTo C is)) (itemsTo C is).length done.length ((itemsTo C is).flatten ++ rest) nref
      = .ok (is, nref + totalI (itemsTo C is), rest) := by
  match is with
  | .nil => intro done rest nref _ _; simp [itemsTo, listLoop, totalI]
  | .empty r =>
    intro done rest nref hs hg
    simp only [GoodI] at hg
    simp only [itemsTo] at hs ⊢
    have ih := listLoop_spec cons H hH C r (done ++ [[]]) rest nref (fun b hb => hs b (by simp [hb])) hg
    have r1 : rd (H ++ bcs (done ++ [] :: itemsTo C r)) (12 + 4 * done.length) = 0 := by
      have : H ++ bcs (done ++ [] :: itemsTo C r) = (H ++ bcs done) ++ (encInt32 0 ++ bcs (itemsTo C r)) := by simp [bcs]
      rw [this]
      exact rd_append _ _ _ _ (by simp [hH, bcs_length]) ⟨by omega, by omega⟩
    simp only [List.append_assoc, List.singleton_append, List.length_append, List.length_cons, List.length_nil] at ih
    simp only [List.length_cons, listLoop, r1, List.flatten_cons, List.nil_append]
    rw [if_neg (by simp)]
    simp only [Nat.zero_add] at ih
    rw [ih]
    simp [totalI]
  | .full o r =>
    intro done rest nref hs hg
    simp only [GoodI] at hg
    obtain ⟨⟨hne, hc⟩, hg⟩ := hg
    simp only [itemsTo] at hs ⊢
    have ho := hs (toBlocks C o) (by simp)
    have hpos : 0 < (toBlocks C o).length := List.length_pos_of_ne_nil hne
    have ih := listLoop_spec cons H hH C r (done ++ [toBlocks C o]) rest (nref + (toBlocks C o).length)
      (fun b hb => hs b (by simp [hb])) hg
    have r1 : rd (H ++ bcs (done ++ toBlocks C o :: itemsTo C r)) (12 + 4 * done.length) = (toBlocks C o).length := by
      have : H ++ bcs (done ++ toBlocks C o :: itemsTo C r)
          = (H ++ bcs done) ++ (encInt32 (toBlocks C o).length ++ bcs (itemsTo C r)) := by simp [bcs]
      rw [this]
      exact rd_append _ _ _ _ (by simp [hH, bcs_length]) ⟨by omega, by omega⟩
    simp only [List.append_assoc, List.singleton_append, List.length_append, List.length_cons, List.length_nil,
      Nat.zero_add] at ih
    simp only [List.length_cons, listLoop, r1, List.flatten_cons, List.append_assoc]
    rw [if_pos (by omega), if_neg (by simp [hne]), hc]
    simp only [Res.ok_bind]
    have hd : ((toBlocks C o ++ ((itemsTo C r).flatten ++ rest)).length : Int) - ((itemsTo C r).flatten ++ rest).length
        = (toBlocks C o).length := by simp only [List.length_append]; omega
    rw [hd, if_neg (by simp), ih]
    simp [totalI, Int.add_assoc]

theorem listHeader_eq (tid : Int) (l : List (List Bytes)) :
    listHeader tid l = (encInt32 tid ++ encInt32 (1 + totalI l) ++ encInt32 l.length) ++ bcs l := rfl

theorem flatten_total (l : List (List Bytes)) : (l.flatten.length : Int) = totalI l := by
  induction l with
  | nil => rfl
  | cons p l ih => simp only [List.flatten_cons, List.length_append, totalI, List.map_cons, List.sum_cons] at ih ⊢; omega

theorem listFrom_spec (cons : List Bytes → Res (Obj L × List Bytes)) (C : Leaf L) (tid : Int) (is : Items L)
    (rest : List Bytes) (hl : (itemsTo C is).length < 2 ^ 31) (hb : (itemsTo C is).flatten.length + 1 < 2 ^ 31)
    (hg : GoodI cons C is) :
    listFrom cons tid (listHeader tid (itemsTo C is)) ((itemsTo C is).flatten ++ rest) = .ok (.list tid is, rest) := by
  have hs : ∀ b ∈ itemsTo C is, b.length < 2 ^ 31 := by
    intro b hbm
    have : b.length ≤ (itemsTo C is).flatten.length := (List.sublist_flatten_of_mem hbm).length_le
    omega
  have ht := flatten_total (itemsTo C is)
  have hloop := fun H hH => listLoop_spec cons H hH C is [] rest 1 hs hg
  generalize itemsTo C is = l at *
  have hlen : (listHeader tid l).length = 12 + 4 * l.length := by
    rw [listHeader_eq]; simp [bcs_length]; omega
  have h8 : rd (listHeader tid l) 8 = l.length := by
    rw [listHeader_eq]
    have : (encInt32 tid ++ encInt32 (1 + totalI l) ++ encInt32 l.length) ++ bcs l
      = (encInt32 tid ++ encInt32 (1 + totalI l)) ++ (encInt32 l.length ++ bcs l) := by simp
    rw [this]
    exact rd_append _ _ _ _ (by simp) ⟨by omega, by omega⟩
  have h4 : rd (listHeader tid l) 4 = 1 + totalI l := by
    rw [listHeader_eq]
    have : (encInt32 tid ++ encInt32 (1 + totalI l) ++ encInt32 l.length) ++ bcs l
      = encInt32 tid ++ (encInt32 (1 + totalI l) ++ (encInt32 l.length ++ bcs l)) := by simp
    rw [this]
    exact rd_append _ _ _ _ (by simp) ⟨by omega, by omega⟩
  have hl2 := hloop (encInt32 tid ++ encInt32 (1 + totalI l) ++ encInt32 l.length) (by simp)
  simp only [List.nil_append, List.length_nil, ← listHeader_eq] at hl2
  unfold listFrom
  rw [if_neg (by omega)]
  simp only [h8, h4, Int.toNat_natCast, hl2]
  rw [if_neg (by omega)]
  simp

mutual
/-- Depth of nesting. -/
def depth : Obj L → Nat
  | .leaf _ => 1
  | .record _ fs => depthF fs + 1
  | .list _ is => depthI is + 1
/-- Depth of the fields. -/
def depthF : Fields L → Nat
  | .nil => 0
  | .empty _ r => depthF r
  | .full _ o r => max (depth o) (depthF r)
/-- Depth of the items. -/
def depthI : Items L → Nat
  | .nil => 0
  | .empty r => depthI r
  | .full o r => max (depth o) (depthI r)
end

theorem toBlocks_ne_nil {C : Leaf L} {kind : Int → Option Kind} (hC : LeafOk C kind) (o : Obj L) : toBlocks C o ≠ [] := by
  cases o with
  | leaf x => obtain ⟨b, bs, h⟩ := hC.head x; simp [toBlocks, h]
  | record tid fs => simp [toBlocks]
  | list tid is => simp [toBlocks]

mutual
theorem depth_le {C : Leaf L} {kind : Int → Option Kind} (hC : LeafOk C kind) : ∀ o : Obj L, depth o ≤ (toBlocks C o).length
  | .leaf x => by
    have := List.length_pos_of_ne_nil (toBlocks_ne_nil hC (.leaf x))
    simp only [depth]; omega
  | .record tid fs => by
    have := depthF_le hC fs
    simp only [depth, toBlocks, List.length_cons]; omega
  | .list tid is => by
    have := depthI_le hC is
    simp only [depth, toBlocks, List.length_cons]; omega
theorem depthF_le {C : Leaf L} {kind : Int → Option Kind} (hC : LeafOk C kind) : ∀ fs : Fields L,
    depthF fs ≤ ((fieldsTo C fs).flatMap (·.2)).length
  | .nil => by simp [depthF]
  | .empty id r => by
    have := depthF_le hC r
    simp only [depthF, fieldsTo, List.flatMap_cons, List.length_append]; omega
  | .full id o r => by
    have := depthF_le hC r
    have := depth_le hC o
    simp only [depthF, fieldsTo, List.flatMap_cons, List.length_append]; omega
theorem depthI_le {C : Leaf L} {kind : Int → Option Kind} (hC : LeafOk C kind) : ∀ is : Items L,
    depthI is ≤ (itemsTo C is).flatten.length
  | .nil => by simp [depthI]
  | .empty r => by
    have := depthI_le hC r
    simp only [depthI, itemsTo, List.flatten_cons, List.length_append]; omega
  | .full o r => by
    have := depthI_le hC r
    have := depth_le hC o
    simp only [depthI, itemsTo, List.flatten_cons, List.length_append]; omega
end

theorem fieldsTo_ids (C : Leaf L) : ∀ fs : Fields L, (fieldsTo C fs).map (·.1) = ids fs
  | .nil => rfl
  | .empty id r => by simp [fieldsTo, ids, fieldsTo_ids C r]
  | .full id o r => by simp [fieldsTo, ids, fieldsTo_ids C r]

theorem itemsTo_count (C : Leaf L) : ∀ is : Items L, (itemsTo C is).length = count is
  | .nil => rfl
  | .empty r => by simp [itemsTo, count, itemsTo_count C r]
  | .full o r => by simp [itemsTo, count, itemsTo_count C r]

theorem okF_ids {C : Leaf L} {kind : Int → Option Kind} : ∀ fs : Fields L, OkF C kind fs →
    ∀ p ∈ fieldsTo C fs, 4 * p.1.length < 2 ^ 31 ∧ ∀ a ∈ p.1, IsInt32 a
  | .nil, _ => by simp [fieldsTo]
  | .empty id r, h => by
    simp only [OkF] at h
    intro p hp
    simp only [fieldsTo, List.mem_cons] at hp
    rcases hp with rfl | hp
    · exact h.1
    · exact okF_ids r h.2 p hp
  | .full id o r, h => by
    simp only [OkF] at h
    intro p hp
    simp only [fieldsTo, List.mem_cons] at hp
    rcases hp with rfl | hp
    · exact h.1
    · exact okF_ids r h.2.2 p hp

mutual
theorem construct_toBlocks {C : Leaf L} {kind : Int → Option Kind} (hC : LeafOk C kind) :
    ∀ (o : Obj L) (fuel : Nat) (rest : List Bytes), Ok C kind o → depth o ≤ fuel →
      construct C kind fuel (toBlocks C o ++ rest) = .ok (o, rest)
  | .leaf x, fuel, rest, _, hd => by
    obtain ⟨fuel, rfl⟩ : ∃ k, fuel = k + 1 := ⟨fuel - 1, by simp only [depth] at hd; omega⟩
    obtain ⟨b, bs, hb⟩ := hC.head x
    have hr := hC.round x rest
    simp only [toBlocks]
    rw [hb] at hr ⊢
    simp only [List.cons_append, construct] at hr ⊢
    have h0 : rd (encInt32 (C.tid x) ++ b) 0 = C.tid x := by
      have := rd_append [] b (C.tid x) 0 rfl (hC.reg x).1
      simpa using this
    rw [if_neg (by simp), h0, (hC.reg x).2]
    simp only [hr]
  | .record tid fs, fuel, rest, hok, hd => by
    obtain ⟨fuel, rfl⟩ : ∃ k, fuel = k + 1 := ⟨fuel - 1, by simp only [depth] at hd; omega⟩
    simp only [Ok] at hok
    obtain ⟨ht, hk, hnd, hl, hlen, hF⟩ := hok
    have hg := goodF hC fs fuel hF (by simp only [depth] at hd; omega)
    simp only [toBlocks, List.length_cons] at hlen
    simp only [toBlocks, List.cons_append, construct]
    have h0 : rd (recordHeader tid (fieldsTo C fs)) 0 = tid := by
      rw [recordHeader_eq]
      have := rd_append [] (encInt32 (1 + total (fieldsTo C fs)) ++ (encInt32 (fieldsTo C fs).length
        ++ (infos (fieldsTo C fs) ++ idBytes (fieldsTo C fs)))) tid 0 rfl ht
      simpa using this
    have hle : 4 ≤ (recordHeader tid (fieldsTo C fs)).length := by rw [recordHeader_eq]; simp
    rw [if_neg (by omega), h0, hk]
    have hids := fieldsTo_ids C fs
    refine recordFrom_spec _ tid _ rest fs (by rw [hids]; exact hnd) ?_ (by omega) (okF_ids fs hF)
      (unpackFields_spec _ C fs hg)
    have : (fieldsTo C fs).length = (ids fs).length := by rw [← hids]; simp
    omega
  | .list tid is, fuel, rest, hok, hd => by
    obtain ⟨fuel, rfl⟩ : ∃ k, fuel = k + 1 := ⟨fuel - 1, by simp only [depth] at hd; omega⟩
    simp only [Ok] at hok
    obtain ⟨ht, hk, hl, hlen, hI⟩ := hok
    have hg := goodI hC is fuel hI (by simp only [depth] at hd; omega)
    simp only [toBlocks, List.length_cons] at hlen
    simp only [toBlocks, List.cons_append, construct]
    have h0 : rd (listHeader tid (itemsTo C is)) 0 = tid := by
      rw [listHeader_eq]
      have := rd_append [] (encInt32 (1 + totalI (itemsTo C is)) ++ (encInt32 (itemsTo C is).length
        ++ bcs (itemsTo C is))) tid 0 rfl ht
      simpa using this
    have hle : 4 ≤ (listHeader tid (itemsTo C is)).length := by rw [listHeader_eq]; simp
    rw [if_neg (by omega), h0, hk]
    exact listFrom_spec _ C tid is rest (by rw [itemsTo_count]; exact hl) (by omega) hg
theorem goodF {C : Leaf L} {kind : Int → Option Kind} (hC : LeafOk C kind) :
    ∀ (fs : Fields L) (fuel : Nat), OkF C kind fs → depthF fs ≤ fuel → GoodF (construct C kind fuel) C fs
  | .nil, _, _, _ => by simp [GoodF]
  | .empty id r, fuel, h, hd => by
    simp only [OkF] at h
    simp only [depthF] at hd
    simp only [GoodF]
    exact goodF hC r fuel h.2 hd
  | .full id o r, fuel, h, hd => by
    simp only [OkF] at h
    simp only [depthF] at hd
    simp only [GoodF]
    exact ⟨⟨toBlocks_ne_nil hC o, fun rest => construct_toBlocks hC o fuel rest h.2.1 (by omega)⟩,
      goodF hC r fuel h.2.2 (by omega)⟩
theorem goodI {C : Leaf L} {kind : Int → Option Kind} (hC : LeafOk C kind) :
    ∀ (is : Items L) (fuel : Nat), OkI C kind is → depthI is ≤ fuel → GoodI (construct C kind fuel) C is
  | .nil, _, _, _ => by simp [GoodI]
  | .empty r, fuel, h, hd => by
    simp only [OkI] at h
    simp only [depthI] at hd
    simp only [GoodI]
    exact goodI hC r fuel h hd
  | .full o r, fuel, h, hd => by
    simp only [OkI] at h
    simp only [depthI] at hd
    simp only [GoodI]
    exact ⟨⟨toBlocks_ne_nil hC o, fun rest => construct_toBlocks hC o fuel rest h.1 (by omega)⟩,
      goodI hC r fuel h.2 (by omega)⟩
end

end Verif.Serial
