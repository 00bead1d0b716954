import Verif.Spec.Names
import Verif.Proof.Hiid
import Mathlib.Tactic.Common
import Mathlib.Data.Nat.Digits.Lemmas
/-! Lemmas about names. -/
namespace Verif.Names
open NamesSpec

section look
variable {α β : Type} [DecidableEq α]
theorem look_cons (p : α × β) (m : List (α × β)) (k : α) :
    look (p :: m) k = if p.1 = k then some p.2 else look m k := by
  unfold look
  by_cases h : p.1 = k <;> simp [h]
theorem look_nil (k : α) : look ([] : List (α × β)) k = none := rfl
theorem look_update (m : List (α × β)) (k : α) (v : β) (k' : α) :
    look (m.map fun p => if p.1 = k then (k, v) else p) k' =
      if k' = k then (look m k).map (fun _ => v) else look m k' := by
  induction m with
  | nil => simp [look]
  | cons p m ih =>
    simp only [List.map_cons, look_cons, ih]
    by_cases h1 : p.1 = k
    · by_cases h2 : k' = k
      · simp [h1, h2]
      · simp [h1, h2, Ne.symm h2]
    · by_cases h2 : k' = k
      · subst h2; simp [h1]
      · simp [h1, h2]
end look

theorem addFwd_look {m m' : List (Int × Bytes)} {k : Int} {v : Bytes} {ow : Bool}
    (h : addFwd m k v ow = some m') (k' : Int) :
    look m' k' = if k' = k then some v else look m k' := by
  unfold addFwd at h
  cases hl : look m k with
  | none =>
    simp [hl] at h; subst h
    rw [look_cons]
    by_cases e : k' = k
    · simp [e]
    · simp [e, Ne.symm e]
  | some w =>
    simp only [hl] at h
    by_cases hw : w = v
    · subst hw
      simp at h; subst h
      by_cases e : k' = k
      · simp [e, hl]
      · simp [e]
    · rw [if_neg hw] at h
      by_cases ho : ow = true
      · simp [ho] at h; subst h
        have := look_update m k v k'
        rw [this]
        by_cases e : k' = k
        · simp [e, hl]
        · simp [e]
      · simp [ho] at h

theorem addFwd_none {m : List (Int × Bytes)} {k : Int} {v : Bytes} {ow : Bool} :
    addFwd m k v ow = none ↔ ow = false ∧ ∃ w, look m k = some w ∧ w ≠ v := by
  unfold addFwd
  cases hl : look m k with
  | none => simp
  | some w =>
    by_cases hw : w = v
    · simp [hw]
    · cases ow <;> simp [hw]

theorem insertRev_look (m : List (Bytes × Int)) (n : Bytes) (k : Int) (n' : Bytes) :
    look (insertRev m n k) n' = if n' = n then some ((look m n).getD k) else look m n' := by
  unfold insertRev
  cases hl : look m n with
  | none =>
    simp only [look_cons]
    by_cases e : n' = n
    · simp [e]
    · simp [e, Ne.symm e]
  | some a =>
    by_cases e : n' = n
    · simp [e, hl]
    · simp [e]

/-- What a registry knows after a history. -/
structure RInv (h : List Op) (r : Reg) : Prop where
  fwd : ∀ k v, look r.fwd k = some v → (∃ o ∈ h, NamesSpec.Op.id o = k ∧ NamesSpec.Op.name o = v) ∧
    ∃ a, look r.rev (lower v) = some a
  rev : ∀ n a, look r.rev n = some a → ∃ o ∈ h, NamesSpec.Op.id o = a ∧ lower (NamesSpec.Op.name o) = n

theorem step_eq (r : Reg) (o : Op) : step r o =
    add r (NamesSpec.Op.id o) (NamesSpec.Op.name o) (match o with | .registrar .. => false | .registerId .. => true) := by
  cases o <;> rfl

theorem step_inv {h : List Op} {r r' : Reg} {o : Op} (hi : RInv h r) (he : step r o = some r') :
    RInv (h ++ [o]) r' := by
  rw [step_eq] at he
  unfold add at he
  generalize (match o with | .registrar .. => false | .registerId .. => true) = ow at he
  cases hf : addFwd r.fwd (NamesSpec.Op.id o) (NamesSpec.Op.name o) ow with
  | none => simp [hf] at he
  | some f =>
    simp [hf] at he; subst he
    have mono : ∀ n a, look r.rev n = some a →
        ∃ a, look (insertRev r.rev (lower (NamesSpec.Op.name o)) (NamesSpec.Op.id o)) n = some a := by
      intro n a hn
      rw [insertRev_look]
      split <;> simp [hn]
    refine ⟨?_, ?_⟩
    · intro k v hk
      simp only at hk ⊢
      rw [addFwd_look hf] at hk
      by_cases e : k = NamesSpec.Op.id o
      · simp [e] at hk; subst hk
        exact ⟨⟨o, by simp, e.symm, rfl⟩, by rw [insertRev_look]; simp⟩
      · simp [e] at hk
        obtain ⟨⟨o1, h1, h2⟩, a, ha⟩ := hi.fwd k v hk
        exact ⟨⟨o1, by simp [h1], h2⟩, mono _ a ha⟩
    · intro n a hn
      simp only at hn
      rw [insertRev_look] at hn
      by_cases e : n = lower (NamesSpec.Op.name o)
      · simp [e] at hn
        cases hl : look r.rev (lower (NamesSpec.Op.name o)) with
        | none => simp [hl] at hn; exact ⟨o, by simp, hn, e.symm⟩
        | some b =>
          simp [hl] at hn; subst hn
          obtain ⟨o1, h1, h2, h3⟩ := hi.rev _ _ hl
          exact ⟨o1, by simp [h1], h2, by rw [h3, e]⟩
      · simp [e] at hn
        obtain ⟨o1, h1, h2⟩ := hi.rev n a hn
        exact ⟨o1, by simp [h1], h2⟩

theorem RInv.mono {h h' : List Op} {r : Reg} (hi : RInv h r) (hs : ∀ o ∈ h, o ∈ h') : RInv h' r :=
  ⟨fun k v hk => ⟨by obtain ⟨⟨o, h1, h2⟩, _⟩ := hi.fwd k v hk; exact ⟨o, hs o h1, h2⟩, (hi.fwd k v hk).2⟩,
   fun n a hn => by obtain ⟨o, h1, h2⟩ := hi.rev n a hn; exact ⟨o, hs o h1, h2⟩⟩

theorem run_inv (h : List Op) : ∀ (h0 : List Op) (r : Reg), RInv h0 r → RInv (h0 ++ h) (run h r) := by
  induction h with
  | nil => intro h0 r hi; simpa [run] using hi
  | cons o os ih =>
    intro h0 r hi
    simp only [run]
    have : RInv (h0 ++ [o]) ((step r o).getD r) := by
      cases he : step r o with
      | none => simpa [he] using hi.mono (by simp +contextual)
      | some r' => simpa [he] using step_inv hi he
    have := ih (h0 ++ [o]) _ this
    simpa using this

theorem init_inv : RInv [] init := ⟨by simp [init, look], by simp [init, look]⟩

theorem step_rev_stable {r : Reg} {n : Bytes} {a : Int} (o : Op) (h : look r.rev n = some a) :
    look ((step r o).getD r).rev n = some a := by
  cases he : step r o with
  | none => simpa using h
  | some r' =>
    rw [step_eq] at he
    unfold add at he
    split at he
    · simp at he
    · simp at he; subst he
      simp only [Option.getD_some]
      rw [insertRev_look]
      split
      · rename_i e; subst e; simp [h]
      · exact h

theorem run_rev_stable (h : List Op) {r : Reg} {n : Bytes} {a : Int} (hn : look r.rev n = some a) :
    look (run h r).rev n = some a := by
  induction h generalizing r with
  | nil => exact hn
  | cons o os ih => exact ih (step_rev_stable o hn)

/-! ### Decimal numbers -/

theorem digit_val {d : Nat} (h : d < 10) : (UInt8.ofNat (48 + d)).toNat - 48 = d := by
  simp; omega

theorem atoi_digits (l : List Nat) (hl : ∀ d ∈ l, d < 10) :
    atoi (l.reverse.map fun d => UInt8.ofNat (48 + d)) = Nat.ofDigits 10 l := by
  unfold atoi
  induction l with
  | nil => rfl
  | cons d l ih =>
    simp only [List.reverse_cons, List.map_append, List.map_cons, List.map_nil, List.foldl_append,
      List.foldl_cons, List.foldl_nil, Nat.ofDigits_cons]
    rw [ih (fun x hx => hl x (by simp [hx])), digit_val (hl d (by simp))]
    omega

theorem atoi_dec (n : Nat) : atoi (dec n) = n := by
  unfold dec
  split
  · rename_i h; subst h; rfl
  · rw [atoi_digits _ (fun d hd => Nat.digits_lt_base (by norm_num) hd), Nat.ofDigits_digits]

theorem isDigit_ofNat {d : Nat} (h : d < 10) : isDigit (UInt8.ofNat (48 + d)) = true := by
  interval_cases d <;> decide

theorem dec_all (n : Nat) : (dec n).all isDigit = true := by
  unfold dec
  split
  · decide
  · simp only [List.all_map, List.all_reverse, List.all_eq_true, Function.comp]
    exact fun d hd => isDigit_ofNat (Nat.digits_lt_base (by norm_num) hd)

theorem dec_ne_nil (n : Nat) : dec n ≠ [] := by
  unfold dec
  split
  · simp
  · rename_i h; simpa [Nat.digits_ne_nil_iff_ne_zero] using h

theorem isDigit_not_sep {b : UInt8} (h : isDigit b = true) : isSep b = false ∧ b ≠ 36 := by
  revert h
  unfold isDigit isSep
  intro h
  simp only [Bool.and_eq_true, decide_eq_true_eq, UInt8.le_iff_toNat_le] at h
  have h1 := h.1; have h2 := h.2
  have e : ∀ c : UInt8, b = c → b.toNat = c.toNat := fun c hc => by rw [hc]
  constructor
  · simp only [Bool.or_eq_false_iff, decide_eq_false_iff_not]
    refine ⟨⟨⟨?_, ?_⟩, ?_⟩, ?_⟩ <;> intro hb <;> subst hb <;> revert h1 h2 <;> decide
  · intro hb; subst hb; revert h1 h2; decide

theorem findName_dec (r : Reg) (n : Nat) : findName r (dec n) = some (n : Int) := by
  simp [findName, dec_all, atoi_dec]

/-! ### Text of identifiers -/

/-- The text of a component. -/
def itemText (r : Reg) : Item → Bytes
  | .atom a => aidToString r a
  | .lit s => 36 :: s

/-- The character of a join. -/
def joinChar : Join → UInt8
  | .plain => 95
  | .slash => 47
  | .range => 58

theorem isSep_false {b : UInt8} : isSep b = false ↔ b ≠ 46 ∧ b ≠ 95 ∧ b ≠ 47 ∧ b ≠ 58 := by
  simp [isSep, and_assoc]

theorem litSize_le (s : Bytes) : s.length ≤ 4 * litSize s.length := by unfold litSize; omega

theorem lit_bytes (s : Bytes) (rest : List Int) :
    (atomBytes (Hiid.words (litSize s.length) (s ++ List.replicate (4 * litSize s.length - s.length) 255) ++ rest)).take s.length = s := by
  have hl : (s ++ List.replicate (4 * litSize s.length - s.length) (255 : UInt8)).length = 4 * litSize s.length := by
    have := litSize_le s; simp; omega
  unfold atomBytes
  rw [List.flatMap_append, Hiid.flatMap_words _ _ hl]
  simp [List.append_assoc]

/-- Text and parse of one printable component. -/
theorem item_ok {r : Reg} {i : Item} (hs : look r.fwd (-3) = some [47]) (hr : look r.fwd (-4) = some [58])
    (hp : i.Printable r) :
    (∀ b ∈ itemText r i, isSep b = false) ∧ itemText r i ≠ [] ∧ field r (itemText r i) = some i.atoms ∧
    (∀ sep rest, toStringLoop r sep (i.atoms ++ rest) =
      (toStringLoop r false rest).map fun t => (if sep then [] else [95]) ++ itemText r i ++ t) := by
  cases i with
  | lit s =>
    obtain ⟨h1, h2, h3⟩ := hp
    refine ⟨?_, by simp [itemText], ?_, ?_⟩
    · intro b hb
      simp only [itemText, List.mem_cons] at hb
      rcases hb with rfl | hb
      · decide
      · exact isSep_false.2 (h2 b hb)
    · simp [itemText, field, h1, Item.atoms]
    · intro sep rest
      simp only [Item.atoms, makeLiteral, List.cons_append]
      rw [toStringLoop]
      have hlit : isLit (marker + (s.length : Int)) = true := by simp [isLit]
      have hlen : (marker + (s.length : Int) - marker).toNat = s.length := by
        have : marker + (s.length : Int) - marker = s.length := by ring
        rw [this]; rfl
      rw [if_pos hlit]
      simp only [hlen]
      rw [if_neg (by simp [Hiid.words_length])]
      rw [List.drop_left' (Hiid.words_length _ _), lit_bytes]
      cases toStringLoop r false rest with
      | none => rfl
      | some t => simp [itemText]
  | atom a =>
    have hnl : isLit a = false := by
      unfold isLit
      rw [decide_eq_false_iff_not, marker]
      rcases hp with ⟨h1, h2⟩ | ⟨h1, _⟩ <;> omega
    have key : (∀ b ∈ aidToString r a, isSep b = false) ∧ aidToString r a ≠ [] ∧
        field r (aidToString r a) = some [a] ∧ a ≠ -3 ∧ a ≠ -4 := by
      rcases hp with ⟨h1, h2⟩ | ⟨h1, n, h2, h3, h4, h5, h6⟩
      · have e : aidToString r a = dec a.toNat := by simp [aidToString, h1]
        rw [e]
        have hd := dec_all a.toNat
        rw [List.all_eq_true] at hd
        refine ⟨fun b hb => (isDigit_not_sep (hd b hb)).1, dec_ne_nil _, ?_, by omega, by omega⟩
        have hf := findName_dec r a.toNat
        cases hdn : dec a.toNat with
        | nil => exact absurd hdn (dec_ne_nil _)
        | cons c cs =>
          have hc : c ≠ 36 := (isDigit_not_sep (hd c (by simp [hdn]))).2
          rw [hdn] at hf
          unfold field
          split
          · rename_i heq; simp at heq
          · rename_i heq; simp at heq; exact absurd heq.1 hc
          · rw [hf]; simp [h1]
      · have hne : n ≠ [] := by rintro rfl; simp at h4
        have e : aidToString r a = n := by
          simp only [aidToString]
          rw [if_neg (by omega), h2]
          simp only [Option.getD_some]
        rw [e]
        refine ⟨fun b hb => isSep_false.2 (h5 b hb), hne, ?_, ?_, ?_⟩
        · have hf : findName r n = some a := by
            simp only [findName, h4, h3]
            simp; omega
          cases n with
          | nil => exact absurd rfl hne
          | cons c cs =>
            have hc : c ≠ 36 := by rintro rfl; simp at h6
            unfold field
            split
            · rename_i heq; simp at heq
            · rename_i heq; simp at heq; exact absurd heq.1 hc
            · simp [hf]
        · rintro rfl
          rw [hs] at h2; simp at h2; subst h2
          simp at h5
        · rintro rfl
          rw [hr] at h2; simp at h2; subst h2
          simp at h5
    obtain ⟨k1, k2, k3, k4, k5⟩ := key
    refine ⟨k1, k2, k3, ?_⟩
    intro sep rest
    simp only [Item.atoms, List.cons_append, List.nil_append]
    rw [toStringLoop, if_neg (by simp [hnl])]
    have hns : ¬ (a = Hiid.aidSlash ∨ a = Hiid.aidRange) := by
      simp [Hiid.aidSlash, Hiid.aidRange, k4, k5]
    simp only [hns, decide_false]
    cases toStringLoop r false rest with
    | none => rfl
    | some t => cases sep <;> simp [itemText]

/-- Text of the further components. -/
def restText (r : Reg) (l : List (Join × Item)) : Bytes := l.flatMap fun p => joinChar p.1 :: itemText r p.2

theorem toString_rest {r : Reg} (hs : look r.fwd (-3) = some [47]) (hr : look r.fwd (-4) = some [58])
    (l : List (Join × Item)) (hp : ∀ p ∈ l, p.2.Printable r) :
    toStringLoop r false (l.flatMap fun p => p.1.atoms ++ p.2.atoms) = some (restText r l) := by
  induction l with
  | nil => simp [toStringLoop, restText]
  | cons p l ih =>
    obtain ⟨j, i⟩ := p
    have ih := ih (fun p hp' => hp p (by simp [hp']))
    obtain ⟨_, _, _, h4⟩ := item_ok hs hr (hp (j, i) (by simp))
    simp only [List.flatMap_cons, List.append_assoc, restText]
    generalize (List.flatMap (fun p : Join × Item => p.1.atoms ++ p.2.atoms) l) = T at ih ⊢
    have hm : aidToString r (-3) = [47] := by simp [aidToString, hs]
    have hm' : aidToString r (-4) = [58] := by simp [aidToString, hr]
    cases j with
    | plain =>
      simp only [Join.atoms, List.nil_append]
      rw [h4, ih]; simp [joinChar, restText]
    | slash =>
      simp only [Join.atoms, List.cons_append, List.nil_append]
      rw [toStringLoop, if_neg (by decide)]
      have : decide (((-3 : Int) = Hiid.aidSlash) ∨ ((-3 : Int) = Hiid.aidRange)) = true := by decide
      simp only [this]
      rw [h4, ih]; simp [joinChar, restText, hm, Hiid.aidSlash]
    | range =>
      simp only [Join.atoms, List.cons_append, List.nil_append]
      rw [toStringLoop, if_neg (by decide)]
      have : decide (((-4 : Int) = Hiid.aidSlash) ∨ ((-4 : Int) = Hiid.aidRange)) = true := by decide
      simp only [this]
      rw [h4, ih]; simp [joinChar, restText, hm', Hiid.aidRange]

theorem take_item (t : Bytes) (ht : ∀ b ∈ t, isSep b = false) (c : UInt8) (hc : isSep c = true) (rest : Bytes) :
    (t ++ c :: rest).takeWhile (fun b => !isSep b) = t ∧ (t ++ c :: rest).dropWhile (fun b => !isSep b) = c :: rest := by
  induction t with
  | nil => simp [hc]
  | cons b t ih =>
    have := ih (fun b hb => ht b (by simp [hb]))
    simp [ht b (by simp), this]

theorem take_item_end (t : Bytes) (ht : ∀ b ∈ t, isSep b = false) :
    t.takeWhile (fun b => !isSep b) = t ∧ t.dropWhile (fun b => !isSep b) = [] := by
  induction t with
  | nil => simp
  | cons b t ih =>
    have := ih (fun b hb => ht b (by simp [hb]))
    simp [ht b (by simp), this]

theorem addLoop_ne {r : Reg} {s : Bytes} (hs : s ≠ []) : addLoop r s =
    match s.dropWhile (fun b => !isSep b) with
    | [] => field r (s.takeWhile fun b => !isSep b)
    | b :: rest =>
      match field r (s.takeWhile fun b => !isSep b), addLoop r rest with
      | some f, some t => some (f ++ sepAtoms b ++ t)
      | _, _ => none := by
  cases s with
  | nil => exact absurd rfl hs
  | cons c cs =>
    rw [addLoop]
    split <;> rename_i heq <;> simp only [heq]
    cases field r (List.takeWhile (fun b => !isSep b) (c :: cs)) <;> cases addLoop r _ <;> rfl

theorem addLoop_text {r : Reg} (hs : look r.fwd (-3) = some [47]) (hr : look r.fwd (-4) = some [58])
    (i : Item) (hi : i.Printable r) (l : List (Join × Item)) (hp : ∀ p ∈ l, p.2.Printable r) :
    addLoop r (itemText r i ++ restText r l) = some (ident i l) := by
  induction l generalizing i with
  | nil =>
    obtain ⟨h1, h2, h3, _⟩ := item_ok hs hr hi
    simp only [restText, List.flatMap_nil, List.append_nil, ident]
    rw [addLoop_ne h2]
    rw [(take_item_end _ h1).1, (take_item_end _ h1).2]
    simp [h3]
  | cons p l ih =>
    obtain ⟨j, i'⟩ := p
    obtain ⟨h1, h2, h3, _⟩ := item_ok hs hr hi
    have ih := ih i' (hp (j, i') (by simp)) (fun p hp' => hp p (by simp [hp']))
    have hc : isSep (joinChar j) = true := by cases j <;> decide
    have e : itemText r i ++ restText r ((j, i') :: l) =
        itemText r i ++ joinChar j :: (itemText r i' ++ restText r l) := by simp [restText]
    rw [e, addLoop_ne (by simp), (take_item _ h1 _ hc _).1, (take_item _ h1 _ hc _).2]
    simp only [h3, ih]
    have hj : sepAtoms (joinChar j) = j.atoms := by cases j <;> decide
    simp [hj, ident]

end Verif.Names
