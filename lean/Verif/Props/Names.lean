import Verif.Proof.Names
/-!
# Properties of symbolic names (C07, C60)
-/
namespace Verif.Names
open NamesSpec

/-- **C07.** An accepted registration is found again by id, and changes the name of no other id. -/
theorem C07_find_by_id (h : List Op) (o : Op) (r' : Reg) (he : step (run h init) o = some r') :
    look r'.fwd (Op.id o) = some (Op.name o) ∧
    ∀ k, k ≠ Op.id o → look r'.fwd k = look (run h init).fwd k := by
  rw [step_eq] at he
  unfold add at he
  split at he
  · simp at he
  · rename_i f hf
    simp at he; subst he
    exact ⟨by simp [addFwd_look hf], fun k hk => by simp [addFwd_look hf, hk]⟩

/-- **C07.** Start-up registration is refused iff the id already has a different name; `registerId` is
never refused. -/
theorem C07_conflict (h : List Op) (k : Int) (v : Bytes) :
    (step (run h init) (.registrar k v) = none ↔ ∃ w, look (run h init).fwd k = some w ∧ w ≠ v) ∧
    step (run h init) (.registerId k v) ≠ none := by
  constructor
  · simp only [step, add]
    cases hf : addFwd (run h init).fwd k v false with
    | none => simpa using (addFwd_none.1 hf)
    | some f =>
      simp only [reduceCtorEq, false_iff]
      intro hc
      rw [addFwd_none.2 ⟨rfl, hc⟩] at hf; simp at hf
  · simp only [step, add]
    cases hf : addFwd (run h init).fwd k v true with
    | none => exact absurd (addFwd_none.1 hf).1 (by simp)
    | some f => simp

/-- **C07.** Once a name resolves to an id it does so for ever. -/
theorem C07_name_stable (h h' : List Op) (n : Bytes) (a : Int) (hn : look (run h init).rev n = some a) :
    look (run (h ++ h') init).rev n = some a := by
  have : ∀ (h : List Op) r, run (h ++ h') r = run h' (run h r) := by
    intro h; induction h with
    | nil => intro r; rfl
    | cons o os ih => intro r; simp [run, ih]
  rw [this]
  exact run_rev_stable h' hn

/-- **C07.** If no name, compared without regard to case, was registered for two ids, then looking up
the name of any registered id gives back that id (names being non-numeric, and 0 being reserved). -/
theorem C07_round_trip (h : List Op) (hu : Unambiguous h) (k : Int) (v : Bytes)
    (hk : look (run h init).fwd k = some v) (hd : v.all isDigit = false) (h0 : k < 0) :
    aidToString (run h init) k = v ∧ findName (run h init) v = some k := by
  have hi : RInv h (run h init) := by simpa using run_inv h [] init init_inv
  obtain ⟨⟨o, ho, ho1, ho2⟩, a, ha⟩ := hi.fwd k v hk
  obtain ⟨o', ho', ho1', ho2'⟩ := hi.rev _ a ha
  have : a = k := by
    rw [← ho1, ← ho1']
    exact hu o' ho' o ho (by rw [ho2', ho2])
  subst this
  have hne : v ≠ [] := by rintro rfl; simp at hd
  constructor
  · simp only [aidToString]
    rw [if_neg (by omega), hk]
    simp only [Option.getD_some]
  · simp only [findName, hd, ha]
    simp; omega

/-- **C07.** Numeric ids need no registration. -/
theorem C07_index_round_trip (r : Reg) (a : Int) (ha : 0 ≤ a) : findName r (aidToString r a) = some a := by
  have : aidToString r a = dec a.toNat := by simp [aidToString, ha]
  rw [this, findName_dec]
  simp [ha]

/-- The hypothesis of `C07_round_trip` is needed: two ids whose names differ only in case are printed
with their own names, but both names are read as the first id. -/
theorem C07_case_collision :
    let r := run [.registerId (-10) [70, 111, 111], .registerId (-11) [102, 111, 111]] init
    aidToString r (-11) = [102, 111, 111] ∧ findName r (aidToString r (-11)) = some (-10) := by decide

/-- The reserved registrations made at start-up (AtomicID.cc:117-124). -/
def reserved : List Op :=
  [.registerId 0 [48], .registerId (-1) [63], .registerId (-2) [42], .registerId (-3) [47],
   .registerId (-4) [58], .registerId (-5) [95], .registerId (-6) [35]]

/-- Full C60: every identifier is read back from its own text. -/
def C60_full : Prop :=
  ∀ h : List Op, (∀ o ∈ h, Op.id o < -6) → ∀ id : List Int,
    (∀ a ∈ id, (0 ≤ a ∧ a < 0x7FFF0000) ∨ look (run (reserved ++ h) init).fwd a ≠ none) →
    ∃ t, toString (run (reserved ++ h) init) id = some t ∧ addString (run (reserved ++ h) init) t = some id

/-- **C60, partial.** The text of an identifier made of printable components, joined plainly, by `/` or
by `:`, is read back as the same identifier. -/
theorem C60_text_round_trip_partial (r : Reg) (hs : look r.fwd (-3) = some [47])
    (hr : look r.fwd (-4) = some [58]) (i : Item) (l : List (Join × Item))
    (hi : i.Printable r) (hl : ∀ p ∈ l, p.2.Printable r) :
    ∃ t, toString r (ident i l) = some t ∧ addString r t = some (ident i l) := by
  obtain ⟨_, h2, _, h4⟩ := item_ok hs hr hi
  refine ⟨itemText r i ++ restText r l, ?_, ?_⟩
  · have hne : ident i l ≠ [] := by
      cases i <;> simp [ident, Item.atoms, makeLiteral]
    unfold toString
    rw [if_neg hne]
    unfold ident
    rw [h4, toString_rest hs hr l hl]
    simp
  · unfold addString
    rw [if_neg (by simp [h2])]
    exact addLoop_text hs hr i hi l hl

/-- **C60 is false of the code** in general: the identifier `A.<empty>.B` is printed as `A___B`, which is
read back with two empty components. -/
theorem C60_empty_component : ¬ C60_full := by
  intro h
  obtain ⟨t, h1, h2⟩ := h [] (by simp) [1, -5, 2] (by decide)
  have e1 : toString (run (reserved ++ []) init) [1, -5, 2] = some [49, 95, 95, 95, 50] := by
    decide +kernel
  rw [e1] at h1; simp at h1; subst h1
  have e2 : addString (run (reserved ++ []) init) [49, 95, 95, 95, 50] = some [1, -5, -5, 2] := by
    decide +kernel
  rw [e2] at h2; simp at h2

/-! Non-trivial cases. -/

/-- `Foo` registered as -10, `Bar` as -11, then -11 renamed `Baz`. -/
def h1 : List Op :=
  reserved ++ [.registrar (-10) [70, 111, 111], .registrar (-11) [66, 97, 114], .registerId (-11) [66, 97, 122]]
example : Unambiguous h1 := by unfold Unambiguous h1 reserved; decide
example : look (run h1 init).fwd (-11) = some [66, 97, 122] := by decide
example : findName (run h1 init) [98, 65, 122] = some (-11) := by decide
/-- `Foo/3_$ab:*` is printable and is read back. -/
example : (Item.atom (-10)).Printable (run h1 init) ∧ (Item.atom 3).Printable (run h1 init) ∧
    (Item.lit [97, 98]).Printable (run h1 init) ∧ (Item.atom (-2)).Printable (run h1 init) := by
  refine ⟨Or.inr ⟨by decide, [70, 111, 111], by decide, by decide, by decide, by decide, by decide⟩,
    Or.inl (by decide), ⟨by decide, by decide, by decide⟩,
    Or.inr ⟨by decide, [42], by decide, by decide, by decide, by decide, by decide⟩⟩
example : toString (run h1 init) (ident (.atom (-10)) [(.slash, .atom 3), (.plain, .lit [97, 98]), (.range, .atom (-2))])
    = some [70, 111, 111, 47, 51, 95, 36, 97, 98, 58, 42] := by decide +kernel

end Verif.Names
