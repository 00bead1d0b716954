import Verif.Proof.Hiid
/-!
# Properties of hierarchical identifiers (C01-C06)
-/
namespace Verif.Hiid
open HiidSpec

/-- **C01.** `matches` answers whether the two patterns have a common concrete identifier.
`same` models the `this == &other` shortcut, which may only be taken for equal ids. -/
theorem C01_matches_iff_overlap (same : Bool) (p q : List Int) (hs : same = true → p = q) :
    matches_ same p q = true ↔ ∃ c, Concrete c ∧ Denotes p c ∧ Denotes q c := by
  unfold matches_
  cases same with
  | false => simpa using matchLoop_iff p q
  | true =>
    have := hs rfl; subst this
    simp; exact ⟨_, sample_concrete p, sample_denotes p⟩

/-- **C01.** Matching is symmetric. -/
theorem C01_matches_symm (p q : List Int) : matches_ false p q = matches_ false q p := by
  have h1 := C01_matches_iff_overlap false p q (by simp)
  have h2 := C01_matches_iff_overlap false q p (by simp)
  rw [Bool.eq_iff_iff, h1, h2]
  constructor <;> rintro ⟨c, hc, a, b⟩ <;> exact ⟨c, hc, b, a⟩

/-- **C01.** A wildcard-free identifier matches a pattern exactly when the pattern denotes it. -/
theorem C01_matches_concrete (p c : List Int) (hc : Concrete c) :
    matches_ false p c = true ↔ Denotes p c := by
  rw [C01_matches_iff_overlap false p c (by simp)]
  constructor
  · rintro ⟨d, _, h1, h2⟩
    rw [(concrete_denotes_iff c d hc).1 h2]; exact h1
  · intro h; exact ⟨c, hc, h, (concrete_denotes_iff c c hc).2 rfl⟩

/-- **C01.** `prefixedBy` on wildcard-free identifiers is the prefix relation. -/
theorem C01_prefixedBy_concrete (p o : List Int) (hp : Concrete p) (ho : Concrete o) :
    prefixedBy p o = true ↔ o <+: p := by
  unfold prefixedBy
  rw [C01_matches_iff_overlap _ _ _ (by simp)]
  constructor
  · rintro ⟨c, _, h1, h2⟩
    rw [(concrete_denotes_iff p c hp).1 h1]
    exact (denotes_append_star o c ho).1 h2
  · intro h
    exact ⟨p, hp, (concrete_denotes_iff p p hp).2 rfl, (denotes_append_star o p ho).2 h⟩

example : matches_ false [-1001, -1, 3] [-1001, 5, -2] = true := by decide
example : matches_ false [-1001, 4] [-1001, 5] = false := by decide
example : Concrete [-1001, 5, 3] ∧ Denotes [-1001, -1, 3] [-1001, 5, 3] :=
  ⟨by simp [Concrete], .atom _ _ _ (by decide) (by decide) (.any _ _ _ (.atom _ _ _ (by decide) (by decide) .nil))⟩

/-- **C02.** `subsetOf` answers whether every concrete identifier of `p` is one of `q`. -/
theorem C02_subsetOf_iff_inclusion (same : Bool) (p q : List Int) (hs : same = true → p = q) :
    subsetOf same p q = true ↔ ∀ c, Concrete c → Denotes p c → Denotes q c := by
  unfold subsetOf
  cases same with
  | false => simpa using subsetLoop_iff p q
  | true => have := hs rfl; subst this; simp

/-- **C02.** Reflexivity, transitivity, and inclusion implies overlap. -/
theorem C02_subsetOf_refl (p : List Int) : subsetOf false p p = true :=
  (C02_subsetOf_iff_inclusion false p p (by simp)).2 fun _ _ h => h

theorem C02_subsetOf_trans (p q r : List Int) (h1 : subsetOf false p q = true)
    (h2 : subsetOf false q r = true) : subsetOf false p r = true := by
  rw [C02_subsetOf_iff_inclusion false _ _ (by simp)] at *
  exact fun c hc h => h2 c hc (h1 c hc h)

theorem C02_subsetOf_matches (p q : List Int) (h : subsetOf false p q = true) :
    matches_ false p q = true := by
  rw [C02_subsetOf_iff_inclusion false _ _ (by simp)] at h
  rw [C01_matches_iff_overlap false _ _ (by simp)]
  exact ⟨_, sample_concrete p, sample_denotes p, h _ (sample_concrete p) (sample_denotes p)⟩

example : subsetOf false [-1001, 5, 3] [-1001, -1, -2] = true := by decide
example : subsetOf false [-1001, -1] [-1001, 5] = false := by decide

/-- **C03.** Packing then unpacking is the identity (whatever the space left in the block). -/
theorem C03_unpack_pack (p : List Int) (nleft : Nat) (bs : Bytes) (left : Nat)
    (hp : ∀ a ∈ p, -(2 ^ 31 : Int) ≤ a ∧ a < 2 ^ 31) (h : pack nleft p = some (bs, left)) :
    unpack bs = some p ∧ bs.length = 4 * p.length ∧ packSize p = bs.length ∧
      left + bs.length = nleft := by
  unfold pack at h
  simp only at h
  split at h
  · simp at h
  · rename_i hn
    simp only [Option.some.injEq, Prod.mk.injEq] at h
    obtain ⟨rfl, rfl⟩ := h
    have hl := flatMap_encInt32_length p
    refine ⟨?_, hl, by unfold packSize; omega, by omega⟩
    unfold unpack
    rw [if_neg (by omega), hl]
    have : 4 * p.length / 4 = p.length := by omega
    rw [this]
    have := words_flatMap p [] hp
    simpa using this

/-- **C03.** Packing fails exactly when the block has too few bytes. -/
theorem C03_pack_none_iff (p : List Int) (nleft : Nat) :
    pack nleft p = none ↔ nleft < 4 * p.length := by
  unfold pack; simp only
  constructor
  · intro h; split at h
    · omega
    · simp at h
  · intro h; rw [if_pos (by omega)]

/-- **C03.** Unpacking succeeds exactly on blocks whose size is a multiple of 4, and then packing
the result gives the block back. -/
theorem C03_unpack_ok_iff (bs : Bytes) :
    (∃ p, unpack bs = some p) ↔ bs.length % 4 = 0 := by
  unfold unpack
  constructor
  · rintro ⟨p, h⟩; split at h
    · simp at h
    · omega
  · intro h; exact ⟨_, by rw [if_neg (by omega)]⟩

theorem C03_pack_unpack (bs : Bytes) (p : List Int) (h : unpack bs = some p) :
    pack bs.length p = some (bs, 0) := by
  unfold unpack at h
  split at h
  · simp at h
  · rename_i hm
    simp at h
    subst h
    have hl : bs.length = 4 * (bs.length / 4) := by omega
    unfold pack
    simp only [words_length]
    rw [if_neg (by omega), flatMap_words _ _ hl]
    simp; omega

example : pack 20 [-1001, 7, 2147483647] =
    some ([0x17, 0xfc, 0xff, 0xff, 7, 0, 0, 0, 0xff, 0xff, 0xff, 0x7f], 8) := by decide
example : unpack [0x17, 0xfc, 0xff, 0xff, 7, 0, 0, 0] = some [-1001, 7] := by decide

/-- **C04.** The ordering, characterised: `p < q` iff `q` properly extends `p` or they differ
first at a position where `p` has the smaller number. -/
theorem C04_lt_iff (p q : List Int) : lt false p q = true ↔
    (∃ s, s ≠ [] ∧ q = p ++ s) ∨
    (∃ u a b p' q', p = u ++ a :: p' ∧ q = u ++ b :: q' ∧ a < b) := by
  simpa [lt] using ltLoop_iff p q

theorem C04_lt_irrefl (same : Bool) (p : List Int) : lt same p p = false := by
  cases same <;> simp [lt, ltLoop_irrefl]

theorem C04_lt_trans (p q r : List Int) (h1 : lt false p q = true) (h2 : lt false q r = true) :
    lt false p r = true := by
  simp [lt] at *; exact ltLoop_trans p q r h1 h2

/-- **C04.** Trichotomy, with equality being the code's own `operator ==`. -/
theorem C04_lt_trichotomy (p q : List Int) (hp : ∀ a ∈ p, -(2 ^ 31 : Int) ≤ a ∧ a < 2 ^ 31)
    (hq : ∀ a ∈ q, -(2 ^ 31 : Int) ≤ a ∧ a < 2 ^ 31) :
    (lt false p q = true ∧ eq false p q = false ∧ lt false q p = false) ∨
    (lt false p q = false ∧ eq false p q = true ∧ lt false q p = false) ∨
    (lt false p q = false ∧ eq false p q = false ∧ lt false q p = true) := by
  have heq : eq false p q = true ↔ p = q := by
    unfold eq
    simp only [Bool.false_eq_true, ↓reduceIte]
    constructor
    · intro h
      split at h
      · simp at h
      · exact flatMap_encInt32_inj p q hp hq (by omega) (by simpa using h)
    · rintro rfl; simp
  have hasym : ∀ p q, lt false p q = true → lt false q p = false := by
    intro p q h
    cases h' : lt false q p with
    | false => rfl
    | true =>
      have := C04_lt_trans p q p h h'
      rw [C04_lt_irrefl] at this; simp at this
  have hne : ∀ p q, lt false p q = true → p ≠ q := by
    rintro p q h rfl; rw [C04_lt_irrefl] at h; simp at h
  rcases ltLoop_total p q with h | rfl | h
  · have h : lt false p q = true := by simpa [lt] using h
    left; refine ⟨h, ?_, hasym _ _ h⟩
    rw [Bool.eq_false_iff]; intro h'; exact hne _ _ h (heq.1 h')
  · right; left; exact ⟨C04_lt_irrefl _ _, heq.2 rfl, C04_lt_irrefl _ _⟩
  · have h : lt false q p = true := by simpa [lt] using h
    right; right; refine ⟨hasym _ _ h, ?_, h⟩
    rw [Bool.eq_false_iff]; intro h'; exact hne _ _ h (heq.1 h').symm

example : lt false [-1001, 3] [-1001, 3, 0] = true ∧ lt false [-1001, 3] [-1000] = true := by decide

/-- **C05.** Popping the leading index. -/
theorem C05_popLeadIndex (p : List Int) :
    (∃ a r, p = a :: r ∧ 0 ≤ a ∧ popLeadIndex p = (a, r)) ∨
    ((∀ a ∈ p.head?, a < 0) ∧ popLeadIndex p = (0, p)) := by
  cases p with
  | nil => right; exact ⟨by simp, rfl⟩
  | cons a r =>
    by_cases h : 0 ≤ a
    · left
      refine ⟨a, r, rfl, h, ?_⟩
      have hi : index a = a := by unfold index; rw [if_pos h]
      simp only [popLeadIndex, hi]
      rw [if_neg (by omega), popFront_eq]; rfl
    · right
      refine ⟨by simp; omega, ?_⟩
      have hi : index a = -1 := by unfold index; rw [if_neg h]
      simp [popLeadIndex, hi]

/-- **C05.** Popping the trailing index. -/
theorem C05_popTrailIndex (p : List Int) :
    (∃ a r, p = r ++ [a] ∧ 0 ≤ a ∧ popTrailIndex p = (a, r)) ∨
    ((∀ a ∈ p.getLast?, a < 0) ∧ popTrailIndex p = (0, p)) := by
  rcases List.eq_nil_or_concat p with rfl | ⟨r, a, hra⟩
  · right; exact ⟨by simp, rfl⟩
  · rw [List.concat_eq_append] at hra
    subst hra
    by_cases h : 0 ≤ a
    · left
      refine ⟨a, r, rfl, h, ?_⟩
      have hi : index a = a := by unfold index; rw [if_pos h]
      simp only [popTrailIndex, List.getLast?_concat, hi]
      rw [if_neg (by omega)]; simp
    · right
      refine ⟨by simp; omega, ?_⟩
      have hi : index a = -1 := by unfold index; rw [if_neg h]
      simp [popTrailIndex, hi]

example : popLeadIndex [4, -1001, 5] = (4, [-1001, 5]) ∧ popTrailIndex [4, -1001, 5] = (5, [4, -1001])
    ∧ popLeadIndex [-1001] = (0, [-1001]) := by decide

/-- **C06.** `splitAtSlash` cuts at the first slash. -/
theorem C06_splitAtSlash (p : List Int) :
    (-3 ∉ (splitAtSlash p).1) ∧
    (-3 ∈ p → (splitAtSlash p).1 ++ [-3] ++ (splitAtSlash p).2 = p) ∧
    (-3 ∉ p → splitAtSlash p = (p, [])) := by
  rcases findFirstSlash_spec 0 p with ⟨h1, h2⟩ | ⟨u, v, rfl, hu, hf⟩
  · have : splitAtSlash p = (p, []) := by simp [splitAtSlash, h1]
    rw [this]; exact ⟨h2, fun h => absurd h h2, fun _ => rfl⟩
  · have : splitAtSlash (u ++ aidSlash :: v) = (u, v) := by
      simp only [splitAtSlash, hf]
      rw [if_neg (by omega), popFront_eq]
      simp [List.drop_append]
    rw [this]
    refine ⟨hu, fun _ => by simp [aidSlash], fun h => ?_⟩
    exact absurd (by simp [aidSlash]) h

/-- **C06.** `popLeadSlashes` removes exactly the leading slashes and counts them. -/
theorem C06_popLeadSlashes (p : List Int) :
    p = List.replicate (popLeadSlashes p).1 (-3) ++ (popLeadSlashes p).2 ∧
    (popLeadSlashes p).2.head? ≠ some (-3) := by
  simp only [popLeadSlashes, popFront_eq]
  induction p with
  | nil => simp
  | cons a p ih =>
    by_cases h : a = -3
    · subst h
      simp only [aidSlash] at *
      simp only [List.takeWhile_cons]
      simp only [List.head?_drop] at ih
      simp [List.replicate_succ]
      exact ih
    · simp [aidSlash, h]

example : splitAtSlash [-1001, -3, 7, -3] = ([-1001], [7, -3]) := by decide

/-- **C51 (holds for non-negative positions).** `subId first last` is the slice `[first, last]`, and
with the default `last = -1` the whole tail.  Missing from the full property: negative positions, see
`C51_subId_negative_ub`. -/
theorem C51_subId_partial (p : List Int) (first : Nat) (hf : first ≤ p.length) :
    subId p first (-1) = .ok (p.drop first) ∧
    ∀ last : Nat, last < p.length → subId p first last = .ok ((p.take (last + 1)).drop first) := by
  constructor
  · unfold subId
    simp only
    rw [if_neg (by simp; omega)]
    by_cases h : first = p.length
    · subst h; simp
    · rw [if_neg (by simp; omega)]
      congr 1
      rw [List.take_of_length_le]
      · simp
      · simp
  · intro last hl
    unfold subId
    simp only
    rw [if_neg (by simp; omega)]
    by_cases h : last + 1 ≤ first
    · rw [if_pos (by simp; omega)]
      congr 1
      rw [List.drop_of_length_le]; simp; omega
    · rw [if_neg (by simp; omega)]
      congr 1
      simp [List.drop_take]

/-- **C51 (refutation).** Any other negative position makes the code form an iterator past the end:
undefined behaviour, for every identifier. -/
theorem C51_subId_negative_ub (p : List Int) (first last : Int) (h : first < 0 ∨ last < -1) :
    subId p first last = .ub := by
  unfold subId
  simp only
  rw [if_pos]
  rcases h with h | h
  · rw [if_neg (by omega : ¬ first ≥ 0)]; omega
  · rw [if_neg (by omega : ¬ last ≥ 0)]; omega

example : subId [-1001, 7, 8] 1 (-1) = .ok [7, 8] ∧ subId [-1001, 7, 8] 0 1 = .ok [-1001, 7] := by decide

/-- **C52 (holds for the empty id and for no-ops).** `push_front` prepends `n` copies. -/
theorem C52_pushFront_partial (a : Int) (n : Nat) (p : List Int) (h : p = [] ∨ n = 0) :
    pushFront a n p = .ok (List.replicate n a ++ p) := by
  unfold pushFront
  by_cases hn : n = 0
  · subst hn; simp
  · rw [if_neg hn]
    have hp : p = [] := by rcases h with h | h; exact h; exact absurd h hn
    subst hp
    simp only [List.nil_append, List.length_nil, Nat.zero_add]
    have hl : ((List.replicate n (0:Int)).flatMap encInt32).length = 4 * n := by
      rw [flatMap_encInt32_length]; simp
    have : memmove ((List.replicate n (0:Int)).flatMap encInt32) (4 * n) 0 0 =
        some ((List.replicate n (0:Int)).flatMap encInt32) := by
      unfold memmove; rw [if_pos (by omega)]; simp
    rw [this]
    simp [List.drop_of_length_le, words_length]

/-- **C52 (refutation).** Prepending to a two-component identifier does not keep its components:
the code moves `size()` bytes instead of `size()` components. -/
theorem C52_pushFront_loses_tail :
    pushFront 7 1 [1, 2] = .ok [7, 1, 0] ∧ pushFront 7 1 [1, 2] ≠ .ok (7 :: [1, 2]) := by
  decide

end Verif.Hiid
