import Verif.Proof.Packer
import Mathlib.Tactic.Common
/-! Properties C17, C18, C65: packers. -/
namespace Verif.Packer
variable {A K V : Type}

/-- **C17.** Packing a sequence into a block of at least one word succeeds iff the announced size fits, and
then writes exactly that many bytes. -/
theorem C17_pack_size (E : EP A) (hE : EPOk E) (xs : List A) (nleft : Nat) (h8 : 8 ≤ nleft) :
    (nleft < seqPackSize E xs → seqPack E xs nleft = .err) ∧
    (seqPackSize E xs ≤ nleft → ∃ b, seqPack E xs nleft = .ok (b, nleft - b.length) ∧ b.length = seqPackSize E xs) := by
  have hsz : seqPackSize E xs = (seqBytes E xs).length := by
    rw [seqBytes_length]
    unfold seqPackSize
    by_cases h : E.bin = 0
    · have : (xs.map E.size).sum = (data E xs).length := by
        clear h8
        induction xs with
        | nil => rfl
        | cons x xs ih => rw [data_cons, List.length_append, ← ih]; simp [hE.size]
      simp [h, this]; omega
    · have : (data E xs).length = E.bin * xs.length := by
        clear h8
        induction xs with
        | nil => rfl
        | cons x xs ih => rw [data_cons, List.length_append, ih, hE.bin h, List.length_cons, Nat.mul_succ]; omega
      simp [h, this]
  have hl := seqBytes_length E xs
  rw [hsz]
  unfold seqPack
  rw [if_neg (by omega)]
  simp only [seqLoop_eq]
  generalize hg : (1 + if E.bin ≠ 0 then 0 else xs.length) * 8 = g at hl
  constructor
  · intro h
    by_cases h1 : g > nleft
    · rw [if_pos h1]
    · rw [if_neg h1]
      have : nleft - g < (data E xs).length := by omega
      rw [if_pos this]
  · intro h
    have h1 : ¬ g > nleft := by omega
    have h2 : ¬ nleft - g < (data E xs).length := by omega
    rw [if_neg h1, if_neg h2]
    refine ⟨seqBytes E xs, ?_, rfl⟩
    simp only [hl]
    have : nleft - g - (data E xs).length = nleft - (g + (data E xs).length) := by omega
    rw [this]
    rfl

/-- **C17.** Whatever `pack` wrote, `unpack` reads back the same sequence; if anything follows it in the block,
`unpack` fails. -/
theorem C17_round_trip (E : EP A) (hE : EPOk E) (xs : List A) (nleft : Nat) (b T : Bytes) (nl : Nat)
    (hn : xs.length < 2 ^ 60) (hb : (b ++ T).length < 2 ^ 64) (h : seqPack E xs nleft = .ok (b, nl)) :
    seqUnpack E (b ++ T) = if T = [] then .ok xs else .err := by
  have e := seqPack_bytes E xs nleft b nl h
  rw [e] at hb ⊢
  have hl := seqBytes_length E xs
  have hla : (seqBytes E xs ++ T).length = (seqBytes E xs).length + T.length := List.length_append
  unfold seqUnpack
  have h0 := rdSize_seqBytes E xs T (by omega)
  simp only [h0]
  have hm : (1 + if E.bin ≠ 0 then 0 else xs.length) * 8 % 2 ^ 64 = (1 + if E.bin ≠ 0 then 0 else xs.length) * 8 :=
    Nat.mod_eq_of_lt (by omega)
  rw [hm]
  have hun := seqUnLoop_all E hE xs T hb
  have h8 : 8 ≤ (1 + if E.bin ≠ 0 then 0 else xs.length) * 8 := by omega
  generalize (1 + if E.bin ≠ 0 then 0 else xs.length) * 8 = g at *
  rw [if_neg (by omega), if_neg (by omega), if_neg (by omega), hun]
  by_cases hT : T = []
  · subst hT; simp
  · have := List.length_pos_of_ne_nil hT
    simp only [hT, if_false, Res.ok_bind]
    rw [if_pos (by omega)]

/-- Packing into less than one word writes outside the block before any check. -/
theorem C17_tiny_block (E : EP A) (xs : List A) (nleft : Nat) (h : nleft < 8) : seqPack E xs nleft = .ub := by
  simp [seqPack, h]

/-- Strings: variable size. -/
def strP : EP Bytes := ⟨0, id, some, List.length⟩
/-- `int`s: fixed size. -/
def wordP : EP Nat := ⟨8, encSize, fun b => some (leDec b), fun _ => 8⟩

theorem strP_ok : EPOk strP := ⟨fun _ => rfl, fun _ => rfl, fun h => absurd rfl h⟩

/-- Bytes as fixed-size elements. -/
def byteP : EP UInt8 := ⟨1, fun b => [b], fun b => b.head?, fun _ => 1⟩

theorem byteP_ok : EPOk byteP := ⟨fun _ => rfl, fun _ => rfl, fun _ _ => rfl⟩

/-- Three strings, one of them empty, packed into a block with room to spare. -/
example : ∃ b, seqPack strP [[1, 2], [], [3]] 100 = .ok (b, 65) ∧ seqUnpack strP b = .ok [[1, 2], [], [3]] :=
  ⟨_, rfl, by decide +kernel⟩

/-- **C18**, full statement. -/
def C18_full : Prop := ∀ (E F : EP Bytes), EPOk E → EPOk F → ∀ (m : List (Bytes × Bytes)) (b : Bytes) (nleft nl : Nat),
  (m.map (·.1)).Nodup → b.length < 2 ^ 62 → mapPack E F m nleft = .ok (b, nl) →
    mapUnpack E F [] b = .ok m ∧ mapPackSize E F m = b.length

/-- **C18** is false: a map from one one-letter string to a two-letter string is packed into a block that
`unpack` rejects, and the announced size is wrong as well. -/
theorem C18_refuted : ¬ C18_full := by
  intro h
  have := (h strP strP strP_ok strP_ok [([1], [2, 3])] (mapBytes strP strP [([1], [2, 3])]) 100 73 (by decide)
    (by decide) rfl).1
  revert this
  decide +kernel

/-- The announced size is also wrong: here 24 bytes for a map that takes 27. -/
theorem C18_packSize_wrong : mapPackSize strP strP [([1], [2, 3])] = 24 ∧ (mapBytes strP strP [([1], [2, 3])]).length = 27 := by
  decide +kernel

/-- What `unpack` does with the bytes `pack` wrote, for all faithful packers and all maps: it returns the
map iff the sizes it counts add up to the size of the block, and fails otherwise. -/
theorem C18_unpack_pack [DecidableEq K] (E : EP K) (F : EP V) (hE : EPOk E) (hF : EPOk F) (m : List (K × V))
    (nleft nl : Nat) (b : Bytes) (hk : (m.map (·.1)).Nodup) (hb : b.length < 2 ^ 62) (hn : m.length < 2 ^ 62)
    (h : mapPack E F m nleft = .ok (b, nl)) :
    mapUnpack E F [] b = if counted E F m = (mdata E F m).length then .ok m else .err := by
  have e : b = mapBytes E F m := by
    unfold mapPack at h
    split at h
    · cases h
    · simp only [mapLoop_eq] at h
      generalize (1 + (if E.bin ≠ 0 then 0 else m.length) + (if F.bin ≠ 0 then 0 else m.length)) * 8 = g at h
      split at h
      · cases h
      · split at h
        · cases h
        · rename_i hs d nl' heq
          split at heq
          · cases heq
          · cases heq; cases h; rfl
  rw [e] at hb ⊢
  have hl := mapBytes_length E F m
  have h0 : rdSize (mapBytes E F m) 0 = m.length := by
    have := rdSize_append [] ((mtable E F m).flatMap encSize ++ mdata E F m) m.length 0 rfl (by omega)
    simpa [mapBytes] using this
  have hm : (1 + (if E.bin ≠ 0 then 0 else m.length) + (if F.bin ≠ 0 then 0 else m.length)) * 8 % 2 ^ 64
      = (1 + (if E.bin ≠ 0 then 0 else m.length) + (if F.bin ≠ 0 then 0 else m.length)) * 8 :=
    Nat.mod_eq_of_lt (by omega)
  unfold mapUnpack
  simp only [h0, hm]
  have ht := mtable_length E F m
  have hun : mapUnLoop E F (mapBytes E F m) m.length 8 (8 + 8 * (mtable E F m).length) (8 + 8 * (mtable E F m).length) []
      = if (mapBytes E F m).length < (8 + 8 * (mtable E F m).length) + counted E F m then .err
        else .ok (m.foldl (fun m p => Assoc.set m p.1 p.2) [], (8 + 8 * (mtable E F m).length) + counted E F m) :=
    mapUnLoop_spec E F hE hF (encSize m.length) m [] [] (8 + 8 * (mtable E F m).length) hb (by simp)
      (by simp only [List.nil_append, List.length_append, encs_length, encSize_length]; omega)
  have hg : 8 + 8 * (mtable E F m).length
      = (1 + (if E.bin ≠ 0 then 0 else m.length) + (if F.bin ≠ 0 then 0 else m.length)) * 8 := by omega
  rw [hg] at hun
  have h8 : 8 ≤ (1 + (if E.bin ≠ 0 then 0 else m.length) + (if F.bin ≠ 0 then 0 else m.length)) * 8 := by omega
  generalize (1 + (if E.bin ≠ 0 then 0 else m.length) + (if F.bin ≠ 0 then 0 else m.length)) * 8 = g at *
  rw [if_neg (by omega), if_neg (by omega), hun, foldl_set m [] (by simpa using hk)]
  by_cases h1 : (mapBytes E F m).length < g + counted E F m
  · have h2 : ¬ counted E F m = (mdata E F m).length := by omega
    rw [if_pos h1, if_neg h2]; rfl
  · rw [if_neg h1]
    simp only [Res.ok_bind, List.nil_append]
    by_cases h2 : counted E F m = (mdata E F m).length
    · rw [if_pos h2, if_neg (by omega)]; rfl
    · rw [if_neg h2, if_pos (by omega)]

/-- **C18**, proved part: maps with fixed-size values round-trip.  Missing: values of variable size, where
the code counts the wrong size, and the announced size. -/
theorem C18_fixed_values_partial [DecidableEq K] (E : EP K) (F : EP V) (hE : EPOk E) (hF : EPOk F) (m : List (K × V))
    (nleft nl : Nat) (b : Bytes) (hk : (m.map (·.1)).Nodup) (hb : b.length < 2 ^ 62) (hn : m.length < 2 ^ 62)
    (hbin : F.bin ≠ 0) (h : mapPack E F m nleft = .ok (b, nl)) : mapUnpack E F [] b = .ok m := by
  rw [C18_unpack_pack E F hE hF m nleft nl b hk hb hn h, if_pos]
  clear h hk hn
  induction m with
  | nil => rfl
  | cons p m ih =>
    obtain ⟨k, v⟩ := p
    rw [counted_cons, mdata_cons, ih, if_pos hbin, List.length_append, List.length_append, hF.bin hbin]

/-- **C18**: with variable-size values, `unpack` fails whenever keys and values differ in total size. -/
theorem C18_variable_values_fail [DecidableEq K] (E : EP K) (F : EP V) (hE : EPOk E) (hF : EPOk F) (m : List (K × V))
    (nleft nl : Nat) (b : Bytes) (hk : (m.map (·.1)).Nodup) (hb : b.length < 2 ^ 62) (hn : m.length < 2 ^ 62)
    (hbin : F.bin = 0) (hne : (m.map fun p => (E.bytes p.1).length).sum ≠ (m.map fun p => (F.bytes p.2).length).sum)
    (h : mapPack E F m nleft = .ok (b, nl)) : mapUnpack E F [] b = .err := by
  rw [C18_unpack_pack E F hE hF m nleft nl b hk hb hn h, if_neg]
  have e : ∀ m : List (K × V), counted E F m = (m.map fun p => (E.bytes p.1).length).sum + (m.map fun p => (E.bytes p.1).length).sum
      ∧ (mdata E F m).length = (m.map fun p => (E.bytes p.1).length).sum + (m.map fun p => (F.bytes p.2).length).sum := by
    intro m
    induction m with
    | nil => exact ⟨rfl, rfl⟩
    | cons p m ih =>
      obtain ⟨k, v⟩ := p
      rw [counted_cons, mdata_cons]
      simp only [hbin, ne_eq, not_true_eq_false, if_false, List.map_cons, List.sum_cons, List.length_append]
      omega
  have := e m
  omega

/-- String keys and one-byte values round-trip. -/
example : ∃ b, mapPack strP byteP [([1], 7), ([1, 2], 8)] 100 = .ok (b, 71) ∧
    mapUnpack strP byteP [] b = .ok [([1], 7), ([1, 2], 8)] := ⟨_, rfl, by decide +kernel⟩

/-- **C65**, full statement: arrays round-trip. -/
def C65_full : Prop := ∀ (E : EP UInt8), EPOk E → ∀ (xs : List UInt8) (b : Bytes) (nleft nl : Nat), xs.length < 2 ^ 31 →
  b.length < 2 ^ 62 → arrPack E xs nleft = .ok (b, nl) → arrUnpack E xs.length b = .ok xs

/-- **C65** is false for fixed-size elements: what comes back are the bytes of the element count. -/
theorem C65_refuted : ¬ C65_full := by
  intro h
  have := h byteP byteP_ok [5, 6] (seqBytes byteP [5, 6]) 10 0 (by decide) (by decide) rfl
  revert this
  decide +kernel

/-- **C65**, proved part: arrays of variable-size elements round-trip.  Missing: fixed-size elements. -/
theorem C65_variable_partial (E : EP A) (hE : EPOk E) (hbin : E.bin = 0) (xs : List A) (b : Bytes) (nleft nl : Nat)
    (hn : xs.length < 2 ^ 31) (hb : b.length < 2 ^ 62) (h : arrPack E xs nleft = .ok (b, nl)) :
    arrUnpack E xs.length b = .ok xs := by
  have e : b = seqBytes E xs := by
    unfold arrPack at h
    simp only [seqLoop_eq] at h
    generalize (1 + if E.bin ≠ 0 then 0 else xs.length) * 8 = g at h
    split at h
    · cases h
    · split at h
      · cases h
      · rename_i hs d nl' heq
        split at heq
        · cases heq
        · cases heq; cases h; rfl
  rw [e] at hb ⊢
  have hl := seqBytes_length E xs
  unfold arrUnpack
  have h0 := rdSize_seqBytes E xs [] (by omega)
  have hun := seqUnLoop_all E hE xs [] (by simp only [List.append_nil]; omega)
  rw [List.append_nil] at h0 hun
  simp only [h0, hbin, ne_eq, not_true_eq_false, if_false] at hl hun ⊢
  have hm : (1 + xs.length) * 8 % 2 ^ 64 = (1 + xs.length) * 8 := Nat.mod_eq_of_lt (by omega)
  rw [hm, if_neg (by omega), if_neg (by omega), hun]
  simp

/-- Unpacking into an array of another length is an error. -/
theorem C65_wrong_length (E : EP A) (xs : List A) (b : Bytes) (nleft nl n : Nat)
    (hn : xs.length < 2 ^ 31) (h : arrPack E xs nleft = .ok (b, nl)) (hne : n ≠ xs.length) :
    arrUnpack E n b = .err := by
  have e : b = seqBytes E xs := by
    unfold arrPack at h
    simp only [seqLoop_eq] at h
    generalize (1 + if E.bin ≠ 0 then 0 else xs.length) * 8 = g at h
    split at h
    · cases h
    · split at h
      · cases h
      · rename_i hs d nl' heq
        split at heq
        · cases heq
        · cases heq; cases h; rfl
  have h0 := rdSize_seqBytes E xs [] (by omega)
  rw [List.append_nil, ← e] at h0
  unfold arrUnpack
  split
  · rfl
  · rw [if_pos (by rw [h0]; exact hne.symm)]

/-- Two strings in an array. -/
example : ∃ b, arrPack strP [[1, 2], [3]] 100 = .ok (b, 73) ∧ arrUnpack strP 2 b = .ok [[1, 2], [3]] :=
  ⟨_, rfl, by decide +kernel⟩

end Verif.Packer
