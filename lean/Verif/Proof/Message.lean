import Verif.Spec.Message
import Verif.Proof.Serial
/-! Lemmas about messages as block sets. -/
namespace Verif.Message
open Serial (rd rd_append slice_append flat_length)
variable {P : Type}

theorem decInt16_encInt16 (x : Int) (h : -(2 ^ 15 : Int) ≤ x ∧ x < 2 ^ 15) : decInt16 (encInt16 x) = x := by
  unfold decInt16 encInt16
  rw [leDec_leEnc 2 _ (by omega)]
  split <;> omega

theorem encInt16_length (x : Int) : (encInt16 x).length = 2 := leEnc_length _ _

/-- Word `i` of a header made of words. -/
theorem rd_words (ws : List Int) (T : Bytes) (i : Nat) (hi : i < ws.length) (h : ∀ w ∈ ws, IsInt32 w) :
    rd (ws.flatMap encInt32 ++ T) (4 * i) = ws[i] := by
  induction ws generalizing i with
  | nil => simp at hi
  | cons w ws ih =>
    cases i with
    | zero =>
      have := rd_append [] (ws.flatMap encInt32 ++ T) w 0 rfl (h w (by simp))
      simpa using this
    | succ i =>
      have := ih i (by simpa using hi) (fun x hx => h x (by simp [hx]))
      simp only [List.flatMap_cons, List.append_assoc, List.getElem_cons_succ]
      rw [← this]
      unfold rd
      have e : 4 * (i + 1) = 4 + 4 * i := by omega
      rw [e, ← List.drop_drop, List.drop_left' (encInt32_length w)]

theorem unpackAt_spec (A B : Bytes) (p : List Int) (off : Int) (size : Int) (ho : (A.length : Int) = off)
    (hs : 4 * (p.length : Int) = size) (hp : ∀ a ∈ p, IsInt32 a) :
    unpackAt (A ++ (p.flatMap encInt32 ++ B)) off size = .ok p := by
  have hl := flat_length p
  unfold unpackAt
  rw [if_neg (by omega), if_neg (by omega), if_neg (by simp only [List.length_append]; omega)]
  rw [slice_append A (p.flatMap encInt32) B off.toNat size.toNat (by omega) (by omega)]
  unfold Hiid.unpack
  rw [if_neg (by omega), hl]
  have : 4 * p.length / 4 = p.length := by omega
  rw [this]
  have := Hiid.words_flatMap p [] hp
  simp only [List.append_nil] at this
  rw [this]

/-- The nine words at the beginning of the header. -/
def ws (tid : Int) (bc : Nat) (m : Msg P) : List Int :=
  [tid, (bc : Int), m.priority, m.state, m.flags, 4 * (m.id.length : Int), 4 * (m.src.length : Int),
    4 * (m.dst.length : Int), 0]

theorem ws_length (tid : Int) (bc : Nat) (m : Msg P) : ((ws tid bc m).flatMap encInt32).length = 36 := by
  rw [flat_length]; rfl

theorem header_length (tid : Int) (bc : Nat) (m : Msg P) (pt : Int) :
    (header tid bc m pt).length = 44 + 4 * m.id.length + 4 * m.src.length + 4 * m.dst.length := by
  have := ws_length tid bc m
  unfold ws at this
  unfold header
  simp only [List.length_append, this, flat_length, encInt16_length, encInt32_length, List.length_cons, List.length_nil]
  omega

section
variable (C : Payload P) (tid : Int) (bc : Nat) (m : Msg P) (pt : Int) (hm : Fits C m) (htid : IsInt32 tid) (hbc : bc < 2 ^ 31)
  (hpt : IsInt32 pt)
include hm htid hbc

theorem ws_ok : ∀ w ∈ ws tid bc m, IsInt32 w := by
  obtain ⟨h1, h2, h3, _, ⟨_, h4⟩, ⟨_, h5⟩, ⟨_, h6⟩, _⟩ := hm
  intro w hw
  simp only [ws, List.mem_cons, List.not_mem_nil, or_false] at hw
  rcases hw with rfl | rfl | rfl | rfl | rfl | rfl | rfl | rfl | rfl <;> first | assumption | (constructor <;> omega)

theorem hdr_word (i : Nat) (hi : i < 9) : rd (header tid bc m pt) (4 * i) = (ws tid bc m)[i]'(by simpa [ws] using hi) :=
  rd_words (ws tid bc m) _ i (by simpa [ws] using hi) (ws_ok C tid bc m hm htid hbc)
end

theorem hdr_hops (tid : Int) (bc : Nat) (m : Msg P) (pt : Int) (h : -(2 ^ 15 : Int) ≤ m.hops ∧ m.hops < 2 ^ 15) :
    decInt16 (((header tid bc m pt).drop 36).take 2) = m.hops := by
  have : ((header tid bc m pt).drop 36).take 2 = encInt16 m.hops :=
    slice_append ((ws tid bc m).flatMap encInt32) _ _ 36 2 (ws_length tid bc m) (encInt16_length _)
  rw [this, decInt16_encInt16 _ h]

theorem hdr_has (tid : Int) (bc : Nat) (m : Msg P) (pt : Int) :
    (header tid bc m pt).getD 38 0 = if m.block.isSome then 1 else 0 := by
  have : header tid bc m pt = ((ws tid bc m).flatMap encInt32 ++ encInt16 m.hops) ++ ((if m.block.isSome then 1 else 0) :: (0 ::
      (encInt32 pt ++ (m.id.flatMap encInt32 ++ (m.src.flatMap encInt32 ++ m.dst.flatMap encInt32))))) := by
    simp [header, ws]
  rw [this, List.getD_eq_getElem?_getD]
  have hl : ((ws tid bc m).flatMap encInt32 ++ encInt16 m.hops).length = 38 := by
    rw [List.length_append, ws_length, encInt16_length]
  rw [List.getElem?_append_right (by omega), hl]
  rfl

/-- Split of the header at the payload type. -/
theorem header_split (tid : Int) (bc : Nat) (m : Msg P) (pt : Int) :
    ∃ A, A.length = 40 ∧ header tid bc m pt = A ++ (encInt32 pt ++ (m.id.flatMap encInt32 ++ (m.src.flatMap encInt32
      ++ m.dst.flatMap encInt32))) := by
  refine ⟨(ws tid bc m).flatMap encInt32 ++ (encInt16 m.hops ++ [if m.block.isSome then 1 else 0, 0]), ?_, ?_⟩
  · simp only [List.length_append, ws_length, encInt16_length, List.length_cons, List.length_nil]
  · simp [header, ws]

theorem fromBlocks_toBlocks (C : Payload P) (hC : PayloadOk C) (tid : Int) (htid : IsInt32 tid) (m : Msg P) (hm : Fits C m)
    (rest : List Bytes) : fromBlocks C tid (toBlocks C tid m ++ rest) = .ok (m, rest) := by
  have hm' := hm
  obtain ⟨h1, h2, h3, hh, ⟨hid, h4⟩, ⟨hsrc, h5⟩, ⟨hdst, h6⟩, hpb⟩ := hm
  obtain ⟨pb, hpbdef⟩ : ∃ pb, pb = (match m.payload with | none => [] | some p => C.toB p) := ⟨_, rfl⟩
  obtain ⟨pt, hptdef⟩ : ∃ pt, pt = (match m.payload with | none => (0 : Int) | some p => C.tid p) := ⟨_, rfl⟩
  have hpt : IsInt32 pt := by
    rw [hptdef]; split
    · constructor <;> omega
    · exact (hC.tid _).1
  have hpbl : pb.length < 2 ^ 31 - 2 := by
    rw [hpbdef]; split
    · simp
    · exact hpb _ (by assumption)
  have hbl : m.block.toList.length ≤ 1 := by cases m.block <;> simp
  have hbc : 1 + m.block.toList.length + pb.length < 2 ^ 31 := by omega
  have e : toBlocks C tid m = header tid (1 + m.block.toList.length + pb.length) m pt :: (m.block.toList ++ pb) := by
    rw [hpbdef, hptdef]; rfl
  rw [e]
  generalize hbceq : 1 + m.block.toList.length + pb.length = bc at *
  have hlen := header_length tid bc m pt
  have hw := hdr_word C tid bc m pt hm' htid hbc
  have w0 := hw 0 (by omega)
  have w1 := hw 1 (by omega)
  have w2 := hw 2 (by omega)
  have w3 := hw 3 (by omega)
  have w4 := hw 4 (by omega)
  have w5 := hw 5 (by omega)
  have w6 := hw 6 (by omega)
  have w7 := hw 7 (by omega)
  have w8 := hw 8 (by omega)
  simp only [ws, List.getElem_cons_zero, List.getElem_cons_succ, Nat.mul_zero, Nat.mul_one, Nat.reduceMul] at w0 w1 w2 w3 w4 w5 w6 w7 w8
  have whops := hdr_hops tid bc m pt hh
  have whas := hdr_has tid bc m pt
  obtain ⟨A, hA, hsplit⟩ := header_split tid bc m pt
  have wpt : rd (header tid bc m pt) 40 = pt := by
    rw [hsplit]; exact rd_append A _ pt 40 hA hpt
  have uid : unpackAt (header tid bc m pt) 44 (4 * (m.id.length : Int)) = .ok m.id := by
    rw [hsplit, ← List.append_assoc A]
    exact unpackAt_spec _ _ m.id _ _ (by simp only [List.length_append, hA, encInt32_length]; omega) rfl hid
  have usrc : unpackAt (header tid bc m pt) (44 + 4 * (m.id.length : Int)) (4 * (m.src.length : Int)) = .ok m.src := by
    rw [hsplit, ← List.append_assoc A, ← List.append_assoc (A ++ encInt32 pt)]
    exact unpackAt_spec _ _ m.src _ _ (by simp only [List.length_append, hA, encInt32_length, flat_length]; omega) rfl hsrc
  have udst : unpackAt (header tid bc m pt) (44 + 4 * (m.id.length : Int) + 4 * (m.src.length : Int)) (4 * (m.dst.length : Int))
      = .ok m.dst := by
    rw [hsplit, ← List.append_assoc A, ← List.append_assoc (A ++ encInt32 pt), ← List.append_assoc ((A ++ encInt32 pt) ++ _),
      ← List.append_nil (m.dst.flatMap encInt32)]
    exact unpackAt_spec _ _ m.dst _ _ (by simp only [List.length_append, hA, encInt32_length, flat_length]; omega) rfl hdst
  simp only [fromBlocks, List.cons_append, w0, w1, w2, w3, w4, w5, w6, w7, w8, whops, whas, wpt]
  rw [if_neg (by omega), if_neg (by simp), if_neg (by unfold hdrSize; omega), if_neg (by omega), uid, usrc, udst]
  simp only [Res.ok_bind]
  have hpay : takePayload C pt (pb ++ rest) = .ok (m.payload, rest) := by
    unfold takePayload
    cases hp : m.payload with
    | none => simp [hptdef, hpbdef, hp]
    | some p =>
      have e1 : pt = C.tid p := by rw [hptdef, hp]
      have e2 : pb = C.toB p := by rw [hpbdef, hp]
      rw [if_pos (by rw [e1]; exact (hC.tid p).2), e1, e2, hC.round]
  cases hb : m.block with
  | none =>
    have ht : takeBlock (decide ((if (none : Option Bytes).isSome then (1 : UInt8) else 0) ≠ 0))
        ((none : Option Bytes).toList ++ pb ++ rest) = .ok (none, pb ++ rest) := rfl
    rw [ht, Res.ok_bind]
    simp only
    rw [hpay, Res.ok_bind]
    simp only [Option.isSome_none, Bool.false_eq_true, if_false, ne_eq, not_true_eq_false, List.length_append, Res.pure_eq]
    rw [hb] at hbceq
    simp only [Option.toList_none, List.length_nil] at hbceq
    rw [if_neg (by omega), ← hb]
  | some b =>
    have ht : takeBlock (decide ((if (some b : Option Bytes).isSome then (1 : UInt8) else 0) ≠ 0))
        ((some b : Option Bytes).toList ++ pb ++ rest) = .ok (some b, pb ++ rest) := rfl
    rw [ht, Res.ok_bind]
    simp only
    rw [hpay, Res.ok_bind]
    have h10 : (1 : UInt8) ≠ 0 := by decide
    simp only [Option.isSome_some, if_true, ne_eq, h10, not_false_eq_true, List.length_append, Res.pure_eq]
    rw [hb] at hbceq
    simp only [Option.toList_some, List.length_cons, List.length_nil] at hbceq
    rw [if_neg (by omega), ← hb]

end Verif.Message
