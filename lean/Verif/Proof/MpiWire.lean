import Verif.Model.MpiWire
import Verif.Proof.Bytes

namespace Verif.MpiWire

theorem ensureBuffer_ge (b m : Nat) : m ≤ ensureBuffer b m := by
  unfold ensureBuffer
  by_cases h : b < m
  · rw [if_pos h]
    have h0 : 0 < increment := by decide
    have := Nat.lt_div_mul_add h0 (a := m)
    rw [Nat.add_mul, Nat.one_mul]
    omega
  · rw [if_neg h]; omega

theorem sizeArray_length (bs : List Bytes) : (sizeArray bs).length = 8 * bs.length := by
  induction bs with
  | nil => rfl
  | cons b bs ih => simp only [sizeArray, List.length_append, encSize_length, ih, List.length_cons]; omega

theorem body_length (bs : List Bytes) : (body bs).length = sumSizes bs := by
  induction bs with
  | nil => rfl
  | cons b bs ih => simp only [body, List.length_append, ih, sumSizes]

theorem castInt_le (x : Nat) : castInt x ≤ x := by
  unfold castInt
  have h1 : x % 2 ^ 32 ≤ x := Nat.mod_le _ _
  split <;> omega

theorem castInt_small (x : Nat) (h : x < 2 ^ 31) : castInt x = x := by
  unfold castInt
  have h1 : x % 2 ^ 32 = x := Nat.mod_eq_of_lt (by omega)
  rw [h1, if_pos h]

/-- What a loop in the middle of an encoded message meets. -/
theorem readBlocks_encoded (pre bs : List Bytes) (hs : ∀ b ∈ bs, b.length < 2 ^ 64) :
    readBlocks (sizeArray (pre ++ bs) ++ body (pre ++ bs)) bs.length pre.length
      (8 * (pre ++ bs).length + sumSizes pre) = .ok bs := by
  induction bs generalizing pre with
  | nil => rfl
  | cons b bs ih =>
    have hsz : ∀ (p q : List Bytes), sizeArray (p ++ q) = sizeArray p ++ sizeArray q := by
      intro p q
      induction p with
      | nil => rfl
      | cons x p ih => simp only [List.cons_append, sizeArray, ih, List.append_assoc]
    have hbd : ∀ (p q : List Bytes), body (p ++ q) = body p ++ body q := by
      intro p q
      induction p with
      | nil => rfl
      | cons x p ih => simp only [List.cons_append, body, ih, List.append_assoc]
    have hss : ∀ (p q : List Bytes), sumSizes (p ++ q) = sumSizes p + sumSizes q := by
      intro p q
      induction p with
      | nil => simp only [List.nil_append, sumSizes, Nat.zero_add]
      | cons x p ih => simp only [List.cons_append, sumSizes, ih]; omega
    have hlen : (sizeArray (pre ++ b :: bs) ++ body (pre ++ b :: bs)).length
        = 8 * (pre ++ b :: bs).length + (sumSizes pre + (b.length + sumSizes bs)) := by
      rw [List.length_append, sizeArray_length, body_length, hss]; rfl
    have hl2 : (pre ++ b :: bs).length = pre.length + (bs.length + 1) := by
      rw [List.length_append, List.length_cons]
    have hsize : ((sizeArray (pre ++ b :: bs) ++ body (pre ++ b :: bs)).drop (8 * pre.length)).take 8
        = encSize b.length := by
      rw [hsz, List.append_assoc, List.drop_append, sizeArray_length,
        List.drop_eq_nil_of_le (Nat.le_of_eq (sizeArray_length _)), Nat.sub_self, List.drop_zero,
        List.nil_append]
      show (encSize b.length ++ sizeArray bs ++ body (pre ++ b :: bs)).take 8 = _
      rw [List.append_assoc, List.take_append_of_le_length (Nat.le_of_eq (encSize_length _).symm),
        List.take_of_length_le (Nat.le_of_eq (encSize_length _))]
    have hdata : ((sizeArray (pre ++ b :: bs) ++ body (pre ++ b :: bs)).drop
        (8 * (pre ++ b :: bs).length + sumSizes pre)).take b.length = b := by
      rw [← List.drop_drop, ← sizeArray_length, List.drop_left, hbd, ← body_length, List.drop_left]
      show (b ++ body bs).take b.length = b
      rw [List.take_left]
    have hb := hs b (List.mem_cons_self)
    have key := ih (pre ++ [b]) (fun x hx => hs x (List.mem_cons_of_mem _ hx))
    rw [List.append_assoc, List.singleton_append, List.length_append, hss] at key
    have e1 : sumSizes [b] = b.length := by simp only [sumSizes, Nat.add_zero]
    rw [e1] at key
    show readBlocks _ (bs.length + 1) _ _ = _
    rw [readBlocks]
    rw [if_neg (by rw [hlen, hl2]; omega)]
    dsimp only
    rw [hsize, leDec_encSize _ hb]
    have hc := castInt_le b.length
    rw [if_neg (by rw [hlen]; push_cast; omega)]
    rw [if_neg (by rw [hlen]; omega)]
    have e2 : 8 * (pre ++ b :: bs).length + sumSizes pre + b.length
        = 8 * (pre ++ b :: bs).length + (sumSizes pre + b.length) := by omega
    rw [e2]
    simp only [List.length_cons, List.length_nil, Nat.zero_add] at key
    simp only [key, hdata]

theorem isInt32_of_lt (n : Nat) (h : n < 2 ^ 31) : IsInt32 (n : Int) := by
  unfold IsInt32; omega

theorem encode_length (hdr : Bytes) (bs : List Bytes) :
    (encInt32 bs.length ++ hdr ++ sizeArray bs ++ body bs).length
      = 4 + hdr.length + 8 * bs.length + sumSizes bs := by
  simp only [List.length_append, encInt32_length, sizeArray_length, body_length]

theorem decode_encoded (hdr : Bytes) (bs : List Bytes) (hn : bs.length < 2 ^ 31)
    (hs : ∀ b ∈ bs, b.length < 2 ^ 64) :
    decode hdr.length (encInt32 bs.length ++ hdr ++ sizeArray bs ++ body bs)
      = .ok (hdr, if bs = [] then none else some bs) := by
  unfold decode
  rw [if_neg (by rw [encode_length]; omega)]
  have h4 : (encInt32 bs.length ++ hdr ++ sizeArray bs ++ body bs).take 4 = encInt32 bs.length := by
    rw [List.append_assoc, List.append_assoc,
      List.take_append_of_le_length (Nat.le_of_eq (encInt32_length _).symm),
      List.take_of_length_le (Nat.le_of_eq (encInt32_length _))]
  have hd : (encInt32 bs.length ++ hdr ++ sizeArray bs ++ body bs).drop 4
      = hdr ++ (sizeArray bs ++ body bs) := by
    have := encInt32_length (bs.length : Int)
    rw [List.append_assoc, List.append_assoc]
    conv => lhs; rw [← this]
    rw [List.drop_left]
  have hr : (encInt32 bs.length ++ hdr ++ sizeArray bs ++ body bs).drop (4 + hdr.length)
      = sizeArray bs ++ body bs := by
    rw [← List.drop_drop, hd, List.drop_left]
  dsimp only
  rw [h4, hd, hr, decInt32_encInt32 _ (isInt32_of_lt _ hn), List.take_left]
  by_cases h0 : bs = []
  · subst h0; rfl
  · have h1 : 0 < bs.length := List.length_pos_iff.2 h0
    rw [if_neg (by omega), if_neg h0]
    have e1 : ((bs.length : Int) * 8 % 2 ^ 64).toNat = 8 * bs.length := by omega
    rw [e1]
    have hc := castInt_le (8 * bs.length)
    rw [if_neg (by rw [List.length_append, sizeArray_length]; push_cast; push_cast at hc; omega),
      if_neg (by omega), Int.toNat_natCast]
    have := readBlocks_encoded [] bs hs
    simp only [List.nil_append, sumSizes, Nat.add_zero, List.length_nil] at this
    rw [this]

/-- A truncated body is refused by the loop. -/
theorem readBlocks_truncated (pre bs : List Bytes) (rest : Bytes) (N : Nat)
    (hN : N = (pre ++ bs).length)
    (hs : ∀ b ∈ bs, b.length < 2 ^ 31)
    (hrest : ∃ t, t ≠ [] ∧ sizeArray (pre ++ bs) ++ body (pre ++ bs) = rest ++ t)
    (hlen : 8 * N ≤ rest.length) (hpre : 8 * N + sumSizes pre ≤ rest.length) :
    readBlocks rest bs.length pre.length (8 * N + sumSizes pre) = .err := by
  induction bs generalizing pre with
  | nil =>
    exfalso
    obtain ⟨t, ht, he⟩ := hrest
    have := congrArg List.length he
    rw [List.length_append, List.length_append, sizeArray_length, body_length, ← hN,
      List.append_nil] at this
    have : 0 < t.length := List.length_pos_iff.2 ht
    omega
  | cons b bs ih =>
    have hss : ∀ (p q : List Bytes), sumSizes (p ++ q) = sumSizes p + sumSizes q := by
      intro p q
      induction p with
      | nil => simp only [List.nil_append, sumSizes, Nat.zero_add]
      | cons x p ih => simp only [List.cons_append, sumSizes, ih]; omega
    have hsz : ∀ (p q : List Bytes), sizeArray (p ++ q) = sizeArray p ++ sizeArray q := by
      intro p q
      induction p with
      | nil => rfl
      | cons x p ih => simp only [List.cons_append, sizeArray, ih, List.append_assoc]
    have hl2 : (pre ++ b :: bs).length = pre.length + (bs.length + 1) := by
      rw [List.length_append, List.length_cons]
    have hb := hs b (List.mem_cons_self)
    obtain ⟨t, ht, he⟩ := hrest
    have hsize : (rest.drop (8 * pre.length)).take 8 = encSize b.length := by
      have h1 : (rest ++ t).drop (8 * pre.length) = rest.drop (8 * pre.length) ++ t := by
        rw [List.drop_append_of_le_length (by omega)]
      have h2 : ((rest ++ t).drop (8 * pre.length)).take 8 = (rest.drop (8 * pre.length)).take 8 := by
        rw [h1, List.take_append_of_le_length (by rw [List.length_drop]; omega)]
      rw [← h2, ← he, hsz, List.append_assoc, List.drop_append, sizeArray_length,
        List.drop_eq_nil_of_le (Nat.le_of_eq (sizeArray_length _)), Nat.sub_self, List.drop_zero,
        List.nil_append]
      show (encSize b.length ++ sizeArray bs ++ body (pre ++ b :: bs)).take 8 = _
      rw [List.append_assoc, List.take_append_of_le_length (Nat.le_of_eq (encSize_length _).symm),
        List.take_of_length_le (Nat.le_of_eq (encSize_length _))]
    show readBlocks _ (bs.length + 1) _ _ = _
    rw [readBlocks]
    rw [if_neg (by omega)]
    dsimp only
    rw [hsize, leDec_encSize _ (by omega), castInt_small _ hb]
    by_cases hc : (rest.length : Int) - ((8 * N + sumSizes pre : Nat) : Int) < (b.length : Int)
    · rw [if_pos hc]
    · rw [if_neg hc, if_neg (by omega)]
      have key := ih (pre ++ [b]) (by rw [List.append_assoc]; exact hN)
        (fun x hx => hs x (List.mem_cons_of_mem _ hx))
        (by rw [List.append_assoc]; exact ⟨t, ht, he⟩)
        (by rw [hss]; simp only [sumSizes]; omega)
      rw [hss] at key
      simp only [sumSizes, Nat.add_zero, List.length_append, List.length_cons, List.length_nil,
        Nat.zero_add] at key
      rw [Nat.add_assoc, key]

theorem decode_truncated (hdr : Bytes) (bs : List Bytes) (hn : 8 * bs.length < 2 ^ 31)
    (hs : ∀ b ∈ bs, b.length < 2 ^ 31) (m t : Bytes) (ht : t ≠ [])
    (he : encInt32 bs.length ++ hdr ++ sizeArray bs ++ body bs = m ++ t) :
    decode hdr.length m = .err := by
  have htl : 0 < t.length := List.length_pos_iff.2 ht
  have hlen := congrArg List.length he
  rw [encode_length, List.length_append] at hlen
  unfold decode
  by_cases h0 : hdr.length + 4 > m.length
  · rw [if_pos h0]
  · rw [if_neg h0]
    dsimp only
    have h4 : m.take 4 = encInt32 bs.length := by
      have h1 : (m ++ t).take 4 = m.take 4 := by
        rw [List.take_append_of_le_length (by omega)]
      rw [← h1, ← he, List.append_assoc, List.append_assoc,
        List.take_append_of_le_length (Nat.le_of_eq (encInt32_length _).symm),
        List.take_of_length_le (Nat.le_of_eq (encInt32_length _))]
    have hr : sizeArray bs ++ body bs = m.drop (4 + hdr.length) ++ t := by
      have h1 : (m ++ t).drop (4 + hdr.length) = m.drop (4 + hdr.length) ++ t := by
        rw [List.drop_append_of_le_length (by omega)]
      rw [← h1, ← he]
      have : (encInt32 bs.length ++ hdr).length = 4 + hdr.length := by
        rw [List.length_append, encInt32_length]
      rw [List.append_assoc, ← this, List.drop_left]
    rw [h4, decInt32_encInt32 _ (isInt32_of_lt _ (by omega))]
    have hb : 0 < bs.length := by
      rcases Nat.eq_zero_or_pos bs.length with h | h
      · exfalso
        have : bs = [] := List.length_eq_zero_iff.1 h
        subst this
        simp only [List.length_nil, sumSizes] at hlen
        omega
      · exact h
    rw [if_neg (by omega)]
    have e1 : ((bs.length : Int) * 8 % 2 ^ 64).toNat = 8 * bs.length := by omega
    rw [e1, castInt_small _ hn]
    by_cases h1 : (((m.drop (4 + hdr.length)).length : Nat) : Int) < ((8 * bs.length : Nat) : Int)
    · rw [if_pos h1]
    · rw [if_neg h1, if_neg (by omega), Int.toNat_natCast]
      have key := readBlocks_truncated [] bs (m.drop (4 + hdr.length)) bs.length rfl hs
        ⟨t, ht, hr⟩ (by omega) (by simp only [sumSizes]; omega)
      simp only [sumSizes, Nat.add_zero, List.length_nil] at key
      rw [key]

theorem send_some (cap : Nat) (hdr : Bytes) (bs : List Bytes) (hn : bs.length < 2 ^ 31) :
    send cap hdr (some bs) = .ok (encInt32 bs.length ++ hdr ++ sizeArray bs ++ body bs,
      ensureBuffer cap (4 + hdr.length + 8 * bs.length + sumSizes bs)) := by
  unfold send
  dsimp only [blockset, marinate]
  unfold encode
  rw [if_pos hn]
  dsimp only
  have := ensureBuffer_ge cap (4 + hdr.length + 8 * bs.length + sumSizes bs)
  rw [encode_length, if_neg (by omega), if_neg (by simp)]

theorem send_none (cap : Nat) (hdr : Bytes) :
    send cap hdr none = .ok (encInt32 0 ++ hdr, ensureBuffer cap (4 + hdr.length)) := by
  have h := ensureBuffer_ge cap (4 + hdr.length)
  unfold send
  dsimp only [blockset, marinate]
  unfold encode
  rw [if_pos (by decide)]
  dsimp only [sizeArray, body]
  rw [List.append_nil, List.append_nil, List.length_append]
  simp only [List.length_nil, encInt32_length]
  rw [if_neg (by omega), if_neg (by simp)]
  rfl

end Verif.MpiWire
