import Verif.Model.Bytes
/-! Lemmas about the byte encodings. -/
namespace Verif

@[simp] theorem leEnc_length (n x : Nat) : (leEnc n x).length = n := by
  induction n generalizing x with
  | zero => rfl
  | succ n ih => simp [leEnc, ih]

theorem leDec_leEnc (n x : Nat) (h : x < 256 ^ n) : leDec (leEnc n x) = x := by
  induction n generalizing x with
  | zero => simp at h; simp [leEnc, leDec, h]
  | succ n ih =>
    have hx : x / 256 < 256 ^ n := by
      rw [Nat.pow_succ] at h
      exact Nat.div_lt_of_lt_mul (by omega)
    simp only [leEnc, leDec, ih _ hx]
    have : (UInt8.ofNat (x % 256)).toNat = x % 256 := by
      simp [UInt8.toNat_ofNat']
    rw [this]; omega

theorem leDec_lt (bs : Bytes) : leDec bs < 256 ^ bs.length := by
  induction bs with
  | nil => simp [leDec]
  | cons b bs ih =>
    have hb : b.toNat < 256 := b.toNat_lt
    simp only [leDec, List.length_cons, Nat.pow_succ]; omega

theorem leEnc_leDec (bs : Bytes) : leEnc bs.length (leDec bs) = bs := by
  induction bs with
  | nil => rfl
  | cons b bs ih =>
    have hb : b.toNat < 256 := b.toNat_lt
    simp only [List.length_cons, leEnc, leDec]
    have h1 : (b.toNat + 256 * leDec bs) % 256 = b.toNat := by omega
    have h2 : (b.toNat + 256 * leDec bs) / 256 = leDec bs := by omega
    rw [h1, h2, ih]; simp

@[simp] theorem encSize_length (x : Nat) : (encSize x).length = 8 := leEnc_length _ _
@[simp] theorem encInt32_length (x : Int) : (encInt32 x).length = 4 := leEnc_length _ _

theorem leDec_encSize (x : Nat) (h : x < 2 ^ 64) : leDec (encSize x) = x :=
  leDec_leEnc 8 x (by simpa using h)

theorem decInt32_encInt32 (x : Int) (h : IsInt32 x) : decInt32 (encInt32 x) = x := by
  obtain ⟨h1, h2⟩ := h
  have hlt : (x % (2 ^ 32 : Int)).toNat < 256 ^ 4 := by
    have := Int.emod_lt_of_pos x (b := 2 ^ 32) (by decide)
    have h0 := Int.emod_nonneg x (b := 2 ^ 32) (by decide)
    omega
  simp only [decInt32, encInt32, leDec_leEnc 4 _ hlt]
  split <;> omega

theorem decInt32_isInt32 (bs : Bytes) (h : bs.length = 4) : IsInt32 (decInt32 bs) := by
  have := leDec_lt bs
  rw [h] at this
  unfold decInt32 IsInt32
  simp only
  split <;> omega

theorem encInt32_decInt32 (bs : Bytes) (h : bs.length = 4) : encInt32 (decInt32 bs) = bs := by
  have hl := leDec_lt bs
  rw [h] at hl
  have : ((decInt32 bs) % (2 ^ 32 : Int)).toNat = leDec bs := by
    unfold decInt32; simp only; split <;> omega
  unfold encInt32
  rw [this]
  have := leEnc_leDec bs
  rw [h] at this; exact this

end Verif
