import Verif.Proof.Message
/-! # Messages on the wire (C27, C68) -/
namespace Verif.Message
open Serial (rd)
variable {P : Type}

/-- **C27.** A message converted to blocks and back is the same message — id, addresses, priority, state, hop count,
flags, data block and payload — and the blocks that follow are left alone. -/
theorem C27_round_trip (C : Payload P) (hC : PayloadOk C) (tid : Int) (htid : IsInt32 tid) (m : Msg P) (hm : Fits C m)
    (rest : List Bytes) : fromBlocks C tid (toBlocks C tid m ++ rest) = .ok (m, rest) :=
  fromBlocks_toBlocks C hC tid htid m hm rest

/-- Two different messages are never written as the same blocks. -/
theorem C27_injective (C : Payload P) (hC : PayloadOk C) (tid : Int) (htid : IsInt32 tid) (m m' : Msg P) (hm : Fits C m)
    (hm' : Fits C m') (h : toBlocks C tid m = toBlocks C tid m') : m = m' := by
  have h1 := C27_round_trip C hC tid htid m hm []
  have h2 := C27_round_trip C hC tid htid m' hm' []
  rw [h, h2] at h1
  injection h1 with h1
  injection h1 with h1 _
  exact h1.symm

/-- A payload with two blocks. -/
def demoP : Payload Bytes := ⟨fun _ => -30, fun b => [b, [1]], fun t set =>
  if t = -30 then (match set with | b :: _ :: r => .ok (b, r) | _ => .err) else .err⟩

theorem demoP_ok : PayloadOk demoP := ⟨fun _ => ⟨⟨by simp [demoP], by simp [demoP]⟩, by simp [demoP]⟩, fun _ _ => rfl⟩

/-- A message with a block and a payload. -/
def demoM : Msg Bytes := ⟨[3, -5], 256, [1, 2, 3, 4], [5, 6, 7, 8], -1, 2, 9, some [7, 7], some [4]⟩

example : Fits demoP demoM :=
  ⟨by unfold IsInt32; decide, by unfold IsInt32; decide, by unfold IsInt32; decide, by decide,
    ⟨by unfold IsInt32; decide, by decide⟩, ⟨by unfold IsInt32; decide, by decide⟩, ⟨by unfold IsInt32; decide, by decide⟩,
    by intro p _; simp [demoP]⟩
example : (toBlocks demoP (-20) demoM).length = 4 ∧ fromBlocks demoP (-20) (toBlocks demoP (-20) demoM ++ [[9]])
    = .ok (demoM, [[9]]) := by decide +kernel

/-! ## C68: messages from a damaged or hostile peer -/

/-- Full statement: whatever blocks arrive, reading a message returns or throws. -/
def C68_full : Prop := ∀ set : List Bytes, fromBlocks demoP (-20) set ≠ .ub

/-- A header of fewer than eight bytes is read beyond its end. -/
theorem C68_refuted : ¬ C68_full := by
  intro h
  exact h [[1, 2, 3]] (by decide +kernel)

/-- A header whose sizes cancel out makes the identifier be read beyond the block. -/
theorem C68_sizes_cancel : fromBlocks demoP (-20)
    [[-20, 1, 0, 0, 0, 8, 0, 0, -8].flatMap encInt32 ++ [0, 0, 0, 0] ++ encInt32 0] = .ub := by decide +kernel

/-- **C68 (part).** With a header block of at least eight bytes whose sizes are not negative, and payload classes that do
not misbehave, reading never is undefined. -/
theorem C68_no_undefined_partial (C : Payload P) (hC : ∀ t set, C.fromB t set ≠ .ub) (tid : Int) (h : Bytes) (set : List Bytes)
    (h8 : 8 ≤ h.length) (hsize : 0 ≤ rd h 20 ∧ 0 ≤ rd h 24 ∧ 0 ≤ rd h 28 ∧ 0 ≤ rd h 32) :
    fromBlocks C tid (h :: set) ≠ .ub := by
  have hu : ∀ off size, 0 ≤ off → off + size ≤ (h.length : Int) → unpackAt h off size ≠ .ub := by
    intro off size h0 h1
    unfold unpackAt
    split
    · simp
    · split
      · simp
      · rw [if_neg (by omega)]
        split <;> simp
  have hrng : ∀ o, o + 4 ≤ h.length → rd h o < 2 ^ 31 := by
    intro o ho
    have := decInt32_isInt32 ((h.drop o).take 4) (by simp; omega)
    exact this.2
  have hbind : ∀ {α β : Type} (x : Res α) (f : α → Res β), x ≠ .ub → (∀ a, x = .ok a → f a ≠ .ub) → (x >>= f) ≠ .ub := by
    intro α β x f hx hf
    cases x with
    | ok a => exact hf a rfl
    | err => simp
    | ub => exact absurd rfl hx
  have htb : ∀ b s, takeBlock b s ≠ .ub := by
    intro b s; unfold takeBlock; split
    · split <;> simp
    · simp
  have htp : ∀ t s, takePayload C t s ≠ .ub := by
    intro t s; unfold takePayload; split
    · have := hC t s
      split <;> simp_all
    · simp
  simp only [fromBlocks]
  rw [if_neg (by omega)]
  split
  · simp
  · split
    · simp
    · rename_i h44
      unfold hdrSize at h44
      have r1 := hrng 20 (by omega)
      have r2 := hrng 24 (by omega)
      have r3 := hrng 28 (by omega)
      have r4 := hrng 32 (by omega)
      split
      · simp
      · rename_i hsz
        have hsum : (h.length : Int) = 44 + rd h 20 + rd h 24 + rd h 28 + rd h 32 := by omega
        refine hbind _ _ (hu _ _ (by omega) (by omega)) fun id _ => ?_
        refine hbind _ _ (hu _ _ (by omega) (by omega)) fun src _ => ?_
        refine hbind _ _ (hu _ _ (by omega) (by omega)) fun dst _ => ?_
        refine hbind _ _ (htb _ _) fun x _ => ?_
        refine hbind _ _ (htp _ _) fun y _ => ?_

        repeat' split
        all_goals simp

/-- The hypotheses hold for what `toBlock` writes, and also for damaged headers, which are refused. -/
example : fromBlocks demoP (-20) [[-20, 1, 0, 0, 0, 8, 0, 0, 0].flatMap encInt32 ++ [0, 0, 0, 0] ++ encInt32 0] = .err := by
  decide +kernel

end Verif.Message
