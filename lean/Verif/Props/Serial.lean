import Verif.Proof.Serial
/-! Properties C15, C64: containers as block sets. -/
namespace Verif.Serial
open Spec
variable {L : Type}

/-- **C15.** Reading the blocks an object was written to, followed by any other blocks, gives the object
back, nested to any depth, and leaves exactly the other blocks. -/
theorem C15_round_trip (C : Leaf L) (kind : Int → Option Kind) (hC : LeafOk C kind) (o : Obj L) (ho : Ok C kind o)
    (rest : List Bytes) : fromBlocks C kind (toBlocks C o ++ rest) = .ok (o, rest) := by
  unfold fromBlocks
  refine construct_toBlocks hC o _ rest ho ?_
  have := depth_le hC o
  simp only [List.length_append]
  omega

/-- **C15.** Two objects written to the same blocks are equal, and a sequence of objects written one after
the other into one block set is read back in order. -/
theorem C15_sequence (C : Leaf L) (kind : Int → Option Kind) (hC : LeafOk C kind) (o₁ o₂ : Obj L)
    (h₁ : Ok C kind o₁) (h₂ : Ok C kind o₂) (rest : List Bytes) :
    (fromBlocks C kind (toBlocks C o₁ ++ (toBlocks C o₂ ++ rest)) >>= fun p => fromBlocks C kind p.2 >>= fun q =>
      pure ((p.1, q.1), q.2)) = .ok ((o₁, o₂), rest) := by
  rw [C15_round_trip C kind hC o₁ h₁, Res.ok_bind, C15_round_trip C kind hC o₂ h₂]
  rfl

/-- A class with one data block. -/
def demoLeaf : Leaf Bytes where
  tid _ := -7
  toB x := [encInt32 (-7) ++ x]
  fromB
    | [] => .err
    | b :: rest => .ok (b.drop 4, rest)

/-- A registry with one record class, one list class and the class above. -/
def demoKind (t : Int) : Option Kind :=
  if t = -7 then some .leaf else if t = -8 then some .record else if t = -9 then some .list else none

theorem demoLeaf_ok : LeafOk demoLeaf demoKind where
  round x rest := by
    simp only [demoLeaf, List.cons_append, List.nil_append]
    rw [List.drop_left' (encInt32_length _)]
  head x := ⟨x, [], rfl⟩
  reg x := ⟨⟨by simp [demoLeaf], by simp [demoLeaf]⟩, by simp [demoLeaf, demoKind]⟩

/-- A record holding a list (with an empty item and a nested record), an empty field and a data object. -/
def demo : Obj Bytes :=
  .record (-8) (.full [1, -3] (.list (-9) (.full (.leaf [1, 2]) (.empty (.full (.record (-8) .nil) .nil))))
    (.empty [2] (.full [5] (.leaf [9]) .nil)))

/-- The demonstration object meets the hypotheses and is written as five blocks. -/
example : Ok demoLeaf demoKind demo ∧ (toBlocks demoLeaf demo).length = 5 := by
  refine ⟨?_, by decide⟩
  simp only [demo, Ok, OkF, OkI, ids, count, IsInt32]
  decide

/-- **C64**, full statement: no block set, however corrupted, makes the conversion undefined. -/
def C64_corrupt_blocks_full : Prop := ∀ set : List Bytes, fromBlocks demoLeaf demoKind set ≠ .ub

/-- **C64** is false: the type id is read from a block that is too short to hold one ... -/
theorem C64_corrupt_blocks_refuted : ¬ C64_corrupt_blocks_full := by
  intro h
  exact h [[1]] rfl

/-- ... and a record header with a negative id size passes the checks. -/
theorem C64_negative_idsize : fromBlocks demoLeaf demoKind
    [encInt32 (-8) ++ encInt32 1 ++ encInt32 1 ++ encInt32 (-4) ++ encInt32 0] = .ub := by
  rfl

/-- **C64**, a part that holds: reading a list is never undefined if reading its items never is, whatever
the header and the blocks.  Missing: blocks shorter than a type id, and record headers. -/
theorem C64_list_partial (cons : List Bytes → Res (Obj L × List Bytes)) (hc : ∀ s, cons s ≠ .ub) (tid : Int) (hdr : Bytes)
    (set : List Bytes) : listFrom cons tid hdr set ≠ .ub := by
  have loop : ∀ (n i : Nat) (set : List Bytes) (nref : Int), listLoop cons hdr n i set nref ≠ .ub := by
    intro n
    induction n with
    | zero => intro i set nref; simp [listLoop]
    | succ n ih =>
      intro i set nref
      simp only [listLoop]
      split
      · split
        · simp
        · cases h : cons set with
          | ok p =>
            obtain ⟨o, s'⟩ := p
            simp only [Res.ok_bind]
            split
            · simp
            · cases h2 : listLoop cons hdr n (i + 1) s' (nref + ((set.length : Int) - s'.length)) with
              | ok q => simp
              | err => simp
              | ub => exact absurd h2 (ih _ _ _)
          | err => simp
          | ub => exact absurd h (hc set)
      · cases h2 : listLoop cons hdr n (i + 1) set nref with
        | ok q => simp
        | err => simp
        | ub => exact absurd h2 (ih _ _ _)
  unfold listFrom
  split
  · simp
  · simp only
    split
    · simp
    · cases h : listLoop cons hdr (rd hdr 8).toNat 0 set 1 with
      | ok p => simp only; split <;> simp
      | err => simp
      | ub => exact absurd h (loop _ _ _ _)

/-- A corrupted list header is an error. -/
example : listFrom (construct demoLeaf demoKind 3) (-9) [1, 2, 3] [] = .err := rfl

end Verif.Serial
