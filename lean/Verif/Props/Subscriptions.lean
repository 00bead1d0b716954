import Verif.Proof.Subscriptions
/-!
# Properties of subscriptions (C20, C21)
-/
namespace Verif.Subs
open HiidSpec SubsSpec

/-- **C20.** After any history, a message is accepted iff a subscription in force covers it. -/
theorem C20_matches_iff_accepts (h : History) (msgId sender : List Int) :
    matches_ (run h) msgId sender = true ↔ Accepts h msgId sender := by
  have hr := run_rep h
  unfold matches_ Accepts
  rw [List.any_eq_true]
  constructor
  · rintro ⟨e, he, hm⟩
    simp only [Bool.and_eq_true, ovl_iff] at hm
    exact ⟨e.mask, e.scope, hr.sound e he, hm⟩
  · rintro ⟨m, s, hp, ⟨c, hc, h1, h2⟩, ⟨c', hc', h1', h2'⟩⟩
    obtain ⟨e, he, hcov⟩ := hr.cover m s hp
    refine ⟨e, he, ?_⟩
    simp only [Bool.and_eq_true, ovl_iff]
    exact ⟨⟨c, hc, h1, hcov.1 c hc h2⟩, ⟨c', hc', h1', hcov.2 c' hc' h2'⟩⟩

-- A history with a subsumed, an extending and a removed subscription.
example :
    let h := History.unsubscribe (.subscribe (.subscribe (.subscribe .new [-1001, -2] [-1]) [-1001, 3] [-1])
      [-1003] [-1]) [-1003, -2]
    matches_ (run h) [-1001, 3] [7] = true ∧ matches_ (run h) [-1003] [7] = false := by decide

/-- **C21.** After any history the cached pack size is the number of bytes written by `pack`,
`pack` succeeds iff the block has that many bytes, and `unpack` restores the same subscriptions and
the same cached size. -/
theorem C21_pack_unpack (h : History) (hi : Ints h) (nleft : Nat)
    (hn : (run h).subs.length < 2 ^ 30) (hsz : (run h).pksize < 2 ^ 64)
    (hroom : (run h).pksize ≤ nleft) :
    ∃ bs, pack (run h) nleft = .ok (bs, nleft - bs.length) ∧ (bs.length : Int) = (run h).pksize ∧
      unpack bs = .ok (run h) := by
  have hs := run_size h
  have hne := need_eq (run h).subs
  have hints := run_ints h hi
  generalize hst : run h = st at *
  obtain ⟨l, pk⟩ := st
  simp only at *
  subst hs
  have hlen := data_length l
  have hhl := hdr_length l
  refine ⟨encSize l.length ++
      l.flatMap (fun e => encSize (4 * e.mask.length) ++ encSize (4 * e.scope.length)) ++
      l.flatMap (fun e => e.mask.flatMap encInt32 ++ e.scope.flatMap encInt32), ?_, ?_, ?_⟩
  · unfold pack
    simp only
    rw [if_neg (by omega), if_neg (by omega), packLoop_ok _ _ (by omega)]
    simp only
    rw [if_pos (by rw [hlen]; omega)]
    congr 2
    simp only [List.length_append, hhl, hlen, encSize_length]; omega
  · simp only [List.length_append, hhl, hlen, encSize_length]; omega
  · unfold unpack
    simp only [List.append_assoc]
    have hL : (encSize l.length ++
      (l.flatMap (fun e => encSize (4 * e.mask.length) ++ encSize (4 * e.scope.length)) ++
      l.flatMap (fun e => e.mask.flatMap encInt32 ++ e.scope.flatMap encInt32))).length = need l := by
      simp only [List.length_append, hhl, hlen, encSize_length]; omega
    rw [hL]
    have t8 : ∀ (b : Bytes), (encSize l.length ++ b).take 8 = encSize l.length := by
      intro b; rw [List.take_append_of_le_length (by simp), List.take_of_length_le (by simp)]
    have d8 : ∀ (b : Bytes), (encSize l.length ++ b).drop 8 = b := by
      intro b; rw [List.drop_append_of_le_length (by simp), List.drop_of_length_le (by simp)]; rfl
    have dall : ∀ (b c : Bytes), b.length = 16 * l.length →
        (encSize l.length ++ (b ++ c)).drop (8 * (1 + 2 * l.length)) = c := by
      intro b c hb
      have : 8 * (1 + 2 * l.length) = 8 + 16 * l.length := by omega
      rw [this, ← List.drop_drop, d8, ← hb]; simp
    rw [t8, d8, leDec_encSize _ (by omega), dall _ _ hhl]
    rw [if_neg (by omega), if_neg (by omega), if_neg (by omega)]
    have := unpackLoop_ok (need l) l
      (l.flatMap (fun e => e.mask.flatMap encInt32 ++ e.scope.flatMap encInt32)) []
      (8 * (1 + 2 * l.length)) hints (by omega) (by omega)
    simp only [List.append_nil] at this
    rw [this]
    simp only
    rw [if_neg (by omega)]

/-- **C21.** The accounting holds after any history: 8 bytes of count, and per subscription two size
words and four bytes for each id component. -/
theorem C21_pksize (h : History) :
    (run h).pksize = 8 + (((run h).subs.map
      fun e => 16 + 4 * e.mask.length + 4 * e.scope.length).sum : Nat) := by
  rw [run_size]
  generalize (run h).subs = l
  induction l with
  | nil => rfl
  | cons e l ih => simp [need, elemSize, Hiid.packSize] at *; omega

example :
    let h := History.subscribe (.subscribe .new [-1001, -2] [-1]) [5] [7, 8]
    Ints h ∧ (run h).subs.length = 2 ∧ (run h).pksize = 64 := by
  refine ⟨?_, by decide, by decide⟩
  simp [Ints]

/-! ### C53 — corrupt subscription blocks are reported

Full statement: for every byte block, `unpack` either throws or yields subscriptions whose packed form
is that block; it never reads outside the block.  This is false (`C53_unpack_corrupt_ub`). -/

/-- The statement holds for blocks below 2^62 bytes whose count is below 2^30 and whose size words are
below 2^62, i.e. when the size check cannot wrap around. -/
theorem C53_unpack_any_partial (bs : Bytes) (hsz : bs.length < 2 ^ 62)
    (hn : leDec (bs.take 8) < 2 ^ 30)
    (hw : ∀ k < 2 * leDec (bs.take 8), leDec ((bs.drop (8 + 8 * k)).take 8) < 2 ^ 62) :
    unpack bs = .err ∨ ∃ s, unpack bs = .ok s ∧ pack s bs.length = .ok (bs, 0) := by
  unfold unpack
  simp only
  split
  · exact Or.inl rfl
  · rename_i h8
    rw [if_neg (by omega)]
    split
    · exact Or.inl rfl
    · rename_i hchk
      have key := unpackLoop_sound bs.length (leDec (bs.take 8)) (bs.drop 8)
        (bs.drop (8 * (1 + 2 * leDec (bs.take 8)))) (8 * (1 + 2 * leDec (bs.take 8)))
        (by rw [List.length_drop]; omega) (by rw [List.length_drop]; omega) hsz
        (by intro k hk; have := hw k hk; simpa [sizeWord] using this)
      obtain ⟨k1, k2⟩ := key
      generalize unpackLoop bs.length (leDec (bs.take 8)) (bs.drop 8)
        (bs.drop (8 * (1 + 2 * leDec (bs.take 8)))) (8 * (1 + 2 * leDec (bs.take 8))) = r at k1 k2
      cases r with
      | ub => exact absurd rfl k1
      | err => exact Or.inl rfl
      | ok lc =>
        obtain ⟨l, c⟩ := lc
        simp only
        split
        · exact Or.inl rfl
        · rename_i hc
          right
          obtain ⟨j1, j2, rest, j3, j4⟩ := k2 l c rfl
          refine ⟨_, rfl, ?_⟩
          have hr0 : rest = [] := List.eq_nil_of_length_eq_zero (by omega)
          subst hr0
          rw [List.append_nil] at j3
          have hdl := data_length l
          have hlen := congrArg List.length j3
          rw [hdl, List.length_drop] at hlen
          unfold pack
          simp only [j1]
          rw [if_neg (by omega), if_neg (by omega), packLoop_ok _ _ (by omega)]
          simp only
          rw [if_pos (by rw [hdl]; omega), ← j2, ← j3]
          have e8 : encSize (leDec (bs.take 8)) = bs.take 8 := by
            have h8' : (bs.take 8).length = 8 := by rw [List.length_take]; omega
            have := leEnc_leDec (bs.take 8)
            rw [h8'] at this; exact this
          rw [e8, ← List.take_add, show 8 + 16 * leDec (bs.take 8) = 8 * (1 + 2 * leDec (bs.take 8)) by omega,
            List.take_append_drop]
          congr 2
          omega

/-- **C53 (refutation).** A block with inconsistent sizes is not always reported as
corrupt: the size check wraps around, and the code reads past the end of the block. -/
theorem C53_unpack_corrupt_ub :
    unpack (encSize 1 ++ encSize 1000 ++ encSize (2 ^ 64 - 1000)) = .ub := by decide

example : unpack (encSize 1 ++ encSize 4 ++ encSize 4 ++ encInt32 7) = .err ∧
    unpack (encSize 1 ++ encSize 4 ++ encSize 4 ++ encInt32 7 ++ encInt32 8) = .ok ⟨[⟨[7], [8]⟩], 32⟩ := by
  decide

end Verif.Subs
