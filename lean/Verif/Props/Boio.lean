import Verif.Proof.Boio
/-! # Properties of object files (C19, C66, C67) -/
namespace Verif.Boio
variable {O : Type}

/-- **C19.** Objects written to a file one after the other are read back in the same order, followed by end of
file; and if the file is cut at any place, a prefix of the objects is read back, followed by end of file or an
error. -/
theorem C19_object_files (C : Codec O) (os : List O) (hok : ∀ o ∈ os, Storable C o) :
    ∃ f, writeAll C [] os = (f, true) ∧
      readAll C (os.length + 1) (openR f) = (os, .eof) ∧
      ∀ k, ∃ j x, readAll C (os.length + 1) (openR (f.take k)) = (os.take j, x) ∧ (x = .eof ∨ x = .err) := by
  refine ⟨os.flatMap (recB C), by simpa using writeAll_eq C os [] hok, ?_, fun k => ?_⟩
  · obtain ⟨j, x, h, _, hf⟩ := readAll_prefix C os (os.flatMap (recB C)).length (os.length + 1)
      (os.flatMap (recB C)) (openR (os.flatMap (recB C))) hok (by omega) (by rw [List.take_length]; rfl)
    obtain ⟨rfl, rfl⟩ := hf (Nat.le_refl _)
    rw [h, List.take_length]
  · obtain ⟨j, x, h, hx, _⟩ := readAll_prefix C os k (os.length + 1)
      ((os.flatMap (recB C)).take k) (openR ((os.flatMap (recB C)).take k)) hok (by omega) (by simp [openR])
    exact ⟨j, x, h, hx⟩

/-- Appending works too: a file extended by further writes reads as both sequences. -/
theorem C19_append (C : Codec O) (os os' : List O) (f f' : Bytes) (hok : ∀ o ∈ os, Storable C o)
    (hok' : ∀ o ∈ os', Storable C o) (h : writeAll C [] os = (f, true)) (h' : writeAll C f os' = (f', true)) :
    readAll C (os.length + os'.length + 1) (openR f') = (os ++ os', .eof) := by
  have h1 := writeAll_eq C os [] hok
  have h2 := writeAll_eq C os' f hok'
  rw [h] at h1
  rw [h'] at h2
  simp only [List.nil_append, Prod.mk.injEq, and_true] at h1 h2
  have e : f' = (os ++ os').flatMap (recB C) := by rw [h2, h1, List.flatMap_append]
  obtain ⟨g, hw, hr, _⟩ := C19_object_files C (os ++ os') (by
    intro o ho; rcases List.mem_append.1 ho with h | h
    · exact hok o h
    · exact hok' o h)
  have h3 := writeAll_eq C (os ++ os') [] (by
    intro o ho; rcases List.mem_append.1 ho with h | h
    · exact hok o h
    · exact hok' o h)
  rw [hw] at h3
  simp only [List.nil_append, Prod.mk.injEq, and_true] at h3
  rw [e, ← h3, ← List.length_append]
  exact hr

/-- Strings as objects: type 5, one block. -/
def strC : Codec Bytes := ⟨fun _ => 5, fun b => [b], fun t bl => if t = 5 then bl.head? else none⟩

theorem strC_ok (b : Bytes) (h : b ≠ []) (hl : b.length < 2 ^ 64) : Storable strC b :=
  ⟨⟨⟨by simp [strC], by simp [strC]⟩, by simp [strC]⟩, rfl, by simp [strC], by simp [strC], by simp [strC, h]; omega⟩

example : ∀ o ∈ [[1, 2], [3]], Storable strC o := by
  intro o ho
  have : o = [1, 2] ∨ o = [3] := by simpa using ho
  rcases this with rfl | rfl <;> exact strC_ok _ (by decide) (by decide)
example : readAll strC 3 (openR (writeAll strC [] [[1, 2], [3]]).1) = ([[1, 2], [3]], .eof) := by decide +kernel
example : readAll strC 3 (openR ((writeAll strC [] [[1, 2], [3]]).1.take 20)) = ([[1, 2]], .eof) := by decide +kernel
example : readAll strC 3 (openR ((writeAll strC [] [[1, 2], [3]]).1.take 30)) = ([[1, 2]], .err) := by decide +kernel

/-- What `write` returns is short of the file's growth by the table of sizes. -/
theorem C19_returned_size (C : Codec O) (o : O) (f : Bytes) (h : Storable C o) :
    (write C f o).1.length = f.length + written C o + 8 * (C.toB o).length := by
  rw [write_eq C f o h]
  simp only [recB, written, List.length_append, encInt32_length, tab_length, List.length_flatten]
  omega

example : (write strC [] [1, 2]).1.length = 18 ∧ written strC [1, 2] = 10 := by decide +kernel

/-! ## C66: reading again after rewinding -/

/-- State after reading until there is no further object. -/
def drain (C : Codec O) : Nat → Rd → Rd
  | 0, s => s
  | fuel + 1, s => match readAny C s with | (.obj _, s') => drain C fuel s' | (_, s') => s'

/-- State after reading `n` objects. -/
def readN (C : Codec O) : Nat → Rd → Rd
  | 0, s => s
  | n + 1, s => readN C n (readAny C s).2

/-- Full statement: after reading to the end and rewinding, the objects can be read again. -/
def C66_full : Prop := ∀ (os : List Bytes), (∀ o ∈ os, Storable strC o) →
  readAll strC (os.length + 1) (rewind (drain strC (os.length + 1) (openR (writeAll strC [] os).1))) = (os, .eof)

theorem C66_refuted : ¬ C66_full := by
  intro h
  have := h [[1]] (by
    intro o ho
    have : o = [1] := by simpa using ho
    subst this
    exact strC_ok _ (by decide) (by decide))
  revert this
  decide +kernel

theorem readN_state (C : Codec O) : ∀ (os : List O) (n : Nat) (f : Bytes) (s : Rd), (∀ o ∈ os, Storable C o) → n ≤ os.length →
    s = ⟨f, os.flatMap (recB C), false, false, s.tid, s.nbl⟩ →
    (readN C n s).file = f ∧ (readN C n s).have_ = false := by
  intro os n
  induction n generalizing os with
  | zero => intro f s _ _ hs; rw [hs]; exact ⟨rfl, rfl⟩
  | succ n ih =>
    intro f s hok hn hs
    cases os with
    | nil => simp at hn
    | cons o os =>
      obtain ⟨s', h1, h2⟩ := readAny_full C o (hok o (by simp)) f (os.flatMap (recB C)) s (by simpa using hs)
      simp only [readN, h1]
      exact ih os f s' (fun o' h' => hok o' (by simp [h'])) (by simp at hn; omega) h2

/-- **C66 (part).** Rewinding works as long as the end of the file has not been hit. -/
theorem C66_rewind_partial (C : Codec O) (os : List O) (hok : ∀ o ∈ os, Storable C o) (f : Bytes)
    (hw : writeAll C [] os = (f, true)) (n : Nat) (hn : n ≤ os.length) :
    readAll C (os.length + 1) (rewind (readN C n (openR f))) = (os, .eof) := by
  have h1 := writeAll_eq C os [] hok
  rw [hw] at h1
  simp only [List.nil_append, Prod.mk.injEq, and_true] at h1
  obtain ⟨hf, hh⟩ := readN_state C os n f (openR f) hok hn (by rw [h1]; rfl)
  refine readAll_then C os _ f [] _ _ hok (by omega) ?_ ?_
  · simp only [rewind, hf, hh, List.append_nil]; rw [← h1]
  · intro s' hs'
    exact ⟨readAny_end C f s' hs', fun o h => by cases h⟩

example : readAll strC 3 (rewind (readN strC 2 (openR (writeAll strC [] [[1, 2], [3]]).1))) = ([[1, 2], [3]], .eof) := by
  decide +kernel

/-! ## C67: a write that fails -/

/-- Full statement: a failed write does not keep later objects from being read. -/
def C67_full : Prop := ∀ (o p : Bytes) (f f' : Bytes), Storable strC p → write strC [] o = (f, false) →
  write strC f p = (f', true) → (readAll strC 3 (openR f')).1 = [p]

/-- An empty block makes the write fail after the header has been written; what follows is lost. -/
theorem C67_refuted : ¬ C67_full := by
  intro h
  have := h [] [1] (write strC [] []).1 (write strC (write strC [] []).1 [1]).1
    (strC_ok _ (by decide) (by decide)) (by decide +kernel) (by decide +kernel)
  revert this
  decide +kernel

/-- **C67 (part).** Objects written before the failed write are all read back, and the failed one gives an error,
not an object. -/
theorem C67_failed_write_partial (C : Codec O) (os : List O) (o : O) (hok : ∀ o ∈ os, Storable C o)
    (ht : IsInt32 (C.tid o) ∧ C.tid o ≠ 0) (hcnt : (C.toB o).length < 2 ^ 31) (hbl : ∀ b ∈ C.toB o, b.length < 2 ^ 64)
    (f f' : Bytes) (hw : writeAll C [] os = (f, true)) (hf : write C f o = (f', false)) :
    readAll C (os.length + 1) (openR f') = (os, .err) := by
  have h1 := writeAll_eq C os [] hok
  rw [hw] at h1
  simp only [List.nil_append, Prod.mk.injEq, and_true] at h1
  obtain ⟨g, hg, hf'⟩ : ∃ g, write C [] o = (g, false) ∧ f' = f ++ g := by
    unfold write at hf ⊢
    simp only [List.nil_append] at hf ⊢
    split at hf
    · rw [if_pos (by assumption)]
      exact ⟨_, rfl, by simp only [Prod.mk.injEq, and_true] at hf; exact hf.symm⟩
    · rw [if_neg (by assumption)]
      simp only [Prod.mk.injEq] at hf
      exact ⟨_, by rw [hf.2], hf.1.symm⟩
  refine readAll_then C os _ f' g _ _ hok (by omega) (by rw [hf', h1]; rfl) ?_
  intro s' hs'
  exact ⟨readAny_failed C o ht hcnt hbl g hg f' s' hs', fun o h => by cases h⟩

/-- A write fails exactly when there is no block or an empty one. -/
theorem C67_when (C : Codec O) (f : Bytes) (o : O) :
    (write C f o).2 = false ↔ C.toB o = [] ∨ [] ∈ C.toB o := by
  have hb : ∀ bl : List Bytes, (writeBlocks bl).2 = false ↔ [] ∈ bl := by
    intro bl
    induction bl with
    | nil => simp [writeBlocks]
    | cons b bl ih =>
      simp only [writeBlocks]
      by_cases h : b = []
      · simp [h]
      · simp [h, ih, Ne.symm h]
  unfold write
  simp only
  split
  · simp [*]
  · simp [*]

example : (write strC [7] []).2 = false := by decide +kernel

end Verif.Boio
