import Verif.Spec.Packer
import Verif.Proof.Bytes
import Verif.Proof.Assoc
import Mathlib.Tactic.Common
/-! Lemmas about packers. -/
namespace Verif.Packer
variable {A K V : Type}

/-- Packed data of a sequence. -/
def data (E : EP A) (xs : List A) : Bytes := xs.flatMap E.bytes
/-- Size table of a sequence. -/
def table (E : EP A) (xs : List A) : List Nat := if E.bin ≠ 0 then [] else xs.map fun x => (E.bytes x).length

theorem data_cons (E : EP A) (x : A) (xs : List A) : data E (x :: xs) = E.bytes x ++ data E xs := by simp [data]

theorem seqLoop_eq (E : EP A) (xs : List A) (nleft : Nat) :
    seqLoop E xs nleft = if nleft < (data E xs).length then none
      else some (table E xs, data E xs, nleft - (data E xs).length) := by
  induction xs generalizing nleft with
  | nil => simp [seqLoop, data, table]
  | cons x xs ih =>
    rw [data_cons, List.length_append]
    simp only [seqLoop]
    by_cases h : nleft < (E.bytes x).length
    · rw [if_pos h, if_pos (by omega)]
    · rw [if_neg h, ih]
      by_cases h2 : nleft - (E.bytes x).length < (data E xs).length
      · rw [if_pos h2, if_pos (by omega)]
      · rw [if_neg h2, if_neg (by omega)]
        simp only
        have e : nleft - (E.bytes x).length - (data E xs).length = nleft - ((E.bytes x).length + (data E xs).length) := by
          omega
        rw [e]
        by_cases hb : E.bin = 0
        · simp [table, hb]
        · simp [table, hb]

theorem encs_length (l : List Nat) : (l.flatMap encSize).length = 8 * l.length := by
  induction l with
  | nil => rfl
  | cons a l ih => simp at ih ⊢; omega

theorem rdSize_append (P Q : Bytes) (x off : Nat) (h : P.length = off) (hx : x < 2 ^ 64) :
    rdSize (P ++ (encSize x ++ Q)) off = x := by
  unfold rdSize
  rw [← h, List.drop_left, List.take_left' (encSize_length x), leDec_encSize x hx]

theorem slice (P M Q : Bytes) (off n : Nat) (h : P.length = off) (hn : M.length = n) :
    ((P ++ (M ++ Q)).drop off).take n = M := by
  rw [← h, List.drop_left, List.take_left' hn]

/-- The bytes `SeqPacker::pack` writes. -/
def seqBytes (E : EP A) (xs : List A) : Bytes := encSize xs.length ++ (table E xs).flatMap encSize ++ data E xs

theorem seqBytes_length (E : EP A) (xs : List A) :
    (seqBytes E xs).length = (1 + if E.bin ≠ 0 then 0 else xs.length) * 8 + (data E xs).length := by
  simp only [seqBytes, List.length_append, encs_length, encSize_length, table]
  split <;> (simp; try omega)

theorem seqUnLoop_spec (E : EP A) (hE : EPOk E) (P T : Bytes) : ∀ (todo done : List A),
    (P ++ (table E (done ++ todo)).flatMap encSize ++ data E (done ++ todo) ++ T).length < 2 ^ 64 → P.length = 8 →
    seqUnLoop E (P ++ (table E (done ++ todo)).flatMap encSize ++ data E (done ++ todo) ++ T) todo.length
      (8 + 8 * (table E done).length) (8 + 8 * (table E (done ++ todo)).length + (data E done).length)
      (8 + 8 * (table E (done ++ todo)).length + (data E done).length)
      = .ok (todo, 8 + 8 * (table E (done ++ todo)).length + (data E (done ++ todo)).length) := by
  intro todo
  induction todo with
  | nil => intro done _ _; simp [seqUnLoop]
  | cons x todo ih =>
    intro done hlen hP
    have hih := ih (done ++ [x]) (by simpa using hlen) hP
    simp only [List.append_assoc, List.singleton_append] at hih
    rw [← List.append_assoc, ← List.append_assoc] at hih
    generalize hb : P ++ (table E (done ++ x :: todo)).flatMap encSize ++ data E (done ++ x :: todo) ++ T = b at *
    have hbl : b.length = 8 + 8 * (table E (done ++ x :: todo)).length + ((data E done).length
        + ((E.bytes x).length + (data E todo).length)) + T.length := by
      rw [← hb]; simp only [List.length_append, encs_length, hP, data, List.flatMap_append, List.flatMap_cons]
    -- the size of the element
    have hs : (if E.bin ≠ 0 then E.bin else rdSize b (8 + 8 * (table E done).length)) = (E.bytes x).length := by
      by_cases h0 : E.bin = 0
      · simp only [h0, ne_eq, not_true_eq_false, if_false]
        have : b = (P ++ (table E done).flatMap encSize) ++ (encSize (E.bytes x).length
            ++ ((table E todo).flatMap encSize ++ (data E (done ++ x :: todo) ++ T))) := by
          rw [← hb]; simp [table, h0]
        rw [this]
        exact rdSize_append _ _ _ _ (by simp only [List.length_append, encs_length, hP]) (by omega)
      · simp only [ne_eq, h0, not_false_eq_true, if_true]; exact (hE.bin h0 x).symm
    have hd : (b.drop (8 + 8 * (table E (done ++ x :: todo)).length + (data E done).length)).take (E.bytes x).length
        = E.bytes x := by
      have : b = (P ++ (table E (done ++ x :: todo)).flatMap encSize ++ data E done) ++ (E.bytes x ++ (data E todo ++ T)) := by
        rw [← hb]; simp [data]
      conv_lhs => rw [this]
      exact slice _ _ _ _ _ (by simp only [List.length_append, hP, encs_length]) rfl
    have hdl : (data E (done ++ [x])).length = (data E done).length + (E.bytes x).length := by simp [data]
    have hth : (if E.bin ≠ 0 then 8 + 8 * (table E done).length else 8 + 8 * (table E done).length + 8)
        = 8 + 8 * (table E (done ++ [x])).length := by
      by_cases h0 : E.bin = 0
      · simp [table, h0]; omega
      · simp [table, h0]
    have hmod : (8 + 8 * (table E (done ++ x :: todo)).length + (data E done).length + (E.bytes x).length) % 2 ^ 64
        = 8 + 8 * (table E (done ++ x :: todo)).length + (data E (done ++ [x])).length := by
      rw [hdl]; omega
    simp only [List.length_cons, seqUnLoop, hs, hmod]
    rw [if_neg (by omega), if_neg (by omega), hd, hE.read x]
    simp only [hth]
    have ho : 8 + 8 * (table E (done ++ x :: todo)).length + (data E done).length + (E.bytes x).length
        = 8 + 8 * (table E (done ++ x :: todo)).length + (data E (done ++ [x])).length := by omega
    rw [ho, hih]
    simp

theorem seqUnLoop_all (E : EP A) (hE : EPOk E) (xs : List A) (T : Bytes) (hlen : (seqBytes E xs ++ T).length < 2 ^ 64) :
    seqUnLoop E (seqBytes E xs ++ T) xs.length 8 ((1 + if E.bin ≠ 0 then 0 else xs.length) * 8)
      ((1 + if E.bin ≠ 0 then 0 else xs.length) * 8) = .ok (xs, (seqBytes E xs).length) := by
  have h := seqUnLoop_spec E hE (encSize xs.length) T xs [] (by simpa only [List.nil_append, seqBytes] using hlen) (by simp)
  have ht : (table E xs).length = if E.bin ≠ 0 then 0 else xs.length := by
    unfold table; split <;> simp
  simp only [List.nil_append] at h
  have h0 : (table E ([] : List A)).length = 0 := by simp [table]
  have h1 : (data E ([] : List A)).length = 0 := rfl
  rw [h0, h1, ht] at h
  have e : 8 + 8 * (if E.bin ≠ 0 then 0 else xs.length) + 0 = (1 + if E.bin ≠ 0 then 0 else xs.length) * 8 := by omega
  rw [e] at h
  simp only [Nat.mul_zero, Nat.add_zero] at h
  have e2 : encSize xs.length ++ (table E xs).flatMap encSize ++ data E xs = seqBytes E xs := rfl
  rw [e2] at h
  rw [h, seqBytes_length]
  congr 2
  omega

theorem rdSize_seqBytes (E : EP A) (xs : List A) (T : Bytes) (h : xs.length < 2 ^ 64) :
    rdSize (seqBytes E xs ++ T) 0 = xs.length := by
  have := rdSize_append [] ((table E xs).flatMap encSize ++ (data E xs ++ T)) xs.length 0 rfl h
  simpa [seqBytes] using this

theorem seqPack_bytes (E : EP A) (xs : List A) (nleft : Nat) (b : Bytes) (nl : Nat)
    (h : seqPack E xs nleft = .ok (b, nl)) : b = seqBytes E xs := by
  unfold seqPack at h
  split at h
  · cases h
  · simp only [seqLoop_eq] at h
    generalize (1 + if E.bin ≠ 0 then 0 else xs.length) * 8 = g at h
    split at h
    · cases h
    · split at h
      · cases h
      · rename_i hs d nl' heq
        split at heq
        · cases heq
        · cases heq; cases h; rfl

/-- Packed data of a map. -/
def mdata (E : EP K) (F : EP V) (m : List (K × V)) : Bytes := m.flatMap fun p => E.bytes p.1 ++ F.bytes p.2
/-- Size table of a map. -/
def mtable (E : EP K) (F : EP V) (m : List (K × V)) : List Nat := m.flatMap fun p =>
  (if E.bin ≠ 0 then [] else [(E.bytes p.1).length]) ++ (if F.bin ≠ 0 then [] else [(F.bytes p.2).length])

theorem mdata_cons (E : EP K) (F : EP V) (k : K) (v : V) (m : List (K × V)) :
    mdata E F ((k, v) :: m) = E.bytes k ++ F.bytes v ++ mdata E F m := by simp [mdata]

theorem mapLoop_eq (E : EP K) (F : EP V) (m : List (K × V)) (nleft : Nat) :
    mapLoop E F m nleft = if nleft < (mdata E F m).length then none
      else some (mtable E F m, mdata E F m, nleft - (mdata E F m).length) := by
  induction m generalizing nleft with
  | nil => simp [mapLoop, mdata, mtable]
  | cons p m ih =>
    obtain ⟨k, v⟩ := p
    rw [mdata_cons, List.length_append, List.length_append]
    simp only [mapLoop]
    by_cases h : nleft < (E.bytes k).length
    · rw [if_pos h, if_pos (by omega)]
    · rw [if_neg h]
      by_cases h1 : nleft - (E.bytes k).length < (F.bytes v).length
      · rw [if_pos h1, if_pos (by omega)]
      · rw [if_neg h1, ih]
        by_cases h2 : nleft - (E.bytes k).length - (F.bytes v).length < (mdata E F m).length
        · have h3 : nleft < (E.bytes k).length + (F.bytes v).length + (mdata E F m).length := by omega
          rw [if_pos h2, if_pos h3]
        · have h3 : ¬ nleft < (E.bytes k).length + (F.bytes v).length + (mdata E F m).length := by omega
          rw [if_neg h2, if_neg h3]
          simp only
          have e : nleft - (E.bytes k).length - (F.bytes v).length - (mdata E F m).length
              = nleft - ((E.bytes k).length + (F.bytes v).length + (mdata E F m).length) := by omega
          rw [e]
          simp [mtable]

/-- The bytes `MapPacker::pack` writes. -/
def mapBytes (E : EP K) (F : EP V) (m : List (K × V)) : Bytes :=
  encSize m.length ++ (mtable E F m).flatMap encSize ++ mdata E F m

theorem mtable_length (E : EP K) (F : EP V) (m : List (K × V)) :
    (mtable E F m).length = (if E.bin ≠ 0 then 0 else m.length) + (if F.bin ≠ 0 then 0 else m.length) := by
  induction m with
  | nil => simp [mtable]
  | cons p m ih =>
    simp only [mtable, List.flatMap_cons, List.length_append, List.length_cons] at ih ⊢
    rw [ih]
    split <;> split <;> simp <;> omega

theorem mapBytes_length (E : EP K) (F : EP V) (m : List (K × V)) : (mapBytes E F m).length
    = (1 + (if E.bin ≠ 0 then 0 else m.length) + (if F.bin ≠ 0 then 0 else m.length)) * 8 + (mdata E F m).length := by
  simp only [mapBytes, List.length_append, encs_length, encSize_length, mtable_length]
  omega

/-- What `MapPacker::unpack` counts for a map: the key size twice, if values have variable size. -/
def counted (E : EP K) (F : EP V) (m : List (K × V)) : Nat :=
  (m.map fun p => (E.bytes p.1).length + if F.bin ≠ 0 then F.bin else (E.bytes p.1).length).sum

theorem counted_cons (E : EP K) (F : EP V) (k : K) (v : V) (m : List (K × V)) : counted E F ((k, v) :: m)
    = (E.bytes k).length + (if F.bin ≠ 0 then F.bin else (E.bytes k).length) + counted E F m := by simp [counted]

/-- What the loop of `MapPacker::unpack` makes of the bytes written for `todo`, with `sz0` bytes counted so
far: the entries, unless the count runs over the size of the block. -/
theorem mapUnLoop_spec [DecidableEq K] (E : EP K) (F : EP V) (hE : EPOk E) (hF : EPOk F) (P : Bytes) :
    ∀ (todo done : List (K × V)) (m0 : List (K × V)) (sz0 : Nat),
    (P ++ (mtable E F (done ++ todo)).flatMap encSize ++ mdata E F (done ++ todo)).length < 2 ^ 62 → P.length = 8 →
    sz0 ≤ (P ++ (mtable E F (done ++ todo)).flatMap encSize ++ mdata E F (done ++ todo)).length →
    mapUnLoop E F (P ++ (mtable E F (done ++ todo)).flatMap encSize ++ mdata E F (done ++ todo)) todo.length
      (8 + 8 * (mtable E F done).length) (8 + 8 * (mtable E F (done ++ todo)).length + (mdata E F done).length) sz0 m0
      = if (P ++ (mtable E F (done ++ todo)).flatMap encSize ++ mdata E F (done ++ todo)).length < sz0 + counted E F todo
        then .err
        else .ok (todo.foldl (fun m p => Assoc.set m p.1 p.2) m0, sz0 + counted E F todo) := by
  intro todo
  induction todo with
  | nil =>
    intro done m0 sz0 _ _ hsz
    have h0 : counted E F ([] : List (K × V)) = 0 := rfl
    rw [h0, if_neg (by omega)]
    simp [mapUnLoop]
  | cons p todo ih =>
    obtain ⟨k, v⟩ := p
    intro done m0 sz0 hlen hP hsz
    have hih := ih (done ++ [(k, v)]) (Assoc.set m0 k v)
    simp only [List.append_assoc, List.singleton_append] at hih
    simp only [← List.append_assoc] at hih
    generalize hb : P ++ (mtable E F (done ++ (k, v) :: todo)).flatMap encSize ++ mdata E F (done ++ (k, v) :: todo) = b at *
    have hbl : b.length = 8 + 8 * (mtable E F (done ++ (k, v) :: todo)).length + ((mdata E F done).length
        + ((E.bytes k).length + (F.bytes v).length + (mdata E F todo).length)) := by
      rw [← hb]
      simp only [List.length_append, encs_length, hP, mdata, List.flatMap_append, List.flatMap_cons]
    have hs1 : (if E.bin ≠ 0 then E.bin else rdSize b (8 + 8 * (mtable E F done).length)) = (E.bytes k).length := by
      by_cases h0 : E.bin = 0
      · simp only [h0, ne_eq, not_true_eq_false, if_false]
        have : b = (P ++ (mtable E F done).flatMap encSize) ++ (encSize (E.bytes k).length
            ++ ((if F.bin ≠ 0 then [] else [(F.bytes v).length]).flatMap encSize ++ (mtable E F todo).flatMap encSize
              ++ mdata E F (done ++ (k, v) :: todo))) := by
          rw [← hb]; simp [mtable, h0]
        rw [this]
        exact rdSize_append _ _ _ _ (by simp only [List.length_append, encs_length, hP]) (by omega)
      · simp only [ne_eq, h0, not_false_eq_true, if_true]; exact (hE.bin h0 k).symm
    generalize hh1 : (if E.bin ≠ 0 then 8 + 8 * (mtable E F done).length else 8 + 8 * (mtable E F done).length + 8) = hoff1
    have hs2 : (if F.bin ≠ 0 then F.bin else rdSize b hoff1) = (F.bytes v).length := by
      by_cases h0 : F.bin = 0
      · simp only [h0, ne_eq, not_true_eq_false, if_false]
        have : b = (P ++ (mtable E F done).flatMap encSize ++ (if E.bin ≠ 0 then [] else [(E.bytes k).length]).flatMap encSize)
            ++ (encSize (F.bytes v).length ++ ((mtable E F todo).flatMap encSize
              ++ mdata E F (done ++ (k, v) :: todo))) := by
          rw [← hb]; simp [mtable, h0]
        rw [this]
        refine rdSize_append _ _ _ _ ?_ (by omega)
        rw [← hh1]
        simp only [List.length_append, encs_length, hP]
        split <;> simp
      · simp only [ne_eq, h0, not_false_eq_true, if_true]; exact (hF.bin h0 v).symm
    have hd1 : (b.drop (8 + 8 * (mtable E F (done ++ (k, v) :: todo)).length + (mdata E F done).length)).take (E.bytes k).length
        = E.bytes k := by
      have : b = (P ++ (mtable E F (done ++ (k, v) :: todo)).flatMap encSize ++ mdata E F done)
          ++ (E.bytes k ++ (F.bytes v ++ mdata E F todo)) := by
        rw [← hb]; simp [mdata]
      conv_lhs => rw [this]
      exact slice _ _ _ _ _ (by simp only [List.length_append, hP, encs_length]) rfl
    have hd2 : (b.drop (8 + 8 * (mtable E F (done ++ (k, v) :: todo)).length + (mdata E F done).length + (E.bytes k).length)).take
        (F.bytes v).length = F.bytes v := by
      have : b = (P ++ (mtable E F (done ++ (k, v) :: todo)).flatMap encSize ++ mdata E F done ++ E.bytes k)
          ++ (F.bytes v ++ mdata E F todo) := by
        rw [← hb]; simp [mdata]
      conv_lhs => rw [this]
      exact slice _ _ _ _ _ (by simp only [List.length_append, hP, encs_length]) rfl
    have hdl : (mdata E F (done ++ [(k, v)])).length = (mdata E F done).length + (E.bytes k).length + (F.bytes v).length := by
      simp [mdata]; omega
    have hth : (if F.bin ≠ 0 then hoff1 else hoff1 + 8) = 8 + 8 * (mtable E F (done ++ [(k, v)])).length := by
      rw [← hh1]
      simp only [mtable, List.flatMap_append, List.length_append, List.flatMap_cons, List.flatMap_nil, List.append_nil]
      split <;> split <;> simp <;> omega
    have hbin : F.bin ≠ 0 → F.bin = (F.bytes v).length := fun h => (hF.bin h v).symm
    have ho : 8 + 8 * (mtable E F (done ++ (k, v) :: todo)).length + (mdata E F done).length + (E.bytes k).length
        + (F.bytes v).length
        = 8 + 8 * (mtable E F (done ++ (k, v) :: todo)).length + (mdata E F (done ++ [(k, v)])).length := by omega
    rw [counted_cons]
    simp only [List.length_cons, mapUnLoop, hs1, hh1, hs2]
    have hm1 : (sz0 + (E.bytes k).length) % 2 ^ 64 = sz0 + (E.bytes k).length := by omega
    rw [hm1]
    by_cases h1 : b.length < sz0 + (E.bytes k).length
    · rw [if_pos h1, if_pos (by omega)]
    · rw [if_neg h1, if_neg (by omega), hd1, hE.read k]
      simp only
      have hc : (if F.bin ≠ 0 then (F.bytes v).length else (E.bytes k).length)
          = (if F.bin ≠ 0 then F.bin else (E.bytes k).length) := by
        split
        · rename_i h; exact (hbin h).symm
        · rfl
      rw [hc]
      have hle : (if F.bin ≠ 0 then F.bin else (E.bytes k).length) ≤ b.length := by
        split
        · rename_i h; rw [hbin h]; omega
        · omega
      generalize (if F.bin ≠ 0 then F.bin else (E.bytes k).length) = c at *
      have hm2 : (sz0 + (E.bytes k).length + c) % 2 ^ 64 = sz0 + (E.bytes k).length + c := by omega
      rw [hm2]
      by_cases h2 : b.length < sz0 + (E.bytes k).length + c
      · rw [if_pos h2, if_pos (by omega)]
      · rw [if_neg h2, if_neg (by omega), hd2, hF.read v]
        simp only [hth, ho]
        rw [hih _ hlen hP (by omega)]
        simp only [List.foldl_cons]
        have e : sz0 + (E.bytes k).length + c + counted E F todo = sz0 + ((E.bytes k).length + c + counted E F todo) := by
          omega
        rw [e]

theorem set_append_notMem {α β : Type} [DecidableEq α] (m : List (α × β)) (k : α) (v : β) (h : k ∉ m.map (·.1)) :
    Assoc.set m k v = m ++ [(k, v)] := by
  induction m with
  | nil => rfl
  | cons q m ih =>
    obtain ⟨a, b⟩ := q
    simp at h
    simp only [Assoc.set, if_neg (Ne.symm h.1), List.cons_append, List.cons.injEq, true_and]
    exact ih (by simpa using h.2)

theorem foldl_set {α β : Type} [DecidableEq α] : ∀ (m done : List (α × β)), ((done ++ m).map (·.1)).Nodup →
    m.foldl (fun m p => Assoc.set m p.1 p.2) done = done ++ m := by
  intro m
  induction m with
  | nil => intro done _; simp
  | cons p m ih =>
    intro done h
    have hn : p.1 ∉ done.map (·.1) := by
      rw [List.map_append, List.nodup_append] at h
      intro hm
      exact h.2.2 p.1 hm p.1 (by simp) rfl
    rw [List.foldl_cons, set_append_notMem _ _ _ hn, ih _ (by simpa using h)]
    simp

end Verif.Packer
