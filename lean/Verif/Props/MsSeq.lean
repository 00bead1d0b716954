import Verif.Proof.MsSeq
import Verif.Props.MsChan

/-!
# Property C230: writing of measurement sets in the order of rows
-/
namespace Verif.MsSeq

open Verif.MsChan

/-- The full property: tiles read from a table, whatever was done to the data, are written as by the other
channel. -/
def C230_full : Prop :=
  ∀ (q : Sel) (c : Chans) (ms : List (Row Nat)) (tiles : List (Tile Nat)) (f : List Nat → List Nat),
    readMS q c ms = .ok tiles →
    ∃ out, seqWrite c ms (tiles.map (fun t => { t with rows := t.rows.map (Option.map (fun x =>
        { x with data := f x.data })) })) = .ok out ∧
      out = writeMS c ms (tiles.map (fun t => { t with rows := t.rows.map (Option.map (fun x =>
        { x with data := f x.data })) }))

/-- Tiles with another number have later rows of the table, no row is there twice, no tile is empty: the table is
the one written by the other channel.  Missing: tiles whose rows lie between those of earlier numbers. -/
theorem C230_same_partial {γ : Type} (c : Chans) (ms : List (Row γ)) (tiles : List (Tile γ))
    (ho : tiles.Pairwise (fun t u => t.no ≠ u.no → ∀ i ∈ seqnrs [t], ∀ j ∈ seqnrs [u], i < j))
    (hn : (seqnrs tiles).Nodup) (hl : ∀ i ∈ seqnrs tiles, i < ms.length) (hr : ∀ t ∈ tiles, ∃ x, some x ∈ t.rows) :
    seqWrite c ms tiles = .ok (writeMS c ms tiles) := by
  obtain ⟨s', h1, h2⟩ := putAll_eq c ms tiles [] (start ms) (start_inv c ms) (by simp) (by simpa [start] using ho)
    (by simpa [start] using hn) hl hr
  unfold seqWrite
  rw [h1]
  dsimp only
  rw [h2]
  rfl

/-- So each row gets its data in the selected channels, and all else stays. -/
theorem C230_write_partial {γ : Type} (c : Chans) (hc : 0 < c.incr) (ms : List (Row γ)) (tiles : List (Tile γ))
    (ho : tiles.Pairwise (fun t u => t.no ≠ u.no → ∀ i ∈ seqnrs [t], ∀ j ∈ seqnrs [u], i < j))
    (hn : (seqnrs tiles).Nodup) (hl : ∀ i ∈ seqnrs tiles, i < ms.length) (hr : ∀ t ∈ tiles, ∃ x, some x ∈ t.rows)
    (hf : ∀ r ∈ ms, Fits c r.data) (hd : ∀ t ∈ tiles, ∀ x, some x ∈ t.rows → x.data.length = c.count) :
    ∃ out, seqWrite c ms tiles = .ok out ∧ out.length = ms.length ∧ (∀ i, i ∉ seqnrs tiles → out[i]? = ms[i]?) ∧
    ∀ t ∈ tiles, ∀ x, some x ∈ t.rows → ∀ r, ms[x.seqnr]? = some r →
      ∃ d, out[x.seqnr]? = some { r with data := d } ∧ Shows c d x.data ∧
        d.length = r.data.length ∧ ∀ j, (∀ k, k < c.count → j ≠ c.first + k * c.incr) → d[j]? = r.data[j]? := by
  obtain ⟨a, b, d⟩ := C228_write c hc ms tiles hf hn hd
  exact ⟨_, C230_same_partial c ms tiles ho hn hl hr, a, b, d⟩

/-- Tiles read from a table in order of time, with any data put into them, are written as by the other channel. -/
theorem C230_read_partial {γ : Type} (q : Sel) (c : Chans) (ms : List (Row γ)) (tiles : List (Tile γ))
    (h : readMS q c ms = .ok tiles)
    (hso : ∀ (i j : Nat) (r r' : Row γ), i < j → ms[i]? = some r → ms[j]? = some r' → r.time ≤ r'.time)
    (f : List γ → List γ) :
    seqWrite c ms (tiles.map (fun t => { t with rows := t.rows.map (Option.map (fun x =>
        { x with data := f x.data })) })) =
      .ok (writeMS c ms (tiles.map (fun t => { t with rows := t.rows.map (Option.map (fun x =>
        { x with data := f x.data })) }))) := by
  obtain ⟨sizes, hop, hs⟩ := read_stream h
  have hlater := stream_later c sizes 0 0 _ tiles (iterate_slots q ms) hs
  have hone : ∀ t : Tile γ, seqnrs [{ t with rows := t.rows.map (Option.map (fun x : TRow γ =>
      { x with data := f x.data })) }] = seqnrs [t] := by
    intro t
    simp only [seqnrs, List.flatMap_cons, List.flatMap_nil, List.append_nil, List.filterMap_map]
    congr 1
    funext o
    cases o <;> rfl
  have hall : seqnrs (tiles.map (fun t => { t with rows := t.rows.map (Option.map (fun x : TRow γ =>
      { x with data := f x.data })) })) = seqnrs tiles := by
    clear h hs hlater
    induction tiles with
    | nil => rfl
    | cons t ts ih =>
      rw [List.map_cons, ← List.singleton_append, seqnrs_append, hone, ih, ← seqnrs_append, List.singleton_append]
  have hlen : ∀ i ∈ seqnrs tiles, i < ms.length := by
    intro i hi
    obtain ⟨_, _, _, r, hr, _⟩ := (stream_nodup c sizes 0 0 _ tiles (iterate_slots q ms) hs).2 i hi
    by_contra hc
    rw [List.getElem?_eq_none (by omega)] at hr
    cases hr
  apply C230_same_partial
  · rw [List.pairwise_map]
    refine hlater.imp ?_
    intro t u htu hne i hi j hj
    rw [hone] at hi hj
    obtain ⟨r, r', h1, h2, h3⟩ := htu hne i hi j hj
    by_contra hc
    rcases Nat.lt_or_ge j i with hji | hji
    · exact absurd (hso j i r' r hji h2 h1) (not_le.2 h3)
    · have : i = j := by omega
      subst this
      rw [h1] at h2
      cases h2
      exact lt_irrefl _ h3
  · rw [hall]; exact C225_once q c ms tiles h
  · rw [hall]; exact hlen
  · intro t ht
    obtain ⟨t', ht', rfl⟩ := List.mem_map.1 ht
    obtain ⟨x, hx⟩ := ((C225_tiles q c ms tiles sizes h hop).2.1 t' ht').2.2.2.2
    exact ⟨_, List.mem_map.2 ⟨some x, hx, rfl⟩⟩

/-- One timeslot to a tile; the row of the first time lies between those of the second one: it is written again,
with data of another baseline and time. -/
theorem C230_refuted : ¬ C230_full := by
  intro h
  have hr : readMS { exSel with tilesize := 1 } ⟨0, 1, 1, false⟩ [exRow 2 0 1 [7], exRow 1 0 1 [8], exRow 2 0 2 [9], exRow 2 1 2 [6]] =
      .ok [⟨0, 1, 0, [1], [some ⟨0, [8], 1⟩]⟩, ⟨0, 1, 1, [2], [some ⟨1, [7], 0⟩]⟩, ⟨0, 2, 1, [2], [some ⟨1, [9], 2⟩]⟩,
        ⟨1, 2, 1, [2], [some ⟨1, [6], 3⟩]⟩] := by
    decide +kernel
  obtain ⟨out, h1, h2⟩ := h _ _ _ _ (fun d => d) hr
  have hd : (match seqWrite ⟨0, 1, 1, false⟩ [exRow 2 0 1 [7], exRow 1 0 1 [8], exRow 2 0 2 [9], exRow 2 1 2 [6]]
      [⟨0, 1, 0, [1], [some ⟨0, [8], 1⟩]⟩, ⟨0, 1, 1, [2], [some ⟨1, [7], 0⟩]⟩, ⟨0, 2, 1, [2], [some ⟨1, [9], 2⟩]⟩,
        ⟨1, 2, 1, [2], [some ⟨1, [6], 3⟩]⟩] with
      | .ok l => l.map Row.data | _ => []) = [[7], [7], [9], [6]] := by decide +kernel
  have hw : (writeMS ⟨0, 1, 1, false⟩ [exRow 2 0 1 [7], exRow 1 0 1 [8], exRow 2 0 2 [9], exRow 2 1 2 [6]]
      [⟨0, 1, 0, [1], [some ⟨0, [8], 1⟩]⟩, ⟨0, 1, 1, [2], [some ⟨1, [7], 0⟩]⟩, ⟨0, 2, 1, [2], [some ⟨1, [9], 2⟩]⟩,
        ⟨1, 2, 1, [2], [some ⟨1, [6], 3⟩]⟩]).map
        Row.data = [[7], [8], [9], [6]] := by decide +kernel
  dsimp only [List.map, Option.map] at h1 h2
  rw [h1] at hd
  dsimp only at hd
  rw [h2, hw] at hd
  revert hd
  decide

/-- With more tiles in the first number than in the second one, a tile is read that does not exist. -/
theorem C230_outside : (match seqWrite ⟨0, 1, 1, false⟩ [exRow 2 0 1 [7], exRow 1 0 1 [8], exRow 1 0 2 [6], exRow 2 0 1 [9]]
    [⟨0, 1, 0, [1], [some ⟨0, [8], 1⟩]⟩, ⟨0, 2, 0, [1], [some ⟨0, [6], 2⟩]⟩, ⟨0, 1, 1, [2, 2], [some ⟨1, [7], 0⟩, some ⟨1, [9], 3⟩]⟩] with
    | .ub => true | _ => false) = true := by decide +kernel

/-- The example of C225, 2 timeslots to a tile, with new data; rows of a number are not in order. -/
example : (match readMS { exSel with tilesize := 2 } exChans exMS with
    | .ok tiles => (match seqWrite exChans exMS (tiles.map (fun t => { t with rows := t.rows.map (Option.map (fun x =>
        { x with data := x.data.map (· + 100) })) })) with | .ok l => l.map Row.data | _ => [])
    | _ => []) = [[10, 111, 112], [20, 121, 122], [5, 5, 5], [30, 131, 132], [40, 141, 142], [50, 151, 152]] := by
  decide +kernel

end Verif.MsSeq
