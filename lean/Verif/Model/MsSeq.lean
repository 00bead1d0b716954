import Verif.Model.MsChan

/-!
# Writing of measurement sets in the order of rows

`/repo/AppAgent/AppUtils/src/MSSeqOutputChannel.cc`: tiles are kept until one with another number comes, then
their rows are written in the order of the table.  One data column; flags are left out, as in `putTile` of
`Model/MsChan.lean`.
-/
namespace Verif.MsSeq

open Verif.MsChan

variable {γ : Type}

/-- Members of the channel and the table.  `map`: tile and row in the tile for each row of the table. -/
structure Seq (γ : Type) where
  ms : List (Row γ)
  map : List (Option (Nat × Nat))
  tiles : List (Tile γ)
  no : Option Nat
  lo : Nat
  hi : Nat

/-- `doPutHeader` (lines 61-75). -/
def start (ms : List (Row γ)) : Seq γ :=
  ⟨ms, List.replicate ms.length none, [], none, ms.length, 0⟩

/-- The loop of `flushOutputTiles` (lines 99-113) over the given rows.  `ub`: no such tile, or no such row
in the tile; simplification: also if that row is missing (its data is not modelled). -/
def flushRows (c : Chans) (map : List (Option (Nat × Nat))) (tiles : List (Tile γ)) :
    List Nat → List (Row γ) → Res (List (Row γ))
  | [], ms => .ok ms
  | i :: is, ms =>
    match map[i]? with
    | some (some (k, j)) =>
      match (tiles[k]?).bind (fun t => t.rows[j]?) with
      | some (some x) => flushRows c map tiles is (ms.modify i (fun r => { r with data := c.write r.data x.data }))
      | _ => .ub
    | _ => flushRows c map tiles is ms

/-- `flushOutputTiles` (lines 85-198): `row_to_tile_` keeps its entries. -/
def flush (c : Chans) (s : Seq γ) : Res (Seq γ) :=
  if s.tiles.isEmpty then .ok s
  else if s.lo ≤ s.hi then
    match flushRows c s.map s.tiles (List.range' s.lo (s.hi + 1 - s.lo)) s.ms with
    | .ok ms => .ok { s with ms := ms, tiles := [], lo := ms.length, hi := 0 }
    | .err => .err
    | .ub => .ub
  else .err

/-- The loop of `doPutTile` (lines 223-235); `k` is the number of the tile, `j` that of the row. -/
def enter (k : Nat) : Nat → List (Option (TRow γ)) → Seq γ → Res (Seq γ)
  | _, [], s => .ok s
  | j, none :: xs, s => enter k (j + 1) xs s
  | j, some x :: xs, s =>
    if x.seqnr < s.map.length then
      enter k (j + 1) xs { s with map := s.map.set x.seqnr (some (k, j)), lo := min s.lo x.seqnr, hi := max s.hi x.seqnr }
    else .ub

/-- `doPutTile` (lines 202-236). -/
def put (c : Chans) (s : Seq γ) (t : Tile γ) : Res (Seq γ) :=
  let r : Res (Seq γ) :=
    match s.no with
    | none => .ok { s with no := some t.no, lo := s.ms.length, hi := 0 }
    | some n =>
      if t.no ≠ n then
        match flush c s with
        | .ok s => .ok { s with no := some t.no }
        | .err => .err
        | .ub => .ub
      else .ok s
  match r with
  | .ok s => enter s.tiles.length 0 t.rows { s with tiles := s.tiles ++ [t] }
  | .err => .err
  | .ub => .ub

/-- Tile after tile, and the footer (lines 77-83). -/
def putAll (c : Chans) (s : Seq γ) : List (Tile γ) → Res (Seq γ)
  | [] => flush c s
  | t :: ts =>
    match put c s t with
    | .ok s => putAll c s ts
    | .err => .err
    | .ub => .ub

/-- From the header to the footer: the table. -/
def seqWrite (c : Chans) (ms : List (Row γ)) (tiles : List (Tile γ)) : Res (List (Row γ)) :=
  match putAll c (start ms) tiles with
  | .ok s => .ok s.ms
  | .err => .err
  | .ub => .ub

end Verif.MsSeq
