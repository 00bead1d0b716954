import Verif.Model.VTile
/-!
# Specification of tiles

`Hist` are the histories for which the properties are shown: those without the operations that leave the arrays of a tile
behind.  `Any` are all histories.
-/
namespace Verif.VTile

/-- A column has a type exactly if its elements have a size. -/
def FmtOk (f : List Col) : Prop := ∀ c ∈ f, c.ty = 0 ↔ c.el = 0

/-- No other tile and no message refers to the memory of a tile. -/
def Unshared (s : St) (i : Nat) : Prop :=
  ∀ b, (s.tile i).blk = some b → (∀ j < s.nt, j ≠ i → (s.tile j).blk ≠ some b) ∧ ∀ m ∈ s.msgs, m.blk ≠ b

/-- Columns that both formats define, with equal shapes, have equal types. -/
def SameTypes (f g : List Col) : Prop :=
  ∀ (c : Nat) (a b : Col), f[c]? = some a → g[c]? = some b → a.ty ≠ 0 → b.ty ≠ 0 → a.shape = b.shape → a = b

/-- Formats are well-formed. -/
def Formed : Op → Prop
  | .new f _ => FmtOk f
  | .changeFormat _ g => FmtOk g
  | _ => True

/-- Operations that keep arrays and memory together: `copy`, `setTileId` and `wcolumn` only on tiles whose memory is not shared. -/
def Allowed (s : St) : Op → Prop
  | .copy i _ _ _ _ => Unshared s i
  | .setTileId i _ => Unshared s i
  | .setColumn i _ _ _ _ => Unshared s i
  | _ => True

/-- The tile that an operation is meant to change. -/
def Changes : Op → Nat → Prop
  | .drop i, j => j = i
  | .addRows i _, j => j = i
  | .copy i _ _ _ _, j => j = i
  | .changeFormat i _, j => j = i
  | .setTileId i _, j => j = i
  | .set i _ _ _ _, j => j = i
  | .setColumn i _ _ _ _, j => j = i
  | .recv i, j => j = i
  | _, _ => False

/-- All histories. -/
inductive Any : St → Prop where
  | init : Any St.init
  | step (s s' : St) (op : Op) : Any s → Formed op → step s op = .ok s' → Any s'

/-- Histories of operations that are allowed. -/
inductive Hist : St → Prop where
  | init : Hist St.init
  | step (s s' : St) (op : Op) : Hist s → Formed op → Allowed s op → step s op = .ok s' → Hist s'

/-- The column a tile has under a number, if it is defined. -/
def HasCol (s : St) (i c : Nat) (k : Col) : Prop :=
  ∃ f, (s.tile i).fmt = some f ∧ f[c]? = some k ∧ k.ty ≠ 0

/-- Allowed operations, and how many messages were received meanwhile. -/
inductive Runs : St → Nat → St → Prop where
  | refl (s : St) : Runs s 0 s
  | recv (s s' s'' : St) (n i : Nat) : Runs s n s' → step s' (.recv i) = .ok s'' → Runs s (n + 1) s''
  | other (s s' s'' : St) (n : Nat) (op : Op) : Runs s n s' → Formed op → Allowed s' op → (∀ i, op ≠ .recv i) → step s' op = .ok s'' →
      Runs s n s''

/-- A tile in one state has the format, rows, identifier and values of a tile in another. -/
def SameTile (s : St) (i : Nat) (s' : St) (j : Nat) : Prop :=
  (s'.tile j).fmt = (s.tile i).fmt ∧ (s'.tile j).nrow = (s.tile i).nrow ∧ (s'.tile j).id = (s.tile i).id ∧
    ∀ c e t k, get s' j c e t k = get s i c e t k

/-- One element of one tile has been set, and nothing else. -/
def SetsOne (s s' : St) (i c e t : Nat) (v : Nat → Nat) : Prop :=
  (∀ j < s.nt, (s'.tile j).fmt = (s.tile j).fmt ∧ (s'.tile j).nrow = (s.tile j).nrow ∧ (s'.tile j).id = (s.tile j).id) ∧
  (∀ k x, get s i c e t k = .ok x → get s' i c e t k = .ok (v k)) ∧
  ∀ j < s.nt, ∀ c' e' t' k, ¬ (j = i ∧ c' = c ∧ e' = e ∧ t' = t) → get s' j c' e' t' k = get s j c' e' t' k

/-- Rows `ost`, ..., `ost + n - 1` of tile `j` have been copied to rows `st`, ... of tile `i`, whose other rows are as before. -/
def Copies (s s' : St) (i j st ost n : Nat) : Prop :=
  (s'.tile i).fmt = (s.tile j).fmt ∧ (s'.tile i).nrow = (if (s.tile i).nrow = 0 then n else (s.tile i).nrow) ∧
  (s'.tile i).id = (if (s.tile i).id = [] then (s.tile j).id else (s.tile i).id) ∧
  (∀ c e t k, t < n → get s' i c e (st + t) k = get s j c e (ost + t) k) ∧
  ((s.tile i).fmt.isSome → ∀ c e t k, t < (s.tile i).nrow → t < st ∨ st + n ≤ t → get s' i c e t k = get s i c e t k)

/-- Rows have been added: those there were are as before, the new ones are zero. -/
def Grows (s s' : St) (i n : Nat) : Prop :=
  (s'.tile i).fmt = (s.tile i).fmt ∧ (s'.tile i).nrow = (s.tile i).nrow + n ∧ (s'.tile i).id = (s.tile i).id ∧
  (∀ c e t k, t < (s.tile i).nrow → get s' i c e t k = get s i c e t k) ∧
  ∀ c col, HasCol s i c col → ∀ e t k, e < col.shape.prod → (s.tile i).nrow ≤ t → t < (s.tile i).nrow + n → k < col.el →
    get s' i c e t k = .ok 0

/-- The format has been changed: columns that are the same in both are as before, others are zero. -/
def Reformats (s s' : St) (i : Nat) (g : List Col) : Prop :=
  (s'.tile i).fmt = some g ∧ (s'.tile i).nrow = (s.tile i).nrow ∧ (s'.tile i).id = (s.tile i).id ∧
  ∀ (c : Nat) (col : Col), g[c]? = some col → col.ty ≠ 0 →
    (HasCol s i c col → ∀ e t k, get s' i c e t k = get s i c e t k) ∧
    (¬ HasCol s i c col → ∀ e t k, e < col.shape.prod → t < (s.tile i).nrow → k < col.el → get s' i c e t k = .ok 0)

/-- All defined columns have cells of one element. -/
def Scalar (f : List Col) : Prop := ∀ k ∈ f, k.ty ≠ 0 → k.shape.prod = 1

end Verif.VTile
