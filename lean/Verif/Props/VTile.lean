import Verif.Proof.VTileViews
/-!
# Properties of tiles of visibility data (C195-C201)
-/
namespace Verif.VTile

/-- Operations one after the other. -/
def runOps (s : St) : List Op → Res St
  | [] => .ok s
  | o :: r => do
    let s' ← step s o
    runOps s' r

theorem any_runOps {ops : List Op} : ∀ {s s' : St}, Any s → (∀ o ∈ ops, Formed o) → runOps s ops = .ok s' → Any s' := by
  induction ops with
  | nil => intro s s' h _ e; simp only [runOps, Res.ok.injEq] at e; subst e; exact h
  | cons o r ih =>
    intro s s' h hF e
    simp only [runOps] at e
    obtain ⟨s1, h1, h2⟩ := Res.bind_eq_ok.mp e
    exact ih (.step s s1 o h (hF o List.mem_cons_self) h1) (fun o' ho => hF o' (List.mem_cons_of_mem _ ho)) h2

/-- Columns of numbers: one scalar of 4 bytes, one that is not defined, one of two elements of 8 bytes per cell. -/
def exF : List Col := [⟨1, 4, []⟩, ⟨0, 0, []⟩, ⟨2, 8, [2]⟩]
/-- Scalar columns only. -/
def exS : List Col := [⟨1, 4, []⟩, ⟨0, 0, []⟩, ⟨2, 8, [1]⟩]

theorem exF_ok : FmtOk exF := by intro c hc; simp only [exF, List.mem_cons, List.not_mem_nil, or_false] at hc; rcases hc with rfl | rfl | rfl <;> decide
theorem exS_ok : FmtOk exS := by intro c hc; simp only [exS, List.mem_cons, List.not_mem_nil, or_false] at hc; rcases hc with rfl | rfl | rfl <;> decide
theorem exS_scalar : Scalar exS := by
  intro c hc; simp only [exS, List.mem_cons, List.not_mem_nil, or_false] at hc; rcases hc with rfl | rfl | rfl <;> decide

/-! ## C195: columns are apart -/

/-- Each defined column of a tile with rows has a part of the tile's memory, aligned to the size of its elements, behind
the header of 80 bytes and within the block, and parts of different columns do not meet. -/
def Apart (s : St) (i b : Nat) : Prop :=
    (∀ c col, HasCol s i c col → ∃ o, (s.tile i).pd[c]? = some (some ⟨b, o⟩) ∧ 80 ≤ o ∧ o % col.el = 0 ∧
      o + col.el * col.shape.prod * (s.tile i).nrow ≤ (s.heap b).size) ∧
    ∀ c c' col col' o o', c < c' → HasCol s i c col → HasCol s i c' col' → (s.tile i).pd[c]? = some (some ⟨b, o⟩) →
      (s.tile i).pd[c']? = some (some ⟨b, o'⟩) → o + col.el * col.shape.prod * (s.tile i).nrow ≤ o'

/-- C195 as one would wish it, for every history. -/
def C195_full : Prop :=
  ∀ (s : St), Any s → ∀ i b : Nat, (s.tile i).blk = some b → Apart s i b

/-- C195, for histories in which `copy`, `setTileId` and `wcolumn` are applied only to tiles that do not share their memory.  Missing: other
histories. -/
theorem C195_partial (s : St) (hs : Hist s) (i b : Nat) (hb : (s.tile i).blk = some b) : Apart s i b := by
  have h := hist_inv hs
  have key : ∀ c col, HasCol s i c col → ∃ f, (s.tile i).fmt = some f ∧ f[c]? = some col ∧ col.el ≠ 0 ∧
      (s.tile i).pd[c]? = some (some ⟨b, colOff f (s.tile i).nrow c⟩) ∧ (s.heap b).size = (layout hdrSize (s.tile i).nrow f).2 := by
    rintro c col ⟨f, hf, hc, hty⟩
    obtain ⟨y1, _, _, y4, y5⟩ := inv_fmt h hb hf
    have hel : col.el ≠ 0 := fun e => hty ((fmtOk_get y1 hc).mpr e)
    exact ⟨f, hf, hc, hel, by rw [y5, ptrs_get hc, if_neg hel], y4⟩
  refine ⟨fun c col hcol => ?_, fun c c' col col' o o' hlt hcol hcol' ho ho' => ?_⟩
  · obtain ⟨f, hf, hc, hel, hp, hsz⟩ := key c col hcol
    obtain ⟨a1, a2, _, a4⟩ := layout_col (s.tile i).nrow f hdrSize c _ col hc (colOff_some hc hel)
    exact ⟨_, hp, a1, a2, by rw [hsz]; exact a4⟩
  · obtain ⟨f, hf, hc, hel, hp, _⟩ := key c col hcol
    obtain ⟨f', hf', hc', hel', hp', _⟩ := key c' col' hcol'
    rw [hf] at hf'; cases hf'
    rw [ho] at hp; rw [ho'] at hp'
    simp only [Option.some.injEq, Ptr.mk.injEq, true_and] at hp hp'
    subst hp; subst hp'
    exact colOff_lt hc hel hc' hel' hlt

/-- C195, what can be read: every element of every row of every defined column. -/
theorem C195_readable_partial (s : St) (hs : Hist s) (i : Nat) (hi : i < s.nt) (c : Nat) (col : Col) (hc : HasCol s i c col) (e t k : Nat)
    (he : e < col.shape.prod) (ht : t < (s.tile i).nrow) (hk : k < col.el) : ∃ x, get s i c e t k = .ok x := by
  have h := hist_inv hs
  obtain ⟨f, hf, hc, hty⟩ := hc
  obtain ⟨b, hb⟩ := rows_blk h (i := i) (by omega)
  rw [get_view h hi, view_eq hb hf, hc]
  exact ⟨_, if_pos ⟨hty, he, ht, hk⟩⟩

/-- The state after making a tile. -/
theorem hist_new (f : List Col) (n : Nat) (hf : FmtOk f) (s : St) (h : step St.init (.new f n) = .ok s) : Hist s :=
  .step _ _ (.new f n) .init hf trivial h

/-- Rows that exist are found: a tile of 3 rows with the columns above. -/
example : ∃ s, Hist s ∧ 0 < s.nt ∧ (s.tile 0).nrow = 3 ∧ HasCol s 0 0 ⟨1, 4, []⟩ ∧ HasCol s 0 2 ⟨2, 8, [2]⟩ ∧
    (s.tile 0).pd = [some ⟨0, 80⟩, none, some ⟨0, 96⟩] ∧ (s.heap 0).size = 144 := by
  obtain ⟨s, hs⟩ : ∃ s, step St.init (.new exF 3) = .ok s := ⟨_, rfl⟩
  refine ⟨s, hist_new exF 3 exF_ok s hs, ?_⟩
  cases hs
  exact ⟨Nat.one_pos, rfl, ⟨exF, rfl, rfl, by decide⟩, ⟨exF, rfl, rfl, by decide⟩, rfl, rfl⟩

/-! ## C196: an assignment changes one element -/

/-- C196 as one would wish it, for every history. -/
def C196_full : Prop :=
  ∀ (s s' : St) (i c e t : Nat) (v : Nat → Nat), Any s → step s (.set i c e t v) = .ok s' → SetsOne s s' i c e t v

theorem kept_of_frame {s s' : St} {i : Nat} {op : Op} (h : Inv s) (hF : Formed op) (hA : Allowed s op) (hs : step s op = .ok s')
    (hc : ∀ j, Changes op j → j = i) : ∀ j < s.nt, j ≠ i → Kept s s' j :=
  fun j hj hne => (step_spec h hF hA hs).2.2.1 j hj (fun e => hne (hc j e))

/-- C196, for histories in which `copy`, `setTileId` and `wcolumn` are applied only to tiles that do not share their memory:
an assignment to an element of a tile changes that element of that tile, and no other element of any tile.  Missing: other
histories, for which it is false (`C196_refuted`). -/
theorem C196_partial (s s' : St) (i c e t : Nat) (v : Nat → Nat) (hh : Hist s) (hs : step s (.set i c e t v) = .ok s') :
    SetsOne s s' i c e t v := by
  have h := hist_inv hh
  have hk := kept_of_frame (i := i) h (op := .set i c e t v) trivial trivial hs (fun j e => e)
  simp only [step] at hs
  split at hs
  · rename_i hi
    obtain ⟨col, hcol, he, ht, a1, a2, _, a4, a5, a6, a7, a8⟩ := set_spec h hi hs
    refine ⟨fun j hj => ?_, fun k x hx => ?_, fun j hj c' e' t' k hne => ?_⟩
    · by_cases e : j = i
      · subst e; exact ⟨a4, a5, a6⟩
      · exact ⟨(hk j hj e).fmt, (hk j hj e).nrow, (hk j hj e).id⟩
    · apply a7
      obtain ⟨f, hf, hc, hty⟩ := hcol
      obtain ⟨b, hb⟩ := rows_blk h (i := i) (by omega)
      rw [get_view h hi, view_eq hb hf, hc] at hx
      simp only at hx
      split at hx
      · rename_i hr; exact hr.2.2.2
      · cases hx
    · by_cases e : j = i
      · subst e; exact a8 c' e' t' k (fun q => hne ⟨rfl, q⟩)
      · exact (hk j hj e).get c' e' t' k
  · cases hs

/-- C196: an assignment to an element of an existing row and column succeeds. -/
theorem C196_completes (s : St) (hs : Hist s) (i : Nat) (hi : i < s.nt) (c : Nat) (col : Col) (hc : HasCol s i c col) (e t : Nat) (v : Nat → Nat)
    (he : e < col.shape.prod) (ht : t < (s.tile i).nrow) : ∃ s', step s (.set i c e t v) = .ok s' := by
  simp only [step, if_pos hi]
  exact set_ok (hist_inv hs) hi hc he ht

/-- C196, for the pointer that `wcolumn` returns, if the tile does not share its memory. -/
theorem C196_column_partial (s s' : St) (i c e t : Nat) (v : Nat → Nat) (hh : Hist s) (hu : Unshared s i)
    (hs : step s (.setColumn i c e t v) = .ok s') : SetsOne s s' i c e t v := by
  have h := hist_inv hh
  have hk := kept_of_frame (i := i) h (op := .setColumn i c e t v) trivial hu hs (fun j e => e)
  simp only [step] at hs
  split at hs
  · rename_i hi
    obtain ⟨col, hcol, he, ht, a1, a2, a3, a7, a8⟩ := setColumn_spec h hi hu hs
    refine ⟨fun j hj => by rw [a3]; exact ⟨rfl, rfl, rfl⟩, fun k x hx => ?_, fun j hj c' e' t' k hne => ?_⟩
    · apply a7
      obtain ⟨f, hf, hc, hty⟩ := hcol
      obtain ⟨b, hb⟩ := rows_blk h (i := i) (by omega)
      rw [get_view h hi, view_eq hb hf, hc] at hx
      simp only at hx
      split at hx
      · rename_i hr; exact hr.2.2.2
      · cases hx
    · by_cases e : j = i
      · subst e; exact a8 c' e' t' k (fun q => hne ⟨rfl, q⟩)
      · exact (hk j hj e).get c' e' t' k
  · cases hs

/-- A tile is copied, the copy is written to with `wcolumn` and then assigned to: the assignment goes to the original. -/
def strayOps : List Op := [.new exF 1, .clone 0, .setColumn 1 0 0 0 (fun _ => 9)]

theorem strayOps_formed : ∀ o ∈ strayOps, Formed o := by
  intro o ho
  simp only [strayOps, List.mem_cons, List.not_mem_nil, or_false] at ho
  rcases ho with rfl | rfl | rfl
  · exact exF_ok
  · trivial
  · trivial

/-- The value written shows in the original, and not in the copy that was written to. -/
theorem C196_stray_write :
    (runOps St.init strayOps >>= fun s => get s 0 0 0 0 0) = .ok 0 ∧
    (runOps St.init (strayOps ++ [.set 1 2 0 0 (fun _ => 5)]) >>= fun s => get s 0 2 0 0 0) = .ok 5 ∧
    (runOps St.init (strayOps ++ [.set 1 2 0 0 (fun _ => 5), .send 1, .empty, .recv 2]) >>= fun s => get s 2 2 0 0 0) = .ok 0 := by
  decide +kernel

theorem C196_refuted : ¬ C196_full := by
  intro hf
  have h1 : (runOps St.init strayOps >>= fun s => get s 0 2 0 0 0) = .ok 0 := by decide +kernel
  have h2 : (runOps St.init strayOps >>= fun s => step s (.set 1 2 0 0 (fun _ => 5)) >>= fun s => get s 0 2 0 0 0) = .ok 5 := by
    decide +kernel
  have h3 : (runOps St.init strayOps >>= fun s => Res.ok s.nt) = .ok 2 := by decide +kernel
  obtain ⟨s, e1, g1⟩ := Res.bind_eq_ok.mp h1
  rw [e1, Res.ok_bind] at h2 h3
  obtain ⟨s', e2, g2⟩ := Res.bind_eq_ok.mp h2
  simp only [Res.ok.injEq] at h3
  have := (hf s s' 1 2 0 0 _ (any_runOps .init strayOps_formed e1) e2).2.2 0 (by omega) 2 0 0 0 (by simp)
  rw [g1, g2] at this
  cases this

/-- A state that meets the hypotheses: a tile and its copy, which share their memory; the copy is assigned to. -/
example : ∃ s s', Hist s ∧ ¬ Unshared s 1 ∧ step s (.set 1 2 1 0 (fun k => k + 1)) = .ok s' ∧
    get s' 1 2 1 0 3 = .ok 4 ∧ get s' 0 2 1 0 3 = .ok 0 := by
  obtain ⟨s, e1⟩ : ∃ s, step St.init (.new exF 1) = .ok s := ⟨_, rfl⟩
  have h1 := hist_new exF 1 exF_ok s e1
  obtain ⟨s1, e2⟩ : ∃ s1, step s (.clone 0) = .ok s1 := by cases e1; exact ⟨_, rfl⟩
  have h2 : Hist s1 := .step _ _ (.clone 0) h1 trivial trivial e2
  cases e1; cases e2
  refine ⟨_, _, h2, ?_, rfl, by decide +kernel, by decide +kernel⟩
  intro hu
  exact (hu 0 rfl).1 0 (by decide) (by decide) rfl

/-! ## C197: tiles that share memory are independent -/

/-- C197 as one would wish it: an operation on one tile does not show in another. -/
def C197_full : Prop :=
  ∀ (s s' : St) (op : Op) (j : Nat), Any s → Formed op → step s op = .ok s' → j < s.nt → ¬ Changes op j → SameTile s j s' j

/-- C197, for the histories of C196: no operation shows in a tile other than the one it is meant to change, even if they share
their memory. Missing: other histories (`C197_refuted`). -/
theorem C197_partial (s s' : St) (op : Op) (j : Nat) (hh : Hist s) (hF : Formed op) (hA : Allowed s op) (hs : step s op = .ok s')
    (hj : j < s.nt) (hc : ¬ Changes op j) : SameTile s j s' j := by
  have := (step_spec (hist_inv hh) hF hA hs).2.2.1 j hj hc
  exact ⟨this.fmt, this.nrow, this.id, this.get⟩

/-- C197: a copy of a tile is equal to the tile. -/
theorem C197_copy_equal (s s' : St) (i : Nat) (hh : Hist s) (hs : step s (.clone i) = .ok s') : SameTile s i s' s.nt ∧ s'.nt = s.nt + 1 := by
  have h := hist_inv hh
  simp only [step] at hs
  split at hs
  · rename_i hi
    obtain ⟨a1, a2, a3, a4, a5, a6, a7⟩ := clone_spec h hs
    refine ⟨⟨a3, a4, a5, fun c e t k => ?_⟩, a2.nt⟩
    rw [get_view a1 (by rw [a2.nt]; exact Nat.lt_succ_self _), get_view h hi]
    exact view_congr a3 a4 (fun e => a6.trans e) (fun b e => ⟨b, a6.trans e, by rw [a7]⟩) c e t k
  · cases hs

/-- C197: a tile with rows can be copied. -/
theorem C197_copy_completes (s : St) (i : Nat) (hh : Hist s) (hi : i < s.nt) (hn : 0 < (s.tile i).nrow) :
    ∃ s', step s (.clone i) = .ok s' := by
  have h := hist_inv hh
  obtain ⟨b, hb⟩ := rows_blk h hn
  simp only [step, if_pos hi]
  unfold clone
  simp only [hb]
  cases hf : (s.tile i).fmt with
  | none => exact ⟨_, rfl⟩
  | some f =>
    simp only
    obtain ⟨y1, y2, y3, y4, y5⟩ := inv_fmt h hb hf
    obtain ⟨as, has⟩ := mkArrs_ptrs (s.tile i).nrow b (s.tile i).nrow y1
    unfold initArrays
    simp only [setT_self, y5, has, Res.ok_bind]
    exact ⟨_, rfl⟩

/-- A tile without rows cannot be copied: references are equal only if they are valid, so that the pointers are computed
anew, from a block that is not there. -/
theorem C197_empty_copy (s : St) (i : Nat) (hh : Hist s) (hi : i < s.nt) (hn : (s.tile i).nrow = 0) : step s (.clone i) = .err := by
  have hb := norows_blk (hist_inv hh) hn
  simp only [step, if_pos hi]
  unfold clone
  simp only [hb]

theorem C197_refuted : ¬ C197_full := by
  intro hf
  have h1 : (runOps St.init strayOps >>= fun s => get s 0 2 0 0 0) = .ok 0 := by decide +kernel
  have h2 : (runOps St.init strayOps >>= fun s => step s (.set 1 2 0 0 (fun _ => 5)) >>= fun s => get s 0 2 0 0 0) = .ok 5 := by
    decide +kernel
  have h3 : (runOps St.init strayOps >>= fun s => Res.ok s.nt) = .ok 2 := by decide +kernel
  obtain ⟨s, e1, g1⟩ := Res.bind_eq_ok.mp h1
  rw [e1, Res.ok_bind] at h2 h3
  obtain ⟨s', e2, g2⟩ := Res.bind_eq_ok.mp h2
  simp only [Res.ok.injEq] at h3
  have := (hf s s' (.set 1 2 0 0 (fun _ => 5)) 0 (any_runOps .init strayOps_formed e1) trivial e2 (by omega) (by simp [Changes])).2.2.2 2 0 0 0
  rw [g1, g2] at this
  cases this

/-- A new tile is zero. -/
theorem C197_new (s s' : St) (f : List Col) (n : Nat) (hh : Hist s) (hf : FmtOk f) (hs : step s (.new f n) = .ok s') :
    s'.nt = s.nt + 1 ∧ (s'.tile s.nt).fmt = some f ∧ (s'.tile s.nt).nrow = n ∧ (s'.tile s.nt).id = [] ∧
      ∀ c col, f[c]? = some col → col.ty ≠ 0 → ∀ e t k, e < col.shape.prod → t < n → k < col.el → get s' s.nt c e t k = .ok 0 := by
  obtain ⟨a1, a2, a3, a4, a5, a6⟩ := init_spec (hist_inv hh) hf hs
  refine ⟨a2.nt, a3, a4, a5, fun c col hc hty e t k he ht hk => ?_⟩
  obtain ⟨b, hb, hz⟩ := a6 (by omega)
  rw [get_view a1 (by rw [a2.nt]; exact Nat.lt_succ_self _), view_eq hb a3, hc]
  simp only
  rw [if_pos ⟨hty, he, by rw [a4]; exact ht, hk⟩, hz]

/-- A new tile with rows is always made. -/
theorem C197_new_completes (s : St) (f : List Col) (n : Nat) (hf : FmtOk f) (hn : 0 < n) : ∃ s', step s (.new f n) = .ok s' := by
  simp only [step]
  unfold init
  obtain ⟨as, has⟩ := mkArrs_ptrs n s.next n hf
  rw [if_neg (by omega)]
  unfold initArrays
  simp only [setT_self, has, Res.ok_bind]
  exact ⟨_, rfl⟩

/-- A new tile without rows, but with columns, reads beyond the end of the (empty) list of pointers. -/
theorem C197_new_empty : step St.init (.new exF 0) = .ub := rfl

/-! ## C198: a tile that is sent arrives -/

/-- C198 as one would wish it: a tile that is sent arrives, whatever is done meanwhile. -/
def C198_full : Prop :=
  ∀ (s s1 s2 : St) (i j : Nat) (f : List Col), Any s → i < s.nt → (s.tile i).fmt = some f → 0 < (s.tile i).nrow →
    step s (.send i) = .ok s1 → Runs s1 s.msgs.length s2 → j < s2.nt → ∃ s3, step s2 (.recv j) = .ok s3 ∧ SameTile s i s3 j

/-- C198, for the histories of C196: whatever allowed operations follow, on that tile or others, the message is received as the tile was when it
was sent, after the messages sent before.  Missing: other histories (`C198_refuted`). -/
theorem C198_partial (s s1 s2 : St) (i j : Nat) (f : List Col) (hh : Hist s) (hi : i < s.nt) (hf : (s.tile i).fmt = some f)
    (hn : 0 < (s.tile i).nrow) (h1 : step s (.send i) = .ok s1) (h2 : Runs s1 s.msgs.length s2) (hj : j < s2.nt) :
    ∃ s3, step s2 (.recv j) = .ok s3 ∧ SameTile s i s3 j := by
  simp only [step, if_pos hi] at h1
  simp only [step, if_pos hj]
  exact send_recv (hist_inv hh) hi hf hn h1 h2 hj

/-- C198: any tile can be sent. -/
theorem C198_sends (s : St) (i : Nat) (hh : Hist s) (hi : i < s.nt) : ∃ s1, step s (.send i) = .ok s1 := by
  simp only [step, if_pos hi]
  unfold send
  dsimp only
  split
  · exact ⟨_, rfl⟩
  · rename_i hn
    obtain ⟨b, hb⟩ := rows_blk (hist_inv hh) (i := i) (by omega)
    simp only [hb]
    exact ⟨_, rfl⟩

/-- The copy of the stray write of C196 is sent: what arrives is not what it shows. -/
theorem C198_refuted : ¬ C198_full := by
  intro hF
  have h1 : (runOps St.init (strayOps ++ [.set 1 2 0 0 (fun _ => 5), .empty]) >>= fun s => get s 1 2 0 0 0) = .ok 5 := by decide +kernel
  have h2 : (runOps St.init (strayOps ++ [.set 1 2 0 0 (fun _ => 5), .empty]) >>= fun s => step s (.send 1) >>= fun s => step s (.recv 2) >>=
      fun s => get s 2 2 0 0 0) = .ok 0 := by decide +kernel
  have h3 : (runOps St.init (strayOps ++ [.set 1 2 0 0 (fun _ => 5), .empty]) >>= fun s => Res.ok (s.nt, (s.tile 1).fmt, (s.tile 1).nrow, s.msgs.length)) =
      .ok (3, some exF, 1, 0) := by decide +kernel
  obtain ⟨s, e1, g1⟩ := Res.bind_eq_ok.mp h1
  rw [e1, Res.ok_bind] at h2 h3
  obtain ⟨s1, e2, g2⟩ := Res.bind_eq_ok.mp h2
  obtain ⟨s3, e3, g3⟩ := Res.bind_eq_ok.mp g2
  simp only [Res.ok.injEq, Prod.mk.injEq] at h3
  obtain ⟨q1, q2, q3, q4⟩ := h3
  have hany : Any s := any_runOps .init (fun o ho => by
    rcases List.mem_append.mp ho with h | h
    · exact strayOps_formed o h
    · simp only [List.mem_cons, List.not_mem_nil, or_false] at h
      rcases h with rfl | rfl <;> trivial) e1
  have hnt : s1.nt = s.nt := by
    simp only [step, if_pos (show 1 < s.nt by omega)] at e2
    unfold send at e2
    simp only [q3] at e2
    rw [if_neg (by decide)] at e2
    split at e2 <;> cases e2
    rfl
  obtain ⟨s3', e3', hsame⟩ := hF s s1 s1 1 2 exF hany (by omega) q2 (by omega) e2 (by rw [q4]; exact .refl _) (by omega)
  rw [e3] at e3'; cases e3'
  have := hsame.2.2.2 2 0 0 0
  rw [g1, g3] at this
  cases this

/-- A tile is sent, then written to, and received into another as it was. -/
example : ∃ s s1 s2, Hist s ∧ 0 < s.nt ∧ (s.tile 0).fmt = some exF ∧ 0 < (s.tile 0).nrow ∧ step s (.send 0) = .ok s1 ∧
    Runs s1 s.msgs.length s2 ∧ 1 < s2.nt ∧ get s2 0 2 1 0 3 = .ok 4 ∧ (step s2 (.recv 1) >>= fun s => get s 1 2 1 0 3) = .ok 0 := by
  obtain ⟨s, e1⟩ : ∃ s, step St.init (.new exF 1) = .ok s := ⟨_, rfl⟩
  have h1 := hist_new exF 1 exF_ok s e1
  obtain ⟨s1, e2⟩ : ∃ s1, step s (.send 0) = .ok s1 := by cases e1; exact ⟨_, rfl⟩
  obtain ⟨s2, e3⟩ : ∃ s2, step s1 (.set 0 2 1 0 (fun k => k + 1)) = .ok s2 := by cases e1; cases e2; exact ⟨_, rfl⟩
  obtain ⟨s3, e4⟩ : ∃ s3, step s2 .empty = .ok s3 := ⟨_, rfl⟩
  have hr : Runs s1 0 s3 := .other _ _ _ _ .empty (.other _ _ _ _ (.set 0 2 1 0 (fun k => k + 1)) (.refl _) trivial trivial (fun i e => by cases e) e3)
    trivial trivial (fun i e => by cases e) e4
  refine ⟨s, s1, s3, h1, ?_⟩
  cases e1; cases e2; cases e3; cases e4
  exact ⟨by decide, rfl, by decide, rfl, hr, by decide, by decide +kernel, by decide +kernel⟩

/-! ## C199: rows are copied -/

/-- C199 as one would wish it: rows of a tile are copied to rows of another. -/
def C199_full : Prop :=
  ∀ (s s' : St) (i j st ost n : Nat), Hist s → Unshared s i → 0 < n → ((s.tile i).nrow = 0 → st = 0) →
    step s (.copy i j st ost n) = .ok s' → Copies s s' i j st ost n

/-- C199, if the columns have cells of one element: given a number of rows, or none (a negative one), the rows are copied and the other rows
of the tile are as before; an empty tile gets its rows, format and identifier from the other.  Missing: columns of arrays, for which
it is false (`C199_refuted`), and tiles that share their memory (`C196_stray_write`). -/
theorem C199_partial (s s' : St) (i j st ost n : Nat) (num : Int) (f : List Col) (hh : Hist s) (hu : Unshared s i) (hn : 0 < n)
    (hf : (s.tile j).fmt = some f) (hsc : Scalar f) (hnum : num = n ∨ num < 0 ∧ ost + n = (s.tile j).nrow)
    (h0 : (s.tile i).nrow = 0 → st = 0) (hs : step s (.copy i j st ost num) = .ok s') : Copies s s' i j st ost n := by
  simp only [step] at hs
  split at hs
  · rename_i hij
    exact copies (hist_inv hh) hij.1 hij.2 hu hs hf hsc hn hnum h0
  · cases hs

/-- C199, whatever the columns: a whole tile is copied to an empty one, or to one of as many rows. -/
theorem C199_whole_partial (s s' : St) (i j : Nat) (num : Int) (hh : Hist s) (hu : Unshared s i)
    (hnum : num = (s.tile j).nrow ∨ num < 0) (hn : 0 < (s.tile j).nrow) (h0 : (s.tile i).nrow = 0 ∨ (s.tile i).nrow = (s.tile j).nrow)
    (hs : step s (.copy i j 0 0 num) = .ok s') :
    (s'.tile i).fmt = (s.tile j).fmt ∧ (s'.tile i).nrow = (s.tile j).nrow ∧ ∀ c e t k, get s' i c e t k = get s j c e t k := by
  simp only [step] at hs
  split at hs
  · rename_i hij
    exact copies_all (hist_inv hh) hij.1 hij.2 hu hs hnum hn h0
  · cases hs

/-- C199: rows are copied if the formats are equal and the rows exist on both sides. -/
theorem C199_completes (s : St) (i j st ost n : Nat) (f : List Col) (hh : Hist s) (hi : i < s.nt) (hj : j < s.nt) (hne : i ≠ j) (hu : Unshared s i)
    (hfi : (s.tile i).fmt = some f) (hf : (s.tile j).fmt = some f) (hn : 0 < n) (h1 : st + n ≤ (s.tile i).nrow) (h2 : ost + n ≤ (s.tile j).nrow)
    (hid : (s.tile i).id ≠ [] ∨ (s.tile j).id.length ≤ 16) : ∃ s', step s (.copy i j st ost n) = .ok s' := by
  simp only [step, if_pos (And.intro hi hj)]
  exact copy_ok (hist_inv hh) hi hj hne hu hfi hf hn h1 h2 hid

/-- C199: rows that do not exist are refused, on either side. -/
theorem C199_refuses (s : St) (i j : Nat) (st ost n : Int) (hne : i ≠ j) (hn : 0 ≤ n) (h : st < 0 ∨ ost < 0 ∨ ((s.tile j).nrow : Int) < ost + n ∨
    ((s.tile i).fmt.isSome ∧ 0 < (s.tile i).nrow ∧ 0 < n ∧ ((s.tile i).nrow : Int) < st + n)) (hu : Unshared s i) : step s (.copy i j st ost n) = .err := by
  simp only [step]
  split
  · rename_i hij
    unfold copy copyBase
    simp only [if_neg (show ¬ n < 0 by omega), if_neg hne]
    split
    · rfl
    · split
      · rfl
      · rename_i c1 c2
        have h' : (s.tile i).fmt.isSome ∧ 0 < (s.tile i).nrow ∧ 0 < n ∧ ((s.tile i).nrow : Int) < st + n := by
          rcases h with h | h | h | h
          · exact absurd (Or.inl h) c1
          · exact absurd (Or.inr h) c1
          · exact absurd h c2
          · exact h
        obtain ⟨g, hg⟩ := Option.isSome_iff_exists.mp h'.1
        cases hf : (s.tile j).fmt with
        | none => rfl
        | some f =>
          simp only [applyFormat, hg]
          split
          · rw [Res.ok_bind, if_neg (show ¬ n = 0 by omega), unshared_mw hu, Res.ok_bind]
            simp only [if_neg (show ¬ (s.tile i).nrow = 0 by omega), if_pos (show st + n > ((s.tile i).nrow : Int) from h'.2.2.2), Res.err_bind]
          · rfl
  · rfl

/-- Two tiles, a value in the second. -/
def scrambleOps : List Op := [.new exF 2, .new exF 2, .set 1 2 1 0 (fun _ => 5)]

theorem scramble_hist (s : St) (e : runOps St.init scrambleOps = .ok s) : Hist s := by
  simp only [scrambleOps, runOps] at e
  obtain ⟨s1, e1, e⟩ := Res.bind_eq_ok.mp e
  obtain ⟨s2, e2, e⟩ := Res.bind_eq_ok.mp e
  obtain ⟨s3, e3, e⟩ := Res.bind_eq_ok.mp e
  cases e
  exact .step _ _ (.set 1 2 1 0 (fun _ => 5)) (.step _ _ (.new exF 2) (hist_new exF 2 exF_ok _ e1) exF_ok trivial e2) trivial trivial e3

/-- A row of a column of arrays: the bytes at the start of the column are copied, which are elements of another row. -/
theorem C199_refuted : ¬ C199_full := by
  intro hF
  have h1 : (runOps St.init scrambleOps >>= fun s => get s 1 2 1 0 0) = .ok 5 := by decide +kernel
  have h2 : (runOps St.init scrambleOps >>= fun s => step s (.copy 0 1 0 0 1) >>= fun s => get s 0 2 1 0 0) = .ok 0 := by decide +kernel
  have h3 : (runOps St.init scrambleOps >>= fun s => Res.ok (s.nt, (s.tile 0).blk, (s.tile 1).blk, (s.tile 0).nrow, s.msgs.isEmpty)) =
      .ok (2, some 0, some 1, 2, true) := by decide +kernel
  obtain ⟨s, e1, g1⟩ := Res.bind_eq_ok.mp h1
  rw [e1, Res.ok_bind] at h2 h3
  obtain ⟨s1, e2, g2⟩ := Res.bind_eq_ok.mp h2
  simp only [Res.ok.injEq, Prod.mk.injEq, List.isEmpty_iff] at h3
  obtain ⟨q1, q2, q3, q4, q5⟩ := h3
  have hu : Unshared s 0 := by
    intro b hb
    rw [q2] at hb; cases hb
    refine ⟨fun j hj hne => ?_, fun m hm => by rw [q5] at hm; cases hm⟩
    have : j = 1 := by omega
    subst this
    rw [q3]; decide
  have := (hF s s1 0 1 0 0 1 (scramble_hist s e1) hu Nat.one_pos (fun _ => rfl) e2).2.2.2.1 2 1 0 0 Nat.one_pos
  simp only [Nat.add_zero] at this
  rw [g1, g2] at this
  cases this

/-- The first row is not checked if the tile is empty: the copy goes beyond the end of its memory. -/
theorem C199_start_unchecked : (runOps St.init [.new exS 2, .empty] >>= fun s => step s (.copy 1 0 3 0 2)) = .ub := rfl

/-- Nor is the row to start from, if no number of rows is given: the number is then negative, which is taken as "all rows". -/
theorem C199_other_start_unchecked : (runOps St.init [.new exS 2, .new exS 2] >>= fun s => step s (.copy 1 0 0 3 (-1))) = .ub := rfl

/-- A case that meets the hypotheses: the last of two rows is copied to the first of another tile. -/
example : ∃ s s', Hist s ∧ Unshared s 0 ∧ (s.tile 1).fmt = some exS ∧ Scalar exS ∧ (s.tile 0).nrow = 3 ∧ step s (.copy 0 1 0 1 1) = .ok s' ∧
    get s' 0 2 0 0 3 = .ok 4 ∧ get s' 0 2 0 1 3 = .ok 0 := by
  obtain ⟨s1, e1⟩ : ∃ s, step St.init (.new exS 3) = .ok s := ⟨_, rfl⟩
  have h1 := hist_new exS 3 exS_ok s1 e1
  obtain ⟨s2, e2⟩ : ∃ s2, step s1 (.new exS 2) = .ok s2 := by cases e1; exact ⟨_, rfl⟩
  have h2 : Hist s2 := .step _ _ (.new exS 2) h1 exS_ok trivial e2
  obtain ⟨s3, e3⟩ : ∃ s3, step s2 (.set 1 2 0 1 (fun k => k + 1)) = .ok s3 := by cases e1; cases e2; exact ⟨_, rfl⟩
  have h3 : Hist s3 := .step _ _ (.set 1 2 0 1 (fun k => k + 1)) h2 trivial trivial e3
  cases e1; cases e2; cases e3
  refine ⟨_, _, h3, ?_, rfl, exS_scalar, rfl, rfl, by decide +kernel, by decide +kernel⟩
  intro b hb
  cases hb
  refine ⟨fun j hj hne => ?_, fun m hm => by cases hm⟩
  have : j = 1 := by simp only [alloc, setT, St.init] at hj; omega
  subst this
  decide

/-! ## C200: rows are added -/

/-- C200 as one would wish it: rows that are added are zero, and those there were are kept. -/
def C200_full : Prop :=
  ∀ (s s' : St) (i : Nat) (n : Nat), Hist s → step s (.addRows i n) = .ok s' → Grows s s' i n

/-- C200, if the columns have cells of one element.  Missing: columns of arrays (`C200_refuted`). -/
theorem C200_partial (s s' : St) (i : Nat) (n : Nat) (f : List Col) (hh : Hist s) (hf : (s.tile i).fmt = some f) (hsc : Scalar f)
    (hs : step s (.addRows i n) = .ok s') : Grows s s' i n := by
  simp only [step] at hs
  split at hs
  · rename_i hi
    have := grows (hist_inv hh) hi hs hf hsc
    rwa [Int.toNat_natCast] at this
  · cases hs

/-- C200: rows can be added to a tile that has a format; a negative number of rows, or a tile without format, is refused. -/
theorem C200_completes (s : St) (i : Nat) (n : Int) (hh : Hist s) (hi : i < s.nt) :
    (((s.tile i).fmt = none ∨ n < 0) → step s (.addRows i n) = .err) ∧
    ∀ f, (s.tile i).fmt = some f → 0 ≤ n → (0 < n ∨ 0 < (s.tile i).nrow) → ∃ s', step s (.addRows i n) = .ok s' := by
  simp only [step, if_pos hi]
  refine ⟨fun h => ?_, fun f hf hn hp => addRows_ok (hist_inv hh) hi hf hn hp⟩
  unfold addRows addRowsBase
  rcases h with h | h
  · rw [h]; rfl
  · cases (s.tile i).fmt with
    | none => rfl
    | some f => simp only [if_neg (show ¬ n = 0 by omega), if_pos h, Res.err_bind]

/-- A column of arrays is out of order when rows have been added: the bytes are kept, the place of an element depends on the number of rows. -/
theorem C200_refuted : ¬ C200_full := by
  intro hF
  have h1 : (runOps St.init scrambleOps >>= fun s => get s 1 2 1 0 0) = .ok 5 := by decide +kernel
  have h2 : (runOps St.init scrambleOps >>= fun s => step s (.addRows 1 1) >>= fun s => get s 1 2 1 0 0) = .ok 0 := by decide +kernel
  have h3 : (runOps St.init scrambleOps >>= fun s => Res.ok (s.tile 1).nrow) = .ok 2 := by decide +kernel
  obtain ⟨s, e1, g1⟩ := Res.bind_eq_ok.mp h1
  rw [e1, Res.ok_bind] at h2 h3
  obtain ⟨s1, e2, g2⟩ := Res.bind_eq_ok.mp h2
  simp only [Res.ok.injEq] at h3
  have := (hF s s1 1 1 (scramble_hist s e1) e2).2.2.2.1 2 1 0 0 (by omega)
  rw [g1, g2] at this
  cases this

/-- A case that meets the hypotheses: two rows are added to one. -/
example : ∃ s s', Hist s ∧ (s.tile 0).fmt = some exS ∧ Scalar exS ∧ step s (.addRows 0 2) = .ok s' ∧ (s'.tile 0).nrow = 3 ∧
    get s' 0 2 0 0 3 = .ok 4 ∧ get s' 0 2 0 2 3 = .ok 0 := by
  obtain ⟨s1, e1⟩ : ∃ s, step St.init (.new exS 1) = .ok s := ⟨_, rfl⟩
  have h1 := hist_new exS 1 exS_ok s1 e1
  obtain ⟨s3, e3⟩ : ∃ s3, step s1 (.set 0 2 0 0 (fun k => k + 1)) = .ok s3 := by cases e1; exact ⟨_, rfl⟩
  have h3 : Hist s3 := .step _ _ (.set 0 2 0 0 (fun k => k + 1)) h1 trivial trivial e3
  cases e1; cases e3
  exact ⟨_, _, h3, rfl, exS_scalar, rfl, rfl, by decide +kernel, by decide +kernel⟩

/-! ## C201: the format is changed -/

/-- C201 as one would wish it: a tile with rows can get another format; columns that are the same in both are kept, others are zero. -/
def C201_full : Prop :=
  ∀ (s : St) (i : Nat) (f g : List Col), Hist s → i < s.nt → FmtOk g → (s.tile i).fmt = some f → 0 < (s.tile i).nrow →
    ∃ s', step s (.changeFormat i g) = .ok s' ∧ Reformats s s' i g

/-- C201, if columns that both formats define, and that have equal shapes, have equal types.  Missing: columns whose type changes
and shape does not (`C201_refuted`). -/
theorem C201_partial (s : St) (i : Nat) (f g : List Col) (hh : Hist s) (hi : i < s.nt) (hg : FmtOk g) (hf : (s.tile i).fmt = some f)
    (hn : 0 < (s.tile i).nrow) (hst : SameTypes f g) : ∃ s', step s (.changeFormat i g) = .ok s' ∧ Reformats s s' i g := by
  simp only [step, if_pos hi]
  obtain ⟨s', hs'⟩ := changeFormat_ok (hist_inv hh) hi hg hf hst hn
  exact ⟨s', hs', reformats (hist_inv hh) hi hg hs' hf hst hn⟩

/-- The bytes of the old column are copied, though its elements are larger than those of the new one. -/
theorem C201_refuted : ¬ C201_full := by
  intro hF
  have h2 : step St.init (.new [⟨2, 8, []⟩] 1) >>= (fun s => step s (.changeFormat 0 [⟨1, 4, []⟩])) = .ub := rfl
  obtain ⟨s, e1⟩ : ∃ s, step St.init (.new [⟨2, 8, []⟩] 1) = .ok s := ⟨_, rfl⟩
  rw [e1, Res.ok_bind] at h2
  have hh := hist_new _ _ (by intro c hc; simp only [List.mem_cons, List.not_mem_nil, or_false] at hc; subst hc; decide) _ e1
  obtain ⟨s', e, _⟩ := hF s 0 [⟨2, 8, []⟩] [⟨1, 4, []⟩] hh (by cases e1; decide)
    (by intro c hc; simp only [List.mem_cons, List.not_mem_nil, or_false] at hc; subst hc; decide) (by cases e1; rfl) (by cases e1; decide)
  rw [h2] at e
  cases e

/-- A case that meets the hypotheses: a column is kept, though it moves, one is added and one is left out. -/
example : ∃ s, Hist s ∧ 0 < s.nt ∧ (s.tile 0).fmt = some exF ∧ 0 < (s.tile 0).nrow ∧ SameTypes exF [⟨0, 0, []⟩, ⟨3, 16, []⟩, ⟨2, 8, [2]⟩] ∧
    (step s (.changeFormat 0 [⟨0, 0, []⟩, ⟨3, 16, []⟩, ⟨2, 8, [2]⟩]) >>= fun s => get s 0 2 1 0 3) = .ok 4 := by
  obtain ⟨s1, e1⟩ : ∃ s, step St.init (.new exF 2) = .ok s := ⟨_, rfl⟩
  have h1 := hist_new exF 2 exF_ok s1 e1
  obtain ⟨s3, e3⟩ : ∃ s3, step s1 (.set 0 2 1 0 (fun k => k + 1)) = .ok s3 := by cases e1; exact ⟨_, rfl⟩
  have h3 : Hist s3 := .step _ _ (.set 0 2 1 0 (fun k => k + 1)) h1 trivial trivial e3
  cases e1; cases e3
  refine ⟨_, h3, by decide, rfl, by decide, ?_, by decide +kernel⟩
  intro c a b ha hb h0 h0' he
  match c, ha, hb with
  | 0, ha, hb => cases ha; cases hb; exact absurd rfl h0'
  | 1, ha, hb => cases ha; cases hb; exact absurd rfl h0
  | 2, ha, hb => cases ha; cases hb; rfl

/-! ## Identifiers -/

/-- C200: an identifier of at most 16 parts is set, and nothing else is changed, if the tile's memory is not shared. -/
theorem C200_identifier (s : St) (i : Nat) (id : List Int) (hh : Hist s) (hi : i < s.nt) (hu : Unshared s i) (hl : id.length ≤ 16) :
    ∃ s', step s (.setTileId i id) = .ok s' ∧ (s'.tile i).id = id ∧ (s'.tile i).fmt = (s.tile i).fmt ∧ (s'.tile i).nrow = (s.tile i).nrow ∧
      ∀ c e t k, get s' i c e t k = get s i c e t k := by
  have h := hist_inv hh
  have : ∃ s', setTileId s i id = .ok s' := by
    unfold setTileId
    rw [unshared_mw hu, Res.ok_bind]
    simp only [if_neg (show ¬ id.length > 16 by omega)]
    split <;> exact ⟨_, rfl⟩
  obtain ⟨s', hs'⟩ := this
  obtain ⟨a1, a2, a3, a4, a5⟩ := setTileId_spec (h.toB i) hi hu hs'
  have hI := a1.full (by rw [a4]; exact ⟨(h.tiles i).2.1, (h.tiles i).2.2⟩)
  refine ⟨s', by simp only [step, if_pos hi]; exact hs', by rw [a4], by rw [a4], by rw [a4], fun c e t k => ?_⟩
  rw [get_view hI (by rw [a2.nt]; exact hi), get_view h hi]
  exact view_congr (by rw [a4]) (by rw [a4]) (fun e => by rw [a4]; exact e) (fun b e => ⟨b, by rw [a4]; exact e, by rw [a5]⟩) c e t k

/-- C200: a tile that is dropped is empty, and can be used again. -/
theorem C200_dropped (s : St) (i : Nat) (hi : i < s.nt) :
    ∃ s', step s (.drop i) = .ok s' ∧ (s'.tile i).fmt = none ∧ (s'.tile i).nrow = 0 ∧ (s'.tile i).id = [] ∧ (s'.tile i).blk = none := by
  refine ⟨_, by simp only [step, if_pos hi]; rfl, ?_⟩
  simp only [setT, if_true]
  exact ⟨rfl, rfl, rfl, rfl⟩

end Verif.VTile
