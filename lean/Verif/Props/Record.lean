import Verif.Proof.Record
/-! Properties C12, C13, C61, C62: records. -/
namespace Verif.Record
open Assoc Spec
variable {V : Type}

/-- **C12.** For every history of calls on a record, failing ones included, the record shows what the
abstract finite map shows. -/
theorem C12_record_is_finite_map (ops : List (Op V)) (h : ∀ o ∈ ops, OpOk o) :
    Steps (fun _ => none) ops (view (run ops)) := run_spec ops h

/-- **C12.** Reading a field returns exactly what the abstract map holds, an unknown field or a null
identifier is an exception (or an empty reference if the caller asked to ignore that), and reading changes
nothing. -/
theorem C12_get (r : Rec V) (id : List Int) (i : Bool) :
    (id = [] → get r id i = none) ∧
    (id ≠ [] → view r id = none → get r id i = if i then some (none, r) else none) ∧
    (id ≠ [] → ∀ v p, view r id = some (v, p) → ∃ r', get r id i = some (v, r') ∧ view r' = view r) := by
  refine ⟨fun h => by simp [get, h], fun h0 h => ?_, fun h0 v p h => ?_⟩
  · cases hf : find r id with
    | none => simp [get, h0, hf]
    | some f => rw [view_find hf] at h; cases h
  · cases hf : find r id with
    | none => rw [view_none hf] at h; cases h
    | some f =>
      rw [view_find hf] at h
      refine ⟨set r id f.ref.2, ?_, ?_⟩
      · simp only [get, if_neg h0, hf, ref_fst]
        simp at h
        rw [h.1]
      · rw [view_set, ref_view]
        funext k
        simp only [upd]
        split
        · rename_i e; subst e; rw [view_find hf]; rfl
        · rfl

/-- The call may change field `id`. -/
def Touches (id : List Int) : Op V → Prop
  | .add k _ _ => k = id
  | .protect _ _ => False
  | .removeField k _ _ => k = id
  | .remove k => k = id
  | .get _ _ => False
  | .clear => True
  | .merge _ _ => True
  | .load k _ => k = id

theorem step_untouched {r : Rec V} (hn : (keys r).Nodup) {id : List Int} {o : Op V} (ho : OpOk o)
    (ht : ¬ Touches id o) {v : Option V} {p : Bool} (h : view r id = some (v, p)) :
    ∃ p', view (step r o).1 id = some (v, p') := by
  have s := step_spec hn o ho
  revert s
  generalize view (step r o).1 = m'
  generalize (step r o).2 = b
  intro s
  have ne : ∀ k x, k ≠ id → upd (view r) k x id = view r id := by
    intro k x hk; simp [upd, Ne.symm hk]
  cases s with
  | add_new _ _ => exact ⟨p, by rw [ne _ _ ht]; exact h⟩
  | add_over _ _ _ _ => exact ⟨p, by rw [ne _ _ ht]; exact h⟩
  | add_null => exact ⟨p, h⟩
  | add_protected _ _ => exact ⟨p, h⟩
  | add_exists _ _ => exact ⟨p, h⟩
  | @protect k q x q' hk hx =>
    by_cases e : id = k
    · subst e; rw [h] at hx; cases hx; exact ⟨q, by simp [upd]⟩
    · exact ⟨p, by simp [upd, e, h]⟩
  | protect_fail _ => exact ⟨p, h⟩
  | removeField _ _ _ => exact ⟨p, by rw [ne _ _ ht]; exact h⟩
  | removeField_none _ _ => exact ⟨p, h⟩
  | removeField_missing _ => exact ⟨p, h⟩
  | removeField_null => exact ⟨p, h⟩
  | removeField_protected _ => exact ⟨p, h⟩
  | remove _ _ => exact ⟨p, by rw [ne _ _ ht]; exact h⟩
  | remove_none _ _ => exact ⟨p, h⟩
  | remove_fail _ => exact ⟨p, h⟩
  | get => exact ⟨p, h⟩
  | clear => exact absurd trivial ht
  | merge_keep => exact absurd trivial ht
  | merge_over _ => exact absurd trivial ht
  | merge_fail _ _ _ => exact absurd trivial ht
  | load => exact ⟨p, by rw [ne _ _ ht]; exact h⟩

/-- **C12.** The value last stored under an identifier is read back: after any history, a successful
`add`/`replace` and any further calls that do not store into, remove, clear or merge that field, `get`
returns the stored value. -/
theorem C12_last_value (before after : List (Op V)) (id : List Int) (v : Option V) (fl : Flags) (i : Bool)
    (ha : ∀ o ∈ after, OpOk o) (ht : ∀ o ∈ after, ¬ Touches id o)
    (hok : (step (run before) (.add id v fl)).2 = true) :
    ∃ r', get (run (before ++ [.add id v fl] ++ after)) id i = some (v, r') := by
  have key : ∃ p, view (run (before ++ [.add id v fl] ++ after)) id = some (v, p) := by
    induction after using List.reverseRecOn with
    | nil =>
      rw [List.append_nil, run_snoc]
      have s := step_spec (run_nodup before) (.add id v fl) trivial
      revert s hok
      generalize view (step (run before) (.add id v fl)).1 = m'
      generalize (step (run before) (.add id v fl)).2 = b
      intro hok s
      cases s with
      | add_new _ _ => exact ⟨fl.protect, by simp [upd]⟩
      | add_over _ _ _ _ => exact ⟨fl.protect, by simp [upd]⟩
      | add_null => cases hok
      | add_protected _ _ => cases hok
      | add_exists _ _ => cases hok
    | append_singleton after o ih =>
      obtain ⟨p, hp⟩ := ih (fun o' h => ha o' (by simp [h])) (fun o' h => ht o' (by simp [h]))
      rw [← List.append_assoc, run_snoc]
      exact step_untouched (run_nodup _) (ha o (by simp)) (ht o (by simp)) hp
  obtain ⟨p, hp⟩ := key
  have hid : id ≠ [] := by
    rintro rfl
    simp [step, addField] at hok
  obtain ⟨r', h1, -⟩ := (C12_get (run (before ++ [.add id v fl] ++ after)) id i).2.2 hid v p hp
  exact ⟨r', h1⟩

/-- A history with a replacement in the middle, then an unrelated insertion. -/
example : (step (run [.add [3] (some 10) {}]) (.add [3] (some 11) { replace := true })).2 = true ∧
    ¬ Touches [3] (.add [4] (some 9) {} : Op Nat) ∧
    view (run ([.add [3] (some 10) {}] ++ [.add [3] (some 11) { replace := true }] ++ [.add [4] (some 9) {}])) [3]
      = some (some 11, false) := by
  refine ⟨rfl, by simp [Touches], rfl⟩

/-- **C13.** Merging without overwriting adds exactly the other's missing fields; merging with
overwriting succeeds iff no field of the other is protected here, and then the other's fields win. -/
theorem C13_merge_union (r o : Rec V) (h : (keys o).Nodup) :
    (∃ r', merge r o false = .ok r' ∧ ∀ id, view r' id = match view r id with | some x => some x | none => view o id) ∧
    ((∃ r', merge r o true = .ok r') ↔ ¬ ∃ id v w, view r id = some (v, true) ∧ view o id = some w) ∧
    (∀ r', merge r o true = .ok r' → ∀ id, view r' id = match view o id with | some x => some x | none => view r id) := by
  have h1 := mergeLoop_spec false o h r
  have h2 := mergeLoop_spec true o h r
  refine ⟨?_, ?_, ?_⟩
  · cases hm : mergeLoop false o r with
    | ok r' => rw [hm] at h1; exact ⟨r', hm, fun id => by rw [h1.1]; rfl⟩
    | error r' => rw [hm] at h1; exact absurd h1.1 (by simp)
  · unfold merge
    cases hm : mergeLoop true o r with
    | ok r' => rw [hm] at h2; exact ⟨fun _ => h2.2 rfl, fun _ => ⟨r', rfl⟩⟩
    | error r' =>
      rw [hm] at h2
      constructor
      · intro hx
        obtain ⟨r2, e⟩ := hx
        cases e
      · intro hn
        exact absurd h2.2.1 hn
  · intro r' e id
    unfold merge at e
    rw [e] at h2
    rw [h2.1]; rfl

/-- **C13.** A protected field of the target is never altered, whether the merge succeeds or fails. -/
theorem C13_merge_protected (r o r' : Rec V) (w : Bool) (h : (keys o).Nodup)
    (hr : merge r o w = .ok r' ∨ merge r o w = .error r') (id : List Int) (v : Option V)
    (hp : view r id = some (v, true)) : view r' id = some (v, true) := by
  have h1 := mergeLoop_spec w o h r
  rcases hr with hr | hr
  · unfold merge at hr
    rw [hr] at h1
    rw [h1.1]
    simp only [union]
    cases w
    · simp [hp]
    · cases ho : view o id with
      | none => simp [hp]
      | some x => exact absurd ⟨id, v, x, hp, ho⟩ (h1.2 rfl)
  · unfold merge at hr
    rw [hr] at h1
    rw [h1.2.2.2 id v hp, hp]

/-- A failing merge that has already taken over one field, and a succeeding one. -/
example : let r : Rec Nat := [([1], ⟨some 5, none, true⟩), ([2], ⟨some 6, none, false⟩)]
    let o : Rec Nat := [([2], ⟨some 7, none, false⟩), ([1], ⟨some 8, none, false⟩), ([3], ⟨none, some 9, true⟩)]
    (keys o).Nodup ∧
    merge r o true = .error [([1], ⟨some 5, none, true⟩), ([2], ⟨some 7, none, false⟩)] ∧
    merge r o false = .ok [([1], ⟨some 5, none, true⟩), ([2], ⟨some 6, none, false⟩), ([3], ⟨none, some 9, true⟩)] := by
  refine ⟨by decide, rfl, rfl⟩

/-- **C13**, what one would want of a failing merge: it changes nothing. -/
def C13_merge_atomic_full : Prop := ∀ (r o r' : Rec Nat) (w : Bool), merge r o w = .error r' → r' = r

/-- It does not: fields met before the protected one have been overwritten. -/
theorem C13_merge_atomic_refuted : ¬ C13_merge_atomic_full := by
  intro h
  have := h [([1], ⟨some 5, none, true⟩), ([2], ⟨some 6, none, false⟩)]
    [([2], ⟨some 7, none, false⟩), ([1], ⟨some 8, none, false⟩)]
    [([1], ⟨some 5, none, true⟩), ([2], ⟨some 7, none, false⟩)] true rfl
  simp at this

/-- **C61**, full statement: removing a field hands its value to the caller. -/
def C61_removed_value_full : Prop := ∀ (r : Rec Nat) (id : List Int) (v : Nat) (x : Option Nat) (r' : Rec Nat),
  view r id = some (some v, false) → removeField r id false true = some (x, r') → x = some v

/-- **C61** is false: a field put in with `add` is lost on removal (`Field::xfer` drops the object). -/
theorem C61_removed_value_refuted : ¬ C61_removed_value_full := by
  intro h
  have := h (run [.add [3] (some 10) {}]) [3] 10 none [] rfl rfl
  cases this

/-- **C61**, the part that holds: the value is handed over if the field is still packed, as after reading
the record from blocks.  Missing: fields that hold an object. -/
theorem C61_removed_value_partial (r : Rec V) (id : List Int) (f : Field V) (v : V) (i h : Bool) (hid : id ≠ [])
    (hf : find r id = some f) (hp : f.packed = some v) (hpr : f.prot = true → h = false) :
    removeField r id i h = some (some v, erase r id) := by
  have : ¬ (f.prot && h) = true := by
    cases hq : f.prot
    · simp
    · simp [hpr hq]
  simp only [removeField, if_neg hid, hf, if_neg this, Field.xfer, makeObject, hp]

/-- A packed field is handed over. -/
example : removeField (run [.load [3] 10]) [3] false true = some (some 10, []) := rfl

/-- **C62**, full statement: reading a field by number never is undefined behaviour. -/
def C62_by_number_full : Prop := ∀ (r : Rec Nat) (n : Int), getInfo r [Hiid.aidHash, n] false ≠ .ub

/-- **C62** is false: with `#0` on a one-field record the code walks an iterator it never initialised. -/
theorem C62_by_number_refuted : ¬ C62_by_number_full := by
  intro h
  exact h (run [.add [3] (some 10) {}]) 0 rfl

/-- **C62**, the part that holds: a number that is no field's is reported, and access by name returns the
field's value unless it is written to while protected.  Missing: numbers of existing fields. -/
theorem C62_access_partial (r : Rec V) (id : List Int) (w : Bool) (hid : id ≠ [])
    (h : ∀ n, id = [Hiid.aidHash, n] → ¬ (0 ≤ n ∧ n < r.length)) :
    (∀ n, id = [Hiid.aidHash, n] → 0 ≤ n → getInfo r id w = if n = r.length then .ok none else .err) ∧
    ((∀ n, id = [Hiid.aidHash, n] → n < 0) →
      getInfo r id w = match view r id with
        | none => .ok none
        | some (v, p) => if w && p then .err else .ok (some v)) := by
  constructor
  · rintro n rfl hn
    have := h n rfl
    simp only [getInfo, Hiid.index, if_pos hn]
    by_cases e : n = r.length
    · simp [e]
    · have : n > r.length := by omega
      simp [e, this]
      intro; omega
  · intro hn
    have e : getInfo r id w = getInfo.byName w r id := by
      unfold getInfo
      split
      · exact absurd rfl hid
      · split
        · rename_i h' n hne
          by_cases e : h' = Hiid.aidHash
          · subst e
            have := hn n rfl
            have hx : ¬ Hiid.index n ≥ 0 := by unfold Hiid.index; split <;> omega
            simp [hx]
          · simp [e]
        · rfl
    rw [e]
    simp only [getInfo.byName]
    cases hf : find r id with
    | none => simp [view_none hf]
    | some f => simp only [view_find hf, ref_fst]

/-- Access by name, and by a number past the end. -/
example : let r : Rec Nat := run [.add [3] (some 10) { protect := true }]
    getInfo r [3] false = .ok (some (some 10)) ∧ getInfo r [3] true = .err ∧ getInfo r [Hiid.aidHash, 2] false = .err := by
  refine ⟨rfl, rfl, rfl⟩

end Verif.Record
