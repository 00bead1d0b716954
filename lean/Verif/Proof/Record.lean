import Verif.Spec.Record
import Verif.Proof.Assoc
import Mathlib.Data.List.Induction
/-! Lemmas about records. -/
namespace Verif.Record
open Assoc Spec
variable {V : Type}

theorem view_set (r : Rec V) (id : List Int) (f : Field V) : view (set r id f) = upd (view r) id (some (fieldView f)) := by
  funext k
  simp only [view, find_set, upd]
  split <;> simp

theorem view_erase {r : Rec V} (h : (keys r).Nodup) (id : List Int) : view (erase r id) = upd (view r) id none := by
  funext k
  simp only [view, find_erase h, upd]
  split <;> simp

theorem view_find {r : Rec V} {id : List Int} {f : Field V} (h : find r id = some f) :
    view r id = some ((fieldView f).1, f.prot) := by
  simp [view, h, fieldView]

theorem view_none {r : Rec V} {id : List Int} (h : find r id = none) : view r id = none := by
  simp [view, h]

theorem ref_fst (f : Field V) : f.ref.1 = (fieldView f).1 := by
  obtain ⟨o, p, b⟩ := f
  cases o <;> cases p <;> rfl

theorem ref_view (f : Field V) : fieldView f.ref.2 = fieldView f := by
  obtain ⟨o, p, b⟩ := f
  cases o <;> cases p <;> rfl

/-- The union a merge produces. -/
def union (w : Bool) (m o : Map V) : Map V := fun id =>
  if w then (match o id with | some x => some x | none => m id)
  else (match m id with | some x => some x | none => o id)

theorem mergeLoop_nodup (w : Bool) (o : Rec V) : ∀ r : Rec V, (keys r).Nodup →
    match mergeLoop w o r with | .ok r' => (keys r').Nodup | .error r' => (keys r').Nodup := by
  induction o with
  | nil => intro r h; exact h
  | cons p o ih =>
    obtain ⟨id, g⟩ := p
    intro r h
    simp only [mergeLoop]
    cases hf : find r id with
    | none => exact ih _ (nodup_set h _ _)
    | some f =>
      simp only
      by_cases h1 : (w && f.prot) = true
      · rw [if_pos h1]; exact h
      · rw [if_neg h1]
        by_cases h2 : w = true
        · rw [if_pos h2]; exact ih _ (nodup_set h _ _)
        · rw [if_neg h2]; exact ih _ h

theorem view_cons_of_notMem {id : List Int} {g : Field V} {o : Rec V} {k : List Int} (h : k ≠ id) :
    view ((id, g) :: o) k = view o k := by
  simp [view, find, Ne.symm h]

theorem view_cons_self {id : List Int} {g : Field V} {o : Rec V} :
    view ((id, g) :: o) id = some (fieldView g) := by
  simp [view, find]

theorem mergeLoop_spec (w : Bool) (o : Rec V) : (keys o).Nodup → ∀ r : Rec V,
    match mergeLoop w o r with
    | .ok r' => view r' = union w (view r) (view o) ∧ (w = true → ¬ Blocked (view r) (view o))
    | .error r' => w = true ∧ Blocked (view r) (view o)
        ∧ (∀ id, view r' id = view r id ∨ view r' id = view o id ∧ (view o id).isSome)
        ∧ (∀ id v, view r id = some (v, true) → view r' id = view r id) := by
  induction o with
  | nil =>
    intro _ r
    simp only [mergeLoop]
    refine ⟨?_, ?_⟩
    · funext id; simp only [union, view, find, Option.map_none]; cases w <;> simp; cases find r id <;> rfl
    · rintro - ⟨id, v, x, -, h⟩; simp [view, find] at h
  | cons p o ih =>
    obtain ⟨id, g⟩ := p
    intro hn r
    have hid : id ∉ keys o := (List.nodup_cons.1 hn).1
    have hno := (List.nodup_cons.1 hn).2
    have hoid : view o id = none := view_none ((find_eq_none _ _).2 hid)
    -- the step that stores the other's field
    have store : (w = true ∨ view r id = none) → (∀ v, view r id ≠ some (v, true)) →
        match mergeLoop w o (set r id g) with
        | .ok r' => view r' = union w (view r) (view ((id, g) :: o)) ∧ (w = true → ¬ Blocked (view r) (view ((id, g) :: o)))
        | .error r' => w = true ∧ Blocked (view r) (view ((id, g) :: o))
          ∧ (∀ k, view r' k = view r k ∨ view r' k = view ((id, g) :: o) k ∧ (view ((id, g) :: o) k).isSome)
          ∧ (∀ k v, view r k = some (v, true) → view r' k = view r k) := by
      intro hw hp
      have := ih hno (set r id g)
      cases hm : mergeLoop w o (set r id g) with
      | ok r' =>
        rw [hm] at this
        simp only at this ⊢
        obtain ⟨e, nb⟩ := this
        refine ⟨?_, ?_⟩
        · rw [e]
          funext k
          by_cases hk : k = id
          · subst hk
            simp only [union, view_set, upd, if_true, hoid, view_cons_self]
            rcases hw with hw | hw
            · simp [hw]
            · simp [hw]
          · simp only [union, view_set, upd, if_neg hk, view_cons_of_notMem hk]
        · intro hw' ⟨k, v, x, h1, h2⟩
          by_cases hk : k = id
          · subst hk; exact hp v h1
          · refine nb hw' ⟨k, v, x, ?_, ?_⟩
            · rw [view_set]; simp only [upd, if_neg hk]; exact h1
            · rw [← h2, view_cons_of_notMem hk]
      | error r' =>
        rw [hm] at this
        simp only at this ⊢
        obtain ⟨hw', ⟨k, v, x, h1, h2⟩, h3, h4⟩ := this
        have hkid : k ≠ id := by rintro rfl; rw [hoid] at h2; simp at h2
        refine ⟨hw', ⟨k, v, x, ?_, ?_⟩, ?_, ?_⟩
        · rw [view_set] at h1; simpa only [upd, if_neg hkid] using h1
        · rw [view_cons_of_notMem hkid]; exact h2
        · intro j
          by_cases hj : j = id
          · subst hj
            right
            have := h3 j
            simp only [view_set, upd, if_true, hoid] at this
            rw [view_cons_self]
            simpa using this
          · have := h3 j
            simp only [view_set, upd, if_neg hj] at this
            rw [view_cons_of_notMem hj]
            exact this
        · intro j v' hj
          by_cases hjid : j = id
          · subst hjid; exact absurd hj (hp v')
          · have := h4 j v'
            simp only [view_set, upd, if_neg hjid] at this
            exact this hj
    simp only [mergeLoop]
    cases hf : find r id with
    | none => exact store (Or.inr (view_none hf)) (by intro v; rw [view_none hf]; simp)
    | some f =>
      simp only
      by_cases h1 : (w && f.prot) = true
      · rw [if_pos h1]
        simp only [Bool.and_eq_true] at h1
        refine ⟨h1.1, ⟨id, (fieldView f).1, fieldView g, ?_, view_cons_self⟩, fun k => Or.inl rfl, fun _ _ _ => rfl⟩
        rw [view_find hf, h1.2]
      · rw [if_neg h1]
        by_cases h2 : w = true
        · rw [if_pos h2]
          refine store (Or.inl h2) ?_
          intro v
          rw [view_find hf]
          simp [h2] at h1
          simp [h1]
        · rw [if_neg h2]
          have hwf : w = false := by simpa using h2
          subst hwf
          have := ih hno r
          cases hm : mergeLoop false o r with
          | ok r' =>
            rw [hm] at this
            simp only at this ⊢
            refine ⟨?_, by simp⟩
            rw [this.1]
            funext k
            by_cases hk : k = id
            · subst hk; simp [union, view_find hf]
            · simp only [union, view_cons_of_notMem hk]
          | error r' =>
            rw [hm] at this
            exact absurd this.1 (by simp)

theorem step_nodup {r : Rec V} (h : (keys r).Nodup) (o : Op V) : (keys (step r o).1).Nodup := by
  cases o with
  | add id v fl =>
    simp only [step, addField]
    by_cases h0 : id = []
    · simp [h0, h]
    · simp only [if_neg h0]
      cases hf : find r id with
      | none => exact nodup_set h _ _
      | some f =>
        simp only
        split
        · rename_i r' e
          split at e
          · cases e
          · split at e
            · cases e
            · cases e; exact nodup_set h _ _
        · exact h
  | protect id p =>
    simp only [step, protectField]
    by_cases h0 : id = []
    · simp [h0, h]
    · simp only [if_neg h0]
      cases hf : find r id with
      | none => exact h
      | some f => exact nodup_set h _ _
  | removeField id i hh =>
    simp only [step, removeField]
    by_cases h0 : id = []
    · simp [h0, h]
    · simp only [if_neg h0]
      cases hf : find r id with
      | none => simp only; cases i <;> simp [h]
      | some f =>
        simp only
        by_cases hp : (f.prot && hh) = true
        · simp only [hp, if_true]; exact h
        · simp only [hp]; exact nodup_erase h _
  | remove id =>
    simp only [step, remove]
    by_cases h0 : id = []
    · simp [h0, h]
    · simp only [if_neg h0]
      cases hf : find r id with
      | none => exact h
      | some f =>
        simp only
        cases hp : f.prot
        · exact nodup_erase h _
        · exact h
  | get id i =>
    simp only [step, get]
    by_cases h0 : id = []
    · simp [h0, h]
    · simp only [if_neg h0]
      cases hf : find r id with
      | none => simp only; cases i <;> simp [h]
      | some f => exact nodup_set h _ _
  | clear => simp [step, keys]
  | merge o w =>
    have := mergeLoop_nodup w o r h
    simp only [step, merge]
    cases hm : mergeLoop w o r with
    | ok r' => rw [hm] at this; exact this
    | error r' => rw [hm] at this; exact this
  | load id v => exact nodup_set h _ _

theorem step_spec {r : Rec V} (h : (keys r).Nodup) (o : Op V) (ho : OpOk o) :
    Step (view r) o (view (step r o).1) (step r o).2 := by
  cases o with
  | add id v fl =>
    simp only [step, addField]
    by_cases h0 : id = []
    · subst h0; simp only [if_true]; exact Step.add_null
    · simp only [if_neg h0]
      cases hf : find r id with
      | none =>
        simp only [view_set, Field.attach]
        exact Step.add_new h0 (view_none hf) |> fun s => by
          have e : fieldView (⟨v, none, fl.protect⟩ : Field V) = (v, fl.protect) := by cases v <;> rfl
          rw [e]; exact s
      | some f =>
        simp only
        by_cases hp : (f.prot && fl.honor) = true
        · simp only [hp, if_true]
          simp only [Bool.and_eq_true] at hp
          refine Step.add_protected (x := (fieldView f).1) ?_ hp.2
          rw [view_find hf, hp.1]
        · rw [if_neg hp]
          cases hr : fl.replace with
          | false => simp only [Bool.not_false, if_true]; exact Step.add_exists (view_find hf) hr
          | true =>
            simp only [Bool.not_true, Bool.false_eq_true, if_false, view_set, Field.attach]
            have e : fieldView (⟨v, none, fl.protect⟩ : Field V) = (v, fl.protect) := by cases v <;> rfl
            rw [e]
            refine Step.add_over h0 (view_find hf) ?_ hr
            intro hpp
            cases hh : fl.honor
            · rfl
            · rw [hpp, hh] at hp; exact absurd rfl hp
  | protect id p =>
    simp only [step, protectField]
    by_cases h0 : id = []
    · simp only [h0, if_true]; exact Step.protect_fail (Or.inl rfl)
    · simp only [if_neg h0]
      cases hf : find r id with
      | none => exact Step.protect_fail (Or.inr (view_none hf))
      | some f =>
        simp only [view_set]
        have e : fieldView (⟨f.obj, f.packed, p⟩ : Field V) = ((fieldView f).1, p) := rfl
        rw [e]
        exact Step.protect h0 (view_find hf)
  | removeField id i hh =>
    simp only [step, removeField]
    by_cases h0 : id = []
    · subst h0; simp only [if_true]; exact Step.removeField_null
    · simp only [if_neg h0]
      cases hf : find r id with
      | none =>
        cases i
        · exact Step.removeField_missing (Or.inr (view_none hf))
        · exact Step.removeField_none h0 (view_none hf)
      | some f =>
        simp only
        by_cases hp : (f.prot && hh) = true
        · simp only [hp, if_true]
          simp only [Bool.and_eq_true] at hp
          rw [hp.2]
          refine Step.removeField_protected (x := (fieldView f).1) ?_
          rw [view_find hf, hp.1]
        · rw [if_neg hp]
          simp only [view_erase h]
          refine Step.removeField h0 (view_find hf) ?_
          intro hpp
          cases hh
          · rfl
          · rw [hpp] at hp; exact absurd rfl hp
  | remove id =>
    simp only [step, remove]
    by_cases h0 : id = []
    · simp only [h0, if_true]; exact Step.remove_fail (x := none) (Or.inl rfl)
    · simp only [if_neg h0]
      cases hf : find r id with
      | none => exact Step.remove_none h0 (view_none hf)
      | some f =>
        simp only
        cases hp : f.prot
        · simp only [Bool.false_eq_true, if_false, view_erase h]
          refine Step.remove (x := (fieldView f).1) h0 ?_
          rw [view_find hf, hp]
        · refine Step.remove_fail (x := (fieldView f).1) (Or.inr ?_)
          rw [view_find hf, hp]
  | get id i =>
    have key : ∀ b m', b = (decide (id ≠ []) && (i || ((view r) id).isSome)) → m' = view r →
        Step (view r) (.get id i) m' b := by rintro b m' rfl rfl; exact Step.get
    simp only [step, get]
    by_cases h0 : id = []
    · subst h0; exact key false _ (by simp) rfl
    · simp only [if_neg h0]
      cases hf : find r id with
      | none =>
        cases i
        · exact key _ _ (by simp [view_none hf]) rfl
        · exact key _ _ (by simp [h0]) rfl
      | some f =>
        refine key _ _ (by simp [view_find hf, h0]) ?_
        simp only [view_set, ref_view]
        funext k
        simp only [upd]
        split
        · rename_i e; subst e; rw [view_find hf]; rfl
        · rfl
  | clear =>
    simp only [step]
    have : view ([] : Rec V) = fun _ => none := by funext k; simp [view, find]
    rw [this]; exact Step.clear
  | merge o w =>
    have := mergeLoop_spec w o ho r
    simp only [step, merge]
    cases hm : mergeLoop w o r with
    | ok r' =>
      rw [hm] at this
      simp only at this ⊢
      rw [this.1]
      cases w
      · exact Step.merge_keep
      · exact Step.merge_over (this.2 rfl)
    | error r' =>
      rw [hm] at this
      simp only at this ⊢
      obtain ⟨hw, hb, h3, h4⟩ := this
      subst hw
      exact Step.merge_fail hb h3 h4
  | load id v =>
    simp only [step, view_set]
    exact Step.load

theorem run_snoc (ops : List (Op V)) (o : Op V) : run (ops ++ [o]) = (step (run ops) o).1 := by
  simp [run]

theorem run_nodup (ops : List (Op V)) : (keys (run ops)).Nodup := by
  induction ops using List.reverseRecOn with
  | nil => simp [run, keys]
  | append_singleton ops o ih => rw [run_snoc]; exact step_nodup ih o

theorem run_spec (ops : List (Op V)) (h : ∀ o ∈ ops, OpOk o) : Steps (fun _ => none) ops (view (run ops)) := by
  induction ops using List.reverseRecOn with
  | nil =>
    have : view (run ([] : List (Op V))) = fun _ => none := by funext k; simp [view, run, find]
    rw [this]; exact Steps.nil
  | append_singleton ops o ih =>
    rw [run_snoc]
    exact Steps.snoc (ih fun o' ho' => h o' (by simp [ho'])) (step_spec (run_nodup ops) o (h o (by simp)))

end Verif.Record
