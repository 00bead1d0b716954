import Verif.Spec.Riders
import Mathlib.Data.List.Basic
/-! # Lemmas about riders -/
namespace Verif.Riders
variable {σ G N K A : Type} {h : σ → K → A → σ × Option Nat}

theorem runCmds_performs (l : Cmds K A) (s : σ) : Performs h l s (runCmds h l s).1 (runCmds h l s).2 := by
  induction l generalizing s with
  | nil => exact .done
  | cons e l ih =>
    obtain ⟨k, a⟩ := e
    cases a with
    | none => exact .notRecord
    | some a =>
      unfold runCmds andThen
      cases hh : h s k a with
      | mk s' o =>
        cases o with
        | none => exact .throws hh
        | some c => exact .next hh (ih s')

/-- Performing is a function. -/
theorem performs_det (l : Cmds K A) (s s1 s2 : σ) (o1 o2 : Option Nat) (h1 : Performs h l s s1 o1) (h2 : Performs h l s s2 o2) : s1 = s2 ∧ o1 = o2 := by
  induction h1 generalizing s2 o2 with
  | done => cases h2; exact ⟨rfl, rfl⟩
  | notRecord => cases h2; exact ⟨rfl, rfl⟩
  | throws e => cases h2 with
    | throws e' => rw [e] at e'; injection e' with a _; exact ⟨a, rfl⟩
    | next e' => rw [e] at e'; injection e' with _ b; cases b
  | next e _ ih => cases h2 with
    | throws e' => rw [e] at e'; injection e' with _ b; cases b
    | next e' p =>
      rw [e] at e'
      injection e' with a b
      injection b with b
      subst a b
      obtain ⟨x, y⟩ := ih _ _ p
      exact ⟨x, by rw [y]⟩

theorem runCmds_append (a b : Cmds K A) (s : σ) : runCmds h (a ++ b) s = andThen (runCmds h a s) (runCmds h b) := by
  induction a generalizing s with
  | nil =>
    unfold andThen
    simp only [List.nil_append, runCmds]
    cases hb : (runCmds h b s) with
    | mk x o => cases o <;> simp
  | cons e a ih =>
    obtain ⟨k, x⟩ := e
    cases x with
    | none => rfl
    | some x =>
      show andThen (h s k x) (runCmds h (a ++ b)) = andThen (andThen (h s k x) (runCmds h a)) (runCmds h b)
      unfold andThen
      cases hh : h s k x with
      | mk s' o =>
        cases o with
        | none => rfl
        | some c =>
          dsimp only
          rw [ih]
          unfold andThen
          cases ha : runCmds h a s' with
          | mk s2 o2 =>
            cases o2 with
            | none => rfl
            | some d =>
              dsimp only [Option.map_some]
              cases hb : runCmds h b s2 with
              | mk s3 o3 => cases o3 <;> simp [Nat.or_assoc]

theorem matched_iff [DecidableEq N] (n : Target G N) (e : Entry N K A) : matched n e = true ↔ Listed n e ∨ NoList e := by
  unfold matched Listed NoList
  rcases hn : e.names with _ | ln <;> rcases hi : e.indices with _ | li <;> simp [List.isEmpty_iff] <;> tauto

open Classical in
theorem runList_eq [DecidableEq N] (n : Target G N) (l : List (Entry N K A)) (s : σ) : runList h n l s = runCmds h (firstFor n l) s := by
  unfold firstFor
  induction l with
  | nil => rfl
  | cons e l ih =>
    unfold runList
    rw [List.find?_cons]
    by_cases hm : Listed n e ∨ NoList e
    · rw [if_pos ((matched_iff n e).2 hm), decide_eq_true hm]
    · rw [if_neg (fun x => hm ((matched_iff n e).1 x)), decide_eq_false hm]
      exact ih

theorem runIndex_eq (ni : Int) (t : List (Int × Cmds K A)) (s : σ) : runIndex (N := N) h ni (.table t) s = runCmds h (atIndex ni t) s := by
  unfold runIndex atIndex
  dsimp only
  induction t with
  | nil => rfl
  | cons e t ih =>
    rw [List.find?_cons]
    obtain ⟨k, c⟩ := e
    rw [List.lookup_cons]
    by_cases hk : k = ni
    · subst hk; simp
    · have h1 : (k == ni) = false := by simpa using hk
      have h2 : (ni == k) = false := by simpa using fun x => hk x.symm
      rw [h1, h2]
      exact ih

theorem runGroup_eq [DecidableEq N] (n : Target G N) (g : Group N K A) (s : σ) (hv : ∀ l, g.byIndex ≠ some (.vec l)) :
    runGroup h n g s = runCmds h (inGroup n g) s := by
  unfold runGroup inGroup
  rw [runCmds_append, runCmds_append]
  have e1 : ifPresent g.all (runCmds h) s = runCmds h (g.all.getD []) s := by cases g.all <;> rfl
  have e2 : ∀ s, ifPresent g.byList (runList h n) s = runCmds h (firstFor n (g.byList.getD [])) s := by
    intro s
    cases g.byList with
    | none => rfl
    | some l => exact runList_eq n l s
  have e3 : ∀ s, ifPresent g.byIndex (runIndex h n.index) s =
      runCmds h (match g.byIndex with | some (.table t) => atIndex n.index t | _ => []) s := by
    intro s
    unfold ifPresent
    cases hb : g.byIndex with
    | none => rfl
    | some f =>
      cases f with
      | vec l => exact absurd hb (hv l)
      | table t => exact runIndex_eq n.index t s
  rw [e1]
  simp only [e2, e3]
  unfold andThen
  cases h1 : runCmds h (g.all.getD []) s with
  | mk s1 o1 =>
    cases o1 with
    | none => rfl
    | some c1 =>
      dsimp only
      cases h2 : runCmds h (firstFor n (g.byList.getD [])) s1 with
      | mk s2 o2 =>
        cases o2 with
        | none => rfl
        | some c2 =>
          dsimp only [Option.map_some]
          generalize runCmds h _ s2 = x
          obtain ⟨s3, o3⟩ := x
          cases o3 <;> simp [Nat.or_assoc]

theorem runGroups_eq [DecidableEq N] (n : Target G N) (r : Rider G N K A) (gs : List G) (s : σ)
    (hv : ∀ g ∈ gs, ∀ gr, r g = some gr → ∀ l, gr.byIndex ≠ some (.vec l)) :
    runGroups h n r gs s = runCmds h (gs.flatMap fun g => match r g with | some gr => inGroup n gr | none => []) s := by
  induction gs generalizing s with
  | nil => rfl
  | cons g gs ih =>
    rw [List.flatMap_cons, runCmds_append]
    unfold runGroups
    have e1 : ifPresent (r g) (runGroup h n) s = runCmds h (match r g with | some gr => inGroup n gr | none => []) s := by
      cases hr : r g with
      | none => rfl
      | some gr => exact runGroup_eq n gr s (hv g (by simp) gr hr)
    rw [e1]
    have : (runGroups h n r gs) = runCmds h (gs.flatMap fun g => match r g with | some gr => inGroup n gr | none => []) :=
      funext fun s => ih s fun g' hg => hv g' (by simp [hg])
    rw [this]

theorem flatMap_only [DecidableEq G] (gs : List G) (g : G) (c : List α) (hn : gs.Nodup) : (gs.flatMap fun g' => if g' = g then c else []) = if g ∈ gs then c else [] := by
  induction gs with
  | nil => rfl
  | cons a l ih =>
    rw [List.flatMap_cons, ih (List.nodup_cons.1 hn).2]
    by_cases h : a = g
    · subst h
      simp [(List.nodup_cons.1 hn).1]
    · simp [h, Ne.symm h]

end Verif.Riders
