import Verif.Spec.PyConv
/-!
# Lemmas about the conversion between Python and the kernel
-/
namespace Verif.PyConv

theorem wrap32_id {z : Int} (h : Int32 z) : wrap 32 z = z := by
  unfold Int32 at h; unfold wrap; dsimp only; split <;> omega

theorem wrap16_id {z : Int} (h : Int16 z) : wrap 16 z = z := by
  unfold Int16 at h; unfold wrap; dsimp only; split <;> omega

theorem asInt_id {z : Int} (h : Int32 z) (p : Bool) : asInt p z = (z, p) := by
  unfold asInt
  rw [if_pos (by unfold Int32 at h; omega), wrap32_id h]

theorem int16_32 {z : Int} (h : Int16 z) : Int32 z := by unfold Int16 at h; unfold Int32; omega

theorem cstr_id {s : List Nat} (h : 0 ∉ s) : cstr s = s := by
  induction s with
  | nil => rfl
  | cons a l ih =>
    have ha : a ≠ 0 := fun e => h (by rw [e]; exact List.mem_cons_self)
    have hl : 0 ∉ l := fun e => h (List.mem_cons_of_mem _ e)
    have := ih hl
    unfold cstr at *
    rw [List.takeWhile_cons, if_pos (by simpa using ha), this]

theorem hiidConv_id {l : List Int} (h : ∀ z ∈ l, Int32 z) : hiidConv false l = some l := by
  unfold hiidConv
  rw [if_neg (by simp), if_pos]
  · congr 1
    have : l.map (wrap 32) = l.map id := List.map_congr_left (fun z hz => by simpa using wrap32_id (h z hz))
    rw [this, List.map_id]
  · rw [List.all_eq_true]
    intro z hz
    have := h z hz
    unfold Int32 at this
    simp only [decide_eq_true_eq]; omega

/-- The type a class is mapped to. -/
def tidOf : Cls → Tid
  | .bool => .num .bool
  | .int => .num .int
  | .flt => .num .double
  | .cplx => .num .dcomplex
  | .str => .str
  | .hiid => .hiid
  | .array c => .arr c
  | .record c => .recd c
  | .tuple => .vec
  | .dmilist => .list
  | .message => .msg

theorem tidOf_inj {a b : Cls} (h : tidOf a = tidOf b) : a = b := by
  cases a <;> cases b <;> simp [tidOf] at h <;> simp [h]

theorem tidOf_objref (c : Cls) : tidOf c ≠ .objref := by cases c <;> simp [tidOf]

/-- An object whose class is in the map. -/
def Typed (E : Env) (v : Py) (c : Cls) : Prop :=
  (pyType v).isSome ∧ dmiType E false v = (some (tidOf c), false)

theorem typed_seq {E : Env} {k : SeqKind} {is : Items} {c : Cls} (hc : (Py.seq k is).cls = some c) :
    Typed E (.seq k is) c := by
  cases k <;> simp [Py.cls] at hc <;> subst hc <;> simp [Typed, pyType, dmiType, tidOf]

theorem plain_typed {E : Env} {v : Py} {c : Cls} (hp : Plain E v) (hc : v.cls = some c) : Typed E v c := by
  cases hp with
  | none => simp [Py.cls] at hc
  | int => simp [Py.cls] at hc; subst hc; simp [Typed, pyType, dmiType, tidOf]
  | flt => simp [Py.cls] at hc; subst hc; simp [Typed, pyType, dmiType, tidOf]
  | cplx => simp [Py.cls] at hc; subst hc; simp [Typed, pyType, dmiType, tidOf]
  | str => simp [Py.cls] at hc; subst hc; simp [Typed, pyType, dmiType, tidOf]
  | hiid => simp [Py.cls] at hc; subst hc; simp [Typed, pyType, dmiType, tidOf]
  | array _ _ _ _ h => simp [Py.cls] at hc; subst hc; simp [Typed, pyType, dmiType, tidOf, h]
  | record _ _ h => simp [Py.cls] at hc; subst hc; simp [Typed, pyType, dmiType, tidOf, h]
  | message => simp [Py.cls] at hc; subst hc; simp [Typed, pyType, dmiType, tidOf]
  | dmilist => exact typed_seq hc
  | bools => exact typed_seq hc
  | uniform => exact typed_seq hc
  | mixed => exact typed_seq hc

theorem plainItems_mem {E : Env} {is : Items} (h : PlainItems E is) : ∀ v ∈ is.toList, Plain E v := by
  induction is using Items.rec (motive_1 := fun _ => True) (motive_3 := fun _ => True) with
  | nil => intro v hv; simp [Items.toList] at hv
  | cons v r _ ih =>
    cases h with
    | cons _ _ hv hr =>
      intro w hw
      simp only [Items.toList, List.mem_cons] at hw
      cases hw with
      | inl e => rw [e]; exact hv
      | inr e => exact ih hr w e
  | _ => trivial

theorem Items.ind {P : Items → Prop} (hn : P .nil) (hc : ∀ v r, P r → P (.cons v r)) : ∀ is, P is
  | .nil => hn
  | .cons v r => hc v r (Items.ind hn hc r)

theorem DItems.ind {P : DItems → Prop} (hn : P .nil) (hc : ∀ v r, P r → P (.cons v r)) : ∀ is, P is
  | .nil => hn
  | .cons v r => hc v r (DItems.ind hn hc r)

/-- A scan that goes on. -/
theorem scan_uniform {E : Env} {c : Cls} (is : Items) (h : ∀ v ∈ is.toList, Typed E v c) :
    scan E false (some (tidOf c)) is = some (false, some (tidOf c), false) := by
  induction is using Items.ind with
  | hn => rfl
  | hc v r ih =>
    have hv := h v (by simp [Items.toList])
    unfold scan
    obtain ⟨b, hb⟩ := Option.isSome_iff_exists.mp hv.1
    simp only [hb, hv.2, Option.getD_some]
    rw [if_neg (by simp [tidOf_objref])]
    exact ih (fun w hw => h w (by simp [Items.toList, hw]))

theorem scan_uniform0 {E : Env} {c : Cls} (v : Py) (r : Items) (h : ∀ w ∈ (Items.cons v r).toList, Typed E w c) :
    scan E false none (.cons v r) = some (false, some (tidOf c), false) := by
  have hv := h v (by simp [Items.toList])
  unfold scan
  obtain ⟨b, hb⟩ := Option.isSome_iff_exists.mp hv.1
  simp only [hb, hv.2, Option.getD_some, Option.getD_none]
  rw [if_neg (by simp [tidOf_objref])]
  exact scan_uniform r (fun w hw => h w (by simp [Items.toList, hw]))

/-- A scan that meets another class. -/
theorem scan_mixed {E : Env} {c : Cls} (is : Items) (h : ∀ v ∈ is.toList, ∃ d, v.cls = some d ∧ Typed E v d)
    (hm : ¬ ∀ v ∈ is.toList, v.cls = some c) :
    ∃ t, scan E false (some (tidOf c)) is = some (true, t, false) := by
  induction is using Items.ind with
  | hn => exact absurd (by intro v hv; simp [Items.toList] at hv) hm
  | hc v r ih =>
    obtain ⟨d, hd, hv⟩ := h v (by simp [Items.toList])
    unfold scan
    obtain ⟨b, hb⟩ := Option.isSome_iff_exists.mp hv.1
    simp only [hb, hv.2, Option.getD_some]
    by_cases e : d = c
    · subst e
      rw [if_neg (by simp [tidOf_objref])]
      refine ih (fun w hw => h w (by simp [Items.toList, hw])) ?_
      intro hall
      exact hm (by
        intro w hw
        simp only [Items.toList, List.mem_cons] at hw
        cases hw with
        | inl e => rw [e]; exact hd
        | inr e => exact hall w e)
    · rw [if_pos (Or.inr (fun he => e (tidOf_inj he)))]
      exact ⟨_, rfl⟩

theorem scan_mixed0 {E : Env} (is : Items) (h : ∀ v ∈ is.toList, ∃ d, v.cls = some d ∧ Typed E v d)
    (hm : ¬ OneClass is) : ∃ t, scan E false none is = some (true, t, false) := by
  cases is with
  | nil => exact absurd ⟨.bool, by intro v hv; simp [Items.toList] at hv⟩ hm
  | cons v r =>
    obtain ⟨d, hd, hv⟩ := h v (by simp [Items.toList])
    unfold scan
    obtain ⟨b, hb⟩ := Option.isSome_iff_exists.mp hv.1
    simp only [hb, hv.2, Option.getD_some, Option.getD_none]
    rw [if_neg (by simp [tidOf_objref])]
    refine scan_mixed r (fun w hw => h w (by simp [Items.toList, hw])) ?_
    intro hall
    exact hm ⟨d, by
      intro w hw
      simp only [Items.toList, List.mem_cons] at hw
      cases hw with
      | inl e => rw [e]; exact hd
      | inr e => exact hall w e⟩

/-- Conversion of a tuple or list. -/
theorem toD_seq {E : Env} {p : Bool} {k : SeqKind} (hk : k ≠ .dmilist) (is : Items) :
    toD E p (.seq k is) = toD E p (.seq .tuple is) := by
  cases k
  · rfl
  · simp only [toD]
  · exact absurd rfl hk

/-- An object survives. -/
def RT (E : Env) (v : Py) : Prop :=
  ∃ r w, toD E false v = some (r, false) ∧ (∀ thr, fromRef E thr r = some w) ∧ Same v w
def RTI (E : Env) (is : Items) : Prop :=
  ∃ ds ws, listItems E false is = some (ds, false) ∧ (∀ thr, fromItems E thr ds = some ws) ∧ SameItems is ws

theorem fromRef_obj {E : Env} {d : D} {w : Py} (h : ∀ thr, fromD E thr d = some w) : ∀ thr, fromRef E thr (.obj d) = some w := by
  intro thr; simp [fromRef, h thr]

theorem rt_list {E : Env} {is : Items} (h : RTI E is) (k : SeqKind)
    (he : toD E false (.seq k is) = (listItems E false is).map fun p => (.obj (.list p.1), p.2)) : RT E (.seq k is) := by
  obtain ⟨ds, ws, h1, h2, h3⟩ := h
  refine ⟨.obj (.list ds), .seq .dmilist ws, ?_, fromRef_obj ?_, .seq _ _ _ _ h3⟩
  · rw [he, h1]; rfl
  · intro thr; simp [fromD, h2 false]

/-- Numbers of one class. -/
theorem num_items {E : Env} (is : Items) (c : Cls) (ty : Ty) (hty : (c = .bool ∧ ty = .bool) ∨ (c = .int ∧ ty = .int) ∨
    (c = .flt ∧ ty = .double) ∨ (c = .cplx ∧ ty = .dcomplex))
    (h : ∀ v ∈ is.toList, v.cls = some c ∧ (Plain E v ∨ ∃ b, v = .bool b)) :
    ∃ l ws, numItems false is = some (l, false) ∧ numsToItems ty l = some ws ∧ SameItems is ws := by
  induction is using Items.ind with
  | hn => exact ⟨[], .nil, rfl, rfl, .nil⟩
  | hc v r ih =>
    obtain ⟨l, ws, h1, h2, h3⟩ := ih (fun w hw => h w (by simp [Items.toList, hw]))
    obtain ⟨hv, hp⟩ := h v (by simp [Items.toList])
    rcases hty with ⟨rfl, rfl⟩ | ⟨rfl, rfl⟩ | ⟨rfl, rfl⟩ | ⟨rfl, rfl⟩ <;>
      cases v <;> (try (simp [Py.cls] at hv; done))
    · rename_i b
      refine ⟨.i (if b then 1 else 0) :: l, .cons (.bool b) ws, by simp [numItems, h1], ?_, .cons _ _ _ _ (.bool b) h3⟩
      cases b <;> simp [numsToItems, numToPy, h2]
    · rename_i k _
      cases k <;> simp [Py.cls] at hv
    · rename_i z
      have hz : Int32 z := by
        cases hp with
        | inl hp => cases hp; assumption
        | inr hp => obtain ⟨b, hb⟩ := hp; cases hb
      refine ⟨.i z :: l, .cons (.int z) ws, by simp [numItems, asInt_id hz, h1], by simp [numsToItems, numToPy, h2],
        .cons _ _ _ _ (.int z) h3⟩
    · rename_i k _
      cases k <;> simp [Py.cls] at hv
    · rename_i x
      exact ⟨.f x :: l, .cons (.flt x) ws, by simp [numItems, h1], by simp [numsToItems, numToPy, h2],
        .cons _ _ _ _ (.flt x) h3⟩
    · rename_i k _
      cases k <;> simp [Py.cls] at hv
    · rename_i a b
      exact ⟨.c a b :: l, .cons (.cplx a b) ws, by simp [numItems, h1], by simp [numsToItems, numToPy, h2],
        .cons _ _ _ _ (.cplx a b) h3⟩
    · rename_i k _
      cases k <;> simp [Py.cls] at hv

theorem str_items {E : Env} (is : Items) (h : ∀ v ∈ is.toList, v.cls = some .str ∧ Plain E v) :
    ∃ l, strItems is = some l ∧ SameItems is (strsToItems l) := by
  induction is using Items.ind with
  | hn => exact ⟨[], rfl, .nil⟩
  | hc v r ih =>
    obtain ⟨l, h1, h3⟩ := ih (fun w hw => h w (by simp [Items.toList, hw]))
    obtain ⟨hv, hp⟩ := h v (by simp [Items.toList])
    cases hp <;> (try (simp [Py.cls] at hv; done)) <;> (try (rename_i k _ _ _; cases k <;> simp [Py.cls] at hv; done))
    · rename_i s hs
      refine ⟨s :: l, by simp [strItems, h1, cstr_id hs], ?_⟩
      simp only [strsToItems, cstr_id hs]
      exact .cons _ _ _ _ (.str s) h3
    all_goals (rename_i k _ _ _ _ _; cases k <;> simp [Py.cls] at hv)

theorem hiid_items {E : Env} (is : Items) (h : ∀ v ∈ is.toList, v.cls = some .hiid ∧ Plain E v) :
    ∃ l, hiidItems false is = some l ∧ SameItems is (hiidsToItems l) := by
  induction is using Items.ind with
  | hn => exact ⟨[], rfl, .nil⟩
  | hc v r ih =>
    obtain ⟨l, h1, h3⟩ := ih (fun w hw => h w (by simp [Items.toList, hw]))
    obtain ⟨hv, hp⟩ := h v (by simp [Items.toList])
    cases hp <;> (try (simp [Py.cls] at hv; done)) <;> (try (rename_i k _ _ _; cases k <;> simp [Py.cls] at hv; done))
    · rename_i s hs
      refine ⟨s :: l, by simp [hiidItems, h1, hiidConv_id hs], ?_⟩
      simp only [hiidsToItems]
      exact .cons _ _ _ _ (.hiid s) h3
    all_goals (rename_i k _ _ _ _ _; cases k <;> simp [Py.cls] at hv)

/-- What an object of a class is converted to is of the type of the class. -/
theorem toD_tid {E : Env} {v : Py} {c : Cls} {r : DRef} {p : Bool} (hp : Plain E v) (hc : v.cls = some c)
    (ht : ∀ js, v = .seq .tuple js → OneClass js) (hcc : tidOf c = .vec ∨ tidOf c = .list ∨ tidOf c = .msg ∨
      (∃ n, tidOf c = .arr n) ∨ ∃ n, tidOf c = .recd n)
    (he : toD E false v = some (r, p)) : ∃ d, r = .obj d ∧ dtid d = tidOf c := by
  have hm : ∀ {α : Type} {β : Type} {x : Option α} {f : α → DRef × Bool} {y : DRef × Bool}, x.map f = some y →
      ∃ a, x = some a ∧ f a = y := by
    intro α β x f y h
    exact Option.map_eq_some_iff.mp h
  cases v with
  | none => simp [Py.cls] at hc
  | bool => simp [Py.cls] at hc; subst hc; simp [tidOf] at hcc
  | int => simp [Py.cls] at hc; subst hc; simp [tidOf] at hcc
  | flt => simp [Py.cls] at hc; subst hc; simp [tidOf] at hcc
  | cplx => simp [Py.cls] at hc; subst hc; simp [tidOf] at hcc
  | str => simp [Py.cls] at hc; subst hc; simp [tidOf] at hcc
  | hiid => simp [Py.cls] at hc; subst hc; simp [tidOf] at hcc
  | other => simp [Py.cls] at hc
  | array n ty sw sh da =>
    simp [Py.cls] at hc; subst hc
    simp only [toD] at he
    obtain ⟨d, hd, hf⟩ := Option.map_eq_some_iff.mp he
    cases hf
    refine ⟨d, rfl, ?_⟩
    unfold toArray at hd
    split at hd
    · cases hd
    · split at hd
      · cases hd
      · split at hd
        · cases hd
        · cases hd; rfl
  | record n fs =>
    simp [Py.cls] at hc; subst hc
    simp only [toD] at he
    split at he
    · cases he
    · cases he; exact ⟨_, rfl, rfl⟩
  | message h q =>
    simp [Py.cls] at hc; subst hc
    simp only [toD] at he
    split at he
    · cases he
    · split at he
      · cases he
      · split at he
        · cases he
        · split at he
          · cases he
          · cases he; exact ⟨_, rfl, rfl⟩
  | seq k is =>
    cases k with
    | list => simp [Py.cls] at hc
    | dmilist =>
      simp [Py.cls] at hc; subst hc
      simp only [toD] at he
      obtain ⟨d, hd, hf⟩ := Option.map_eq_some_iff.mp he
      cases hf; exact ⟨_, rfl, rfl⟩
    | tuple =>
      simp [Py.cls] at hc; subst hc
      obtain ⟨cc, hcc'⟩ := ht is rfl
      have hty : ∀ w ∈ is.toList, Typed E w cc := by
        cases hp with
        | bools _ _ _ hb =>
          intro w hw
          obtain ⟨b, hb⟩ := hb w hw
          have := hcc' w hw
          subst hb
          simp [Py.cls] at this
          subst this
          simp [Typed, pyType, dmiType, tidOf]
        | uniform _ _ _ hpi => exact fun w hw => plain_typed (plainItems_mem hpi w hw) (hcc' w hw)
        | mixed _ _ _ hpi => exact fun w hw => plain_typed (plainItems_mem hpi w hw) (hcc' w hw)
      cases is with
      | nil => simp [toD, scan] at he; exact ⟨_, he.1.symm, rfl⟩
      | cons v r =>
        simp only [toD, scan_uniform0 v r hty] at he
        split at he
        all_goals first
          | (cases he; done)
          | (rename_i h0; simp at h0; done)
          | (obtain ⟨d, hd, hf⟩ := Option.map_eq_some_iff.mp he; cases hf; exact ⟨_, rfl, rfl⟩)

theorem objItems_eq {E : Env} {t : Tid} (is : Items)
    (h : ∀ v ∈ is.toList, ∀ r p, toD E false v = some (r, p) → p = false ∧ ∃ d, r = .obj d ∧ dtid d = t) :
    objItems E t false is = listItems E false is := by
  induction is using Items.ind with
  | hn => rfl
  | hc v r ih =>
    simp only [objItems, listItems]
    cases he : toD E false v with
    | none => rfl
    | some q =>
      obtain ⟨rr, p⟩ := q
      obtain ⟨hp, d, hd, ht⟩ := h v (by simp [Items.toList]) rr p he
      subst hp; subst hd
      simp only [ht, if_true]
      rw [ih (fun w hw => h w (by simp [Items.toList, hw]))]

theorem plain_tuple_one {E : Env} {k : SeqKind} (hk : k ≠ .dmilist) (is : Items) (hp : PlainItems E is) (ho : OneClass is)
    (hrt : RTI E is) (hmem : ∀ v ∈ is.toList, RT E v)
    (ht : ∀ v ∈ is.toList, ∀ js, v = .seq .tuple js → OneClass js) : RT E (.seq k is) := by
  obtain ⟨c, hc⟩ := ho
  have hpm := plainItems_mem hp
  have hty : ∀ w ∈ is.toList, Typed E w c := fun w hw => plain_typed (hpm w hw) (hc w hw)
  unfold RT
  rw [toD_seq hk]
  cases is with
  | nil => exact ⟨.obj .vecNull, .seq .tuple .nil, rfl, fromRef_obj (fun _ => rfl), .seq _ _ _ _ .nil⟩
  | cons v r =>
    have hs := scan_uniform0 v r hty
    have hnum : ∀ ty, tidOf c = .num ty → ((c = .bool ∧ ty = .bool) ∨ (c = .int ∧ ty = .int) ∨
        (c = .flt ∧ ty = .double) ∨ (c = .cplx ∧ ty = .dcomplex)) → ∃ r' w, toD E false (.seq .tuple (.cons v r)) = some (r', false) ∧
        (∀ thr, fromRef E thr r' = some w) ∧ Same (.seq k (.cons v r)) w := by
      intro ty hty hor
      obtain ⟨l, ws, h1, h2, h3⟩ := num_items (E := E) (.cons v r) c ty hor (fun w hw => ⟨hc w hw, Or.inl (hpm w hw)⟩)
      refine ⟨.obj (.vecNum ty false l), .seq .tuple ws, ?_, fromRef_obj ?_, .seq _ _ _ _ h3⟩
      · simp only [toD, hs, hty, h1]; rfl
      · intro thr; simp [fromD, h2]
    have hobj : (tidOf c = .vec ∨ tidOf c = .list ∨ tidOf c = .msg ∨ (∃ n, tidOf c = .arr n) ∨ ∃ n, tidOf c = .recd n) →
        ∃ r' w, toD E false (.seq .tuple (.cons v r)) = some (r', false) ∧
        (∀ thr, fromRef E thr r' = some w) ∧ Same (.seq k (.cons v r)) w := by
      intro hor
      have he : objItems E (tidOf c) false (.cons v r) = listItems E false (.cons v r) := by
        refine objItems_eq _ ?_
        intro w hw r' p' hto
        obtain ⟨r2, w2, h1, _, _⟩ := hmem w hw
        rw [h1] at hto
        cases hto
        exact ⟨rfl, toD_tid (hpm w hw) (hc w hw) (ht w hw) hor h1⟩
      obtain ⟨ds, ws, h1, h2, h3⟩ := hrt
      refine ⟨.obj (.vecObj (tidOf c) false ds), .seq .tuple ws, ?_, fromRef_obj ?_, .seq _ _ _ _ h3⟩
      · rw [h1] at he
        simp only [toD, hs]
        rcases hor with h | h | h | ⟨n, h⟩ | ⟨n, h⟩ <;> rw [h] at he ⊢ <;> simp [he]
      · intro thr; simp [fromD, h2 thr]
    cases c with
    | bool => exact hnum _ rfl (by simp)
    | int => exact hnum _ rfl (by simp)
    | flt => exact hnum _ rfl (by simp)
    | cplx => exact hnum _ rfl (by simp)
    | str =>
      obtain ⟨l, h1, h3⟩ := str_items (E := E) (.cons v r) (fun w hw => ⟨hc w hw, hpm w hw⟩)
      refine ⟨.obj (.vecStr false l), .seq .tuple (strsToItems l), ?_, fromRef_obj ?_, .seq _ _ _ _ h3⟩
      · simp only [toD, hs, tidOf, h1]; rfl
      · intro thr; simp [fromD]
    | hiid =>
      obtain ⟨l, h1, h3⟩ := hiid_items (E := E) (.cons v r) (fun w hw => ⟨hc w hw, hpm w hw⟩)
      refine ⟨.obj (.vecHiid false l), .seq .tuple (hiidsToItems l), ?_, fromRef_obj ?_, .seq _ _ _ _ h3⟩
      · simp only [toD, hs, tidOf, h1]; rfl
      · intro thr; simp [fromD]
    | array n => exact hobj (by simp [tidOf])
    | record n => exact hobj (by simp [tidOf])
    | tuple => exact hobj (by simp [tidOf])
    | dmilist => exact hobj (by simp [tidOf])
    | message => exact hobj (by simp [tidOf])

theorem rt_bools {E : Env} {k : SeqKind} (hk : k ≠ .dmilist) (is : Items) (hb : ∀ v ∈ is.toList, ∃ b, v = .bool b) :
    RT E (.seq k is) := by
  unfold RT
  rw [toD_seq hk]
  cases is with
  | nil => exact ⟨.obj .vecNull, .seq .tuple .nil, rfl, fromRef_obj (fun _ => rfl), .seq _ _ _ _ .nil⟩
  | cons v r =>
    have hty : ∀ w ∈ (Items.cons v r).toList, Typed E w .bool := by
      intro w hw
      obtain ⟨b, hb⟩ := hb w hw
      subst hb; simp [Typed, pyType, dmiType, tidOf]
    have hs := scan_uniform0 v r hty
    obtain ⟨l, ws, h1, h2, h3⟩ := num_items (E := E) (.cons v r) .bool .bool (by simp)
      (fun w hw => by obtain ⟨b, hb⟩ := hb w hw; subst hb; exact ⟨rfl, Or.inr ⟨b, rfl⟩⟩)
    refine ⟨.obj (.vecNum .bool false l), .seq .tuple ws, ?_, fromRef_obj ?_, .seq _ _ _ _ h3⟩
    · simp only [toD, hs, tidOf, h1]; rfl
    · intro thr; simp [fromD, h2]

theorem rt_mixed {E : Env} {k : SeqKind} (hk : k ≠ .dmilist) (is : Items) (hp : PlainItems E is)
    (hn : ∀ v ∈ is.toList, v.cls ≠ none) (ho : ¬ OneClass is) (hrt : RTI E is) : RT E (.seq k is) := by
  obtain ⟨t, hs⟩ := scan_mixed0 (E := E) is (fun v hv => by
    cases hc : v.cls with
    | none => exact absurd hc (hn v hv)
    | some d => exact ⟨d, rfl, plain_typed (plainItems_mem hp v hv) hc⟩) ho
  refine rt_list hrt k ?_
  rw [toD_seq hk]
  simp only [toD, hs]

/-- Concatenation of fields. -/
def DFields.app : DFields → DFields → DFields
  | .nil, b => b
  | .cons i r t, b => .cons i r (t.app b)
def Fields.app : Fields → Fields → Fields
  | .nil, b => b
  | .cons k v t, b => .cons k v (t.app b)

theorem DFields.app_nil : ∀ a : DFields, a.app .nil = a
  | .nil => rfl
  | .cons i r t => by simp [DFields.app, DFields.app_nil t]
theorem Fields.app_nil : ∀ a : Fields, a.app .nil = a
  | .nil => rfl
  | .cons i r t => by simp [Fields.app, Fields.app_nil t]
theorem DFields.app_assoc : ∀ a b c : DFields, (a.app b).app c = a.app (b.app c)
  | .nil, _, _ => rfl
  | .cons i r t, b, c => by simp [DFields.app, DFields.app_assoc t]
theorem Fields.app_assoc : ∀ a b c : Fields, (a.app b).app c = a.app (b.app c)
  | .nil, _, _ => rfl
  | .cons i r t, b, c => by simp [Fields.app, Fields.app_assoc t]
theorem DFields.ids_app : ∀ a b : DFields, (a.app b).ids = a.ids ++ b.ids
  | .nil, _ => rfl
  | .cons i r t, b => by simp [DFields.app, DFields.ids, DFields.ids_app t]
theorem Fields.keys_app : ∀ a b : Fields, (a.app b).keys = a.keys ++ b.keys
  | .nil, _ => rfl
  | .cons i r t, b => by simp [Fields.app, Fields.keys, Fields.keys_app t]

theorem addField_new {id : List Int} {d : DRef} : ∀ {acc : DFields}, id ∉ acc.ids → addField id d acc = acc.app (.cons id d .nil)
  | .nil, _ => rfl
  | .cons i r t, h => by
    simp only [DFields.ids, List.mem_cons, not_or] at h
    simp only [addField, DFields.app]
    rw [if_neg (fun e => h.1 e.symm), addField_new h.2]

theorem setItem_new {k : String} {v : Py} : ∀ {acc : Fields}, k ∉ acc.keys → setItem k v acc = acc.app (.cons k v .nil)
  | .nil, _ => rfl
  | .cons i r t, h => by
    simp only [Fields.keys, List.mem_cons, not_or] at h
    simp only [setItem, Fields.app]
    rw [if_neg (fun e => h.1 e.symm), setItem_new h.2]

/-- Fields survive. -/
def RTF (E : Env) (fs : Fields) : Prop :=
  (∀ k ∈ fs.keys, KeyOk E k) → fs.keys.Nodup → ∃ ds ws, ds.ids.map E.print = fs.keys ∧ SameFields fs ws ∧ ws.keys = fs.keys ∧
    (∀ acc : DFields, (∀ id ∈ acc.ids, E.print id ∉ fs.keys) → toFields E acc fs = acc.app ds) ∧
    (∀ acc : Fields, (∀ k ∈ acc.keys, k ∉ fs.keys) → fromFields E acc ds = acc.app ws)

theorem rtf_cons {E : Env} {k : String} {v : Py} {r : Fields} (hv : RT E v) (hr : RTF E r) : RTF E (.cons k v r) := by
  intro hk hn
  simp only [Fields.keys, List.nodup_cons] at hn
  obtain ⟨ds, ws, h1, h2, h2', h3, h4⟩ := hr (fun k' h' => hk k' (by simp [Fields.keys, h'])) hn.2
  obtain ⟨d, w, g1, g2, g3⟩ := hv
  obtain ⟨id, hid, hpa, hpr⟩ := hk k (by simp [Fields.keys])
  refine ⟨.cons id d ds, .cons k w ws, ?_, .cons _ _ _ _ _ g3 h2, ?_, ?_, ?_⟩
  · simp [DFields.ids, Fields.keys, h1, hpr]
  · simp [Fields.keys, h2']
  · intro acc hacc
    simp only [toFields, hpa, g1, if_neg hid]
    have hnot : id ∉ acc.ids := fun h => hacc id h (by simp [Fields.keys, hpr])
    rw [addField_new hnot, h3]
    · rw [DFields.app_assoc]; rfl
    · intro i hi
      rw [DFields.ids_app, List.mem_append] at hi
      cases hi with
      | inl hi => exact fun h => hacc i hi (by simp [Fields.keys, h])
      | inr hi =>
        simp only [DFields.ids, List.mem_singleton] at hi
        rw [hi, hpr]; exact hn.1
  · intro acc hacc
    simp only [fromFields, g2 false, hpr]
    have hnot : k ∉ acc.keys := fun h => hacc k h (by simp [Fields.keys])
    rw [setItem_new hnot, h4]
    · rw [Fields.app_assoc]; rfl
    · intro i hi
      rw [Fields.keys_app, List.mem_append] at hi
      cases hi with
      | inl hi => exact fun h => hacc i hi (by simp [Fields.keys, h])
      | inr hi =>
        simp only [Fields.keys, List.mem_singleton] at hi
        rw [hi]; exact hn.1

/-- The header of a message as it is converted. -/
def headOf (h : PyHead) (z : Int) : MsgHead :=
  ⟨h.msgid, 256 + z, h.frm.getD [], h.dest.getD [], h.state.getD 0, h.hops.getD 0⟩

theorem toD_message {E : Env} {h : PyHead} {p : Py} {z : Int} {r : DRef} (h1 : ∀ z ∈ h.msgid, Int32 z)
    (h2 : h.priority = some z) (h2' : Int32 z)
    (h3 : ∀ l, h.frm = some l → ∀ z ∈ l, Int32 z) (h4 : ∀ l, h.dest = some l → ∀ z ∈ l, Int32 z)
    (h5 : h.frm = none → h.dest = none) (h6 : ∀ z, h.state = some z → Int32 z) (h7 : ∀ z, h.hops = some z → Int16 z)
    (hp : toD E false p = some (r, false)) :
    toD E false (.message h p) = some (.obj (.message (headOf h z) r), false) := by
  obtain ⟨m, pr, fr, de, st, ho⟩ := h
  dsimp only at h1 h2 h3 h4 h5 h6 h7
  subst h2
  simp only [toD, hiidConv_id h1, asInt_id h2', hp, headOf]
  have e1 : ∀ x, st = some x → asInt false x = (x, false) := fun x hx => asInt_id (h6 x hx) false
  have e2 : ∀ x, ho = some x → asInt false x = (x, false) ∧ wrap 16 x = x :=
    fun x hx => ⟨asInt_id (int16_32 (h7 x hx)) false, wrap16_id (h7 x hx)⟩
  cases fr with
  | none =>
    have := h5 rfl
    subst this
    cases st <;> cases ho <;> simp_all
  | some l =>
    have e3 := hiidConv_id (h3 l rfl)
    cases de with
    | none => cases st <;> cases ho <;> simp_all
    | some l' =>
      have e4 := hiidConv_id (h4 l' rfl)
      cases st <;> cases ho <;> simp_all

theorem tyToNp_npToTy {ty : Np} (h : ∀ n, ty ≠ .unsupported n) : ∃ t, npToTy ty = some t ∧ tyToNp t = some ty := by
  cases ty <;> simp [npToTy, tyToNp] at h ⊢

theorem shape_one {sh : List Nat} (h1 : sh.length = 1) (h2 : sh.prod = 1) : sh = [1] := by
  match sh, h1 with
  | [a], _ => simpa using h2

mutual
theorem plain_py (E : Env) : ∀ v, Plain E v → RT E v
  | .none, _ => ⟨.null, .none, rfl, fun _ => rfl, .none⟩
  | .bool b, h => by cases h
  | .int z, h => by
    cases h with
    | int _ hz =>
      refine ⟨.obj (.num 0 .int [1] [.i z]), .int z, by simp [toD, asInt_id hz], fromRef_obj ?_, .int z⟩
      intro thr; simp [fromD, numToPy]
  | .flt x, _ => ⟨.obj (.num 0 .double [1] [.f x]), .flt x, by simp [toD], fromRef_obj (by intro thr; simp [fromD, numToPy]), .flt x⟩
  | .cplx a b, _ =>
    ⟨.obj (.num 0 .dcomplex [1] [.c a b]), .cplx a b, by simp [toD], fromRef_obj (by intro thr; simp [fromD, numToPy]), .cplx a b⟩
  | .str s, h => by
    cases h with
    | str _ hs =>
      exact ⟨.obj (.vecStr true [s]), .str s, by simp [toD, cstr_id hs], fromRef_obj (by intro thr; simp [fromD, cstr_id hs]), .str s⟩
  | .hiid l, h => by
    cases h with
    | hiid _ hl =>
      exact ⟨.obj (.vecHiid true [l]), .hiid l, by simp [toD, hiidConv_id hl], fromRef_obj (by intro thr; simp [fromD]), .hiid l⟩
  | .array c ty sw sh da, h => by
    cases h with
    | array _ _ _ _ hc hty h1 h10 hsh =>
      obtain ⟨t, ht1, ht2⟩ := tyToNp_npToTy hty
      refine ⟨.obj (.num c t sh da), .array c ty false sh da, ?_, fromRef_obj ?_, .array _ _ _ _ _ _⟩
      · have hne : sh ≠ [] := by intro e; rw [e] at h1; simp at h1
        simp only [toD, toArray, hc, ht1]
        rw [if_neg (by simp), if_neg (by omega), if_neg hne]
        rfl
      · intro thr
        simp only [fromD, ht2]
        rw [if_neg]
        intro hh
        exact hsh (shape_one hh.1 hh.2.1) hh.2.2
  | .record c fs, h => by
    cases h with
    | record _ _ hc hk hn hf =>
      obtain ⟨ds, ws, h1, h2, h2', h3, h4⟩ := plain_fields E fs hf hk hn
      refine ⟨.obj (.record c ds), .record c ws, ?_, fromRef_obj ?_, .record _ _ _ h2⟩
      · simp only [toD, hc]
        rw [if_neg (by simp), h3 .nil (by simp [DFields.ids])]
        rfl
      · intro thr
        simp only [fromD]
        rw [h4 .nil (by simp [Fields.keys])]
        rfl
  | .message hh p, h => by
    cases h with
    | message _ _ h1 h2 h3 h4 h5 h6 h7 hp =>
      obtain ⟨r, w, g1, g2, g3⟩ := plain_py E p hp
      obtain ⟨z, hz, hz1, hz2⟩ := h2
      refine ⟨.obj (.message (headOf hh z) r), _, toD_message h1 hz hz1 h3 h4 h5 h6 h7 g1, fromRef_obj ?_,
        .message _ ⟨hh.msgid, some z, some (hh.frm.getD []), some (hh.dest.getD []), some (hh.state.getD 0), some (hh.hops.getD 0)⟩ _ _ ?_ g3⟩
      · intro thr
        simp only [fromD, g2 false, headOf]
        have : 256 + z - 256 = z := by omega
        rw [this]
      · refine ⟨rfl, ?_, ?_, ?_, ?_, ?_⟩
        · intro x hx; rw [hz] at hx; exact hx
        · intro x hx; simp [hx]
        · intro x hx; simp [hx]
        · intro x hx; simp [hx]
        · intro x hx; simp [hx]
  | .seq k is, h => by
    cases h with
    | dmilist _ hi => exact rt_list (plain_items E is hi).1 _ (by simp only [toD])
    | bools _ _ hk hb => exact rt_bools hk is hb
    | uniform _ _ hk hi ho ht => exact plain_tuple_one hk is hi ho (plain_items E is hi).1 (plain_items E is hi).2 ht
    | mixed _ _ hk hi hn ho => exact rt_mixed hk is hi hn ho (plain_items E is hi).1
  | .other, h => by cases h
theorem plain_items (E : Env) : ∀ is, PlainItems E is → RTI E is ∧ ∀ v ∈ is.toList, RT E v
  | .nil, _ => ⟨⟨.nil, .nil, rfl, fun _ => rfl, .nil⟩, by intro v hv; simp [Items.toList] at hv⟩
  | .cons v r, h => by
    cases h with
    | cons _ _ hv hr =>
      have gv := plain_py E v hv
      obtain ⟨gi, gm⟩ := plain_items E r hr
      refine ⟨?_, ?_⟩
      · obtain ⟨d, w, g1, g2, g3⟩ := gv
        obtain ⟨ds, ws, h1, h2, h3⟩ := gi
        refine ⟨.cons d ds, .cons w ws, by simp [listItems, g1, h1], ?_, .cons _ _ _ _ g3 h3⟩
        intro thr; simp [fromItems, g2 thr, h2 thr]
      · intro w hw
        simp only [Items.toList, List.mem_cons] at hw
        cases hw with
        | inl e => rw [e]; exact gv
        | inr e => exact gm w e
theorem plain_fields (E : Env) : ∀ fs, PlainFields E fs → RTF E fs
  | .nil, _ => fun _ _ => ⟨.nil, .nil, rfl, .nil, rfl, fun acc _ => by simp [toFields, DFields.app_nil],
      fun acc _ => by simp [fromFields, Fields.app_nil]⟩
  | .cons k v r, h => by
    cases h with
    | cons _ _ _ hv hr => exact rtf_cons (plain_py E v hv) (plain_fields E r hr)
end

/-- A kernel object comes back the same. -/
def ST (E : Env) (d : D) : Prop :=
  ∃ v, (∀ thr, fromD E thr d = some v) ∧ toD E false v = some (.obj d, false) ∧
    ∀ t, Nonscalar t d → ∃ c, t = tidOf c ∧ Typed E v c
def STR (E : Env) (r : DRef) : Prop := ∃ v, (∀ thr, fromRef E thr r = some v) ∧ toD E false v = some (r, false)
def STI (E : Env) (ds : DItems) : Prop := ∃ ws, (∀ thr, fromItems E thr ds = some ws) ∧ listItems E false ws = some (ds, false)
def STV (E : Env) (t : Tid) (ds : DItems) : Prop :=
  ∃ ws, (∀ thr, fromItems E thr ds = some ws) ∧ objItems E t false ws = some (ds, false) ∧
    ∀ w ∈ ws.toList, ∃ c, t = tidOf c ∧ Typed E w c

theorem nonscalar_dtid {t : Tid} {d : D} (h : Nonscalar t d) : dtid d = t := by cases h <;> rfl

theorem nonscalar_num {t : Tid} {c : Nat} {ty : Ty} {sh : List Nat} {da : List Num} (h : Nonscalar t (.num c ty sh da)) :
    t = .arr c ∧ (sh = [1] → c ≠ 0) := by
  cases h; exact ⟨rfl, by assumption⟩

/-- Numbers written to Python and back. -/
theorem nums_back {ty : Ty} : ∀ {l : List Num}, (∀ n ∈ l, NumFits ty n) →
    ∃ ws, numsToItems ty l = some ws ∧ numItems false ws = some (l, false) ∧
      ∀ w ∈ ws.toList, ∀ E, ∃ c, Tid.num ty = tidOf c ∧ Typed E w c
  | [], _ => ⟨.nil, rfl, rfl, by intro w hw; simp [Items.toList] at hw⟩
  | n :: l, h => by
    obtain ⟨ws, h1, h2, h3⟩ := nums_back (ty := ty) (l := l) (fun m hm => h m (List.mem_cons_of_mem _ hm))
    have hn := h n List.mem_cons_self
    have key : ∃ v, numToPy ty n = some v ∧ numItems false (.cons v ws) = some (n :: l, false) ∧
        ∀ E, ∃ c, Tid.num ty = tidOf c ∧ Typed E v c := by
      cases ty <;> cases n <;> simp only [NumFits] at hn
      · rename_i z
        rcases hn with rfl | rfl
        · exact ⟨.bool false, by simp [numToPy], by simp [numItems, h2], fun E => ⟨.bool, rfl, by simp [Typed, pyType, dmiType, tidOf]⟩⟩
        · exact ⟨.bool true, by simp [numToPy], by simp [numItems, h2], fun E => ⟨.bool, rfl, by simp [Typed, pyType, dmiType, tidOf]⟩⟩
      · rename_i z
        exact ⟨.int z, by simp [numToPy], by simp [numItems, h2, asInt_id hn],
          fun E => ⟨.int, rfl, by simp [Typed, pyType, dmiType, tidOf]⟩⟩
      · rename_i x
        exact ⟨.flt x, by simp [numToPy], by simp [numItems, h2], fun E => ⟨.flt, rfl, by simp [Typed, pyType, dmiType, tidOf]⟩⟩
      · rename_i a b
        exact ⟨.cplx a b, by simp [numToPy], by simp [numItems, h2], fun E => ⟨.cplx, rfl, by simp [Typed, pyType, dmiType, tidOf]⟩⟩
    obtain ⟨v, k1, k2, k3⟩ := key
    refine ⟨.cons v ws, by simp [numsToItems, k1, h1], k2, ?_⟩
    intro w hw E
    simp only [Items.toList, List.mem_cons] at hw
    cases hw with
    | inl e => rw [e]; exact k3 E
    | inr e => exact h3 w e E

theorem strs_back : ∀ {l : List (List Nat)}, (∀ s ∈ l, 0 ∉ s) → strItems (strsToItems l) = some l ∧
    ∀ w ∈ (strsToItems l).toList, ∀ E, Typed E w .str
  | [], _ => ⟨rfl, by intro w hw; simp [strsToItems, Items.toList] at hw⟩
  | s :: l, h => by
    have ih := strs_back (l := l) (fun m hm => h m (List.mem_cons_of_mem _ hm))
    have hs := cstr_id (h s List.mem_cons_self)
    refine ⟨by simp [strsToItems, strItems, hs, ih.1], ?_⟩
    intro w hw E
    simp only [strsToItems, Items.toList, List.mem_cons] at hw
    cases hw with
    | inl e => rw [e]; simp [Typed, pyType, dmiType, tidOf]
    | inr e => exact ih.2 w e E

theorem hiids_back : ∀ {l : List (List Int)}, (∀ s ∈ l, ∀ z ∈ s, Int32 z) → hiidItems false (hiidsToItems l) = some l ∧
    ∀ w ∈ (hiidsToItems l).toList, ∀ E, Typed E w .hiid
  | [], _ => ⟨rfl, by intro w hw; simp [hiidsToItems, Items.toList] at hw⟩
  | s :: l, h => by
    have ih := hiids_back (l := l) (fun m hm => h m (List.mem_cons_of_mem _ hm))
    refine ⟨by simp [hiidsToItems, hiidItems, hiidConv_id (h s List.mem_cons_self), ih.1], ?_⟩
    intro w hw E
    simp only [hiidsToItems, Items.toList, List.mem_cons] at hw
    cases hw with
    | inl e => rw [e]; simp [Typed, pyType, dmiType, tidOf]
    | inr e => exact ih.2 w e E

theorem scan_back {E : Env} {t : Tid} {ws : Items} (hne : ws ≠ .nil) (h : ∀ w ∈ ws.toList, ∃ c, t = tidOf c ∧ Typed E w c) :
    scan E false none ws = some (false, some t, false) := by
  cases ws with
  | nil => exact absurd rfl hne
  | cons v r =>
    obtain ⟨c, hc, _⟩ := h v (by simp [Items.toList])
    subst hc
    refine scan_uniform0 v r ?_
    intro w hw
    obtain ⟨c', hc', ht⟩ := h w hw
    rw [tidOf_inj hc']; exact ht

theorem nonscalar_vec {E : Env} {t : Tid} {d : D} (h : Nonscalar t d) (ws : Items) (hd : dtid d = .vec) :
    ∃ c, t = tidOf c ∧ Typed E (.seq .tuple ws) c := by
  have := nonscalar_dtid h
  refine ⟨.tuple, by rw [← this, hd]; rfl, ?_⟩
  simp [Typed, pyType, dmiType, tidOf]

def STF (E : Env) (fs : DFields) : Prop :=
  (∀ id ∈ fs.ids, id ≠ [] ∧ E.parse (E.print id) = some id) → fs.ids.Nodup → ∃ ws : Fields, ws.keys = fs.ids.map E.print ∧
    (∀ acc : Fields, (∀ k ∈ acc.keys, k ∉ ws.keys) → fromFields E acc fs = acc.app ws) ∧
    (∀ acc : DFields, (∀ id ∈ acc.ids, id ∉ fs.ids) → toFields E acc ws = acc.app fs)

theorem stf_cons {E : Env} {id : List Int} {r : DRef} {t : DFields} (hv : STR E r) (hr : STF E t) : STF E (.cons id r t) := by
  intro hk hn
  simp only [DFields.ids, List.nodup_cons] at hn
  obtain ⟨ws, h1, h2, h3⟩ := hr (fun k' h' => hk k' (by simp [DFields.ids, h'])) hn.2
  obtain ⟨v, g1, g2⟩ := hv
  obtain ⟨hid, hpa⟩ := hk id (by simp [DFields.ids])
  refine ⟨.cons (E.print id) v ws, by simp [DFields.ids, Fields.keys, h1], ?_, ?_⟩
  · intro acc hacc
    simp only [fromFields, g1 false]
    have hnot : E.print id ∉ acc.keys := fun h => hacc _ h (by simp [Fields.keys])
    rw [setItem_new hnot, h2]
    · rw [Fields.app_assoc]; rfl
    · intro i hi
      rw [Fields.keys_app, List.mem_append] at hi
      cases hi with
      | inl hi => exact fun h => hacc i hi (by simp [Fields.keys, h])
      | inr hi =>
        simp only [Fields.keys, List.mem_singleton] at hi
        rw [hi, h1]
        intro hmem
        obtain ⟨j, hj, he⟩ := List.mem_map.mp hmem
        have hj' := (hk j (by simp [DFields.ids, hj])).2
        rw [he, hpa] at hj'
        cases hj'
        exact hn.1 hj
  · intro acc hacc
    simp only [toFields, hpa, g2, if_neg hid]
    have hnot : id ∉ acc.ids := fun h => hacc id h (by simp [DFields.ids])
    rw [addField_new hnot, h3]
    · rw [DFields.app_assoc]; rfl
    · intro i hi
      rw [DFields.ids_app, List.mem_append] at hi
      cases hi with
      | inl hi => exact fun h => hacc i hi (by simp [DFields.ids, h])
      | inr hi =>
        simp only [DFields.ids, List.mem_singleton] at hi
        rw [hi]; exact hn.1

theorem npToTy_tyToNp {ty : Ty} (h : ty ∈ [Ty.bool, .uchar, .short, .int, .float, .double, .fcomplex, .dcomplex]) :
    ∃ np, tyToNp ty = some np ∧ npToTy np = some ty := by
  cases ty <;> simp [npToTy, tyToNp] at h ⊢

mutual
theorem stable_d (E : Env) : ∀ d, Stable E d → ST E d
  | .num c ty sh da, h => by
    cases h with
    | scalar _ n hn hb =>
      have hbool : ∀ t, Nonscalar t (.num 0 ty [1] [n]) → False := fun t ht => (nonscalar_num ht).2 rfl rfl
      cases ty <;> cases n <;> simp only [NumFits] at hn
      · exact absurd rfl hb
      · rename_i z
        exact ⟨.int z, fun _ => by simp [fromD, numToPy], by simp [toD, asInt_id hn], fun t ht => (hbool t ht).elim⟩
      · rename_i x
        exact ⟨.flt x, fun _ => by simp [fromD, numToPy], by simp [toD], fun t ht => (hbool t ht).elim⟩
      · rename_i a b
        exact ⟨.cplx a b, fun _ => by simp [fromD, numToPy], by simp [toD], fun t ht => (hbool t ht).elim⟩
    | array _ _ _ _ hc hty h1 h10 hsh =>
      obtain ⟨np, k1, k2⟩ := npToTy_tyToNp hty
      refine ⟨.array c np false sh da, ?_, ?_, ?_⟩
      · intro thr
        simp only [fromD, k1]
        rw [if_neg]
        intro hh
        exact hsh (shape_one hh.1 hh.2.1) hh.2.2
      · have hne : sh ≠ [] := by intro e; rw [e] at h1; simp at h1
        simp only [toD, toArray, hc, k2]
        rw [if_neg (by simp), if_neg (by omega), if_neg hne]
        rfl
      · intro t ht
        refine ⟨.array c, (nonscalar_num ht).1, ?_⟩
        simp [Typed, pyType, dmiType, tidOf, hc]
  | .vecNull, _ => ⟨.seq .tuple .nil, fun _ => rfl, rfl, fun t ht => nonscalar_vec ht _ rfl⟩
  | .vecNum ty sc da, h => by
    cases h with
    | vecNum _ _ hne hf =>
      obtain ⟨ws, h1, h2, h3⟩ := nums_back hf
      refine ⟨.seq .tuple ws, fun _ => by simp [fromD, h1], ?_, fun t ht => nonscalar_vec ht _ rfl⟩
      have hnw : ws ≠ .nil := by
        intro e; subst e
        simp [numItems] at h2
        exact hne h2
      simp only [toD, scan_back hnw (fun w hw => h3 w hw E), h2]
      rfl
  | .vecStr sc l, h => by
    cases h with
    | str s hs => exact ⟨.str s, fun _ => by simp [fromD, cstr_id hs], by simp [toD, cstr_id hs], fun t ht => by cases ht⟩
    | strs _ hne hs =>
      have hb := strs_back hs
      refine ⟨.seq .tuple (strsToItems l), fun _ => by simp [fromD], ?_, fun t ht => nonscalar_vec ht _ rfl⟩
      have hnw : strsToItems l ≠ .nil := by
        cases l with
        | nil => exact absurd rfl hne
        | cons => simp [strsToItems]
      have hsc : scan E false none (strsToItems l) = some (false, some .str, false) :=
        scan_back hnw (fun w hw => ⟨.str, rfl, hb.2 w hw E⟩)
      simp only [toD, hsc, hb.1]
      rfl
  | .vecHiid sc l, h => by
    cases h with
    | hiid s hs => exact ⟨.hiid s, fun _ => by simp [fromD], by simp [toD, hiidConv_id hs], fun t ht => by cases ht⟩
    | hiids _ hne hs =>
      have hb := hiids_back hs
      refine ⟨.seq .tuple (hiidsToItems l), fun _ => by simp [fromD], ?_, fun t ht => nonscalar_vec ht _ rfl⟩
      have hnw : hiidsToItems l ≠ .nil := by
        cases l with
        | nil => exact absurd rfl hne
        | cons => simp [hiidsToItems]
      have hsc : scan E false none (hiidsToItems l) = some (false, some .hiid, false) :=
        scan_back hnw (fun w hw => ⟨.hiid, rfl, hb.2 w hw E⟩)
      simp only [toD, hsc, hb.1]
      rfl
  | .vecObj t sc is, h => by
    cases h with
    | vecObj _ r is' hv =>
      have ht : t = .vec ∨ t = .list ∨ t = .msg ∨ (∃ n, t = .arr n) ∨ ∃ n, t = .recd n := by
        cases hv with
        | cons _ o _ _ hns _ => cases hns <;> simp
      obtain ⟨ws, h1, h2, h3⟩ := stable_v E t (.cons r is') hv
      refine ⟨.seq .tuple ws, fun thr => by simp [fromD, h1 thr], ?_, fun t ht => nonscalar_vec ht _ rfl⟩
      have hnw : ws ≠ .nil := by intro e; subst e; simp [objItems] at h2
      simp only [toD, scan_back hnw h3]
      rcases ht with rfl | rfl | rfl | ⟨n, rfl⟩ | ⟨n, rfl⟩ <;> simp [h2]
  | .record c fs, h => by
    cases h with
    | record _ _ hc hk hn hf =>
      obtain ⟨ws, h1, h2, h3⟩ := stable_f E fs hf hk hn
      refine ⟨.record c ws, ?_, ?_, ?_⟩
      · intro thr
        simp only [fromD]
        rw [h2 .nil (by simp [Fields.keys])]; rfl
      · simp only [toD, hc]
        rw [if_neg (by simp), h3 .nil (by simp [DFields.ids])]; rfl
      · intro t ht
        refine ⟨.record c, (nonscalar_dtid ht).symm, ?_⟩
        simp [Typed, pyType, dmiType, tidOf, hc]
  | .list is, h => by
    cases h with
    | list _ hi =>
      obtain ⟨ws, h1, h2⟩ := stable_i E is hi
      refine ⟨.seq .dmilist ws, fun _ => by simp [fromD, h1 false], by simp [toD, h2], ?_⟩
      intro t ht
      refine ⟨.dmilist, (nonscalar_dtid ht).symm, ?_⟩
      simp [Typed, pyType, dmiType, tidOf]
  | .message hh p, h => by
    cases h with
    | message _ _ h1 h2 h2' h3 h4 h5 h6 hp =>
      obtain ⟨v, g1, g2⟩ := stable_r E p hp
      refine ⟨.message ⟨hh.id, some (hh.priority - 256), some hh.frm, some hh.dest, some hh.state, some hh.hops⟩ v,
        fun _ => by simp [fromD, g1 false], ?_, ?_⟩
      · rw [toD_message (z := hh.priority - 256) (r := p) h1 rfl h2' (by intro l hl; cases hl; exact h3) (by intro l hl; cases hl; exact h4)
          (by intro hl; cases hl) (by intro l hl; cases hl; exact h5) (by intro l hl; cases hl; exact h6) g2]
        unfold headOf
        have : 256 + (hh.priority - 256) = hh.priority := by omega
        simp [this]
      · intro t ht
        refine ⟨.message, (nonscalar_dtid ht).symm, ?_⟩
        simp [Typed, pyType, dmiType, tidOf]
theorem stable_r (E : Env) : ∀ r, StableRef E r → STR E r
  | .null, _ => ⟨.none, fun _ => rfl, rfl⟩
  | .obj o, h => by
    cases h with
    | obj _ ho =>
      obtain ⟨v, h1, h2, _⟩ := stable_d E o ho
      exact ⟨v, fromRef_obj h1, h2⟩
theorem stable_i (E : Env) : ∀ is, StableItems E is → STI E is
  | .nil, _ => ⟨.nil, fun _ => rfl, rfl⟩
  | .cons r t, h => by
    cases h with
    | cons _ _ hr ht =>
      obtain ⟨v, g1, g2⟩ := stable_r E r hr
      obtain ⟨ws, h1, h2⟩ := stable_i E t ht
      exact ⟨.cons v ws, fun thr => by simp [fromItems, g1 thr, h1 thr], by simp [listItems, g2, h2]⟩
theorem stable_v (E : Env) (t : Tid) : ∀ is, StableVec E t is → STV E t is
  | .nil, _ => ⟨.nil, fun _ => rfl, rfl, by intro w hw; simp [Items.toList] at hw⟩
  | .cons .null _, h => by cases h
  | .cons (.obj o) r, h => by
    cases h with
    | cons _ _ _ ho hns hr =>
      obtain ⟨v, g1, g2, g3⟩ := stable_d E o ho
      obtain ⟨ws, h1, h2, h3⟩ := stable_v E t r hr
      refine ⟨.cons v ws, fun thr => by simp [fromItems, fromRef, g1 thr, h1 thr], by simp [objItems, g2, h2, nonscalar_dtid hns], ?_⟩
      intro w hw
      simp only [Items.toList, List.mem_cons] at hw
      cases hw with
      | inl e => rw [e]; exact g3 t hns
      | inr e => exact h3 w e
theorem stable_f (E : Env) : ∀ fs, StableFields E fs → STF E fs
  | .nil, _ => fun _ _ => ⟨.nil, rfl, fun acc _ => by simp [fromFields, Fields.app_nil],
      fun acc _ => by simp [toFields, DFields.app_nil]⟩
  | .cons id r t, h => by
    cases h with
    | cons _ _ _ hr ht => exact stf_cons (stable_r E r hr) (stable_f E t ht)
end

/-! Fields of a record do not affect each other. -/

theorem get_add_self (id : List Int) (d : DRef) : ∀ acc : DFields, (addField id d acc).get id = some d
  | .nil => by simp [addField, DFields.get]
  | .cons i r t => by
    simp only [addField]
    split
    · simp [DFields.get]
    · rename_i h; simp [DFields.get, h, get_add_self id d t]

theorem get_add_other {id id' : List Int} (h : id' ≠ id) (d : DRef) : ∀ acc : DFields, (addField id d acc).get id' = acc.get id'
  | .nil => by simp [addField, DFields.get, Ne.symm h]
  | .cons i r t => by
    simp only [addField]
    split
    · rename_i e; subst e; simp [DFields.get, Ne.symm h]
    · simp only [DFields.get, get_add_other h d t]

/-- The field of an identifier after the loop over the keys. -/
theorem get_toFields (E : Env) (id : List Int) : ∀ (fs : Fields) (acc : DFields),
    (toFields E acc fs).get id =
      (fs.toList.foldl (fun cur kv => if E.parse kv.1 = some id ∧ id ≠ [] then
        (match toD E false kv.2 with | none => cur | some p => some p.1) else cur) (acc.get id))
  | .nil, acc => rfl
  | .cons k v r, acc => by
    simp only [toFields, Fields.toList, List.foldl_cons]
    cases hp : E.parse k with
    | none => simp [get_toFields E id r acc]
    | some i =>
      cases ht : toD E false v with
      | none => simp [get_toFields E id r acc]
      | some q =>
        obtain ⟨d, p⟩ := q
        simp only [Option.some.injEq]
        by_cases hi : i = []
        · subst hi
          rw [if_pos rfl, get_toFields E id r acc, if_neg]
          intro h; exact h.2 h.1.symm
        · rw [if_neg hi, get_toFields E id r]
          by_cases e : i = id
          · subst e; rw [get_add_self, if_pos ⟨rfl, hi⟩]
          · rw [get_add_other (fun h => e h.symm), if_neg (fun h => e h.1)]

/-- The value last found for an identifier. -/
def pick (E : Env) (id : List Int) (cur : Option DRef) (kv : String × Py) : Option DRef :=
  if E.parse kv.1 = some id ∧ id ≠ [] then (match toD E false kv.2 with | none => cur | some p => some p.1) else cur

theorem get_toFields' (E : Env) (id : List Int) (fs : Fields) :
    (toFields E .nil fs).get id = fs.toList.foldl (pick E id) none := get_toFields E id fs .nil

theorem pick_keep {E : Env} {id : List Int} : ∀ (l : List (String × Py)) (cur : Option DRef),
    (∀ kv ∈ l, E.parse kv.1 = some id → toD E false kv.2 = none) → l.foldl (pick E id) cur = cur
  | [], _, _ => rfl
  | kv :: l, cur, h => by
    rw [List.foldl_cons, pick_keep l _ (fun x hx => h x (List.mem_cons_of_mem _ hx))]
    unfold pick
    split
    · rename_i hh; rw [h kv List.mem_cons_self hh.1]
    · rfl

theorem pick_from {E : Env} {id : List Int} {r : DRef} : ∀ (l : List (String × Py)) (cur : Option DRef),
    l.foldl (pick E id) cur = some r →
      cur = some r ∨ ∃ kv ∈ l, E.parse kv.1 = some id ∧ id ≠ [] ∧ ∃ p, toD E false kv.2 = some (r, p)
  | [], _, h => .inl h
  | kv :: l, cur, h => by
    rw [List.foldl_cons] at h
    rcases pick_from l _ h with h' | ⟨x, hx, hh⟩
    · unfold pick at h'
      split at h'
      · rename_i hc
        cases ht : toD E false kv.2 with
        | none => rw [ht] at h'; exact .inl h'
        | some q =>
          rw [ht] at h'
          cases h'
          exact .inr ⟨kv, List.mem_cons_self, hc.1, hc.2, q.2, ht⟩
      · exact .inl h'
    · exact .inr ⟨x, List.mem_cons_of_mem _ hx, hh⟩

theorem Fields.toList_app : ∀ (a b : Fields), (a.app b).toList = a.toList ++ b.toList
  | .nil, _ => rfl
  | .cons k v r, b => by simp [Fields.app, Fields.toList, Fields.toList_app r b]

theorem Fields.keys_toList : ∀ a : Fields, a.keys = a.toList.map Prod.fst
  | .nil => rfl
  | .cons k v r => by simp [Fields.keys, Fields.toList, Fields.keys_toList r]

theorem fromFields_all (E : Env) : ∀ (fs : DFields) (acc : Fields), (fs.toList.map (fun p => E.print p.1)).Nodup →
    (∀ p ∈ fs.toList, E.print p.1 ∉ acc.keys) →
    (fromFields E acc fs).toList = acc.toList ++ fs.toList.map (fun p => (E.print p.1, (fromRef E false p.2).getD .other))
  | .nil, acc, _, _ => by simp [fromFields, DFields.toList]
  | .cons id r t, acc, hn, hk => by
    simp only [DFields.toList, List.map_cons, List.nodup_cons] at hn
    simp only [fromFields]
    rw [setItem_new (hk (id, r) (by simp [DFields.toList])), fromFields_all E t _ hn.2]
    · simp only [Fields.toList_app, Fields.toList, DFields.toList, List.map_cons, List.append_assoc, List.singleton_append]
      cases fromRef E false r <;> rfl
    · intro p hp
      rw [Fields.keys_app, List.mem_append, not_or]
      refine ⟨hk p (by simp [DFields.toList, hp]), ?_⟩
      simp only [Fields.keys, List.mem_singleton]
      intro e
      exact hn.1 (List.mem_map.mpr ⟨p, hp, e⟩)

end Verif.PyConv
