import Verif.Proof.PyConv
/-!
# Properties of the conversion between Python and the kernel (C191-C194)
-/
namespace Verif.PyConv

/-- An environment: one derived record class, no derived array classes; keys are names of one-part identifiers. -/
def exE : Env where
  recCls c := decide (c ≤ 1)
  arrCls c := decide (c = 0)
  parse k := if k = "a" then some [-1] else if k = "b" then some [-2] else none
  print id := if id = [-1] then "a" else if id = [-2] then "b" else ""
  fswap x := x + 1

/-! ## C191: there and back -/

/-- C191 as one would wish it: any value of the known types comes back the same. -/
def C191_full : Prop :=
  ∀ (E : Env) (v : Py), Supported E v →
    ∃ r p w, toD E false v = some (r, p) ∧ fromRef E true r = some w ∧ Same v w

/-- C191, for plain values: what Python sends to the kernel and reads back is the same, up to the kind of sequence. No exception is
left pending. Missing: wide integers, lone truth values, NUL characters, byte-swapped arrays, arrays of shape [1] and
rank 0, and several kinds of nested sequence, for which it fails (below). -/
theorem C191_partial (E : Env) (v : Py) (h : Plain E v) :
    ∃ r w, toD E false v = some (r, false) ∧ (∀ thr, fromRef E thr r = some w) ∧ Same v w := plain_py E v h

/-- Integers of 64 bits that do not fit 32 are reduced modulo 2^32 without notice. -/
theorem C191_wide_int (E : Env) : ∃ r p, toD E false (.int (2 ^ 31)) = some (r, p) ∧ p = false ∧
    fromRef E true r = some (.int (-(2 ^ 31))) :=
  ⟨.obj (.num 0 .int [1] [.i (-(2 ^ 31))]), false, by simp only [toD]; rfl, rfl, by simp [fromRef, fromD, numToPy]⟩

/-- Integers beyond 64 bits become -1. -/
theorem C191_huge_int (E : Env) (z : Int) (hz : (2 ^ 63 : Int) ≤ z) :
    ∃ r p, toD E false (.int z) = some (r, p) ∧ fromRef E true r = some (.int (-1)) := by
  have : asInt false z = (-1, true) := by unfold asInt; rw [if_neg (by omega)]
  exact ⟨.obj (.num 0 .int [1] [.i (-1)]), true, by simp only [toD, this], by simp [fromRef, fromD, numToPy]⟩

/-- A truth value on its own comes back as an integer. -/
theorem C191_lone_bool (E : Env) (b : Bool) : ∃ r, toD E false (.bool b) = some (r, false) ∧
    fromRef E true r = some (.int (if b then 1 else 0)) :=
  ⟨.obj (.num 0 .int [1] [.i (if b then 1 else 0)]), by simp only [toD], by simp [fromRef, fromD, numToPy]⟩

/-- Text ends at its first NUL. -/
theorem C191_nul (E : Env) : ∃ r, toD E false (.str [97, 0, 98]) = some (r, false) ∧ fromRef E true r = some (.str [97]) :=
  ⟨.obj (.vecStr true [[97]]), by simp [toD, cstr], by simp [fromRef, fromD, cstr]⟩

/-- A tuple of tuples of mixed types cannot be converted, although each of the inner tuples can. -/
theorem C191_mixed_rows (E : Env) :
    toD E false (.seq .tuple (.cons (.seq .tuple (.cons (.int 1) (.cons (.str [97]) .nil)))
      (.cons (.seq .tuple (.cons (.int 2) (.cons (.str [98]) .nil))) .nil))) = none := by
  simp [toD, scan, pyType, dmiType, objItems, listItems, dtid, asInt]

/-- A tuple of `None` and an identifier cannot be converted: the search for the type of `None` leaves an exception pending that
the conversion of the identifier takes for its own. -/
theorem C191_none_hiid (E : Env) (l : List Int) :
    toD E false (.seq .tuple (.cons .none (.cons (.hiid l) .nil))) = none := by
  simp [toD, scan, pyType, dmiType, listItems, hiidConv]

/-- For the same reason no list within a list may hold identifiers, arrays or records. -/
theorem C191_list_list (E : Env) (k : SeqKind) (hk : k ≠ .dmilist) (l : List Int) :
    toD E false (.seq k (.cons (.seq .list (.cons (.hiid l) .nil)) .nil)) = none := by
  cases k <;> simp_all [toD, scan, pyType, dmiType, hiidItems, objItems, hiidConv]

/-- A 64-bit integer array (or one of any other type without counterpart) cannot be converted. -/
theorem C191_unsupported (E : Env) (c : Nat) (n : Nat) (sw : Bool) (sh : List Nat) (da : List Num) :
    toD E false (.array c (.unsupported n) sw sh da) = none := by
  simp only [toD, toArray, npToTy]
  split
  · rfl
  · split <;> rfl

/-- The bytes of an array that is kept in the other byte order arrive in the wrong order. -/
theorem C191_byte_order : ∃ r, toD exE false (.array 0 .int16 true [2] [.i 1, .i 256]) = some (r, false) ∧
    fromRef exE true r = some (.array 0 .int16 false [2] [.i 256, .i 1]) :=
  ⟨.obj (.num 0 .short [2] [.i 256, .i 1]), by simp only [toD]; rfl, by simp [fromRef, fromD, tyToNp]⟩

/-- An array with one element, of rank 0 or 1, comes back as a number. -/
theorem C191_one_element (E : Env) (h : E.arrCls 0 = true) (sh : List Nat) (hs : sh = [] ∨ sh = [1]) (x : Nat) :
    ∃ r, toD E false (.array 0 .float64 false sh [.f x]) = some (r, false) ∧ fromRef E true r = some (.flt x) := by
  refine ⟨.obj (.num 0 .double [1] [.f x]), ?_, by simp [fromRef, fromD, numToPy]⟩
  rcases hs with rfl | rfl <;> simp [toD, toArray, npToTy, h]

theorem C191_refuted : ¬ C191_full := by
  intro h
  obtain ⟨r, p, w, h1, h2, h3⟩ := h exE (.int (2 ^ 31)) (.int _)
  obtain ⟨r', p', g1, _, g2⟩ := C191_wide_int exE
  rw [g1] at h1; cases h1
  rw [g2] at h2; cases h2
  generalize ha : (2 ^ 31 : Int) = a at h3
  generalize hb : (-a : Int) = b at h3
  cases h3
  omega

/-- A record with a nested record, a tuple of numbers and a mixed tuple. -/
def exPy : Py := .record 1 (.cons "a" (.seq .tuple (.cons (.int 3) (.cons (.flt 7) .nil)))
  (.cons "b" (.record 0 (.cons "b" (.seq .list (.cons (.str [104, 105]) (.cons (.str [104]) .nil))) .nil)) .nil))

example : Plain exE exPy := by
  have ka : KeyOk exE "a" := ⟨[-1], by decide, by decide, by decide⟩
  have kb : KeyOk exE "b" := ⟨[-2], by decide, by decide, by decide⟩
  refine .record _ _ rfl ?_ (by decide) (.cons _ _ _ ?_ (.cons _ _ _ ?_ .nil))
  · intro k hk
    simp only [Fields.keys, List.mem_cons, List.not_mem_nil, or_false] at hk
    rcases hk with rfl | rfl
    · exact ka
    · exact kb
  · refine .mixed _ _ (by decide) (.cons _ _ (.int _ (by decide)) (.cons _ _ (.flt _) .nil)) ?_ ?_
    · intro v hv
      simp only [Items.toList, List.mem_cons, List.not_mem_nil, or_false] at hv
      rcases hv with rfl | rfl <;> simp [Py.cls]
    · rintro ⟨c, hc⟩
      have h1 := hc (.int 3) (by simp [Items.toList])
      have h2 := hc (.flt 7) (by simp [Items.toList])
      simp only [Py.cls, Option.some.injEq] at h1 h2
      rw [← h1] at h2; cases h2
  · refine .record _ _ rfl ?_ (by decide) (.cons _ _ _ ?_ .nil)
    · intro k hk
      simp only [Fields.keys, List.mem_cons, List.not_mem_nil, or_false] at hk
      rw [hk]; exact kb
    · refine .uniform _ _ (by decide) (.cons _ _ (.str _ (by decide)) (.cons _ _ (.str _ (by decide)) .nil)) ⟨.str, ?_⟩ ?_
      · intro v hv
        simp only [Items.toList, List.mem_cons, List.not_mem_nil, or_false] at hv
        rcases hv with rfl | rfl <;> rfl
      · intro v hv js e
        subst e
        simp [Items.toList] at hv

/-! ## C192: fields of a record -/

/-- C192 as one would wish it: every field of a record arrives. -/
def C192_full : Prop :=
  ∀ (E : Env) (c : Nat) (fs : Fields), E.recCls c = true → fs.keys.Nodup → (∀ k ∈ fs.keys, KeyOk E k) →
    ∃ fs', toD E false (.record c fs) = some (.obj (.record c fs'), false) ∧
      ∀ k v id, (k, v) ∈ fs.toList → E.parse k = some id → ∃ r, fs'.get id = some r

/-- C192: a record is always converted, and its fields do not affect each other: a field whose key names an identifier and whose
value converts on its own has that value, unless a later key with the same identifier takes its place. -/
theorem C192_partial (E : Env) (c : Nat) (fs : Fields) (hc : E.recCls c = true) :
    ∃ fs', toD E false (.record c fs) = some (.obj (.record c fs'), false) ∧
      (∀ a k v b id r p, fs.toList = a ++ (k, v) :: b → E.parse k = some id → id ≠ [] → toD E false v = some (r, p) →
        (∀ kv ∈ b, E.parse kv.1 = some id → toD E false kv.2 = none) → fs'.get id = some r) ∧
      (∀ id r, fs'.get id = some r →
        ∃ k v p, (k, v) ∈ fs.toList ∧ E.parse k = some id ∧ id ≠ [] ∧ toD E false v = some (r, p)) := by
  refine ⟨toFields E .nil fs, by simp [toD, hc], ?_, ?_⟩
  · intro a k v b id r p hl hp hid ht hb
    rw [get_toFields', hl, List.foldl_append, List.foldl_cons, pick_keep b _ hb]
    unfold pick
    rw [if_pos ⟨hp, hid⟩, ht]
  · intro id r hg
    rw [get_toFields'] at hg
    rcases pick_from _ _ hg with h | ⟨⟨k, v⟩, hm, h1, h2, p, h3⟩
    · cases h
    · exact ⟨k, v, p, hm, h1, h2, h3⟩

/-- A field that cannot be converted is left out without notice. -/
theorem C192_refuted : ¬ C192_full := by
  intro h
  obtain ⟨fs', h1, h2⟩ := h exE 0 (.cons "a" .other .nil) rfl (by decide) (by
    intro k hk
    simp only [Fields.keys, List.mem_cons, List.not_mem_nil, or_false] at hk
    rw [hk]; exact ⟨[-1], by decide, by decide, by decide⟩)
  obtain ⟨r, hr⟩ := h2 "a" .other [-1] (by simp [Fields.toList]) (by decide)
  have : toD exE false (.record 0 (.cons "a" .other .nil)) = some (.obj (.record 0 .nil), false) := by
    simp [toD, toFields, exE]
  rw [this] at h1
  cases h1
  simp [DFields.get] at hr

/-- The way back: every field of a kernel record is there under its name, with the value it has on its own; one that cannot be
converted does not affect the others. -/
theorem C192_back (E : Env) (thr : Bool) (c : Nat) (fs : DFields) (hn : (fs.toList.map (fun p => E.print p.1)).Nodup) :
    ∃ ws, fromD E thr (.record c fs) = some (.record c ws) ∧
      ws.toList.map Prod.fst = fs.toList.map (fun p => E.print p.1) ∧
      ∀ id r v, (id, r) ∈ fs.toList → fromRef E false r = some v → (E.print id, v) ∈ ws.toList := by
  have h := fromFields_all E fs .nil hn (by simp [Fields.keys])
  refine ⟨fromFields E .nil fs, by simp [fromD], ?_, ?_⟩
  · rw [h]; simp [Fields.toList]
  · intro id r v hm hv
    rw [h]
    simp only [Fields.toList, List.nil_append, List.mem_map]
    exact ⟨(id, r), hm, by simp [hv]⟩

example : ∃ fs', toD exE false (.record 0 (.cons "a" .other (.cons "b" (.int 5) .nil))) = some (.obj (.record 0 fs'), false) ∧
    fs'.get [-2] = some (.obj (.num 0 .int [1] [.i 5])) ∧ fs'.get [-1] = none := by
  exact ⟨.cons [-2] (.obj (.num 0 .int [1] [.i 5])) .nil, by simp [toD, toFields, exE, addField, asInt, wrap], rfl, rfl⟩

example : ((DFields.cons [-1] .null (.cons [-2] (.obj .vecNull) .nil)).toList.map (fun p => exE.print p.1)).Nodup := by decide

/-! ## C193: messages -/

/-- C193 as one would wish it: whichever attributes of a message are set, they are carried over. -/
def C193_full : Prop :=
  ∀ (E : Env) (h : PyHead) (p : Py) (z : Int) (r : DRef) (b : Bool), (∀ x ∈ h.msgid, Int32 x) → h.priority = some z → Int32 z →
    (∀ l, h.frm = some l → ∀ x ∈ l, Int32 x) → (∀ l, h.dest = some l → ∀ x ∈ l, Int32 x) →
    (∀ x, h.state = some x → Int32 x) → (∀ x, h.hops = some x → Int16 x) → toD E false p = some (r, b) →
    ∃ b', toD E false (.message h p) = some (.obj (.message
      ⟨h.msgid, 256 + z, h.frm.getD [], h.dest.getD [], h.state.getD 0, h.hops.getD 0⟩ r), b')

/-- C193: identifier, priority (which the kernel counts from 256), sender, addressee, state, hop count and payload of a message
are carried over exactly, and attributes not set are empty or zero.  Missing: messages with an addressee but no sender, and
payloads that leave an exception pending, for which it fails. -/
theorem C193_partial (E : Env) (h : PyHead) (p : Py) (z : Int) (r : DRef) (h1 : ∀ x ∈ h.msgid, Int32 x)
    (h2 : h.priority = some z) (h2' : Int32 z)
    (h3 : ∀ l, h.frm = some l → ∀ x ∈ l, Int32 x) (h4 : ∀ l, h.dest = some l → ∀ x ∈ l, Int32 x)
    (h5 : h.frm = none → h.dest = none) (h6 : ∀ x, h.state = some x → Int32 x) (h7 : ∀ x, h.hops = some x → Int16 x)
    (hp : toD E false p = some (r, false)) :
    toD E false (.message h p) = some (.obj (.message
      ⟨h.msgid, 256 + z, h.frm.getD [], h.dest.getD [], h.state.getD 0, h.hops.getD 0⟩ r), false) :=
  toD_message h1 h2 h2' h3 h4 h5 h6 h7 hp

/-- The way back. -/
theorem C193_back (E : Env) (thr : Bool) (h : MsgHead) (p : DRef) (v : Py) (hv : fromRef E false p = some v) :
    fromD E thr (.message h p) =
      some (.message ⟨h.id, some (h.priority - 256), some h.frm, some h.dest, some h.state, some h.hops⟩ v) := by
  simp only [fromD, hv]

/-- A message with an addressee but without a sender cannot be converted. -/
theorem C193_no_sender (E : Env) (h : PyHead) (p : Py) (l : List Int) (hf : h.frm = none) (hd : h.dest = some l) :
    toD E false (.message h p) = none := by
  simp only [toD, hf, hd]
  cases hiidConv false h.msgid with
  | none => rfl
  | some id =>
    cases h.priority <;> dsimp only
    · cases toD E true p <;> simp [hiidConv]
    · cases toD E _ p <;> simp [hiidConv]

/-- Nor can one with a sender whose payload leaves an exception pending, such as a tuple that starts with `None`. -/
theorem C193_pending (E : Env) (h : PyHead) (p : Py) (z : Int) (r : DRef) (l : List Int) (hz : h.priority = some z) (hi : Int32 z)
    (hf : h.frm = some l) (hp : toD E false p = some (r, true)) : toD E false (.message h p) = none := by
  simp only [toD, hf, hz, asInt_id hi, hp]
  cases hiidConv false h.msgid <;> simp [hiidConv]

theorem C193_refuted : ¬ C193_full := by
  intro h
  obtain ⟨b', hb⟩ := h exE ⟨[-1], some 0, none, some [-2], none, none⟩ .none 0 .null false (by decide) rfl (by decide)
    (by intro l hl; cases hl) (by intro l hl; cases hl; decide) (by intro l hl; cases hl) (by intro l hl; cases hl) rfl
  rw [C193_no_sender exE _ _ [-2] rfl rfl] at hb
  cases hb

example : toD exE false (.message ⟨[-1], some 10, some [-2], some [-1, -2], none, some 3⟩ (.int 5)) =
    some (.obj (.message ⟨[-1], 266, [-2], [-1, -2], 0, 3⟩ (.obj (.num 0 .int [1] [.i 5]))), false) :=
  C193_partial exE _ _ 10 _ (by decide) rfl (by decide) (by intro l hl; cases hl; decide) (by intro l hl; cases hl; decide)
    (by intro e; cases e) (by intro x hx; cases hx) (by intro x hx; cases hx; decide) (by simp only [toD]; rfl)

example : toD exE false (.seq .tuple (.cons .none .nil)) = some (.obj (.list (.cons .null .nil)), true) := by
  simp [toD, scan, pyType, dmiType, listItems]

/-! ## C194: kernel values through Python -/

/-- C194 as one would wish it: what Python makes of a kernel value, given back, is that value. -/
def C194_full : Prop :=
  ∀ (E : Env) (d : D) (v : Py) (r : DRef) (p : Bool), fromD E true d = some v → toD E false v = some (r, p) → r = .obj d

/-- C194, for stable values: a kernel value read by Python and given back is identical. -/
theorem C194_partial (E : Env) (d : D) (h : Stable E d) :
    ∃ v, (∀ thr, fromD E thr d = some v) ∧ toD E false v = some (.obj d, false) := by
  obtain ⟨v, h1, h2, _⟩ := stable_d E d h
  exact ⟨v, h1, h2⟩

/-- A single-precision number comes back in double precision. -/
theorem C194_float (E : Env) (x : Nat) : fromD E true (.num 0 .float [1] [.f x]) = some (.flt x) ∧
    toD E false (.flt x) = some (.obj (.num 0 .double [1] [.f x]), false) := by
  constructor
  · simp [fromD, numToPy]
  · simp only [toD]

/-- A long integer is cut to 32 bits. -/
theorem C194_long (E : Env) : ∃ v, fromD E true (.num 0 .long [1] [.i (2 ^ 40 + 5)]) = some v ∧
    toD E false v = some (.obj (.num 0 .int [1] [.i 5]), false) :=
  ⟨.int (2 ^ 40 + 5), by simp [fromD, numToPy], by simp only [toD]; rfl⟩

theorem C194_refuted : ¬ C194_full := by
  intro h
  have := h exE _ _ _ _ (C194_float exE 0).1 (C194_float exE 0).2
  cases this

example : Stable exE (.record 1 (.cons [-1] (.obj (.list (.cons .null (.cons (.obj (.vecStr true [[104]])) .nil))))
    (.cons [-2] (.obj (.vecObj .vec false (.cons (.obj (.vecNum .int false [.i 1, .i 2])) .nil))) .nil))) := by
  refine .record _ _ rfl ?_ (by decide) (.cons _ _ _ (.obj _ (.list _ (.cons _ _ .null (.cons _ _ (.obj _ (.str _ (by decide))) .nil))))
    (.cons _ _ _ (.obj _ (.vecObj _ _ _ (.cons _ _ _ (.vecNum _ _ (by simp) ?_) (.vecNum _ _) (.nil _)))) .nil))
  · intro id hid
    simp only [DFields.ids, List.mem_cons, List.not_mem_nil, or_false] at hid
    rcases hid with rfl | rfl <;> decide
  · intro n hn
    simp only [List.mem_cons, List.not_mem_nil, or_false] at hn
    rcases hn with rfl | rfl <;> simp only [NumFits] <;> decide

end Verif.PyConv
