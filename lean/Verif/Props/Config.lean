import Verif.Proof.Config
/-!
# Properties of configurations (C202-C204)
-/
namespace Verif.Config

/-! ## C202: what is saved is loaded -/

/-- C202 as one would wish it: a configuration that is saved and loaded is the same. -/
def C202_full : Prop :=
  ∀ (date : List Nat) (c : List (List Nat × List Nat)), 10 ∉ date → 0 ∉ date → date.length ≤ 24 → Distinct c → load (save date c) = c

/-- C202, for names without blanks that do not start with `#`, values on one line that do not start with white space, and at
most 1022 bytes of both.  Missing: other names and values, for which it is false (`C202_refuted`). -/
theorem C202_partial (date : List Nat) (c : List (List Nat × List Nat)) (h10 : 10 ∉ date) (h0 : 0 ∉ date) (hl : date.length ≤ 24) (hd : Distinct c)
    (hp : ∀ p ∈ c, Plain p.1 p.2) : load (save date c) = c := by
  unfold load save
  have hb : Line (banner ++ date) := by
    refine ⟨?_, ?_, ?_⟩
    · rw [List.mem_append]; rintro (h | h)
      · revert h; decide
      · exact h10 h
    · rw [List.mem_append]; rintro (h | h)
      · revert h; decide
      · exact h0 h
    · rw [List.length_append]; have : banner.length = 25 := rfl; omega
  have e := mergeFile_line true [] (banner ++ date) ([10] ++ c.flatMap (fun p => cstr p.1 ++ [32] ++ cstr p.2 ++ [10])) hb
  rw [show banner ++ date ++ [10, 10] ++ c.flatMap (fun p => cstr p.1 ++ [32] ++ cstr p.2 ++ [10]) =
    banner ++ date ++ 10 :: ([10] ++ c.flatMap (fun p => cstr p.1 ++ [32] ++ cstr p.2 ++ [10])) by simp, e]
  have ha : apply1 true [] (banner ++ date) = [] := by
    unfold apply1
    have : parse0 (banner ++ date) = none := by
      unfold parse0
      have : (banner ++ date).dropWhile isSpace = banner ++ date := rfl
      simp only [this]
      exact if_pos (Or.inr rfl)
    rw [this]
  rw [ha]
  have e2 := mergeFile_line true [] [] (c.flatMap (fun p => cstr p.1 ++ [32] ++ cstr p.2 ++ [10])) ⟨by simp, by simp, by simp⟩
  rw [List.nil_append] at e2
  rw [show [10] ++ c.flatMap (fun p => cstr p.1 ++ [32] ++ cstr p.2 ++ [10]) = 10 :: c.flatMap (fun p => cstr p.1 ++ [32] ++ cstr p.2 ++ [10]) from rfl, e2]
  exact load_entries c [] hp hd

/-- A name with a blank is cut, and its rest becomes part of the value; leading blanks of a value are lost; a value with an end of line
sets something else; a name that starts with `#` is lost. -/
theorem C202_blank : load (save [] [(bytes "a b", bytes "c")]) = [(bytes "a", bytes "b c")] := by decide +kernel
theorem C202_leading : load (save [] [(bytes "a", bytes " b")]) = [(bytes "a", bytes "b")] := by decide +kernel
theorem C202_newline : load (save [] [(bytes "a", bytes "b\nc d")]) = [(bytes "a", bytes "b"), (bytes "c", bytes "d")] := by decide +kernel
theorem C202_comment : load (save [] [(bytes "#a", bytes "b")]) = [] := by decide +kernel

theorem C202_refuted : ¬ C202_full := by
  intro h
  have := h [] [(bytes "a b", bytes "c")] (by decide) (by decide) (by decide) (by simp [Distinct])
  rw [C202_blank] at this
  revert this
  decide

/-- A value that makes its line longer than 1023 bytes is cut: the rest is read as a line of its own, and here lost. -/
theorem C202_long (n v w : List Nat) (hn : 10 ∉ n ∧ 0 ∉ n ∧ 32 ∉ n ∧ ∃ c r, n = c :: r ∧ ¬ Space c ∧ c ≠ 35)
    (hv : 10 ∉ v ∧ 0 ∉ v ∧ ∀ c r, v = c :: r → ¬ Space c) (hw : 10 ∉ w ∧ 0 ∉ w ∧ 32 ∉ w ∧ w.length ≤ 1023) (hl : n.length + 1 + v.length = 1023) :
    load (n ++ [32] ++ v ++ w ++ [10]) = [(n, v)] := by
  have hpl : Plain n v := ⟨hn.2.2.1, hn.1, hn.2.1, hn.2.2.2, hv.1, hv.2.1, hv.2.2, by omega⟩
  obtain ⟨hline, hset⟩ := plain_line hpl
  unfold load
  have hlen : (n ++ [32] ++ v).length = 1023 := by simp; omega
  have e1 : mergeFile true [] (n ++ [32] ++ v ++ (w ++ [10])) = mergeFile true (apply1 true [] (n ++ [32] ++ v)) (w ++ [10]) := by
    unfold mergeFile
    rw [chunks_full (n ++ [32] ++ v) (w ++ [10]) 1023 [] hline.1 hlen (by simp)]
    rw [List.nil_append, List.foldl_cons, (parse_line hline.2.1 hline.1).1]
    rfl
  rw [List.append_assoc (n ++ [32] ++ v) w [10], e1]
  rw [show w ++ [10] = w ++ 10 :: [] from rfl, mergeFile_line true _ w [] ⟨hw.1, hw.2.1, hw.2.2.2⟩, mergeFile_nil]
  have ha : apply1 true [] (n ++ [32] ++ v) = [(n, v)] := by
    unfold apply1
    rw [(parse0_iff _ n v).mpr hset]
    rfl
  rw [ha]
  have hb : parse0 w = none := by
    cases hp : parse0 w with
    | none => rfl
    | some q =>
      obtain ⟨a, u, e, _⟩ := (parse0_iff w q.1 q.2).mp hp
      exact absurd (by rw [e]; simp : (32 : Nat) ∈ w) hw.2.2.1
  unfold apply1
  rw [hb]

/-- C202: an integer of 32 bits that is set is what one gets. -/
theorem C202_integer (c : List (List Nat × List Nat)) (n : List Nat) (v : Int) (h1 : -2147483648 ≤ v) (h2 : v ≤ 2147483647) :
    getInt (setInt c n v) n = .ok (some v) := by
  unfold getInt setInt
  rw [find_put, if_pos rfl]
  simp only [atoi_showInt v h1 h2, Res.ok_bind]

/-- Entries that meet the hypotheses: one with a value of several words, one without value. -/
example : Distinct [(bytes "gwport", bytes "4000 4001"), (bytes "x#", [])] ∧
    (∀ p ∈ [(bytes "gwport", bytes "4000 4001"), (bytes "x#", [])], Plain p.1 p.2) ∧
    find (load (save (bytes "Tue Nov 17 01:00:00 2026") [(bytes "gwport", bytes "4000 4001"), (bytes "x#", [])])) (bytes "gwport") = some (bytes "4000 4001") := by
  refine ⟨by unfold Distinct; decide, ?_, by decide +kernel⟩
  intro p hp
  simp only [List.mem_cons, List.not_mem_nil, or_false] at hp
  rcases hp with rfl | rfl
  · exact ⟨by decide, by decide, by decide, ⟨_, _, rfl, by unfold Space; decide, by decide⟩, by decide, by decide,
      (fun c r e => by cases e; unfold Space; decide), by decide⟩
  · exact ⟨by decide, by decide, by decide, ⟨_, _, rfl, by unfold Space; decide, by decide⟩, by decide, by decide, (fun c r e => by cases e), by decide⟩

/-! ## C203: the last setting counts -/

/-- C203: of a file, the last line that gives a name a value counts. -/
theorem C203_load (f : List Nat) (ls : List (List Nat)) (hf : IsText f ls) (hl : ∀ l ∈ ls, Line l) (n v : List Nat) :
    find (load f) n = some v ↔ Last (fun l v => Setting l n v) ls v := by
  unfold load
  rw [mergeFile_text true [] hf hl]
  exact fold_last (apply1 true) (fun n l v => Setting l n v) (fun c l n => apply1_gives c l n) n v ls

/-- C203, if lines of all files are at most 1023 bytes long and without zeros: the value of a name is the one given last, in this order:
the general, the host's and the program's file in the directory for configurations, the same files in the current directory, the file
named on the command line, the command line itself.  Missing: longer lines, which are read as several. -/
theorem C203_partial (d dir h dom p prog : List Nat) (rest loc : List (List Nat)) (fs : List Nat → Option (List Nat)) (text : List Nat → List (List Nat))
    (ht : ∀ f t, fs f = some t → IsText t (text f) ∧ ∀ l ∈ text f, Line l)
    (hd : d.getLast? ≠ some 47) (hdir : dir = d ∨ dir = d ++ bytes "/") (h1 : 46 ∉ h) (hdom : dom = [] ∨ ∃ r, dom = 46 :: r)
    (h2 : 47 ∉ prog) (hp : p = [] ∨ ∃ q, p = q ++ bytes "/") (hloc : LocalFile ((p ++ prog) :: rest) loc) (n v : List Nat) :
    find (init dir (h ++ dom) fs ((p ++ prog) :: rest)) n = some v ↔
      Last (Gives n) ((Files d h prog loc).flatMap (fun f => if (fs f).isSome then (text f).map Src.line else []) ++
        ((p ++ prog) :: rest).map Src.arg) v := by
  rw [slash_eq] at hdir hp
  unfold init
  simp only
  have e := fold_files fs text ht (fileNames dir (h ++ dom) ((p ++ prog) :: rest)) []
  have g := fold_last apply2 Gives apply2_gives n v ((Files d h prog loc).flatMap (fun f => if (fs f).isSome then (text f).map Src.line else []) ++
        ((p ++ prog) :: rest).map Src.arg)
  rw [List.foldl_append, ← fileNames_eq hd hdir h1 hdom h2 hp hloc, ← e, ← fold_args] at g
  rw [← fileNames_eq hd hdir h1 hdom h2 hp hloc]
  exact g

/-- The full statement: of all files, whatever their lines, the settings are those of their lines. -/
def C203_full : Prop :=
  ∀ (f : List Nat) (ls : List (List Nat)), IsText f ls → (∀ l ∈ ls, 10 ∉ l ∧ 0 ∉ l) → ∀ n v : List Nat,
    find (load f) n = some v ↔ Last (fun l v => Setting l n v) ls v

theorem C203_refuted : ¬ C203_full := by
  intro hF
  obtain ⟨V, hV, hb⟩ : ∃ V : List Nat, V.length = 1021 ∧ ∀ x ∈ V, x = 98 := ⟨List.replicate 1021 98, List.length_replicate, fun x hx => (List.mem_replicate.mp hx).2⟩
  have h10 : 10 ∉ V := fun h => by have := hb _ h; omega
  have h0 : 0 ∉ V := fun h => by have := hb _ h; omega
  have hs : ∀ c r, V = c :: r → ¬ Space c := fun c r e => by
    have := hb c (by rw [e]; exact List.mem_cons_self)
    subst this; unfold Space; decide
  have hl := C202_long [97] V [98] ⟨by decide, by decide, by decide, 97, [], rfl, by unfold Space; decide, by decide⟩
    ⟨h10, h0, hs⟩ ⟨by decide, by decide, by decide, by decide⟩ (by rw [hV]; rfl)
  have h := (hF _ [[97] ++ [32] ++ V ++ [98]] (Or.inl rfl) (by
    intro l hm
    rw [List.mem_singleton.mp hm]
    simp [h10, h0]) [97] (V ++ [98])).mpr ⟨[], _, [], rfl, ⟨[], [], by simp, by simp, by simp, by decide, ⟨97, [], rfl, by unfold Space; decide, by decide⟩, fun c r e => by
      cases V with
      | nil => cases hV
      | cons x V => cases e; exact hs c V rfl⟩, fun y hy => by cases hy⟩
  simp only [List.flatMap_cons, List.flatMap_nil, List.append_nil] at h
  rw [hl, find_cons, if_pos rfl] at h
  have := congrArg (fun o => (o.getD []).length) h
  simp at this

/-- C203: a setting that is made replaces one there was, and leaves the others alone; one that is removed is gone. -/
theorem C203_set (c : List (List Nat × List Nat)) (n v m : List Nat) :
    find (put c n v) m = (if m = n then some v else find c m) ∧ find (remove c n) m = (if m = n then none else find c m) :=
  ⟨find_put c n v m, find_remove c n m⟩

/-- C203: settings that do not replace others. -/
theorem C203_keep (c : List (List Nat × List Nat)) (a n v m : List Nat) (h : Assignment a n v) :
    find (mergeLine false c a) m = (if m = n then (find c n).or (some v) else find c m) := by
  obtain ⟨h1, h2, rfl, rfl⟩ := (assignment_iff a n v).mp h
  unfold mergeLine merge1
  rw [if_neg h1, if_pos h2]
  simp only [Bool.false_eq_true, false_or]
  split
  · rename_i e
    rw [find_put, e]; simp
  · rename_i e
    split
    · rename_i e'
      rw [← e'] at e ⊢
      cases hc : find c m with
      | none => exact absurd hc e
      | some w => rfl
    · rfl

/-- As one would wish it, for merging another configuration. -/
def C203_merge_full : Prop :=
  ∀ (c o : List (List Nat × List Nat)) (n : List Nat), find (mergeOther true c o) n = (find o n).or (find c n)

/-- C203: merging another configuration adds settings that were not there; it never replaces one, even if told to. -/
theorem C203_merge_partial (override : Bool) (c o : List (List Nat × List Nat)) (n : List Nat) :
    find (mergeOther override c o) n = (find c n).or (find o n) := mergeOther_find override o c n

theorem C203_merge_refuted : ¬ C203_merge_full := by
  intro h
  have := h [([1], [2])] [([1], [3])] [1]
  revert this
  decide

/-- A start with two files and a command line. -/
example : let fs : List Nat → Option (List Nat) := fun f =>
      if f = bytes "/home/u/.octopussy/octopussy.conf" then some (bytes "# general\ngwport 1\ngwtype 2\nx  y z")
      else if f = bytes "my.conf" then some (bytes "gwport 3\n") else none
    let c := init (bytes "/home/u/.octopussy") (bytes "host.domain") fs [bytes "/bin/prog", bytes "my.conf", bytes "gwtype=4"]
    find c (bytes "gwport") = some (bytes "3") ∧ find c (bytes "gwtype") = some (bytes "4") ∧ find c (bytes "x") = some (bytes "y z") := by
  decide +kernel

example : IsText (bytes "# general\ngwport 1\nx  y z") [bytes "# general", bytes "gwport 1", bytes "x  y z"] ∧
    ∀ l ∈ [bytes "# general", bytes "gwport 1", bytes "x  y z"], Line l := by
  refine ⟨Or.inr ⟨[bytes "# general", bytes "gwport 1"], bytes "x  y z", rfl, by decide, by decide⟩, ?_⟩
  intro l hl
  simp only [List.mem_cons, List.not_mem_nil, or_false] at hl
  rcases hl with rfl | rfl | rfl <;> exact ⟨by decide, by decide, by decide⟩

example : LocalFile ((bytes "/bin/" ++ bytes "prog") :: [bytes "my.conf", bytes "gwtype=4"]) [bytes "my.conf"] := by
  refine Or.inr ⟨_, rfl, [bytes "/bin/prog"], bytes "my.conf", [bytes "gwtype=4"], by decide, ⟨rfl, bytes "my", by decide, by decide⟩, ?_⟩
  rintro y hy v ⟨_, p, _, e⟩
  rw [List.mem_singleton.mp hy] at e
  have := congrArg (fun l => l.getLast?) e
  rw [List.getLast?_append] at this
  have h1 : (bytes "gwtype=4").getLast? = some 52 := rfl
  have h2 : (bytes ".conf").getLast? = some 102 := rfl
  rw [h1, h2] at this
  simp at this

/-! ## C204: options -/

/-- C204: an option is found if an argument, other than the program's name, starts with it; its value is what follows in the first
such argument, or if nothing follows the next argument, if any. -/
theorem C204 (prog : List Nat) (rest : List (List Nat)) (name opt v : List Nat) (ho : (opt = name ∧ ∃ r, name = 45 :: r) ∨ (opt = 45 :: name ∧ ∀ r, name ≠ 45 :: r)) :
    getOption (prog :: rest) name = some v ↔
      ∃ a x b w, rest = a ++ x :: b ∧ (∀ y ∈ a, ∀ z, y ≠ opt ++ z) ∧ x = opt ++ w ∧ (w ≠ [] → v = w) ∧
        (w = [] → (∀ y r, b = y :: r → v = y) ∧ (b = [] → v = [])) := by
  unfold getOption
  have : (if name.head? = some 45 then name else 45 :: name) = opt := by
    rcases ho with ⟨rfl, r, rfl⟩ | ⟨rfl, h⟩
    · rfl
    · rw [if_neg]
      intro e
      cases name with
      | nil => cases e
      | cons c r => simp only [List.head?_cons, Option.some.injEq] at e; subst e; exact h r rfl
  simp only [this, List.tail_cons]
  exact go_iff opt v rest

/-- The value of one option is taken for another: with `-o -p`, the option `p` is found. -/
theorem C204_value_taken : getOption [bytes "prog", bytes "-o", bytes "-p", bytes "x"] (bytes "p") = some (bytes "x") ∧
    getOption [bytes "prog", bytes "-o", bytes "-p", bytes "x"] (bytes "o") = some (bytes "-p") := by decide

/-- An option is taken for a shorter one with a value. -/
theorem C204_prefix : getOption [bytes "prog", bytes "-gwpeer", bytes "h:4000"] (bytes "gw") = some (bytes "peer") := by decide

end Verif.Config
