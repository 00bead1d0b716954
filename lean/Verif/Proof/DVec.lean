import Verif.Spec.DVec
/-!
# Proofs on vectors
-/
namespace Verif.DVec

variable {α : Type}

def elemVal : Elem α → Option α
  | .uninit => none
  | .inblock l => l.head?.map Part.obj
  | .live a => some a

def okElem (e : Env α) : Elem α → Prop
  | .inblock l => ∃ a, l = parts e a
  | _ => True

def RData (e : Env α) (heap : List (Head α)) (a : AVec α) : Data α → Prop
  | .bin h => e.kind a.ty = some .bin ∧ ∃ l, a.l = l.map some ∧ heap[h]? = some ⟨a.ty, sizeField a.scalar l.length, 1, .vals l⟩
  | .spec l c => e.kind a.ty = some .spec ∧ a.l = l.map some ∧ ∀ h, c = some h → heap[h]? = some ⟨a.ty, sizeField a.scalar l.length, 1, .vals l⟩
  | .dyn l => (a.ty = 0 ∨ e.kind a.ty = some .dyn) ∧ a.l = l.map elemVal ∧ ∀ x ∈ l, okElem e x

structure AOk (a : AVec α) : Prop where
  zero : a.ty = 0 → a.l = [] ∧ a.scalar = false
  pos : a.ty ≠ 0 → a.l ≠ []
  one : a.scalar = true → a.l.length = 1

structure RVec (e : Env α) (heap : List (Head α)) (v : Vec α) (a : AVec α) : Prop where
  ty : v.ty = a.ty
  size : v.size = a.l.length
  scalar : v.scalar = a.scalar
  ok : AOk a
  data : RData e heap a v.data

structure RMsg (e : Env α) (heap : List (Head α)) (m : Msg α) (a : AVec α) : Prop where
  ok : AOk a
  head : (a.ty = 0 ∧ ∃ b, heap[m.head]? = some b ∧ b.ty = 0) ∨
    ((e.kind a.ty = some .bin ∨ e.kind a.ty = some .spec) ∧ ∃ l, a.l = l.map some ∧ heap[m.head]? = some ⟨a.ty, sizeField a.scalar l.length, 1, .vals l⟩) ∨
    (e.kind a.ty = some .dyn ∧ heap[m.head]? = some ⟨a.ty, sizeField a.scalar a.l.length, 1 + (a.l.map (fun o => o.elim 0 e.blocks)).sum,
      .counts (a.l.map (fun o => o.elim 0 e.blocks))⟩ ∧ m.parts = (a.l.map (fun o => o.elim [] (parts e))).flatten)

structure R (e : Env α) (w : World α) (s : AWorld α) : Prop where
  nv : w.vecs.length = s.vecs.length
  nm : w.msgs.length = s.msgs.length
  vec : ∀ (i : Nat) v a, w.vecs[i]? = some v → s.vecs[i]? = some a → RVec e w.heap v a
  msg : ∀ (i : Nat) m a, w.msgs[i]? = some m → s.msgs[i]? = some a → RMsg e w.heap m a
  log : w.log = s.log

theorem start_R (e : Env α) : R e start astart := by
  constructor <;> simp [start, astart]

theorem RVec.heap {e : Env α} {h h' : List (Head α)} {v : Vec α} {a : AVec α} (r : RVec e h v a) (H : ∀ k, headOf v = some k → ∀ b, h[k]? = some b → h'[k]? = some b) :
    RVec e h' v a := by
  refine ⟨r.ty, r.size, r.scalar, r.ok, ?_⟩
  have d := r.data
  cases hv : v.data with
  | bin k =>
    rw [hv] at d
    obtain ⟨k1, l, h1, h2⟩ := d
    exact ⟨k1, l, h1, H k (by simp [headOf, hv]) _ h2⟩
  | spec l c =>
    rw [hv] at d
    obtain ⟨k1, h1, h2⟩ := d
    exact ⟨k1, h1, fun k hk => H k (by simp [headOf, hv, hk]) _ (h2 k hk)⟩
  | dyn l =>
    rw [hv] at d
    exact d

theorem RMsg.heap {e : Env α} {h h' : List (Head α)} {m : Msg α} {a : AVec α} (r : RMsg e h m a) (H : ∀ b, h[m.head]? = some b → h'[m.head]? = some b) :
    RMsg e h' m a := by
  refine ⟨r.ok, ?_⟩
  rcases r.head with ⟨h1, b, h2, h3⟩ | ⟨h1, l, h2, h3⟩ | ⟨h1, h2, h3⟩
  · exact Or.inl ⟨h1, b, H _ h2, h3⟩
  · exact Or.inr (Or.inl ⟨h1, l, h2, H _ h3⟩)
  · exact Or.inr (Or.inr ⟨h1, H _ h2, h3⟩)

theorem app_some {β : Type} {l m : List β} {k : Nat} {b : β} (h : l[k]? = some b) : (l ++ m)[k]? = some b := by
  rw [List.getElem?_append_left]
  · exact h
  · exact (List.getElem?_eq_some_iff.1 h).1

theorem vec_at {e : Env α} {w : World α} {s : AWorld α} (r : R e w s) {i : Nat} {v : Vec α} (h : w.vecs[i]? = some v) :
    ∃ a, s.vecs[i]? = some a ∧ RVec e w.heap v a := by
  have hl := (List.getElem?_eq_some_iff.1 h).1
  have ha : s.vecs[i]? = some (s.vecs[i]'(r.nv ▸ hl)) := List.getElem?_eq_getElem (r.nv ▸ hl)
  exact ⟨_, ha, r.vec i _ _ h ha⟩

theorem msg_at {e : Env α} {w : World α} {s : AWorld α} (r : R e w s) {i : Nat} {m : Msg α} (h : w.msgs[i]? = some m) :
    ∃ a, s.msgs[i]? = some a ∧ RMsg e w.heap m a := by
  have hl := (List.getElem?_eq_some_iff.1 h).1
  have ha : s.msgs[i]? = some (s.msgs[i]'(r.nm ▸ hl)) := List.getElem?_eq_getElem (r.nm ▸ hl)
  exact ⟨_, ha, r.msg i _ _ h ha⟩

theorem at_append {β : Type} {l : List β} {x y : β} {i : Nat} (h : (l ++ [x])[i]? = some y) : l[i]? = some y ∨ (i = l.length ∧ y = x) := by
  rcases Nat.lt_trichotomy i l.length with h1 | h1 | h1
  · rw [List.getElem?_append_left h1] at h
    exact Or.inl h
  · subst h1
    simp at h
    exact Or.inr ⟨rfl, h.symm⟩
  · rw [List.getElem?_eq_none (by simp; omega)] at h
    exact (by cases h)

/-- A new vector, with a heap that has more. -/
theorem R_push {e : Env α} {w : World α} {s : AWorld α} (r : R e w s) (x : List (Head α)) {v : Vec α} {a : AVec α} (h : RVec e (w.heap ++ x) v a) :
    R e { w with heap := w.heap ++ x, vecs := w.vecs ++ [v] } { s with vecs := s.vecs ++ [a] } := by
  refine ⟨by simp [r.nv], r.nm, ?_, ?_, r.log⟩
  · intro i v' a' h1 h2
    rcases at_append h1 with h3 | ⟨h3, h4⟩ <;> rcases at_append h2 with h5 | ⟨h5, h6⟩
    · exact (r.vec i v' a' h3 h5).heap (fun k _ b hb => app_some hb)
    · have := (List.getElem?_eq_some_iff.1 h3).1
      have := r.nv
      omega
    · have := (List.getElem?_eq_some_iff.1 h5).1
      have := r.nv
      omega
    · subst h4
      subst h6
      exact h
  · intro i m a' h1 h2
    exact (r.msg i m a' h1 h2).heap (fun b hb => app_some hb)

theorem R_push0 {e : Env α} {w : World α} {s : AWorld α} (r : R e w s) {v : Vec α} {a : AVec α} (h : RVec e w.heap v a) :
    R e { w with vecs := w.vecs ++ [v] } { s with vecs := s.vecs ++ [a] } := by
  have := R_push r [] (v := v) (a := a) (by simpa using h)
  simpa using this

/-- A new message. -/
theorem R_msg {e : Env α} {w : World α} {s : AWorld α} (r : R e w s) (x : List (Head α)) {m : Msg α} {a : AVec α} (h : RMsg e (w.heap ++ x) m a) :
    R e { w with heap := w.heap ++ x, msgs := w.msgs ++ [m] } { s with msgs := s.msgs ++ [a] } := by
  refine ⟨r.nv, by simp [r.nm], ?_, ?_, r.log⟩
  · intro i v' a' h1 h2
    exact (r.vec i v' a' h1 h2).heap (fun k _ b hb => app_some hb)
  · intro i m' a' h1 h2
    rcases at_append h1 with h3 | ⟨h3, h4⟩ <;> rcases at_append h2 with h5 | ⟨h5, h6⟩
    · exact (r.msg i m' a' h3 h5).heap (fun b hb => app_some hb)
    · have := (List.getElem?_eq_some_iff.1 h3).1
      have := r.nm
      omega
    · have := (List.getElem?_eq_some_iff.1 h5).1
      have := r.nm
      omega
    · subst h4
      subst h6
      exact h

theorem R_see {e : Env α} {w : World α} {s : AWorld α} (r : R e w s) (o : Obs α) : R e (see w o) (s.see o) :=
  ⟨r.nv, r.nm, r.vec, r.msg, by simp [see, AWorld.see, r.log]⟩

theorem R_fail {e : Env α} {w : World α} {s : AWorld α} (r : R e w s) : R e (fail w) (s.see .failed) := R_see r .failed

/-- The header block, if any, is used by no other. -/
def Priv (w : World α) (i : Nat) (v : Vec α) : Prop :=
  ∀ h, headOf v = some h → (∀ j u, j ≠ i → w.vecs[j]? = some u → headOf u ≠ some h) ∧ ∀ m ∈ w.msgs, m.head ≠ h

/-- A vector is changed, and with it only its own header block, or new ones. -/
theorem R_upd {e : Env α} {w : World α} {s : AWorld α} (r : R e w s) {i : Nat} {v : Vec α} (p : Priv w i v) {heap : List (Head α)}
    (hh : ∀ (k : Nat), headOf v ≠ some k → ∀ b, w.heap[k]? = some b → heap[k]? = some b) {v' : Vec α} {a : AVec α} (h : RVec e heap v' a) :
    R e (setVec ({ w with heap := heap }, v') i) (s.upd i a) := by
  refine ⟨by simp [setVec, AWorld.upd, r.nv], r.nm, ?_, ?_, r.log⟩
  · intro j u b h1 h2
    simp only [setVec, AWorld.upd, List.getElem?_set] at h1 h2
    by_cases hj : i = j
    · subst hj
      simp only [if_true] at h1 h2
      split at h1
      · split at h2
        · cases h1
          cases h2
          exact h
        · cases h2
      · cases h1
    · simp only [hj, if_false] at h1 h2
      exact (r.vec j u b h1 h2).heap (fun k hk c hc => hh k (fun hv => (p k hv).1 j u (fun hji => hj hji.symm) h1 hk) c hc)
  · intro j m b h1 h2
    exact (r.msg j m b h1 h2).heap (fun c hc => hh _ (fun hv => (p _ hv).2 m (List.mem_of_getElem? h1) rfl) c hc)

theorem set_same {β : Type} {l : List β} {i : Nat} {x : β} (h : l[i]? = some x) : l.set i x = l := by
  apply List.ext_getElem?
  intro j
  rw [List.getElem?_set]
  split
  · rename_i hj
    subst hj
    split
    · exact h.symm
    · rename_i h1
      exact absurd (List.getElem?_eq_some_iff.1 h).1 h1
  · rfl

theorem not_shared {w : World α} {i h : Nat} (hs : shared w i h = false) :
    (∀ j u, j ≠ i → w.vecs[j]? = some u → headOf u ≠ some h) ∧ ∀ m ∈ w.msgs, m.head ≠ h := by
  simp only [shared, Bool.or_eq_false_iff, List.any_eq_false, Bool.and_eq_true, decide_eq_true_eq, List.mem_range, not_and] at hs
  refine ⟨?_, fun m hm => hs.2 m hm⟩
  intro j u hj hu
  have := hs.1 j (List.getElem?_eq_some_iff.1 hu).1 hj
  rw [hu] at this
  exact this

theorem heads_lt {e : Env α} {heap : List (Head α)} {v : Vec α} {a : AVec α} (r : RVec e heap v a) {h : Nat} (hv : headOf v = some h) : h < heap.length := by
  have d := r.data
  cases hd : v.data with
  | bin k =>
    rw [hd] at d
    obtain ⟨_, l, _, h2⟩ := d
    simp [headOf, hd] at hv
    subst hv
    exact (List.getElem?_eq_some_iff.1 h2).1
  | spec l c =>
    rw [hd] at d
    obtain ⟨_, _, h2⟩ := d
    simp [headOf, hd] at hv
    exact (List.getElem?_eq_some_iff.1 (h2 h hv)).1
  | dyn l => simp [headOf, hd] at hv

theorem msg_lt {e : Env α} {heap : List (Head α)} {m : Msg α} {a : AVec α} (r : RMsg e heap m a) : m.head < heap.length := by
  rcases r.head with ⟨h1, b, h2, h3⟩ | ⟨h1, l, h2, h3⟩ | ⟨h1, h2, h3⟩
  · exact (List.getElem?_eq_some_iff.1 h2).1
  · exact (List.getElem?_eq_some_iff.1 h3).1
  · exact (List.getElem?_eq_some_iff.1 h2).1

theorem mw_spec {e : Env α} {w : World α} {s : AWorld α} (r : R e w s) {i : Nat} {v : Vec α} {a : AVec α} (hv : w.vecs[i]? = some v) (ha : s.vecs[i]? = some a) :
    R e (setVec (makeWritable w i v) i) s ∧ RVec e (makeWritable w i v).1.heap (makeWritable w i v).2 a ∧
      Priv (setVec (makeWritable w i v) i) i (makeWritable w i v).2 ∧ (∀ l c, (makeWritable w i v).2.data = .spec l c → c = none) ∧
      (setVec (makeWritable w i v) i).vecs[i]? = some (makeWritable w i v).2 ∧ (makeWritable w i v).1.vecs = w.vecs := by
  have rv := r.vec i v a hv ha
  have hi := (List.getElem?_eq_some_iff.1 hv).1
  have same : R e (setVec (w, v) i) s := by
    have : setVec (w, v) i = w := by
      simp only [setVec]
      rw [set_same hv]
    rw [this]
    exact r
  cases hd : v.data with
  | bin h =>
    have d := rv.data
    rw [hd] at d
    obtain ⟨hk, l, h1, h2⟩ := d
    simp only [makeWritable, hd]
    cases hs : shared w i h with
    | false =>
      simp only [Bool.false_eq_true, if_false]
      refine ⟨same, rv, ?_, by simp [hd], by simp [setVec, hi], trivial⟩
      intro h' hh
      simp [headOf, hd] at hh
      subst hh
      have := not_shared hs
      refine ⟨fun j u hj hu => this.1 j u hj ?_, this.2⟩
      simpa [setVec, Ne.symm hj] using hu
    | true =>
      simp only [if_true, h2]
      have rv' : RVec e (w.heap ++ [⟨a.ty, sizeField a.scalar l.length, 1, .vals l⟩]) { v with data := Data.bin w.heap.length } a :=
        ⟨rv.ty, rv.size, rv.scalar, rv.ok, hk, l, h1, by simp⟩
      have rr : R e (setVec ({ w with heap := w.heap ++ [⟨a.ty, sizeField a.scalar l.length, 1, .vals l⟩] }, { v with data := Data.bin w.heap.length }) i) s := by
        have p0 : R e { w with heap := w.heap ++ [⟨a.ty, sizeField a.scalar l.length, 1, .vals l⟩] } s :=
          ⟨r.nv, r.nm, fun j u b h1 h2 => (r.vec j u b h1 h2).heap (fun k _ c hc => app_some hc), fun j u b h1 h2 => (r.msg j u b h1 h2).heap (fun c hc => app_some hc), r.log⟩
        have p1 := R_upd (i := i) (v := ⟨0, 0, false, .dyn []⟩) p0 (fun h hh => by simp [headOf] at hh) (fun k _ b hb => hb) rv'
        have p2 : s.upd i a = s := by
          simp only [AWorld.upd]
          rw [set_same ha]
        rw [p2] at p1
        exact p1
      refine ⟨rr, rv', ?_, by simp, by simp [setVec, hi], trivial⟩
      intro h' hh
      simp [headOf] at hh
      subst hh
      refine ⟨?_, ?_⟩
      · intro j u hj hu hc
        have hu' : w.vecs[j]? = some u := by simpa [setVec, Ne.symm hj] using hu
        obtain ⟨b, _, rb⟩ := vec_at r hu'
        have := heads_lt rb hc
        omega
      · intro m hm hc
        obtain ⟨j, hj⟩ := List.getElem?_of_mem hm
        obtain ⟨b, _, rb⟩ := msg_at r (i := j) (m := m) (by simpa [setVec] using hj)
        have := msg_lt rb
        omega
  | spec l c =>
    have d := rv.data
    rw [hd] at d
    obtain ⟨hk, h1, h2⟩ := d
    simp only [makeWritable, hd]
    have rv' : RVec e w.heap { v with data := Data.spec l Option.none } a := ⟨rv.ty, rv.size, rv.scalar, rv.ok, hk, h1, by simp⟩
    refine ⟨?_, rv', ?_, by simp, by simp [setVec, hi], trivial⟩
    · have p1 := R_upd (i := i) (v := ⟨0, 0, false, .dyn []⟩) r (fun h hh => by simp [headOf] at hh) (fun k _ b hb => hb) rv'
      have p2 : s.upd i a = s := by
        simp only [AWorld.upd]
        rw [set_same ha]
      rw [p2] at p1
      exact p1
    · intro h hh
      simp [headOf] at hh
  | dyn l =>
    simp only [makeWritable, hd]
    refine ⟨same, rv, ?_, by simp, by simp [setVec, hi], trivial⟩
    intro h hh
    simp [headOf, hd] at hh

/-! Writing and resizing of a vector whose header block is its own. -/

theorem upd_upd (s : AWorld α) (i : Nat) (a b : AVec α) : (s.upd i a).upd i b = s.upd i b := by simp [AWorld.upd]

theorem heap_set {heap : List (Head α)} {h : Nat} {x : Head α} : ∀ (k : Nat), some h ≠ some k → ∀ b, heap[k]? = some b → (heap.set h x)[k]? = some b := by
  intro k hk b hb
  have : h ≠ k := fun hh => hk (by rw [hh])
  simpa [this] using hb

theorem store_R {e : Env α} {w : World α} {s : AWorld α} (r : R e w s) {i : Nat} {v : Vec α} {a : AVec α} (rv : RVec e w.heap v a)
    (hp : Priv w i v) (hn : ∀ l c, v.data = .spec l c → c = none) (n : Nat) (x : α) (hz : a.ty ≠ 0) :
    R e (setVec (store w v n x) i) (s.upd i { a with l := a.l.set n (some x) }) := by
  have d := rv.data
  have ok' : AOk { a with l := a.l.set n (some x) } :=
    ⟨fun h => absurd h hz, fun _ h => rv.ok.pos hz (by simpa using h), fun h => by simpa using rv.ok.one h⟩
  cases hd : v.data with
  | bin h =>
    rw [hd] at d
    obtain ⟨hk, l, h1, h2⟩ := d
    simp only [store, hd, h2]
    refine R_upd r hp (fun k hk => heap_set k (by simpa [headOf, hd] using hk)) ⟨rv.ty, by simp [rv.size], rv.scalar, ok', ?_⟩
    rw [hd]
    refine ⟨hk, l.set n x, by simp [h1, List.map_set], ?_⟩
    have := (List.getElem?_eq_some_iff.1 h2).1
    simp [this]
  | spec l c =>
    rw [hd] at d
    obtain ⟨hk, h1, h2⟩ := d
    simp only [store, hd]
    have hc := hn l c hd
    exact R_upd r hp (fun k _ b hb => hb) ⟨rv.ty, by simp [rv.size], rv.scalar, ok', hk, by simp [h1, List.map_set], by simp [hc]⟩
  | dyn l =>
    rw [hd] at d
    obtain ⟨hk, h1, h2⟩ := d
    simp only [store, hd]
    refine R_upd r hp (fun k _ b hb => hb) ⟨rv.ty, by simp [rv.size], rv.scalar, ok', hk, by simp [h1, List.map_set, elemVal], ?_⟩
    intro y hy
    rcases List.mem_or_eq_of_mem_set hy with h | h
    · exact h2 y h
    · subst h
      trivial

theorem resize_R {e : Env α} {w : World α} {s : AWorld α} (r : R e w s) {i : Nat} {v : Vec α} {a : AVec α} (rv : RVec e w.heap v a)
    (hp : Priv w i v) (hn : ∀ l c, v.data = .spec l c → c = none) (n : Nat) (hz : a.ty ≠ 0) (h0 : 0 < n) (hs : n = 1 → a.scalar = false) :
    R e (setVec (resizeVec e w v n) i) (s.upd i ⟨a.ty, false, a.l.take n ++ fresh e a.ty (n - a.l.length)⟩) ∧
      RVec e (resizeVec e w v n).1.heap (resizeVec e w v n).2 ⟨a.ty, false, a.l.take n ++ fresh e a.ty (n - a.l.length)⟩ ∧
      Priv (setVec (resizeVec e w v n) i) i (resizeVec e w v n).2 ∧ (∀ l c, (resizeVec e w v n).2.data = .spec l c → c = none) := by
  have d := rv.data
  have hsc : (if 1 < n then false else v.scalar) = false := by
    split
    · rfl
    · rw [rv.scalar]
      exact hs (by omega)
  have fl : (fresh e a.ty (n - a.l.length)).length = n - a.l.length := by
    unfold fresh
    split <;> simp
  have ll : (a.l.take n ++ fresh e a.ty (n - a.l.length)).length = n := by
    simp only [List.length_append, List.length_take, fl]
    omega
  have ok' : AOk ⟨a.ty, false, a.l.take n ++ fresh e a.ty (n - a.l.length)⟩ :=
    ⟨fun h => absurd h hz, fun _ h => by
      have := ll
      simp only at h
      rw [h] at this
      simp at this
      omega, fun h => by simp at h⟩
  have priv' : ∀ (w' : World α) (v' : Vec α), w'.vecs = w.vecs → w'.msgs = w.msgs → headOf v' = headOf v → Priv (setVec (w', v') i) i v' := by
    intro w' v' hw hm hv h hh
    rw [hv] at hh
    have := hp h hh
    refine ⟨fun j u hj hu => this.1 j u hj ?_, ?_⟩
    · simpa [setVec, hw, Ne.symm hj] using hu
    · simpa [setVec, hm] using this.2
  cases hd : v.data with
  | bin h =>
    rw [hd] at d
    obtain ⟨hk, l, h1, h2⟩ := d
    have hh := (List.getElem?_eq_some_iff.1 h2).1
    simp only [resizeVec, hd, h2]
    have rv' : RVec e (w.heap.set h ⟨a.ty, n, 1, .vals (l.take n ++ (List.range (n - l.length)).map e.junk)⟩)
        ⟨v.ty, n, if 1 < n then false else v.scalar, .bin h⟩ ⟨a.ty, false, a.l.take n ++ fresh e a.ty (n - a.l.length)⟩ := by
      refine ⟨rv.ty, ll.symm, hsc, ok', hk, l.take n ++ (List.range (n - l.length)).map e.junk, ?_, ?_⟩
      · simp [h1, fresh, hk]
      · simp only [List.getElem?_set, if_true, hh, sizeField, Bool.false_eq_true, if_false]
        congr 3
        simp only [List.length_append, List.length_take, List.length_map, List.length_range]
        omega
    refine ⟨R_upd r hp (fun k hk => heap_set k (by simpa [headOf, hd] using hk)) rv', rv', priv' _ _ rfl rfl (by simp [headOf, hd]), by simp⟩
  | spec l c =>
    rw [hd] at d
    obtain ⟨hk, h1, h2⟩ := d
    have hc := hn l c hd
    simp only [resizeVec, hd]
    have rv' : RVec e w.heap
        ⟨v.ty, n, if 1 < n then false else v.scalar, .spec (l.take n ++ List.replicate (n - l.length) (e.zero v.ty)) c⟩ ⟨a.ty, false, a.l.take n ++ fresh e a.ty (n - a.l.length)⟩ := by
      refine ⟨rv.ty, ll.symm, hsc, ok', hk, ?_, by simp [hc]⟩
      simp [h1, fresh, hk, rv.ty]
    exact ⟨R_upd r hp (fun k _ b hb => hb) rv', rv', priv' _ _ rfl rfl (by simp [headOf, hd]), by simp [hc]⟩
  | dyn l =>
    rw [hd] at d
    obtain ⟨hk, h1, h2⟩ := d
    have hk' := hk.resolve_left hz
    simp only [resizeVec, hd]
    have rv' : RVec e w.heap
        ⟨v.ty, n, if 1 < n then false else v.scalar, .dyn (l.take n ++ List.replicate (n - l.length) .uninit)⟩ ⟨a.ty, false, a.l.take n ++ fresh e a.ty (n - a.l.length)⟩ := by
      refine ⟨rv.ty, ll.symm, hsc, ok', hk, ?_, ?_⟩
      · simp [h1, fresh, hk', elemVal]
      · intro x hx
        rcases List.mem_append.1 hx with h | h
        · exact h2 x (List.mem_of_mem_take h)
        · rw [List.eq_of_mem_replicate h]
          trivial
    exact ⟨R_upd r hp (fun k _ b hb => hb) rv', rv', priv' _ _ rfl rfl (by simp [headOf, hd]), by simp⟩

theorem store_setVec (w : World α) (u v : Vec α) (i n : Nat) (x : α) : setVec (store (setVec (w, u) i) v n x) i = setVec (store w v n x) i := by
  unfold store
  cases v.data with
  | bin h =>
    simp only [setVec]
    split <;> simp
  | spec l c => simp [setVec]
  | dyn l => simp [setVec]

/-- `insert`/`put` at the end. -/
theorem grow_R {e : Env α} {w : World α} {s : AWorld α} (r : R e w s) {i : Nat} {v : Vec α} {a : AVec α} (rv : RVec e w.heap v a)
    (hp : Priv w i v) (hn : ∀ l c, v.data = .spec l c → c = none) (hz : a.ty ≠ 0) (x : α) :
    R e (setVec (store (resizeVec e w v (a.l.length + 1)).1 (resizeVec e w v (a.l.length + 1)).2 a.l.length x) i) (s.upd i ⟨a.ty, false, a.l ++ [some x]⟩) := by
  have hpos : 0 < a.l.length := List.length_pos_iff.2 (rv.ok.pos hz)
  obtain ⟨h1, h2, h3, h4⟩ := resize_R r rv hp hn (a.l.length + 1) hz (by omega) (by omega)
  have := store_R h1 h2 h3 h4 a.l.length x hz
  rw [store_setVec, upd_upd] at this
  have hf : ∃ y, fresh e a.ty (a.l.length + 1 - a.l.length) = [y] := by
    rw [Nat.add_sub_cancel_left]
    unfold fresh
    split
    · exact ⟨some (e.junk 0), by simp⟩
    · exact ⟨_, rfl⟩
    · exact ⟨_, rfl⟩
  obtain ⟨y, hy⟩ := hf
  have e1 : (a.l.take (a.l.length + 1) ++ fresh e a.ty (a.l.length + 1 - a.l.length)).set a.l.length (some x) = a.l ++ [some x] := by
    rw [hy, List.take_of_length_le (by omega), List.set_append_right _ _ (Nat.le_refl _)]
    simp
  simp only [e1] at this
  exact this

/-! New vectors. -/

theorem kind_ne {e : Env α} (hf : Fair e) {t : Nat} {k : Kind} (h : e.kind t = some k) : t ≠ 0 := by
  intro ht
  rw [ht, hf.1] at h
  cases h

theorem init_spec {e : Env α} (hf : Fair e) (w : World α) (s : AWorld α) (t : Nat) (num : Option Nat) (hnum : num ≠ some 0) (data : Option (List α)) :
    (∃ x v a, initVec e w t num data = .ok (some ({ w with heap := w.heap ++ x }, v)) ∧ s.create e t num data = .ok { s with vecs := s.vecs ++ [a] } ∧
      RVec e (w.heap ++ x) v a ∧ (∀ h, headOf v = some h → h = w.heap.length) ∧ ∀ l c, v.data = .spec l c → c = none) ∨
    (initVec e w t num data = .ok none ∧ s.create e t num data = .ok (s.see .failed)) ∨
    (initVec e w t num data = .ub ∧ s.create e t num data = .ub) := by
  have hn : max (num.getD 1) 1 = num.getD 1 := by
    cases num with
    | none => rfl
    | some n =>
      simp only [Option.getD_some]
      have : n ≠ 0 := fun h => hnum (by rw [h])
      omega
  have hp : 0 < num.getD 1 := by omega
  have h1 : num.isNone = true → num.getD 1 = 1 := by
    cases num <;> simp
  unfold initVec AWorld.create
  simp only [hn]
  cases hk : e.kind t with
  | none => exact Or.inr (Or.inl ⟨rfl, rfl⟩)
  | some k =>
    have hz := kind_ne hf hk
    have mk : ∀ l : List (Option α), l.length = num.getD 1 → AOk (⟨t, num.isNone, l⟩ : AVec α) := by
      intro l hl
      refine ⟨fun h => absurd h hz, fun _ h => ?_, fun h => by simpa [hl] using h1 h⟩
      simp only at h
      rw [h] at hl
      simp at hl
      omega
    cases k with
    | bin =>
      cases data with
      | none =>
        exact Or.inl ⟨_, _, _, rfl, rfl, ⟨rfl, by simp, rfl, mk _ (by simp), hk, List.replicate (num.getD 1) (e.zero t), by simp, by simp⟩, by simp [headOf], by simp⟩
      | some d =>
        simp only
        by_cases hd : d.length < num.getD 1
        · simp only [hd, if_true]
          exact Or.inr (Or.inr (by simp))
        · simp only [hd, if_false]
          have hd' : num.getD 1 ≤ d.length := by omega
          refine Or.inl ⟨_, _, _, rfl, rfl, ⟨rfl, by simp [hd'], rfl, mk _ (by simp [hd']), hk, d.take (num.getD 1), rfl, by simp [hd']⟩, by simp [headOf], by simp⟩
    | spec =>
      cases data with
      | none =>
        exact Or.inl ⟨[], ⟨t, num.getD 1, num.isNone, .spec (List.replicate (num.getD 1) (e.zero t)) none⟩, _, by rw [List.append_nil], rfl, ⟨rfl, by simp, rfl, mk _ (by simp), hk, by simp, by simp⟩, by simp [headOf], by simp⟩
      | some d =>
        simp only
        by_cases hd : d.length < num.getD 1
        · simp only [hd, if_true]
          exact Or.inr (Or.inr (by simp))
        · simp only [hd, if_false]
          have hd' : num.getD 1 ≤ d.length := by omega
          exact Or.inl ⟨[], ⟨t, num.getD 1, num.isNone, .spec (d.take (num.getD 1)) none⟩, _, by rw [List.append_nil], rfl, ⟨rfl, by simp [hd'], rfl, mk _ (by simp [hd']), hk, by simp, by simp⟩, by simp [headOf], by simp⟩
    | dyn =>
      cases data with
      | none =>
        refine Or.inl ⟨[], ⟨t, num.getD 1, num.isNone, .dyn (List.replicate (num.getD 1) .uninit)⟩, _, by rw [List.append_nil], rfl, ⟨rfl, by simp, rfl, mk _ (by simp), Or.inr hk, by simp [elemVal], ?_⟩, by simp [headOf], by simp⟩
        intro x hx
        rw [List.eq_of_mem_replicate hx]
        trivial
      | some d => exact Or.inr (Or.inl ⟨rfl, rfl⟩)

/-- A first value of a vector that is not initialised. -/
theorem first_R {e : Env α} {w : World α} {s : AWorld α} (r : R e w s) {i : Nat} {x : List (Head α)} {v : Vec α} {a : AVec α}
    (rv : RVec e (w.heap ++ x) v a) (hh : ∀ h, headOf v = some h → h = w.heap.length) (hn : ∀ l c, v.data = .spec l c → c = none) (hz : a.ty ≠ 0) (y : α) :
    R e (setVec (store { w with heap := w.heap ++ x } v 0 y) i) (s.upd i { a with l := a.l.set 0 (some y) }) := by
  have r1 := R_upd (i := i) (v := ⟨0, 0, false, .dyn []⟩) r (fun h hh => by simp [headOf] at hh) (heap := w.heap ++ x) (fun k _ b hb => app_some hb) rv
  have hp : Priv (setVec ({ w with heap := w.heap ++ x }, v) i) i v := by
    intro h hv
    have := hh h hv
    subst this
    refine ⟨?_, ?_⟩
    · intro j u hj hu hc
      have hu' : w.vecs[j]? = some u := by simpa [setVec, Ne.symm hj] using hu
      obtain ⟨b, _, rb⟩ := vec_at r hu'
      have := heads_lt rb hc
      omega
    · intro m hm hc
      obtain ⟨j, hj⟩ := List.getElem?_of_mem hm
      obtain ⟨b, _, rb⟩ := msg_at r (i := j) (m := m) (by simpa [setVec] using hj)
      have := msg_lt rb
      omega
  have := store_R (i := i) r1 rv hp hn 0 y hz
  rw [store_setVec, upd_upd] at this
  exact this

/-! Messages. -/

theorem elem_parts {e : Env α} (hf : Fair e) {x : Elem α} (h : okElem e x) : elemParts e x = (elemVal x).elim [] (parts e) := by
  cases x with
  | uninit => rfl
  | live a => rfl
  | inblock l =>
    obtain ⟨a, rfl⟩ := h
    have hb := hf.2 a
    have : (parts e a).head? = some ⟨a, 0⟩ := by
      unfold parts
      obtain ⟨k, hk⟩ := Nat.exists_eq_succ_of_ne_zero (Nat.ne_of_gt hb)
      rw [hk, List.range_succ_eq_map]
      rfl
    simp [elemParts, elemVal, this]

theorem parts_length (e : Env α) (o : Option α) : (o.elim [] (parts e)).length = o.elim 0 e.blocks := by
  cases o <;> simp [parts]

theorem parts_head {e : Env α} (hf : Fair e) (a : α) : (parts e a).head? = some ⟨a, 0⟩ := by
  unfold parts
  obtain ⟨k, hk⟩ := Nat.exists_eq_succ_of_ne_zero (Nat.ne_of_gt (hf.2 a))
  rw [hk, List.range_succ_eq_map]
  rfl

theorem take_spec {e : Env α} (hf : Fair e) : ∀ l : List (Option α),
    ∃ es, takeElems (l.map (fun o => o.elim 0 e.blocks)) (l.map (fun o => o.elim [] (parts e))).flatten = some es ∧ es.map elemVal = l ∧ ∀ x ∈ es, okElem e x
  | [] => ⟨[], rfl, rfl, by simp⟩
  | o :: l => by
    obtain ⟨es, h1, h2, h3⟩ := take_spec hf l
    have hlen := parts_length e o
    simp only [List.map_cons, List.flatten_cons, takeElems]
    rw [if_neg (by simp only [List.length_append, hlen]; omega), ← hlen, List.drop_left, List.take_left, h1]
    cases o with
    | none => exact ⟨Elem.uninit :: es, by simp, by simp [elemVal, h2], by simpa [okElem] using h3⟩
    | some a =>
      have hb := hf.2 a
      refine ⟨Elem.inblock (parts e a) :: es, ?_, by simp [elemVal, h2, parts_head hf], ?_⟩
      · have : (parts e a).length ≠ 0 := by simp [parts]; omega
        simp [this]
      · intro x hx
        rcases List.mem_cons.1 hx with h | h
        · subst h
          exact ⟨a, rfl⟩
        · exact h3 x h

theorem fromBlock_spec {e : Env α} (hf : Fair e) {w : World α} {m : Msg α} {a : AVec α} (r : RMsg e w.heap m a) :
    ∃ v, fromBlock e w m = some v ∧ RVec e w.heap v a := by
  have ok := r.ok
  have hs : ∀ n, a.l.length = n → decide (sizeField a.scalar n = -1) = a.scalar ∧
      (if decide (sizeField a.scalar n = -1) = true then (1 : Int) else sizeField a.scalar n) = n := by
    intro n hn
    cases hsc : a.scalar with
    | true =>
      have := ok.one hsc
      have hn1 : n = 1 := by omega
      subst hn1
      exact ⟨rfl, rfl⟩
    | false =>
      have : ¬ ((n : Int) = -1) := by omega
      simp [sizeField, this]
  rcases r.head with ⟨h1, b, h2, h3⟩ | ⟨h1, l, h2, h3⟩ | ⟨h1, h2, h3⟩
  · refine ⟨⟨0, 0, false, .dyn []⟩, by simp [fromBlock, h2, h3], ?_⟩
    have := ok.zero h1
    exact ⟨h1.symm, by simp [this.1], this.2.symm, ok, Or.inl h1, by simp [this.1], by simp⟩
  · have hl : a.l.length = l.length := by simp [h2]
    obtain ⟨s1, s2⟩ := hs l.length hl
    rw [s1] at s2
    rcases h1 with h1 | h1
    · have hz := kind_ne hf h1
      refine ⟨⟨a.ty, l.length, a.scalar, .bin m.head⟩, ?_, ⟨rfl, hl.symm, rfl, ok, h1, l, h2, h3⟩⟩
      simp only [fromBlock, h3, hz, if_false, h1, s2, s1]
      simp
    · have hz := kind_ne hf h1
      refine ⟨⟨a.ty, l.length, a.scalar, .spec l (some m.head)⟩, ?_, ⟨rfl, hl.symm, rfl, ok, h1, h2, fun h hh => by cases hh; exact h3⟩⟩
      simp only [fromBlock, h3, hz, if_false, h1, s2, s1]
      simp
  · have hz := kind_ne hf h1
    obtain ⟨s1, s2⟩ := hs a.l.length rfl
    rw [s1] at s2
    obtain ⟨es, e1, e2, e3⟩ := take_spec hf a.l
    refine ⟨⟨a.ty, a.l.length, a.scalar, .dyn es⟩, ?_, ⟨rfl, rfl, rfl, ok, Or.inr h1, e2.symm, e3⟩⟩
    simp only [fromBlock, h2, hz, if_false, h1, s2, s1, h3, e1]
    simp

theorem toBlock_R {e : Env α} (hf : Fair e) {w : World α} {s : AWorld α} (r : R e w s) {i : Nat} {v : Vec α} {a : AVec α} (hv : w.vecs[i]? = some v) (ha : s.vecs[i]? = some a) :
    R e (toBlock e w i v) { s with msgs := s.msgs ++ [a] } := by
  have rv := r.vec i v a hv ha
  unfold toBlock
  by_cases hz : v.ty = 0
  · simp only [hz, if_true]
    exact R_msg r _ ⟨rv.ok, Or.inl ⟨rv.ty ▸ hz, ⟨0, 0, 1, .vals []⟩, by simp, rfl⟩⟩
  · simp only [hz, if_false]
    have d := rv.data
    cases hd : v.data with
    | bin h =>
      rw [hd] at d
      obtain ⟨hk, l, h1, h2⟩ := d
      have := R_msg r [] (m := ⟨h, []⟩) (a := a) ⟨rv.ok, Or.inr (Or.inl ⟨Or.inl hk, l, h1, by simpa using h2⟩)⟩
      simpa using this
    | spec l c =>
      rw [hd] at d
      obtain ⟨hk, h1, h2⟩ := d
      cases c with
      | some h =>
        have := R_msg r [] (m := ⟨h, []⟩) (a := a) ⟨rv.ok, Or.inr (Or.inl ⟨Or.inr hk, l, h1, by simpa using h2 h rfl⟩)⟩
        simpa using this
      | none =>
        have hsz : v.size = l.length := by simp [rv.size, h1]
        have hx : (w.heap ++ [(⟨v.ty, sizeField v.scalar v.size, 1, .vals l⟩ : Head α)])[w.heap.length]? = some ⟨a.ty, sizeField a.scalar l.length, 1, .vals l⟩ := by
          simp [rv.ty, rv.scalar, hsz]
        have rv' : RVec e (w.heap ++ [⟨v.ty, sizeField v.scalar v.size, 1, .vals l⟩]) { v with data := .spec l (some w.heap.length) } a :=
          ⟨rv.ty, rv.size, rv.scalar, rv.ok, hk, h1, fun h hh => by cases hh; exact hx⟩
        have p1 := R_upd (i := i) (v := ⟨0, 0, false, .dyn []⟩) r (fun h hh => by simp [headOf] at hh) (heap := w.heap ++ [⟨v.ty, sizeField v.scalar v.size, 1, .vals l⟩])
          (fun k _ b hb => app_some hb) rv'
        have p2 : s.upd i a = s := by
          simp only [AWorld.upd]
          rw [set_same ha]
        rw [p2] at p1
        have := R_msg p1 [] (m := ⟨w.heap.length, []⟩) (a := a) ⟨rv.ok, Or.inr (Or.inl ⟨Or.inr hk, l, h1, by simpa [setVec] using hx⟩)⟩
        simpa [setVec] using this
    | dyn l =>
      rw [hd] at d
      obtain ⟨hk, h1, h2⟩ := d
      have hk' := hk.resolve_left (fun h => hz (rv.ty ▸ h))
      have e1 : l.map (elemParts e) = a.l.map (fun o => o.elim [] (parts e)) := by
        rw [h1, List.map_map]
        exact List.map_congr_left (fun x hx => elem_parts hf (h2 x hx))
      have e2 : l.map (fun x => (elemParts e x).length) = a.l.map (fun o => o.elim 0 e.blocks) := by
        rw [h1, List.map_map]
        exact List.map_congr_left (fun x hx => by rw [elem_parts hf (h2 x hx), parts_length]; rfl)
      refine R_msg r _ ⟨rv.ok, Or.inr (Or.inr ⟨hk', ?_, ?_⟩)⟩
      · simp [rv.ty, rv.scalar, rv.size, e2]
      · simp only [e1]

/-! One operation. -/

/-- Outcomes that agree. -/
def RR (e : Env α) : Res (World α) → Res (AWorld α) → Prop
  | .ok w, .ok s => R e w s
  | .ub, .ub => True
  | _, _ => False

theorem elim_RR {e : Env α} {w : World α} {s : AWorld α} (r : R e w s) (i : Nat) {f : Vec α → Res (World α)} {g : AVec α → Res (AWorld α)}
    (h : ∀ v a, w.vecs[i]? = some v → s.vecs[i]? = some a → RVec e w.heap v a → RR e (f v) (g a)) :
    RR e ((w.vecs[i]?).elim (.ok w) f) ((s.vecs[i]?).elim (.ok s) g) := by
  cases hv : w.vecs[i]? with
  | none =>
    have : s.vecs[i]? = none := by
      rw [List.getElem?_eq_none_iff] at hv ⊢
      have := r.nv
      omega
    rw [this]
    exact r
  | some v =>
    obtain ⟨a, ha, rv⟩ := vec_at r hv
    rw [ha]
    exact h v a hv ha rv

theorem setElem_R {e : Env α} {w : World α} {s : AWorld α} (r : R e w s) {i : Nat} {v : Vec α} {a : AVec α} (hv : w.vecs[i]? = some v) (ha : s.vecs[i]? = some a)
    (hz : a.ty ≠ 0) (n t : Nat) (x : α) (sc : Bool) :
    R e (let (w, v) := makeWritable w i v
      let w := setVec (w, v) i
      if v.ty ≠ t ∨ v.size < n then fail w
      else if v.size = n then
        let (w, v) := resizeVec e w v (n + 1)
        setVec (store w v n x) i
      else setVec (store w v n x) i) (s.setElem i a n t x sc) := by
  obtain ⟨h1, h2, h3, h4, h5, h6⟩ := mw_spec r hv ha
  generalize makeWritable w i v = p at *
  obtain ⟨w1, v1⟩ := p
  simp only at *
  simp only [AWorld.setElem, hz, if_false, h2.ty, h2.size]
  have h2' : RVec e (setVec (w1, v1) i).heap v1 a := h2
  by_cases hc : a.ty ≠ t ∨ a.l.length < n
  · simp only [hc, if_true]
    exact R_fail h1
  · simp only [hc, if_false]
    by_cases hn : a.l.length = n
    · subst hn
      simp only [if_true]
      exact grow_R h1 h2' h3 h4 hz x
    · simp only [hn, if_false]
      exact store_R h1 h2' h3 h4 n x hz

theorem assign_RR {e : Env α} (hf : Fair e) {w : World α} {s : AWorld α} (r : R e w s) {i : Nat} {v : Vec α} {a : AVec α} (hv : w.vecs[i]? = some v) (ha : s.vecs[i]? = some a) (n t : Nat) (x : α) :
    RR e (assign e w i v n t x) (.ok (if e.kind t = none ∨ e.kind t = some .dyn then s.see .failed else s.setElem i a n t x true)) := by
  have rv := r.vec i v a hv ha
  unfold assign
  by_cases hk : e.kind t = none ∨ e.kind t = some .dyn
  · simp only [hk, if_true]
    exact R_fail r
  · simp only [hk, if_false]
    by_cases hz : v.ty = 0
    · simp only [hz, if_true]
      have hz' : a.ty = 0 := rv.ty ▸ hz
      simp only [AWorld.setElem, hz', if_true]
      by_cases hn : n = 0
      · simp only [hn, if_true, ne_eq, not_true_eq_false, if_false]
        rcases init_spec hf w s t none (by simp) none with ⟨y, v', a', e1, e2, e3, e4, e5⟩ | ⟨e1, e2⟩ | ⟨e1, e2⟩
        · simp only [e1, Res.ok_bind]
          have he : a' = ⟨t, true, [some (e.zero t)]⟩ ∧ t ≠ 0 := by
            unfold AWorld.create at e2
            cases hkt : e.kind t with
            | none => exact absurd (Or.inl hkt) hk
            | some k =>
              rw [hkt] at e2
              refine ⟨?_, kind_ne hf hkt⟩
              cases k with
              | dyn => exact absurd (Or.inr hkt) hk
              | bin => simpa using e2.symm
              | spec => simpa using e2.symm
          obtain ⟨he, ht⟩ := he
          subst he
          have := first_R (i := i) r e3 e4 e5 ht x
          simpa [RR] using this
        · unfold AWorld.create at e2
          cases hkt : e.kind t with
          | none => exact absurd (Or.inl hkt) hk
          | some k =>
            rw [hkt] at e2
            cases k with
            | dyn => exact absurd (Or.inr hkt) hk
            | bin =>
              simp [AWorld.see] at e2
            | spec => simp [AWorld.see] at e2
        · unfold AWorld.create at e2
          cases hkt : e.kind t with
          | none => exact absurd (Or.inl hkt) hk
          | some k =>
            rw [hkt] at e2
            cases k with
            | dyn => exact absurd (Or.inr hkt) hk
            | bin => simp at e2
            | spec => simp at e2
      · simp only [hn, ne_eq, not_false_eq_true, if_true, if_false]
        exact R_fail r
    · simp only [hz, if_false]
      have := setElem_R (t := t) (n := n) (x := x) (sc := true) r hv ha (rv.ty ▸ hz)
      simp only [or_comm (a := _ < n)]
      simp only at this
      split at this <;> rename_i hc
      · simp only [hc, if_true]
        exact this
      · simp only [hc, if_false]
        split at this <;> rename_i hd
        · simp only [hd, if_true]
          exact this
        · simp only [hd, if_false]
          exact this

theorem put_RR {e : Env α} (hf : Fair e) {w : World α} {s : AWorld α} (r : R e w s) {i : Nat} {v : Vec α} {a : AVec α} (hv : w.vecs[i]? = some v) (ha : s.vecs[i]? = some a) (n : Nat) (x : α) :
    RR e (put e w i v n x) (.ok (if e.kind (e.typeOf x) ≠ some .dyn then s.see .failed else s.setElem i a n (e.typeOf x) x false)) := by
  have rv := r.vec i v a hv ha
  unfold put
  by_cases hk : e.kind (e.typeOf x) ≠ some .dyn
  · simp only [hk, if_true, ne_eq, not_false_eq_true]
    exact R_fail r
  · simp only [hk, if_false]
    have hk' : e.kind (e.typeOf x) = some .dyn := by
      cases h : decide (e.kind (e.typeOf x) = some .dyn) with
      | true => exact of_decide_eq_true h
      | false => exact absurd (of_decide_eq_false h) hk
    by_cases hz : v.ty = 0
    · simp only [hz, if_true]
      have hz' : a.ty = 0 := rv.ty ▸ hz
      simp only [AWorld.setElem, hz', if_true]
      by_cases hn : n = 0
      · simp only [hn, if_true, ne_eq, not_true_eq_false, if_false]
        rcases init_spec hf w s (e.typeOf x) (some 1) (by simp) none with ⟨y, v', a', e1, e2, e3, e4, e5⟩ | ⟨e1, e2⟩ | ⟨e1, e2⟩
        · simp only [e1, Res.ok_bind]
          have he : a' = ⟨e.typeOf x, false, [none]⟩ := by
            unfold AWorld.create at e2
            rw [hk'] at e2
            simpa using e2.symm
          subst he
          have := first_R (i := i) r e3 e4 e5 (kind_ne hf hk') x
          simpa [RR] using this
        · unfold AWorld.create at e2
          rw [hk'] at e2
          simp [AWorld.see] at e2
        · unfold AWorld.create at e2
          rw [hk'] at e2
          simp at e2
      · simp only [hn, ne_eq, not_false_eq_true, if_true, if_false]
        exact R_fail r
    · simp only [hz, if_false]
      have := setElem_R (t := e.typeOf x) (n := n) (x := x) (sc := false) r hv ha (rv.ty ▸ hz)
      simp only at this
      split at this <;> rename_i hc
      · simp only [hc, if_true]
        exact this
      · simp only [hc, if_false]
        split at this <;> rename_i hd
        · simp only [hd, if_true]
          exact this
        · simp only [hd, if_false]
          exact this

theorem resize_RR {e : Env α} {w : World α} {s : AWorld α} (r : R e w s) {i : Nat} {v : Vec α} {a : AVec α} (hv : w.vecs[i]? = some v) (ha : s.vecs[i]? = some a) (n : Nat)
    (hs : n = 1 → a.scalar = false) :
    R e (resize e w i v n) (if n = 0 ∨ a.ty = 0 then s.see .failed
        else s.upd i ⟨a.ty, a.scalar && decide (n = 1), a.l.take n ++ fresh e a.ty (n - a.l.length)⟩) := by
  have rv := r.vec i v a hv ha
  unfold resize
  rw [rv.ty]
  by_cases hc : n = 0 ∨ a.ty = 0
  · simp only [hc, if_true]
    exact R_fail r
  · simp only [hc, if_false]
    obtain ⟨h1, h2, h3, h4, h5, h6⟩ := mw_spec r hv ha
    generalize makeWritable w i v = p at *
    obtain ⟨w1, v1⟩ := p
    simp only at *
    have h2' : RVec e (setVec (w1, v1) i).heap v1 a := h2
    have hsc : (a.scalar && decide (n = 1)) = false := by
      by_cases hn : n = 1
      · simp [hs hn]
      · simp [hn]
    rw [hsc]
    have := (resize_R h1 h2' h3 h4 n (fun h => hc (Or.inr h)) (by omega) hs).1
    have e1 : setVec (resizeVec e (setVec (w1, v1) i) v1 n) i = setVec (resizeVec e w1 v1 n) i := by
      unfold resizeVec
      cases v1.data with
      | bin h =>
        simp only [setVec]
        split <;> simp
      | spec l c => simp [setVec]
      | dyn l => simp [setVec]
    rw [e1] at this
    exact this

theorem remove_RR {e : Env α} {w : World α} {s : AWorld α} (r : R e w s) {i : Nat} {v : Vec α} {a : AVec α} (hv : w.vecs[i]? = some v) (ha : s.vecs[i]? = some a) (n : Nat) :
    R e (remove e w i v n) (if a.ty = 0 ∨ a.l.length ≠ n + 1 ∨ n = 0 then s.see .failed else s.upd i { a with l := a.l.take n }) := by
  unfold remove
  obtain ⟨h1, h2, h3, h4, h5, h6⟩ := mw_spec r hv ha
  generalize makeWritable w i v = p at *
  obtain ⟨w1, v1⟩ := p
  simp only at *
  rw [h2.ty, h2.size]
  have h2' : RVec e (setVec (w1, v1) i).heap v1 a := h2
  by_cases hc : a.ty = 0 ∨ a.l.length ≠ n + 1 ∨ n = 0
  · simp only [hc, if_true]
    exact R_fail h1
  · simp only [hc, if_false]
    have hsc : a.scalar = false := by
      cases h : a.scalar with
      | false => rfl
      | true =>
        have := h2.ok.one h
        omega
    have := (resize_R h1 h2' h3 h4 n (fun h => hc (Or.inl h)) (by omega) (fun _ => hsc)).1
    have e0 : n - a.l.length = 0 := by omega
    have e1 : fresh e a.ty 0 = [] := by
      unfold fresh
      split <;> rfl
    rw [e0, e1, List.append_nil] at this
    have e2 : ({ a with l := a.l.take n } : AVec α) = ⟨a.ty, false, a.l.take n⟩ := by rw [hsc]
    rw [e2]
    exact this

theorem read_RR [DecidableEq α] {e : Env α} (hf : Fair e) {w : World α} {s : AWorld α} (r : R e w s) {i : Nat} {v : Vec α} {a : AVec α} (hv : w.vecs[i]? = some v) (ha : s.vecs[i]? = some a) (n : Nat) :
    R e (read e w i v n) (if a.ty = 0 then s.see .failed
        else match a.l[n]? with
          | none => s.see .failed
          | some (some x) => s.see (.val x)
          | some none => (s.upd i { a with l := a.l.set n (some (e.zero a.ty)) }).see (.val (e.zero a.ty))) := by
  have rv := r.vec i v a hv ha
  unfold read
  rw [rv.ty, rv.size]
  by_cases hz : a.ty = 0
  · simp only [hz, true_or, if_true]
    exact R_fail r
  · simp only [hz, false_or, if_false]
    by_cases hn : a.l.length ≤ n
    · simp only [hn, if_true, List.getElem?_eq_none hn]
      exact R_fail r
    · simp only [hn, if_false]
      have d := rv.data
      cases hd : v.data with
      | bin h =>
        rw [hd] at d
        obtain ⟨hk, l, h1, h2⟩ := d
        have hl : n < l.length := by
          rw [h1] at hn
          simp at hn
          exact hn
        simp only [h2, h1, List.getElem?_map, List.getElem?_eq_getElem hl, Option.map_some, Option.elim_some]
        exact R_see r _
      | spec l c =>
        rw [hd] at d
        obtain ⟨hk, h1, h2⟩ := d
        have hl : n < l.length := by
          rw [h1] at hn
          simp at hn
          exact hn
        simp only [h1, List.getElem?_map, List.getElem?_eq_getElem hl, Option.map_some, Option.elim_some]
        exact R_see r _
      | dyn l =>
        rw [hd] at d
        obtain ⟨hk, h1, h2⟩ := d
        have hl : n < l.length := by
          rw [h1] at hn
          simp at hn
          exact hn
        have hx : ∃ y, resolve e a.ty l[n] = some y ∧ y = (elemVal l[n]).getD (e.zero a.ty) := by
          have hok := h2 l[n] (List.getElem_mem hl)
          cases hx : l[n] with
          | uninit => exact ⟨_, rfl, rfl⟩
          | live a => exact ⟨_, rfl, rfl⟩
          | inblock q =>
            rw [hx] at hok
            obtain ⟨b, rfl⟩ := hok
            have hp := parts_head hf b
            refine ⟨b, ?_, by simp [elemVal, hp]⟩
            cases hq : parts e b with
            | nil => simp [hq] at hp
            | cons p q =>
              rw [hq] at hp
              simp at hp
              subst hp
              simp [resolve, hq]
        obtain ⟨y, hy, hyv⟩ := hx
        have key : R e (setVec (w, { v with data := .dyn (l.set n (.live y)) }) i) (s.upd i { a with l := a.l.set n (some y) }) := by
          have hp : Priv w i v := by
            intro h hh
            simp [headOf, hd] at hh
          have := store_R r rv hp (by simp [hd]) n y hz
          simpa [store, hd] using this
        rw [rv.ty, rv.size] at key
        have e1 : a.l[n]? = some (elemVal l[n]) := by simp [h1, hl]
        simp only [List.getElem?_eq_getElem hl, Option.bind_some, hy, e1]
        cases ho : elemVal l[n] with
        | none =>
          rw [ho] at hyv
          simp at hyv
          subst hyv
          exact R_see key _
        | some b =>
          rw [ho] at hyv
          simp at hyv
          subst hyv
          have e2 : s.upd i { a with l := a.l.set n (some y) } = s := by
            have : a.l.set n (some y) = a.l := set_same (by rw [e1, ho])
            simp only [AWorld.upd, this]
            rw [set_same ha]
          rw [e2] at key
          exact R_see key _

theorem valid_RR {e : Env α} (hf : Fair e) {w : World α} {s : AWorld α} (r : R e w s) {i : Nat} {v : Vec α} {a : AVec α} (hv : w.vecs[i]? = some v) (ha : s.vecs[i]? = some a) (n : Nat) :
    R e (isValid w v n) (if a.ty = 0 then s.see (.flag false)
        else match a.l[n]? with
          | none => s.see .failed
          | some o => s.see (.flag o.isSome)) := by
  have rv := r.vec i v a hv ha
  unfold isValid
  rw [rv.ty, rv.size]
  by_cases hz : a.ty = 0
  · simp only [hz, if_true]
    exact R_see r _
  · simp only [hz, if_false]
    by_cases hn : a.l.length ≤ n
    · simp only [hn, if_true, List.getElem?_eq_none hn]
      exact R_fail r
    · simp only [hn, if_false]
      have d := rv.data
      cases hd : v.data with
      | bin h =>
        rw [hd] at d
        obtain ⟨hk, l, h1, h2⟩ := d
        have hl : n < l.length := by
          rw [h1] at hn
          simp at hn
          exact hn
        simp only [h1, List.getElem?_map, List.getElem?_eq_getElem hl, Option.map_some, Option.isSome_some]
        exact R_see r _
      | spec l c =>
        rw [hd] at d
        obtain ⟨hk, h1, h2⟩ := d
        have hl : n < l.length := by
          rw [h1] at hn
          simp at hn
          exact hn
        simp only [h1, List.getElem?_map, List.getElem?_eq_getElem hl, Option.map_some, Option.isSome_some]
        exact R_see r _
      | dyn l =>
        rw [hd] at d
        obtain ⟨hk, h1, h2⟩ := d
        have hl : n < l.length := by
          rw [h1] at hn
          simp at hn
          exact hn
        have hok := h2 l[n] (List.getElem_mem hl)
        simp only [h1, List.getElem?_map, List.getElem?_eq_getElem hl, Option.map_some]
        cases hx : l[n] with
        | uninit => exact R_see r _
        | live b => exact R_see r _
        | inblock q =>
          rw [hx] at hok
          obtain ⟨b, rfl⟩ := hok
          simp only [elemVal, parts_head hf, Option.map_some, Option.isSome_some]
          exact R_see r _

/-- What an operation must not do for the code to be right. -/
def Safe (s : AWorld α) (o : Op α) : Prop :=
  (∀ t d, o ≠ .create t (some 0) d) ∧ ∀ i a, o = .resize i 1 → s.vecs[i]? = some a → a.scalar = false

theorem step_RR [DecidableEq α] {e : Env α} (hf : Fair e) {w : World α} {s : AWorld α} (r : R e w s) (o : Op α) (hs : Safe s o) : RR e (step e w o) (s.step e o) := by
  cases o with
  | empty =>
    exact R_push0 r ⟨rfl, rfl, rfl, ⟨fun _ => ⟨rfl, rfl⟩, fun h => absurd rfl h, fun h => by simp at h⟩, Or.inl rfl, rfl, by simp⟩
  | create t num data =>
    simp only [step, AWorld.step]
    rcases init_spec hf w s t num (fun h => hs.1 t data (by rw [h])) data with ⟨y, v', a', e1, e2, e3, e4, e5⟩ | ⟨e1, e2⟩ | ⟨e1, e2⟩
    · simp only [e1, e2, Res.ok_bind]
      exact R_push r y e3
    · simp only [e1, e2, Res.ok_bind]
      exact R_fail r
    · simp only [e1, e2, Res.ub_bind]
      trivial
  | receive m =>
    simp only [step, AWorld.step]
    cases hm : w.msgs[m]? with
    | none =>
      have : s.msgs[m]? = none := by
        rw [List.getElem?_eq_none_iff] at hm ⊢
        have := r.nm
        omega
      rw [this]
      exact r
    | some m' =>
      obtain ⟨a, ha, rm⟩ := msg_at r hm
      obtain ⟨v, e1, e2⟩ := fromBlock_spec hf rm
      rw [ha]
      simp only [e1]
      exact R_push0 r e2
  | copy i => exact elim_RR r i (fun v a _ _ rv => R_push0 r rv)
  | assign i n t x => exact elim_RR r i (fun v a hv ha _ => assign_RR hf r hv ha n t x)
  | put i n x => exact elim_RR r i (fun v a hv ha _ => put_RR hf r hv ha n x)
  | resize i n =>
    exact elim_RR r i (fun v a hv ha _ => resize_RR r hv ha n (fun hn => hs.2 i a (by rw [hn]) ha))
  | remove i n => exact elim_RR r i (fun v a hv ha _ => remove_RR r hv ha n)
  | send i => exact elim_RR r i (fun v a hv ha _ => toBlock_R hf r hv ha)
  | read i n => exact elim_RR r i (fun v a hv ha _ => read_RR hf r hv ha n)
  | valid i n => exact elim_RR r i (fun v a hv ha _ => valid_RR hf r hv ha n)
  | size i =>
    refine elim_RR r i (fun v a hv ha rv => ?_)
    rw [rv.size]
    exact R_see r _
  | scalar i =>
    refine elim_RR r i (fun v a hv ha rv => ?_)
    rw [rv.ty, rv.scalar]
    by_cases hz : a.ty = 0
    · simp only [hz, if_true]
      trivial
    · simp only [hz, if_false]
      exact R_see r _

theorem run_RR [DecidableEq α] {e : Env α} (hf : Fair e) : ∀ (ops : List (Op α)) {w : World α} {s : AWorld α}, R e w s →
    (∀ pre o post, ops = pre ++ o :: post → ∀ s', s.run e pre = .ok s' → Safe s' o) → RR e (run e w ops) (s.run e ops)
  | [], w, s, r, _ => r
  | o :: ops, w, s, r, hs => by
    have h0 := step_RR hf r o (hs [] o ops rfl s rfl)
    simp only [run, AWorld.run]
    cases h1 : step e w o with
    | err =>
      rw [h1] at h0
      exact h0.elim
    | ub =>
      rw [h1] at h0
      cases h2 : s.step e o with
      | ub => trivial
      | err => rw [h2] at h0; exact h0.elim
      | ok s1 => rw [h2] at h0; exact h0.elim
    | ok w1 =>
      rw [h1] at h0
      cases h2 : s.step e o with
      | ub => rw [h2] at h0; exact h0.elim
      | err => rw [h2] at h0; exact h0.elim
      | ok s1 =>
        rw [h2] at h0
        refine run_RR hf ops h0 (fun pre p post hp s' hs' => hs (o :: pre) p post (by rw [hp]; rfl) s' ?_)
        simp only [AWorld.run, h2, Res.ok_bind]
        exact hs'

end Verif.DVec
