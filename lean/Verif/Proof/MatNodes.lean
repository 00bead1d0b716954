import Verif.Spec.MatNodes
import Verif.Props.Function
import Verif.Proof.Tensor
import Mathlib.Tactic.Ring
import Mathlib.Tactic.FieldSimp
import Mathlib.Tactic.LinearCombination
/-! # Functions of tensors: proofs -/
namespace Verif.MatNodes
open Verif.Func (Plane IdsWf PlaneWf pertVal findSpids idsOf maxSets spidLoop failPlane addFails Code mainVal Depends Agree RowOk)
open Verif.Tensor (TRes)

theorem regroup_map {α β : Type} (g : α → β) : ∀ ch : List (List α), regroup (ch.map List.length) (ch.flatten.map g) = ch.map (List.map g)
  | [] => rfl
  | c :: l => by
    rw [List.map_cons, List.flatten_cons, List.map_append, List.map_cons]
    unfold regroup
    rw [List.take_left' (by simp), List.drop_left' (by simp), regroup_map g l]

theorem tensorCore_eq [Inhabited V] (g : List (Option V) → Res (List V)) (fl : List (Option (Plane V F))) : tensorCore g fl =
    (g (fl.map mainVal)).bind fun main => (findSpids (idsOf fl)).bind fun spids =>
      (spidLoop (fun _ => true) g (maxSets fl) fl (fl.map mainVal) spids (List.replicate fl.length 0)).bind fun rows =>
        .ok ((List.range main.length).map (outPlane main spids (maxSets fl) rows)) := rfl

/-- The loop, for any function of the flat list. -/
theorem tensorCore_spec [Inhabited V] (g : List (Option V) → Res (List V)) (n : Nat) (fl : List (Option (Plane V F)))
    (hw : ∀ c, some c ∈ fl → PlaneWf n c) :
    ((∃ main, g (fl.map mainVal) = .ok main) → Agree n fl → (∀ s, Depends fl s → ∀ k < n, ∃ v, g (fl.map (pertVal s k)) = .ok v) →
      ∃ out, tensorCore g fl = .ok out) ∧
    ∀ out, tensorCore g fl = .ok out → Agree n fl ∧ ∃ main, g (fl.map mainVal) = .ok main ∧ out.length = main.length ∧
      ∀ (j : Nat) (p : Plane V F), out[j]? = some p → p.fail = none ∧ p.value = main[j]? ∧ IdsWf p.spids ∧ (∀ s, s ∈ p.spids ↔ Depends fl s) ∧
        (p.spids ≠ [] → p.npert = n) ∧
        ∀ (i : Nat) (s : Int), p.spids[i]? = some s → ∀ k < n, (∃ vs, g (fl.map (pertVal s k)) = .ok vs ∧ p.pval i k = vs.getD j default) ∧
          ∀ c, some c ∈ fl → ∀ l : Nat, c.spids[l]? = some s → p.pert i k = c.pert l k := by
  obtain ⟨u, e, hu, hdep, hmax, h1, h2, _⟩ := Func.evalPlane_loop (fun _ => true) g n fl hw
  have hinc : ∀ c, some c ∈ fl → Func.Increasing c.spids := fun c hc => (hw c hc).1.1
  have hgi := Func.good_iff (fun _ => true) n fl hinc
  constructor
  · rintro ⟨main, hm⟩ ha hp
    have hG := hgi.2 ⟨fun _ _ _ _ _ _ => rfl, ha⟩
    obtain ⟨rows, hr⟩ := h2 (fun s hs => ⟨hG s ((hdep s).1 hs), hp s ((hdep s).1 hs)⟩)
    rw [tensorCore_eq, hm]
    dsimp only [Res.bind]
    rw [e]
    dsimp only
    rw [hr]
    exact ⟨_, rfl⟩
  · intro out ho
    rw [tensorCore_eq] at ho
    cases hm : g (fl.map mainVal) with
    | err => rw [hm] at ho; cases ho
    | ub => rw [hm] at ho; cases ho
    | ok main =>
      rw [hm] at ho
      dsimp only [Res.bind] at ho
      rw [e] at ho
      dsimp only at ho
      cases hr : spidLoop (fun _ => true) g (maxSets fl) fl (fl.map mainVal) u (List.replicate fl.length 0) with
      | err => rw [hr] at ho; cases ho
      | ub => rw [hr] at ho; cases ho
      | ok rows =>
        rw [hr] at ho
        dsimp only at ho
        injection ho with ho
        obtain ⟨_, h3⟩ := h1 rows hr
        refine ⟨?_, main, rfl, by rw [← ho]; simp, ?_⟩
        · refine (hgi.1 fun s hs => ?_).2
          obtain ⟨i, hi, he⟩ := List.mem_iff_getElem.1 ((hdep s).2 hs)
          exact (h3 i s (by rw [List.getElem?_eq_getElem hi, he])).1
        · intro j p hp
          rw [← ho, List.getElem?_map] at hp
          have hj : j < main.length := by
            by_contra hj
            rw [List.getElem?_eq_none (by simpa using hj)] at hp
            cases hp
          rw [List.getElem?_range hj] at hp
          injection hp with hp
          subst hp
          refine ⟨rfl, rfl, hu, hdep, hmax, fun i s hi k hk => ?_⟩
          obtain ⟨_, row, hrow, hok⟩ := h3 i s hi
          obtain ⟨q, w, a1, a2, a3⟩ := hok k hk
          have er : (rows.getD i []).getD k (0, []) = (q, w) := by
            rw [List.getD_eq_getElem?_getD, List.getD_eq_getElem?_getD, hrow]
            simp [a1]
          unfold outPlane
          dsimp only
          rw [er]
          exact ⟨⟨w, a2, rfl⟩, fun c hc l hl => a3 _ ((Func.mem_perts s k fl _ hinc).2 ⟨c, hc, l, hl, rfl⟩)⟩

theorem mem_flat (ch : List (List (Plane V F))) (c : Plane V F) : some c ∈ ch.flatten.map some ↔ ∃ l ∈ ch, c ∈ l := by
  simp

theorem flat_map (ch : List (List (Plane V F))) (f : List (List (Option V)) → Res (List V)) (g : Option (Plane V F) → Option V) :
    f (regroup (ch.map List.length) ((ch.flatten.map some).map g)) = f (ch.map fun c => c.map fun p => g (some p)) := by
  rw [List.map_map, regroup_map]
  rfl

theorem depends_flat (ch : List (List (Plane V F))) (s : Int) : Depends (ch.flatten.map some) s ↔ DependsT ch s := by
  unfold Depends DependsT
  simp only [mem_flat]
  constructor
  · rintro ⟨c, ⟨l, h1, h2⟩, h3⟩; exact ⟨l, h1, c, h2, h3⟩
  · rintro ⟨l, h1, c, h2, h3⟩; exact ⟨c, ⟨l, h1, h2⟩, h3⟩

theorem agree_flat (n : Nat) (ch : List (List (Plane V F))) : Agree n (ch.flatten.map some) ↔ AgreeT n ch := by
  unfold Agree AgreeT
  simp only [mem_flat]
  constructor
  · intro h c hc d hd p hp q hq i j s h1 h2 k hk
    exact h p q ⟨c, hc, hp⟩ ⟨d, hd, hq⟩ i j s h1 h2 k hk
  · rintro h p q ⟨c, hc, hp⟩ ⟨d, hd, hq⟩ i j s h1 h2 k hk
    exact h c hc d hd p hp q hq i j s h1 h2 k hk

/-! ## Transposing -/

open Verif.Tensor (prod rowMajor ValidIdx Sized elem setDims putPlane getPlane rowMajor_lt)

theorem prod_append (a b : List Nat) : prod (a ++ b) = prod a * prod b := by
  induction a with
  | nil => simp [prod]
  | cons x a ih => simp only [prod, List.cons_append, List.foldr_cons] at *; rw [ih, Nat.mul_assoc]

theorem rowMajor_append : ∀ (l idx : List Nat) (m k : List Nat), l.length = idx.length →
    rowMajor (l ++ m) (idx ++ k) = rowMajor l idx * prod m + rowMajor m k
  | [], [], m, k, _ => by simp [rowMajor]
  | d :: l, i :: idx, m, k, h => by
    have := rowMajor_append l idx m k (by simpa using h)
    simp only [List.cons_append, rowMajor]
    rw [this, prod_append]
    ring
  | [], _ :: _, _, _, h => by simp at h
  | _ :: _, [], _, _, h => by simp at h

open Classical in
theorem moveAll_spec (F : Nat → Nat) (c : TRes P) : ∀ (l : List (Nat × Nat)) (r : TRes P),
    (∀ m ∈ l, m.1 < r.planes.length ∧ m.2 < c.planes.length ∧ m.2 = F m.1) →
    ∃ r', moveAll c l r = .ok r' ∧ r'.dims = r.dims ∧ r'.stored = r.stored ∧ r'.planes.length = r.planes.length ∧
      ∀ d < r.planes.length, r'.planes[d]? = if (∃ s, (d, s) ∈ l) then c.planes[F d]? else r.planes[d]? := by
  intro l
  induction l with
  | nil =>
    intro r _
    refine ⟨r, rfl, rfl, rfl, rfl, fun d _ => ?_⟩
    rw [if_neg]; rintro ⟨s, h⟩; cases h
  | cons m l ih =>
    intro r hm
    obtain ⟨h1, h2, h3⟩ := hm m (by simp)
    obtain ⟨r', e, q1, q2, q3, q4⟩ := ih ⟨r.dims, r.stored, r.planes.set m.1 c.planes[m.2]⟩ (fun x hx => by
      have := hm x (by simp [hx])
      simpa using this)
    refine ⟨r', ?_, q1, q2, by simpa using q3, fun d hd => ?_⟩
    · unfold moveAll
      have : getPlane c m.2 = .ok c.planes[m.2] := by unfold getPlane; rw [List.getElem?_eq_getElem h2]
      rw [this]
      dsimp only [Res.bind]
      have : putPlane r m.1 c.planes[m.2] = .ok ⟨r.dims, r.stored, r.planes.set m.1 c.planes[m.2]⟩ := by
        unfold putPlane
        rw [if_neg (by omega), if_neg (by omega)]
      rw [this]
      exact e
    · rw [q4 d (by simpa using hd)]
      dsimp only
      by_cases hl : ∃ s, (d, s) ∈ l
      · rw [if_pos hl, if_pos]
        obtain ⟨s, hs⟩ := hl
        exact ⟨s, by simp [hs]⟩
      · rw [if_neg hl]
        by_cases hmd : m.1 = d
        · rw [if_pos ⟨m.2, by rw [← hmd]; simp⟩, ← hmd, List.getElem?_set_self h1, ← h3, List.getElem?_eq_getElem h2]
        · rw [if_neg, List.getElem?_set_ne hmd]
          rintro ⟨s, hs⟩
          rcases List.mem_cons.1 hs with h | h
          · exact hmd (by rw [← h])
          · exact hl ⟨s, h⟩

/-- Where the element at `d` is from. -/
def from' (nx ny d : Nat) : Nat := d / (nx * ny) * (nx * ny) + (d % nx * ny + d / nx % ny)

theorem from_eq (nx ny k i j : Nat) (hi : i < ny) (hj : j < nx) :
    from' nx ny (k * (nx * ny) + (i * nx + j)) = k * (nx * ny) + (j * ny + i) := by
  have hx : 0 < nx := by omega
  have hlt : i * nx + j < nx * ny := by
    have : (i + 1) * nx ≤ ny * nx := Nat.mul_le_mul_right nx hi
    rw [Nat.add_mul, Nat.mul_comm ny] at this
    omega
  have e1 : (k * (nx * ny) + (i * nx + j)) / (nx * ny) = k := by
    rw [Nat.mul_comm k, Nat.mul_add_div (by omega), Nat.div_eq_of_lt hlt]; omega
  have e2 : (k * (nx * ny) + (i * nx + j)) % nx = j := by
    rw [show k * (nx * ny) + (i * nx + j) = nx * (k * ny + i) + j by ring, Nat.mul_add_mod, Nat.mod_eq_of_lt hj]
  have e3 : (k * (nx * ny) + (i * nx + j)) / nx % ny = i := by
    rw [show k * (nx * ny) + (i * nx + j) = nx * (k * ny + i) + j by ring, Nat.mul_add_div hx, Nat.div_eq_of_lt hj, Nat.add_zero,
      Nat.mul_comm k, Nat.mul_add_mod, Nat.mod_eq_of_lt hi]
  unfold from'
  rw [e1, e2, e3]

theorem mem_moves (nmat nx ny : Nat) (m : Nat × Nat) : m ∈ moves nmat nx ny ↔ ∃ k < nmat, ∃ i < ny, ∃ j < nx,
    m = (k * (nx * ny) + (i * nx + j), k * (nx * ny) + (j * ny + i)) := by
  unfold moves
  simp only [List.mem_flatMap, List.mem_range, List.mem_map]
  constructor
  · rintro ⟨k, hk, i, hi, j, hj, e⟩; exact ⟨k, hk, i, hi, j, hj, e.symm⟩
  · rintro ⟨k, hk, i, hi, j, hj, e⟩; exact ⟨k, hk, i, hi, j, hj, e.symm⟩

theorem pos_lt (n k x N : Nat) (hk : k < n) (hx : x < N) : k * N + x < n * N := by
  have : (k + 1) * N ≤ n * N := Nat.mul_le_mul_right N hk
  rw [Nat.add_mul] at this
  omega

theorem cell_lt (nx ny i j : Nat) (hi : i < ny) (hj : j < nx) : i * nx + j < nx * ny := by
  rw [Nat.mul_comm nx]; exact pos_lt ny i j nx hi hj

theorem moves_spec (nmat nx ny : Nat) (c r : TRes P) (hc : c.planes.length = nmat * (nx * ny)) (hr : r.planes.length = nmat * (nx * ny)) :
    ∃ r', moveAll c (moves nmat nx ny) r = .ok r' ∧ r'.dims = r.dims ∧ r'.stored = r.stored ∧ r'.planes.length = r.planes.length ∧
      ∀ k < nmat, ∀ i < ny, ∀ j < nx, r'.planes[k * (nx * ny) + (i * nx + j)]? = c.planes[k * (nx * ny) + (j * ny + i)]? := by
  obtain ⟨r', e, q1, q2, q3, q4⟩ := moveAll_spec (from' nx ny) c (moves nmat nx ny) r (by
    intro m hm
    obtain ⟨k, hk, i, hi, j, hj, rfl⟩ := (mem_moves nmat nx ny m).1 hm
    refine ⟨?_, ?_, ?_⟩
    · rw [hr]; exact pos_lt _ _ _ _ hk (cell_lt nx ny i j hi hj)
    · rw [hc]; exact pos_lt _ _ _ _ hk (by rw [Nat.mul_comm nx]; exact cell_lt ny nx j i hj hi)
    · dsimp only; rw [from_eq nx ny k i j hi hj])
  refine ⟨r', e, q1, q2, q3, fun k hk i hi j hj => ?_⟩
  rw [q4 _ (by rw [hr]; exact pos_lt _ _ _ _ hk (cell_lt nx ny i j hi hj)), if_pos, from_eq nx ny k i j hi hj]
  exact ⟨_, (mem_moves nmat nx ny _).2 ⟨k, hk, i, hi, j, hj, rfl⟩⟩

theorem setDims_ok (e : P) (c : TRes P) (d : List Nat) (hne : c.planes ≠ []) (hp : prod d = c.planes.length) (h1 : 1 < prod d) :
    ∃ r, setDims e c d = .ok r ∧ r.dims = d ∧ r.planes = c.planes := by
  have : ¬ c.planes.length = 0 := by have := List.length_pos_iff.2 hne; omega
  unfold setDims
  rw [if_neg this, if_neg (by simpa using hp)]
  dsimp only
  rw [if_pos h1]
  exact ⟨_, rfl, rfl, rfl⟩

/-- A tensor whose last two axes are `nx`, `ny`, and `nx` is not 1. -/
theorem reshape_spec (e : P) (tensor : Bool) (c : TRes P) (l : List Nat) (nx ny : Nat) (hd : c.dims = l ++ [nx, ny]) (hs : Sized c) (hne : c.planes ≠ [])
    (hx : nx ≠ 1) (ht : tensor = true → l = [] → ny ≠ 1) :
    ∃ r, reshape e tensor c = .ok r ∧ r.dims = l ++ [ny, nx] ∧ r.planes.length = c.planes.length ∧
      ∀ idx, ValidIdx l idx → ∀ i < ny, ∀ j < nx, elem r (idx ++ [i, j]) = elem c (idx ++ [j, i]) := by
  have hlen : c.planes.length = prod l * (nx * ny) := by
    rw [hs.1, hd, prod_append]; simp [prod]
  have hpos := List.length_pos_iff.2 hne
  have hlen' : prod (l ++ [ny, nx]) = c.planes.length := by
    rw [hlen, prod_append]; simp [prod]; left; exact Nat.mul_comm _ _
  have hnxy : 0 < nx * ny := Nat.pos_of_ne_zero fun h => by rw [h, Nat.mul_zero] at hlen; omega
  have hl : 0 < prod l := Nat.pos_of_ne_zero fun h => by rw [h, Nat.zero_mul] at hlen; omega
  have h1 : 1 < prod (l ++ [ny, nx]) := by
    rw [hlen', hlen]
    have : 0 < nx := Nat.pos_of_mul_pos_right hnxy
    have hy : 0 < ny := Nat.pos_of_mul_pos_left hnxy
    have : 2 ≤ nx * ny := le_trans (by omega : 2 ≤ nx * 1) (Nat.mul_le_mul_left nx hy)
    exact lt_of_lt_of_le (by omega : 1 < 1 * (nx * ny)) (Nat.mul_le_mul_right _ hl)
  obtain ⟨r0, e0, d0, p0⟩ := setDims_ok e c (l ++ [ny, nx]) hne hlen' h1
  obtain ⟨r, e1, d1, _, p1, m1⟩ := moves_spec (prod l) nx ny c r0 hlen (by rw [p0, hlen])
  refine ⟨r, ?_, by rw [d1, d0], by rw [p1, p0], ?_⟩
  · unfold reshape
    have hrev : c.dims.reverse = ny :: nx :: l.reverse := by rw [hd]; simp
    rw [hrev]
    cases hlr : l.reverse with
    | nil =>
      have hl0 : l = [] := by simpa using hlr
      dsimp only
      have hty : (tensor && ny == 1) = false := by
        cases tensor with
        | false => rfl
        | true => simpa using ht rfl hl0
      rw [hty, if_neg (by simp), if_neg hx]
      rw [hl0, List.nil_append] at e0
      rw [e0]
      dsimp only [Res.bind]
      rw [hl0] at e1
      exact e1
    | cons a t =>
      dsimp only
      rw [if_neg hx, ← hlr, List.reverse_reverse, e0]
      dsimp only [Res.bind]
      rw [hlen, Nat.mul_div_cancel _ hnxy]
      exact e1
  · intro idx hidx i hi j hj
    have hli : l.length = idx.length := by
      have := List.Forall₂.length_eq hidx
      exact this.symm
    unfold elem
    rw [d1, d0, hd, rowMajor_append l idx _ _ hli, rowMajor_append l idx _ _ hli]
    have hk := rowMajor_lt l idx hidx
    have := m1 (rowMajor l idx) hk i hi j hj
    have e1 : prod [ny, nx] = nx * ny := by simp [prod]; exact Nat.mul_comm _ _
    have e2 : prod [nx, ny] = nx * ny := by simp [prod]
    have e3 : rowMajor [ny, nx] [i, j] = i * nx + j := by simp [rowMajor, prod]
    have e4 : rowMajor [nx, ny] [j, i] = j * ny + i := by simp [rowMajor, prod]
    rw [e1, e2, e3, e4]
    exact this

end Verif.MatNodes
