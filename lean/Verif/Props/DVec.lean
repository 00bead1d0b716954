import Verif.Proof.DVec
/-!
# Properties of vectors
-/
namespace Verif.DVec

/-- C209: whatever is done with vectors of values and objects, with copies of them and messages made from them, one sees what one would see if they
were lists that share nothing. -/
def C209_full : Prop :=
  ∀ (α : Type) [DecidableEq α] (e : Env α) (ops : List (Op α)), Fair e → ∀ s, astart.run e ops = .ok s → ∃ w, run e start ops = .ok w ∧ w.log = s.log

/-- C209, for operations that do not make vectors of size 0 and do not resize scalars to size 1: also, the operations that are undefined are those that
are expected to be. -/
theorem C209_partial {α : Type} [DecidableEq α] (e : Env α) (ops : List (Op α)) (hf : Fair e)
    (h0 : ∀ t d, Op.create t (some 0) d ∉ ops)
    (h1 : ∀ pre i post, ops = pre ++ Op.resize i 1 :: post → ∀ s a, astart.run e pre = .ok s → s.vecs[i]? = some a → a.scalar = false) :
    (∀ r, (∃ w, run e start ops = .ok w ∧ w.log = r) ↔ ∃ s, astart.run e ops = .ok s ∧ s.log = r) ∧
      (run e start ops = .ub ↔ astart.run e ops = .ub) := by
  have := run_RR hf ops (start_R e) (fun pre o post hp s hs => ⟨fun t d ho => h0 t d (by rw [hp, ho]; simp), fun i a ho ha => h1 pre i post (by rw [hp, ho]) s a hs ha⟩)
  revert this
  cases run e start ops <;> cases astart.run e ops <;> intro this
  · rename_i w s
    have := this.log
    simp [this]
  · exact this.elim
  · exact this.elim
  · exact this.elim
  · simp
  · exact this.elim
  · exact this.elim
  · exact this.elim
  · simp

/-- Type 1 has values in blocks, 2 beside them, 3 is a class of objects of two blocks. -/
def env : Env Nat := ⟨fun t => match t with
  | 1 => some .bin
  | 2 => some .spec
  | 3 => some .dyn
  | _ => none, fun _ => 0, fun _ => 3, fun _ => 2, fun _ => 77⟩

theorem env_fair : Fair env := ⟨rfl, fun _ => Nat.succ_pos 1⟩

/-- A vector is made of data, copied and sent; then the original is changed and grows; the copy and what is received are as before. Objects come
through a message, and missing ones stay missing. -/
def busy : List (Op Nat) :=
  [.create 1 (some 2) (some [5, 6, 7]), .copy 0, .send 0, .assign 0 0 1 9, .assign 0 2 1 8, .receive 0, .read 0 0, .read 0 2, .size 0, .read 1 0, .size 1,
    .read 2 0, .assign 2 1 1 4, .receive 0, .read 3 1, .remove 0 2, .size 0,
    .create 3 (some 2) none, .put 4 1 30, .send 4, .receive 1, .valid 5 0, .valid 5 1, .read 5 1, .put 5 1 31, .read 4 1, .read 5 1,
    .empty, .assign 6 0 2 50, .scalar 6, .send 6, .assign 6 0 2 51, .receive 2, .read 7 0, .scalar 7, .read 6 0, .assign 6 0 3 1, .resize 6 3, .scalar 6]

example : (∃ w, run env start busy = .ok w ∧ w.log = [.val 9, .val 8, .num 3, .val 5, .num 2, .val 5, .val 6, .num 2, .flag false, .flag true, .val 30, .val 30, .val 31,
    .flag true, .val 50, .flag true, .val 51, .failed, .flag false]) := by
  have h := C209_partial env busy env_fair (by simp [busy]) (by
    intro pre i post hp
    have : Op.resize i 1 ∈ busy := by rw [hp]; simp
    simp [busy] at this)
  refine (h.1 _).2 ?_
  cases hs : astart.run env busy with
  | ok s =>
    refine ⟨s, rfl, ?_⟩
    have : (match astart.run env busy with
      | .ok s => s.log
      | _ => []) = [.val 9, .val 8, .num 3, .val 5, .num 2, .val 5, .val 6, .num 2, .flag false, .flag true, .val 30, .val 30, .val 31,
        .flag true, .val 50, .flag true, .val 51, .failed, .flag false] := by decide +kernel
    rw [hs] at this
    exact this
  | err =>
    have : (match astart.run env busy with
      | .err => false
      | _ => true) = true := by decide +kernel
    rw [hs] at this
    cases this
  | ub =>
    have : (match astart.run env busy with
      | .ub => false
      | _ => true) = true := by decide +kernel
    rw [hs] at this
    cases this

/-- A vector of size 0 has an element. -/
theorem C209_refuted : ¬ C209_full := by
  intro h
  obtain ⟨w, h1, h2⟩ := h Nat env [.create 1 (some 0) none, .size 0] env_fair _ rfl
  have : run env start [.create 1 (some 0) none, .size 0] = .ok ⟨[⟨1, 1, 1, .vals [0]⟩], [⟨1, 1, false, .bin 0⟩], [], [.num 1]⟩ := by decide +kernel
  rw [this] at h1
  cases h1
  cases h2

/-- A scalar that was resized to size 1 is a scalar, but what is received is not. -/
theorem C209_refuted_scalar : ¬ ∀ (α : Type) [DecidableEq α] (e : Env α) (ops : List (Op α)), Fair e → (∀ t d, Op.create t (some 0) d ∉ ops) →
    ∀ s, astart.run e ops = .ok s → ∃ w, run e start ops = .ok w ∧ w.log = s.log := by
  intro h
  obtain ⟨w, h1, h2⟩ := h Nat env [.create 1 none none, .resize 0 1, .send 0, .receive 0, .scalar 0, .scalar 1] env_fair (by simp) _ rfl
  have : run env start [.create 1 none none, .resize 0 1, .send 0, .receive 0, .scalar 0, .scalar 1] =
      .ok ⟨[⟨1, 1, 1, .vals [0]⟩], [⟨1, 1, true, .bin 0⟩, ⟨1, 1, false, .bin 0⟩], [⟨0, []⟩], [.flag true, .flag false]⟩ := by decide +kernel
  rw [this] at h1
  cases h1
  simp [astart, AWorld.see, AWorld.upd] at h2

end Verif.DVec
