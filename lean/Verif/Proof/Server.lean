import Verif.Spec.Server
import Mathlib.Tactic.Tauto

namespace Verif.Server
open Verif.ServerSpec

variable {β : Type}

/-! ### Small facts -/

theorem repliesTo_append (n : Nat) (a b : List (Post β)) :
    repliesTo n (a ++ b) = repliesTo n a ++ repliesTo n b := by
  induction a with
  | nil => rfl
  | cons x xs ih =>
    cases x with
    | reply m id ix app c =>
      rw [List.cons_append, repliesTo, repliesTo]
      by_cases h : m = n
      · rw [if_pos h, if_pos h, ih, List.cons_append]
      · rw [if_neg h, if_neg h, ih]
    | _ => exact ih

theorem answered_append (a b : List (Post β)) : answered (a ++ b) = answered a ++ answered b := by
  induction a with
  | nil => rfl
  | cons x xs ih =>
    cases x with
    | reply m id ix app c => rw [List.cons_append, answered, answered, ih, List.cons_append]
    | _ => exact ih

/-- What a post tells about the state. -/
def tells : Post β → Option App
  | .state a => some a
  | .reply _ _ _ app _ => app
  | _ => none

theorem told_eq (ps : List (Post β)) : told ps = (ps.reverse.findSome? tells).getD .idle := by
  unfold told
  cases ps with
  | nil => rfl
  | cons x xs =>
    dsimp only
    show (match ((x :: xs).reverse).findSome? tells with | some a => a | none => .idle) = _
    cases ((x :: xs).reverse).findSome? tells <;> rfl

theorem told_snoc (ps : List (Post β)) (x : Post β) : told (ps ++ [x]) = (tells x).getD (told ps) := by
  rw [told_eq, told_eq, List.reverse_append]
  simp only [List.reverse_cons, List.reverse_nil, List.nil_append, List.singleton_append, List.findSome?_cons]
  cases tells x <;> rfl

theorem asyncCommands_mem (cmd : List String) :
    cmd ∈ asyncCommands ↔ cmd ∈ immediate ∨ cmd = ["Node", "Get", "State"] := by
  unfold asyncCommands immediate
  simp only [List.mem_cons, List.not_mem_nil, or_false]
  tauto

theorem syncCommands_mem (cmd : List String) : cmd ∈ syncCommands ↔ cmd ∈ exclusive := Iff.rfl

theorem async_not_exclusive {cmd : List String} (h : cmd ∈ asyncCommands) : cmd ∉ exclusive := by
  have h1 : ∀ c ∈ asyncCommands, c ∉ exclusive := by decide +kernel
  exact h1 cmd h

/-! ### What `executeCommand` does -/

/-- The entry made for a command. -/
def entryOf (n : Nat) (cmd : List String) (p : Payload β) : Entry β :=
  ⟨n, cmd, indexOf p, (match p.args with | .val a => (match a.silent with | .val b => b | _ => false) | _ => false),
    argsOf p⟩

open Classical in
theorem entry_silent (n : Nat) (cmd : List String) (p : Payload β) :
    (entryOf n cmd p).silent = true ↔ silent p := by
  unfold entryOf silent
  dsimp only
  cases hp : p.args with
  | absent => simp
  | bad => simp
  | val a =>
    cases ha : a.silent with
    | absent => simp [ha]
    | bad => simp [ha]
    | val b => cases b <;> simp [ha]

/-- The five ways in which a command can go. -/
inductive Went (s : Sys β) (n : Nat) (cmd : List String) (p : Payload β) (o : Out β) : Sys β → Prop
  | push : Queued cmd p → Went s n cmd p o (s.push (entryOf n cmd p))
  | direct : Known cmd → ¬ Queued cmd p → Went s n cmd p o (s.direct (entryOf n cmd p) o)
  | unknown : ¬ Known cmd → Went s n cmd p o (s.post [.reply n ("Result" :: cmd) (indexOf p) none .error])
  | crash : cmd = [] → Went s n cmd p o { s with crashed := true }
  | die : (p.index = .bad ∨ p.args = .bad ∨ ∃ a, p.args = .val a ∧ (a.silent = .bad ∨ a.sync = .bad)) →
      Went s n cmd p o { s with died := true }

theorem readArgs_eq (p : Payload β) (hb : p.args ≠ .bad)
    (ha : ∀ a, p.args = .val a → a.silent ≠ .bad ∧ a.sync ≠ .bad) (n : Nat) (cmd : List String) :
    ∃ b, readArgs p.args = some (argsOf p, (entryOf n cmd p).silent, b) ∧ (b = true ↔ sync p) := by
  unfold argsOf entryOf sync
  dsimp only
  cases hp : p.args with
  | absent => exact ⟨false, rfl, by simp⟩
  | bad => exact absurd hp hb
  | val a =>
    obtain ⟨h1, h2⟩ := ha a hp
    unfold readArgs
    dsimp only
    cases hs : a.silent with
    | bad => exact absurd hs h1
    | absent =>
      cases hy : a.sync with
      | bad => exact absurd hy h2
      | absent => exact ⟨false, rfl, by simp [hy]⟩
      | val y => exact ⟨y, rfl, by cases y <;> simp [hy]⟩
    | val b =>
      cases hy : a.sync with
      | bad => exact absurd hy h2
      | absent => exact ⟨false, rfl, by simp [hy]⟩
      | val y => exact ⟨y, rfl, by cases y <;> simp [hy]⟩

theorem index_eq (p : Payload β) (h : p.index ≠ .bad) : p.index.get 0 = some (indexOf p) := by
  unfold indexOf
  cases hp : p.index with
  | absent => rfl
  | val v => rfl
  | bad => exact absurd hp h

theorem command_went (s : Sys β) (n : Nat) (cmd : List String) (p : Payload β) (o : Out β) :
    Went s n cmd p o (s.command n cmd p o) := by
  by_cases hbad : p.index = .bad ∨ p.args = .bad ∨ ∃ a, p.args = .val a ∧ (a.silent = .bad ∨ a.sync = .bad)
  · have e : s.command n cmd p o = { s with died := true } := by
      unfold Sys.command
      rcases hbad with h | h | ⟨a, h, h' | h'⟩
      · rw [h]; rfl
      · rw [h]
        cases p.index.get 0 <;> rfl
      · rw [h]
        unfold readArgs
        dsimp only
        rw [h']
        cases p.index.get 0 <;> rfl
      · rw [h]
        unfold readArgs
        dsimp only
        rw [h']
        cases p.index.get 0 <;> cases a.silent.get false <;> rfl
    rw [e]
    exact .die hbad
  · have h1 : p.index ≠ .bad := fun h => hbad (Or.inl h)
    have h2 : p.args ≠ .bad := fun h => hbad (Or.inr (Or.inl h))
    have h3 : ∀ a, p.args = .val a → a.silent ≠ .bad ∧ a.sync ≠ .bad := fun a h =>
      ⟨fun h' => hbad (Or.inr (Or.inr ⟨a, h, Or.inl h'⟩)), fun h' => hbad (Or.inr (Or.inr ⟨a, h, Or.inr h'⟩))⟩
    obtain ⟨b, hr, hb⟩ := readArgs_eq p h2 h3 n cmd
    unfold Sys.command
    rw [index_eq p h1, hr]
    dsimp only
    have he : (⟨n, cmd, indexOf p, (entryOf n cmd p).silent, argsOf p⟩ : Entry β) = entryOf n cmd p := rfl
    rw [he]
    have known : cmd ∈ asyncCommands → Known cmd := by
      intro hm
      rcases (asyncCommands_mem cmd).1 hm with h | h
      · exact Or.inr (Or.inl h)
      · exact Or.inr (Or.inr ⟨_, h⟩)
    by_cases ha : cmd ∈ asyncCommands
    · rw [if_pos ha]
      by_cases hy : b = true
      · rw [if_pos hy]
        exact .push (Or.inr ⟨known ha, hb.1 hy⟩)
      · rw [if_neg hy]
        exact .direct (known ha) (fun h => h.elim (async_not_exclusive ha) (fun h => hy (hb.2 h.2)))
    · rw [if_neg ha]
      by_cases hs : cmd ∈ syncCommands
      · rw [if_pos hs]
        exact .push (Or.inl hs)
      · rw [if_neg hs]
        cases cmd with
        | nil => exact .crash rfl
        | cons c rest =>
          dsimp only
          by_cases hn : c = "Node"
          · rw [if_pos hn]
            have hk : Known (c :: rest) := Or.inr (Or.inr ⟨rest, by rw [hn]⟩)
            by_cases hy : b = true
            · rw [if_pos hy]
              exact .push (Or.inr ⟨hk, hb.1 hy⟩)
            · rw [if_neg hy]
              exact .direct hk (fun h => h.elim hs (fun h => hy (hb.2 h.2)))
          · rw [if_neg hn]
            refine .unknown ?_
            rintro (h | h | ⟨r, h⟩)
            · exact hs h
            · exact ha ((asyncCommands_mem _).2 (Or.inl h))
            · injection h with h _
              exact hn h

/-- What happens when an event is handled. -/
inductive Handled (s : Sys β) (n : Nat) (ev : Event β) (o : Out β) : Sys β → Prop
  | command (cmd p s') : commandOf ev = some (cmd, p) → Went s n cmd p o s' → Handled s n ev o s'
  | error : commandOf ev = none → Handled s n ev o (s.post [.error])
  | state : commandOf ev = none → Handled s n ev o (s.post [.state s.state])
  | halt : commandOf ev = none → Handled s n ev o { s with running := false, out := s.out ++ [.message] }

theorem handle_eq (s : Sys β) (n : Nat) (ev : Event β) (o : Out β) :
    Handled s n ev o (s.handle n ev o) := by
  unfold Sys.handle
  split
  · rename_i cmd hid
    cases hl : ev.load with
    | none =>
      refine .error ?_
      unfold commandOf
      rw [hid, hl]
      rfl
    | some p =>
      refine .command cmd p _ ?_ (command_went s n cmd p o)
      unfold commandOf
      rw [hid, hl]
      rfl
  · rename_i hid
    have hn : commandOf ev = none := by
      unfold commandOf
      split
      · rename_i cmd p h1 h2
        exact absurd h1 (hid cmd)
      · rfl
    split
    · exact .state hn
    · split
      · exact .halt hn
      · exact .error hn

/-! ### The invariant -/

/-- Commands in the queue that have not been answered. -/
def pend (s : Sys β) : List (Entry β) :=
  match s.exec with
  | .posted _ => s.queue.tail
  | _ => s.queue

/-- The entry is that of a queued command of the history. -/
def Issued (evs : List (Event β)) (e : Entry β) : Prop :=
  ∃ ev cmd p, evs[e.n]? = some ev ∧ commandOf ev = some (cmd, p) ∧ Queued cmd p ∧ e = entryOf e.n cmd p

structure Inv (s : Sys β) : Prop where
  issued : ∀ e ∈ s.queue, Issued s.events e
  incr : (s.queue.map Entry.n).Pairwise (· < ·)
  head : ∀ e old cl, s.exec = .began e old cl → ∃ q, s.queue = e :: q
  headP : ∀ e, s.exec = .posted e → ∃ q, s.queue = e :: q
  rep : ∀ (n : Nat) ev, s.events[n]? = some ev →
    (n ∈ (pend s).map Entry.n → repliesTo n s.out = []) ∧
    (n ∉ (pend s).map Entry.n → Answered ev (repliesTo n s.out))
  lt : ∀ m ∈ answered s.out, m < s.events.length
  order : (answered s.out).Pairwise (fun a b => QueuedAt s.events a → QueuedAt s.events b → a < b)
  before : ∀ m ∈ answered s.out, QueuedAt s.events m → ∀ e ∈ pend s, m < e.n
  told : told s.out = s.state
  st : (∀ e old cl, s.exec ≠ .began e old cl) → s.state = .idle
  old : ∀ e old cl, s.exec = .began e old cl → old = .idle ∧ s.state = (stateOf e.cmd).getD .idle
  ran : ∀ x ∈ s.ran, ∃ ev p, s.events[x.1]? = some ev ∧ commandOf ev = some (x.2.1, p) ∧ x.2.2 = argsOf p
  ranOnce : (s.ran.map Prod.fst).Nodup
  ranPend : ∀ e ∈ s.queue, e.n ∈ s.ran.map Prod.fst → (∃ q, s.queue = e :: q) ∧
    ((∃ old cl, s.exec = .began e old cl) ∨ s.exec = .posted e)

theorem inv_init : Inv (Sys.init β) where
  issued := by intro e h; cases h
  incr := List.Pairwise.nil
  head := by intro e old cl h; cases h
  headP := by intro e h; cases h
  rep := by intro n ev h; cases h
  lt := by intro m h; cases h
  order := List.Pairwise.nil
  before := by intro m h; cases h
  told := rfl
  st := by intro _; rfl
  old := by intro e old cl h; cases h
  ran := by intro x h; cases h
  ranOnce := List.nodup_nil
  ranPend := by intro e h; cases h

theorem pend_sub {s : Sys β} {e : Entry β} (h : e ∈ pend s) : e ∈ s.queue := by
  unfold pend at h
  split at h
  · exact List.mem_of_mem_tail h
  · exact h

theorem issued_lt {evs : List (Event β)} {e : Entry β} (h : Issued evs e) : e.n < evs.length := by
  obtain ⟨ev, _, _, h, _⟩ := h
  exact (List.getElem?_eq_some_iff.1 h).1

theorem getElem?_snoc {γ : Type} (l : List γ) (x : γ) (n : Nat) (h : n < l.length) :
    (l ++ [x])[n]? = l[n]? := List.getElem?_append_left h

theorem get_lt {γ : Type} {l : List γ} {n : Nat} {x : γ} (h : l[n]? = some x) : n < l.length :=
  (List.getElem?_eq_some_iff.1 h).1

theorem issued_snoc {evs : List (Event β)} {e : Entry β} (ev : Event β) (h : Issued evs e) :
    Issued (evs ++ [ev]) e := by
  have hl := issued_lt h
  obtain ⟨ev', cmd, p, h1, h2⟩ := h
  exact ⟨ev', cmd, p, by rw [getElem?_snoc _ _ _ hl]; exact h1, h2⟩

theorem queuedAt_snoc {evs : List (Event β)} {n : Nat} (ev : Event β) (hl : n < evs.length)
    (h : QueuedAt (evs ++ [ev]) n) : QueuedAt evs n := by
  obtain ⟨ev', cmd, p, h1, h2⟩ := h
  exact ⟨ev', cmd, p, by rw [getElem?_snoc _ _ _ hl] at h1; exact h1, h2⟩

theorem repliesTo_nil {n : Nat} {ps : List (Post β)} (h : n ∉ answered ps) : repliesTo n ps = [] := by
  induction ps with
  | nil => rfl
  | cons x xs ih =>
    cases x with
    | reply m id ix app c =>
      rw [answered, List.mem_cons, not_or] at h
      rw [repliesTo, if_neg (fun e => h.1 e.symm)]
      exact ih h.2
    | _ => exact ih h

theorem pend_lt {s : Sys β} (h : Inv s) : s.events.length ∉ (pend s).map Entry.n := by
  intro hm
  obtain ⟨e, he, hn⟩ := List.mem_map.1 hm
  have := issued_lt (h.issued e (pend_sub he))
  omega

theorem ran_snoc {evs : List (Event β)} (ev : Event β) {x : Nat × List String × Option β}
    (h : ∃ ev p, evs[x.1]? = some ev ∧ commandOf ev = some (x.2.1, p) ∧ x.2.2 = argsOf p) :
    ∃ ev' p, (evs ++ [ev])[x.1]? = some ev' ∧ commandOf ev' = some (x.2.1, p) ∧ x.2.2 = argsOf p := by
  obtain ⟨ev', p, h1, h2⟩ := h
  exact ⟨ev', p, by rw [getElem?_snoc _ _ _ (get_lt h1)]; exact h1, h2⟩

theorem ran_lt {s : Sys β} (h : Inv s) {n : Nat} (hn : n ∈ s.ran.map Prod.fst) : n < s.events.length := by
  obtain ⟨x, hx, rfl⟩ := List.mem_map.1 hn
  obtain ⟨ev, p, h1, _⟩ := h.ran x hx
  exact get_lt h1

/-- An event that is dealt with at once. -/
theorem inv_now {s s' : Sys β} (h : Inv s) (ev : Event β) (ps : List (Post β))
    (he : s'.events = s.events ++ [ev]) (hq : s'.queue = s.queue) (hx : s'.exec = s.exec)
    (hs : s'.state = s.state) (ho : s'.out = s.out ++ ps) (ht : Verif.ServerSpec.told (s.out ++ ps) = s.state)
    (hr : Answered ev (repliesTo s.events.length ps))
    (ha : answered ps = [] ∨ (answered ps = [s.events.length] ∧ ¬ QueuedAt s'.events s.events.length))
    (hran : s'.ran = s.ran ∨ ∃ cmd p, commandOf ev = some (cmd, p) ∧
      s'.ran = s.ran ++ [(s.events.length, cmd, argsOf p)]) : Inv s' := by
  have hp : pend s' = pend s := by unfold pend; rw [hx, hq]
  have hoth : ∀ m, m < s.events.length → repliesTo m ps = [] := by
    intro m hm
    apply repliesTo_nil
    rcases ha with ha | ha
    · rw [ha]; exact List.not_mem_nil
    · rw [ha.1, List.mem_singleton]; omega
  have hmem : ∀ m ∈ answered s'.out, m ∈ answered s.out ∨
      (m = s.events.length ∧ ¬ QueuedAt s'.events m) := by
    intro m hm
    rw [ho, answered_append] at hm
    rcases List.mem_append.1 hm with hm | hm
    · exact Or.inl hm
    · rcases ha with ha | ha
      · rw [ha] at hm; cases hm
      · rw [ha.1, List.mem_singleton] at hm
        subst hm
        exact Or.inr ⟨rfl, ha.2⟩
  refine ⟨?_, by rw [hq]; exact h.incr, by rw [hq, hx]; exact h.head, by rw [hq, hx]; exact h.headP, ?_, ?_, ?_, ?_,
    by rw [ho, hs]; exact ht, by rw [hx, hs]; exact h.st, by rw [hx, hs]; exact h.old, ?_, ?_, ?_⟩
  · intro e hm
    rw [hq] at hm
    rw [he]
    exact issued_snoc ev (h.issued e hm)
  · intro n ev' hn
    rw [he] at hn
    rw [hp, ho, repliesTo_append]
    by_cases hlt : n < s.events.length
    · rw [getElem?_snoc _ _ _ hlt] at hn
      rw [hoth n hlt, List.append_nil]
      exact h.rep n ev' hn
    · have hl := get_lt hn
      rw [List.length_append, List.length_singleton] at hl
      have e : n = s.events.length := by omega
      subst e
      rw [List.getElem?_concat_length] at hn
      cases hn
      rw [repliesTo_nil (fun hm => hlt (h.lt _ hm)), List.nil_append]
      exact ⟨fun hm => absurd hm (pend_lt h), fun _ => hr⟩
  · intro m hm
    rw [he, List.length_append, List.length_singleton]
    rcases hmem m hm with hm | ⟨hm, _⟩
    · have := h.lt m hm; omega
    · omega
  · rw [ho, answered_append, List.pairwise_append]
    refine ⟨?_, ?_, ?_⟩
    · refine h.order.imp_of_mem ?_
      intro a b hma hmb hab h1 h2
      rw [he] at h1 h2
      exact hab (queuedAt_snoc ev (h.lt a hma) h1) (queuedAt_snoc ev (h.lt b hmb) h2)
    · rcases ha with ha | ha
      · rw [ha]; exact List.Pairwise.nil
      · rw [ha.1]; exact List.pairwise_singleton _ _
    · intro a _ b hb _ h2
      rcases ha with ha | ha
      · rw [ha] at hb; cases hb
      · rw [ha.1, List.mem_singleton] at hb
        subst hb
        exact absurd h2 ha.2
  · intro m hm h1 e hep
    rw [hp] at hep
    rcases hmem m hm with hm | ⟨_, hm⟩
    · rw [he] at h1
      exact h.before m hm (queuedAt_snoc ev (h.lt m hm) h1) e hep
    · exact absurd h1 hm
  · intro x hxm
    rw [he]
    rcases hran with hran | ⟨cmd, p, hc, hran⟩
    · rw [hran] at hxm
      exact ran_snoc ev (h.ran x hxm)
    · rw [hran] at hxm
      rcases List.mem_append.1 hxm with hxm | hxm
      · exact ran_snoc ev (h.ran x hxm)
      · rw [List.mem_singleton] at hxm
        subst hxm
        exact ⟨ev, p, List.getElem?_concat_length, hc, rfl⟩
  · rcases hran with hran | ⟨cmd, p, hc, hran⟩
    · rw [hran]; exact h.ranOnce
    · rw [hran, List.map_append, List.nodup_append]
      refine ⟨h.ranOnce, by simp, ?_⟩
      intro a hma b hb
      simp only [List.map_cons, List.map_nil, List.mem_singleton] at hb
      have := ran_lt h hma
      omega
  · intro e hm hn
    rw [hq] at hm ⊢
    rw [hx]
    rcases hran with hran | ⟨cmd, p, hc, hran⟩
    · rw [hran] at hn
      exact h.ranPend e hm hn
    · rw [hran, List.map_append] at hn
      rcases List.mem_append.1 hn with hn | hn
      · exact h.ranPend e hm hn
      · simp only [List.map_cons, List.map_nil, List.mem_singleton] at hn
        have := issued_lt (h.issued e hm)
        omega

theorem told_messages (ps : List (Post β)) (hps : ∀ x ∈ ps, x = .message) (out : List (Post β)) :
    Verif.ServerSpec.told (out ++ ps) = Verif.ServerSpec.told out := by
  induction ps generalizing out with
  | nil => rw [List.append_nil]
  | cons x xs ih =>
    have := hps x List.mem_cons_self
    subst this
    have e : out ++ Post.message :: xs = (out ++ [Post.message]) ++ xs := by rw [List.append_assoc]; rfl
    rw [e, ih (fun y hy => hps y (List.mem_cons_of_mem _ hy)), told_snoc]
    rfl

/-- A command that is put into the queue. -/
theorem inv_push {s s' : Sys β} (h : Inv s) (ev : Event β) (cmd : List String) (p : Payload β)
    (hc : commandOf ev = some (cmd, p)) (hQ : Queued cmd p) (ps : List (Post β)) (hps : ∀ x ∈ ps, x = .message)
    (he : s'.events = s.events ++ [ev]) (hq : s'.queue = s.queue ++ [entryOf s.events.length cmd p])
    (hx : s'.exec = s.exec) (hs : s'.state = s.state) (ho : s'.out = s.out ++ ps) (hran : s'.ran = s.ran) :
    Inv s' := by
  have hA : answered ps = [] := by
    clear ho
    induction ps with
    | nil => rfl
    | cons x xs ih =>
      have := hps x List.mem_cons_self
      subst this
      exact ih (fun y hy => hps y (List.mem_cons_of_mem _ hy))
  have hR : ∀ n, repliesTo n ps = [] := fun n => repliesTo_nil (by rw [hA]; exact List.not_mem_nil)
  have hT : Verif.ServerSpec.told (s.out ++ ps) = Verif.ServerSpec.told s.out := by
    exact told_messages ps hps s.out
  have hp : pend s' = pend s ++ [entryOf s.events.length cmd p] := by
    unfold pend
    rw [hx, hq]
    cases hxe : s.exec with
    | posted e =>
      obtain ⟨q, hq'⟩ := h.headP e hxe
      rw [hq']
      rfl
    | _ => rfl
  have hiss : Issued s'.events (entryOf s.events.length cmd p) := by
    refine ⟨ev, cmd, p, ?_, hc, hQ, rfl⟩
    rw [he]
    exact List.getElem?_concat_length
  have hans : answered s'.out = answered s.out := by rw [ho, answered_append, hA, List.append_nil]
  refine ⟨?_, ?_, ?_, ?_, ?_, ?_, ?_, ?_, by rw [ho, hs, hT]; exact h.told, by rw [hx, hs]; exact h.st,
    by rw [hx, hs]; exact h.old, ?_, by rw [hran]; exact h.ranOnce, ?_⟩
  · intro e hm
    rw [hq] at hm
    rcases List.mem_append.1 hm with hm | hm
    · rw [he]; exact issued_snoc ev (h.issued e hm)
    · rw [List.mem_singleton] at hm; subst hm; exact hiss
  · rw [hq, List.map_append, List.pairwise_append]
    refine ⟨h.incr, by simp, ?_⟩
    intro a ha b hb
    simp only [List.map_cons, List.map_nil, List.mem_singleton] at hb
    obtain ⟨e, hem, rfl⟩ := List.mem_map.1 ha
    have := issued_lt (h.issued e hem)
    rw [hb]
    exact this
  · intro e old cl hxe
    rw [hx] at hxe
    obtain ⟨q, hq'⟩ := h.head e old cl hxe
    exact ⟨_, by rw [hq, hq']; rfl⟩
  · intro e hxe
    rw [hx] at hxe
    obtain ⟨q, hq'⟩ := h.headP e hxe
    exact ⟨_, by rw [hq, hq']; rfl⟩
  · intro n ev' hn
    rw [hp, ho, repliesTo_append, hR, List.append_nil, List.map_append, List.mem_append]
    rw [he] at hn
    by_cases hlt : n < s.events.length
    · rw [getElem?_snoc _ _ _ hlt] at hn
      obtain ⟨h1, h2⟩ := h.rep n ev' hn
      refine ⟨?_, fun hm => h2 (fun hm' => hm (Or.inl hm'))⟩
      rintro (hm | hm)
      · exact h1 hm
      · simp only [List.map_cons, List.map_nil, List.mem_singleton] at hm
        have : n = s.events.length := hm
        omega
    · have hl := get_lt hn
      rw [List.length_append, List.length_singleton] at hl
      have e : n = s.events.length := by omega
      subst e
      refine ⟨fun _ => repliesTo_nil (fun hm => hlt (h.lt _ hm)), fun hm => ?_⟩
      exact absurd (Or.inr (List.mem_singleton.2 rfl)) hm
  · intro m hm
    rw [hans] at hm
    rw [he, List.length_append]
    have := h.lt m hm
    omega
  · rw [hans]
    refine h.order.imp_of_mem ?_
    intro a b hma hmb hab h1 h2
    rw [he] at h1 h2
    exact hab (queuedAt_snoc ev (h.lt a hma) h1) (queuedAt_snoc ev (h.lt b hmb) h2)
  · intro m hm h1 e hep
    rw [hans] at hm
    rw [hp] at hep
    have hlt := h.lt m hm
    rcases List.mem_append.1 hep with hep | hep
    · rw [he] at h1
      exact h.before m hm (queuedAt_snoc ev hlt h1) e hep
    · rw [List.mem_singleton] at hep
      subst hep
      exact hlt
  · intro x hxm
    rw [hran] at hxm
    rw [he]
    exact ran_snoc ev (h.ran x hxm)
  · intro e hm hn
    rw [hran] at hn
    rw [hq] at hm
    rcases List.mem_append.1 hm with hm | hm
    · obtain ⟨⟨q, hq'⟩, h2⟩ := h.ranPend e hm hn
      rw [hx]
      exact ⟨⟨_, by rw [hq, hq']; rfl⟩, h2⟩
    · rw [List.mem_singleton] at hm
      subst hm
      exact absurd (ran_lt h hn) (Nat.lt_irrefl _)

theorem effect_frame (cmd : List String) (s : Sys β) :
    (effect cmd s).queue = s.queue ∧ (effect cmd s).exec = s.exec ∧ (effect cmd s).state = s.state ∧
    (effect cmd s).out = s.out ∧ (effect cmd s).events = s.events ∧ (effect cmd s).ran = s.ran ∧
    (effect cmd s).main = s.main ∧ (effect cmd s).crashed = s.crashed ∧ (effect cmd s).died = s.died := by
  unfold effect
  split
  · exact ⟨rfl, rfl, rfl, rfl, rfl, rfl, rfl, rfl, rfl⟩
  · split <;> exact ⟨rfl, rfl, rfl, rfl, rfl, rfl, rfl, rfl, rfl⟩

/-- The posts made for the reply of a command. -/
def replyPosts (e : Entry β) (app : Option App) (a : App) (o : Out β) : List (Post β) :=
  match content e a o with
  | some c => [.reply e.n ("Result" :: e.cmd) e.index app c]
  | none => []

theorem direct_frame (s : Sys β) (e : Entry β) (o : Out β) :
    (s.direct e o).queue = s.queue ∧ (s.direct e o).exec = s.exec ∧ (s.direct e o).state = s.state ∧
    (s.direct e o).out = s.out ++ replyPosts e none s.state o ∧ (s.direct e o).events = s.events ∧
    (s.direct e o).ran = s.ran ++ [(e.n, e.cmd, e.args)] ∧ (s.direct e o).crashed = s.crashed ∧
    (s.direct e o).died = s.died := by
  have h := effect_frame e.cmd { s with ran := s.ran ++ [(e.n, e.cmd, e.args)] }
  unfold Sys.direct replyPosts
  cases content e s.state o with
  | none =>
    refine ⟨h.1, h.2.1, h.2.2.1, ?_, h.2.2.2.2.1, h.2.2.2.2.2.1, h.2.2.2.2.2.2.2.1, h.2.2.2.2.2.2.2.2⟩
    dsimp only
    rw [h.2.2.2.1, List.append_nil]
  | some c =>
    refine ⟨h.1, h.2.1, h.2.2.1, ?_, h.2.2.2.2.1, h.2.2.2.2.2.1, h.2.2.2.2.2.2.2.1, h.2.2.2.2.2.2.2.2⟩
    dsimp only [Sys.post]
    rw [h.2.2.2.1]
    rfl

theorem repliesTo_one (n : Nat) (cmd : List String) (p : Payload β) (app : Option App) (c : Content β) :
    repliesTo n [Post.reply (entryOf n cmd p).n ("Result" :: (entryOf n cmd p).cmd) (entryOf n cmd p).index app c] =
      [("Result" :: cmd, indexOf p, c)] := by
  show repliesTo n [Post.reply n ("Result" :: cmd) (indexOf p) app c] = _
  rw [repliesTo, if_pos rfl]
  rfl

theorem content_answered {n : Nat} {cmd : List String} {p : Payload β} {ev : Event β}
    (hc : commandOf ev = some (cmd, p)) (hk : Known cmd) (app : Option App) (a : App) (o : Out β) :
    Answered ev (repliesTo n (replyPosts (entryOf n cmd p) app a o)) ∧
    (answered (replyPosts (entryOf n cmd p) app a o) = [] ∨
      answered (replyPosts (entryOf n cmd p) app a o) = [n]) := by
  unfold Answered
  rw [hc]
  dsimp only
  have hs := entry_silent n cmd p
  unfold replyPosts
  cases o with
  | done r =>
    unfold content
    dsimp only
    by_cases h : (entryOf n cmd p).silent = true
    · rw [if_pos h]
      exact ⟨Or.inr (Or.inl ⟨hk, hs.1 h, Or.inl rfl⟩), Or.inl rfl⟩
    · rw [if_neg h]
      refine ⟨Or.inl ⟨hk, fun h' => h (hs.2 h'), .result (aborting cmd a) r, ?_⟩, Or.inr rfl⟩
      exact repliesTo_one n cmd p app _
  | noCommand =>
    have e := repliesTo_one n cmd p app (.error : Content β)
    refine ⟨?_, Or.inr rfl⟩
    by_cases h : silent p
    · exact Or.inr (Or.inl ⟨hk, h, Or.inr e⟩)
    · exact Or.inl ⟨hk, h, _, e⟩
  | throws =>
    have e := repliesTo_one n cmd p app (.error : Content β)
    refine ⟨?_, Or.inr rfl⟩
    by_cases h : silent p
    · exact Or.inr (Or.inl ⟨hk, h, Or.inr e⟩)
    · exact Or.inl ⟨hk, h, _, e⟩

theorem queuedAt_last {evs : List (Event β)} {ev : Event β} {cmd : List String} {p : Payload β}
    (hc : commandOf ev = some (cmd, p)) (h : QueuedAt (evs ++ [ev]) evs.length) : Queued cmd p := by
  obtain ⟨ev', cmd', p', h1, h2, h3⟩ := h
  rw [List.getElem?_concat_length] at h1
  cases h1
  rw [hc] at h2
  cases h2
  exact h3

/-- Events made as clients should. -/
def ProperOp : Op β → Prop
  | .recv ev _ => Proper ev
  | _ => True

theorem inv_handle {s : Sys β} (h : Inv s) (m : Main) (ev : Event β) (o : Out β) (hP : Proper ev) :
    Inv ({ s with main := m, events := s.events ++ [ev] }.handle s.events.length ev o) ∧
    ({ s with main := m, events := s.events ++ [ev] }.handle s.events.length ev o).crashed = s.crashed ∧
    ({ s with main := m, events := s.events ++ [ev] }.handle s.events.length ev o).died = s.died := by
  have hH := handle_eq { s with main := m, events := s.events ++ [ev] } s.events.length ev o
  generalize ({ s with main := m, events := s.events ++ [ev] } : Sys β).handle s.events.length ev o = s' at hH ⊢
  cases hH with
  | command cmd p _ hc hw =>
    unfold Proper at hP
    rw [hc] at hP
    dsimp only at hP
    cases hw with
    | push hQ =>
      refine ⟨inv_push h ev cmd p hc hQ (if s.queue.isEmpty then [] else [.message]) ?_ rfl rfl rfl rfl rfl rfl,
        rfl, rfl⟩
      intro x hx
      split at hx
      · cases hx
      · exact List.mem_singleton.1 hx
    | direct hk hq =>
      obtain ⟨f1, f2, f3, f4, f5, f6, f7, f8⟩ := direct_frame
        { s with main := m, events := s.events ++ [ev] } (entryOf s.events.length cmd p) o
      obtain ⟨c1, c2⟩ := content_answered (n := s.events.length) hc hk none s.state o
      refine ⟨inv_now h ev _ f5 f1 f2 f3 f4 ?_ c1 ?_ (Or.inr ⟨cmd, p, hc, f6⟩), f7, f8⟩
      · unfold replyPosts
        split
        · rw [told_snoc]; exact h.told
        · rw [List.append_nil]; exact h.told
      · rcases c2 with c2 | c2
        · exact Or.inl c2
        · refine Or.inr ⟨c2, ?_⟩
          rw [f5]
          exact fun h' => hq (queuedAt_last hc h')
    | unknown hk =>
      refine ⟨inv_now h ev _ rfl rfl rfl rfl rfl ?_ ?_ (Or.inr ⟨rfl, ?_⟩) (Or.inl rfl), rfl, rfl⟩
      · rw [told_snoc]; exact h.told
      · unfold Answered
        rw [hc]
        dsimp only
        rw [repliesTo, if_pos rfl]
        exact Or.inr (Or.inr ⟨hk, rfl⟩)
      · intro h'
        rcases queuedAt_last hc h' with h1 | h1
        · exact hk (Or.inl h1)
        · exact hk h1.1
    | crash he => exact absurd he hP.1
    | die hd =>
      rcases hd with hd | hd | ⟨a, ha, hd | hd⟩
      · exact absurd hd hP.2.1
      · exact absurd hd hP.2.2.1
      · exact absurd hd (hP.2.2.2 a ha).1
      · exact absurd hd (hP.2.2.2 a ha).2
  | error hc =>
    refine ⟨inv_now h ev _ rfl rfl rfl rfl rfl ?_ ?_ (Or.inl rfl) (Or.inl rfl), rfl, rfl⟩
    · rw [told_snoc]; exact h.told
    · unfold Answered; rw [hc]; rfl
  | state hc =>
    refine ⟨inv_now h ev _ rfl rfl rfl rfl rfl ?_ ?_ (Or.inl rfl) (Or.inl rfl), rfl, rfl⟩
    · rw [told_snoc]; rfl
    · unfold Answered; rw [hc]; rfl
  | halt hc =>
    refine ⟨inv_now h ev _ rfl rfl rfl rfl rfl ?_ ?_ (Or.inl rfl) (Or.inl rfl), rfl, rfl⟩
    · rw [told_snoc]; exact h.told
    · unfold Answered; rw [hc]; rfl

/-- Steps that touch neither queue, posts nor events, and leave the execution thread out of a command. -/
theorem inv_quiet {s s' : Sys β} (h : Inv s) (he : s'.events = s.events) (hq : s'.queue = s.queue)
    (hx : s'.exec = s.exec) (hs : s'.state = s.state) (ho : s'.out = s.out) (hr : s'.ran = s.ran) : Inv s' := by
  have hp : pend s' = pend s := by unfold pend; rw [hx, hq]
  exact ⟨by rw [he, hq]; exact h.issued, by rw [hq]; exact h.incr, by rw [hq, hx]; exact h.head,
    by rw [hq, hx]; exact h.headP, by rw [he, hp, ho]; exact h.rep, by rw [he, ho]; exact h.lt,
    by rw [he, ho]; exact h.order, by rw [he, hp, ho]; exact h.before, by rw [ho, hs]; exact h.told,
    by rw [hx, hs]; exact h.st, by rw [hx, hs]; exact h.old, by rw [he, hr]; exact h.ran, by rw [hr]; exact h.ranOnce,
    by rw [hq, hx, hr]; exact h.ranPend⟩

theorem head_uniq {s : Sys β} (h : Inv s) {e e' : Entry β} {q : List (Entry β)} (hq : s.queue = e :: q)
    (hm : e' ∈ s.queue) (hn : e'.n = e.n) : e' = e := by
  have hi := h.incr
  rw [hq] at hm hi
  rcases List.mem_cons.1 hm with hm | hm
  · exact hm
  · rw [List.map_cons, List.pairwise_cons] at hi
    have := hi.1 e'.n (List.mem_map.2 ⟨e', hm, rfl⟩)
    omega

theorem tail_gt {s : Sys β} (h : Inv s) {e e' : Entry β} {q : List (Entry β)} (hq : s.queue = e :: q)
    (hm : e' ∈ q) : e.n < e'.n := by
  have hi := h.incr
  rw [hq, List.map_cons, List.pairwise_cons] at hi
  exact hi.1 e'.n (List.mem_map.2 ⟨e', hm, rfl⟩)

/-- After a step `take`. -/
def took (s : Sys β) (e : Entry β) (a : App) (ps : List (Post β)) : Sys β :=
  { s with
    exec := .began e s.state false
    ran := s.ran ++ [(e.n, e.cmd, e.args)]
    state := a
    out := s.out ++ ps }

theorem took_nil (s : Sys β) (e : Entry β) :
    took s e s.state [] = { s with exec := .began e s.state false, ran := s.ran ++ [(e.n, e.cmd, e.args)] } := by
  unfold took
  rw [List.append_nil]

theorem inv_take {s : Sys β} (h : Inv s) {e : Entry β} {q : List (Entry β)} (hx : s.exec = .idle)
    (hq : s.queue = e :: q) (a : App) (ha : a = (stateOf e.cmd).getD .idle) (ps : List (Post β))
    (hps : ps = [] ∧ a = s.state ∨ ps = [.state a]) :
    Inv (took s e a ps) := by
  have hidle : s.state = .idle := h.st (by intro e' o c h'; rw [hx] at h'; cases h')
  have hnr : e.n ∉ s.ran.map Prod.fst := by
    intro hm
    obtain ⟨_, h2⟩ := h.ranPend e (by rw [hq]; exact List.mem_cons_self) hm
    rcases h2 with ⟨o, c, h2⟩ | h2
    · rw [hx] at h2; cases h2
    · rw [hx] at h2; cases h2
  have hp : pend (took s e a ps) = pend s := by
    unfold pend took; rw [hx]
  have hA : answered (s.out ++ ps) = answered s.out := by
    rw [answered_append]
    rcases hps with ⟨hps, _⟩ | hps <;> rw [hps] <;> exact List.append_nil _
  have hR : ∀ n, repliesTo n (s.out ++ ps) = repliesTo n s.out := by
    intro n
    rw [repliesTo_append]
    rcases hps with ⟨hps, _⟩ | hps <;> rw [hps] <;> exact List.append_nil _
  refine ⟨h.issued, h.incr, ?_, ?_, ?_, ?_, ?_, ?_, ?_, ?_, ?_, ?_, ?_, ?_⟩
  · intro e' o c h'
    cases h'
    exact ⟨q, hq⟩
  · intro e' h'; cases h'
  · intro n ev hn
    rw [hp]
    show (_ → repliesTo n (s.out ++ ps) = []) ∧ (_ → Answered ev (repliesTo n (s.out ++ ps)))
    rw [hR]
    exact h.rep n ev hn
  · intro m hm
    have hm : m ∈ answered (s.out ++ ps) := hm
    rw [hA] at hm
    exact h.lt m hm
  · show List.Pairwise _ (answered (s.out ++ ps))
    rw [hA]
    exact h.order
  · intro m hm
    have hm : m ∈ answered (s.out ++ ps) := hm
    rw [hA] at hm
    rw [hp]
    exact h.before m hm
  · show Verif.ServerSpec.told (s.out ++ ps) = a
    rcases hps with ⟨hps, h1⟩ | hps
    · rw [hps, List.append_nil, h1]; exact h.told
    · rw [hps, told_snoc]; rfl
  · intro h'
    exact absurd rfl (h' e s.state false)
  · intro e' o c h'
    cases h'
    exact ⟨hidle, ha⟩
  · intro x hxm
    have hxm : x ∈ s.ran ++ [(e.n, e.cmd, e.args)] := hxm
    rcases List.mem_append.1 hxm with hxm | hxm
    · exact h.ran x hxm
    · rw [List.mem_singleton] at hxm
      subst hxm
      obtain ⟨ev, cmd, p, h1, h2, h3, h4⟩ := h.issued e (by rw [hq]; exact List.mem_cons_self)
      refine ⟨ev, p, h1, ?_, ?_⟩
      · rw [h4]; exact h2
      · rw [h4]; rfl
  · show ((s.ran ++ [(e.n, e.cmd, e.args)]).map Prod.fst).Nodup
    rw [List.map_append, List.nodup_append]
    refine ⟨h.ranOnce, by simp, ?_⟩
    intro x hxm y hy
    simp only [List.map_cons, List.map_nil, List.mem_singleton] at hy
    rintro rfl
    rw [hy] at hxm
    exact hnr hxm
  · intro e' hm hn
    have hn : e'.n ∈ (s.ran ++ [(e.n, e.cmd, e.args)]).map Prod.fst := hn
    rw [List.map_append] at hn
    rcases List.mem_append.1 hn with hn | hn
    · obtain ⟨_, h2⟩ := h.ranPend e' hm hn
      rcases h2 with ⟨o, c, h2⟩ | h2
      · rw [hx] at h2; cases h2
      · rw [hx] at h2; cases h2
    · simp only [List.map_cons, List.map_nil, List.mem_singleton] at hn
      have := head_uniq h hq hm hn
      subst this
      exact ⟨⟨q, hq⟩, Or.inl ⟨_, _, rfl⟩⟩

theorem issued_known {evs : List (Event β)} {e : Entry β} (h : Issued evs e) :
    ∃ ev p, evs[e.n]? = some ev ∧ commandOf ev = some (e.cmd, p) ∧ Known e.cmd ∧ e = entryOf e.n e.cmd p ∧
      QueuedAt evs e.n := by
  obtain ⟨ev, cmd, p, h1, h2, h3, h4⟩ := h
  have hcmd : e.cmd = cmd := by rw [h4]; rfl
  subst hcmd
  refine ⟨ev, p, h1, h2, ?_, h4, ev, e.cmd, p, h1, h2, h3⟩
  rcases h3 with h3 | h3
  · exact Or.inl h3
  · exact h3.1

theorem inv_finish {s s' : Sys β} (h : Inv s) {e : Entry β} {old : App} {cl : Bool} (hx : s.exec = .began e old cl)
    (app : Option App) (o : Out β) (ps : List (Post β)) (hps : ps = replyPosts e app s.state o ++ [.state old] ∨
      (ps = [.state old, .state old] ∧ replyPosts e app s.state o = []))
    (h1 : s'.queue = s.queue) (h2 : s'.exec = .posted e) (h3 : s'.state = old) (h4 : s'.out = s.out ++ ps)
    (h5 : s'.events = s.events) (h6 : s'.ran = s.ran) : Inv s' := by
  obtain ⟨q, hq⟩ := h.head e old cl hx
  have hp0 : pend s = e :: q := by unfold pend; rw [hx]; exact hq
  have hp : pend s' = q := by unfold pend; rw [h2, h1, hq]; rfl
  have hiss := h.issued e (by rw [hq]; exact List.mem_cons_self)
  obtain ⟨ev, p, g1, g2, g3, g4, g5⟩ := issued_known hiss
  have hlt := issued_lt hiss
  obtain ⟨c1, c2⟩ := content_answered (n := e.n) g2 g3 app s.state o
  rw [← g4] at c1 c2
  have hA : answered ps = answered (replyPosts e app s.state o) := by
    rcases hps with hps | ⟨hps, hps'⟩
    · rw [hps, answered_append]; exact List.append_nil _
    · rw [hps, hps']; rfl
  have hR : ∀ n, repliesTo n ps = repliesTo n (replyPosts e app s.state o) := by
    intro n
    rcases hps with hps | ⟨hps, hps'⟩
    · rw [hps, repliesTo_append]; exact List.append_nil _
    · rw [hps, hps']; rfl
  have hT : Verif.ServerSpec.told (s.out ++ ps) = old := by
    rcases hps with hps | ⟨hps, _⟩
    · rw [hps, ← List.append_assoc, told_snoc]; rfl
    · rw [hps]
      show Verif.ServerSpec.told (s.out ++ ([Post.state old] ++ [Post.state old])) = old
      rw [← List.append_assoc, told_snoc]; rfl
  have hmem : ∀ m ∈ answered s'.out, m ∈ answered s.out ∨ m = e.n := by
    intro m hm
    rw [h4, answered_append, hA] at hm
    rcases List.mem_append.1 hm with hm | hm
    · exact Or.inl hm
    · rcases c2 with c2 | c2
      · rw [c2] at hm; cases hm
      · rw [c2, List.mem_singleton] at hm; exact Or.inr hm
  refine ⟨by rw [h1, h5]; exact h.issued, by rw [h1]; exact h.incr, ?_, ?_, ?_, ?_, ?_, ?_, by rw [h4, h3]; exact hT, ?_, ?_,
    by rw [h5, h6]; exact h.ran, by rw [h6]; exact h.ranOnce, ?_⟩
  · intro e' o' c' h'; rw [h2] at h'; cases h'
  · intro e' h'
    rw [h2] at h'
    cases h'
    exact ⟨q, by rw [h1]; exact hq⟩
  · intro n ev' hn
    rw [h5] at hn
    obtain ⟨r1, r2⟩ := h.rep n ev' hn
    rw [hp0] at r1 r2
    rw [hp, h4, repliesTo_append, hR]
    by_cases hne : n = e.n
    · subst hne
      rw [g1] at hn
      cases hn
      rw [r1 (by rw [List.map_cons]; exact List.mem_cons_self), List.nil_append]
      refine ⟨?_, fun _ => c1⟩
      intro hm
      obtain ⟨e', he', hn'⟩ := List.mem_map.1 hm
      have := tail_gt h hq he'
      omega
    · have hz : repliesTo n (replyPosts e app s.state o) = [] := by
        apply repliesTo_nil
        rcases c2 with c2 | c2
        · rw [c2]; exact List.not_mem_nil
        · rw [c2, List.mem_singleton]; exact hne
      rw [hz, List.append_nil]
      refine ⟨fun hm => r1 (by rw [List.map_cons]; exact List.mem_cons_of_mem _ hm), fun hm => r2 ?_⟩
      rw [List.map_cons, List.mem_cons]
      rintro (hm' | hm')
      · exact hne hm'
      · exact hm hm'
  · intro m hm
    rw [h5]
    rcases hmem m hm with hm | hm
    · exact h.lt m hm
    · omega
  · rw [h4, h5, answered_append, hA, List.pairwise_append]
    refine ⟨h.order, ?_, ?_⟩
    · rcases c2 with c2 | c2
      · rw [c2]; exact List.Pairwise.nil
      · rw [c2]; exact List.pairwise_singleton _ _
    · intro a ha b hb q1 _
      rcases c2 with c2 | c2
      · rw [c2] at hb; cases hb
      · rw [c2, List.mem_singleton] at hb
        subst hb
        exact h.before a ha q1 e (by rw [hp0]; exact List.mem_cons_self)
  · intro m hm q1 e' he'
    rw [hp] at he'
    rw [h5] at q1
    rcases hmem m hm with hm | hm
    · exact h.before m hm q1 e' (by rw [hp0]; exact List.mem_cons_of_mem _ he')
    · rw [hm]; exact tail_gt h hq he'
  · intro _
    rw [h3]
    exact (h.old e old cl hx).1
  · intro e' o' c' h'; rw [h2] at h'; cases h'
  · intro e' hm hn
    rw [h1] at hm ⊢
    rw [h6] at hn
    obtain ⟨⟨q', hq'⟩, r2⟩ := h.ranPend e' hm hn
    rw [hq] at hq'
    cases hq'
    exact ⟨⟨q, hq⟩, Or.inr h2⟩

theorem inv_pop {s : Sys β} (h : Inv s) {e : Entry β} (hx : s.exec = .posted e) :
    Inv { s with exec := .idle, queue := s.queue.tail } := by
  obtain ⟨q, hq⟩ := h.headP e hx
  have hp : pend { s with exec := .idle, queue := s.queue.tail } = pend s := by unfold pend; rw [hx]
  have hi := h.incr
  rw [hq, List.map_cons, List.pairwise_cons] at hi
  refine ⟨fun e' hm => h.issued e' (List.mem_of_mem_tail hm), ?_, ?_, ?_, ?_, h.lt, h.order, ?_, h.told, ?_, ?_, h.ran, h.ranOnce, ?_⟩
  · show (s.queue.tail.map Entry.n).Pairwise (· < ·)
    rw [hq]; exact hi.2
  · intro e' o' c' h'; cases h'
  · intro e' h'; cases h'
  · rw [hp]; exact h.rep
  · rw [hp]; exact h.before
  · intro _
    exact h.st (by intro e' o' c' h'; rw [hx] at h'; cases h')
  · intro e' o' c' h'; cases h'
  · intro e' hm hn
    have hm : e' ∈ s.queue.tail := hm
    obtain ⟨⟨q', hq'⟩, _⟩ := h.ranPend e' (List.mem_of_mem_tail hm) hn
    rw [hq] at hm
    have := tail_gt h hq hm
    rw [hq] at hq'
    cases hq'
    omega

theorem inv_step {s s' : Sys β} (h : Inv s) (op : Op β) (hP : ProperOp op) (hs : step s op = some s') :
    Inv s' ∧ s'.crashed = false ∧ s'.died = false := by
  unfold step at hs
  by_cases hcd : s.crashed = true ∨ s.died = true
  · rw [if_pos hcd] at hs; cases hs
  rw [if_neg hcd] at hs
  have hc : s.crashed = false := by
    cases hh : s.crashed with
    | false => rfl
    | true => exact absurd (Or.inl hh) hcd
  have hd : s.died = false := by
    cases hh : s.died with
    | false => rfl
    | true => exact absurd (Or.inr hh) hcd
  cases op with
  | check =>
    dsimp only at hs
    split at hs
    · split at hs <;> cases hs <;> exact ⟨inv_quiet h rfl rfl rfl rfl rfl rfl, hc, hd⟩
    · cases hs
  | recv ev o =>
    dsimp only at hs
    split at hs
    · cases hs
      obtain ⟨a, b, c⟩ := inv_handle h .head ev o hP
      exact ⟨a, b.trans hc, c.trans hd⟩
    · cases hs
  | closed =>
    dsimp only at hs
    split at hs
    · cases hs; exact ⟨inv_quiet h rfl rfl rfl rfl rfl rfl, hc, hd⟩
    · cases hs
  | take =>
    dsimp only at hs
    split at hs
    · next e q hx hq =>
      have hidle : s.state = .idle := h.st (by intro e' o c h'; rw [hx] at h'; cases h')
      split at hs
      · cases ha : stateOf e.cmd with
        | none =>
          rw [ha] at hs
          cases hs
          refine ⟨?_, hc, hd⟩
          have := inv_take h hx hq s.state (by rw [ha]; exact hidle) [] (Or.inl ⟨rfl, rfl⟩)
          rw [took_nil] at this
          exact this
        | some a =>
          rw [ha] at hs
          dsimp only at hs
          by_cases hne : a ≠ s.state
          · rw [if_pos hne] at hs
            cases hs
            exact ⟨inv_take h hx hq a (by rw [ha]; rfl) _ (Or.inr rfl), hc, hd⟩
          · rw [if_neg hne] at hs
            cases hs
            refine ⟨?_, hc, hd⟩
            have := inv_take h hx hq s.state (by rw [ha]; exact (not_not.1 hne).symm) [] (Or.inl ⟨rfl, rfl⟩)
            rw [took_nil] at this
            exact this
      · cases hs
    · cases hs
  | clear =>
    dsimp only at hs
    split at hs
    · next e old hx =>
      split at hs
      · cases hs
        obtain ⟨q, hq⟩ := h.head _ _ _ hx
        refine ⟨?_, hc, hd⟩
        have hp : pend { s with exec := .began e old true, abort := false } = pend s := by unfold pend; rw [hx]
        refine ⟨h.issued, h.incr, ?_, ?_, by rw [hp]; exact h.rep, h.lt, h.order, by rw [hp]; exact h.before, h.told, ?_, ?_, h.ran,
          h.ranOnce, ?_⟩
        · intro e' o' c' h'; cases h'; exact ⟨q, hq⟩
        · intro e' h'; cases h'
        · intro h'; exact absurd rfl (h' e old true)
        · intro e' o' c' h'; cases h'; exact h.old e old false hx
        · intro e' hm hn
          obtain ⟨⟨q', hq'⟩, _⟩ := h.ranPend e' hm hn
          have e0 : e' = e := by rw [hq] at hq'; cases hq'; rfl
          subst e0
          exact ⟨⟨q, hq⟩, Or.inl ⟨_, _, rfl⟩⟩
      · cases hs
    · cases hs
  | finish o =>
    dsimp only at hs
    split at hs
    · next e old cl hx =>
      split at hs
      · cases hs
      · cases hs
      · rename_i o _ _ _ _
        have f := effect_frame e.cmd s
        cases hcon : content e s.state o with
        | none =>
          rw [hcon] at hs
          cases hs
          have hz : replyPosts e none s.state o = [] := by unfold replyPosts; rw [hcon]
          refine ⟨?_, f.2.2.2.2.2.2.2.1.trans hc, f.2.2.2.2.2.2.2.2.trans hd⟩
          by_cases hch : s.state ≠ old
          · refine inv_finish h hx none o [.state old, .state old] (Or.inr ⟨rfl, hz⟩) f.1 rfl rfl ?_ f.2.2.2.2.1
              f.2.2.2.2.2.1
            show (effect e.cmd s).out ++ (if s.state ≠ old then [.state old] else []) ++ [.state old] = _
            rw [if_pos hch, f.2.2.2.1, List.append_assoc]
            rfl
          · refine inv_finish h hx none o [.state old] (Or.inl (by rw [hz]; rfl)) f.1 rfl rfl ?_ f.2.2.2.2.1
              f.2.2.2.2.2.1
            show (effect e.cmd s).out ++ (if s.state ≠ old then [.state old] else []) ++ [.state old] = _
            rw [if_neg hch, f.2.2.2.1, List.append_nil]
        | some c =>
          rw [hcon] at hs
          cases hs
          refine ⟨?_, f.2.2.2.2.2.2.2.1.trans hc, f.2.2.2.2.2.2.2.2.trans hd⟩
          refine inv_finish h hx (if s.state ≠ old then some old else none) o _ (Or.inl rfl) f.1 rfl rfl ?_ f.2.2.2.2.1
              f.2.2.2.2.2.1
          unfold replyPosts
          rw [hcon]
          show (effect e.cmd s).out ++ _ = _
          rw [f.2.2.2.1]
          rfl
    · cases hs
  | pop =>
    dsimp only at hs
    split at hs
    · next e hx =>
      cases hs
      exact ⟨inv_pop h hx, hc, hd⟩
    · cases hs
  | exit =>
    dsimp only at hs
    split at hs
    · next hx =>
      split at hs
      · cases hs
      · cases hs
        refine ⟨?_, hc, hd⟩
        have hp : pend { s with exec := .exited } = pend s := by unfold pend; rw [hx]
        refine ⟨h.issued, h.incr, ?_, ?_, by rw [hp]; exact h.rep, h.lt, h.order, by rw [hp]; exact h.before, h.told, ?_, ?_, h.ran,
          h.ranOnce, ?_⟩
        · intro e' o' c' h'; cases h'
        · intro e' h'; cases h'
        · intro _; exact h.st (by intro e' o c h'; rw [hx] at h'; cases h')
        · intro e' o' c' h'; cases h'
        · intro e' hm hn
          obtain ⟨_, r2⟩ := h.ranPend e' hm hn
          rcases r2 with ⟨o, c, r2⟩ | r2
          · rw [hx] at r2; cases r2
          · rw [hx] at r2; cases r2
    · cases hs
  | join =>
    dsimp only at hs
    split at hs
    · cases hs; exact ⟨inv_quiet h rfl rfl rfl rfl rfl rfl, hc, hd⟩
    · cases hs

theorem inv_run {s s' : Sys β} (h : Inv s) (hc : s.crashed = false) (hd : s.died = false) (ops : List (Op β))
    (hP : ∀ o ∈ ops, ProperOp o) (hs : run s ops = some s') : Inv s' ∧ s'.crashed = false ∧ s'.died = false := by
  induction ops generalizing s with
  | nil => cases hs; exact ⟨h, hc, hd⟩
  | cons o os ih =>
    rw [run] at hs
    split at hs
    · next s1 h1 =>
      obtain ⟨a, b, c⟩ := inv_step h o (hP o List.mem_cons_self) h1
      exact ih a b c (fun x hx => hP x (List.mem_cons_of_mem _ hx)) hs
    · cases hs

/-! ### Requests to abort -/

/-- What is done by a step, as far as requests to abort matter. -/
inductive Did (s s' : Sys β) (op : Op β) : Prop
  | keep : s'.exec = s.exec → (s'.abort = s.abort ∨ (s'.abort = true ∧ IsAbort op)) → Did s s' op
  | take (e q) : op = .take → s.exec = .idle → s.queue = e :: q → s'.exec = .began e s.state false → Did s s' op
  | clear (e old) : s.exec = .began e old false → s'.exec = .began e old true → Did s s' op
  | finish (e old cl) : s.exec = .began e old cl → s'.exec = .posted e → Did s s' op
  | pop (e) : s.exec = .posted e → s'.exec = .idle → Did s s' op
  | exit : s.exec = .idle → s'.exec = .exited → Did s s' op

theorem effect_abort (cmd : List String) (s : Sys β) :
    (effect cmd s).abort = s.abort ∨ ((effect cmd s).abort = true ∧ cmd = ["Execute", "Abort"]) := by
  unfold effect
  split
  · exact Or.inl rfl
  · split
    · next h => exact Or.inr ⟨rfl, h⟩
    · exact Or.inl rfl

theorem direct_abort (s : Sys β) (e : Entry β) (o : Out β) :
    (s.direct e o).abort = (effect e.cmd { s with ran := s.ran ++ [(e.n, e.cmd, e.args)] }).abort := by
  unfold Sys.direct
  dsimp only
  split <;> rfl

theorem step_alive {s s' : Sys β} {op : Op β} (hs : step s op = some s') :
    ¬ (s.crashed = true ∨ s.died = true) := by
  intro h
  unfold step at hs
  rw [if_pos h] at hs
  cases hs

theorem step_recv {s s' : Sys β} {ev : Event β} {o : Out β} (hs : step s (.recv ev o) = some s') :
    s' = { s with main := .head, events := s.events ++ [ev] }.handle s.events.length ev o := by
  have ha := step_alive hs
  unfold step at hs
  rw [if_neg ha] at hs
  dsimp only at hs
  split at hs
  · cases hs; rfl
  · cases hs

theorem step_did {s s' : Sys β} (op : Op β) (hs : step s op = some s') : Did s s' op := by
  have ha := step_alive hs
  cases op with
  | recv ev o =>
    have e := step_recv hs
    have hH := handle_eq { s with main := .head, events := s.events ++ [ev] } s.events.length ev o
    rw [← e] at hH
    cases hH with
    | command cmd p _ hc hw =>
      cases hw with
      | push hQ => exact .keep rfl (Or.inl rfl)
      | direct hk hq =>
        obtain ⟨f1, f2, f3, f4, f5, f6, f7, f8⟩ := direct_frame
          { s with main := .head, events := s.events ++ [ev] } (entryOf s.events.length cmd p) o
        refine .keep f2 ?_
        rw [direct_abort]
        rcases effect_abort (entryOf s.events.length cmd p).cmd _ with h | h
        · exact Or.inl h
        · refine Or.inr ⟨h.1, p, ?_⟩
          rw [hc]
          have : cmd = _ := h.2
          rw [this]
      | unknown hk => exact .keep rfl (Or.inl rfl)
      | crash he => exact .keep rfl (Or.inl rfl)
      | die hd => exact .keep rfl (Or.inl rfl)
    | error hc => exact .keep rfl (Or.inl rfl)
    | state hc => exact .keep rfl (Or.inl rfl)
    | halt hc => exact .keep rfl (Or.inl rfl)
  | check =>
    unfold step at hs
    rw [if_neg ha] at hs
    dsimp only at hs
    split at hs
    · split at hs <;> cases hs <;> exact .keep rfl (Or.inl rfl)
    · cases hs
  | closed =>
    unfold step at hs
    rw [if_neg ha] at hs
    dsimp only at hs
    split at hs
    · cases hs; exact .keep rfl (Or.inl rfl)
    · cases hs
  | take =>
    unfold step at hs
    rw [if_neg ha] at hs
    dsimp only at hs
    split at hs
    · next e q hx hq =>
      split at hs
      · split at hs
        · split at hs <;> cases hs <;> exact .take e q rfl hx hq rfl
        · cases hs; exact .take e q rfl hx hq rfl
      · cases hs
    · cases hs
  | clear =>
    unfold step at hs
    rw [if_neg ha] at hs
    dsimp only at hs
    split at hs
    · next e old hx =>
      split at hs
      · cases hs; exact .clear e old hx rfl
      · cases hs
    · cases hs
  | finish o =>
    unfold step at hs
    rw [if_neg ha] at hs
    dsimp only at hs
    split at hs
    · next e old cl hx =>
      split at hs
      · cases hs
      · cases hs
      · split at hs <;> cases hs <;> exact .finish e old cl hx rfl
    · cases hs
  | pop =>
    unfold step at hs
    rw [if_neg ha] at hs
    dsimp only at hs
    split at hs
    · next e hx => cases hs; exact .pop e hx rfl
    · cases hs
  | exit =>
    unfold step at hs
    rw [if_neg ha] at hs
    dsimp only at hs
    split at hs
    · next hx =>
      split at hs
      · cases hs
      · cases hs; exact .exit hx rfl
    · cases hs
  | join =>
    unfold step at hs
    rw [if_neg ha] at hs
    dsimp only at hs
    split at hs
    · cases hs; exact .keep rfl (Or.inl rfl)
    · cases hs

theorem step_ran {s s' : Sys β} (op : Op β) (hs : step s op = some s') : ∃ r, s'.ran = s.ran ++ r := by
  have ha := step_alive hs
  cases op with
  | recv ev o =>
    have e := step_recv hs
    have hH := handle_eq { s with main := .head, events := s.events ++ [ev] } s.events.length ev o
    rw [← e] at hH
    cases hH with
    | command cmd p _ hc hw =>
      cases hw with
      | direct hk hq =>
        obtain ⟨f1, f2, f3, f4, f5, f6, f7, f8⟩ := direct_frame
          { s with main := .head, events := s.events ++ [ev] } (entryOf s.events.length cmd p) o
        exact ⟨_, f6⟩
      | _ => exact ⟨[], (List.append_nil _).symm⟩
    | _ => exact ⟨[], (List.append_nil _).symm⟩
  | take =>
    unfold step at hs
    rw [if_neg ha] at hs
    dsimp only at hs
    split at hs
    · split at hs
      · split at hs
        · split at hs <;> cases hs <;> exact ⟨_, rfl⟩
        · cases hs; exact ⟨_, rfl⟩
      · cases hs
    · cases hs
  | finish o =>
    unfold step at hs
    rw [if_neg ha] at hs
    dsimp only at hs
    split at hs
    · next e old cl hx =>
      have f := effect_frame e.cmd s
      split at hs
      · cases hs
      · cases hs
      · split at hs <;> cases hs <;> exact ⟨[], f.2.2.2.2.2.1.trans (List.append_nil _).symm⟩
    · cases hs
  | check =>
    unfold step at hs
    rw [if_neg ha] at hs
    dsimp only at hs
    split at hs
    · split at hs <;> cases hs <;> exact ⟨[], (List.append_nil _).symm⟩
    · cases hs
  | clear =>
    unfold step at hs
    rw [if_neg ha] at hs
    dsimp only at hs
    split at hs
    · split at hs
      · cases hs; exact ⟨[], (List.append_nil _).symm⟩
      · cases hs
    · cases hs
  | exit =>
    unfold step at hs
    rw [if_neg ha] at hs
    dsimp only at hs
    split at hs
    · split at hs
      · cases hs
      · cases hs; exact ⟨[], (List.append_nil _).symm⟩
    · cases hs
  | closed | pop | join =>
    unfold step at hs
    rw [if_neg ha] at hs
    dsimp only at hs
    split at hs
    · cases hs; exact ⟨[], (List.append_nil _).symm⟩
    · cases hs

/-- The command in the execution thread has been run. -/
def RanHead (s : Sys β) : Prop := ∀ e old cl, s.exec = .began e old cl → e.n ∈ s.ran.map Prod.fst

theorem take_ran {s s' : Sys β} (hs : step s .take = some s') {e : Entry β} {q : List (Entry β)}
    (hq : s.queue = e :: q) : e.n ∈ s'.ran.map Prod.fst := by
  have ha := step_alive hs
  unfold step at hs
  rw [if_neg ha] at hs
  dsimp only at hs
  rw [hq] at hs
  split at hs
  · next e' q' hx hq' =>
    cases hq'
    split at hs
    · split at hs
      · split at hs <;> cases hs <;> simp
      · cases hs; simp
    · cases hs
  · cases hs

theorem ranHead_step {s s' : Sys β} (h : RanHead s) (op : Op β) (hs : step s op = some s') : RanHead s' := by
  obtain ⟨r, hr⟩ := step_ran op hs
  have mono : ∀ n, n ∈ s.ran.map Prod.fst → n ∈ s'.ran.map Prod.fst := by
    intro n hn
    rw [hr, List.map_append]
    exact List.mem_append_left _ hn
  intro e old cl hx
  have hd := step_did op hs
  cases hd with
  | keep h1 h2 =>
    rw [h1] at hx
    exact mono _ (h e old cl hx)
  | take e' q h0 h1 h2 h3 =>
    rw [h3] at hx
    cases hx
    subst h0
    exact take_ran hs h2
  | clear e' old' h1 h2 =>
    rw [h2] at hx
    cases hx
    exact mono _ (h _ _ _ h1)
  | finish e' old' cl' h1 h2 => rw [h2] at hx; cases hx
  | pop e' h1 h2 => rw [h2] at hx; cases hx
  | exit h1 h2 => rw [h2] at hx; cases hx


theorem ranHead_run {s s' : Sys β} (h : RanHead s) (ops : List (Op β)) (hs : run s ops = some s') : RanHead s' := by
  induction ops generalizing s with
  | nil => cases hs; exact h
  | cons o os ih =>
    rw [run] at hs
    split at hs
    · next s1 h1 => exact ih (ranHead_step h o h1) hs
    · cases hs

/-- Along a history: the execution `e` goes on with the flag `b`, or is over for good. -/
def Track (e : Entry β) (old : App) (b : Bool) (s : Sys β) : Prop :=
  e.n ∈ s.ran.map Prod.fst ∧
  ((s.exec = .began e old true ∧ s.abort = b) ∨ ∀ e' o c, s.exec = .began e' o c → e'.n ≠ e.n)

theorem track_step {s s' : Sys β} (hi : Inv s) (e : Entry β) (old : App) (b : Bool) (h : Track e old b s) (op : Op β)
    (hb : b = true ∨ ¬ IsAbort op) (hs : step s op = some s') : Track e old b s' := by
  obtain ⟨r, hr⟩ := step_ran op hs
  obtain ⟨h0, h⟩ := h
  refine ⟨by rw [hr, List.map_append]; exact List.mem_append_left _ h0, ?_⟩
  have hd := step_did op hs
  cases hd with
  | keep h1 h2 =>
    rcases h with h | h
    · refine Or.inl ⟨h1.trans h.1, ?_⟩
      rcases h2 with h2 | ⟨h2, h3⟩
      · exact h2.trans h.2
      · rcases hb with hb | hb
        · rw [h2, hb]
        · exact absurd h3 hb
    · exact Or.inr (by rw [h1]; exact h)
  | take e1 q _ h1 h2 h3 =>
    refine Or.inr ?_
    intro e' o c hx
    rw [h3] at hx
    cases hx
    intro hn
    rw [← hn] at h0
    obtain ⟨_, h4⟩ := hi.ranPend e1 (by rw [h2]; exact List.mem_cons_self) h0
    rcases h4 with ⟨_, _, h4⟩ | h4
    · rw [h1] at h4; cases h4
    · rw [h1] at h4; cases h4
  | clear e1 old1 h1 h2 =>
    rcases h with h | h
    · rw [h1] at h; cases h.1
    · refine Or.inr ?_
      intro e' o c hx
      rw [h2] at hx
      cases hx
      exact h _ _ _ h1
  | finish e1 old1 c1 h1 h2 => exact Or.inr (by intro e' o c hx; rw [h2] at hx; cases hx)
  | pop e1 h1 h2 => exact Or.inr (by intro e' o c hx; rw [h2] at hx; cases hx)
  | exit h1 h2 => exact Or.inr (by intro e' o c hx; rw [h2] at hx; cases hx)

theorem track_run {s s' : Sys β} (hi : Inv s) (e : Entry β) (old : App) (b : Bool) (h : Track e old b s)
    (ops : List (Op β)) (hP : ∀ o ∈ ops, ProperOp o) (hb : b = true ∨ ∀ o ∈ ops, ¬ IsAbort o)
    (hs : run s ops = some s') : Track e old b s' := by
  induction ops generalizing s with
  | nil => cases hs; exact h
  | cons o os ih =>
    rw [run] at hs
    split at hs
    · next s1 h1 =>
      exact ih (inv_step hi o (hP o List.mem_cons_self) h1).1
        (track_step hi e old b h o (hb.imp id (fun h => h o List.mem_cons_self)) h1)
        (fun x hx => hP x (List.mem_cons_of_mem _ hx))
        (hb.imp id (fun h x hx => h x (List.mem_cons_of_mem _ hx))) hs
    · cases hs

theorem properOps {ops : List (Op β)} (h : ProperHistory ops) : ∀ o ∈ ops, ProperOp o := by
  intro o ho
  cases o with
  | recv ev o => exact h ev o ho
  | _ => trivial

/-! ### The execution thread can go on -/

theorem can_take (s : Sys β) (ha : ¬ (s.crashed = true ∨ s.died = true)) (hr : s.running = true) (e : Entry β)
    (q : List (Entry β)) (hx : s.exec = .idle) (hq : s.queue = e :: q) :
    ∃ s', step s .take = some s' ∧ s'.exec = .began e s.state false ∧
      s'.ran = s.ran ++ [(e.n, e.cmd, e.args)] ∧ s'.queue = s.queue := by
  unfold step
  rw [if_neg ha]
  dsimp only
  rw [hx, hq]
  dsimp only
  rw [if_pos hr]
  cases stateOf e.cmd with
  | none => exact ⟨_, rfl, rfl, rfl, rfl⟩
  | some a =>
    dsimp only
    split
    · exact ⟨_, rfl, rfl, rfl, rfl⟩
    · exact ⟨_, rfl, rfl, rfl, rfl⟩

theorem can_clear (s : Sys β) (ha : ¬ (s.crashed = true ∨ s.died = true)) (e : Entry β) (old : App)
    (hx : s.exec = .began e old false) (he : e.cmd = ["Node", "Execute"]) :
    ∃ s', step s .clear = some s' ∧ s'.exec = .began e old true ∧ s'.abort = false := by
  unfold step
  rw [if_neg ha]
  dsimp only
  rw [hx]
  dsimp only
  rw [if_pos he]
  exact ⟨_, rfl, rfl, rfl⟩

theorem can_finish (s : Sys β) (ha : ¬ (s.crashed = true ∨ s.died = true)) (e : Entry β) (old : App) (cl : Bool)
    (hx : s.exec = .began e old cl) (o : Out β) (hc : e.cmd ≠ ["Node", "Execute"] ∨ cl = true ∨ o = .throws) :
    ∃ s', step s (.finish o) = some s' ∧ s'.exec = .posted e ∧ s'.queue = s.queue ∧
      ∃ app ps, s'.out = s.out ++ replyPosts e app s.state o ++ ps ∧ answered ps = [] := by
  have f := effect_frame e.cmd s
  unfold step
  rw [if_neg ha]
  dsimp only
  rw [hx]
  dsimp only
  have hb : (decide (e.cmd = ["Node", "Execute"]) && !cl) = false ∨ o = .throws := by
    rcases hc with hc | hc | hc
    · left; rw [decide_eq_false hc]; rfl
    · left; rw [hc]; exact Bool.and_false _
    · exact Or.inr hc
  have main : ∃ s', (match content e s.state o with
          | some c =>
            some { effect e.cmd s with state := old, exec := .posted e, out := (effect e.cmd s).out ++
              [Post.reply e.n (replyId e.cmd) e.index (if s.state ≠ old then some old else none) c, Post.state old] }
          | none =>
            some { effect e.cmd s with state := old, exec := .posted e, out := (effect e.cmd s).out ++
              (if s.state ≠ old then [Post.state old] else []) ++ [Post.state old] }) = some s' ∧ s'.exec = .posted e ∧
      s'.queue = s.queue ∧ ∃ app ps, s'.out = s.out ++ replyPosts e app s.state o ++ ps ∧ answered ps = [] := by
    unfold replyPosts
    cases content e s.state o with
    | some c =>
      refine ⟨_, rfl, rfl, f.1, (if s.state ≠ old then some old else none), [.state old], ?_, rfl⟩
      show (effect e.cmd s).out ++ _ = _
      rw [f.2.2.2.1, List.append_assoc]
      rfl
    | none =>
      refine ⟨_, rfl, rfl, f.1, none, (if s.state ≠ old then [.state old] else []) ++ [.state old], ?_, ?_⟩
      · show (effect e.cmd s).out ++ _ ++ _ = _
        rw [f.2.2.2.1, List.append_assoc, List.append_nil]
      · split <;> rfl
  rcases hb with hb | hb
  · rw [hb]; exact main
  · subst hb
    cases (decide (e.cmd = ["Node", "Execute"]) && !cl) <;> exact main

theorem can_pop (s : Sys β) (ha : ¬ (s.crashed = true ∨ s.died = true)) (e : Entry β) (hx : s.exec = .posted e) :
    ∃ s', step s .pop = some s' ∧ s'.exec = .idle ∧ s'.queue = s.queue.tail := by
  unfold step
  rw [if_neg ha]
  dsimp only
  rw [hx]
  exact ⟨_, rfl, rfl, rfl⟩

/-! ### The list of nodes -/

structure NInv {ν : Type} (s : Nodes ν) : Prop where
  pos : 1 ≤ s.serial
  num : s.serial + (if s.pending then 1 else 0) = 1 + s.changes
  known : ∀ l k, s.known = some (l, k) → 1 ≤ k ∧ k ≤ s.serial ∧ (k = s.serial → l = s.forest ∨ s.pending = true)
  copied : ∀ l, s.get = .copied l → l = s.forest
  asked : ∀ k, s.get = .asked k → k = 0 ∨ ∃ l, s.known = some (l, k)

theorem nstep_changes {ν : Type} {s s' : Nodes ν} (o : NOp ν) (h : nstep s o = some s') : s.changes ≤ s'.changes := by
  unfold nstep at h
  split at h
  · split at h
    · cases h
    · cases h; exact Nat.le_succ _
  · split at h
    · cases h; exact Nat.le_refl _
    · cases h
  · split at h
    · cases h; exact Nat.le_refl _
    · cases h
  · split at h
    · split at h <;> cases h <;> exact Nat.le_refl _
    · cases h
  · split at h
    · cases h; exact Nat.le_refl _
    · cases h

theorem nrun_changes {ν : Type} {s s' : Nodes ν} (os : List (NOp ν)) (h : nrun s os = some s') :
    s.changes ≤ s'.changes := by
  induction os generalizing s with
  | nil => cases h; exact Nat.le_refl _
  | cons o os ih =>
    rw [nrun] at h
    split at h
    · next s1 h1 => exact Nat.le_trans (nstep_changes o h1) (ih h)
    · cases h

theorem ninv_step {ν : Type} {s s' : Nodes ν} (hi : NInv s) (o : NOp ν) (hb : s'.changes + 2 < 2 ^ 31)
    (hcalm : ∀ f, o = .change f → ∀ l, s.get ≠ .copied l) (h : nstep s o = some s') : NInv s' := by
  have hnum := hi.num
  cases o with
  | change f =>
    unfold nstep at h
    dsimp only at h
    split at h
    · cases h
    · next hp =>
      cases h
      have hp : s.pending = false := by simpa using hp
      rw [hp] at hnum
      refine ⟨hi.pos, ?_, ?_, ?_, hi.asked⟩
      · show s.serial + 1 = 1 + (s.changes + 1)
        simp at hnum
        omega
      · intro l k hk
        obtain ⟨a, b, _⟩ := hi.known l k hk
        exact ⟨a, b, fun _ => Or.inr rfl⟩
      · intro l hl
        exact absurd hl (hcalm f rfl l)
  | incr =>
    unfold nstep at h
    dsimp only at h
    split at h
    · next hp =>
      cases h
      rw [if_pos hp] at hnum
      have hb : s.changes + 2 < 2 ^ 31 := hb
      have hn : nextSerial s.serial = s.serial + 1 := by
        unfold nextSerial
        rw [if_pos (by omega)]
      refine ⟨?_, ?_, ?_, hi.copied, hi.asked⟩
      · show 1 ≤ nextSerial s.serial
        rw [hn]; omega
      · show nextSerial s.serial + 0 = 1 + s.changes
        rw [hn]; omega
      · intro l k hk
        obtain ⟨a, b, _⟩ := hi.known l k hk
        show 1 ≤ k ∧ k ≤ nextSerial s.serial ∧ (k = nextSerial s.serial → _)
        rw [hn]
        exact ⟨a, by omega, fun h => by omega⟩
    · cases h
  | ask =>
    unfold nstep at h
    dsimp only at h
    split at h
    · cases h
      refine ⟨hi.pos, hi.num, hi.known, ?_, ?_⟩
      · intro l hl; cases hl
      · intro k hk
        cases hkn : s.known with
        | none => rw [hkn] at hk; cases hk; exact Or.inl rfl
        | some x =>
          obtain ⟨l, k'⟩ := x
          rw [hkn] at hk
          cases hk
          exact Or.inr ⟨l, rfl⟩
    · cases h
  | compare =>
    unfold nstep at h
    dsimp only at h
    split at h
    · split at h
      · cases h
        refine ⟨hi.pos, hi.num, hi.known, ?_, ?_⟩
        · intro l hl; cases hl; rfl
        · intro k hk; cases hk
      · cases h
        refine ⟨hi.pos, hi.num, hi.known, ?_, ?_⟩
        · intro l hl; cases hl
        · intro k hk; cases hk
    · cases h
  | reply =>
    unfold nstep at h
    dsimp only at h
    split at h
    · next l hl =>
      cases h
      refine ⟨hi.pos, hi.num, ?_, ?_, ?_⟩
      · intro l' k hk
        cases hk
        refine ⟨?_, Nat.le_refl _, fun _ => Or.inl (hi.copied l hl)⟩
        exact hi.pos
      · intro l' hl'; cases hl'
      · intro k hk; cases hk
    · cases h

theorem ninv_init {ν : Type} (f : ν) : NInv (Nodes.init f) where
  pos := Nat.le_refl _
  num := rfl
  known := by intro l k h; cases h
  copied := by intro l h; cases h
  asked := by intro k h; cases h

theorem ninv_run {ν : Type} {s s' : Nodes ν} (hi : NInv s) (os : List (NOp ν)) (hb : s'.changes + 2 < 2 ^ 31)
    (hcalm : ∀ pre g post s1, os = pre ++ .change g :: post → nrun s pre = some s1 → ∀ l, s1.get ≠ .copied l)
    (h : nrun s os = some s') : NInv s' := by
  induction os generalizing s with
  | nil => cases h; exact hi
  | cons o os ih =>
    rw [nrun] at h
    split at h
    · next s1 h1 =>
      have hle := nrun_changes os h
      refine ih (ninv_step hi o (by omega) ?_ h1) ?_ h
      · intro f hf l
        subst hf
        exact hcalm [] f os s rfl rfl l
      · intro pre g post s2 he hr l
        refine hcalm (o :: pre) g post s2 (by rw [he]; rfl) ?_ l
        rw [nrun, h1]
        exact hr
    · cases h

end Verif.Server
