import Verif.PacketQueue.Model
import Mathlib.Data.List.Nodup
import Mathlib.Tactic.Linarith

/-!
# Concurrent queue of packets: property C130
-/

namespace Verif.PacketQueue

/-- The packet that the owner of the mutex is about to return. -/
def pending (s : State) : List (Option Nat) :=
  match s.owner with
  | none => []
  | some t => match s.pc t with
    | .ret x => [x]
    | _ => []

/-- The owner of the mutex went past the semaphore and did not take a packet yet. -/
def popping (s : State) : Nat :=
  match s.owner with
  | none => 0
  | some t => if s.pc t = .pop then 1 else 0

/-- Inside of the critical section. -/
def inside : Pc → Bool
  | .wait | .pop | .ret _ => true
  | _ => false

structure Inv (b : Bool) (s : State) : Prop where
  mode : s.blocking = b
  mutex : ∀ t, inside (s.pc t) = true ↔ s.owner = some t
  order : s.written = (s.results ++ pending s).filterMap id ++ s.queue
  count : b = true → ∃ l : List Nat, l.Nodup ∧ (∀ t, t ∈ l ↔ s.pc t = .post) ∧ s.queue.length = s.sem + l.length + popping s
  data : b = true → none ∉ s.results ++ pending s
  mode2 : b = false → ∀ t, s.pc t ≠ .wait ∧ s.pc t ≠ .post

theorem inv_init (b : Bool) : Inv b (.init b) := by
  refine ⟨rfl, ?_, rfl, ?_, ?_, ?_⟩
  · intro t; simp [State.init, inside]
  · intro _; exact ⟨[], by simp, by simp [State.init], rfl⟩
  · intro _; simp [State.init, pending]
  · intro _ t; simp [State.init]

/-- A thread outside of the critical section moves to another place outside, nothing else changes. -/
theorem inv_quiet {b : Bool} {s : State} (h : Inv b s) (t : Nat) (c : Pc) (h1 : inside (s.pc t) = false) (h2 : inside c = false)
    (h3 : s.pc t ≠ .post) (h4 : c ≠ .post) : Inv b (s.go t c) := by
  have ho : ∀ u, s.owner = some u → u ≠ t := by
    intro u hu e
    subst e
    have := (h.mutex u).2 hu
    rw [h1] at this; cases this
  have hp : pending (s.go t c) = pending s := by
    unfold pending State.go
    cases hw : s.owner with
    | none => simp [hw]
    | some u => simp [hw, ho u hw]
  have hq : popping (s.go t c) = popping s := by
    unfold popping State.go
    cases hw : s.owner with
    | none => simp [hw]
    | some u => simp [hw, ho u hw]
  refine ⟨h.mode, ?_, ?_, ?_, ?_, ?_⟩
  · intro u
    by_cases e : u = t
    · subst e
      have a := h.mutex u
      rw [h1] at a
      simp only [State.go, if_true, h2]
      exact a
    · simp only [State.go, if_neg e]; exact h.mutex u
  · rw [hp]; exact h.order
  · intro hb
    obtain ⟨l, l1, l2, l3⟩ := h.count hb
    refine ⟨l, l1, ?_, by rw [hq]; exact l3⟩
    intro u
    by_cases e : u = t
    · subst e
      rw [l2]; simp [State.go, h3, h4]
    · rw [l2]; simp [State.go, e]
  · intro hb; rw [hp]; exact h.data hb
  · intro hb u
    by_cases e : u = t
    · subst e
      refine ⟨?_, by simp [State.go, h4]⟩
      simp only [State.go, if_true]
      intro hc; rw [hc] at h2; cases h2
    · simp only [State.go, if_neg e]; exact h.mode2 hb u

theorem inv_next {b : Bool} {s s' : State} (h : Inv b s) (t : Nat) (hs : s.next t = some s') : Inv b s' := by
  unfold State.next at hs
  have hm := h.mode
  cases hc : s.pc t with
  | idle => rw [hc] at hs; cases hs
  | lock =>
    rw [hc] at hs
    simp only at hs
    split_ifs at hs with ho hbl
    all_goals (injection hs with hs; subst hs)
    all_goals
      have hin : ∀ u, inside (s.pc u) = false := by
        intro u
        cases hx : inside (s.pc u) with
        | false => rfl
        | true => have := (h.mutex u).1 hx; rw [ho] at this; cases this
      have hord := h.order
      have hp : pending s = [] := by simp [pending, ho]
      rw [hp] at hord
    · refine ⟨h.mode, ?_, ?_, ?_, ?_, ?_⟩
      · intro u
        by_cases e : u = t
        · subst e; simp [State.go, inside]
        · simp [State.go, e, hin u, Ne.symm e]
      · simpa [pending, State.go] using hord
      · intro hb
        obtain ⟨l, l1, l2, l3⟩ := h.count hb
        refine ⟨l, l1, ?_, ?_⟩
        · intro u
          by_cases e : u = t
          · subst e; rw [l2]; simp [State.go, hc]
          · rw [l2]; simp [State.go, e]
        · simpa [popping, State.go, ho] using l3
      · intro hb
        have := h.data hb
        simpa [pending, State.go, ho] using this
      · intro hb; rw [hb] at hm; rw [hm] at hbl; cases hbl
    · have hb0 : b = false := by rw [← hm]; simpa using hbl
      refine ⟨h.mode, ?_, ?_, ?_, ?_, ?_⟩
      · intro u
        by_cases e : u = t
        · subst e; simp [State.go, inside]
        · simp [State.go, e, hin u, Ne.symm e]
      · simpa [pending, State.go] using hord
      · intro hb; rw [hb] at hb0; cases hb0
      · intro hb; rw [hb] at hb0; cases hb0
      · intro _ u
        by_cases e : u = t
        · subst e; simp [State.go]
        · simpa [State.go, e] using h.mode2 hb0 u
  | wait =>
    rw [hc] at hs
    simp only at hs
    split_ifs at hs with hpos
    injection hs with hs; subst hs
    have ho : s.owner = some t := (h.mutex t).1 (by rw [hc]; rfl)
    have hord := h.order
    refine ⟨h.mode, ?_, ?_, ?_, ?_, ?_⟩
    · intro u
      by_cases e : u = t
      · subst e; simp [State.go, inside, ho]
      · simpa [State.go, e] using h.mutex u
    · simpa [pending, State.go, ho, hc] using hord
    · intro hb
      obtain ⟨l, l1, l2, l3⟩ := h.count hb
      refine ⟨l, l1, ?_, ?_⟩
      · intro u
        by_cases e : u = t
        · subst e; rw [l2]; simp [State.go, hc]
        · rw [l2]; simp [State.go, e]
      · simp only [popping, State.go, ho, hc, if_true] at l3 ⊢
        simp at l3
        omega
    · intro hb
      have := h.data hb
      simpa [pending, State.go, ho, hc] using this
    · intro hb; exact absurd hc (h.mode2 hb t).1
  | pop =>
    rw [hc] at hs
    have ho : s.owner = some t := (h.mutex t).1 (by rw [hc]; rfl)
    have hord := h.order
    have hp : pending s = [] := by simp [pending, ho, hc]
    have hq : popping s = 1 := by simp [popping, ho, hc]
    rw [hp] at hord
    cases hqueue : s.queue with
    | nil =>
      rw [hqueue] at hs hord
      simp only at hs
      injection hs with hs; subst hs
      have hbf : b = false := by
        cases b with
        | false => rfl
        | true =>
          obtain ⟨l, -, -, l3⟩ := h.count rfl
          rw [hqueue, hq] at l3
          simp at l3
      refine ⟨h.mode, ?_, ?_, ?_, ?_, ?_⟩
      · intro u
        by_cases e : u = t
        · subst e; simp [State.go, inside, ho]
        · simpa [State.go, e] using h.mutex u
      · simpa [pending, State.go, ho, hqueue] using hord
      · intro hb; rw [hb] at hbf; cases hbf
      · intro hb; rw [hb] at hbf; cases hbf
      · intro _ u
        by_cases e : u = t
        · subst e; simp [State.go]
        · simpa [State.go, e] using h.mode2 hbf u
    | cons p q =>
      rw [hqueue] at hs hord
      simp only at hs
      injection hs with hs; subst hs
      refine ⟨h.mode, ?_, ?_, ?_, ?_, ?_⟩
      · intro u
        by_cases e : u = t
        · subst e; simp [State.go, inside, ho]
        · simpa [State.go, e] using h.mutex u
      · simpa [pending, State.go, ho] using hord
      · intro hb
        obtain ⟨l, l1, l2, l3⟩ := h.count hb
        refine ⟨l, l1, ?_, ?_⟩
        · intro u
          by_cases e : u = t
          · subst e; rw [l2]; simp [State.go, hc]
          · rw [l2]; simp [State.go, e]
        · rw [hqueue, hq] at l3
          simp only [popping, State.go, ho, if_true, List.length_cons] at l3 ⊢
          simp
          omega
      · intro hb
        have := h.data hb
        rw [hp] at this
        simpa [pending, State.go, ho] using this
      · intro hb u
        by_cases e : u = t
        · subst e; simp [State.go]
        · simpa [State.go, e] using h.mode2 hb u
  | ret x =>
    rw [hc] at hs
    simp only at hs
    injection hs with hs; subst hs
    have ho : s.owner = some t := (h.mutex t).1 (by rw [hc]; rfl)
    have hord := h.order
    have hp : pending s = [x] := by simp [pending, ho, hc]
    have hq : popping s = 0 := by simp [popping, ho, hc]
    rw [hp] at hord
    refine ⟨h.mode, ?_, ?_, ?_, ?_, ?_⟩
    · intro u
      by_cases e : u = t
      · subst e; simp [State.go, inside]
      · have a := h.mutex u
        rw [ho] at a
        have : inside (s.pc u) = false := by
          cases hx : inside (s.pc u) with
          | false => rfl
          | true => have := a.1 hx; injection this with this; exact absurd this.symm e
        simp [State.go, e, this]
    · simpa [pending, State.go] using hord
    · intro hb
      obtain ⟨l, l1, l2, l3⟩ := h.count hb
      refine ⟨l, l1, ?_, ?_⟩
      · intro u
        by_cases e : u = t
        · subst e; rw [l2]; simp [State.go, hc]
        · rw [l2]; simp [State.go, e]
      · rw [hq] at l3
        simpa [popping, State.go] using l3
    · intro hb
      have := h.data hb
      rw [hp] at this
      simpa [pending, State.go] using this
    · intro hb u
      by_cases e : u = t
      · subst e; simp [State.go]
      · simpa [State.go, e] using h.mode2 hb u
  | push p =>
    rw [hc] at hs
    simp only at hs
    injection hs with hs; subst hs
    have ho : ∀ u, s.owner = some u → u ≠ t := by
      intro u hu e
      subst e
      have := (h.mutex u).2 hu
      rw [hc] at this; cases this
    obtain ⟨c, hcd⟩ : ∃ c, c = if s.blocking = true then Pc.post else Pc.idle := ⟨_, rfl⟩
    rw [← hcd]
    have hci : inside c = false := by rw [hcd]; split_ifs <;> rfl
    have hord := h.order
    have hp : pending ({ s with queue := s.queue ++ [p], written := s.written ++ [p] }.go t c) = pending s := by
      unfold pending State.go
      cases hw : s.owner with
      | none => simp [hw]
      | some u => simp [hw, ho u hw]
    have hq : popping ({ s with queue := s.queue ++ [p], written := s.written ++ [p] }.go t c) = popping s := by
      unfold popping State.go
      cases hw : s.owner with
      | none => simp [hw]
      | some u => simp [hw, ho u hw]
    refine ⟨h.mode, ?_, ?_, ?_, ?_, ?_⟩
    · intro u
      by_cases e : u = t
      · subst e
        have a := h.mutex u
        rw [hc] at a
        simp only [State.go, if_true, hci]
        exact a
      · simp only [State.go, if_neg e]; exact h.mutex u
    · rw [hp]
      simp only [State.go]
      rw [hord]; simp
    · intro hb
      rw [hm, hb, if_pos rfl] at hcd
      obtain ⟨l, l1, l2, l3⟩ := h.count hb
      have hnt : t ∉ l := by rw [l2, hc]; simp
      refine ⟨t :: l, List.nodup_cons.2 ⟨hnt, l1⟩, ?_, ?_⟩
      · intro u
        by_cases e : u = t
        · subst e; simp [State.go, hcd]
        · simp [State.go, e, l2]
      · rw [hq]
        simp only [State.go, List.length_append, List.length_cons, List.length_nil]
        omega
    · intro hb; rw [hp]; exact h.data hb
    · intro hb u
      rw [hm, hb] at hcd
      by_cases e : u = t
      · subst e; simp [State.go, hcd]
      · simpa [State.go, e] using h.mode2 hb u
  | post =>
    rw [hc] at hs
    simp only at hs
    injection hs with hs; subst hs
    have ho : ∀ u, s.owner = some u → u ≠ t := by
      intro u hu e
      subst e
      have := (h.mutex u).2 hu
      rw [hc] at this; cases this
    have hp : pending ({ s with sem := s.sem + 1 }.go t .idle) = pending s := by
      unfold pending State.go
      cases hw : s.owner with
      | none => simp [hw]
      | some u => simp [hw, ho u hw]
    have hq : popping ({ s with sem := s.sem + 1 }.go t .idle) = popping s := by
      unfold popping State.go
      cases hw : s.owner with
      | none => simp [hw]
      | some u => simp [hw, ho u hw]
    refine ⟨h.mode, ?_, ?_, ?_, ?_, ?_⟩
    · intro u
      by_cases e : u = t
      · subst e
        have a := h.mutex u
        rw [hc] at a
        simp only [State.go, if_true]
        exact a
      · simp only [State.go, if_neg e]; exact h.mutex u
    · rw [hp]; exact h.order
    · intro hb
      obtain ⟨l, l1, l2, l3⟩ := h.count hb
      have ht : t ∈ l := (l2 t).2 hc
      refine ⟨l.erase t, l1.erase t, ?_, ?_⟩
      · intro u
        rw [l1.mem_erase_iff]
        by_cases e : u = t
        · subst e; simp [State.go]
        · simp [State.go, e, l2]
      · rw [hq, List.length_erase_of_mem ht]
        have : 0 < l.length := List.length_pos_of_mem ht
        simp only [State.go]
        omega
    · intro hb; rw [hp]; exact h.data hb
    · intro hb; exact absurd hc (h.mode2 hb t).2

theorem inv_reach {b : Bool} {s : State} (h : Reach b s) : Inv b s := by
  induction h with
  | init => exact inv_init b
  | step e _ hs ih =>
    cases e with
    | read t =>
      simp only [State.step] at hs
      split_ifs at hs with hi
      injection hs with hs; subst hs
      exact inv_quiet ih t _ (by rw [hi]; rfl) rfl (by rw [hi]; simp) (by simp)
    | write t p =>
      simp only [State.step] at hs
      split_ifs at hs with hi
      injection hs with hs; subst hs
      exact inv_quiet ih t _ (by rw [hi]; rfl) rfl (by rw [hi]; simp) (by simp)
    | next t => exact inv_next ih t hs

/-- **C130** (order). In any interleaving, packets returned by calls of `read`, in the order of returning, are the first packets written, in the order
of writing; and a packet which is not returned is in the queue or about to be returned by the call that owns the mutex. -/
theorem C130_order (b : Bool) (s : State) (h : Reach b s) :
    s.results.filterMap id <+: s.written ∧ (s.owner = none → s.written = s.results.filterMap id ++ s.queue) := by
  have hi := (inv_reach h).order
  rw [List.filterMap_append, List.append_assoc] at hi
  refine ⟨⟨_, hi.symm⟩, ?_⟩
  intro ho
  simpa [pending, ho] using hi

/-- **C130** (blocking mode). No call of `read` returns without a packet. -/
theorem C130_blocking (s : State) (h : Reach true s) : none ∉ s.results := by
  have := (inv_reach h).data rfl
  intro hn
  exact this (List.mem_append_left _ hn)

/-- **C130** (no lost wakeup). When packets are in a blocking queue and some thread is in `read`, then some thread in a call can go on; and if
the reader that owns the mutex sleeps, then there is a writer that pushed its packet and is about to wake it, or the queue is empty. -/
theorem C130_wakeup (s : State) (h : Reach true s) :
    (s.queue ≠ [] → ∀ t, (s.pc t = .lock ∨ inside (s.pc t) = true) → ∃ u, (s.next u).isSome) ∧
    (∀ t, s.pc t = .wait → s.next t = none → s.queue = [] ∨ ∃ u, s.pc u = .post) := by
  have hi := inv_reach h
  obtain ⟨l, l1, l2, l3⟩ := hi.count rfl
  have hsleep : ∀ t, s.pc t = .wait → s.next t = none → s.queue = [] ∨ ∃ u, s.pc u = .post := by
    intro t ht hn
    have ho : s.owner = some t := (hi.mutex t).1 (by rw [ht]; rfl)
    have hq : popping s = 0 := by simp [popping, ho, ht]
    have h0 : s.sem = 0 := by
      unfold State.next at hn
      rw [ht] at hn
      simp only at hn
      split_ifs at hn with hx
      omega
    rw [hq, h0] at l3
    cases l with
    | nil => left; exact List.length_eq_zero_iff.1 (by simpa using l3)
    | cons u l => right; exact ⟨u, (l2 u).1 (by simp)⟩
  refine ⟨?_, hsleep⟩
  intro hne t ht
  have key : ∀ u, inside (s.pc u) = true → ∃ u, (s.next u).isSome := by
    intro u hu
    cases hc : s.pc u with
    | wait =>
      cases hn : s.next u with
      | some x => exact ⟨u, by rw [hn]; rfl⟩
      | none =>
        rcases hsleep u hc hn with e | ⟨w, hw⟩
        · exact absurd e hne
        · exact ⟨w, by simp [State.next, hw]⟩
    | pop =>
      refine ⟨u, ?_⟩
      unfold State.next
      rw [hc]
      simp only
      split <;> rfl
    | ret x => exact ⟨u, by simp [State.next, hc]⟩
    | idle => rw [hc] at hu; cases hu
    | lock => rw [hc] at hu; cases hu
    | push p => rw [hc] at hu; cases hu
    | post => rw [hc] at hu; cases hu
  rcases ht with ht | ht
  · cases ho : s.owner with
    | none => exact ⟨t, by simp [State.next, ht, ho]⟩
    | some u => exact key u ((hi.mutex u).2 ho)
  · exact key t ht

/-- **C130** (non-blocking mode). A call of `read` which finds no packet finds that each packet written so far was returned by a call of `read`; no call
of a lone reader ever waits. -/
theorem C130_nonblocking (s : State) (h : Reach false s) (t : Nat) :
    (∀ s', s.pc t = .pop → s.next t = some s' → s'.pc t = .ret none → s.written = s.results.filterMap id) ∧
    (s.pc t ≠ .idle → (∀ u, u ≠ t → inside (s.pc u) = false) → (s.next t).isSome) := by
  have hi := inv_reach h
  constructor
  · intro s' hc hn hr
    have ho : s.owner = some t := (hi.mutex t).1 (by rw [hc]; rfl)
    have hord := hi.order
    have hp : pending s = [] := by simp [pending, ho, hc]
    rw [hp] at hord
    unfold State.next at hn
    rw [hc] at hn
    cases hq : s.queue with
    | nil => rw [hq] at hord; simpa using hord
    | cons p q =>
      rw [hq] at hn
      simp only at hn
      injection hn with hn; subst hn
      simp [State.go] at hr
  · intro hne hu
    cases hc : s.pc t with
    | idle => exact absurd hc hne
    | wait => exact absurd hc (hi.mode2 rfl t).1
    | post => exact absurd hc (hi.mode2 rfl t).2
    | lock =>
      have ho : s.owner = none := by
        cases ho : s.owner with
        | none => rfl
        | some u =>
          have hin := (hi.mutex u).2 ho
          by_cases e : u = t
          · subst e; rw [hc] at hin; cases hin
          · rw [hu u e] at hin; cases hin
      simp [State.next, hc, ho]
    | pop =>
      unfold State.next
      rw [hc]
      simp only
      split <;> rfl
    | ret x => simp [State.next, hc]
    | push p => simp [State.next, hc]

/-- A schedule. -/
def exec : State → List Ev → Option State
  | s, [] => some s
  | s, e :: l => match s.step e with
    | some s => exec s l
    | none => none

theorem exec_reach {b : Bool} (l : List Ev) : ∀ (s s' : State), Reach b s → exec s l = some s' → Reach b s' := by
  induction l with
  | nil => intro s s' h he; simp only [exec] at he; injection he with he; subst he; exact h
  | cons e l ih =>
    intro s s' h he
    simp only [exec] at he
    split at he
    · rename_i s1 h1; exact ih s1 s' (.step e h h1) he
    · cases he

/-- Two writers and two readers: reader 3 sleeps in the semaphore until writer 2 posts, while packet 7 of writer 1 is already in the queue. -/
def busy : List Ev := [.read 3, .next 3, .write 1 7, .write 2 8, .read 4, .next 1, .next 2]

example : ∃ s, exec (.init true) busy = some s ∧ Reach true s ∧ s.queue = [7, 8] ∧ s.pc 3 = .wait ∧ (s.next 3).isNone ∧ s.pc 4 = .lock ∧ s.pc 1 = .post :=
  ⟨_, rfl, exec_reach busy _ _ .init rfl, rfl, rfl, rfl, rfl, rfl⟩

/-- Then both packets are returned, 7 first. -/
example : ∃ s, exec (.init true) (busy ++ [.next 2, .next 3, .next 3, .next 3, .next 1, .next 4, .next 4, .next 4, .next 4]) = some s ∧
    s.results = [some 7, some 8] ∧ s.written = [7, 8] ∧ s.owner = none := ⟨_, rfl, rfl, rfl, rfl⟩

/-- Without a semaphore: the first call finds nothing, the second a packet. -/
def twice : List Ev := [.read 3, .next 3, .next 3, .next 3, .write 1 7, .next 1, .read 3, .next 3, .next 3, .next 3]

example : ∃ s, exec (.init false) twice = some s ∧ s.results = [none, some 7] ∧ Reach false s :=
  ⟨_, rfl, rfl, exec_reach twice _ _ .init rfl⟩

end Verif.PacketQueue
