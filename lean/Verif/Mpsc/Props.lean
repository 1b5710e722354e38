import Verif.Mpsc.Invariant

/-! # C18: the multi-producer, single-consumer queue is a linearizable FIFO -/

namespace Verif.Mpsc

/-- **C18.** For every interleaving of any number of pushing threads and one popping thread, the
popped elements are a prefix of the pushed elements in the order in which the pushes took effect
(the exchange of `tail_`): nothing is lost, duplicated, invented or reordered. -/
theorem C18_fifo {s : State} (h : Reach s) : ∃ rest, s.pushed = s.popped ++ rest := by
  obtain ⟨c, hc⟩ := reach_inv h
  exact ⟨_, hc.fifo⟩

/-- **C18, results.** What `pop_front` returns, for each step of the consumer that ends a call:
* an element: it is the last one popped, and no longer owned by the queue;
* NULL for an empty queue: at that moment every push that took effect was popped;
* NULL without waiting (non-blocking variant only): a push is in progress;
* never a panic. -/
theorem C18_results {s : State} (h : Reach s) (g : Bool) (hb : s.cons ≠ .idle) (he : (s.consStep g).cons = .idle) :
    match (s.consStep g).ret with
    | .node x => s.popped.getLast? = some x ∧ (s.consStep g).owner x = false
    | .empty => s.pushed = s.popped
    | .gaveUp => s.spin = false ∧ ∃ t p x, s.prod t = .link p x
    | .panic | .none => False := by
  obtain ⟨c, hi⟩ := reach_inv h
  have hok := hi.cons
  unfold ConsOk at hok
  -- a missing link is the link of a push in progress
  have hpend : (∀ a, s.cons ≠ .slink a) → 2 ≤ c.length → s.next s.head = none → ∃ t p x, s.prod t = .link p x := by
    intro hk hlen hn
    have hh := hi.head
    match c, hh, hlen, hi with
    | a :: b :: l, hh, _, hi =>
      simp only [List.head?_cons, Option.some.injEq] at hh
      rcases hi.link s.head (by rw [hh]; simp) with e | e
      · rw [hn, ← hh] at e; simp [succ] at e
      · rcases e.2 with ⟨t, b', e2⟩ | e2
        · exact ⟨t, _, b', e2⟩
        · exact absurd e2 (hk _)
  unfold State.consStep at he ⊢
  cases hc : s.cons with
  | idle => exact absurd hc hb
  | start =>
    exfalso
    simp only [hc] at he
    cases hn : s.next s.head <;> simp only [hn] at he <;> split at he <;> simp [State.pop] at he
  | tail1 =>
    simp only [hc] at he hok ⊢
    split at he
    · rename_i ht
      rw [if_pos ht]
      simp only
      have := hi.fifo
      rw [one_of_eq hi ht, hok] at this
      simpa using this
    · simp at he
  | wait1 =>
    simp only [hc] at he hok ⊢
    cases hn : s.next s.head with
    | none =>
      simp only [hn] at he ⊢
      split at he
      · rename_i hg
        rw [if_pos hg]
        simp only
        simp only [Bool.and_eq_true, Bool.not_eq_true'] at hg
        exact ⟨hg.2, hpend (by simp [hc]) hok.2 hn⟩
      · exact absurd he hb
    | some n => simp [hn] at he
  | second =>
    exfalso
    simp only [hc] at he
    cases hn : s.next s.head <;> simp [hn, State.pop] at he
  | tail2 =>
    exfalso
    simp only [hc] at he
    split at he <;> simp at he
  | sclear => simp [hc] at he
  | sxchg => simp [hc] at he
  | slink p => simp [hc] at he
  | wait2 =>
    simp only [hc] at he hok ⊢
    cases hn : s.next s.head with
    | none =>
      simp only [hn] at he ⊢
      split at he
      · rename_i hg
        rw [if_pos hg]
        simp only
        simp only [Bool.and_eq_true, Bool.not_eq_true'] at hg
        exact ⟨hg.2, hpend (by simp [hc]) hok.2 hn⟩
      · exact absurd he hb
    | some n => simp [hn, State.pop] at he
  | release x =>
    simp only [hc] at hok ⊢
    simp only [hok.2.2.1, if_true]
    exact ⟨hok.2.2.2, upd_same _ _ _⟩

/-- The consumer alone, `n` steps. -/
def State.runCons (s : State) (g : Nat → Bool) : Nat → State
  | 0 => s
  | n + 1 => (s.consStep (g 0)).runCons (fun k => g (k + 1)) n

theorem reach_run {s : State} (h : Reach s) (g : Nat → Bool) (n : Nat) : Reach (s.runCons g n) := by
  induction n generalizing s g with
  | zero => exact h
  | succ n ih => exact ih (.step h (.cons s (g 0))) _

/-- The call in progress returns, having popped one element. -/
def Pops (n : Nat) (s : State) (g : Nat → Bool) : Prop :=
  ∃ k ≤ n, (s.runCons g k).cons = .idle ∧ ∃ x, (s.runCons g k).popped = s.popped ++ [x] ∧ (s.runCons g k).ret = .node x ∧
    (s.runCons g k).pushed = s.pushed

theorem pops_step {n : Nat} {s s' : State} {g : Nat → Bool} (he : s.consStep (g 0) = s') (hp : s'.popped = s.popped)
    (hu : s'.pushed = s.pushed) (h : Pops n s' (fun k => g (k + 1))) : Pops (n + 1) s g := by
  obtain ⟨k, hk, h1, x, h2, h3, h4⟩ := h
  subst he
  exact ⟨k + 1, by omega, h1, x, by rw [← hp]; exact h2, h3, by rw [← hu]; exact h4⟩

theorem pops_mono {n m : Nat} {s : State} {g : Nat → Bool} (h : Pops n s g) (hm : n ≤ m) : Pops m s g := by
  obtain ⟨k, hk, h1⟩ := h
  exact ⟨k, by omega, h1⟩

/-- Once the head is moved, the call returns it. -/
theorem pops_pop {s : State} {c : List Nat} (h : Inv s c) {g : Nat → Bool} {n : Nat} (hn : s.head ≠ stub)
    (he : s.consStep (g 0) = s.pop n) : Pops 2 s g := by
  have hm : s.head ∈ c := List.mem_of_mem_head? (by rw [h.head]; rfl)
  have ho := h.own s.head hm hn
  refine ⟨2, by omega, ?_⟩
  simp only [State.runCons, he]
  simp only [State.pop, State.consStep, ho, if_true]
  exact ⟨trivial, s.head, rfl, rfl, trivial⟩

/-- All links are written when nobody is linking. -/
theorem next_succ {s : State} {c : List Nat} (h : Inv s c) (hidle : ∀ t, s.prod t = .idle) (hk : ∀ a, s.cons ≠ .slink a)
    {a : Nat} (ha : a ∈ c) : s.next a = succ c a := by
  rcases h.link a ha with e | ⟨_, ⟨t, b, e⟩ | e⟩
  · exact e
  · rw [hidle t] at e; cases e
  · exact absurd e (hk a)

theorem next_head {s : State} {c : List Nat} (h : Inv s c) (hidle : ∀ t, s.prod t = .idle) (hk : ∀ a, s.cons ≠ .slink a)
    (hlen : 2 ≤ c.length) : ∃ n, s.next s.head = some n := by
  have hh := h.head
  match c, hh, hlen, h with
  | a :: b :: l, hh, _, h =>
    simp only [List.head?_cons, Option.some.injEq] at hh
    refine ⟨b, ?_⟩
    rw [← hh, next_succ h hidle hk (by simp)]
    simp [succ]

theorem pops_wait2 {s : State} (hr : Reach s) (hidle : ∀ t, s.prod t = .idle) (hc : s.cons = .wait2) (g : Nat → Bool) :
    Pops 2 s g := by
  obtain ⟨c, hi⟩ := reach_inv hr
  have hok := hi.cons
  simp only [ConsOk, hc] at hok
  obtain ⟨n, hn⟩ := next_head hi hidle (by simp [hc]) hok.2
  exact pops_pop hi hok.1 (n := n) (by simp only [State.consStep, hc, hn])

theorem pops_tail2 {s : State} (hr : Reach s) (hidle : ∀ t, s.prod t = .idle) (hc : s.cons = .tail2) (g : Nat → Bool) :
    Pops 6 s g := by
  by_cases ht : s.tail = s.head
  · have hr1 := Reach.step hr (.cons s (g 0))
    have h1 : s.consStep (g 0) = { s with cons := .sclear } := by simp only [State.consStep, hc, ht, if_true]
    rw [h1] at hr1
    have hr2 := Reach.step hr1 (.cons _ (g 1))
    have hr3 := Reach.step hr2 (.cons _ (g 2))
    have hr4 := Reach.step hr3 (.cons _ (g 3))
    refine pops_step h1 rfl rfl (pops_step rfl rfl rfl (pops_step rfl rfl rfl (pops_step rfl rfl rfl ?_)))
    exact pops_wait2 hr4 hidle rfl _
  · have h1 : s.consStep (g 0) = { s with cons := .wait2 } := by simp only [State.consStep, hc, ht, if_false]
    have hr1 := Reach.step hr (.cons s (g 0))
    rw [h1] at hr1
    exact pops_mono (pops_step h1 rfl rfl (pops_wait2 hr1 hidle rfl _)) (by omega)

theorem pops_second {s : State} (hr : Reach s) (hidle : ∀ t, s.prod t = .idle) (hc : s.cons = .second) (g : Nat → Bool) :
    Pops 7 s g := by
  obtain ⟨c, hi⟩ := reach_inv hr
  have hok := hi.cons
  simp only [ConsOk, hc] at hok
  cases hn : s.next s.head with
  | some n => exact pops_mono (pops_pop hi hok (n := n) (by simp only [State.consStep, hc, hn])) (by omega)
  | none =>
    have h1 : s.consStep (g 0) = { s with cons := .tail2 } := by simp only [State.consStep, hc, hn]
    have hr1 := Reach.step hr (.cons s (g 0))
    rw [h1] at hr1
    exact pops_step h1 rfl rfl (pops_tail2 hr1 hidle rfl _)

/-- **C18, nothing stays behind.** When no push is in progress and `x` is the oldest element not
yet popped, then `pop_front`, blocking or not, returns `x` within eight steps of its own. -/
theorem C18_available {s : State} (h : Reach s) (hprod : ∀ t, s.prod t = .idle) (hcons : s.cons = .idle)
    {x : Nat} {rest : List Nat} (hx : s.pushed = s.popped ++ x :: rest) (spin : Bool) (g : Nat → Bool) :
    ∃ k ≤ 8, (({ s with cons := .start, spin := spin } : State).runCons g k).cons = .idle ∧
      (({ s with cons := .start, spin := spin } : State).runCons g k).ret = .node x ∧
      (({ s with cons := .start, spin := spin } : State).runCons g k).popped = s.popped ++ [x] := by
  have hr1 := Reach.step h (.pop s spin hcons)
  obtain ⟨c, hi⟩ := reach_inv hr1
  have hpops : Pops 8 { s with cons := .start, spin := spin } g := by
    by_cases hs : s.head = stub
    · have hlen : 2 ≤ c.length := by
        have hh := hi.head
        have hf := hi.fifo
        match c, hh, hf with
        | [], hh, _ => simp at hh
        | [a], hh, hf =>
          simp only [List.head?_cons, Option.some.injEq] at hh
          subst hh
          rw [List.filter_cons_of_neg (by simpa using hs)] at hf
          simp only [List.filter_nil, List.append_nil] at hf
          rw [hx] at hf
          simp at hf
        | _ :: _ :: _, _, _ => simp
      obtain ⟨n, hn⟩ := next_head hi hprod (by simp) hlen
      have h1 : ({ s with cons := .start, spin := spin } : State).consStep (g 0)
          = { s with head := n, cons := .second, spin := spin } := by
        simp only at hn
        rw [hs] at hn
        simp only [State.consStep, hs, hn, if_true]
      have hr2 := Reach.step hr1 (.cons _ (g 0))
      rw [h1] at hr2
      exact pops_step h1 rfl rfl (pops_second hr2 hprod rfl _)
    · cases hn : s.next s.head with
      | some n =>
        exact pops_mono (pops_pop hi hs (n := n) (by simp only [State.consStep, hn, hs, if_false])) (by omega)
      | none =>
        have h1 : ({ s with cons := .start, spin := spin } : State).consStep (g 0)
            = { s with cons := .tail2, spin := spin } := by
          simp only [State.consStep, hn, hs, if_false]
        have hr2 := Reach.step hr1 (.cons _ (g 0))
        rw [h1] at hr2
        exact pops_mono (pops_step h1 rfl rfl (pops_tail2 hr2 hprod rfl _)) (by omega)
  obtain ⟨k, hk, h1, y, h2, h3, h4⟩ := hpops
  simp only at h2 h4
  have hxy : y = x := by
    obtain ⟨r, hr⟩ := C18_fifo (reach_run hr1 g k)
    rw [h4, h2, hx, List.append_assoc] at hr
    have := List.append_cancel_left hr
    simp at this
    exact this.1.symm
  subst hxy
  exact ⟨k, hk, h1, h3, h2⟩

/-- **C18, no panic, exclusive elements.** A popped element is owned by the queue until it is
returned, so nobody can push it before, and `pop_front` does not panic. -/
theorem C18_no_panic {s : State} (h : Reach s) (g : Bool) (hb : s.cons ≠ .idle) (he : (s.consStep g).cons = .idle) :
    (s.consStep g).ret ≠ .panic := by
  have := C18_results h g hb he
  intro hc
  rw [hc] at this
  exact this

/-- Non-vacuity: two pushes race; the second to exchange `tail_` links first; the non-blocking pop
gives up, then both elements come out in exchange order. -/
example : ∃ s, Reach s ∧ s.pushed = [7, 5] ∧ s.popped = [] ∧ s.cons = .wait1 ∧ (∃ t p x, s.prod t = .link p x) ∧
    (s.consStep true).cons = .idle ∧ (s.consStep true).ret = .gaveUp := by
  have h1 := Reach.step Reach.init (.push _ 1 5 rfl (by decide) rfl)
  have h2 := Reach.step h1 (.push _ 2 7 rfl (by decide) rfl)
  have h3 := Reach.step h2 (.prod _ 1)
  have h4 := Reach.step h3 (.prod _ 2)
  have h5 := Reach.step h4 (.prod _ 2)
  have h6 := Reach.step h5 (.prod _ 1)
  have h7 := Reach.step h6 (.prod _ 1)
  have h8 := Reach.step h7 (.pop _ false rfl)
  have h9 := Reach.step h8 (.cons _ false)
  have h10 := Reach.step h9 (.cons _ false)
  exact ⟨_, h10, rfl, rfl, rfl, ⟨2, stub, 7, rfl⟩, rfl, rfl⟩

/-- Non-vacuity of `C18_available`: one complete push. -/
example : ∃ s, Reach s ∧ (∀ t, s.prod t = .idle) ∧ s.cons = .idle ∧ s.pushed = s.popped ++ 5 :: [] := by
  have h1 := Reach.step Reach.init (.push _ 1 5 rfl (by decide) rfl)
  have h2 := Reach.step h1 (.prod _ 1)
  have h3 := Reach.step h2 (.prod _ 1)
  have h4 := Reach.step h3 (.prod _ 1)
  refine ⟨_, h4, ?_, rfl, rfl⟩
  intro t
  by_cases ht : t = 1
  · subst ht; rfl
  · simp [State.prodStep, upd, State.init, ht]

end Verif.Mpsc
