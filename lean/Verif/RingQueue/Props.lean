import Verif.RingQueue.Spec

/-! # C12: the ring queue as a deque -/

namespace Verif.RingQueue

variable {α : Type}

theorem mod_wrap {x n : Nat} (h : x < 2 * n) : x % n = if x < n then x else x - n := by
  split
  · exact Nat.mod_eq_of_lt ‹_›
  · rw [Nat.mod_eq_sub_mod (by omega), Nat.mod_eq_of_lt (by omega)]

/-- The ring stores the list `l`, one slot at least being unused. -/
structure Stores (s : State α) (l : List α) : Prop where
  beg_lt : s.beg < s.len
  len_lt : l.length < s.len
  end_eq : s.end_ = (s.beg + l.length) % s.len
  elems : ∀ i (h : i < l.length), s.buf ((s.beg + i) % s.len) = l[i]

theorem Stores.isEmpty {s : State α} {l : List α} (h : Stores s l) :
    s.isEmpty = true ↔ l = [] := by
  have h1 := h.beg_lt
  have h2 := h.len_lt
  have h3 := h.end_eq
  rw [mod_wrap (by omega)] at h3
  unfold State.isEmpty
  rw [beq_iff_eq, ← List.length_eq_zero_iff]
  split at h3 <;> omega

theorem Stores.size {s : State α} {l : List α} (h : Stores s l) : s.size = l.length := by
  have h1 := h.beg_lt
  have h2 := h.len_lt
  have h3 := h.end_eq
  rw [mod_wrap (by omega)] at h3
  unfold State.size
  rw [mod_wrap (by split at h3 <;> omega)]
  split at h3 <;> split <;> omega

theorem Stores.notFull {s : State α} {l : List α} (h : Stores s l) : s.isFull = false := by
  unfold State.isFull State.capacity
  rw [h.size]
  have := h.len_lt
  simp; omega

theorem Stores.front {s : State α} {l : List α} (h : Stores s l) : s.front = l.head? := by
  unfold State.front
  cases l with
  | nil => rw [if_pos (h.isEmpty.mpr rfl)]; rfl
  | cons x l =>
    rw [if_neg (fun hc => by have := h.isEmpty.mp hc; simp at this)]
    have := h.elems 0 (by simp)
    simp only [Nat.add_zero, List.getElem_cons_zero] at this
    rw [Nat.mod_eq_of_lt h.beg_lt] at this
    simp [this]

theorem Stores.back {s : State α} {l : List α} (h : Stores s l) : s.back = l.getLast? := by
  unfold State.back
  by_cases hl : l = []
  · rw [if_pos (h.isEmpty.mpr hl), hl]; rfl
  · rw [if_neg (fun hc => hl (h.isEmpty.mp hc))]
    have hpos : 0 < l.length := List.length_pos_iff.mpr hl
    have := h.elems (l.length - 1) (by omega)
    rw [List.getLast?_eq_getElem?, List.getElem?_eq_getElem (by omega), ← this]
    congr 2
    have h1 := h.beg_lt
    have h2 := h.len_lt
    have h3 := h.end_eq
    rw [mod_wrap (by omega)] at h3
    rw [mod_wrap (by split at h3 <;> omega), mod_wrap (by omega)]
    split at h3 <;> split <;> split <;> omega

theorem Stores.step {s : State α} {l l' : List α} (h : Stores s l) (op : Op α)
    (hs : specStep l op = some l') (hcap : l'.length < s.len) :
    ∃ s', s.step op = some s' ∧ s'.len = s.len ∧ Stores s' l' := by
  have h1 := h.beg_lt
  have h2 := h.len_lt
  have h3 := h.end_eq
  rw [mod_wrap (by omega)] at h3
  cases op with
  | pushFront x =>
    simp only [specStep, Option.some.injEq] at hs
    subst hs
    simp only [List.length_cons] at hcap
    refine ⟨{ s with beg := (s.beg + s.len - 1) % s.len, buf := upd s.buf ((s.beg + s.len - 1) % s.len) x },
      by simp [State.step, State.pushFront, h.notFull], rfl, ?_⟩
    have hb : (s.beg + s.len - 1) % s.len = if s.beg = 0 then s.len - 1 else s.beg - 1 := by
      rw [mod_wrap (by omega)]; split <;> split <;> omega
    refine ⟨?_, by simpa using hcap, ?_, ?_⟩
    · dsimp only; rw [hb]; split <;> omega
    · dsimp only
      rw [hb, h3]
      simp only [List.length_cons]
      rw [mod_wrap (by split <;> omega)]
      split <;> split <;> split <;> omega
    · intro i hi
      dsimp only
      rw [hb]
      simp only [List.length_cons] at hi
      cases i with
      | zero =>
        rw [Nat.add_zero, mod_wrap (by split <;> omega)]
        simp only [List.getElem_cons_zero, upd]
        rw [if_pos (by split <;> split <;> omega)]
      | succ i =>
        simp only [List.getElem_cons_succ, upd]
        rw [mod_wrap (by split <;> omega), if_neg (by split <;> split <;> omega)]
        rw [← h.elems i (by omega), mod_wrap (x := s.beg + i) (by omega)]
        congr 1
        split <;> split <;> split <;> omega
  | pushBack x =>
    simp only [specStep, Option.some.injEq] at hs
    subst hs
    simp only [List.length_append, List.length_singleton] at hcap
    refine ⟨{ s with buf := upd s.buf s.end_ x, end_ := (s.end_ + 1) % s.len },
      by simp [State.step, State.pushBack, h.notFull], rfl, ?_⟩
    refine ⟨h1, by simpa using hcap, ?_, ?_⟩
    · dsimp only
      simp only [List.length_append, List.length_singleton]
      rw [mod_wrap (x := s.end_ + 1) (by split at h3 <;> omega), mod_wrap (by omega)]
      split at h3 <;> split <;> split <;> omega
    · intro i hi
      simp only [List.length_append, List.length_singleton] at hi
      dsimp only
      simp only [upd]
      rw [mod_wrap (by omega)]
      by_cases hil : i < l.length
      · rw [List.getElem_append_left hil, ← h.elems i hil, mod_wrap (x := s.beg + i) (by omega),
          if_neg (by split at h3 <;> split <;> omega)]
      · have : i = l.length := by omega
        subst this
        simp only [List.getElem_append_right (Nat.le_refl _), Nat.sub_self, List.getElem_cons_zero]
        rw [if_pos (by split at h3 <;> split <;> omega)]
  | popFront =>
    simp only [specStep] at hs
    split at hs
    · simp at hs
    · rename_i hne
      simp only [Option.some.injEq] at hs
      subst hs
      refine ⟨{ s with beg := (s.beg + 1) % s.len }, by simp only [State.step, State.popFront]; rw [if_neg (fun hc => hne (h.isEmpty.mp hc))], rfl, ?_⟩
      have hpos : 0 < l.length := List.length_pos_iff.mpr hne
      have hb : (s.beg + 1) % s.len = if s.beg + 1 < s.len then s.beg + 1 else 0 := by
        rw [mod_wrap (by omega)]; split <;> omega
      refine ⟨?_, hcap, ?_, ?_⟩
      · dsimp only; rw [hb]; split <;> omega
      · dsimp only
        rw [hb, List.length_tail, mod_wrap (by split <;> omega)]
        split at h3 <;> split <;> split <;> omega
      · intro i hi
        rw [List.length_tail] at hi
        dsimp only
        rw [hb, List.getElem_tail, ← h.elems (i + 1) (by omega)]
        congr 1
        rw [mod_wrap (by split <;> omega), mod_wrap (by omega)]
        split <;> split <;> split <;> omega
  | popBack =>
    simp only [specStep] at hs
    split at hs
    · simp at hs
    · rename_i hne
      simp only [Option.some.injEq] at hs
      subst hs
      refine ⟨{ s with end_ := (s.end_ + s.len - 1) % s.len }, by simp only [State.step, State.popBack]; rw [if_neg (fun hc => hne (h.isEmpty.mp hc))], rfl, ?_⟩
      have hpos : 0 < l.length := List.length_pos_iff.mpr hne
      refine ⟨h1, hcap, ?_, ?_⟩
      · dsimp only
        rw [List.length_dropLast, mod_wrap (x := s.end_ + s.len - 1) (by split at h3 <;> omega),
          mod_wrap (by omega)]
        split at h3 <;> split <;> split <;> omega
      · intro i hi
        rw [List.length_dropLast] at hi
        dsimp only
        rw [List.getElem_dropLast]
        exact h.elems i (by omega)

theorem Stores.run {s : State α} {l l' : List α} (h : Stores s l) (cap : Nat)
    (hcap : cap < s.len) (ops : List (Op α)) (hs : specRun cap l ops = some l') :
    ∃ s', s.run ops = some s' ∧ Stores s' l' := by
  induction ops generalizing s l with
  | nil =>
    simp only [specRun, Option.some.injEq] at hs
    subst hs; exact ⟨s, rfl, h⟩
  | cons op ops ih =>
    simp only [specRun] at hs
    obtain ⟨l1, hl1, hs⟩ := Option.bind_eq_some_iff.mp hs
    split at hs
    · rename_i hle
      obtain ⟨s1, e1, e2, e3⟩ := h.step op hl1 (by omega)
      obtain ⟨s', r1, r2⟩ := ih e3 (by omega) hs
      exact ⟨s', by simp only [State.run, e1, Option.bind_some, r1], r2⟩
    · simp at hs

/-- **C12** (partial: at most `N - 1` elements are stored). For every history in which the
deque never holds more than `N - 1` elements and nothing is popped from an empty deque, a queue
created with capacity `N` does not abort and agrees with the list: size, emptiness, front and
back. Missing: the `N`-th element (`C12_capacity_fails`). -/
theorem C12_deque_partial (junk : Nat → α) (n : Nat) (hn : 0 < n) (ops : List (Op α)) (l : List α)
    (hs : specRun (n - 1) [] ops = some l) :
    ∃ s0 s, State.init junk n = some s0 ∧ s0.run ops = some s ∧
      s.size = l.length ∧ (s.isEmpty = true ↔ l = []) ∧ s.front = l.head? ∧ s.back = l.getLast? := by
  refine ⟨⟨junk, n, 0, 0⟩, ?_⟩
  have h0 : Stores (⟨junk, n, 0, 0⟩ : State α) [] := by
    refine ⟨hn, hn, ?_, fun i h => by simp at h⟩
    simp
  obtain ⟨s, h1, h2⟩ := h0.run (n - 1) (by simpa using by omega) ops hs
  exact ⟨s, by simp [State.init]; omega, h1, h2.size, h2.isEmpty, h2.front, h2.back⟩

example := C12_deque_partial (fun _ => 0) 3 (by decide)
  [.pushBack 5, .pushFront 4, .popBack, .pushBack 6, .popFront] [6] (by decide)

/-- **C12** (error branch). Popping from an empty queue is always detected. -/
theorem C12_pop_empty_detected (s : State α) (l : List α) (h : Stores s l) (hl : l = []) :
    s.step .popFront = none ∧ s.step .popBack = none ∧ s.front = none ∧ s.back = none := by
  have := h.isEmpty.mpr hl
  simp [State.step, State.popFront, State.popBack, State.front, State.back, this]

example := C12_pop_empty_detected (⟨fun _ => 0, 3, 1, 1⟩ : State Nat) []
  ⟨by decide, by decide, by decide, fun i h => by simp at h⟩ rfl

/-- **C12 fails**: the queue never reports that it is full, whatever its state. -/
theorem C12_never_full_fails (s : State α) (h : 0 < s.len) : s.isFull = false := by
  unfold State.isFull State.size State.capacity
  have := Nat.mod_lt (s.end_ + s.len - s.beg) h
  simp; omega

example := C12_never_full_fails (⟨fun _ => 0, 3, 1, 1⟩ : State Nat) (by decide)

/-- **C12 fails**: pushing `N` elements into a queue of capacity `N` succeeds and leaves an
empty queue; all elements are lost. Shown for every capacity. -/
theorem C12_capacity_fails (junk : Nat → α) (xs : List α) (hne : xs ≠ []) :
    ∃ s0 s, State.init junk xs.length = some s0 ∧
      s0.run (xs.map .pushBack) = some s ∧ s.size = 0 ∧ s.isEmpty = true := by
  have hpos : 0 < xs.length := List.length_pos_iff.mpr hne
  have key : ∀ (l : List α) (s : State α), 0 < s.len → s.end_ < s.len →
      ∃ s', s.run (l.map .pushBack) = some s' ∧ s'.len = s.len ∧ s'.beg = s.beg ∧
        s'.end_ = (s.end_ + l.length) % s.len := by
    intro l
    induction l with
    | nil => intro s _ h; exact ⟨s, rfl, rfl, rfl, by simp [Nat.mod_eq_of_lt h]⟩
    | cons x l ih =>
      intro s h1 h2
      have hstep : s.step (.pushBack x) =
          some { s with buf := upd s.buf s.end_ x, end_ := (s.end_ + 1) % s.len } := by
        simp [State.step, State.pushBack, C12_never_full_fails s h1]
      obtain ⟨s', a, b, c, d⟩ := ih { s with buf := upd s.buf s.end_ x, end_ := (s.end_ + 1) % s.len }
        h1 (Nat.mod_lt _ h1)
      refine ⟨s', by simp only [List.map_cons, State.run, hstep, Option.bind_some, a], b, c, ?_⟩
      rw [d]
      simp only [List.length_cons, Nat.mod_add_mod]
      congr 1; omega
  obtain ⟨s', a, b, c, d⟩ := key xs ⟨junk, xs.length, 0, 0⟩ hpos hpos
  refine ⟨_, s', by simp [State.init]; omega, a, ?_, ?_⟩
  · unfold State.size
    simp only at b c d
    simp [b, c, d]
  · unfold State.isEmpty
    simp only at b c d
    simp [c, d]

example : ∃ s0 s, State.init (fun _ => 0) 2 = some s0 ∧
    s0.run [.pushBack 1, .pushBack 2] = some s ∧ s.size = 0 ∧ s.isEmpty = true :=
  C12_capacity_fails (fun _ => 0) [1, 2] (by decide)

/-- **C12 fails** for elements with a destructor: `pop_back` after one `push_back` destroys a slot
that holds no object (and leaks the element), for every capacity above one. -/
theorem C12_pop_back_lifetime_fails (n : Nat) (hn : 1 < n) :
    (Life.pushBack ⟨fun _ => false, n, 0, 0⟩).popBack = none := by
  have : 1 % n = 1 := Nat.mod_eq_of_lt hn
  simp [Life.pushBack, Life.popBack, upd, this]

example := C12_pop_back_lifetime_fails 4 (by decide)

end Verif.RingQueue
