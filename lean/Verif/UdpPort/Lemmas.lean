import Verif.UdpPort.Spec
import Mathlib.Tactic.ByContra
import Mathlib.Tactic.SplitIfs

/-!
# Invariant of a UDP port
-/

set_option linter.unusedSimpArgs false

namespace Verif.UdpPort

/-- The call still holds its packet: it was not given to the kernel or to the queue. -/
def Pc.held : Pc → Bool
  | .checked | .trying | .push => true
  | _ => false

/-- The packet of the call is counted in `pending_packets_` and is not in the queue. -/
def Pc.counted : Pc → Bool
  | .trying | .push | .dec => true
  | _ => false

/-- Numbers of packets. -/
def ids (l : List Pkt) : List Nat := l.map Pkt.id

/-- Packets that go to the wire, in order. -/
def State.line (s : State) : List Pkt := s.wire ++ (s.unsent ++ s.queue)

/-- How many times packet `x` is somewhere. -/
def State.places (s : State) (x : Nat) : Nat :=
  (ids s.wire).count x + (ids s.failed).count x + (ids s.dropped).count x + (ids s.lost).count x
    + (ids s.unsent).count x + (ids s.queue).count x
    + s.act.countP fun w => w.pc.held && decide (w.pkt.id = x)

/-- Invariant about packets. -/
structure Inv (s : State) : Prop where
  cnt : s.pending = ((s.act.countP fun w => w.pc.counted) + s.queue.length + s.unsent.length + s.done.length
    + s.lost.length : Nat)
  places : ∀ x, s.places x = if x < s.next then 1 else 0
  writers : ∀ x, (s.act.countP fun w => decide (w.pkt.id = x)) + s.returned.count x = if x < s.next then 1 else 0
  order : s.line.Pairwise fun p q => q.id ∉ p.seen
  seen : ∀ p ∈ s.line, ∀ x ∈ p.seen, x ∈ s.returned
  seenAct : ∀ w ∈ s.act, ∀ x ∈ w.pkt.seen, x ∈ s.returned
  trying : ∀ w ∈ s.act, w.pc = .trying → ∀ p ∈ s.unsent ++ s.queue, p.id ∉ w.pkt.seen
  wake : s.queue ≠ [] → s.flag = true ∨ s.draining = true ∨ ∃ w ∈ s.act, w.pc = .link ∨ w.pc = .signal
  size : ∀ w ∈ s.act, 0 < w.pkt.size

/-- Invariant about opening and closing. -/
structure CInv (s : State) : Prop where
  wantAct : s.want = true → s.act = []
  handler : s.handler = s.want
  closing : s.hClosing = true ∨ s.sClosing = true ∨ s.closed = true → s.want = true ∧ s.pending = 0
  started : s.want = true → s.pending ≠ 0 ∨ ((s.init = true → s.hClosing = true) ∧ (s.sem = true → s.sClosing = true))
  hInit : s.hClosing = true → s.init = true
  sInit : s.sClosing = true → s.sem = true
  semInit : s.want = false → s.sem = true → s.init = true
  live : s.pending ≠ 0 ∨ s.act ≠ [] → s.init = true ∧ s.sem = true ∧ s.hClosing = false ∧ s.sClosing = false
  result : s.want = true ↔ s.result ≠ none
  closed : s.closed = true → s.init = false ∧ s.sem = false ∧ s.closeCalls = 1 ∧ s.result = some true
  notClosed : s.closed = false → s.closeCalls = 0
  resTrue : s.result = some true → s.init = false → s.sem = false → s.closed = true
  resFalse : s.result = some false → s.init = false ∧ s.sem = false ∧ s.closed = false
  recvOn : s.recvOn = true → s.init = true ∧ s.hClosing = false

theorem c1 : Pc.counted .checked = false := rfl

theorem d1 : Pc.held .checked = true := rfl

theorem c2 : Pc.counted .trying = true := rfl

theorem d2 : Pc.held .trying = true := rfl

theorem c3 : Pc.counted .push = true := rfl

theorem d3 : Pc.held .push = true := rfl

theorem c4 : Pc.counted .link = false := rfl

theorem d4 : Pc.held .link = false := rfl

theorem c5 : Pc.counted .signal = false := rfl

theorem d5 : Pc.held .signal = false := rfl

theorem c6 : Pc.counted .dec = true := rfl

theorem d6 : Pc.held .dec = false := rfl

theorem countP_erase {l : List Wr} {i : Nat} {w : Wr} (h : l[i]? = some w) (f : Wr → Bool) :
    l.countP f = (l.eraseIdx i).countP f + (if f w then 1 else 0) := by
  induction l generalizing i with
  | nil => simp at h
  | cons a t ih =>
    cases i with
    | zero =>
      simp only [List.getElem?_cons_zero, Option.some.injEq] at h
      subst h
      simp [List.eraseIdx, List.countP_cons]
    | succ i =>
      simp only [List.getElem?_cons_succ] at h
      simp only [List.eraseIdx, List.countP_cons, ih h]
      omega

theorem mem_of_erase {l : List Wr} {i : Nat} {w : Wr} (h : w ∈ l.eraseIdx i) : w ∈ l :=
  List.mem_of_mem_eraseIdx h

theorem mem_split {l : List Wr} {i : Nat} {w v : Wr} (h : l[i]? = some w) (hv : v ∈ l) :
    v = w ∨ v ∈ l.eraseIdx i := by
  induction l generalizing i with
  | nil => simp at h
  | cons a t ih =>
    cases i with
    | zero =>
      simp only [List.getElem?_cons_zero, Option.some.injEq] at h
      subst h
      simpa [List.eraseIdx] using hv
    | succ i =>
      simp only [List.getElem?_cons_succ] at h
      simp only [List.eraseIdx, List.mem_cons] at hv ⊢
      rcases hv with rfl | hv
      · exact Or.inr (Or.inl rfl)
      · rcases ih h hv with h | h
        · exact Or.inl h
        · exact Or.inr (Or.inr h)

theorem ids_append (a b : List Pkt) : ids (a ++ b) = ids a ++ ids b := List.map_append

theorem ids_cons (a : Pkt) (b : List Pkt) : ids (a :: b) = a.id :: ids b := rfl

theorem ids_nil : ids [] = [] := rfl

theorem Inv.ofSame {s t : State} (h : Inv s) (h1 : t.pending = s.pending) (h2 : t.act = s.act)
    (h3 : t.queue = s.queue) (h4 : t.unsent = s.unsent) (h5 : t.done = s.done) (h6 : t.lost = s.lost)
    (h7 : t.wire = s.wire) (h8 : t.failed = s.failed) (h9 : t.dropped = s.dropped) (h10 : t.next = s.next)
    (h11 : t.returned = s.returned) (h12 : t.flag = s.flag) (h13 : t.draining = s.draining) : Inv t := by
  refine ⟨?_, ?_, ?_, ?_, ?_, ?_, ?_, ?_, ?_⟩
  · rw [h1, h2, h3, h4, h5, h6]; exact h.cnt
  · intro x
    have := h.places x
    rw [State.places] at this ⊢
    rw [h2, h3, h4, h6, h7, h8, h9, h10]; exact this
  · rw [h2, h10, h11]; exact h.writers
  · rw [State.line, h7, h4, h3]; exact h.order
  · rw [State.line, h7, h4, h3, h11]; exact h.seen
  · rw [h2, h11]; exact h.seenAct
  · rw [h2, h4, h3]; exact h.trying
  · rw [h3, h12, h13, h2]; exact h.wake
  · rw [h2]; exact h.size

theorem not_returned {s : State} (h : Inv s) {w : Wr} (hw : w ∈ s.act) : w.pkt.id ∉ s.returned := by
  intro hm
  have h1 : 0 < s.returned.count w.pkt.id := List.count_pos_iff.mpr hm
  have h2 : 0 < s.act.countP fun v => decide (v.pkt.id = w.pkt.id) :=
    List.countP_pos_iff.mpr ⟨w, hw, by simp⟩
  have := h.writers w.pkt.id
  split_ifs at this <;> omega

theorem startClosing_inv {s : State} (h : Inv s) : Inv s.startClosing := by
  unfold State.startClosing
  split
  · exact h
  · exact h.ofSame rfl rfl rfl rfl rfl rfl rfl rfl rfl rfl rfl rfl rfl

theorem Inv.stepWr {c : Cfg} {s s' : State} {i : Nat} {w : Wr} {k : Kernel} (h : Inv s)
    (hi : s.act[i]? = some w) (hs : s.stepWr c i w k = some s') : Inv s' := by
  have hw : w ∈ s.act := List.mem_of_getElem? hi
  have hsz := h.size w hw
  have hnr := not_returned h hw
  have hsa : ∀ x ∈ w.pkt.seen, x ∈ s.returned := h.seenAct w hw
  have hc := fun f => countP_erase hi f
  obtain ⟨p, pc⟩ := w
  have hcnt := h.cnt
  have hpl := h.places
  have hwr := h.writers
  rw [hc] at hcnt
  simp only [hc] at hwr
  simp only [State.places, hc] at hpl
  cases pc
  case checked =>
    simp only [State.stepWr, Option.some.injEq] at hs
    subst hs
    simp only [c1, c2, c3, c4, c5, c6, Bool.false_eq_true, if_false] at hcnt
    simp only [d1, d2, d3, d4, d5, d6, Bool.true_and] at hpl
    have hif : ∀ f : Pc → Bool, f .push = f .trying → f (if s.pending + 1 > 1 then Pc.push else .trying) = f .trying := by
      intro f hf; split_ifs <;> simp [hf]
    refine ⟨?_, ?_, ?_, ?_, ?_, ?_, ?_, ?_, ?_⟩
    · simp only [List.countP_cons, hif Pc.counted rfl, c1, c2, c3, c4, c5, c6, if_true]; omega
    · intro x
      have := hpl x
      simp only [State.places, List.countP_cons, hif Pc.held rfl, d1, d2, d3, d4, d5, d6, Bool.true_and]
      omega
    · intro x
      have := hwr x
      simp only [List.countP_cons]
      omega
    · exact h.order
    · exact h.seen
    · intro v hv
      rcases List.mem_cons.mp hv with rfl | hv
      · exact hsa
      · exact h.seenAct v (mem_of_erase hv)
    · intro v hv hpc q hq
      rcases List.mem_cons.mp hv with rfl | hv
      · simp only at hpc hq
        have h0 : ¬ s.pending + 1 > 1 := by
          intro hgt; rw [if_pos hgt] at hpc; cases hpc
        exfalso
        have hl : (s.unsent ++ s.queue).length = 0 := by rw [List.length_append]; omega
        rw [List.length_eq_zero_iff.mp hl] at hq
        cases hq
      · exact h.trying v (mem_of_erase hv) hpc q hq
    · intro hq
      rcases h.wake hq with h1 | h1 | ⟨v, hv, h1⟩
      · exact Or.inl h1
      · exact Or.inr (Or.inl h1)
      · rcases mem_split hi hv with rfl | hv
        · rcases h1 with h1 | h1 <;> cases h1
        · exact Or.inr (Or.inr ⟨v, List.mem_cons_of_mem _ hv, h1⟩)
    · intro v hv
      rcases List.mem_cons.mp hv with rfl | hv
      · exact hsz
      · exact h.size v (mem_of_erase hv)
  case trying =>
    simp only [c1, c2, c3, c4, c5, c6, if_true] at hcnt
    simp only [d1, d2, d3, d4, d5, d6, Bool.true_and] at hpl
    have htry := h.trying _ hw rfl
    simp only at htry hsz hnr
    -- facts common to all outcomes
    have hact : ∀ pc', ∀ v ∈ (⟨p, pc'⟩ :: s.act.eraseIdx i : List Wr), ∀ x ∈ v.pkt.seen, x ∈ s.returned := by
      intro pc' v hv
      rcases List.mem_cons.mp hv with rfl | hv
      · exact hsa
      · exact h.seenAct v (mem_of_erase hv)
    have hsize : ∀ pc', ∀ v ∈ (⟨p, pc'⟩ :: s.act.eraseIdx i : List Wr), 0 < v.pkt.size := by
      intro pc' v hv
      rcases List.mem_cons.mp hv with rfl | hv
      · exact hsz
      · exact h.size v (mem_of_erase hv)
    have hwake : ∀ pc' : Pc, s.queue ≠ [] → s.flag = true ∨ s.draining = true ∨
        ∃ w ∈ (⟨p, pc'⟩ :: s.act.eraseIdx i : List Wr), w.pc = .link ∨ w.pc = .signal := by
      intro pc' hq
      rcases h.wake hq with h1 | h1 | ⟨v, hv, h1⟩
      · exact Or.inl h1
      · exact Or.inr (Or.inl h1)
      · rcases mem_split hi hv with rfl | hv
        · rcases h1 with h1 | h1 <;> cases h1
        · exact Or.inr (Or.inr ⟨v, List.mem_cons_of_mem _ hv, h1⟩)
    have htr : ∀ pc', pc' ≠ Pc.trying → ∀ v ∈ (⟨p, pc'⟩ :: s.act.eraseIdx i : List Wr), v.pc = .trying →
        ∀ q ∈ s.unsent ++ s.queue, q.id ∉ v.pkt.seen := by
      intro pc' hne v hv hpc
      rcases List.mem_cons.mp hv with rfl | hv
      · exact absurd hpc hne
      · exact h.trying v (mem_of_erase hv) hpc
    by_cases hb : c.nonBlocking = true
    · have ht : tryWrite c k p.size = true := by
        unfold tryWrite trySendTo
        rw [if_neg (by rw [hb]; decide)]
        cases k
        · simp only [decide_eq_true_eq]; omega
        · rfl
        · rfl
      simp only [State.stepWr, hb, ht, if_true, Option.some.injEq] at hs
      cases k
      case sent =>
        simp only [if_true] at hs
        subst hs
        refine ⟨?_, ?_, ?_, ?_, ?_, hact .dec, htr .dec (by decide), hwake .dec, hsize .dec⟩
        · simp only [List.countP_cons, c1, c2, c3, c4, c5, c6, if_true]; omega
        · intro x
          have := hpl x
          simp only [State.places, List.countP_cons, d1, d2, d3, d4, d5, d6, Bool.false_and, Bool.false_eq_true, if_false,
            ids_append, List.count_append, ids_cons, ids_nil, List.count_cons, List.count_nil, beq_iff_eq,
            decide_eq_true_eq] at this ⊢
          omega
        · intro x
          have := hwr x
          simp only [List.countP_cons]
          omega
        · simp only [State.line, List.append_assoc, List.cons_append, List.nil_append]
          have ho := h.order
          rw [State.line, List.pairwise_append] at ho
          rw [List.pairwise_append]
          refine ⟨ho.1, List.pairwise_cons.mpr ⟨htry, ho.2.1⟩, ?_⟩
          intro a ha b hb
          rcases List.mem_cons.mp hb with rfl | hb
          · intro hx
            exact hnr (h.seen a (List.mem_append_left _ ha) _ hx)
          · exact ho.2.2 a ha b hb
        · intro q hq
          simp only [State.line, List.append_assoc, List.cons_append, List.nil_append, List.mem_append,
            List.mem_cons] at hq
          rcases hq with hq | rfl | hq
          · exact h.seen q (List.mem_append_left _ hq)
          · exact hsa
          · exact h.seen q (List.mem_append_right _ (List.mem_append.mpr hq))
      all_goals
        simp only [reduceCtorEq, if_false] at hs
        subst hs
        refine ⟨?_, ?_, ?_, h.order, h.seen, hact .dec, htr .dec (by decide), hwake .dec, hsize .dec⟩
        · simp only [List.countP_cons, c1, c2, c3, c4, c5, c6, if_true]; omega
        · intro x
          have := hpl x
          simp only [State.places, List.countP_cons, d1, d2, d3, d4, d5, d6, Bool.false_and, Bool.false_eq_true, if_false,
            ids_append, List.count_append, ids_cons, ids_nil, List.count_cons, List.count_nil, beq_iff_eq,
            decide_eq_true_eq] at this ⊢
          omega
        · intro x
          have := hwr x
          simp only [List.countP_cons]
          omega
    · have ht : tryWrite c k p.size = false := by
        unfold tryWrite
        rw [if_pos (by simpa using hb)]
      have hb' : c.nonBlocking = false := by simpa using hb
      simp only [State.stepWr, hb', ht, Bool.false_eq_true, if_false, Option.some.injEq] at hs
      subst hs
      refine ⟨?_, ?_, ?_, h.order, h.seen, hact .push, htr .push (by decide), hwake .push, hsize .push⟩
      · simp only [List.countP_cons, c1, c2, c3, c4, c5, c6, if_true]; omega
      · intro x
        have := hpl x
        simp only [State.places, List.countP_cons, d1, d2, d3, d4, d5, d6, Bool.true_and]
        omega
      · intro x
        have := hwr x
        simp only [List.countP_cons]
        omega
  case push =>
    simp only [State.stepWr, Option.some.injEq] at hs
    subst hs
    simp only [c1, c2, c3, c4, c5, c6, if_true] at hcnt
    simp only [d1, d2, d3, d4, d5, d6, Bool.true_and] at hpl
    simp only at hnr
    refine ⟨?_, ?_, ?_, ?_, ?_, ?_, ?_, ?_, ?_⟩
    · simp only [List.countP_cons, c1, c2, c3, c4, c5, c6, Bool.false_eq_true, if_false, List.length_append, List.length_cons,
        List.length_nil]
      omega
    · intro x
      have := hpl x
      simp only [State.places, List.countP_cons, d1, d2, d3, d4, d5, d6, Bool.false_and, Bool.false_eq_true, if_false,
        ids_append, List.count_append, ids_cons, ids_nil, List.count_cons, List.count_nil, beq_iff_eq,
        decide_eq_true_eq] at this ⊢
      omega
    · intro x
      have := hwr x
      simp only [List.countP_cons]
      omega
    · have : State.line { s with queue := s.queue ++ [p], act := ⟨p, .link⟩ :: s.act.eraseIdx i } = s.line ++ [p] := by
        simp only [State.line, List.append_assoc]
      rw [this, List.pairwise_append]
      refine ⟨h.order, List.pairwise_singleton _ _, ?_⟩
      intro a ha b hb
      rw [List.mem_singleton] at hb
      subst hb
      intro hx
      exact hnr (h.seen a ha _ hx)
    · intro q hq
      have : State.line { s with queue := s.queue ++ [p], act := ⟨p, .link⟩ :: s.act.eraseIdx i } = s.line ++ [p] := by
        simp only [State.line, List.append_assoc]
      rw [this, List.mem_append, List.mem_singleton] at hq
      rcases hq with hq | rfl
      · exact h.seen q hq
      · exact hsa
    · intro v hv
      rcases List.mem_cons.mp hv with rfl | hv
      · exact hsa
      · exact h.seenAct v (mem_of_erase hv)
    · intro v hv hpc q hq
      rcases List.mem_cons.mp hv with rfl | hv'
      · cases hpc
      · simp only [List.mem_append, List.mem_singleton] at hq
        rcases hq with hq | hq | rfl
        · exact h.trying v (mem_of_erase hv') hpc q (List.mem_append_left _ hq)
        · exact h.trying v (mem_of_erase hv') hpc q (List.mem_append_right _ hq)
        · intro hx
          exact hnr (h.seenAct v (mem_of_erase hv') _ hx)
    · intro _
      exact Or.inr (Or.inr ⟨_, List.mem_cons_self, Or.inl rfl⟩)
    · intro v hv
      rcases List.mem_cons.mp hv with rfl | hv
      · exact hsz
      · exact h.size v (mem_of_erase hv)
  case link =>
    simp only [State.stepWr, Option.some.injEq] at hs
    subst hs
    simp only [c1, c2, c3, c4, c5, c6, Bool.false_eq_true, if_false] at hcnt
    simp only [d1, d2, d3, d4, d5, d6, Bool.false_and, Bool.false_eq_true, if_false] at hpl
    refine ⟨?_, ?_, ?_, h.order, h.seen, ?_, ?_, ?_, ?_⟩
    · simp only [List.countP_cons, c1, c2, c3, c4, c5, c6, Bool.false_eq_true, if_false]
      omega
    · intro x
      have := hpl x
      simp only [State.places, List.countP_cons, d1, d2, d3, d4, d5, d6, Bool.false_and, Bool.false_eq_true, if_false]
      omega
    · intro x
      have := hwr x
      simp only [List.countP_cons]
      omega
    · intro v hv
      rcases List.mem_cons.mp hv with rfl | hv
      · exact hsa
      · exact h.seenAct v (mem_of_erase hv)
    · intro v hv hpc
      rcases List.mem_cons.mp hv with rfl | hv
      · cases hpc
      · exact h.trying v (mem_of_erase hv) hpc
    · intro _
      exact Or.inr (Or.inr ⟨_, List.mem_cons_self, Or.inr rfl⟩)
    · intro v hv
      rcases List.mem_cons.mp hv with rfl | hv
      · exact hsz
      · exact h.size v (mem_of_erase hv)
  case signal =>
    simp only [State.stepWr] at hs
    split at hs
    · cases hs
    · simp only [Option.some.injEq] at hs
      subst hs
      simp only [c1, c2, c3, c4, c5, c6, Bool.false_eq_true, if_false] at hcnt
      simp only [d1, d2, d3, d4, d5, d6, Bool.false_and, Bool.false_eq_true, if_false] at hpl
      refine ⟨?_, ?_, ?_, h.order, ?_, ?_, ?_, ?_, ?_⟩
      · simp only; omega
      · intro x
        have := hpl x
        simp only [State.places]
        omega
      · intro x
        have := hwr x
        simp only [List.count_cons, beq_iff_eq, decide_eq_true_eq] at this ⊢
        omega
      · intro q hq x hx
        exact List.mem_cons_of_mem _ (h.seen q hq x hx)
      · intro v hv x hx
        exact List.mem_cons_of_mem _ (h.seenAct v (mem_of_erase hv) x hx)
      · intro v hv
        exact h.trying v (mem_of_erase hv)
      · intro _
        exact Or.inl rfl
      · intro v hv
        exact h.size v (mem_of_erase hv)
  case dec =>
    simp only [State.stepWr, Option.some.injEq] at hs
    subst hs
    simp only [c1, c2, c3, c4, c5, c6, if_true] at hcnt
    simp only [d1, d2, d3, d4, d5, d6, Bool.false_and, Bool.false_eq_true, if_false] at hpl
    refine ⟨?_, ?_, ?_, h.order, ?_, ?_, ?_, ?_, ?_⟩
    · simp only; omega
    · intro x
      have := hpl x
      simp only [State.places]
      omega
    · intro x
      have := hwr x
      simp only [List.count_cons, beq_iff_eq, decide_eq_true_eq] at this ⊢
      omega
    · intro q hq x hx
      exact List.mem_cons_of_mem _ (h.seen q hq x hx)
    · intro v hv x hx
      exact List.mem_cons_of_mem _ (h.seenAct v (mem_of_erase hv) x hx)
    · intro v hv
      exact h.trying v (mem_of_erase hv)
    · intro hq
      rcases h.wake hq with h1 | h1 | ⟨v, hv, h1⟩
      · exact Or.inl h1
      · exact Or.inr (Or.inl h1)
      · rcases mem_split hi hv with rfl | hv
        · rcases h1 with h1 | h1 <;> cases h1
        · exact Or.inr (Or.inr ⟨v, hv, h1⟩)
    · intro v hv
      exact h.size v (mem_of_erase hv)

theorem Inv.pop {s s' : State} {ok : Bool} (h : Inv s) (hd : s.draining = true) (hs : s.pop ok = some s') : Inv s' := by
  unfold State.pop at hs
  have hcnt := h.cnt
  have hpl := h.places
  have ho := h.order
  have hse := h.seen
  have htr := h.trying
  split at hs
  next hq =>
    simp only [Option.some.injEq] at hs
    subst hs
    exact ⟨h.cnt, h.places, h.writers, h.order, h.seen, h.seenAct, h.trying, fun hne => absurd hq hne, h.size⟩
  next p q hq =>
    split at hs
    next hl =>
      simp only [Option.some.injEq] at hs
      subst hs
      refine ⟨h.cnt, h.places, h.writers, h.order, h.seen, h.seenAct, h.trying, ?_, h.size⟩
      intro _
      simp only [State.linked, Bool.not_eq_false', List.any_eq_true, decide_eq_true_eq] at hl
      obtain ⟨w, hw, hpc, _⟩ := hl
      exact Or.inr (Or.inr ⟨w, hw, Or.inl hpc⟩)
    next hl =>
      split at hs
      · cases hs
      · split at hs
        · simp only [Option.some.injEq] at hs
          subst hs
          rw [hq] at hcnt
          simp only [State.places, hq, ids_cons, List.count_cons] at hpl
          simp only [State.line, hq] at ho hse
          simp only [hq] at htr
          refine ⟨?_, ?_, h.writers, ?_, ?_, h.seenAct, ?_, fun _ => Or.inr (Or.inl hd), h.size⟩
          · simp only [List.length_append, List.length_cons, List.length_nil] at hcnt ⊢
            omega
          · intro x
            have := hpl x
            simp only [State.places, ids_append, List.count_append, ids_cons, ids_nil, List.count_cons,
              List.count_nil]
            omega
          · simpa only [State.line, List.append_assoc, List.cons_append, List.nil_append] using ho
          · simpa only [State.line, List.append_assoc, List.cons_append, List.nil_append] using hse
          · simpa only [List.append_assoc, List.cons_append, List.nil_append] using htr
        · simp only [Option.some.injEq] at hs
          subst hs
          rw [hq] at hcnt
          simp only [State.places, hq, ids_cons, List.count_cons] at hpl
          simp only [State.line, hq] at ho hse
          simp only [hq] at htr
          have hsub : (s.unsent ++ q).Sublist (s.unsent ++ p :: q) :=
            List.Sublist.append_left (List.sublist_cons_self p q) _
          have hsub' : (s.wire ++ (s.unsent ++ q)).Sublist (s.wire ++ (s.unsent ++ p :: q)) :=
            List.Sublist.append_left hsub _
          refine ⟨?_, ?_, h.writers, ?_, ?_, h.seenAct, ?_, fun _ => Or.inr (Or.inl hd), h.size⟩
          · simp only [List.length_append, List.length_cons, List.length_nil] at hcnt ⊢
            omega
          · intro x
            have := hpl x
            simp only [State.places, ids_append, List.count_append, ids_cons, ids_nil, List.count_cons,
              List.count_nil]
            omega
          · exact ho.sublist hsub'
          · intro r hr
            exact hse r (hsub'.subset hr)
          · intro w hw hpc r hr
            exact htr w hw hpc r (hsub.subset hr)

theorem Inv.transmit {s s' : State} {ok : Bool} (h : Inv s) (hs : (match s.unsent with
      | [] => some s
      | p :: u =>
        if ok then some { s with unsent := u, done := s.done ++ [p], wire := s.wire ++ [p] }
        else some { s with unsent := u, done := s.done ++ [p], failed := s.failed ++ [p] }) = some s') : Inv s' := by
  have hcnt := h.cnt
  have hpl := h.places
  have ho := h.order
  have hse := h.seen
  have htr := h.trying
  split at hs
  · simp only [Option.some.injEq] at hs
    subst hs
    exact h
  · rename_i p u hq
    rw [hq] at hcnt
    simp only [State.places, hq, ids_cons, List.count_cons] at hpl
    simp only [State.line, hq] at ho hse
    simp only [hq] at htr
    split at hs
    · simp only [Option.some.injEq] at hs
      subst hs
      refine ⟨?_, ?_, h.writers, ?_, ?_, h.seenAct, ?_, h.wake, h.size⟩
      · simp only [List.length_append, List.length_cons, List.length_nil] at hcnt ⊢
        omega
      · intro x
        have := hpl x
        simp only [State.places, ids_append, List.count_append, ids_cons, ids_nil, List.count_cons,
          List.count_nil]
        omega
      · simpa only [State.line, List.append_assoc, List.cons_append, List.nil_append] using ho
      · simpa only [State.line, List.append_assoc, List.cons_append, List.nil_append] using hse
      · intro w hw hpc r hr
        exact htr w hw hpc r (List.mem_cons_of_mem _ hr)
    · simp only [Option.some.injEq] at hs
      subst hs
      have hsub' : (s.wire ++ (u ++ s.queue)).Sublist (s.wire ++ (p :: u ++ s.queue)) :=
        List.Sublist.append_left (List.sublist_cons_self p _) _
      refine ⟨?_, ?_, h.writers, ?_, ?_, h.seenAct, ?_, h.wake, h.size⟩
      · simp only [List.length_append, List.length_cons, List.length_nil] at hcnt ⊢
        omega
      · intro x
        have := hpl x
        simp only [State.places, ids_append, List.count_append, ids_cons, ids_nil, List.count_cons,
          List.count_nil]
        omega
      · exact ho.sublist hsub'
      · intro r hr
        exact hse r (hsub'.subset hr)
      · intro w hw hpc r hr
        exact htr w hw hpc r (List.mem_cons_of_mem _ hr)

theorem closeCb_inv {s s' : State} (h : Inv s) (hs : s.closeCb = some s') : Inv s' := by
  unfold State.closeCb at hs
  split at hs
  · simp only [Option.some.injEq] at hs; subst hs; exact h
  · split at hs
    · cases hs
    · simp only [Option.some.injEq] at hs
      subst hs
      exact h.ofSame rfl rfl rfl rfl rfl rfl rfl rfl rfl rfl rfl rfl rfl

theorem recv_eq {c : Cfg} {s s' : State} {r : Rx} {a b d : Bool} (h : s.recv c r a b d = some s') :
    s' = { s with delivered := s'.delivered } := by
  unfold State.recv at h
  split at h
  · cases h
  · split at h
    · cases h; rfl
    · cases h; rfl
    · split at h
      · cases h; rfl
      · split at h
        · cases h; rfl
        · split at h
          · cases h; rfl
          · split at h
            · cases h; rfl
            · split at h
              · cases h; rfl
              · cases h

theorem Inv.step {c : Cfg} {s s' : State} {e : Ev} (h : Inv s) (hl : legal s e) (hs : s.step c e = some s') : Inv s' := by
  unfold State.step at hs
  split at hs
  · simp only [Option.some.injEq] at hs; subst hs; exact h
  · cases e
    case open_ a b =>
      simp only [State.open_, Option.some.injEq] at hs
      subst hs
      split
      · exact h
      · exact h.ofSame rfl rfl rfl rfl rfl rfl rfl rfl rfl rfl rfl rfl rfl
    case startSend ok =>
      simp only [State.startSend, Option.some.injEq] at hs
      subst hs
      split_ifs
      · exact h
      · exact h
      · exact h.ofSame rfl rfl rfl rfl rfl rfl rfl rfl rfl rfl rfl rfl rfl
      · exact h
    case startRecv w a b =>
      simp only [State.startRecv, Option.some.injEq] at hs
      subst hs
      split_ifs <;>
        first
          | exact h
          | exact h.ofSame rfl rfl rfl rfl rfl rfl rfl rfl rfl rfl rfl rfl rfl
    case asyncClose =>
      simp only [State.asyncClose] at hs
      split at hs
      · cases hs
      · have h1 : Inv { s with handler := true, want := true } :=
          h.ofSame rfl rfl rfl rfl rfl rfl rfl rfl rfl rfl rfl rfl rfl
        split at hs
        · simp only [Option.some.injEq] at hs
          subst hs
          exact h.ofSame rfl rfl rfl rfl rfl rfl rfl rfl rfl rfl rfl rfl rfl
        · simp only [Option.some.injEq] at hs
          subst hs
          split
          · exact (startClosing_inv h1).ofSame rfl rfl rfl rfl rfl rfl rfl rfl rfl rfl rfl rfl rfl
          · exact h1.ofSame rfl rfl rfl rfl rfl rfl rfl rfl rfl rfl rfl rfl rfl
    case write size =>
      simp only at hs
      split at hs
      · cases hs
      · simp only [Option.some.injEq] at hs
        subst hs
        refine ⟨?_, ?_, ?_, h.order, h.seen, ?_, ?_, ?_, ?_⟩
        · have := h.cnt
          simp only [List.countP_cons, c1, Bool.false_eq_true, if_false]
          omega
        · intro x
          have := h.places x
          simp only [State.places, List.countP_cons, d1, Bool.true_and, decide_eq_true_eq] at this ⊢
          split_ifs at this ⊢ <;> omega
        · intro x
          have := h.writers x
          simp only [List.countP_cons, decide_eq_true_eq] at this ⊢
          split_ifs at this ⊢ <;> omega
        · intro v hv
          rcases List.mem_cons.mp hv with rfl | hv
          · exact fun x hx => hx
          · exact h.seenAct v hv
        · intro v hv hpc
          rcases List.mem_cons.mp hv with rfl | hv
          · cases hpc
          · exact h.trying v hv hpc
        · intro hq
          rcases h.wake hq with h1 | h1 | ⟨v, hv, h1⟩
          · exact Or.inl h1
          · exact Or.inr (Or.inl h1)
          · exact Or.inr (Or.inr ⟨v, List.mem_cons_of_mem _ hv, h1⟩)
        · intro v hv
          rcases List.mem_cons.mp hv with rfl | hv
          · exact hl.2.2
          · exact h.size v hv
    case step i k =>
      simp only at hs
      split at hs
      · simp only [Option.some.injEq] at hs; subst hs; exact h
      · rename_i w hw
        exact h.stepWr hw hs
    case wake =>
      simp only at hs
      split at hs
      · simp only [Option.some.injEq] at hs
        subst hs
        exact ⟨h.cnt, h.places, h.writers, h.order, h.seen, h.seenAct, h.trying, fun _ => Or.inr (Or.inl rfl), h.size⟩
      · simp only [Option.some.injEq] at hs; subst hs; exact h
    case pop ok =>
      simp only at hs
      split at hs
      next hd => exact h.pop hd hs
      · simp only [Option.some.injEq] at hs; subst hs; exact h
    case transmit ok => exact h.transmit hs
    case complete =>
      simp only at hs
      split at hs
      · simp only [Option.some.injEq] at hs; subst hs; exact h
      · rename_i p d hd
        simp only [Option.some.injEq] at hs
        subst hs
        have h1 : Inv { s with done := d, pending := s.pending - 1 } := by
          refine ⟨?_, h.places, h.writers, h.order, h.seen, h.seenAct, h.trying, h.wake, h.size⟩
          have := h.cnt
          rw [hd] at this
          simp only [List.length_cons] at this ⊢
          omega
        simp only [State.complete]
        split
        · exact startClosing_inv h1
        · exact h1
    case closedH =>
      simp only at hs
      split at hs
      · refine closeCb_inv ?_ hs
        exact h.ofSame rfl rfl rfl rfl rfl rfl rfl rfl rfl rfl rfl rfl rfl
      · simp only [Option.some.injEq] at hs; subst hs; exact h
    case closedS =>
      simp only at hs
      split at hs
      · refine closeCb_inv ?_ hs
        exact h.ofSame rfl rfl rfl rfl rfl rfl rfl rfl rfl rfl rfl rfl rfl
      · simp only [Option.some.injEq] at hs; subst hs; exact h
    case recv r a b d =>
      simp only at hs
      split at hs
      · rw [recv_eq hs]
        exact h.ofSame rfl rfl rfl rfl rfl rfl rfl rfl rfl rfl rfl rfl rfl
      · simp only [Option.some.injEq] at hs; subst hs; exact h

theorem inv_fresh : Inv fresh := by
  refine ⟨rfl, ?_, ?_, List.Pairwise.nil, ?_, ?_, ?_, ?_, ?_⟩
  · intro x; rfl
  · intro x; rfl
  · intro p hp; cases hp
  · intro p hp; cases hp
  · intro p hp; cases hp
  · intro hq; exact absurd rfl hq
  · intro p hp; cases hp

theorem Reach.inv {c : Cfg} {s : State} (h : Reach c s) : Inv s := by
  induction h with
  | fresh => exact inv_fresh
  | step s s' e _ hl hs ih => exact ih.step hl hs

end Verif.UdpPort
