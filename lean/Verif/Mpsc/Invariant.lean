import Verif.Mpsc.Lemmas

/-! The invariant of the queue is preserved by every step. -/

namespace Verif.Mpsc

theorem inv_push {s : State} {c : List Nat} (h : Inv s c) {t x : Nat} (hp : s.prod t = .idle) (hx : x ≠ stub)
    (ho : s.owner x = false) :
    Inv { s with owner := upd s.owner x true, prod := upd s.prod t (.clear x) } c := by
  have hxc : x ∉ c := fun hm => by have := h.own x hm hx; rw [ho] at this; cases this
  have howner : ∀ y, s.owner y = true → upd s.owner x true y = true := by
    intro y hy; simp only [upd]; split
    · rfl
    · exact hy
  have hpend : ∀ a, Pend s a → Pend { s with owner := upd s.owner x true, prod := upd s.prod t (.clear x) } a := by
    rintro a (⟨t', b, hb⟩ | hc)
    · refine .inl ⟨t', b, ?_⟩
      have : t' ≠ t := by rintro rfl; rw [hp] at hb; cases hb
      simp only [upd_other _ _ this]; exact hb
    · exact .inr hc
  have hnode : ∀ t' y, (s.prod t').node = some y → y ≠ x := by
    rintro t' y hy rfl
    cases hq : s.prod t' with
    | idle => rw [hq] at hy; cases hy
    | clear z =>
      rw [hq] at hy; simp only [Prod.node, Option.some.injEq] at hy; subst hy
      have := (h.cleared t' z (.inl hq)).2.1; rw [ho] at this; cases this
    | xchg z =>
      rw [hq] at hy; simp only [Prod.node, Option.some.injEq] at hy; subst hy
      have := (h.cleared t' z (.inr hq)).2.1; rw [ho] at this; cases this
    | link a z =>
      rw [hq] at hy; simp only [Prod.node, Option.some.injEq] at hy; subst hy
      have := h.linking t' a z hq
      exact hxc (succ_mem this.2.1).2
  refine { nodup := h.nodup, head := h.head, tail := h.tail, link := ?_, cleared := ?_, xchg := ?_, linking := ?_,
           distinct := ?_, own := ?_, cons := ?_, fifo := h.fifo }
  · intro a ha
    exact (h.link a ha).imp id fun e => ⟨e.1, hpend a e.2⟩
  · intro t' y hy
    by_cases ht : t' = t
    · subst ht
      simp only [upd_same, Prod.clear.injEq, reduceCtorEq, or_false] at hy
      subst hy
      refine ⟨hxc, by simp [upd_same], hx, ?_⟩
      intro hc
      change s.cons = _ at hc
      have := h.cons
      simp only [ConsOk, hc] at this
      rw [ho] at this
      simp at this
    · simp only [upd_other _ _ ht] at hy
      have := h.cleared t' y hy
      exact ⟨this.1, howner _ this.2.1, this.2.2.1, this.2.2.2⟩
  · intro t' y hy
    by_cases ht : t' = t
    · subst ht; simp [upd_same] at hy
    · simp only [upd_other _ _ ht] at hy; exact h.xchg t' y hy
  · intro t' a b hy
    by_cases ht : t' = t
    · subst ht; simp [upd_same] at hy
    · simp only [upd_other _ _ ht] at hy; exact h.linking t' a b hy
  · intro t1 t2 y h1 h2
    by_cases e1 : t1 = t <;> by_cases e2 : t2 = t
    · rw [e1, e2]
    · subst e1
      simp only [upd_same, Prod.node, Option.some.injEq] at h1
      simp only [upd_other _ _ e2] at h2
      exact absurd h1.symm (hnode t2 y h2)
    · subst e2
      simp only [upd_same, Prod.node, Option.some.injEq] at h2
      simp only [upd_other _ _ e1] at h1
      exact absurd h2.symm (hnode t1 y h1)
    · simp only [upd_other _ _ e1] at h1
      simp only [upd_other _ _ e2] at h2
      exact h.distinct t1 t2 y h1 h2
  · intro y hy hs; exact howner _ (h.own y hy hs)
  · have := h.cons
    unfold ConsOk at this ⊢
    cases hc : s.cons <;> simp only [hc] at this ⊢ <;> try exact this
    exact ⟨this.1, this.2.1, howner _ this.2.2.1, this.2.2.2⟩

theorem distinct_upd {s : State} {c : List Nat} (h : Inv s c) {t : Nat} {p : Prod}
    (hp : p.node = none ∨ p.node = (s.prod t).node) :
    ∀ t1 t2 x, (upd s.prod t p t1).node = some x → (upd s.prod t p t2).node = some x → t1 = t2 := by
  intro t1 t2 x h1 h2
  have conv : ∀ k, (upd s.prod t p k).node = some x → (s.prod k).node = some x := by
    intro k hk
    by_cases e : k = t
    · subst e
      rw [upd_same] at hk
      rcases hp with e | e
      · rw [e] at hk; cases hk
      · rw [← e]; exact hk
    · rw [upd_other _ _ e] at hk; exact hk
  exact h.distinct t1 t2 x (conv t1 h1) (conv t2 h2)

theorem mem_of_tail {s : State} {c : List Nat} (h : Inv s c) : s.tail ∈ c := List.mem_of_getLast? h.tail

theorem next_tail {s : State} {c : List Nat} (h : Inv s c) : s.next s.tail = none := by
  rcases h.link s.tail (mem_of_tail h) with e | e
  · rw [e, succ_last h.nodup h.tail]
  · exact e.1

theorem inv_prod {s : State} {c : List Nat} (h : Inv s c) (t : Nat) : ∃ c', Inv (s.prodStep t) c' := by
  unfold State.prodStep
  cases hp : s.prod t with
  | idle => exact ⟨c, h⟩
  | clear x =>
    obtain ⟨hxc, hxo, hxs, hxr⟩ := h.cleared t x (.inl hp)
    have hpend : ∀ a, Pend s a → Pend { s with next := upd s.next x none, prod := upd s.prod t (.xchg x) } a := by
      rintro a (⟨t', b, hb⟩ | hc)
      · refine .inl ⟨t', b, ?_⟩
        have : t' ≠ t := by rintro rfl; rw [hp] at hb; cases hb
        simp only [upd_other _ _ this]; exact hb
      · exact .inr hc
    have hnone : ∀ y, s.next y = none → upd s.next x none y = none := by
      intro y hy; simp only [upd]; split
      · rfl
      · exact hy
    have hne : ∀ y ∈ c, y ≠ x := fun y hy e => hxc (e ▸ hy)
    refine ⟨c, { nodup := h.nodup, head := h.head, tail := h.tail, link := ?_, cleared := ?_, xchg := ?_, linking := ?_, distinct := distinct_upd h (.inr (by rw [hp]; rfl)), own := h.own, cons := ?_, fifo := h.fifo }⟩
    · intro a ha
      simp only [upd_other _ _ (hne a ha)]
      exact (h.link a ha).imp id fun e => ⟨e.1, hpend a e.2⟩
    · intro t' y hy
      by_cases ht : t' = t
      · subst ht
        simp only [upd_same, Prod.xchg.injEq, reduceCtorEq, false_or] at hy
        subst hy
        exact ⟨hxc, hxo, hxs, hxr⟩
      · simp only [upd_other _ _ ht] at hy
        exact h.cleared t' y hy
    · intro t' y hy
      by_cases ht : t' = t
      · subst ht
        simp only [upd_same, Prod.xchg.injEq] at hy
        subst hy
        exact upd_same _ _ _
      · simp only [upd_other _ _ ht] at hy; exact hnone _ (h.xchg t' y hy)
    · intro t' a b hy
      by_cases ht : t' = t
      · subst ht; simp [upd_same] at hy
      · simp only [upd_other _ _ ht] at hy
        have := h.linking t' a b hy
        exact ⟨this.1, this.2.1, hnone _ this.2.2.1, this.2.2.2⟩
    · have := h.cons
      unfold ConsOk at this ⊢
      cases hc : s.cons <;> simp only [hc] at this ⊢ <;> try exact this
      · exact ⟨this.1, this.2.1, hnone _ this.2.2⟩
      · exact ⟨this.1, this.2.1, this.2.2.1, this.2.2.2.1, hnone _ this.2.2.2.2⟩
  | xchg x =>
    obtain ⟨hxc, hxo, hxs, hxr⟩ := h.cleared t x (.inr hp)
    have hxn := h.xchg t x hp
    have htail := mem_of_tail h
    have hsame : ∀ a b, succ c a = some b → succ (c ++ [x]) a = some b := by
      intro a b hab
      rw [succ_append h.nodup x h.tail (succ_mem hab).1, if_neg]
      · exact hab
      · rintro rfl
        rw [succ_last h.nodup h.tail] at hab; cases hab
    refine ⟨c ++ [x], { nodup := ?_, head := ?_, tail := by simp, link := ?_, cleared := ?_, xchg := ?_, linking := ?_, distinct := distinct_upd h (.inr (by rw [hp]; rfl)), own := ?_, cons := ?_, fifo := ?_ }⟩
    · rw [List.nodup_append]
      refine ⟨h.nodup, by simp, ?_⟩
      intro a ha b hb
      rw [List.mem_singleton] at hb
      rintro rfl
      exact hxc (hb ▸ ha)
    · have := h.head
      cases c with
      | nil => simp at this
      | cons y l => simpa using this
    · intro a ha
      have hpend : Pend s a → Pend { s with tail := x, prod := upd s.prod t (.link s.tail x), pushed := s.pushed ++ [x] } a := by
        rintro (⟨t', b, hb⟩ | hc)
        · refine .inl ⟨t', b, ?_⟩
          have : t' ≠ t := by rintro rfl; rw [hp] at hb; cases hb
          simp only [upd_other _ _ this]; exact hb
        · exact .inr hc
      rw [List.mem_append, List.mem_singleton] at ha
      rcases ha with ha | rfl
      · rw [succ_append h.nodup x h.tail ha]
        by_cases hat : a = s.tail
        · subst hat
          exact .inr ⟨next_tail h, .inl ⟨t, x, by simp [upd_same]⟩⟩
        · rw [if_neg hat]
          exact (h.link a ha).imp id fun e => ⟨e.1, hpend e.2⟩
      · left
        rw [succ_new hxc]; exact hxn
    · intro t' y hy
      by_cases ht : t' = t
      · subst ht; simp [upd_same] at hy
      · simp only [upd_other _ _ ht] at hy
        have h1 := h.cleared t' y hy
        refine ⟨?_, h1.2⟩
        rw [List.mem_append, List.mem_singleton]
        rintro (e | rfl)
        · exact h1.1 e
        · exact ht (h.distinct t' t y (by rcases hy with e | e <;> (rw [e]; rfl)) (by rw [hp]; rfl))
    · intro t' y hy
      by_cases ht : t' = t
      · subst ht; simp [upd_same] at hy
      · simp only [upd_other _ _ ht] at hy; exact h.xchg t' y hy
    · intro t' a b hy
      by_cases ht : t' = t
      · subst ht
        simp only [upd_same, Prod.link.injEq] at hy
        obtain ⟨rfl, rfl⟩ := hy
        refine ⟨List.mem_append_left _ htail, ?_, next_tail h, hxs⟩
        rw [succ_append h.nodup x h.tail htail, if_pos rfl]
      · simp only [upd_other _ _ ht] at hy
        have h1 := h.linking t' a b hy
        exact ⟨List.mem_append_left _ h1.1, hsame a b h1.2.1, h1.2.2⟩
    · intro y hy hs
      rw [List.mem_append, List.mem_singleton] at hy
      rcases hy with hy | rfl
      · exact h.own y hy hs
      · exact hxo
    · have h1 := h.cons
      unfold ConsOk at h1 ⊢
      have hst : stub ∉ c → stub ∉ c ++ [x] := by
        intro hn; rw [List.mem_append, List.mem_singleton]
        rintro (e | e)
        · exact hn e
        · exact hxs e.symm
      cases hc : s.cons with
      | idle => trivial
      | start => trivial
      | tail1 => simpa only [hc] using h1
      | wait1 => simp only [hc] at h1; exact ⟨h1.1, by simp; omega⟩
      | second => simpa only [hc] using h1
      | tail2 => simpa only [hc] using h1
      | sclear => simp only [hc] at h1; exact ⟨h1.1, hst h1.2⟩
      | sxchg => simp only [hc] at h1; exact ⟨h1.1, hst h1.2.1, h1.2.2⟩
      | slink p =>
        simp only [hc] at h1
        exact ⟨h1.1, by simp; omega, List.mem_append_left _ h1.2.2.1, hsame _ _ h1.2.2.2.1, h1.2.2.2.2⟩
      | wait2 => simp only [hc] at h1; exact ⟨h1.1, by simp; omega⟩
      | release y =>
        simp only [hc] at h1
        refine ⟨h1.1, ?_, h1.2.2⟩
        rw [List.mem_append, List.mem_singleton]
        rintro (e | rfl)
        · exact h1.2.1 e
        · exact hxr hc
    · have h1 := h.fifo
      simp only [List.filter_append]
      rw [h1, List.append_assoc]
      simp [hxs]
  | link p x =>
    obtain ⟨hpc, hps, hpn, hxs⟩ := h.linking t p x hp
    refine ⟨c, { nodup := h.nodup, head := h.head, tail := h.tail, link := ?_, cleared := ?_, xchg := ?_, linking := ?_, distinct := distinct_upd h (.inl rfl), own := h.own, cons := ?_, fifo := h.fifo }⟩
    · intro a ha
      by_cases hap : a = p
      · subst hap; left; simp only [upd_same]; exact hps.symm
      · simp only [upd_other _ _ hap]
        refine (h.link a ha).imp id fun e => ⟨e.1, ?_⟩
        rcases e.2 with ⟨t', b, hb⟩ | hc
        · refine .inl ⟨t', b, ?_⟩
          have : t' ≠ t := by
            rintro rfl; rw [hp] at hb
            simp only [Prod.link.injEq] at hb
            exact hap hb.1.symm
          simp only [upd_other _ _ this]; exact hb
        · exact .inr hc
    · intro t' y hy
      by_cases ht : t' = t
      · subst ht; simp [upd_same] at hy
      · simp only [upd_other _ _ ht] at hy
        exact h.cleared t' y hy
    · intro t' y hy
      by_cases ht : t' = t
      · subst ht; simp [upd_same] at hy
      · simp only [upd_other _ _ ht] at hy
        have hyp : y ≠ p := fun e => (h.cleared t' y (.inr hy)).1 (e ▸ hpc)
        simp only [upd_other _ _ hyp]
        exact h.xchg t' y hy
    · intro t' a b hy
      by_cases ht : t' = t
      · subst ht; simp [upd_same] at hy
      · simp only [upd_other _ _ ht] at hy
        have h1 := h.linking t' a b hy
        have hap : a ≠ p := by
          rintro rfl
          have : some b = some x := by rw [← h1.2.1, hps]
          simp only [Option.some.injEq] at this
          subst this
          exact ht (h.distinct t' t b (by rw [hy]; rfl) (by rw [hp]; rfl))
        refine ⟨h1.1, h1.2.1, ?_, h1.2.2.2⟩
        simp only [upd_other _ _ hap]; exact h1.2.2.1
    · have h1 := h.cons
      unfold ConsOk at h1 ⊢
      cases hc : s.cons <;> simp only [hc] at h1 ⊢ <;> try exact h1
      · have : stub ≠ p := fun e => h1.2.1 (e ▸ hpc)
        exact ⟨h1.1, h1.2.1, by rw [upd_other _ _ this]; exact h1.2.2⟩
      · rename_i q
        have hqp : q ≠ p := by
          rintro rfl
          rw [h1.2.2.2.1] at hps
          simp only [Option.some.injEq] at hps
          exact hxs hps.symm
        exact ⟨h1.1, h1.2.1, h1.2.2.1, h1.2.2.2.1, by rw [upd_other _ _ hqp]; exact h1.2.2.2.2⟩

/-- Only the consumer's own state changes. -/
theorem inv_pc {s : State} {c : List Nat} (h : Inv s c) (k : Cons) (sp : Bool) (r : Ret)
    (hk : ∀ a, s.cons ≠ .slink a) (hr : ∀ x, k ≠ .release x)
    (hok : ConsOk { s with cons := k, spin := sp, ret := r } c) :
    Inv { s with cons := k, spin := sp, ret := r } c := by
  refine { nodup := h.nodup, head := h.head, tail := h.tail, link := ?_, cleared := ?_, xchg := h.xchg, linking := h.linking, distinct := h.distinct, own := h.own, cons := hok, fifo := h.fifo }
  · intro a ha
    refine (h.link a ha).imp id fun e => ⟨e.1, ?_⟩
    rcases e.2 with e2 | e2
    · exact .inl e2
    · exact absurd e2 (hk a)
  · intro t x hx
    have := h.cleared t x hx
    exact ⟨this.1, this.2.1, this.2.2.1, hr x⟩

/-- Shape of the chain when the head has a successor. -/
theorem chain_two {s : State} {c : List Nat} (h : Inv s c) {n : Nat} (hn : s.next s.head = some n) :
    ∃ l, c = s.head :: n :: l := by
  have h1 := h.head
  cases c with
  | nil => simp at h1
  | cons y l =>
    simp only [List.head?_cons, Option.some.injEq] at h1
    subst h1
    rcases h.link s.head (by simp) with e | e
    · cases l with
      | nil => rw [e] at hn; simp [succ] at hn
      | cons z l =>
        rw [e] at hn
        simp only [succ, if_true, Option.some.injEq] at hn
        subst hn
        exact ⟨l, rfl⟩
    · rw [e.1] at hn; cases hn

/-- The head is removed from the chain. -/
theorem inv_advance {s : State} {n : Nat} {l : List Nat} (h : Inv s (s.head :: n :: l)) (hn : s.next s.head = some n)
    (k : Cons) (hk : ∀ a, s.cons ≠ .slink a) (hrel : ∀ x, k = .release x → x = s.head) (pop : List Nat)
    (hpop : s.pushed = pop ++ (n :: l).filter (· ≠ stub))
    (hok : ConsOk { s with head := n, cons := k, popped := pop } (n :: l)) :
    Inv { s with head := n, cons := k, popped := pop } (n :: l) := by
  have hnd := h.nodup
  rw [List.nodup_cons] at hnd
  have hsub : ∀ a ∈ n :: l, a ∈ s.head :: n :: l := fun a ha => List.mem_cons_of_mem _ ha
  have hne : ∀ a ∈ n :: l, a ≠ s.head := fun a ha e => hnd.1 (e ▸ ha)
  refine { nodup := hnd.2, head := rfl, tail := ?_, link := ?_, cleared := ?_, xchg := h.xchg, linking := ?_, distinct := h.distinct, own := ?_, cons := hok, fifo := hpop }
  · have := h.tail
    rw [List.getLast?_cons_cons] at this
    exact this
  · intro a ha
    have := h.link a (hsub a ha)
    rw [succ_tail _ (hne a ha)] at this
    refine this.imp id fun e => ⟨e.1, ?_⟩
    rcases e.2 with e2 | e2
    · exact .inl e2
    · exact absurd e2 (hk a)
  · intro t x hx
    have h1 := h.cleared t x hx
    refine ⟨fun e => h1.1 (hsub x e), h1.2.1, h1.2.2.1, ?_⟩
    intro hc
    have := hrel x hc
    subst this
    exact h1.1 (by simp)
  · intro t a b hab
    have h1 := h.linking t a b hab
    have hah : a ≠ s.head := by
      rintro rfl
      have := h1.2.2.1
      rw [hn] at this; cases this
    have hac : a ∈ n :: l := by
      rcases List.mem_cons.1 h1.1 with e | e
      · exact absurd e hah
      · exact e
    refine ⟨hac, ?_, h1.2.2⟩
    have := h1.2.1
    rw [succ_tail _ hah] at this
    exact this
  · intro x hx hs; exact h.own x (hsub x hx) hs

/-- A node that is not the stub is popped. -/
theorem inv_pop {s : State} {c : List Nat} (h : Inv s c) {n : Nat} (hn : s.next s.head = some n)
    (hk : ∀ a, s.cons ≠ .slink a) (hs : s.head ≠ stub) : ∃ c', Inv (s.pop n) c' := by
  obtain ⟨l, rfl⟩ := chain_two h hn
  have hnd := h.nodup
  rw [List.nodup_cons] at hnd
  refine ⟨n :: l, inv_advance h hn (.release s.head) hk (fun x e => by simpa using e.symm) (s.popped ++ [s.head]) ?_ ?_⟩
  · have := h.fifo
    rw [this, List.filter_cons_of_pos (by simpa using hs), List.append_assoc]
    rfl
  · exact ⟨hs, hnd.1, h.own _ (by simp) hs, by simp⟩

/-- The stub is removed. -/
theorem inv_unstub {s : State} {c : List Nat} (h : Inv s c) {n : Nat} (hn : s.next s.head = some n)
    (hk : ∀ a, s.cons ≠ .slink a) (hs : s.head = stub) : ∃ c', Inv { s with head := n, cons := .second } c' := by
  obtain ⟨l, rfl⟩ := chain_two h hn
  have hnd := h.nodup
  rw [List.nodup_cons] at hnd
  refine ⟨n :: l, inv_advance h hn .second hk (fun x e => by cases e) s.popped ?_ ?_⟩
  · have := h.fifo
    rw [this, List.filter_cons_of_neg (by simpa using hs)]
  · show n ≠ stub
    rintro rfl
    exact hnd.1 (by rw [hs]; simp)

theorem two_of_ne {s : State} {c : List Nat} (h : Inv s c) (hne : s.tail ≠ s.head) : 2 ≤ c.length := by
  have h1 := h.head
  have h2 := h.tail
  match c, h1, h2 with
  | [], h1, _ => simp at h1
  | [a], h1, h2 => simp at h1 h2; exact absurd (h2.symm.trans h1) hne
  | _ :: _ :: _, _, _ => simp

theorem one_of_eq {s : State} {c : List Nat} (h : Inv s c) (he : s.tail = s.head) : c = [s.head] := by
  have h1 := h.head
  have h2 := h.tail
  have h3 := h.nodup
  match c, h1, h2, h3 with
  | [], h1, _, _ => simp at h1
  | [a], h1, _, _ => simp at h1; rw [h1]
  | a :: b :: l, h1, h2, h3 =>
    exfalso
    simp only [List.head?_cons, Option.some.injEq] at h1
    rw [List.getLast?_cons_cons, he, ← h1] at h2
    rw [List.nodup_cons] at h3
    exact h3.1 (List.mem_of_getLast? h2)

theorem inv_cons {s : State} {c : List Nat} (h : Inv s c) (g : Bool) : ∃ c', Inv (s.consStep g) c' := by
  have hok := h.cons
  unfold ConsOk at hok
  unfold State.consStep
  cases hc : s.cons with
  | idle => exact ⟨c, h⟩
  | start =>
    have hk : ∀ a, s.cons ≠ .slink a := by simp [hc]
    simp only
    cases hn : s.next s.head with
    | none =>
      simp only
      split
      · rename_i hs; exact ⟨c, inv_pc h _ s.spin s.ret hk (by simp) hs⟩
      · rename_i hs; exact ⟨c, inv_pc h _ s.spin s.ret hk (by simp) hs⟩
    | some n =>
      simp only
      split
      · rename_i hs; exact inv_unstub h hn hk hs
      · rename_i hs; exact inv_pop h hn hk hs
  | tail1 =>
    have hk : ∀ a, s.cons ≠ .slink a := by simp [hc]
    simp only [hc] at hok
    simp only
    split
    · exact ⟨c, inv_pc h _ s.spin _ hk (by simp) trivial⟩
    · rename_i hne; exact ⟨c, inv_pc h _ s.spin s.ret hk (by simp) ⟨hok, two_of_ne h hne⟩⟩
  | wait1 =>
    have hk : ∀ a, s.cons ≠ .slink a := by simp [hc]
    simp only [hc] at hok
    simp only
    cases hn : s.next s.head with
    | none =>
      simp only
      split
      · exact ⟨c, inv_pc h _ s.spin _ hk (by simp) trivial⟩
      · exact ⟨c, h⟩
    | some n => exact inv_unstub h hn hk hok.1
  | second =>
    have hk : ∀ a, s.cons ≠ .slink a := by simp [hc]
    simp only [hc] at hok
    simp only
    cases hn : s.next s.head with
    | none => exact ⟨c, inv_pc h _ s.spin s.ret hk (by simp) hok⟩
    | some n => exact inv_pop h hn hk hok
  | tail2 =>
    have hk : ∀ a, s.cons ≠ .slink a := by simp [hc]
    simp only [hc] at hok
    simp only
    split
    · rename_i he
      refine ⟨c, inv_pc h _ s.spin s.ret hk (by simp) ⟨hok, ?_⟩⟩
      rw [one_of_eq h he]
      simp only [List.mem_singleton]
      exact fun e => hok e.symm
    · rename_i hne; exact ⟨c, inv_pc h _ s.spin s.ret hk (by simp) ⟨hok, two_of_ne h hne⟩⟩
  | sclear =>
    simp only [hc] at hok
    have hne : ∀ a ∈ c, a ≠ stub := fun a ha e => hok.2 (e ▸ ha)
    have hnone : ∀ y, s.next y = none → upd s.next stub none y = none := by
      intro y hy; simp only [upd]; split
      · rfl
      · exact hy
    refine ⟨c, { nodup := h.nodup, head := h.head, tail := h.tail, link := ?_, cleared := ?_, xchg := ?_, linking := ?_, distinct := h.distinct, own := h.own, cons := ?_, fifo := h.fifo }⟩
    · intro a ha
      simp only [upd_other _ _ (hne a ha)]
      refine (h.link a ha).imp id fun e => ⟨e.1, ?_⟩
      rcases e.2 with e2 | e2
      · exact .inl e2
      · rw [hc] at e2; cases e2
    · intro t x hx
      have := h.cleared t x hx
      exact ⟨this.1, this.2.1, this.2.2.1, by simp⟩
    · intro t x hx; exact hnone _ (h.xchg t x hx)
    · intro t a b hab
      have := h.linking t a b hab
      exact ⟨this.1, this.2.1, hnone _ this.2.2.1, this.2.2.2⟩
    · exact ⟨hok.1, hok.2, by show upd s.next stub none stub = none; exact upd_same _ _ _⟩
  | sxchg =>
    simp only [hc] at hok
    have htail := mem_of_tail h
    have hsame : ∀ a b, succ c a = some b → succ (c ++ [stub]) a = some b := by
      intro a b hab
      rw [succ_append h.nodup stub h.tail (succ_mem hab).1, if_neg]
      · exact hab
      · rintro rfl
        rw [succ_last h.nodup h.tail] at hab; cases hab
    refine ⟨c ++ [stub], { nodup := ?_, head := ?_, tail := by simp, link := ?_, cleared := ?_, xchg := h.xchg, linking := ?_, distinct := h.distinct, own := ?_, cons := ?_, fifo := ?_ }⟩
    · rw [List.nodup_append]
      refine ⟨h.nodup, by simp, ?_⟩
      intro a ha b hb
      rw [List.mem_singleton] at hb
      rintro rfl
      exact hok.2.1 (hb ▸ ha)
    · have := h.head
      cases c with
      | nil => simp at this
      | cons y l => simpa using this
    · intro a ha
      rw [List.mem_append, List.mem_singleton] at ha
      rcases ha with ha | rfl
      · rw [succ_append h.nodup stub h.tail ha]
        by_cases hat : a = s.tail
        · subst hat
          exact .inr ⟨next_tail h, .inr rfl⟩
        · rw [if_neg hat]
          refine (h.link a ha).imp id fun e => ⟨e.1, ?_⟩
          rcases e.2 with e2 | e2
          · exact .inl e2
          · rw [hc] at e2; cases e2
      · left
        rw [succ_new hok.2.1]; exact hok.2.2
    · intro t x hx
      have h1 := h.cleared t x hx
      refine ⟨?_, h1.2.1, h1.2.2.1, by simp⟩
      rw [List.mem_append, List.mem_singleton]
      rintro (e | e)
      · exact h1.1 e
      · exact h1.2.2.1 e
    · intro t a b hab
      have h1 := h.linking t a b hab
      exact ⟨List.mem_append_left _ h1.1, hsame a b h1.2.1, h1.2.2⟩
    · intro y hy hs
      rw [List.mem_append, List.mem_singleton] at hy
      rcases hy with hy | hy
      · exact h.own y hy hs
      · exact absurd hy hs
    · refine ⟨hok.1, ?_, List.mem_append_left _ htail, ?_, next_tail h⟩
      · have : c.length ≠ 0 := by
          intro e; rw [List.length_eq_zero_iff] at e; rw [e] at htail; simp at htail
        simp; omega
      · rw [succ_append h.nodup stub h.tail htail, if_pos rfl]
    · have h1 := h.fifo
      simp only [List.filter_append]
      rw [h1]
      simp
  | slink p =>
    simp only [hc] at hok
    obtain ⟨hh, hlen, hpc, hps, hpn⟩ := hok
    refine ⟨c, { nodup := h.nodup, head := h.head, tail := h.tail, link := ?_, cleared := ?_, xchg := ?_, linking := ?_, distinct := h.distinct, own := h.own, cons := ⟨hh, hlen⟩, fifo := h.fifo }⟩
    · intro a ha
      by_cases hap : a = p
      · subst hap; left; simp only [upd_same]; exact hps.symm
      · simp only [upd_other _ _ hap]
        refine (h.link a ha).imp id fun e => ⟨e.1, ?_⟩
        rcases e.2 with e2 | e2
        · exact .inl e2
        · rw [hc] at e2
          simp only [Cons.slink.injEq] at e2
          exact absurd e2.symm hap
    · intro t x hx
      have := h.cleared t x hx
      exact ⟨this.1, this.2.1, this.2.2.1, by simp⟩
    · intro t y hy
      have hyp : y ≠ p := fun e => (h.cleared t y (.inr hy)).1 (e ▸ hpc)
      simp only [upd_other _ _ hyp]
      exact h.xchg t y hy
    · intro t a b hab
      have h1 := h.linking t a b hab
      have hap : a ≠ p := by
        rintro rfl
        rw [hps] at h1
        simp only [Option.some.injEq] at h1
        exact h1.2.2.2 h1.2.1.symm
      refine ⟨h1.1, h1.2.1, ?_, h1.2.2.2⟩
      simp only [upd_other _ _ hap]; exact h1.2.2.1
  | wait2 =>
    have hk : ∀ a, s.cons ≠ .slink a := by simp [hc]
    simp only [hc] at hok
    simp only
    cases hn : s.next s.head with
    | none =>
      simp only
      split
      · exact ⟨c, inv_pc h _ s.spin _ hk (by simp) trivial⟩
      · exact ⟨c, h⟩
    | some n => exact inv_pop h hn hk hok.1
  | release x =>
    simp only [hc] at hok
    obtain ⟨hxs, hxc, hxo, _⟩ := hok
    simp only [hxo, if_true]
    refine ⟨c, { nodup := h.nodup, head := h.head, tail := h.tail, link := ?_, cleared := ?_, xchg := h.xchg, linking := h.linking, distinct := h.distinct, own := ?_, cons := trivial, fifo := h.fifo }⟩
    · intro a ha
      refine (h.link a ha).imp id fun e => ⟨e.1, ?_⟩
      rcases e.2 with e2 | e2
      · exact .inl e2
      · rw [hc] at e2; cases e2
    · intro t y hy
      have h1 := h.cleared t y hy
      have hyx : y ≠ x := by rintro rfl; exact h1.2.2.2 hc
      refine ⟨h1.1, ?_, h1.2.2.1, by simp⟩
      simp only [upd_other _ _ hyx]; exact h1.2.1
    · intro y hy hs
      have hyx : y ≠ x := fun e => hxc (e ▸ hy)
      simp only [upd_other _ _ hyx]; exact h.own y hy hs

theorem reach_inv {s : State} (h : Reach s) : ∃ c, Inv s c := by
  induction h with
  | init =>
    refine ⟨[stub], ⟨by simp, rfl, rfl, ?_, ?_, ?_, ?_, ?_, ?_, trivial, rfl⟩⟩
    · intro a _; left; simp [State.init, succ]
    · intro t x hx; simp [State.init] at hx
    · intro t x hx; simp [State.init] at hx
    · intro t a b hx; simp [State.init] at hx
    · intro t t' x hx; simp [State.init, Prod.node] at hx
    · intro x hx hs; simp at hx; exact absurd hx hs
  | step _ st ih =>
    obtain ⟨c, hc⟩ := ih
    cases st with
    | push t x h1 h2 h3 => exact ⟨c, inv_push hc h1 h2 h3⟩
    | prod t => exact inv_prod hc t
    | pop sp hi => exact ⟨c, inv_pc hc _ sp _ (by simp [hi]) (by simp) trivial⟩
    | cons g => exact inv_cons hc g

end Verif.Mpsc
