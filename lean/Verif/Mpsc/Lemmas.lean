import Verif.Mpsc.Model

/-! Auxiliary: the chain of nodes from head to tail. -/

namespace Verif.Mpsc

/-- The element after `a` in a list. -/
def succ : List Nat → Nat → Option Nat
  | x :: y :: l, a => if x = a then some y else succ (y :: l) a
  | _, _ => none

theorem succ_mem {c : List Nat} {a b : Nat} (h : succ c a = some b) : a ∈ c ∧ b ∈ c := by
  induction c with
  | nil => simp [succ] at h
  | cons x l ih =>
    cases l with
    | nil => simp [succ] at h
    | cons y l =>
      simp only [succ] at h
      split at h
      · rename_i hx
        simp only [Option.some.injEq] at h
        subst h; subst hx; simp
      · have := ih h
        exact ⟨List.mem_cons_of_mem _ this.1, List.mem_cons_of_mem _ this.2⟩

theorem succ_not_mem {c : List Nat} {a : Nat} (h : a ∉ c) : succ c a = none := by
  cases hs : succ c a with
  | none => rfl
  | some b => exact absurd (succ_mem hs).1 h

theorem succ_tail {x a : Nat} (c : List Nat) (h : a ≠ x) : succ (x :: c) a = succ c a := by
  cases c with
  | nil => simp [succ]
  | cons y l => simp only [succ]; rw [if_neg (fun e => h e.symm)]

theorem succ_last {c : List Nat} (hn : c.Nodup) {a : Nat} (h : c.getLast? = some a) : succ c a = none := by
  induction c with
  | nil => simp at h
  | cons x l ih =>
    cases l with
    | nil => simp [succ]
    | cons y l =>
      rw [List.getLast?_cons_cons] at h
      have ha : a ∈ y :: l := List.mem_of_getLast? h
      rw [List.nodup_cons] at hn
      have hx : a ≠ x := by rintro rfl; exact hn.1 ha
      rw [succ_tail _ hx]
      exact ih hn.2 h

theorem succ_append {c : List Nat} (hn : c.Nodup) {a l : Nat} (n : Nat) (hl : c.getLast? = some l) (ha : a ∈ c) :
    succ (c ++ [n]) a = if a = l then some n else succ c a := by
  induction c with
  | nil => simp at hl
  | cons x c ih =>
    cases c with
    | nil =>
      simp at hl ha
      subst hl; subst ha
      simp [succ]
    | cons y c =>
      rw [List.getLast?_cons_cons] at hl
      rw [List.nodup_cons] at hn
      have hlm : l ∈ y :: c := List.mem_of_getLast? hl
      by_cases hax : a = x
      · subst hax
        have hal : a ≠ l := by rintro rfl; exact hn.1 hlm
        simp [succ, hal]
      · have ha' : a ∈ y :: c := by
          rcases List.mem_cons.1 ha with e | e
          · exact absurd e hax
          · exact e
        rw [List.cons_append, succ_tail _ hax, ih hn.2 hl ha', succ_tail _ hax]

theorem succ_new {c : List Nat} {n : Nat} (h : n ∉ c) : succ (c ++ [n]) n = none := by
  induction c with
  | nil => simp [succ]
  | cons x c ih =>
    rw [List.cons_append, succ_tail]
    · exact ih (fun e => h (List.mem_cons_of_mem _ e))
    · rintro rfl; exact h (by simp)

theorem succ_ne_self {c : List Nat} (hn : c.Nodup) {a b : Nat} (h : succ c a = some b) : a ≠ b := by
  induction c with
  | nil => simp [succ] at h
  | cons x l ih =>
    cases l with
    | nil => simp [succ] at h
    | cons y l =>
      rw [List.nodup_cons] at hn
      simp only [succ] at h
      split at h
      · rename_i hx
        simp only [Option.some.injEq] at h
        subst h; subst hx
        rintro rfl
        exact hn.1 (by simp)
      · exact ih hn.2 h

/-- A node is the successor of one node only. -/
theorem succ_inj {c : List Nat} (hn : c.Nodup) {a a' b : Nat} (h : succ c a = some b) (h' : succ c a' = some b) :
    a = a' := by
  induction c with
  | nil => simp [succ] at h
  | cons x l ih =>
    cases l with
    | nil => simp [succ] at h
    | cons y l =>
      rw [List.nodup_cons] at hn
      simp only [succ] at h h'
      split at h <;> split at h'
      · rename_i e1 e2; rw [← e1, ← e2]
      · simp only [Option.some.injEq] at h
        subst h
        have := succ_mem h'
        exfalso
        -- `y` heads `y :: l`, so nothing there precedes it
        have : ∀ (l : List Nat) (y a : Nat), (y :: l).Nodup → succ (y :: l) a ≠ some y := by
          intro l
          induction l with
          | nil => intro y a _; simp [succ]
          | cons z l ih2 =>
            intro y a hnd he
            simp only [succ] at he
            rw [List.nodup_cons] at hnd
            split at he
            · simp only [Option.some.injEq] at he
              subst he; exact hnd.1 (by simp)
            · exact hnd.1 (succ_mem he).2
        exact this l y a' hn.2 h'
      · simp only [Option.some.injEq] at h'
        subst h'
        exfalso
        have : ∀ (l : List Nat) (y a : Nat), (y :: l).Nodup → succ (y :: l) a ≠ some y := by
          intro l
          induction l with
          | nil => intro y a _; simp [succ]
          | cons z l ih2 =>
            intro y a hnd he
            simp only [succ] at he
            rw [List.nodup_cons] at hnd
            split at he
            · simp only [Option.some.injEq] at he
              subst he; exact hnd.1 (by simp)
            · exact hnd.1 (succ_mem he).2
        exact this l y a hn.2 h
      · exact ih hn.2 h h'

theorem upd_same {γ : Type} (f : Nat → γ) (t : Nat) (v : γ) : upd f t v t = v := by simp [upd]
theorem upd_other {γ : Type} (f : Nat → γ) {t k : Nat} (v : γ) (h : k ≠ t) : upd f t v k = f k := by simp [upd, h]

/-- The node a producer works on. -/
def Prod.node : Prod → Option Nat
  | .idle => none
  | .clear x | .xchg x | .link _ x => some x

/-- A link that is not yet written. -/
def Pend (s : State) (a : Nat) : Prop := (∃ t b, s.prod t = .link a b) ∨ s.cons = .slink a

/-- What the consumer knows. -/
def ConsOk (s : State) (c : List Nat) : Prop :=
  match s.cons with
  | .idle | .start => True
  | .tail1 => s.head = stub
  | .wait1 => s.head = stub ∧ 2 ≤ c.length
  | .second | .tail2 => s.head ≠ stub
  | .sclear => s.head ≠ stub ∧ stub ∉ c
  | .sxchg => s.head ≠ stub ∧ stub ∉ c ∧ s.next stub = none
  | .slink p => s.head ≠ stub ∧ 2 ≤ c.length ∧ p ∈ c ∧ succ c p = some stub ∧ s.next p = none
  | .wait2 => s.head ≠ stub ∧ 2 ≤ c.length
  | .release x => x ≠ stub ∧ x ∉ c ∧ s.owner x = true ∧ s.popped.getLast? = some x

structure Inv (s : State) (c : List Nat) : Prop where
  nodup : c.Nodup
  head : c.head? = some s.head
  tail : c.getLast? = some s.tail
  link : ∀ a ∈ c, s.next a = succ c a ∨ (s.next a = none ∧ Pend s a)
  cleared : ∀ t x, s.prod t = .clear x ∨ s.prod t = .xchg x → x ∉ c ∧ s.owner x = true ∧ x ≠ stub ∧ s.cons ≠ .release x
  xchg : ∀ t x, s.prod t = .xchg x → s.next x = none
  linking : ∀ t a b, s.prod t = .link a b → a ∈ c ∧ succ c a = some b ∧ s.next a = none ∧ b ≠ stub
  distinct : ∀ t t' x, (s.prod t).node = some x → (s.prod t').node = some x → t = t'
  own : ∀ x ∈ c, x ≠ stub → s.owner x = true
  cons : ConsOk s c
  fifo : s.pushed = s.popped ++ c.filter (· ≠ stub)

end Verif.Mpsc
