import Verif.Hashmap.Ops

/-! Property C15. -/

namespace Verif.Hashmap

variable {κ : Type} [DecidableEq κ]

/-- Calls a user of the map makes: `grow`, `insert`, `remove`. The flags of the first two say
whether the arena can give memory; the flag of the last is `skip_rehash`. -/
inductive Op (κ : Type) where
  | grow (memory : Bool)
  | insert (n : Node κ) (memory : Bool)
  | remove (id : Nat) (skip : Bool)

/-- What the documentation of `Hashmap` asks of the caller, `A` being the elements in the map: an
inserted element is hashed by the map's function and neither it nor its key is present, a removed
element is present. -/
def Valid (hf : κ → Nat) (A : List (Node κ)) : Op κ → Prop
  | .grow _ => True
  | .insert n _ => n.hash = hf n.key ∧ ∀ m ∈ A, m.id ≠ n.id ∧ m.key ≠ n.key
  | .remove id _ => ∃ m ∈ A, m.id = id

/-- The call on the modelled table; `none` is an abort. -/
def State.call (s : State κ) : Op κ → Option (State κ × Bool)
  | .grow m => s.grow m
  | .insert n m => s.insert n m
  | .remove id sk => (s.remove id sk).map (·, true)

/-- What the call means for a finite map, given what it returned. -/
def effect (A : List (Node κ)) : Op κ → Bool → List (Node κ)
  | .grow _, _ => A
  | .insert n _, true => A ++ [n]
  | .insert _ _, false => A
  | .remove id _, _ => A.filter fun m => decide (m.id ≠ id)

/-- States after any history of valid calls, with the finite map the history describes. -/
inductive Reach (hf : κ → Nat) : State κ → List (Node κ) → Prop where
  | init (prealloc : Nat) : Reach hf (State.init prealloc) []
  | call {s s' : State κ} {A : List (Node κ)} (op : Op κ) {r : Bool} : Reach hf s A → Valid hf A op →
      s.call op = some (s', r) → Reach hf s' (effect A op r)

/-- The call may have to allocate. -/
def Op.mayGrow : Op κ → Bool
  | .remove _ _ => false
  | _ => true

/-- A migration that has nothing left to move was also finished. -/
def Settled (s : State κ) : Prop := s.remain = 0 → s.pos = 0

theorem call_ok {hf : κ → Nat} {s : State κ} (h : Inv hf s) {op : Op κ} (hv : Valid hf s.all op)
    (hok : ¬ (op.mayGrow = true ∧ s.size = capacity s.curr.length ∧ s.pos ≠ 0)) :
    ∃ s' r, s.call op = some (s', r) ∧ Inv hf s' ∧ s'.all = effect s.all op r := by
  cases op with
  | grow m =>
    obtain ⟨s', r, h1, h2, h3, -⟩ := grow_spec h (fun e => by
      by_contra hp; exact hok ⟨rfl, e, hp⟩) m
    exact ⟨s', r, h1, h2, h3⟩
  | remove id sk =>
    obtain ⟨s', h1, h2, h3, -⟩ := remove_spec h hv sk
    exact ⟨s', true, by simp [State.call, h1], h2, h3⟩
  | insert n m =>
    obtain ⟨hh, hfr⟩ := hv
    simp only [State.call, insert_eq]
    by_cases hc : s.size ≥ capacity s.curr.length
    · rw [if_pos hc]
      obtain ⟨s', r, h1, h2, h3, h4, h5, -⟩ := grow_spec h (fun e => by
        by_contra hp; exact hok ⟨rfl, e, hp⟩) m
      rw [h1]
      cases r with
      | false => exact ⟨s', false, rfl, h2, h3⟩
      | true =>
        obtain ⟨s'', g1, g2, g3, -⟩ := insertTail_spec h2 (h4 rfl) hh (by rw [h3]; exact hfr)
        exact ⟨s'', true, g1, g2, by rw [g3, h3]; rfl⟩
    · rw [if_neg hc]
      obtain ⟨s'', g1, g2, g3, -⟩ := insertTail_spec h (by omega) hh hfr
      exact ⟨s'', true, g1, g2, g3⟩

theorem call_panic {hf : κ → Nat} {s : State κ} (h : Inv hf s) {op : Op κ}
    (hbad : op.mayGrow = true ∧ s.size = capacity s.curr.length ∧ s.pos ≠ 0) : s.call op = none := by
  obtain ⟨hm, hf', hp⟩ := hbad
  cases op with
  | grow m => exact grow_panic h hf' hp m
  | remove id sk => simp [Op.mayGrow] at hm
  | insert n m =>
    simp only [State.call, insert_eq]
    rw [if_pos (by omega), grow_panic h hf' hp m]

theorem inv_reach {hf : κ → Nat} {s : State κ} {A : List (Node κ)} (h : Reach hf s A) : Inv hf s ∧ s.all = A := by
  induction h with
  | init p => exact ⟨core_init hf p, rfl⟩
  | @call s s' A op r hr hv hc ih =>
    obtain ⟨hi, rfl⟩ := ih
    by_cases hb : op.mayGrow = true ∧ s.size = capacity s.curr.length ∧ s.pos ≠ 0
    · rw [call_panic hi hb] at hc; simp at hc
    · obtain ⟨s'', r', h1, h2, h3⟩ := call_ok hi hv hb
      rw [h1] at hc
      simp only [Option.some.injEq, Prod.mk.injEq] at hc
      obtain ⟨rfl, rfl⟩ := hc
      exact ⟨h2, h3⟩

/-- After any history of valid calls that did not abort, looking a key up gives the element that
the history left under the key and nothing otherwise; iteration visits exactly those elements, in
order of insertion; the size is their number; `contains` is membership. No hash function and no
state of the migration matters. -/
theorem C15_map {hf : κ → Nat} {s : State κ} {A : List (Node κ)} (h : Reach hf s A) :
    (∀ k, s.find (hf k) k = A.find? (fun n => decide (n.key = k))) ∧ s.all = A ∧ s.size = A.length ∧
      (A.map (·.key)).Nodup ∧ ∀ id, s.contains id = true ↔ ∃ n ∈ A, n.id = id := by
  obtain ⟨hi, rfl⟩ := inv_reach h
  exact ⟨find_spec hi.toCore, rfl, hi.size, hi.keys, contains_iff hi.toCore⟩

/-- Which valid calls abort: those that must allocate a bigger table (the table is full) while the
position of the previous migration was left non-zero. -/
theorem C15_abort_iff {hf : κ → Nat} {s : State κ} {A : List (Node κ)} (h : Reach hf s A) {op : Op κ} (hv : Valid hf A op) :
    s.call op = none ↔ op.mayGrow = true ∧ s.size = capacity s.curr.length ∧ s.pos ≠ 0 := by
  obtain ⟨hi, rfl⟩ := inv_reach h
  constructor
  · intro hc
    by_contra hb
    obtain ⟨s', r, h1, -⟩ := call_ok hi hv hb
    rw [h1] at hc; simp at hc
  · exact call_panic hi

/-- The call takes out the only element still to be migrated, when an earlier bucket was already
migrated, or is a removal that skips migration. -/
def Abandons (s : State κ) : Op κ → Prop
  | .remove id sk => sk = true ∨ s.remain = 1 ∧ s.pos ≠ 0 ∧ ∃ n ∈ s.prev.flatten, n.id = id
  | _ => False

/-- Histories without such calls. -/
inductive ReachSettled (hf : κ → Nat) : State κ → List (Node κ) → Prop where
  | init (prealloc : Nat) : ReachSettled hf (State.init prealloc) []
  | call {s s' : State κ} {A : List (Node κ)} (op : Op κ) {r : Bool} : ReachSettled hf s A → Valid hf A op →
      ¬ Abandons s op → s.call op = some (s', r) → ReachSettled hf s' (effect A op r)

theorem reach_of_settled {hf : κ → Nat} {s : State κ} {A : List (Node κ)} (h : ReachSettled hf s A) : Reach hf s A := by
  induction h with
  | init p => exact .init p
  | call op _ hv _ hc ih => exact .call op ih hv hc

theorem settled_reach {hf : κ → Nat} {s : State κ} {A : List (Node κ)} (h : ReachSettled hf s A) : Settled s := by
  induction h with
  | init p => intro _; rfl
  | @call s s' A op r hr hv hna hc ih =>
    obtain ⟨hi, rfl⟩ := inv_reach (reach_of_settled hr)
    have hpos : s.size = capacity s.curr.length → s.pos = 0 := fun e => ih (hi.full e)
    intro hz
    cases op with
    | grow m =>
      obtain ⟨s'', r', h1, -, -, -, h5, h6⟩ := grow_spec hi hpos m
      simp only [State.call, h1, Option.some.injEq, Prod.mk.injEq] at hc
      obtain ⟨rfl, rfl⟩ := hc
      by_cases hf' : s.size = capacity s.curr.length
      · exact h6 (hpos hf')
      · have : s.grow m = some (s, true) := by
          unfold State.grow
          have := hi.cap
          rw [if_neg (by omega), if_neg hf']
        rw [this] at h1
        simp only [Option.some.injEq, Prod.mk.injEq] at h1
        rw [← h1.1] at hz ⊢
        exact ih hz
    | remove id sk =>
      obtain ⟨s'', h1, -, -, h4⟩ := remove_spec hi hv sk
      simp only [State.call, h1, Option.map_some, Option.some.injEq, Prod.mk.injEq] at hc
      obtain ⟨rfl, rfl⟩ := hc
      have hna' : ¬ (sk = true ∨ s.remain = 1 ∧ s.pos ≠ 0 ∧ ∃ n ∈ s.prev.flatten, n.id = id) := hna
      exact h4 ih (fun e => hna' (Or.inr e)) (by
        cases sk with
        | false => rfl
        | true => exact absurd (Or.inl rfl) hna') hz
    | insert n m =>
      obtain ⟨hh, hfr⟩ := hv
      simp only [State.call, insert_eq] at hc
      by_cases hcap : s.size ≥ capacity s.curr.length
      · rw [if_pos hcap] at hc
        have hcap' := hi.cap
        have hfull : s.size = capacity s.curr.length := by omega
        obtain ⟨s1, r1, h1, h2, h3, h4, h5, h6⟩ := grow_spec hi hpos m
        rw [h1] at hc
        cases r1 with
        | false =>
          simp only [Option.some.injEq, Prod.mk.injEq] at hc
          obtain ⟨rfl, rfl⟩ := hc
          exact h6 (hpos hfull)
        | true =>
          obtain ⟨s2, g1, -, -, g4⟩ := insertTail_spec h2 (h4 rfl) hh (by rw [h3]; exact hfr)
          simp only [g1, Option.some.injEq, Prod.mk.injEq] at hc
          obtain ⟨rfl, rfl⟩ := hc
          exact g4 (fun _ => h6 (hpos hfull)) hz
      · rw [if_neg hcap] at hc
        obtain ⟨s2, g1, -, -, g4⟩ := insertTail_spec hi (by omega) hh hfr
        simp only [g1, Option.some.injEq, Prod.mk.injEq] at hc
        obtain ⟨rfl, rfl⟩ := hc
        exact g4 ih hz

/-- No valid call aborts in a history that never removes the very last element waiting for migration
from under it. In full the property would hold for every history (`Reach` in place of
`ReachSettled`); `C15_abort_fails` shows that it does not. -/
theorem C15_no_abort_partial {hf : κ → Nat} {s : State κ} {A : List (Node κ)} (h : ReachSettled hf s A) {op : Op κ}
    (hv : Valid hf A op) : ∃ s' r, s.call op = some (s', r) := by
  have hr := reach_of_settled h
  obtain ⟨hi, rfl⟩ := inv_reach hr
  cases hc : s.call op with
  | some x => exact ⟨x.1, x.2, rfl⟩
  | none =>
    obtain ⟨-, hf', hp⟩ := (C15_abort_iff hr hv).1 hc
    exact absurd (settled_reach h (hi.full hf')) hp

/-- Decidable form of `Valid` for the witness below. -/
def validB (hf : Nat → Nat) (A : List (Node Nat)) : Op Nat → Bool
  | .grow _ => true
  | .insert n _ => n.hash == hf n.key && A.all fun m => m.id != n.id && m.key != n.key
  | .remove id _ => A.any fun m => m.id == id

theorem valid_of_validB {hf : Nat → Nat} {A : List (Node Nat)} {op : Op Nat} (h : validB hf A op = true) : Valid hf A op := by
  cases op with
  | grow m => trivial
  | insert n m =>
    simp only [validB, Bool.and_eq_true, beq_iff_eq, List.all_eq_true, bne_iff_ne, ne_eq] at h
    exact ⟨h.1, fun x hx => h.2 x hx⟩
  | remove id sk =>
    simp only [validB, List.any_eq_true, beq_iff_eq] at h
    exact h

/-- Runs a history, checking every call. -/
def run (hf : Nat → Nat) : List (Op Nat) → State Nat × List (Node Nat) → Option (State Nat × List (Node Nat))
  | [], x => some x
  | op :: ops, (s, A) =>
    if validB hf A op then
      match s.call op with
      | none => none
      | some (s', r) => run hf ops (s', effect A op r)
    else none

theorem reach_run {hf : Nat → Nat} {ops : List (Op Nat)} : ∀ {s A x}, Reach hf s A → run hf ops (s, A) = some x →
    Reach hf x.1 x.2 := by
  induction ops with
  | nil => intro s A x h e; simp only [run, Option.some.injEq] at e; rw [← e]; exact h
  | cons op ops ih =>
    intro s A x h e
    simp only [run] at e
    split at e
    · rename_i hv
      split at e
      · simp at e
      · rename_i s' r hc
        exact ih (.call op h (valid_of_validB hv) hc) e
    · simp at e

/-- Elements 0, 1, ... hashed by identity. -/
def elt (i : Nat) : Node Nat := ⟨i, i, i⟩

/-- 33 insertions into a map with 5 embedded buckets, 20 removals that leave element 29 alone in the
old buckets, its removal, insertions up to the new capacity. -/
def witness : List (Op Nat) :=
  ((List.range 33).map fun i => .insert (elt i) true) ++ ((List.range 20).map fun i => .remove (elt i).id false) ++
    [.remove 29 false] ++ ((List.range 137).map fun i => .insert (elt (100 + i)) true)

/-- The property is false for the code: there is a history of valid calls after which the next
insertion aborts (and so does every call that has to grow the table, for good). -/
theorem C15_abort_fails : ∃ (s : State Nat) (A : List (Node Nat)) (op : Op Nat), Reach id s A ∧ Valid id A op ∧
    s.call op = none := by
  have h : (match run id witness (State.init 5, []) with
      | none => false
      | some (s, A) => validB id A (.insert (elt 1000) true) && (s.call (.insert (elt 1000) true)).isNone) = true := by
    decide +kernel
  split at h
  · simp at h
  · rename_i s A e
    rw [Bool.and_eq_true, Option.isNone_iff_eq_none] at h
    exact ⟨s, A, _, reach_run (.init 5) e, valid_of_validB h.1, h.2⟩

/-- Decidable form of `Abandons`. -/
def abandonsB (s : State Nat) : Op Nat → Bool
  | .remove id sk => sk || s.remain == 1 && s.pos != 0 && s.prev.flatten.any fun n => n.id == id
  | _ => false

theorem not_abandons {s : State Nat} {op : Op Nat} (h : abandonsB s op = false) : ¬ Abandons s op := by
  cases op with
  | grow m => exact id
  | insert n m => exact id
  | remove id sk =>
    rintro (e | ⟨h1, h2, n, hn, e⟩)
    · simp [abandonsB, e] at h
    · have : (s.prev.flatten.any fun n => n.id == id) = true := List.any_eq_true.2 ⟨n, hn, by simp [e]⟩
      simp [abandonsB, h1, h2, -List.any_flatten, this] at h

/-- Runs a history, checking every call, also for `Abandons`. -/
def runSettled (hf : Nat → Nat) : List (Op Nat) → State Nat × List (Node Nat) → Option (State Nat × List (Node Nat))
  | [], x => some x
  | op :: ops, (s, A) =>
    if validB hf A op && !abandonsB s op then
      match s.call op with
      | none => none
      | some (s', r) => runSettled hf ops (s', effect A op r)
    else none

theorem settled_run {hf : Nat → Nat} {ops : List (Op Nat)} : ∀ {s A x}, ReachSettled hf s A →
    runSettled hf ops (s, A) = some x → ReachSettled hf x.1 x.2 := by
  induction ops with
  | nil => intro s A x h e; simp only [runSettled, Option.some.injEq] at e; rw [← e]; exact h
  | cons op ops ih =>
    intro s A x h e
    simp only [runSettled] at e
    split at e
    · rename_i hv
      rw [Bool.and_eq_true, Bool.not_eq_true'] at hv
      split at e
      · simp at e
      · rename_i s' r hc
        exact ih (.call op h (valid_of_validB hv.1) (not_abandons hv.2) hc) e
    · simp at e

/-- The hypotheses are met in the middle of a migration: all hashes equal modulo 5, growth from 5 to
23 buckets, two elements removed, 29 elements still in the old buckets. -/
example : ∃ (s : State Nat) (A : List (Node Nat)), ReachSettled (· * 5) s A ∧ Reach (· * 5) s A ∧ A.length = 31 ∧ s.remain = 29 ∧
    Valid (· * 5) A (.insert ⟨50, 250, 50⟩ true) := by
  have h : (match runSettled (· * 5) (((List.range 33).map fun i => Op.insert ⟨i, i * 5, i⟩ true) ++
        [.remove 0 false, .remove 32 false]) (State.init 5, []) with
      | none => false
      | some (s, A) => A.length == 31 && s.remain == 29 && validB (· * 5) A (.insert ⟨50, 250, 50⟩ true)) = true := by
    decide +kernel
  split at h
  · simp at h
  · rename_i s A e
    simp only [Bool.and_eq_true, beq_iff_eq] at h
    have hs : ReachSettled (· * 5) s A := settled_run (.init 5) e
    exact ⟨s, A, hs, reach_of_settled hs, h.1.1, h.1.2, valid_of_validB h.2⟩

end Verif.Hashmap
