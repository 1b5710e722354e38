/-!
# Seqlock

Model of `src/internal_modules/roc_core/seqlock_impl.cpp` as a transition system with any number of
threads storing and any number of threads loading. A step is one access to `ver_` or the copy of
one word of the value (`volatile_copy` copies byte by byte). Memory is sequentially consistent;
the fences that make this adequate on weaker memory are not modelled. The version is a 32-bit number
(seqlock_impl.h:23) and wraps.
-/

namespace Verif.Seqlock

/-- A thread that stores. (Part of the model of roc_core/seqlock_impl.cpp:33-119.) -/
inductive WPc (β : Type) where
  | idle
  /-- in `try_store`, has loaded an even `ver_` (seqlock_impl.cpp:45-48) -/
  | loaded (ver0 : BitVec 32) (val : Nat → β)
  /-- has made `ver_` odd, has copied the first `i` words (50-56, 69-73) -/
  | writing (ver0 : BitVec 32) (val : Nat → β) (i : Nat)

/-- A thread that loads: in `try_load_`, with the version it has seen and the words copied so far
(seqlock_impl.cpp:107-119). `started` is a ghost: the length of the log when the load began. -/
inductive RPc (β : Type) where
  | idle
  | copying (ver0 : BitVec 32) (buf : List β) (started : Nat)

/-- Outcome of a successful `try_load_`: value, version, and (ghosts) the length of the log when the
load began and when it ended. (Part of the model of roc_core/seqlock_impl.cpp:33-119.) -/
structure Loaded (β : Type) where
  value : List β
  ver : BitVec 32
  started : Nat
  ended : Nat

/-- Fields of `Seqlock` (seqlock.h) and `SeqlockImpl`: a value of `n` words and its version. Ghosts:
`log` lists the initial value and the value of every completed store, `results` the successful
loads. (seqlock.h:31-115, seqlock_impl.h:34-73) -/
structure State (β : Type) where
  n : Nat
  ver : BitVec 32
  cell : Nat → β
  w : Nat → WPc β
  r : Nat → RPc β
  log : List (Nat → β)
  results : List (Loaded β)

/-- Constructor (seqlock_impl.cpp:33-35, seqlock.h:34-36). -/
def State.init {β : Type} (n : Nat) (val : Nat → β) : State β :=
  ⟨n, 0, val, fun _ => .idle, fun _ => .idle, [val], []⟩

/-- Function update. (Part of the model of roc_core/seqlock_impl.cpp:33-119.) -/
def upd {γ : Type} (f : Nat → γ) (t : Nat) (v : γ) : Nat → γ := fun k => if k = t then v else f k

/-- No store is past its first write (precondition of `exclusive_store`: writes are serialized,
seqlock.h:65-66). -/
def State.Quiet {β : Type} (s : State β) : Prop := ∀ t v0 val i, s.w t ≠ .writing v0 val i

/-- One step of the system.
* `tryStore`: `try_store` up to its first test (seqlock_impl.cpp:45-48).
* `cas`: the compare-and-exchange (50-53).
* `exclusive`: `exclusive_store` up to its first write (68-70); allowed only when `Quiet`.
* `copy`: one word (55, 72), then the final store of the version (58-59, 75-76).
* `load`: `try_load_` reads the version (111-112).
* `read`: copies one word (114), at the end reads the version again and compares (117-118). -/
inductive Step {β : Type} : State β → State β → Prop where
  | tryStoreFail (s : State β) (t : Nat) : s.w t = .idle → s.ver.toNat % 2 = 1 → Step s s
  | tryStore (s : State β) (t : Nat) (val : Nat → β) : s.w t = .idle → s.ver.toNat % 2 = 0 →
      Step s { s with w := upd s.w t (.loaded s.ver val) }
  | casFail (s : State β) (t : Nat) (v0 : BitVec 32) (val : Nat → β) : s.w t = .loaded v0 val → s.ver ≠ v0 →
      Step s { s with w := upd s.w t .idle }
  | cas (s : State β) (t : Nat) (v0 : BitVec 32) (val : Nat → β) : s.w t = .loaded v0 val → s.ver = v0 →
      Step s { s with ver := v0 + 1, w := upd s.w t (.writing v0 val 0) }
  | exclusive (s : State β) (t : Nat) (val : Nat → β) : s.w t = .idle → s.Quiet →
      Step s { s with ver := s.ver + 1, w := upd s.w t (.writing s.ver val 0) }
  | copy (s : State β) (t : Nat) (v0 : BitVec 32) (val : Nat → β) (i : Nat) : s.w t = .writing v0 val i → i < s.n →
      Step s { s with cell := upd s.cell i (val i), w := upd s.w t (.writing v0 val (i + 1)) }
  | finish (s : State β) (t : Nat) (v0 : BitVec 32) (val : Nat → β) (i : Nat) : s.w t = .writing v0 val i → i ≥ s.n →
      Step s { s with ver := v0 + 2, w := upd s.w t .idle, log := s.log ++ [val] }
  | load (s : State β) (r : Nat) : s.r r = .idle →
      Step s { s with r := upd s.r r (.copying s.ver [] s.log.length) }
  | read (s : State β) (r : Nat) (v0 : BitVec 32) (buf : List β) (st : Nat) : s.r r = .copying v0 buf st →
      buf.length < s.n → Step s { s with r := upd s.r r (.copying v0 (buf ++ [s.cell buf.length]) st) }
  | checkFail (s : State β) (r : Nat) (v0 : BitVec 32) (buf : List β) (st : Nat) : s.r r = .copying v0 buf st →
      buf.length ≥ s.n → ¬ (v0.toNat % 2 = 0 ∧ v0 = s.ver) → Step s { s with r := upd s.r r .idle }
  | check (s : State β) (r : Nat) (v0 : BitVec 32) (buf : List β) (st : Nat) : s.r r = .copying v0 buf st →
      buf.length ≥ s.n → v0.toNat % 2 = 0 ∧ v0 = s.ver →
      Step s { s with r := upd s.r r .idle, results := s.results ++ [⟨buf, s.ver, st, s.log.length⟩] }

/-- States reachable by any interleaving. (Part of the model of roc_core/seqlock_impl.cpp:33-119.) -/
inductive Reach {β : Type} (n : Nat) (val : Nat → β) : State β → Prop where
  | init : Reach n val (State.init n val)
  | step {s s' : State β} : Reach n val s → Step s s' → Reach n val s'

end Verif.Seqlock
