import Verif.HeapArena.Model

/-!
# Heap arena: notions of the properties
-/

namespace Verif.HeapArena

/-- `p` is memory of `size` bytes that the arena `a` gave out and that was not returned. -/
def World.Live (w : World) (a p size : Nat) : Prop :=
  24 ≤ p ∧ (∃ n, (p - 24, n) ∈ w.blocks) ∧ w.hdr (p - 24) = (a, size)

/-- What the program does: it allocates, it returns memory in use (to any arena), it writes a byte inside of
memory in use or up to 8 bytes before or behind it, it switches guards, it asks for a size, it destroys an
arena. -/
inductive Step (w : World) : World → Prop where
  | alloc {a size m w' p} (h : w.alloc a size m = some (.ok (w', p))) : Step w w'
  | dealloc {a b p size w'} (h : w.Live b p size) (h : w.dealloc a p = .ok w') : Step w w'
  | poke {a p size x} (v : Nat) (h : w.Live a p size) (h1 : p ≤ x + 8) (h2 : x < p + size + 8) :
      Step w { w with mem := upd w.mem x v }
  | guards (g : Nat) : Step w { w with guards := g }
  | size {a b p size w' n} (h : w.Live b p size) (h : w.allocatedSize a p = .ok (w', n)) : Step w w'
  | destroy {a w'} (h : w.destroy a = .ok w') : Step w w'

/-- Reachable from a program without allocations. -/
inductive Reach : World → Prop where
  | start (mem : Nat → Nat) (hdr : Nat → Nat × Nat) (g : Nat) :
      Reach ⟨mem, hdr, [], fun _ => 0, fun _ => 0, g⟩
  | step {w w' : World} : Reach w → Step w w' → Reach w'

/-- The same for a correct program: it writes only inside of its memory, returns it to the arena it is from,
and destroys an arena when everything was returned. -/
inductive CleanStep (w : World) : World → Prop where
  | alloc {a size m w' p} (h : w.alloc a size m = some (.ok (w', p))) : CleanStep w w'
  | dealloc {a p size w'} (h : w.Live a p size) (h : w.dealloc a p = .ok w') : CleanStep w w'
  | poke {a p size x} (v : Nat) (h : w.Live a p size) (h1 : p ≤ x) (h2 : x < p + size) :
      CleanStep w { w with mem := upd w.mem x v }
  | guards (g : Nat) : CleanStep w { w with guards := g }
  | size {a p size w' n} (h : w.Live a p size) (h : w.allocatedSize a p = .ok (w', n)) : CleanStep w w'
  | destroy {a w'} (hn : ∀ p size, ¬ w.Live a p size) (h : w.destroy a = .ok w') : CleanStep w w'

/-- Reachable by a correct program. -/
inductive CleanReach : World → Prop where
  | start (mem : Nat → Nat) (hdr : Nat → Nat × Nat) (g : Nat) :
      CleanReach ⟨mem, hdr, [], fun _ => 0, fun _ => 0, g⟩
  | step {w w' : World} : CleanReach w → CleanStep w w' → CleanReach w'

/-- The 8 bytes before and the 8 bytes behind the memory are as they were when it was given out. -/
def World.Intact (w : World) (p size : Nat) : Prop :=
  ∀ k < 8, w.mem (p - 8 + k) = 0x7b ∧ w.mem (p + size + k) = 0x7b

end Verif.HeapArena
