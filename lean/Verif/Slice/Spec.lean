import Verif.Slice.Model

/-!
# Slice: what a user expects
-/

namespace Verif.Slice

variable {α : Type}

/-- Calls of a user (slice.h:58-199). `alloc` is a new buffer with the given contents. -/
inductive Op (α : Type) where
  | null
  | alloc (c : List α)
  | part (i lo hi : Nat)
  | copy (i : Nat)
  | assign (i j : Nat)
  | destroy (i : Nat)
  | reslice (i lo hi : Nat)
  | extend (i n : Nat)
  | sub (i lo hi : Nat)
  | get (i k : Nat)
  | set (i k : Nat) (x : α)

/-- One call (slice.h:58-199). -/
def World.step (w : World α) : Op α → Except Err (World α)
  | .null => .ok (w.add ⟨none, 0, 0⟩)
  | .alloc c => .ok (w.alloc c)
  | .part i lo hi => w.part i lo hi
  | .copy i => w.copy i
  | .assign i j => w.assign i j
  | .destroy i => w.destroy i
  | .reslice i lo hi => w.reslice i lo hi
  | .extend i n => (w.extend i n).map (·.1)
  | .sub i lo hi => w.sub i lo hi
  | .get i k => (w.get i k).map fun _ => w
  | .set i k x => w.set i k x

/-- Worlds that can be reached from the empty one. -/
inductive Reach : World α → Prop
  | init : Reach World.init
  | step {w w' : World α} (h : Reach w) (o : Op α) (hs : w.step o = .ok w') : Reach w'

/-- A slice that exists. -/
def World.has (w : World α) (i : Nat) (s : Sl) : Prop := w.sls[i]? = some (some s)

/-- A buffer that is not returned, with its contents. -/
def World.live (w : World α) (b : Nat) (c : List α) : Prop := ∃ n, w.bufs[b]? = some ⟨some c, n⟩

/-- What a user sees through a slice: `data()[0]`, ..., `data()[size() - 1]`. -/
def World.view (w : World α) (s : Sl) : List α :=
  match s.buf with
  | none => []
  | some b => match w.mem b with
    | .ok c => (c.drop s.off).take s.size
    | .error _ => []

/-- What a user may see if the slice is extended to its capacity. -/
def World.whole (w : World α) (s : Sl) : List α :=
  match s.buf with
  | none => []
  | some b => match w.mem b with
    | .ok c => c.drop s.off
    | .error _ => []

end Verif.Slice
