/-!
# Dynamic array

Model of `Array<T, EmbeddedCapacity>` (`src/internal_modules/roc_core/array.h`).

Memory is a list of cells, one for each place of an element; a cell is `none` if there is no constructed object in it.
Constructing an object in a place that is outside of the block or is in use, destroying or copying an object that does not exist, and using an object of a block that was returned to the arena is `ub`.
A panic is `panic`; a loop that does not end is `hang`. `size_t` is a number below `2^64`. Logging is not modelled.
The embedded memory is represented by the cells in `Data.emb`; while it is not used, all its cells are empty.
-/

namespace Verif.DynArray

/-- Number of values of `size_t` on a 64-bit machine (arithmetic in array.h:155, 275, 300, 304). -/
def M : Nat := 2 ^ 64

/-- Ways to not return: `roc_panic` (array.h:170), undefined behaviour, or a loop without end. -/
inductive Err where
  | panic
  | ub
  | hang
deriving DecidableEq

/-- `data_` (array.h:311): NULL, a pointer to `embedded_data_`, or a pointer to memory of the arena, with the cells it points to. -/
inductive Data (α : Type) where
  | null
  | emb (cells : List (Option α))
  | heap (cells : List (Option α))
deriving DecidableEq

/-- `Array` (array.h:311-317). `live` is the number of blocks that were taken from the arena and not returned; `copies` is the number of calls of the copy constructor. -/
structure Arr (α : Type) where
  data : Data α
  size : Nat
  cap : Nat
  live : Int
  copies : Nat
deriving DecidableEq

/-- Template parameters and type properties: `EmbeddedCapacity`, `sizeof(T)`, and the value made by `T()` (array.h:40, 191, 275). -/
structure Par (α : Type) where
  emb : Nat
  sz : Nat
  dflt : α

variable {α : Type}

/-- Constructor (array.h:45-50). -/
def Arr.init : Arr α := ⟨.null, 0, 0, 0, 0⟩

/-- The cells that `data_` points to (array.h:311). -/
def Data.cells : Data α → List (Option α)
  | .null => []
  | .emb c => c
  | .heap c => c

/-- The same pointer, with changed memory (array.h:159). -/
def Data.put : Data α → List (Option α) → Data α
  | .null, _ => .null
  | .emb _, c => .emb c
  | .heap _, c => .heap c

/-- Placement new (array.h:159, 191, 230). -/
def construct (c : List (Option α)) (i : Nat) (x : α) : Except Err (List (Option α)) :=
  match c[i]? with
  | some none => .ok (c.set i (some x))
  | _ => .error .ub

/-- Destructor call (array.h:174, 196, 235). -/
def destroy (c : List (Option α)) (i : Nat) : Except Err (List (Option α)) :=
  match c[i]? with
  | some (some _) => .ok (c.set i none)
  | _ => .error .ub

/-- Access to an object (array.h:103, 230). -/
def load (c : List (Option α)) (i : Nat) : Except Err α :=
  match c[i]? with
  | some (some x) => .ok x
  | _ => .error .ub

/-- `allocate_` (array.h:269-287); `fit`: the arena has memory. The product of the number of elements and their size is computed in `size_t`. -/
def allocate (p : Par α) (fit : Bool) (n : Nat) : Option (Data α) :=
  if n ≤ p.emb then some (.emb (List.replicate p.emb none))
  else if fit then some (.heap (List.replicate (n * p.sz % M / p.sz) none))
  else none

/-- Loop that copies objects to new memory (array.h:229-231): elements `n`, `n + 1`, ... (`k` of them). -/
def copyLoop (old : List (Option α)) : Nat → Nat → List (Option α) → Except Err (List (Option α))
  | 0, _, c => .ok c
  | k + 1, n, c => do
    let x ← load old n
    let c ← construct c n x
    copyLoop old k (n + 1) c

/-- Loops that destruct objects in reversed order (array.h:195-197, 234-236): `k` elements, the last one is `lo + k - 1`. -/
def destroyLoop (lo : Nat) : Nat → List (Option α) → Except Err (List (Option α))
  | 0, c => .ok c
  | k + 1, c => do
    let c ← destroy c (lo + k)
    destroyLoop lo k c

/-- Loop that constructs new objects (array.h:190-192): `k` elements from `n`. -/
def createLoop (x : α) : Nat → Nat → List (Option α) → Except Err (List (Option α))
  | 0, _, c => .ok c
  | k + 1, n, c => do
    let c ← construct c n x
    createLoop x k (n + 1) c

/-- Whether `new_data != data_` (array.h:227). -/
def Data.moved : Data α → Data α → Bool
  | .emb _, .emb _ => false
  | _, _ => true

/-- 1 for a block of the arena: the effect of `allocate_` and `deallocate_` on the number of blocks (array.h:275, 289-293). -/
def Data.blocks : Data α → Int
  | .heap _ => 1
  | _ => 0

/-- `grow` (array.h:217-248). -/
def Arr.grow (p : Par α) (fit : Bool) (n : Nat) (a : Arr α) : Except Err (Arr α × Bool) :=
  if n ≤ a.cap then .ok (a, true)
  else
    match allocate p fit n with
    | none => .ok (a, false)
    | some d =>
      if d.moved a.data then do
        let c ← copyLoop a.data.cells a.size 0 d.cells
        let _ ← destroyLoop 0 a.size a.data.cells
        .ok ({ a with data := d.put c, cap := n, live := a.live + d.blocks - a.data.blocks, copies := a.copies + a.size }, true)
      else .ok ({ a with cap := n }, true)

/-- Body of the loops of `next_capacity_` (array.h:300, 304). -/
def nextStep (exp : Bool) (c : Nat) : Nat :=
  if exp then (if c = 0 then 2 else c * 2 % M) else (c + c / 4) % M

/-- The loops of `next_capacity_` (array.h:299-301, 303-305), with a limit for the number of iterations. -/
def nextLoop (exp : Bool) (min : Nat) : Nat → Nat → Option Nat
  | 0, _ => none
  | f + 1, c => if min > c then nextLoop exp min f (nextStep exp c) else some c

/-- `next_capacity_` (array.h:295-309). The loop variable has `2^64` values, so a loop that does not end after `2^64` iterations does not end. -/
def nextCapacity (cap min : Nat) : Option Nat := nextLoop (decide (cap < 1024)) min (M + 1) cap

/-- `grow_exp` (array.h:258-266). -/
def Arr.growExp (p : Par α) (fit : Bool) (n : Nat) (a : Arr α) : Except Err (Arr α × Bool) :=
  if n ≤ a.cap then .ok (a, true)
  else
    match nextCapacity a.cap n with
    | none => .error .hang
    | some c => a.grow p fit c

/-- The argument of `push_back` (array.h:154) is a reference: to an object elsewhere, or to an element of the array. -/
inductive Arg (α : Type) where
  | val (x : α)
  | elem (i : Nat)
deriving DecidableEq

/-- Reading the argument after `grow_exp` (array.h:159): a reference to an element that was moved refers to a destroyed object. -/
def Arg.get (before after : Arr α) : Arg α → Except Err α
  | .val x => .ok x
  | .elem i => if before.cap ≠ after.cap ∧ after.data.moved before.data then .error .ub else load after.data.cells i

/-- `push_back` (array.h:154-163). -/
def Arr.push (p : Par α) (fit : Bool) (v : Arg α) (a : Arr α) : Except Err (Arr α × Bool) := do
  let (b, ok) ← a.growExp p fit ((a.size + 1) % M)
  if ok then
    let x ← v.get a b
    let c ← construct b.data.cells b.size x
    .ok ({ b with data := b.data.put c, size := b.size + 1, copies := b.copies + 1 }, true)
  else .ok (b, false)

/-- `pop_back` (array.h:168-176). -/
def Arr.pop (a : Arr α) : Except Err (Arr α) :=
  if a.size = 0 then .error .panic
  else do
    let c ← destroy a.data.cells (a.size - 1)
    .ok { a with data := a.data.put c, size := a.size - 1 }

/-- `resize` (array.h:183-202). -/
def Arr.resize (p : Par α) (fit : Bool) (n : Nat) (a : Arr α) : Except Err (Arr α × Bool) := do
  let (b, ok) ← a.grow p fit n
  if ok then
    let c ← createLoop p.dflt (n - b.size) b.size b.data.cells
    let c ← destroyLoop n (b.size - n) c
    .ok ({ b with data := b.data.put c, size := n }, true)
  else .ok (b, false)

/-- `operator[]` (array.h:98-114), for reading. -/
def Arr.get (i : Nat) (a : Arr α) : Except Err α :=
  if i ≥ a.size then .error .panic else load a.data.cells i

/-- `operator[]` (array.h:98-114), with an assignment to the element. -/
def Arr.put (i : Nat) (x : α) (a : Arr α) : Except Err (Arr α) :=
  if i ≥ a.size then .error .panic
  else do
    let _ ← load a.data.cells i
    .ok { a with data := a.data.put (a.data.cells.set i (some x)) }

/-- `front` (array.h:118-131). -/
def Arr.front (a : Arr α) : Except Err α := if a.size = 0 then .error .panic else load a.data.cells 0

/-- `back` (array.h:134-147). -/
def Arr.back (a : Arr α) : Except Err α := if a.size = 0 then .error .panic else load a.data.cells (a.size - 1)

/-- Destructor (array.h:52-58): `clear` (array.h:207-209), then the block is returned. The result is the number of blocks that are left. -/
def Arr.drop (p : Par α) (a : Arr α) : Except Err (Data α × Int) := do
  let (b, _) ← a.resize p false 0
  .ok (b.data, b.live - b.data.blocks)

end Verif.DynArray
