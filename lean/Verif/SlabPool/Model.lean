/-!
# Slab pool

Model of `src/internal_modules/roc_core/slab_pool_impl.cpp`. Addresses are natural numbers. The arena
is a function that answers the n-th request, given the blocks it has handed out. The mutex makes
calls atomic, so a state changes by whole calls. A panic is `none`.

Not modelled: poisoning of memory; wrap-around of `size_t`; the contents of the slots (the owner
field of a slot equals this pool exactly while the slot is given to the user; whether the canaries
are intact is an input of `deallocate`); the destructor.
-/

namespace Verif.SlabPool

/-- Sizes fixed by the platform: `sizeof(AlignMax)`, `sizeof(SlotHeader)`, `sizeof(SlotCanary)`,
`sizeof(Slot)`, `sizeof(Slab)` (slab_pool_impl.h:49-57, 91-92, align_ops.h:21-25). -/
structure Plat where
  align : Nat
  hdr : Nat
  canary : Nat
  slot : Nat
  slab : Nat

/-- The sizes on a 64-bit platform. (Part of the model of roc_core/slab_pool_impl.cpp:21-310.) -/
def amd64 : Plat := ⟨8, 8, 8, 24, 24⟩

/-- Constructor arguments (slab_pool_impl.h:60-67), `pre` is the preallocated memory, if any. -/
structure Cfg where
  plat : Plat
  objectSize : Nat
  minBytes : Nat
  maxBytes : Nat
  pre : Option (Nat × Nat)
  overflowGuard : Bool
  ownershipGuard : Bool

/-- `AlignOps::align_as` (align_ops.cpp:22-32). -/
def alignAs (size a : Nat) : Nat :=
  if a = 0 then size else if size % a ≠ 0 then size + (a - size % a) else size

/-- `clamp` (slab_pool_impl.cpp:21-29). -/
def clamp (v lo hi : Nat) : Nat :=
  let v := if v < lo ∧ lo ≠ 0 then lo else v
  if v > hi ∧ hi ≠ 0 then hi else v

variable (c : Cfg)

/-- `unaligned_slot_size_` (slab_pool_impl.cpp:46-47). -/
def Cfg.unaligned : Nat := c.plat.hdr + c.plat.canary + c.objectSize + c.plat.canary

/-- `slot_size_` (slab_pool_impl.cpp:48). -/
def Cfg.slotSize : Nat := alignAs (max c.plat.slot c.unaligned) c.plat.align

/-- `slab_hdr_size_` (slab_pool_impl.cpp:49). -/
def Cfg.slabHdr : Nat := alignAs c.plat.slab c.plat.align

/-- `slots_per_slab_` (slab_pool_impl.cpp:293-306), for a non-zero slot size. -/
def Cfg.slotsPerSlab (bytes : Nat) (up : Bool) : Nat :=
  if bytes < c.slabHdr then 1
  else if bytes - c.slabHdr < c.slotSize then 1
  else ((bytes - c.slabHdr) + (if up then c.slotSize - 1 else 0)) / c.slotSize

/-- Size of the preallocated memory. (Part of the model of roc_core/slab_pool_impl.cpp:21-310.) -/
def Cfg.preSize : Nat := match c.pre with
  | none => 0
  | some p => p.2

/-- `slab_min_bytes_` (slab_pool_impl.cpp:44). -/
def Cfg.slabMin : Nat := clamp c.minBytes c.preSize c.maxBytes

/-- Initial `slab_cur_slots_` (slab_pool_impl.cpp:50). -/
def Cfg.initSlots : Nat := if c.slabMin = 0 then 1 else c.slotsPerSlab c.slabMin true

/-- `slab_max_slots_` (slab_pool_impl.cpp:51). -/
def Cfg.maxSlots : Nat := if c.maxBytes = 0 then 0 else c.slotsPerSlab c.maxBytes false

/-- `slot_offset_` (slab_pool_impl.cpp:308-310). -/
def Cfg.slotOffset (n : Nat) : Nat := c.slabHdr + n * c.slotSize

/-- From the slot to the memory given to the user (slab_pool_impl.cpp:141). -/
def Cfg.userOff : Nat := c.plat.hdr + c.plat.canary

/-- Memory owned by the pool: address, size, and the size of the header at its start. (roc_core/slab_pool_impl.h:46-136) -/
structure Block where
  base : Nat
  size : Nat
  hdr : Nat
deriving DecidableEq, Repr

/-- Fields of `SlabPoolImpl` (slab_pool_impl.h:117-135). `free` are the addresses of the slots in
`free_slots_`; `blocks` stands for `slabs_` and the preallocated memory; `used` (ghost) are the slots
given to the user; `reqs` (ghost) counts requests to the arena. -/
structure State where
  blocks : List Block
  free : List Nat
  used : List Nat
  nUsed : Nat
  cur : Nat
  reqs : Nat
deriving DecidableEq, Repr

/-- Answers of the arena to a request: its number, the blocks owned by the pool, the size asked for.
`none` is NULL. (roc_core/slab_pool_impl.h:46-136) -/
abbrev Arena := Nat → List Block → Nat → Option Nat

/-- Addresses of `n` slots of memory at `base` from offset `off` on (slab_pool_impl.cpp:252-255,
287-290). -/
def Cfg.slotsAt (base off n : Nat) : List Nat := (List.range n).map fun i => base + off + i * c.slotSize

/-- Constructor (slab_pool_impl.cpp:33-71, 280-291). -/
def Cfg.init : Option State :=
  if ¬ c.initSlots > 0 then none
  else if ¬ (c.initSlots ≤ c.maxSlots ∨ c.maxSlots = 0) then none
  else
    match c.pre with
    | none => some ⟨[], [], [], 0, c.initSlots, 0⟩
    | some (base, size) =>
      if size > 0 then some ⟨[⟨base, size, 0⟩], c.slotsAt base 0 (size / c.slotSize), [], 0, c.initSlots, 0⟩
      else some ⟨[], [], [], 0, c.initSlots, 0⟩

/-- The loop of `increase_slab_size_` (slab_pool_impl.cpp:231-238); it ends because the number of
slots is positive, `fuel` bounds its iterations. -/
def Cfg.increaseLoop (desired : Nat) : Nat → Nat → Nat
  | 0, cur => cur
  | fuel + 1, cur =>
    if cur < desired then
      if cur * 2 > c.maxSlots ∧ c.maxSlots ≠ 0 then c.maxSlots else Cfg.increaseLoop desired fuel (cur * 2)
    else cur

/-- `increase_slab_size_` (slab_pool_impl.cpp:226-239). -/
def Cfg.increase (desired cur : Nat) : Nat :=
  let desired := if desired > c.maxSlots ∧ c.maxSlots ≠ 0 then c.maxSlots else desired
  c.increaseLoop desired desired cur

/-- `allocate_new_slab_` (slab_pool_impl.cpp:241-259). -/
def State.newSlab (arena : Arena) (s : State) : State × Bool :=
  match arena s.reqs s.blocks (c.slotOffset s.cur) with
  | none => ({ s with reqs := s.reqs + 1 }, false)
  | some base =>
    ({ s with
        blocks := s.blocks ++ [⟨base, c.slotOffset s.cur, c.slabHdr⟩]
        free := s.free ++ c.slotsAt base c.slabHdr s.cur
        cur := c.increase (s.cur * 2) s.cur
        reqs := s.reqs + 1 }, true)

/-- `allocate` (slab_pool_impl.cpp:83-97, 189-201, 133-149): the pointer for the user or NULL. -/
def State.allocate (arena : Arena) (s : State) : State × Option Nat :=
  let s := if s.free = [] then (s.newSlab c arena).1 else s
  match s.free with
  | [] => (s, none)
  | slot :: rest => ({ s with free := rest, used := slot :: s.used, nUsed := s.nUsed + 1 }, some (slot + c.userOff))

/-- `deallocate` (slab_pool_impl.cpp:99-115, 151-187, 203-210). -/
def State.deallocate (s : State) (p : Nat) (canaryOk : Bool) : Option State :=
  if p = 0 then none
  else if p - c.userOff ∉ s.used then (if c.ownershipGuard then none else some s)
  else if !canaryOk && c.overflowGuard then none
  else if s.nUsed = 0 then none
  else some { s with free := (p - c.userOff) :: s.free, used := s.used.erase (p - c.userOff), nUsed := s.nUsed - 1 }

/-- The loop of `reserve_slots_` (slab_pool_impl.cpp:216-220); each turn adds a slot, `fuel` bounds
the turns. -/
def State.reserveLoop (arena : Arena) (desired : Nat) : Nat → State → State × Bool
  | 0, s => (s, true)
  | fuel + 1, s =>
    match s.newSlab c arena with
    | (s, false) => (s, false)
    | (s, true) => if desired > s.free.length then State.reserveLoop arena desired fuel s else (s, true)

/-- `reserve` (slab_pool_impl.cpp:77-81, 212-224). -/
def State.reserve (arena : Arena) (s : State) (desired : Nat) : State × Bool :=
  if desired > s.free.length then
    State.reserveLoop c arena desired desired { s with cur := c.increase (desired - s.free.length) s.cur }
  else (s, true)

end Verif.SlabPool
