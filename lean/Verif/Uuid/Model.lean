/-!
# Random numbers and UUIDs: model

Model of `fast_random`, `fast_random_range` (`src/internal_modules/roc_core/fast_random.cpp`) and of `uuid_generare` (roc_core/uuid.cpp), which makes the
CNAME of a participant (roc_rtp/identity.cpp:18-22).

Simplified: one thread; the clock is a list of values, one for each call of `fast_random`. Memory is a function from offsets in the buffer to bytes.
-/

namespace Verif.Uuid

/-- The mixing in `fast_random` (roc_core/fast_random.cpp:37-42). -/
def mix (z : BitVec 32) : BitVec 32 :=
  let z := z ^^^ (z >>> 16)
  let z := z * 0x21F0AAAD#32
  let z := z ^^^ (z >>> 15)
  let z := z * 0x735A2D97#32
  z ^^^ (z >>> 15)

/-- `fast_random` (roc_core/fast_random.cpp:27-43): result and the new `rng_state`; `now` is the low half of the clock. -/
def fastRandom (now s : BitVec 32) : BitVec 32 × BitVec 32 :=
  let s := if s = 0#32 then now else s
  (mix s, s + 0x9E3779B9#32)

/-- Outcome of a function: its value, `roc_panic` (roc_core/panic.h:22-34), or not finished while there are clock values (fast_random.cpp:56-59). -/
inductive Out (α : Type) where
  | ok (v : α)
  | panic
  | more

/-- The loop of `fast_random_range` (roc_core/fast_random.cpp:56-59) with `range` as 64-bit number; the rest of the clock and the state are returned. -/
def rangeLoop (range : BitVec 64) : List (BitVec 32) → BitVec 32 → Out (BitVec 64 × List (BitVec 32) × BitVec 32)
  | [], _ => .more
  | now :: l, s =>
    let z := (fastRandom now s).1.setWidth 64
    let r := z % range
    if z - r > -range then rangeLoop range l (fastRandom now s).2 else .ok (r, l, (fastRandom now s).2)

/-- `fast_random_range` (roc_core/fast_random.cpp:49-67). -/
def fastRandomRange (frm to : BitVec 32) (clock : List (BitVec 32)) (s : BitVec 32) : Out (BitVec 32 × List (BitVec 32) × BitVec 32) :=
  if to < frm then .panic
  else
    match rangeLoop (to.setWidth 64 - frm.setWidth 64 + 1) clock s with
    | .ok (r, l, s) =>
      let ret := frm + r.setWidth 32
      if ret < frm ∨ to < ret then .panic else .ok (ret, l, s)
    | .panic => .panic
    | .more => .more

/-- The random bytes (roc_core/uuid.cpp:38-40). -/
def randomBytes : Nat → List (BitVec 32) → BitVec 32 → Out (List (BitVec 8) × BitVec 32)
  | 0, _, s => .ok ([], s)
  | n + 1, l, s =>
    match fastRandomRange 0#32 255#32 l s with
    | .ok (b, l, s) =>
      match randomBytes n l s with
      | .ok (bs, s) => .ok (b.setWidth 8 :: bs, s)
      | .panic => .panic
      | .more => .more
    | .panic => .panic
    | .more => .more

/-- Character of a hexadecimal digit (roc_core/uuid.cpp:59-60). -/
def hex (d : BitVec 8) : Nat := if d.toNat < 10 then 48 + d.toNat else 87 + d.toNat

/-- Store of a byte (roc_core/uuid.cpp:57-60). -/
def put (buf : Nat → Nat) (i v : Nat) : Nat → Nat := fun k => if k = i then v else buf k

/-- The loop which writes the text (roc_core/uuid.cpp:55-63): the buffer and both positions; the first argument bounds the number of iterations. -/
def textLoop (bytes : Nat → BitVec 8) : Nat → Nat → Nat → (Nat → Nat) → (Nat → Nat) × Nat × Nat
  | 0, c, p, buf => (buf, c, p)
  | n + 1, c, p, buf =>
    if c < 36 then
      if c = 8 ∨ c = 13 ∨ c = 18 ∨ c = 23 then textLoop bytes n (c + 1) p (put buf c 45)
      else textLoop bytes n (c + 2) (p + 1) (put (put buf c (hex (bytes p >>> 4))) (c + 1) (hex (bytes p &&& 0x0F#8)))
    else (buf, c, p)

/-- The bytes with variant and version (roc_core/uuid.cpp:42-50). -/
def fixed (r : List (BitVec 8)) (i : Nat) : BitVec 8 :=
  let b := r.getD i 0#8
  if i = 8 then (b &&& 0x3F#8) ||| 0x80#8 else if i = 6 then (b &&& 0x0F#8) ||| 0x40#8 else b

/-- `uuid_generare` (roc_core/uuid.cpp:29-71) for a buffer (`none` is the null pointer) of `size` bytes: the buffer and the state of the generator. -/
def generate (buf : Option (Nat → Nat)) (size : Nat) (clock : List (BitVec 32)) (s : BitVec 32) : Out ((Nat → Nat) × BitVec 32) :=
  match buf with
  | none => .panic
  | some buf =>
    if size < 37 then .panic
    else
      match randomBytes 16 clock s with
      | .ok (r, s) =>
        let t := textLoop (fixed r) 36 0 0 buf
        if t.2.2 ≠ 16 then .panic
        else if t.2.1 ≠ 36 then .panic
        else .ok (put t.1 36 0, s)
      | .panic => .panic
      | .more => .more

end Verif.Uuid
