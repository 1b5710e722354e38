/-!
# Hash functions: model

Models `src/internal_modules/roc_core/hashsum.cpp`. Unsigned numbers are natural numbers modulo a power of
two. A value of type `uint16_t` is promoted to `int` (32 bits) before it is multiplied, so the product may
overflow, which is undefined behaviour (`none`).
-/

namespace Verif.Hashsum

/-- `x ^ (x >> k)` (hashsum.cpp:22-24, 40-42, 57-59). -/
def xorshift (k x : Nat) : Nat := (x >>> k) ^^^ x

/-- Greatest value of `int`. (Part of the model of roc_core/hashsum.cpp:16-93.) -/
def intMax : Nat := 2147483647

/-- Product of two values of type `int`, converted to `uint16_t` (hashsum.cpp:22-23). -/
def mulInt (a b : Nat) : Option Nat := if a * b > intMax then none else some (a * b % 65536)

/-- `hashsum_int(uint16_t)` before it is widened (hashsum.cpp:22-24). -/
def mix16 (x : Nat) : Option Nat :=
  (mulInt (xorshift 8 x) 0x88b5).bind fun x =>
    (mulInt (xorshift 7 x) 0xdb2d).map fun x => xorshift 9 x

/-- `hashsum_int(uint16_t)` (hashsum.cpp:20-32); `wide`: `hashsum_t` has 64 bits, otherwise 32. -/
def hash16 (wide : Bool) (x : Nat) : Option Nat :=
  (mix16 x).map fun x => if wide then (x <<< 48) ||| (x <<< 32) ||| (x <<< 16) ||| x else (x <<< 16) ||| x

/-- `hashsum_int(int16_t)` (hashsum.cpp:16-18): conversion of a signed number. -/
def hash16s (wide : Bool) (x : Int) : Option Nat := hash16 wide (x % 65536).toNat

/-- `hashsum_int(uint32_t)` before it is widened (hashsum.cpp:40-42). -/
def mix32 (x : Nat) : Nat :=
  let x := xorshift 16 x * 0x7feb352d % 4294967296
  let x := xorshift 15 x * 0x846ca68b % 4294967296
  xorshift 16 x

/-- `hashsum_int(uint32_t)` (hashsum.cpp:38-49). -/
def hash32 (wide : Bool) (x : Nat) : Nat := if wide then (mix32 x <<< 32) ||| mix32 x else mix32 x

/-- `hashsum_int(int32_t)` (hashsum.cpp:34-36). -/
def hash32s (wide : Bool) (x : Int) : Nat := hash32 wide (x % 4294967296).toNat

/-- `hashsum_int(uint64_t)` (hashsum.cpp:55-62). -/
def hash64 (wide : Bool) (x : Nat) : Nat :=
  let x := xorshift 30 x * 0xbf58476d1ce4e5b9 % 18446744073709551616
  let x := xorshift 27 x * 0x94d049bb133111eb % 18446744073709551616
  let x := xorshift 31 x
  if wide then x else x % 4294967296

/-- `hashsum_int(int64_t)` (hashsum.cpp:51-53). -/
def hash64s (wide : Bool) (x : Int) : Nat := hash64 wide (x % 18446744073709551616).toNat

/-- Range of `hashsum_t` (hashsum.h:21). -/
def range (wide : Bool) : Nat := if wide then 18446744073709551616 else 4294967296

/-- One byte of the loop (hashsum.cpp:91). -/
def step (wide : Bool) (h b : Nat) : Nat := ((h <<< 5) % range wide + h + b) % range wide

/-- `hashsum_add` (hashsum.cpp:82-93). -/
def add (wide : Bool) (h : Nat) (data : List Nat) : Nat := data.foldl (step wide) (if h = 0 then 5381 else h)

/-- `hashsum_mem` and `hashsum_str` (hashsum.cpp:64-80). -/
def mem (wide : Bool) (data : List Nat) : Nat := add wide 0 data

end Verif.Hashsum
