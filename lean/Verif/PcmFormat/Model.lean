/-!
# PCM formats: model

Models `roc_audio/pcm_format.cpp` (generated by `pcm_format_gen.py`) for the 24 integer
codes, and `roc_audio/pcm_mapper.cpp`.

The C++ file holds one copy of every function for every code, or pair of codes, all of them
printed from the templates in `pcm_format_gen.py`. The model has one definition per
template, with the parameters of the code (its row in `CODES`) as arguments.

Values of C++ integer types are `Int`; conversions to a type of `n` bits are `asU` and
`asS`. Buffers are lists of bytes; an access out of bounds is `none`.
`size_t` bit offsets do not overflow (`Nat`).
-/

namespace Verif.PcmFormat

/-- Row of `CODES` in `pcm_format_gen.py:139-502`: is the code signed, number of
significant bits, number of stored bits, size of the C++ type in bits. -/
structure Code where
  signed : Bool
  width : Nat
  packed : Nat
  unpacked : Nat
  deriving DecidableEq, Repr

/-- The integer codes. `pcm_format_gen.py:139-476`, enum `PcmCode` of
`pcm_format.cpp:16-44` (without `Float32` and `Float64`). -/
def codes : List Code :=
  [⟨true, 8, 8, 8⟩, ⟨false, 8, 8, 8⟩, ⟨true, 16, 16, 16⟩, ⟨false, 16, 16, 16⟩,
   ⟨true, 18, 18, 32⟩, ⟨false, 18, 18, 32⟩, ⟨true, 18, 24, 32⟩, ⟨false, 18, 24, 32⟩,
   ⟨true, 18, 32, 32⟩, ⟨false, 18, 32, 32⟩, ⟨true, 20, 20, 32⟩, ⟨false, 20, 20, 32⟩,
   ⟨true, 20, 24, 32⟩, ⟨false, 20, 24, 32⟩, ⟨true, 20, 32, 32⟩, ⟨false, 20, 32, 32⟩,
   ⟨true, 24, 24, 32⟩, ⟨false, 24, 24, 32⟩, ⟨true, 24, 32, 32⟩, ⟨false, 24, 32, 32⟩,
   ⟨true, 32, 32, 32⟩, ⟨false, 32, 32, 32⟩, ⟨true, 64, 64, 64⟩, ⟨false, 64, 64, 64⟩]

/-- Conversion to an unsigned type of `n` bits. (Part of the model of roc_audio/pcm_format.cpp:16-12776.) -/
def asU (n : Nat) (x : Int) : Int := x % 2 ^ n

/-- Conversion to a signed type of `n` bits (two's complement). (Part of the model of roc_audio/pcm_format.cpp:16-12776.) -/
def asS (n : Nat) (x : Int) : Int :=
  if x % 2 ^ n < 2 ^ (n - 1) then x % 2 ^ n else x % 2 ^ n - 2 ^ n

/-- `pcm_<code>_max` of the signed code of the same width: `compute_minmax`,
`pcm_format_gen.py:22-42`. -/
def smax (w : Nat) : Int := 2 ^ (w - 1) - 1

/-- `pcm_sign_converter<...>::to_signed`: `pcm_format_gen.py:615-621`
(for example `pcm_format.cpp:183-188`). Both branches of the C++ function are the same. -/
def toSigned (c : Code) (arg : Int) : Int :=
  asS c.unpacked (arg - smax c.width - 1)

/-- `pcm_sign_converter<...>::from_signed`: `pcm_format_gen.py:607-612`
(for example `pcm_format.cpp:175-180`). The result is converted to the unsigned type. -/
def fromSigned (c : Code) (arg : Int) : Int :=
  if arg ≥ 0 then asU c.unpacked (asU c.unpacked arg + smax c.width + 1)
  else asU c.unpacked (arg + smax c.width + 1)

/-- Input of the arithmetic in `pcm_code_converter<...>::convert`:
`pcm_format_gen.py:640-646`. -/
def convertIn (i o : Code) (arg : Int) : Int :=
  if !i.signed && !(!i.signed && !o.signed) then toSigned i arg else arg

/-- Arithmetic in `pcm_code_converter<...>::convert` for integer codes:
`pcm_format_gen.py:671-692` (for example `pcm_format.cpp:638-644`, 1128-1129). -/
def convertArith (i o : Code) (x : Int) : Int :=
  if o.width = i.width then x
  else if o.width < i.width then
    if !i.signed && !o.signed then asU o.unpacked (x / 2 ^ (i.width - o.width))
    else if x > smax i.width - 2 ^ (i.width - o.width - 1) then smax o.width
    else asS o.unpacked
      (asU i.unpacked (x + 2 ^ (i.width - o.width - 1)) / 2 ^ (i.width - o.width))
  else
    if !i.signed && !o.signed then
      asU o.unpacked (asU o.unpacked x * 2 ^ (o.width - i.width))
    else asS o.unpacked (asU o.unpacked x * 2 ^ (o.width - i.width))

/-- `pcm_code_converter<InCode, OutCode>::convert`: `pcm_format_gen.py:632-702`,
`pcm_format.cpp:612-10815`. -/
def convert (i o : Code) (arg : Int) : Int :=
  if i = o then arg
  else
    let out := convertArith i o (convertIn i o arg)
    if !o.signed && !(!i.signed && !o.signed) then fromSigned o out else out

/-- `p.octets.octet<n>` of a value: the union `pcm_sample`, `pcm_format.cpp:10817-10959`.
`octet0` is the least significant one for both byte orders of the CPU. -/
def octet (v : Int) (n : Nat) : Nat := (v / 256 ^ n % 256).toNat

/-- `pcm_aligned_write`: `pcm_format.cpp:10961-10965`. -/
def alignedWrite (b : List Nat) (off : Nat) (arg : Nat) : Option (List Nat × Nat) :=
  if off / 8 < b.length then some (b.set (off / 8) arg, off + 8) else none

/-- `pcm_aligned_read`: `pcm_format.cpp:10968-10972`. -/
def alignedRead (b : List Nat) (off : Nat) : Option (Nat × Nat) :=
  b[off / 8]?.map fun x => (x, off + 8)

/-- The first part of `pcm_unaligned_write`, lines 10977-10984: the byte at the offset. The
operands of the shifts are `int`, so nothing is cut off between the shifts. -/
def unalignedFirst (b : List Nat) (off len arg : Nat) : Option (List Nat) :=
  b[off / 8]?.map fun x =>
    b.set (off / 8)
      ((if off % 8 = 0 then 0 else x) ||| (arg <<< (8 - len)) >>> (off % 8) % 256)

/-- `pcm_unaligned_write`: `pcm_format.cpp:10975-10991`. -/
def unalignedWrite (b : List Nat) (off len arg : Nat) : Option (List Nat × Nat) :=
  (unalignedFirst b off len arg).bind fun b1 =>
    if off % 8 + len > 8 then
      if off / 8 + 1 < b1.length then
        some (b1.set (off / 8 + 1) ((arg <<< (off % 8)) % 256), off + len)
      else none
    else some (b1, off + len)

/-- `pcm_unaligned_read`: `pcm_format.cpp:10994-11007`. -/
def unalignedRead (b : List Nat) (off len : Nat) : Option (Nat × Nat) :=
  b[off / 8]?.bind fun x =>
    let r := (x <<< (off % 8)) >>> (8 - len) % 256
    if off % 8 + len > 8 then
      b[off / 8 + 1]?.map fun y =>
        (r ||| (y >>> (8 - off % 8)) >>> (8 - len) % 256, off + len)
    else some (r, off + len)

/-- `packed_octets`: `pcm_format_gen.py:83-88`. -/
def packedOctets (c : Code) : Nat := (c.packed + 7) / 8

/-- `unpacked_octets`: `pcm_format_gen.py:83-88`. -/
def unpackedOctets (c : Code) : Nat := (c.unpacked + 7) / 8

/-- Third argument of `pcm_unaligned_write`: `pcm_format_gen.py:812`. -/
def bitLen (c : Code) (n : Nat) : Nat :=
  if n = packedOctets c - 1 then c.packed % 8 else 8

/-- One line of `pack`: `pcm_format_gen.py:808-813`. -/
def writeOctet (c : Code) (b : List Nat) (off n x : Nat) : Option (List Nat × Nat) :=
  if c.packed % 8 = 0 then alignedWrite b off x else unalignedWrite b off (bitLen c n) x

/-- The lines of `pack` that write octets, in the given order:
`pcm_format_gen.py:804-814`. -/
def packOctets (c : Code) (v : Int) : List Nat → List Nat → Nat → Option (List Nat × Nat)
  | [], b, off => some (b, off)
  | n :: ns, b, off =>
    (writeOctet c b off n (octet v n)).bind fun r => packOctets c v ns r.1 r.2

/-- Order of the octets: from the last one for big endian, `pcm_format_gen.py:805-807`. -/
def octetOrder (big : Bool) (k : Nat) : List Nat :=
  if big then (List.range k).reverse else List.range k

/-- `pcm_packer<...>::pack`: `pcm_format_gen.py:792-815`, `pcm_format.cpp:11012-12758`
(for example 11340-11354). Both operands of `&=` fit in the type, and the mask is a prefix
of ones, so the result is the remainder. -/
def pack (c : Code) (big : Bool) (b : List Nat) (off : Nat) (arg : Int) :
    Option (List Nat × Nat) :=
  packOctets c (if c.width < c.packed then arg % 2 ^ c.width else arg)
    (octetOrder big (packedOctets c)) b off

/-- One line of `unpack`: `pcm_format_gen.py:827-834`. -/
def readOctet (c : Code) (b : List Nat) (off n : Nat) : Option (Nat × Nat) :=
  if n ≥ packedOctets c then some (0, off)
  else if c.packed % 8 = 0 then alignedRead b off
  else unalignedRead b off (bitLen c n)

/-- The lines of `unpack` that read octets: `pcm_format_gen.py:823-835`. The octets are
collected into the (unsigned) number with these octets. -/
def unpackOctets (c : Code) (b : List Nat) : List Nat → Nat → Nat → Option (Nat × Nat)
  | [], off, acc => some (acc, off)
  | n :: ns, off, acc =>
    (readOctet c b off n).bind fun r => unpackOctets c b ns r.2 (acc + r.1 * 256 ^ n)

/-- The end of `unpack`: `pcm_format_gen.py:837-849` (for example
`pcm_format.cpp:11367-11376`). `x` is the number read from the octets; `p.value` is this
number in the type of the code. -/
def finish (c : Code) (x : Nat) : Int :=
  let v := if c.signed then asS c.unpacked x else asU c.unpacked x
  let v := if c.width < c.packed then v % 2 ^ c.width else v
  if c.signed = true ∧ c.width < c.unpacked ∧ v / 2 ^ (c.width - 1) % 2 = 1 then
    v % 2 ^ c.width - 2 ^ c.width
  else v

/-- `pcm_packer<...>::unpack`: `pcm_format_gen.py:818-850`,
`pcm_format.cpp:11012-12758`. -/
def unpack (c : Code) (big : Bool) (b : List Nat) (off : Nat) : Option (Int × Nat) :=
  (unpackOctets c b (octetOrder big (unpackedOctets c)) off 0).map fun r =>
    (finish c r.1, r.2)

/-- A format is a code with a byte order; the enum `PcmFormat` of `pcm_format.h:22-198`
(native formats stand for one of the two). -/
structure Fmt where
  code : Code
  big : Bool
  deriving DecidableEq, Repr

/-- `pcm_mapper<...>::map`: `pcm_format.cpp:12760-12776`. The result is the output buffer
with the new values of both offsets. -/
def mapLoop (i o : Fmt) (inb : List Nat) :
    Nat → Nat → List Nat → Nat → Option (List Nat × Nat × Nat)
  | 0, inOff, outb, outOff => some (outb, inOff, outOff)
  | n + 1, inOff, outb, outOff =>
    (unpack i.code i.big inb inOff).bind fun r =>
      (pack o.code o.big outb outOff (convert i.code o.code r.1)).bind fun q =>
        mapLoop i o inb n r.2 q.1 q.2

/-- Outcome of `PcmMapper::map`: the returned number with the new state, or an abort, or an
access out of bounds. (Part of the model of roc_audio/pcm_format.cpp:16-12776.) -/
inductive Out where
  | ok (n : Nat) (outb : List Nat) (inOff outOff : Nat)
  | panic
  | fault
  deriving DecidableEq, Repr

/-- The number of samples: `pcm_mapper.cpp:80-83`. -/
def clampSamples (i o : Fmt) (inSize inOff outSize outOff n : Nat) : Nat :=
  min (min n ((inSize * 8 - inOff) / i.code.packed)) ((outSize * 8 - outOff) / o.code.packed)

/-- Result of the mapping function as an outcome. (Part of the model of roc_audio/pcm_format.cpp:16-12776.) -/
def ofLoop (n : Nat) : Option (List Nat × Nat × Nat) → Out
  | some r => .ok n r.1 r.2.1 r.2.2
  | none => .fault

/-- `PcmMapper::map`: `pcm_mapper.cpp:65-91`. The pointers are not null. The buffers are as
long as the sizes given. -/
def map (i o : Fmt) (inb : List Nat) (inOff : Nat) (outb : List Nat) (outOff n : Nat) : Out :=
  if inOff > inb.length * 8 then .panic
  else if outOff > outb.length * 8 then .panic
  else
    let k := clampSamples i o inb.length inOff outb.length outOff n
    if k ≠ 0 then ofLoop k (mapLoop i o inb k inOff outb outOff)
    else .ok k outb inOff outOff

end Verif.PcmFormat
