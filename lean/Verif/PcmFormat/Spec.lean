/-!
# PCM formats: specification

What a buffer of samples in a format means, written down from the description of the
formats in `pcm_format.h:22-198`, without the model: a sample is a container of whole
bytes; the low `width` bits of the container hold the value; unsigned formats are shifted so
that silence is in the middle of the range.
-/

namespace Verif.PcmFormat.Spec

/-- Number with the given bytes, least significant first. -/
def number : List Nat → Nat
  | [] => 0
  | x :: l => x + 256 * number l

/-- The container at byte position `p`, of `k` bytes. -/
def container (big : Bool) (k : Nat) (b : List Nat) (p : Nat) : Nat :=
  if big then number ((b.drop p).take k).reverse else number ((b.drop p).take k)

/-- The signed level stored in the low `w` bits of a container; zero is silence. -/
def level (signed : Bool) (w : Nat) (x : Nat) : Int :=
  if signed then
    if x % 2 ^ w < 2 ^ (w - 1) then ((x % 2 ^ w : Nat) : Int)
    else ((x % 2 ^ w : Nat) : Int) - 2 ^ w
  else ((x % 2 ^ w : Nat) : Int) - 2 ^ (w - 1)

/-- The level of `w'` bits for a level `l` of `w` bits: more bits shift to the left; fewer
bits give the nearest level, the larger one of two, but at most the largest there is.
Between unsigned formats the code cuts bits off instead (`cut`). -/
def rescale (cut : Bool) (w w' : Nat) (l : Int) : Int :=
  if w ≤ w' then l * 2 ^ (w' - w)
  else if cut then l / 2 ^ (w - w')
  else min (2 ^ (w' - 1) - 1) ((l + 2 ^ (w - w' - 1)) / 2 ^ (w - w'))

/-- Bit `t` of a buffer, the most significant bit of a byte first. -/
def bit (b : List Nat) (t : Nat) : Nat := b.getD (t / 8) 0 / 2 ^ (7 - t % 8) % 2

/-- The number in `n` bits of a buffer. -/
def bits (b : List Nat) (off : Nat) : Nat → Nat
  | 0 => 0
  | n + 1 => 2 * bits b off n + bit b (off + n)

/-- A sample of `w` bits, 16 to 24, that is packed without padding: for big endian just the
bits; for little endian the low byte, the next byte, and then the remaining bits. -/
def packedSample (big : Bool) (w : Nat) (b : List Nat) (off : Nat) : Nat :=
  if big then bits b off w
  else bits b off 8 + 256 * bits b (off + 8) 8 + 65536 * bits b (off + 16) (w - 16)

end Verif.PcmFormat.Spec
