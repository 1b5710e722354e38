import Mathlib.Data.List.Basic

/-!
# WAV files: what a reader takes

A file is read as the format defines: numbers are little endian, at fixed offsets (no extra chunks).
-/

namespace Verif.WavFile.Spec

/-- Little-endian number of `k` bytes at an offset. -/
def le (f : List Nat) (off : Nat) : Nat → Nat
  | 0 => 0
  | k + 1 => (f.getD off 0) + 256 * le f (off + 1) k

/-- Four characters at an offset. -/
def tag (f : List Nat) (off : Nat) (s : String) : Prop :=
  (f.drop off).take 4 = s.toList.map Char.toNat

/-- Beginning of a file with samples of type `float`. -/
structure Format (f : List Nat) (channels rate : Nat) : Prop where
  riff : tag f 0 "RIFF"
  wave : tag f 8 "WAVE"
  fmt : tag f 12 "fmt "
  fmtSize : le f 16 4 = 16
  code : le f 20 2 = 3
  chans : le f 22 2 = channels
  hz : le f 24 4 = rate
  byteRate : le f 28 4 = rate * channels * 4
  block : le f 32 2 = channels * 4
  bits : le f 34 2 = 32
  data : tag f 36 "data"

/-- Samples after the header. -/
def samples (f : List Nat) : List Nat := (List.range ((f.length - 44) / 4)).map fun i => le f (44 + 4 * i) 4

/-- Sizes in the header are those of the file. -/
structure Sizes (f : List Nat) : Prop where
  riff : le f 4 4 = f.length - 8
  data : le f 40 4 = f.length - 44

end Verif.WavFile.Spec
