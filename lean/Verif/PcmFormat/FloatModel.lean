import Verif.PcmFormat.Model
import Mathlib.Data.Int.Log
import Mathlib.Data.Rat.Floor

/-!
# PCM formats: model of conversions from and to floating point

Models the conversions of `pcm_format.cpp` between an integer code and `Float32` or
`Float64`, for one sample.

A floating-point number is `Flt`: not a number, an infinity, or a rational number. The result
of an operation is the exact result rounded to the number of bits of the type (`rnd`,
ties to even, as in IEEE 754). Simplified: the range of exponents is not bounded. This changes
nothing here: samples that come from integers are zero or between 2⁻⁶³ and 1; and
samples that come from elsewhere are only multiplied by a power of two between 2⁷ and
2⁶³, compared, and converted to an integer. If that product overflows to an infinity, it is
clipped just like the large number. The layout of a floating-point number in memory is
not modelled.
-/

namespace Verif.PcmFormat

/-- Nearest integer, the even one of two. (Used in roc_audio/pcm_format.cpp:1922-10166.) -/
def roundEven (x : ℚ) : Int :=
  if x - ⌊x⌋ < 1 / 2 then ⌊x⌋
  else if 1 / 2 < x - ⌊x⌋ then ⌊x⌋ + 1
  else if ⌊x⌋ % 2 = 0 then ⌊x⌋ else ⌊x⌋ + 1

/-- Result of an operation in a type with `p` significant bits: 24 for `float`, 53 for
`double`. The weight of the last bit is 2 to the `log - (p - 1)`. -/
def rnd (p : Nat) (x : ℚ) : ℚ :=
  (roundEven (x / 2 ^ (Int.log 2 |x| - (p - 1))) : ℚ) * 2 ^ (Int.log 2 |x| - (p - 1))

/-- Value of type `float` or `double`. (Used in roc_audio/pcm_format.cpp:1922-10166.) -/
inductive Flt where
  | nan
  | inf (neg : Bool)
  | num (q : ℚ)
  deriving DecidableEq

/-- `(double)signed_max + 1.0`: `pcm_format_gen.py:658, 661, 665` (for example
`pcm_format.cpp:1925`). Both the conversion and the sum are rounded. -/
def scale (c : Code) : ℚ := rnd 53 (rnd 53 (smax c.width) + 1)

/-- `pcm_code_converter<...>::convert` from an integer code to `Float32` (`p` is 24) or
`Float64` (`p` is 53): `pcm_format_gen.py:639-658`, for example `pcm_format.cpp:10155-10166`. The
product is computed in `double`. -/
def toFloat (p : Nat) (i : Code) (arg : Int) : ℚ :=
  rnd p (rnd 53 (rnd 53 ((if i.signed then arg else toSigned i arg : Int) : ℚ)
    * rnd 53 (1 / scale i)))

/-- Conversion of a number to an integer type, towards zero: `out = T(d)`. (Used in roc_audio/pcm_format.cpp:1922-10166.) -/
def trunc (d : ℚ) : Int := if 0 ≤ d then ⌊d⌋ else ⌈d⌉

/-- `out` of `pcm_code_converter<...>::convert` from `Float32` or `Float64` to an integer code:
`pcm_format_gen.py:659-670`, for example `pcm_format.cpp:1922-1935`. Both comparisons with a NaN
are false, and the conversion of it to an integer is undefined behaviour (`none`). -/
def fromFloatSigned (o : Code) : Flt → Option Int
  | .nan => none
  | .inf neg => some (if neg then -smax o.width - 1 else smax o.width)
  | .num q =>
    if rnd 53 (q * scale o) < ((-smax o.width - 1 : Int) : ℚ) then some (-smax o.width - 1)
    else if rnd 53 (q * scale o) ≥ scale o then some (smax o.width)
    else some (trunc (rnd 53 (q * scale o)))

/-- The whole of that `convert`: `pcm_format_gen.py:659-670, 694-699`. -/
def fromFloat (o : Code) (x : Flt) : Option Int :=
  (fromFloatSigned o x).map fun v => if o.signed then v else fromSigned o v

end Verif.PcmFormat
