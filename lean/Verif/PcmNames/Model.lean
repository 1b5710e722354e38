import Mathlib.Data.List.Basic

/-!
# Names and traits of PCM formats: model

Models `pcm_format_to_str`, `pcm_format_from_str` and `pcm_format_traits` of
`roc_audio/pcm_format.cpp`. The tables are copied from the C++ source.

A format is its number in the enum `PcmFormat` (`pcm_format.h:22-198`): 0 is
`PcmFormat_Invalid`, 1 to 78 are the formats, 79 is `PcmFormat_Max`. Strings are lists of
characters without NUL.
-/

namespace Verif.PcmNames

/-- The strings in the switch of `pcm_format_to_str`, for the formats 1 to 78:
`pcm_format.cpp:14248-14403`. -/
def names : List String :=
  ["s8", "s8_be", "s8_le", "u8", "u8_be", "u8_le", "s16", "s16_be", "s16_le", "u16",
   "u16_be", "u16_le", "s18", "s18_be", "s18_le", "u18", "u18_be", "u18_le", "s18_3",
   "s18_3be", "s18_3le", "u18_3", "u18_3be", "u18_3le", "s18_4", "s18_4be", "s18_4le",
   "u18_4", "u18_4be", "u18_4le", "s20", "s20_be", "s20_le", "u20", "u20_be", "u20_le",
   "s20_3", "s20_3be", "s20_3le", "u20_3", "u20_3be", "u20_3le", "s20_4", "s20_4be",
   "s20_4le", "u20_4", "u20_4be", "u20_4le", "s24", "s24_be", "s24_le", "u24", "u24_be",
   "u24_le", "s24_4", "s24_4be", "s24_4le", "u24_4", "u24_4be", "u24_4le", "s32",
   "s32_be", "s32_le", "u32", "u32_be", "u32_le", "s64", "s64_be", "s64_le", "u64",
   "u64_be", "u64_le", "f32", "f32_be", "f32_le", "f64", "f64_be", "f64_le"]

/-- `pcm_format_to_str`: `pcm_format.cpp:14246-14408`. `none` is `NULL`. -/
def toStr (f : Nat) : Option String :=
  match f with
  | 0 => none
  | k + 1 => names[k]?

/-- The nested conditions of `pcm_format_from_str`: on the next character of the string, or
comparisons of the whole string. (Part of the model of roc_audio/pcm_format.cpp:9999-14736.) -/
inductive Node where
  | chars (l : List (Char × Node))
  | names (l : List (String × Nat))

/-- `pcm_format.cpp:14414-14735`. -/
def tree : Node :=
  .chars [('f', 
    .chars [('3', 
      .chars [('2', 
        .names [("f32", 73), ("f32_be", 74), ("f32_le", 75)])]),('6', 
      .chars [('4', 
        .names [("f64", 76), ("f64_be", 77), ("f64_le", 78)])])]),('s', 
    .chars [('1', 
      .chars [('6', 
        .names [("s16", 7), ("s16_be", 8), ("s16_le", 9)]),('8', 
        .names [("s18", 13), ("s18_be", 14), ("s18_le", 15), ("s18_3", 19), ("s18_3be", 20),
          ("s18_3le", 21), ("s18_4", 25), ("s18_4be", 26), ("s18_4le", 27)])]),('2', 
      .chars [('0', 
        .names [("s20", 31), ("s20_be", 32), ("s20_le", 33), ("s20_3", 37), ("s20_3be", 38),
          ("s20_3le", 39), ("s20_4", 43), ("s20_4be", 44), ("s20_4le", 45)]),('4', 
        .names [("s24", 49), ("s24_be", 50), ("s24_le", 51), ("s24_4", 55), ("s24_4be", 56),
          ("s24_4le", 57)])]),('3', 
      .chars [('2', 
        .names [("s32", 61), ("s32_be", 62), ("s32_le", 63)])]),('6', 
      .chars [('4', 
        .names [("s64", 67), ("s64_be", 68), ("s64_le", 69)])]),('8', 
      .names [("s8", 1), ("s8_be", 2), ("s8_le", 3)])]),('u', 
    .chars [('1', 
      .chars [('6', 
        .names [("u16", 10), ("u16_be", 11), ("u16_le", 12)]),('8', 
        .names [("u18", 16), ("u18_be", 17), ("u18_le", 18), ("u18_3", 22), ("u18_3be", 23),
          ("u18_3le", 24), ("u18_4", 28), ("u18_4be", 29), ("u18_4le", 30)])]),('2', 
      .chars [('0', 
        .names [("u20", 34), ("u20_be", 35), ("u20_le", 36), ("u20_3", 40), ("u20_3be", 41),
          ("u20_3le", 42), ("u20_4", 46), ("u20_4be", 47), ("u20_4le", 48)]),('4', 
        .names [("u24", 52), ("u24_be", 53), ("u24_le", 54), ("u24_4", 58), ("u24_4be", 59),
          ("u24_4le", 60)])]),('3', 
      .chars [('2', 
        .names [("u32", 64), ("u32_be", 65), ("u32_le", 66)])]),('6', 
      .chars [('4', 
        .names [("u64", 70), ("u64_be", 71), ("u64_le", 72)])]),('8', 
      .names [("u8", 4), ("u8_be", 5), ("u8_le", 6)])])]

/-- First name that is equal to the whole string; 0 is `PcmFormat_Invalid`. Sequences of
`strcmp` such as `pcm_format.cpp:14417-14426`. -/
def firstEq (s : List Char) : List (String × Nat) → Nat
  | [] => 0
  | (n, f) :: l => if s = n.toList then f else firstEq s l

mutual
/-- Conditions on `str[k]`; `rest` is the string from there on: for example
`pcm_format.cpp:14414-14430`. The end of the string (NUL) is no character of the tree. -/
def walk (s rest : List Char) : Node → Nat
  | .names l => firstEq s l
  | .chars l => walkChars s rest l
/-- The branches of one level, in order. (Part of the model of roc_audio/pcm_format.cpp:9999-14736.) -/
def walkChars (s rest : List Char) : List (Char × Node) → Nat
  | [] => 0
  | (c, n) :: l => if rest.head? = some c then walk s rest.tail n else walkChars s rest l
end

/-- `pcm_format_from_str` for a string that is not `NULL`: `pcm_format.cpp:14410-14736`. -/
def fromStr (s : String) : Nat := walk s.toList s.toList tree

/-- `PcmTraits` (`pcm_format.h:203-224`) without `is_valid`: integer, signed, little endian,
canonical format, significant bits, stored bits. -/
structure Traits where
  isInteger : Bool
  isSigned : Bool
  isLittle : Bool
  canon : Nat
  depth : Nat
  width : Nat
  deriving DecidableEq

/-- The switch in `pcm_format_traits` for the formats 1 to 78, on a little endian CPU:
`pcm_format.cpp:13328-14238`. -/
def traitsTable : List Traits :=
  [⟨true, true, true, 3, 8, 8⟩, ⟨true, true, false, 2, 8, 8⟩,
   ⟨true, true, true, 3, 8, 8⟩, ⟨true, false, true, 6, 8, 8⟩,
   ⟨true, false, false, 5, 8, 8⟩, ⟨true, false, true, 6, 8, 8⟩,
   ⟨true, true, true, 9, 16, 16⟩, ⟨true, true, false, 8, 16, 16⟩,
   ⟨true, true, true, 9, 16, 16⟩, ⟨true, false, true, 12, 16, 16⟩,
   ⟨true, false, false, 11, 16, 16⟩, ⟨true, false, true, 12, 16, 16⟩,
   ⟨true, true, true, 15, 18, 18⟩, ⟨true, true, false, 14, 18, 18⟩,
   ⟨true, true, true, 15, 18, 18⟩, ⟨true, false, true, 18, 18, 18⟩,
   ⟨true, false, false, 17, 18, 18⟩, ⟨true, false, true, 18, 18, 18⟩,
   ⟨true, true, true, 21, 18, 24⟩, ⟨true, true, false, 20, 18, 24⟩,
   ⟨true, true, true, 21, 18, 24⟩, ⟨true, false, true, 24, 18, 24⟩,
   ⟨true, false, false, 23, 18, 24⟩, ⟨true, false, true, 24, 18, 24⟩,
   ⟨true, true, true, 27, 18, 32⟩, ⟨true, true, false, 26, 18, 32⟩,
   ⟨true, true, true, 27, 18, 32⟩, ⟨true, false, true, 30, 18, 32⟩,
   ⟨true, false, false, 29, 18, 32⟩, ⟨true, false, true, 30, 18, 32⟩,
   ⟨true, true, true, 33, 20, 20⟩, ⟨true, true, false, 32, 20, 20⟩,
   ⟨true, true, true, 33, 20, 20⟩, ⟨true, false, true, 36, 20, 20⟩,
   ⟨true, false, false, 35, 20, 20⟩, ⟨true, false, true, 36, 20, 20⟩,
   ⟨true, true, true, 39, 20, 24⟩, ⟨true, true, false, 38, 20, 24⟩,
   ⟨true, true, true, 39, 20, 24⟩, ⟨true, false, true, 42, 20, 24⟩,
   ⟨true, false, false, 41, 20, 24⟩, ⟨true, false, true, 42, 20, 24⟩,
   ⟨true, true, true, 45, 20, 32⟩, ⟨true, true, false, 44, 20, 32⟩,
   ⟨true, true, true, 45, 20, 32⟩, ⟨true, false, true, 48, 20, 32⟩,
   ⟨true, false, false, 47, 20, 32⟩, ⟨true, false, true, 48, 20, 32⟩,
   ⟨true, true, true, 51, 24, 24⟩, ⟨true, true, false, 50, 24, 24⟩,
   ⟨true, true, true, 51, 24, 24⟩, ⟨true, false, true, 54, 24, 24⟩,
   ⟨true, false, false, 53, 24, 24⟩, ⟨true, false, true, 54, 24, 24⟩,
   ⟨true, true, true, 57, 24, 32⟩, ⟨true, true, false, 56, 24, 32⟩,
   ⟨true, true, true, 57, 24, 32⟩, ⟨true, false, true, 60, 24, 32⟩,
   ⟨true, false, false, 59, 24, 32⟩, ⟨true, false, true, 60, 24, 32⟩,
   ⟨true, true, true, 63, 32, 32⟩, ⟨true, true, false, 62, 32, 32⟩,
   ⟨true, true, true, 63, 32, 32⟩, ⟨true, false, true, 66, 32, 32⟩,
   ⟨true, false, false, 65, 32, 32⟩, ⟨true, false, true, 66, 32, 32⟩,
   ⟨true, true, true, 69, 64, 64⟩, ⟨true, true, false, 68, 64, 64⟩,
   ⟨true, true, true, 69, 64, 64⟩, ⟨true, false, true, 72, 64, 64⟩,
   ⟨true, false, false, 71, 64, 64⟩, ⟨true, false, true, 72, 64, 64⟩,
   ⟨false, true, true, 75, 25, 32⟩, ⟨false, true, false, 74, 25, 32⟩,
   ⟨false, true, true, 75, 25, 32⟩, ⟨false, true, true, 78, 53, 64⟩,
   ⟨false, true, false, 77, 53, 64⟩, ⟨false, true, true, 78, 53, 64⟩]

/-- `pcm_format_traits`: `pcm_format.cpp:13325-14244`. `none` is a result with `is_valid`
false. -/
def traits (f : Nat) : Option Traits :=
  match f with
  | 0 => none
  | k + 1 => traitsTable[k]?

end Verif.PcmNames
