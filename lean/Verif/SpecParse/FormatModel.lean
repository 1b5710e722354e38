import Verif.SpecParse.Model

/-!
# Printing of channel sets: model

Models `format_channel_set` (`roc_audio/channel_set_format.cpp`). `none` is `roc_panic`. The text is all
that is appended to the builder; how the builder truncates it is the subject of `Verif.StringBuilder`.
-/

namespace Verif.SpecParse

open Verif.ChannelSet

/-- `channel_pos_to_str`: `channel_defs.cpp:40-46`. `none` is `NULL`. -/
def posStr (n : Nat) : Option String := (posNames[n]?).map (·.1)

/-- Body of the loop over positions: `channel_set_format.cpp:32-40`; `append_str` panics if given `NULL`
(`string_builder.cpp:153`). -/
def nameStep (s : CSet) (acc : Option (List Char)) (ch : Nat) : Option (List Char) :=
  match s.hasChannel ch with
  | none => none
  | some false => acc
  | some true => acc.bind fun a => (posStr ch).map fun n =>
      a ++ (if ch ≠ s.first then [','] else []) ++ n.toList

/-- The loop over positions: `channel_set_format.cpp:32-40`. -/
def namesText (s : CSet) : Option (List Char) :=
  (List.range' s.first (s.last + 1 - s.first)).foldl (nameStep s) (some [])

/-- The last byte that is not zero: `channel_set_format.cpp:44-50`. -/
def lastByte (s : CSet) : Nat :=
  (List.range 128).foldl (fun l n => if s.byteAt n ≠ some 0 then n else l) 0

/-- `append_uint` with base 16, for a number less than 16: `string_builder.cpp:169-184`. -/
def hexChar (n : Nat) : Char := "0123456789ABCDEF".toList.getD n '0'

/-- Body of the loop over bytes: `channel_set_format.cpp:53-62`. -/
def byteText (s : CSet) (n : Nat) : Option (List Char) :=
  (s.byteAt n).map fun b =>
    (if b.toNat / 16 % 16 ≠ 0 ∨ n ≠ lastByte s then [hexChar (b.toNat / 16 % 16)] else []) ++
      [hexChar (b.toNat % 16)]

/-- The loop over bytes, from `n` down: `channel_set_format.cpp:52-63`. -/
def bytesText (s : CSet) : Nat → Option (List Char)
  | 0 => byteText s 0
  | n + 1 => (byteText s (n + 1)).bind fun a => (bytesText s n).map fun t => a ++ t

/-- The text after "ch=": `channel_set_format.cpp:29-64`. -/
def chansText (s : CSet) : Option (List Char) :=
  if s.layout = .surround then namesText s
  else (bytesText s (lastByte s)).map fun t => '0' :: 'x' :: t

/-- `channel_layout_to_str`: `channel_defs.cpp:17-30`. -/
def layoutStr : Layout → String
  | .none => "none"
  | .surround => "surround"
  | .multitrack => "multitrack"

/-- `channel_order_to_str`: `channel_defs.cpp:32-38`, names of `channel_tables.cpp:54-114`. -/
def orderStr : Order → String
  | .none => "none"
  | .smpte => "smpte"
  | .alsa => "alsa"

/-- The text before the channels: `channel_set_format.cpp:15-25`. The number is printed by `append_uint`
with base 10. -/
def headText (s : CSet) : List Char :=
  '<' :: (layoutStr s.layout).toList ++
    (if s.order ≠ .none then ' ' :: (orderStr s.order).toList else []) ++ " n_ch=".toList ++
    Nat.toDigits 10 s.num

/-- `format_channel_set`: `channel_set_format.cpp:14-67`. -/
def setText (s : CSet) : Option (List Char) :=
  if s.num ≠ 0 then (chansText s).map fun t => headText s ++ " ch=".toList ++ t ++ ['>']
  else some (headText s ++ ['>'])

/-- `channel_set_to_str`: the text in a buffer of 128 characters, `channel_set_to_str.h:33`,
`channel_set_to_str.cpp:15-19`. -/
def setStr (s : CSet) : Option (List Char) := (setText s).map (List.take 127)

end Verif.SpecParse
