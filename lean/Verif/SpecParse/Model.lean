import Verif.ChannelSet.Model
import Verif.PcmNames.Model

/-!
# Parsing of sample specs: model

Models `roc_audio/sample_spec_parse.rl` (`parse_sample_spec`) and `parse_encoding` of
`roc_rtp/encoding.cpp`. The state machine that Ragel generates from the grammar at
`sample_spec_parse.rl:232-256` is written out as a function on states and characters (`step`, `eof`).
Actions written `%` in the grammar are run when the character that follows the token is read, or at
the end of the string; nothing is run if there is no transition for the character.

Strings are lists of characters without NUL. The type `long` has 64 bits. `ChannelSet` is the model
of `Verif.ChannelSet`, names of PCM formats are those of `Verif.PcmNames`.
-/

namespace Verif.SpecParse

open Verif.ChannelSet

/-- Outcome: success; `return false`; `roc_panic`; a write past the end of a buffer on the stack. (Part of the model of roc_audio/sample_spec_parse.rl:25-280.) -/
inductive Out (α : Type) where
  | ok (a : α)
  | no
  | panic
  | overflow

/-- Go on if successful. (Part of the model of roc_audio/sample_spec_parse.rl:25-280.) -/
def Out.bind {α β : Type} (x : Out α) (f : α → Out β) : Out β :=
  match x with
  | .ok a => f a
  | .no => .no
  | .panic => .panic
  | .overflow => .overflow

/-- `roc_panic` in a method of `ChannelSet`. (Part of the model of roc_audio/sample_spec_parse.rl:25-280.) -/
def ofOption {α : Type} : Option α → Out α
  | some a => .ok a
  | none => .panic

/-- Fields of `SampleSpec`: `sample_spec.h`. The format is 0 if `sample_format()` is
`SampleFormat_Invalid`, and a number of a PCM format otherwise. (roc_audio/sample_spec.h:30-248) -/
structure SSpec where
  fmt : Nat
  rate : Nat
  chs : CSet

/-- `SampleSpec::clear`: `sample_spec.cpp:148-154`. -/
def SSpec.clear (s : SSpec) : SSpec := { fmt := 0, rate := 0, chs := s.chs.clear }

/-- Decimal number read by `strtol`: it stops at `LONG_MAX`. The string starts with the digits given,
which are followed by a character that is not a digit. (Used in roc_audio/sample_spec_parse.rl:27.) -/
def strtol10 (l : List Char) : Nat :=
  l.foldl (fun a c => min (2 ^ 63 - 1) (a * 10 + (c.toNat - 48))) 0

/-- `parse_size_t`: `sample_spec_parse.rl:25-38`. -/
def parseSize (l : List Char) : Option Nat :=
  if strtol10 l = 2 ^ 63 - 1 then none else some (strtol10 l)

/-- `ChanPositionNames`: `channel_tables.cpp:12-30`, positions are numbers in the enum
`ChannelPosition` (`channel_defs.h:86-142`). -/
def posNames : List (String × Nat) :=
  [("FL", 0), ("FLC", 1), ("FC", 2), ("FRC", 3), ("FR", 4), ("SL", 5), ("SR", 6), ("BL", 7),
   ("BC", 8), ("BR", 9), ("TFL", 10), ("TFR", 11), ("TML", 12), ("TMR", 13), ("TBL", 14),
   ("TBR", 15), ("LFE", 16)]

/-- `1 << a | 1 << b | ...`. (Part of the model of roc_audio/sample_spec_parse.rl:25-280.) -/
def bits (l : List Nat) : BitVec 32 := l.foldl (fun m p => m ||| (1#32 <<< p)) 0#32

/-- `ChanMaskNames`: `channel_tables.cpp:33-51`, masks are those of `channel_defs.h:158-508`. -/
def maskNames : List (String × BitVec 32) :=
  [("mono", bits [2]), ("stereo", bits [0, 4]), ("surround2.1", bits [0, 4, 16]),
   ("surround3.0", bits [0, 2, 4]), ("surround3.1", bits [0, 2, 4, 16]),
   ("surround4.0", bits [0, 4, 7, 9]), ("surround4.1", bits [0, 4, 7, 9, 16]),
   ("surround5.0", bits [0, 2, 4, 7, 9]), ("surround5.1", bits [0, 2, 4, 7, 9, 16]),
   ("surround5.1.2", bits [0, 2, 4, 7, 9, 16, 12, 13]),
   ("surround5.1.4", bits [0, 2, 4, 7, 9, 16, 10, 11, 14, 15]),
   ("surround6.0", bits [0, 2, 4, 7, 8, 9]), ("surround6.1", bits [0, 2, 4, 7, 8, 9, 16]),
   ("surround7.0", bits [0, 2, 4, 5, 6, 7, 9]), ("surround7.1", bits [0, 2, 4, 5, 6, 7, 9, 16]),
   ("surround7.1.2", bits [0, 2, 4, 5, 6, 7, 9, 16, 12, 13]),
   ("surround7.1.4", bits [0, 2, 4, 5, 6, 7, 9, 16, 10, 11, 14, 15])]

/-- Loops of `parse_surround_channel` and `parse_surround_mask`: `sample_spec_parse.rl:40-62`. -/
def lookup {α : Type} (l : List Char) : List (String × α) → Option α
  | [] => none
  | (n, a) :: t => if n.toList = l then some a else lookup l t

/-- `parse_multitrack_channel`: `sample_spec_parse.rl:64-74`. -/
def parseTrack (l : List Char) : Option Nat :=
  match parseSize l with
  | none => none
  | some n => if n ≥ maxChannels then none else some n

/-- Value of a hexadecimal digit: `strtol` with base 16 (`sample_spec_parse.rl:84`). -/
def hexVal (c : Char) : Nat :=
  if c.toNat < 58 then c.toNat - 48 else if c.toNat < 71 then c.toNat - 55 else c.toNat - 87

/-- The loop over bits of a digit: `sample_spec_parse.rl:89-94`. -/
def hexBits (s : CSet) (num : Nat) (pos : Nat) : List Nat → Out CSet
  | [] => .ok s
  | b :: t =>
    (if num &&& (1 <<< b) ≠ 0 then ofOption (s.toggle (pos + b) true) else .ok s).bind fun s =>
      hexBits s num pos t

/-- The loop of `parse_multitrack_mask`, on the digits from the last one to the first one:
`sample_spec_parse.rl:77-95`. -/
def hexLoop (s : CSet) (pos : Nat) : List Char → Out CSet
  | [] => .ok s
  | c :: t => (hexBits s (hexVal c) pos [0, 1, 2, 3]).bind fun s => hexLoop s (pos + 4) t

/-- `parse_multitrack_mask`: `sample_spec_parse.rl:76-98`. -/
def parseMask (s : CSet) (l : List Char) : Out CSet := hexLoop s 0 l.reverse

/-- States of the machine generated from `sample_spec_parse.rl:232-256`. -/
inductive Q where
  /-- nothing is read -/
  | start
  /-- "-" for the format -/
  | fDash
  /-- inside of `format` -/
  | fmt
  /-- after the first slash -/
  | rate0
  /-- "-" for the rate -/
  | rDash
  /-- inside of `rate` -/
  | rate
  /-- after the second slash -/
  | ch0
  /-- "-" for the channels -/
  | cDash
  /-- after the first character of `surround_mask` -/
  | mask1
  /-- inside of `surround_mask` -/
  | mask
  /-- inside of `surround_channel` -/
  | chan
  /-- after a comma in `surround_list` -/
  | chanSep
  /-- after "0" at the start of `mtr` -/
  | zero
  /-- inside of `mtr_number` or `mtr_range_begin` -/
  | num
  /-- after a dash in `mtr_range` -/
  | rngSep
  /-- inside of `mtr_range_end` -/
  | rng
  /-- after a comma in `mtr_list` -/
  | numSep
  /-- after "0x" -/
  | hex0
  /-- inside of `mtr_mask_hex` -/
  | hex
  deriving DecidableEq, Repr

/-- Local variables of `parse_sample_spec_imp`: the state `cs`, characters from `start_p` to `p`,
`mtr_range_begin`, and the result (`sample_spec_parse.rl:118-135`). -/
structure PS where
  q : Q
  tok : List Char
  rb : Nat
  spec : SSpec

/-- `[a-z0-9_]`: `sample_spec_parse.rl:250`. -/
def isFmt (c : Char) : Bool := c.isLower || c.isDigit || c = '_'
/-- `[a-z0-9.]`: `sample_spec_parse.rl:232`. -/
def isMask (c : Char) : Bool := c.isLower || c.isDigit || c = '.'
/-- `[0-9a-fA-F]`: `sample_spec_parse.rl:238`. -/
def isHex (c : Char) : Bool := c.isDigit || ('a' ≤ c && c ≤ 'f') || ('A' ≤ c && c ≤ 'F')

/-- `set_format`: `sample_spec_parse.rl:211-221`. `strncat` writes the token and a NUL to an array of
16 characters. -/
def setFormat (p : PS) : Out PS :=
  if 16 ≤ p.tok.length then .overflow
  else if PcmNames.fromStr (String.ofList p.tok) = 0 then .no
  else .ok { p with spec := { p.spec with fmt := PcmNames.fromStr (String.ofList p.tok) } }

/-- `set_rate`: `sample_spec_parse.rl:223-230`, with `parse_sample_rate`, lines 100-110. -/
def setRate (p : PS) : Out PS :=
  match parseSize p.tok with
  | none => .no
  | some n => if n = 0 then .no else .ok { p with spec := { p.spec with rate := n } }

/-- Change the channel set of the result. (Part of the model of roc_audio/sample_spec_parse.rl:25-280.) -/
def PS.setChs (p : PS) (s : CSet) : PS := { p with spec := { p.spec with chs := s } }

/-- `set_surround_mask`: `sample_spec_parse.rl:142-149`. -/
def setSurroundMask (p : PS) : Out PS :=
  match lookup p.tok maskNames with
  | none => .no
  | some m => .ok (p.setChs (p.spec.chs.setMask m))

/-- `set_surround_channel`: `sample_spec_parse.rl:151-158`. -/
def setSurroundChannel (p : PS) : Out PS :=
  match lookup p.tok posNames with
  | none => .no
  | some n => (ofOption (p.spec.chs.toggle n true)).bind fun s => .ok (p.setChs s)

/-- `set_surround`: `sample_spec_parse.rl:160-163`. -/
def setSurround (p : PS) : Out PS :=
  (ofOption (p.spec.chs.setLayout .surround)).bind fun s => .ok (p.setChs (s.setOrder .smpte))

/-- `set_mtr_number`: `sample_spec_parse.rl:165-174`. -/
def setMtrNumber (p : PS) : Out PS :=
  match parseTrack p.tok with
  | none => .no
  | some n => (ofOption (p.spec.chs.toggle n true)).bind fun s => .ok (p.setChs s)

/-- `set_mtr_range_begin`: `sample_spec_parse.rl:176-183`. -/
def setMtrRangeBegin (p : PS) : Out PS :=
  match parseTrack p.tok with
  | none => .no
  | some n => .ok { p with rb := n }

/-- `set_mtr_range_end` and `set_mtr_range`: `sample_spec_parse.rl:185-197`. -/
def setMtrRange (p : PS) : Out PS :=
  match parseTrack p.tok with
  | none => .no
  | some n => (ofOption (p.spec.chs.toggleRange p.rb n true)).bind fun s => .ok (p.setChs s)

/-- `set_mtr_mask`: `sample_spec_parse.rl:199-204`. -/
def setMtrMask (p : PS) : Out PS :=
  (parseMask p.spec.chs p.tok).bind fun s => .ok (p.setChs s)

/-- `set_mtr`: `sample_spec_parse.rl:206-209`. -/
def setMtr (p : PS) : Out PS :=
  (ofOption (p.spec.chs.setLayout .multitrack)).bind fun s => .ok (p.setChs (s.setOrder .none))

/-- Start of a token: `start_token`, `sample_spec_parse.rl:138-140`. -/
def PS.start (p : PS) (q : Q) (c : Char) : PS := { p with q := q, tok := [c] }
/-- One more character of a token. (Part of the model of roc_audio/sample_spec_parse.rl:25-280.) -/
def PS.more (p : PS) (q : Q) (c : Char) : PS := { p with q := q, tok := p.tok ++ [c] }
/-- A character that is not a part of a token. (Part of the model of roc_audio/sample_spec_parse.rl:25-280.) -/
def PS.go (p : PS) (q : Q) : PS := { p with q := q, tok := [] }

/-- Transition on a character: `sample_spec_parse.rl:232-256`. -/
def step (p : PS) (c : Char) : Out PS :=
  match p.q with
  | .start => if c = '-' then .ok (p.go .fDash) else if isFmt c then .ok (p.start .fmt c) else .no
  | .fDash => if c = '/' then .ok (p.go .rate0) else .no
  | .fmt => if c = '/' then (setFormat p).bind fun p => .ok (p.go .rate0)
      else if isFmt c then .ok (p.more .fmt c) else .no
  | .rate0 => if c = '-' then .ok (p.go .rDash) else if c.isDigit then .ok (p.start .rate c) else .no
  | .rDash => if c = '/' then .ok (p.go .ch0) else .no
  | .rate => if c = '/' then (setRate p).bind fun p => .ok (p.go .ch0)
      else if c.isDigit then .ok (p.more .rate c) else .no
  | .ch0 => if c = '-' then .ok (p.go .cDash) else if c.isLower then .ok (p.start .mask1 c)
      else if c.isUpper then .ok (p.start .chan c) else if c = '0' then .ok (p.start .zero c)
      else if c.isDigit then .ok (p.start .num c) else .no
  | .cDash => .no
  | .mask1 => if isMask c then .ok (p.more .mask c) else .no
  | .mask => if isMask c then .ok (p.more .mask c) else .no
  | .chan => if c = ',' then (setSurroundChannel p).bind fun p => .ok (p.go .chanSep)
      else if c.isUpper then .ok (p.more .chan c) else .no
  | .chanSep => if c.isUpper then .ok (p.start .chan c) else .no
  | .zero => if c = 'x' then .ok (p.go .hex0)
      else if c = ',' then (setMtrNumber p).bind fun p => .ok (p.go .numSep)
      else if c = '-' then (setMtrRangeBegin p).bind fun p => .ok (p.go .rngSep)
      else if c.isDigit then .ok (p.more .num c) else .no
  | .num => if c = ',' then (setMtrNumber p).bind fun p => .ok (p.go .numSep)
      else if c = '-' then (setMtrRangeBegin p).bind fun p => .ok (p.go .rngSep)
      else if c.isDigit then .ok (p.more .num c) else .no
  | .rngSep => if c.isDigit then .ok (p.start .rng c) else .no
  | .rng => if c = ',' then (setMtrRange p).bind fun p => .ok (p.go .numSep)
      else if c.isDigit then .ok (p.more .rng c) else .no
  | .numSep => if c.isDigit then .ok (p.start .num c) else .no
  | .hex0 => if isHex c then .ok (p.start .hex c) else .no
  | .hex => if isHex c then .ok (p.more .hex c) else .no

/-- The end of the string: actions of the final states, and `success = true`
(`sample_spec_parse.rl:254-256`); in another state `success` is false (lines 262-267). -/
def eof (p : PS) : Out PS :=
  match p.q with
  | .cDash => .ok p
  | .mask => (setSurroundMask p).bind setSurround
  | .chan => (setSurroundChannel p).bind setSurround
  | .zero => (setMtrNumber p).bind setMtr
  | .num => (setMtrNumber p).bind setMtr
  | .rng => (setMtrRange p).bind setMtr
  | .hex => (setMtrMask p).bind setMtr
  | _ => .no

/-- Run of the machine. (Part of the model of roc_audio/sample_spec_parse.rl:25-280.) -/
def run (p : PS) : List Char → Out PS
  | [] => .ok p
  | c :: t => (step p c).bind fun p => run p t

/-- `parse_sample_spec` for a string that is not `NULL`: `sample_spec_parse.rl:112-280`. `res` is the
value of the argument `result` before the call. What is returned, and its value after the call. -/
def parse (res : SSpec) (s : List Char) : Out (Bool × SSpec) :=
  match (run { q := .start, tok := [], rb := 0, spec := res.clear } s).bind eof with
  | .ok p => .ok (true, p.spec)
  | .no => .ok (false, res.clear)
  | .panic => .panic
  | .overflow => .overflow

/-- Fields of `Encoding`: `roc_rtp/encoding.h:29-50`. `payload_type` is 0 and the sample spec is empty by
default. The flag `FlagAudio` is set together with the payload type. -/
structure Encoding where
  pt : Nat
  spec : SSpec

/-- Empty encoding. (roc_rtp/encoding.cpp:39) -/
def Encoding.empty : Encoding := { pt := 0, spec := { fmt := 0, rate := 0, chs := CSet.empty } }

/-- Decimal number read by `strtoul`: it stops at `ULONG_MAX`. (Used in roc_rtp/encoding.cpp:39.) -/
def strtoul10 (l : List Char) : Nat :=
  l.foldl (fun a c => min (2 ^ 64 - 1) (a * 10 + (c.toNat - 48))) 0

/-- `parse_encoding` for a string that is not `NULL`: `encoding.cpp:15-67`. `strchr` finds the first
colon. The number ends at the colon if there are only digits before it: it starts with a digit
(line 31). -/
def parseEncoding (s : List Char) : Out (Bool × Encoding) :=
  let num := s.takeWhile (· ≠ ':')
  match s.dropWhile (· ≠ ':') with
  | [] => .ok (false, Encoding.empty)
  | _ :: rest =>
    if num = [] ∨ num.all Char.isDigit = false then .ok (false, Encoding.empty)
    else if strtoul10 num = 2 ^ 64 - 1 then .ok (false, Encoding.empty)
    else if strtoul10 num > 2 ^ 32 - 1 then .ok (false, Encoding.empty)
    else (parse Encoding.empty.spec rest).bind fun r =>
      if r.1 then .ok (true, { pt := strtoul10 num, spec := r.2 })
      else .ok (false, { Encoding.empty with spec := r.2 })

end Verif.SpecParse
