/-!
# Percent-encoding

Model of `src/internal_modules/roc_address/pct.cpp`. Bytes are `Fin 256`. The `ctype.h` predicates are
those of the "C" locale. The destination is a list: truncation by a too small destination buffer
is the subject of the string builder model (C50), and callers check it separately.
-/

namespace Verif.Pct

/-- One byte (`char` converted to `unsigned char`). (Part of the model of roc_address/pct.cpp:19-188.) -/
abbrev Byte := Fin 256

/-- A character literal as a byte. (Part of the model of roc_address/pct.cpp:19-188.) -/
def ch (c : Char) : Byte := Fin.ofNat 256 c.toNat

/-- `isdigit` in the "C" locale. (Used in roc_address/pct.cpp:111-112.) -/
def isDigit (c : Byte) : Bool := decide (ch '0' ≤ c) && decide (c ≤ ch '9')

/-- `isalnum` in the "C" locale. (Used in roc_address/pct.cpp:20.) -/
def isAlnum (c : Byte) : Bool :=
  isDigit c || (decide (ch 'a' ≤ c) && decide (c ≤ ch 'z')) || (decide (ch 'A' ≤ c) && decide (c ≤ ch 'Z'))

/-- `isxdigit` in the "C" locale. (Used in roc_address/pct.cpp:77, 169.) -/
def isXDigit (c : Byte) : Bool :=
  isDigit c || (decide (ch 'a' ≤ c) && decide (c ≤ ch 'f')) || (decide (ch 'A' ≤ c) && decide (c ≤ ch 'F'))

/-- `tolower` in the "C" locale. (Used in roc_address/pct.cpp:111-112.) -/
def toLower (c : Byte) : Nat :=
  if ch 'A' ≤ c ∧ c ≤ ch 'Z' then c.val + 32 else c.val

/-- `is_unreserved` (roc_address/pct.cpp:19-33). -/
def isUnreserved (c : Byte) : Bool :=
  isAlnum c || c == ch '-' || c == ch '_' || c == ch '.' || c == ch '~'

/-- `is_subdelim` (roc_address/pct.cpp:35-53). -/
def isSubdelim (c : Byte) : Bool :=
  c == ch '!' || c == ch '$' || c == ch '&' || c == ch '\'' || c == ch '(' || c == ch ')' ||
  c == ch '*' || c == ch '+' || c == ch ',' || c == ch ';' || c == ch '='

/-- `is_pchar` (roc_address/pct.cpp:55-70). -/
def isPchar (c : Byte) : Bool := isUnreserved c || isSubdelim c || c == ch ':' || c == ch '@'

/-- `is_segment_char` (roc_address/pct.cpp:72-74). -/
def isSegmentChar (c : Byte) : Bool := isPchar c || c == ch '/'

/-- `is_ip_literal_char` (roc_address/pct.cpp:76-90). -/
def isIpLiteralChar (c : Byte) : Bool :=
  isXDigit c || c == ch '.' || c == ch ':' || c == ch '[' || c == ch ']'

/-- `is_regname_char` (roc_address/pct.cpp:92-100). -/
def isRegnameChar (c : Byte) : Bool := isUnreserved c || isSubdelim c

/-- `is_host_char` (roc_address/pct.cpp:102-104). -/
def isHostChar (c : Byte) : Bool := isIpLiteralChar c || isRegnameChar c

/-- The string literal of `to_hex` (roc_address/pct.cpp:107). -/
def hexDigits : List Byte := "0123456789ABCDEF".toList.map ch

/-- `to_hex` (roc_address/pct.cpp:106-108). -/
def toHex (c : Nat) : Byte := hexDigits.getD (c % 16) 0

/-- One digit of `from_hex` (roc_address/pct.cpp:111-112), as an unbounded integer. -/
def hexVal (c : Byte) : Int :=
  if isDigit c then c.val - (ch '0').val else toLower c - (ch 'a').val + 10

/-- `from_hex` (roc_address/pct.cpp:110-114): `char(h << 4 | l)`; both digits were checked to be
hexadecimal, so `|` of disjoint bits is addition (`hex_disjoint` in Lemmas.lean). -/
def fromHex (hi lo : Byte) : Byte :=
  Fin.ofNat 256 (((hexVal hi).toNat <<< 4) ||| (hexVal lo).toNat)

/-- `PctMode` (roc_address/pct.h:23-32). -/
inductive Mode where
  | nonUnreserved | nonHost | nonPath
deriving DecidableEq, Repr

/-- The function pointer selected at roc_address/pct.cpp:119-130. -/
def skipEncoding : Mode → Byte → Bool
  | .nonUnreserved => isUnreserved
  | .nonHost => isHostChar
  | .nonPath => isSegmentChar

/-- `pct_encode` (roc_address/pct.cpp:118-153): the result and what was appended to `dst`. -/
def encode (mode : Mode) : List Byte → Bool × List Byte
  | [] => (true, [])
  | c :: cs =>
    if c = 0 then (false, [])
    else
      let r := encode mode cs
      if skipEncoding mode c then (r.1, c :: r.2)
      else (r.1, ch '%' :: toHex (c.val >>> 4) :: toHex (c.val &&& 0xf) :: r.2)

/-- `pct_decode` (roc_address/pct.cpp:155-188): the result and what was appended to `dst`. -/
def decode : List Byte → Bool × List Byte
  | [] => (true, [])
  | c :: cs =>
    if c = 0 then (false, [])
    else if c = ch '%' then
      match cs with
      | hi :: lo :: cs =>
        if !isXDigit hi || !isXDigit lo then (false, [])
        else
          let v := fromHex hi lo
          if v = 0 then (false, [])
          else
            let r := decode cs
            (r.1, v :: r.2)
      | _ => (false, [])
    else
      let r := decode cs
      (r.1, c :: r.2)

end Verif.Pct
