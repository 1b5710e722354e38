import Verif.EndpointUri.Model

/-!
# SDP media line

Model of the part of `src/internal_modules/roc_sdp/parser.rl` for one `m=` field, and of
`media_description.cpp`.

The expression for the field is deterministic: no character can both continue a number, a token or a
literal and end it. So the generated automaton reads the longest sequence of characters of a class,
and runs the leaving action when the sequence ends. `parseMedia` does the same on the text after `m=`.

Not modelled: the other fields of the description, failures of memory allocation.
-/

namespace Verif.Sdp

open Verif.Pct (Byte ch isDigit)
open Verif.EndpointUri (str decimal)

/-- `MediaType` (media_type.h) without `MediaType_None`. (roc_sdp/media_type.h:19-34) -/
inductive MediaType where
  | audio | video | text | application
deriving DecidableEq, Repr

/-- The words of `media_type` (parser.rl:233-239). -/
def MediaType.word : MediaType → List Byte
  | .audio => str "audio"
  | .video => str "video"
  | .text => str "text"
  | .application => str "application"

/-- Fields of `MediaDescription` set by the field (media_description.h:92-99). The type and the transport
are set by the words read. -/
structure Media where
  type : MediaType
  port : Int
  nbPorts : Int
  payloadIds : List Nat
deriving DecidableEq, Repr

/-- `set_port` (media_description.cpp:81-88); `none` for false. -/
def Media.setPort (m : Media) (port : Int) : Option Media :=
  if port < 0 ∨ port > 65535 then none else some { m with port := port }

/-- `set_nb_ports` (media_description.cpp:90-97). The grammar does not use it. -/
def Media.setNbPorts (m : Media) (n : Int) : Option Media :=
  if n < 0 ∨ n > 65535 then none else some { m with nbPorts := n }

/-- `add_payload_id` (media_description.cpp:99-105). -/
def Media.addPayloadId (m : Media) (id : Nat) : Media := { m with payloadIds := m.payloadIds ++ [id] }

/-- `token_char` (parser.rl:159). -/
def isToken (c : Byte) : Bool :=
  c ∈ str "!#$%&'*+-.^_`{|}~" || isDigit c || (decide (ch 'a' ≤ c) && decide (c ≤ ch 'z')) ||
    (decide (ch 'A' ≤ c) && decide (c ≤ ch 'Z'))

/-- `strtol` in base 10 on a text without leading white space: the result, which saturates, and the
number of characters used. (Used in roc_sdp/parser.rl:102, 117, 132.) -/
def strtol (s : List Byte) : Int × Nat :=
  let neg := s.head? = some (ch '-')
  let sign := if neg ∨ s.head? = some (ch '+') then 1 else 0
  let ds := (s.drop sign).takeWhile isDigit
  if ds = [] then (0, 0)
  else if neg then (if decimal ds > 2 ^ 63 then -2 ^ 63 else -decimal ds, sign + ds.length)
  else (if decimal ds > 2 ^ 63 - 1 then 2 ^ 63 - 1 else decimal ds, sign + ds.length)

/-- The common part of the numeric actions (parser.rl:101-107): the number at `start_p`, where `used` is
`p - start_p` and `s` is the text from `start_p` on. -/
def number (s : List Byte) (used : Nat) : Option Int :=
  let r := strtol s
  if r.1 = 2 ^ 63 - 1 ∨ r.1 = -2 ^ 63 ∨ r.2 ≠ used then none else some r.1

/-- Action `set_media_port` (parser.rl:99-113). -/
def setMediaPort (m : Media) (s : List Byte) (used : Nat) : Option Media :=
  match number s used with
  | none => none
  | some v => m.setPort v

/-- Action `add_media_payload_id` (parser.rl:130-143): `long` becomes `unsigned`. -/
def addMediaPayloadId (m : Media) (s : List Byte) (used : Nat) : Option Media :=
  match number s used with
  | none => none
  | some v => some (m.addPayloadId (v % 2 ^ 32).toNat)

/-- A sequence of digits with `>start_token %set_media_port` (parser.rl:245, 247). -/
def portField (m : Media) (s : List Byte) : Option (Media × List Byte) :=
  let ds := s.takeWhile isDigit
  if ds = [] then none
  else
    match setMediaPort m s ds.length with
    | none => none
    | some m => some (m, s.drop ds.length)

/-- A literal. (Part of the model of roc_sdp/parser.rl:99-254.) -/
def literal (w s : List Byte) : Option (List Byte) := if w.isPrefixOf s then some (s.drop w.length) else none

/-- `(SP media_fmt)*` up to the end of the field (parser.rl:250, 253). -/
def formats (m : Media) (s : List Byte) : Option Media :=
  match s with
  | [] => some m
  | c :: s =>
    if c = ch ' ' then
      let tok := s.takeWhile isToken
      if tok = [] then none
      else
        match addMediaPayloadId m s tok.length with
        | none => none
        | some m => formats m (s.drop tok.length)
    else none
termination_by s.length
decreasing_by simp only [List.length_drop, List.length_cons]; omega

/-- `media_type` (parser.rl:233-239). The words differ in the first letter. -/
def mediaType (s : List Byte) : Option (MediaType × List Byte) :=
  [MediaType.audio, .video, .text, .application].findSome? fun t => (literal t.word s).map fun r => (t, r)

/-- `('/' media_nb_ports)?` (parser.rl:247, 253). -/
def nbPortsField (m : Media) (s : List Byte) : Option (Media × List Byte) :=
  if s.head? = some (ch '/') then portField m (s.drop 1) else some (m, s)

/-- `media_description` (parser.rl:252-254) on the whole text of the field; `none` if the text is
rejected. -/
def parseMedia (s : List Byte) : Option Media := do
  let (t, s) ← mediaType s
  let s ← literal (str " ") s
  let (m, s) ← portField ⟨t, 0, 0, []⟩ s
  let (m, s) ← nbPortsField m s
  let s ← literal (str " RTP/AVP") s
  if s = [] then none else formats m s

end Verif.Sdp
