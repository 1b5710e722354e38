import Verif.IoUri.Model
import Verif.Pct.Spec

/-!
The forms of URIs as documented in `io_uri.h:70-115`, as a relation between a string, the scheme and
the encoded path.
-/

namespace Verif.IoUri

open Verif.Pct (Byte ch isAlnum)

/-- No query and no fragment: neither `?` nor `#` (`io_uri_parse.rl:72`). -/
def Plain (s : List Byte) : Prop := ch '?' ∉ s ∧ ch '#' ∉ s

/-- An absolute path: a slash and a name that does not begin with a slash (`io_uri.h:95`). -/
def Abs (s : List Byte) : Prop :=
  ∃ c cs, s = ch '/' :: c :: cs ∧ c ≠ ch '/' ∧ Plain (c :: cs)

/-- A relative path: it does not begin with a slash (`io_uri.h:96`). -/
def Rel (s : List Byte) : Prop := ∃ c cs, s = c :: cs ∧ c ≠ ch '/' ∧ Plain cs

/-- The documented forms (`io_uri.h:76-98`). -/
inductive Form : List Byte → List Byte → List Byte → Prop
  | device {sc p : List Byte} : sc ≠ [] → (∀ c ∈ sc, isAlnum c = true) → sc ≠ str "file" → p ≠ [] →
      Plain p → Form (sc ++ str "://" ++ p) sc p
  | abs3 {p : List Byte} : Abs p → Form (str "file://" ++ p) (str "file") p
  | host {p : List Byte} : Abs p → Form (str "file://localhost" ++ p) (str "file") p
  | abs1 {p : List Byte} : Abs p → Form (str "file:" ++ p) (str "file") p
  | rel {p : List Byte} : Rel p → Form (str "file:" ++ p) (str "file") p
  | std2 : Form (str "file://-") (str "file") (str "-")

end Verif.IoUri
