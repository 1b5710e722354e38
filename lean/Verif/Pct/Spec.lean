import Verif.Pct.Model

/-! # RFC 3986 vocabulary, independent of the code -/

namespace Verif.Pct

/-- Bytes of a string of ASCII characters. -/
def bytes (s : String) : List Byte := s.toList.map (fun c => Fin.ofNat 256 c.toNat)

/-- RFC 3986, 2.3: unreserved. -/
def rfcUnreserved : List Byte :=
  bytes "ABCDEFGHIJKLMNOPQRSTUVWXYZabcdefghijklmnopqrstuvwxyz0123456789-._~"

/-- RFC 3986, 2.2: sub-delims. -/
def rfcSubDelims : List Byte := bytes "!$&'()*+,;="

/-- Characters legal without escaping, by URI component: RFC 3986, 2.3 (unreserved), 3.2.2 (host: an
IP literal in brackets or a registered name), 3.3 (path). -/
def rfcLegal : Mode → List Byte
  | .nonUnreserved => rfcUnreserved
  | .nonHost => rfcUnreserved ++ rfcSubDelims ++ bytes "[]:"
  | .nonPath => rfcUnreserved ++ rfcSubDelims ++ bytes ":@/"

/-- Value of a hexadecimal digit of either case. -/
def rfcHexValue (c : Byte) : Option Nat :=
  match (bytes "0123456789ABCDEF").findIdx? (· = c) with
  | some v => some v
  | none => (bytes "0123456789abcdef").findIdx? (· = c)

/-- `Escaped legal s out`: `s` is a legal escaped text with the value `out`: a sequence of legal
characters, which stand for themselves, and of triples `%XX` of two hexadecimal digits. -/
inductive Escaped (legal : Byte → Prop) : List Byte → List Byte → Prop where
  | nil : Escaped legal [] []
  | plain {c s out} : legal c → Escaped legal s out → Escaped legal (c :: s) (c :: out)
  | escape {a b s out} {x y : Nat} (v : Byte) : rfcHexValue a = some x → rfcHexValue b = some y →
      v.val = 16 * x + y → v ≠ 0 → Escaped legal s out →
      Escaped legal (Fin.ofNat 256 ('%').toNat :: a :: b :: s) (v :: out)

end Verif.Pct
