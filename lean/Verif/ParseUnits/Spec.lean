import Verif.SampleTime.Model

/-!
# Parsing of durations and sizes: what is required

Numbers as in C (`C standard, 6.4.4.2, 7.22.1.3`), and units.
-/

namespace Verif.ParseUnits.Spec

open Verif.PcmFormat (rnd)
open Verif.SampleTime (roundAway)

/-- Decimal digits. -/
def decDigits : List Char := "0123456789".toList

/-- Hexadecimal digits. -/
def hexDigits : List Char := "0123456789abcdefABCDEF".toList

/-- Value of a digit. -/
def digitValue (c : Char) : Nat := "0123456789abcdef".toList.idxOf c.toLower

/-- Number written in base `b`. -/
def value (b : Nat) : List Char → Nat
  | [] => 0
  | c :: t => digitValue c * b ^ t.length + value b t

/-- Digits with an optional point: `i` are those before it, `f` those after it. -/
inductive Mantissa (D : List Char) : List Char → List Char → List Char → Prop where
  | whole (i : List Char) : i ≠ [] → (∀ c ∈ i, c ∈ D) → Mantissa D i i []
  | point (i f : List Char) : i ≠ [] ∨ f ≠ [] → (∀ c ∈ i, c ∈ D) → (∀ c ∈ f, c ∈ D) →
      Mantissa D (i ++ '.' :: f) i f

/-- Optional exponent. -/
inductive Exponent (M : List Char) : List Char → Int → Prop where
  | none : Exponent M [] 0
  | plain (c : Char) (d : List Char) : c ∈ M → d ≠ [] → (∀ c ∈ d, c ∈ decDigits) → Exponent M (c :: d) (value 10 d)
  | plus (c : Char) (d : List Char) : c ∈ M → d ≠ [] → (∀ c ∈ d, c ∈ decDigits) →
      Exponent M (c :: '+' :: d) (value 10 d)
  | minus (c : Char) (d : List Char) : c ∈ M → d ≠ [] → (∀ c ∈ d, c ∈ decDigits) →
      Exponent M (c :: '-' :: d) (-(value 10 d))

/-- Number without a sign: decimal, or hexadecimal with a binary exponent. -/
inductive Unsigned : List Char → ℚ → Prop where
  | dec (m x i f : List Char) (e : Int) : Mantissa decDigits m i f → Exponent ['e', 'E'] x e →
      Unsigned (m ++ x) ((value 10 (i ++ f) : ℚ) / 10 ^ f.length * 10 ^ e)
  | hex (c : Char) (m x i f : List Char) (e : Int) : c ∈ ['x', 'X'] → Mantissa hexDigits m i f →
      Exponent ['p', 'P'] x e → Unsigned ('0' :: c :: (m ++ x)) ((value 16 (i ++ f) : ℚ) / 16 ^ f.length * 2 ^ e)

/-- Number with an optional sign. -/
inductive Number : List Char → ℚ → Prop where
  | plain (t : List Char) (q : ℚ) : Unsigned t q → Number t q
  | plus (t : List Char) (q : ℚ) : Unsigned t q → Number ('+' :: t) q
  | minus (t : List Char) (q : ℚ) : Unsigned t q → Number ('-' :: t) (-q)

/-- "nan" in any case, with an optional text in parentheses. -/
def Nan (t : List Char) : Prop :=
  ∃ w p, t = w ++ p ∧ w.map Char.toLower = "nan".toList ∧
    (p = [] ∨ ∃ x, p = '(' :: (x ++ [')']) ∧ ∀ c ∈ x, c = '_' ∨ c.isAlphanum = true)

/-- Durations: suffix and number of nanoseconds. -/
inductive Duration : List Char → Nat → Prop where
  | ns : Duration "ns".toList 1
  | us : Duration "us".toList (10 ^ 3)
  | ms : Duration "ms".toList (10 ^ 6)
  | s : Duration "s".toList (10 ^ 9)
  | m : Duration "m".toList (60 * 10 ^ 9)
  | h : Duration "h".toList (60 * 60 * 10 ^ 9)

/-- Sizes: optional suffix and number of bytes. -/
inductive Size : List Char → Nat → Prop where
  | G : Size "G".toList (1024 ^ 3)
  | M : Size "M".toList (1024 ^ 2)
  | K : Size "K".toList 1024
  | none : Size [] 1

/-- Product computed with `double` and rounded to an integer. -/
def nearest (q : ℚ) (m : Nat) : Int := roundAway (rnd 53 (rnd 53 q * m))

end Verif.ParseUnits.Spec
