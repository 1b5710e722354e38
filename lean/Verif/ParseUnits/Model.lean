import Verif.SampleTime.Model

/-!
# Parsing of durations and sizes: model

Models `parse_duration` and `parse_size` (`roc_core/parse_units.cpp`).

`strtod` is modelled after the C standard (7.22.1.3), for the "C" locale and for strings that do not begin
with white space (the code checks the first character before). A `double` is `Flt` of
`Verif.PcmFormat.FloatModel`: exact results are rounded to 53 bits. Simplified: the range of exponents is not
bounded. This changes nothing here: numbers from 2¹⁰²⁴ on are out of range as infinity is, and those
below 2⁻¹⁰²² become zero in both cases.

A string is the list of its characters, without the terminating zero. A pointer into it is the list of
characters from there on. The null string is not modelled (it is rejected).
-/

namespace Verif.ParseUnits

open Verif.PcmFormat (rnd Flt)
open Verif.SampleTime (roundAway)

/-- Result of a parser; `undefined` is undefined behaviour: conversion of a `double` to an integer type that
does not have this number. (roc_core/parse_units.cpp:18-153) -/
inductive Res (α : Type) where
  | ok (a : α)
  | reject
  | undefined
  deriving DecidableEq

/-! ## `strtod` -/

/-- Decimal digit. (Part of the model of roc_core/parse_units.cpp:77, 132.) -/
def isDec (c : Char) : Bool := '0' ≤ c && c ≤ '9'

/-- Hexadecimal digit. (Part of the model of roc_core/parse_units.cpp:77, 132.) -/
def isHex (c : Char) : Bool := isDec c || ('a' ≤ c && c ≤ 'f') || ('A' ≤ c && c ≤ 'F')

/-- Value of a digit. (Part of the model of roc_core/parse_units.cpp:77, 132.) -/
def digit (c : Char) : Nat :=
  if c ≤ '9' then c.toNat - 48 else if c ≤ 'F' then c.toNat - 65 + 10 else c.toNat - 97 + 10

/-- Number with these digits. (Part of the model of roc_core/parse_units.cpp:77, 132.) -/
def number (b : Nat) (l : List Char) : Nat := l.foldl (fun a c => a * b + digit c) 0

/-- Optional sign: C standard, 7.22.1.3, 3. (Part of the model of roc_core/parse_units.cpp:77, 132.) -/
def sign : List Char → Bool × List Char
  | '-' :: t => (true, t)
  | '+' :: t => (false, t)
  | t => (false, t)

/-- Optional exponent (C standard, 6.4.4.2): it is there if at least one digit is. (Part of the model of roc_core/parse_units.cpp:77, 132.) -/
def exponent (mark : Char → Bool) : List Char → Int × List Char
  | [] => (0, [])
  | c :: t =>
    let d := (sign t).2.takeWhile isDec
    if mark c ∧ d ≠ [] then
      (if (sign t).1 then -(number 10 d : Int) else number 10 d, (sign t).2.dropWhile isDec)
    else (0, c :: t)

/-- Digits before and after the point, and the rest; there must be a digit. (Part of the model of roc_core/parse_units.cpp:77, 132.) -/
def mantissa (p : Char → Bool) (s : List Char) : Option (List Char × List Char × List Char) :=
  let i := s.takeWhile p
  match s.dropWhile p with
  | '.' :: r =>
    let f := r.takeWhile p
    if i = [] ∧ f = [] then none else some (i, f, r.dropWhile p)
  | r => if i = [] then none else some (i, [], r)

/-- Number in base `b` with an exponent of base `e`. (Part of the model of roc_core/parse_units.cpp:77, 132.) -/
def float (b e : Nat) (p mark : Char → Bool) (s : List Char) : Option (ℚ × List Char) :=
  (mantissa p s).map fun x =>
    ((number b (x.1 ++ x.2.1) : ℚ) / (b : ℚ) ^ x.2.1.length * (e : ℚ) ^ (exponent mark x.2.2).1,
      (exponent mark x.2.2).2)

/-- Mark of a decimal exponent. (Part of the model of roc_core/parse_units.cpp:77, 132.) -/
def isE (c : Char) : Bool := c == 'e' || c == 'E'

/-- Mark of a binary exponent. (Part of the model of roc_core/parse_units.cpp:77, 132.) -/
def isP (c : Char) : Bool := c == 'p' || c == 'P'

/-- Beginning of a string in any case: the rest after it. (Part of the model of roc_core/parse_units.cpp:77, 132.) -/
def word : List Char → List Char → Option (List Char)
  | [], s => some s
  | _ :: _, [] => none
  | w :: ws, c :: t => if c.toLower = w then word ws t else none

/-- Character of the optional text after "nan". (Part of the model of roc_core/parse_units.cpp:77, 132.) -/
def isWordChar (c : Char) : Bool := isDec c || ('a' ≤ c && c ≤ 'z') || ('A' ≤ c && c ≤ 'Z') || c == '_'

/-- Optional text after "nan". (Part of the model of roc_core/parse_units.cpp:77, 132.) -/
def nanText : List Char → List Char
  | '(' :: t =>
    match t.dropWhile isWordChar with
    | ')' :: r => r
    | _ => '(' :: t
  | t => t

/-- Number without a sign: C standard, 7.22.1.3, 3. (Part of the model of roc_core/parse_units.cpp:77, 132.) -/
def unsigned (s : List Char) : Option (Flt × List Char) :=
  let dec := (float 10 10 isDec isE s).map fun x => (Flt.num (rnd 53 x.1), x.2)
  match s with
  | '0' :: c :: t =>
    if c.toLower = 'x' then
      match float 16 2 isHex isP t with
      | some x => some (Flt.num (rnd 53 x.1), x.2)
      | none => dec
    else dec
  | _ =>
    match word "infinity".toList s with
    | some r => some (.inf false, r)
    | none =>
      match word "inf".toList s with
      | some r => some (.inf false, r)
      | none =>
        match word "nan".toList s with
        | some r => some (.nan, nanText r)
        | none => dec

/-- Change of the sign. (Part of the model of roc_core/parse_units.cpp:77, 132.) -/
def negate : Flt → Flt
  | .nan => .nan
  | .inf n => .inf (!n)
  | .num q => .num (-q)

/-- `strtod`: the number, and the rest of the string. (Part of the model of roc_core/parse_units.cpp:77, 132.) -/
def strtod (s : List Char) : Flt × List Char :=
  match unsigned (sign s).2 with
  | none => (.num 0, s)
  | some (v, r) => (if (sign s).1 then negate v else v, r)

/-! ## `parse_units.cpp` -/

/-- Suffixes and multipliers of `parse_duration`, in the order they are looked for:
`parse_units.cpp:42-53`, `time.h:61-76`. -/
def durationUnits : List (List Char × Nat) :=
  [(['n', 's'], 1), (['u', 's'], 1000), (['m', 's'], 1000000), (['s'], 1000000000), (['m'], 60000000000),
   (['h'], 3600000000000)]

/-- Suffixes and multipliers of `parse_size`: `parse_units.cpp:106-122`. -/
def sizeUnits : List (List Char × Nat) := [(['G'], 1073741824), (['M'], 1048576), (['K'], 1024)]

/-- `find_suffix`: `parse_units.cpp:18-27`. -/
def findSuffix (s suffix : List Char) : Bool :=
  decide (suffix.length ≤ s.length) && decide (s.drop (s.length - suffix.length) = suffix)

/-- Product of a number and a multiplier, rounded; `none` is an infinity or a NaN: `parse_units.cpp:86, 142`. -/
def multiplied (v : Flt) (m : Nat) : Option Int :=
  match v with
  | .num q => some (roundAway (rnd 53 (q * (m : ℚ))))
  | _ => none

/-- `parse_duration` after the number: `parse_units.cpp:86-97`. Comparisons with a NaN are false. -/
def durationOf (v : Flt) (m : Nat) : Res Int :=
  match v, multiplied v m with
  | .num _, some x =>
    if (x : ℚ) > rnd 53 ((2 ^ 63 - 1 : Int) : ℚ) ∨ (x : ℚ) < rnd 53 ((-2 ^ 63 : Int) : ℚ) then .reject
    else if -2 ^ 63 ≤ x ∧ x ≤ 2 ^ 63 - 1 then .ok x
    else .undefined
  | .nan, _ => .undefined
  | _, _ => .reject

/-- `parse_duration`: `parse_units.cpp:31-98`. -/
def parseDuration (s : List Char) : Res Int :=
  match durationUnits.find? fun u => findSuffix s u.1 with
  | none => .reject
  | some (u, m) =>
    if s = u then .reject
    else
      match s with
      | [] => .reject
      | c :: _ =>
        if ¬ (isDec c = true) ∧ c ≠ '+' ∧ c ≠ '-' then .reject
        else if ((strtod s).1 = .num 0 ∧ (strtod s).2 = s) ∨ (strtod s).2 ≠ u then .reject
        else durationOf (strtod s).1 m

/-- `parse_size` after the number: `parse_units.cpp:142-152`. -/
def sizeOf (v : Flt) (m : Nat) : Res Nat :=
  match v, multiplied v m with
  | .num _, some x =>
    if (x : ℚ) > rnd 53 ((2 ^ 64 - 1 : Int) : ℚ) then .reject
    else if 0 ≤ x ∧ x ≤ 2 ^ 64 - 1 then .ok x.toNat
    else .undefined
  | .inf false, _ => .reject
  | _, _ => .undefined

/-- `parse_size`: `parse_units.cpp:100-153`, for `size_t` of 64 bits. -/
def parseSize (s : List Char) : Res Nat :=
  let (u, m) := (sizeUnits.find? fun u => findSuffix s u.1).getD ([], 1)
  match s with
  | [] => .reject
  | c :: _ =>
    if ¬ (isDec c = true) then .reject
    else if ((strtod s).1 = .num 0 ∧ (strtod s).2 = s) ∨ (strtod s).2 ≠ u then .reject
    else sizeOf (strtod s).1 m

end Verif.ParseUnits
