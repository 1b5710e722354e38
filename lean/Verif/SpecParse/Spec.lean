import Verif.SpecParse.Model
import Verif.ChannelSet.Spec

/-!
# Parsing of sample specs: what is required

The language of sample specs and the meaning of its strings, after the comment at
`roc_audio/sample_spec.h:250-287`.
-/

namespace Verif.SpecParse.Spec

open Verif.ChannelSet

/-- Number written in base `b`; digits `a` to `f` may be in upper case. -/
def value (b : Nat) : List Char → Nat
  | [] => 0
  | c :: t => (if c.isDigit then c.toNat - '0'.toNat
      else if c.isLower then 10 + (c.toNat - 'a'.toNat) else 10 + (c.toNat - 'A'.toNat)) * b ^ t.length
        + value b t

/-- A number in decimal digits. -/
def Decimal (l : List Char) (n : Nat) : Prop := l ≠ [] ∧ (∀ c ∈ l, c.isDigit = true) ∧ n = value 10 l

/-- Hexadecimal digit. -/
def HexDigit (c : Char) : Prop := c ∈ "0123456789abcdefABCDEF".toList

/-- Format: "-", or a name of a PCM format. -/
inductive Format : List Char → Nat → Prop where
  | dash : Format ['-'] 0
  | name (f : Nat) (s : String) : PcmNames.toStr f = some s → Format s.toList f

/-- Rate: "-", or a positive number, less than 2⁶³ - 1. -/
inductive Rate : List Char → Nat → Prop where
  | dash : Rate ['-'] 0
  | num (l : List Char) (n : Nat) : Decimal l n → 0 < n → n < 2 ^ 63 - 1 → Rate l n

/-- Names of positions, and their numbers. -/
def positions : List String :=
  ["FL", "FLC", "FC", "FRC", "FR", "SL", "SR", "BL", "BC", "BR", "TFL", "TFR", "TML", "TMR", "TBL",
   "TBR", "LFE"]

/-- Presets, and their channels. -/
def presets : List (String × List String) :=
  [("mono", ["FC"]), ("stereo", ["FL", "FR"]), ("surround2.1", ["FL", "FR", "LFE"]),
   ("surround3.0", ["FL", "FC", "FR"]), ("surround3.1", ["FL", "FC", "FR", "LFE"]),
   ("surround4.0", ["FL", "FR", "BL", "BR"]), ("surround4.1", ["FL", "FR", "BL", "BR", "LFE"]),
   ("surround5.0", ["FL", "FC", "FR", "BL", "BR"]),
   ("surround5.1", ["FL", "FC", "FR", "BL", "BR", "LFE"]),
   ("surround5.1.2", ["FL", "FC", "FR", "BL", "BR", "LFE", "TML", "TMR"]),
   ("surround5.1.4", ["FL", "FC", "FR", "BL", "BR", "LFE", "TFL", "TFR", "TBL", "TBR"]),
   ("surround6.0", ["FL", "FC", "FR", "BL", "BC", "BR"]),
   ("surround6.1", ["FL", "FC", "FR", "BL", "BC", "BR", "LFE"]),
   ("surround7.0", ["FL", "FC", "FR", "SL", "SR", "BL", "BR"]),
   ("surround7.1", ["FL", "FC", "FR", "SL", "SR", "BL", "BR", "LFE"]),
   ("surround7.1.2", ["FL", "FC", "FR", "SL", "SR", "BL", "BR", "LFE", "TML", "TMR"]),
   ("surround7.1.4", ["FL", "FC", "FR", "SL", "SR", "BL", "BR", "LFE", "TFL", "TFR", "TBL", "TBR"])]

/-- Numbers of the positions with these names. -/
def channelsOf (l : List String) : Finset Nat := (Finset.range 17).filter fun n => positions[n]! ∈ l

/-- List of names of positions. -/
inductive Names : List Char → Finset Nat → Prop where
  | one (n : Nat) (s : String) : positions[n]? = some s → Names s.toList {n}
  | more (l : List Char) (A : Finset Nat) (n : Nat) (s : String) : Names l A → positions[n]? = some s →
      Names (l ++ ',' :: s.toList) (insert n A)

/-- A track, or a range of tracks. -/
inductive Item : List Char → Finset Nat → Prop where
  | track (l : List Char) (n : Nat) : Decimal l n → n < 1024 → Item l {n}
  | range (l l' : List Char) (a b : Nat) : Decimal l a → Decimal l' b → a ≤ b → b < 1024 →
      Item (l ++ '-' :: l') (Finset.Icc a b)

/-- List of tracks and ranges. -/
inductive Tracks : List Char → Finset Nat → Prop where
  | one (l : List Char) (A : Finset Nat) : Item l A → Tracks l A
  | more (l l' : List Char) (A B : Finset Nat) : Tracks l A → Item l' B →
      Tracks (l ++ ',' :: l') (A ∪ B)

/-- Channels: "-", a preset, a list of positions, a mask of 1024 bits, or a list of tracks. -/
inductive Channels : List Char → Layout → Order → Finset Nat → Prop where
  | dash : Channels ['-'] .none .none ∅
  | preset (s : String) (l : List String) : (s, l) ∈ presets →
      Channels s.toList .surround .smpte (channelsOf l)
  | names (l : List Char) (A : Finset Nat) : Names l A → Channels l .surround .smpte A
  | mask (l : List Char) : l ≠ [] → (∀ c ∈ l, HexDigit c) → value 16 l < 2 ^ 1024 →
      Channels ('0' :: 'x' :: l) .multitrack .none
        ((Finset.range 1024).filter fun n => (value 16 l).testBit n = true)
  | tracks (l : List Char) (A : Finset Nat) : Tracks l A → Channels l .multitrack .none A

/-- A sample spec. -/
def Means (s : List Char) (fmt rate : Nat) (layout : Layout) (order : Order) (A : Finset Nat) : Prop :=
  ∃ f r c, s = f ++ '/' :: (r ++ '/' :: c) ∧ Format f fmt ∧ Rate r rate ∧ Channels c layout order A

/-- A range with its bounds in the wrong order. -/
inductive Reversed : List Char → Prop where
  | mk (l l' : List Char) (a b : Nat) : Decimal l a → Decimal l' b → b < a → a < 1024 →
      Reversed (l ++ '-' :: l')

/-- Channels on which the parser aborts: a mask with a bit beyond 1024; a list of tracks, in which the
first item that has no meaning is a reversed range. -/
inductive Aborts : List Char → Prop where
  | mask (l : List Char) : l ≠ [] → (∀ c ∈ l, HexDigit c) → 2 ^ 1024 ≤ value 16 l →
      Aborts ('0' :: 'x' :: l)
  | first (l t : List Char) : Reversed l → (t = [] ∨ ∃ t', t = ',' :: t') → Aborts (l ++ t)
  | later (l l' t : List Char) (A : Finset Nat) : Tracks l A → Reversed l' →
      (t = [] ∨ ∃ t', t = ',' :: t') → Aborts (l ++ ',' :: (l' ++ t))

/-- A format whose name does not fit into 15 characters. -/
def LongFormat (s : List Char) : Prop :=
  ∃ f t, s = f ++ '/' :: t ∧ 15 < f.length ∧
    ∀ c ∈ f, c ∈ "abcdefghijklmnopqrstuvwxyz0123456789_".toList

end Verif.SpecParse.Spec
