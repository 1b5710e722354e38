/-!
# Line of a CSV file

Model of `CsvDumper::dump_` (`src/internal_modules/roc_core/csv_dumper.cpp:139-168`).

Strings are lists of characters. The array `line` is a list of 256 characters, which is written by
`snprintf`; a write outside of the array is an outcome of its own. A field is a `double` as `%f` sees
it: the magnitude is rounded by the C library to a multiple of `10^-6`, and this integer multiple is
the field of the model. Not modelled: an error of `snprintf` itself (a negative result), a result
above `INT_MAX`.
-/

namespace Verif.CsvDumper

/-- A field (`csv_dumper.h:36`), after the rounding of `%f`: sign and number of millionths. -/
inductive Field where
  | fin (neg : Bool) (micro : Nat)
  | inf (neg : Bool)
  | nan (neg : Bool)
deriving DecidableEq, Repr

/-- `CsvEntry` (`csv_dumper.h:33-42`); the list holds the first `n_fields` fields. -/
structure Entry where
  type : Char
  fields : List Field
deriving DecidableEq, Repr

/-- Sign printed by `%f` (`csv_dumper.cpp:154`). -/
def sign (neg : Bool) : List Char := if neg then ['-'] else []

/-- Six digits after the decimal point (`csv_dumper.cpp:154`, the default precision of `%f`). -/
def frac6 (n : Nat) : List Char :=
  [n / 100000, n / 10000, n / 1000, n / 100, n / 10, n].map fun k => Nat.digitChar (k % 10)

/-- `%f` (`csv_dumper.cpp:154`). -/
def Field.fmt : Field → List Char
  | .fin neg m => sign neg ++ Nat.toDigits 10 (m / 1000000) ++ ['.'] ++ frac6 (m % 1000000)
  | .inf neg => sign neg ++ ['i', 'n', 'f']
  | .nan neg => sign neg ++ ['n', 'a', 'n']

/-- `MaxLineLen` (`csv_dumper.cpp:140`). -/
def maxLine : Nat := 256

/-- The third argument of `snprintf`, `sizeof(line) - off - 1` (`csv_dumper.cpp:148,154`), a
`size_t`. -/
def room (off : Nat) : Nat := (maxLine + 2 ^ 64 - off - 1) % 2 ^ 64

/-- What `snprintf(line + off, size, …)` stores when the formatted string is `s`
(`csv_dumper.cpp:147, 154`); nothing when it leaves the array. -/
def snprintf (line : List Char) (off size : Nat) (s : List Char) : Option (List Char) :=
  if maxLine < off then none
  else if size = 0 then some line
  else
    let w := s.take (size - 1) ++ ['\x00']
    if off + w.length ≤ maxLine then some (line.take off ++ w ++ line.drop (off + w.length))
    else none

/-- The loop over the fields (`csv_dumper.cpp:153-159`): the array after it. -/
def fieldLoop (line : List Char) (off : Nat) : List Field → Option (List Char)
  | [] => some line
  | f :: fs =>
    let s := ',' :: f.fmt
    match snprintf line off (room off) s with
    | none => none
    | some line => fieldLoop line (off + s.length) fs

/-- `%s` (`csv_dumper.cpp:161`): the characters before the first NUL. -/
def cstr (line : List Char) : List Char := line.takeWhile (· != '\x00')

/-- `CsvDumper::dump_` (`csv_dumper.cpp:139-168`): the characters passed to the file, or nothing when
memory outside of the array is written. -/
def dumpLine (e : Entry) : Option (List Char) :=
  match snprintf (List.replicate maxLine '\x00') 0 (room 0) [e.type] with
  | none => none
  | some line =>
    match fieldLoop line 1 e.fields with
    | none => none
    | some line => some (cstr line ++ ['\n'])

end Verif.CsvDumper
