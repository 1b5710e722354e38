import Verif.CsvDumper.Model

/-!
# Meaning of a CSV line
-/

namespace Verif.CsvDumper

/-- The line a reader expects: the type, then each field after a comma. -/
def text (e : Entry) : List Char := e.type :: e.fields.flatMap fun f => ',' :: f.fmt

/-- The line without its last field. -/
def textButLast (e : Entry) : List Char :=
  e.type :: e.fields.dropLast.flatMap fun f => ',' :: f.fmt

/-- A field below `10^d` in magnitude. -/
def Below (d : Nat) : Field → Prop
  | .fin _ m => m < 10 ^ d * 1000000
  | _ => True

end Verif.CsvDumper
