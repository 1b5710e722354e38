/-!
# Printer: model

Model of `Printer` (`src/internal_modules/roc_core/printer.cpp`), which collects formatted text and prints it line by line.

Simplified: a write gives the formatted text as list of characters, without null bytes; errors of `vsnprintf` are left out. The buffer is represented by its
characters up to the first null byte, because those behind have no influence.
-/

namespace Verif.Printer

/-- Outcome: a value, `roc_panic`, or undefined behaviour (roc_core/printer.cpp:43-49, 74, 86). -/
inductive Out (α : Type) where
  | ok (v : α)
  | panic
  | ub

/-- `Printer::BufferSize` (roc_core/printer.h:25-27); `buf_` has one byte more (roc_core/printer.h:48). -/
def bufferSize : Nat := 1024

/-- A printer (roc_core/printer.h:46-49): characters of `buf_` up to the first null byte, `bufsz_`, and the lines given to `println_` up to now. -/
structure St where
  mem : List Nat
  n : Nat
  out : List (List Nat)

/-- The constructor (roc_core/printer.cpp:25-28); contents of the buffer do not matter while `bufsz_` is zero. -/
def init : St := ⟨[], 0, []⟩

/-- `strchr(curr, '\n')` (roc_core/printer.cpp:65): it stops at the null byte, not at `bufsz_`. -/
def strchr (mem : List Nat) (curr : Nat) : Option Nat :=
  if 10 ∈ mem.drop curr then some (curr + (mem.drop curr).idxOf 10) else none

/-- The loop of `flush_` (roc_core/printer.cpp:64-80): `curr` after the loop and the lines; the first argument after `force` bounds the number of
iterations. With `next < curr` the size given to `println_` wraps around, and so does the one of `memmove` after the loop. -/
def loop (mem : List Nat) (n : Nat) (force : Bool) : Nat → Nat → List (List Nat) → Out (Nat × List (List Nat))
  | 0, _, _ => .ub
  | f + 1, curr, out =>
    match strchr mem curr with
    | none =>
      if force = false then .ok (curr, out)
      else if n < curr then .ub
      else .ok (curr, out ++ [(mem.drop curr).take (n - curr)])
    | some next =>
      let out := out ++ [(mem.drop curr).take (next - curr)]
      if next = n then .ok (curr, out) else loop mem n force f (next + 1) out

/-- `flush_` (roc_core/printer.cpp:57-89). -/
def flush (force : Bool) (s : St) : Out St :=
  if s.n = 0 then .ok s
  else
    match loop s.mem s.n force (s.mem.length + 1) 0 s.out with
    | .ok (curr, out) =>
      if curr = s.n then .ok ⟨s.mem, 0, out⟩
      else if s.n < curr then .ub
      else .ok ⟨(s.mem.drop curr).take (s.n - curr) ++ s.mem.drop (s.n - curr), s.n - curr, out⟩
    | .panic => .panic
    | .ub => .ub

/-- `writef` (roc_core/printer.cpp:34-55) with the formatted text. -/
def writef (t : List Nat) (s : St) : Out St :=
  if bufferSize - s.n < t.length then .panic
  else flush false ⟨s.mem.take s.n ++ t, s.n + t.length, s.out⟩

/-- The destructor (roc_core/printer.cpp:30-32). -/
def close (s : St) : Out St := flush true s

/-- Writes one after another (calls of roc_core/printer.cpp:34-55). -/
def run : List (List Nat) → St → Out St
  | [], s => .ok s
  | t :: l, s =>
    match writef t s with
    | .ok s => run l s
    | .panic => .panic
    | .ub => .ub

end Verif.Printer
