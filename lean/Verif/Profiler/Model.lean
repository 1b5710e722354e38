import Mathlib.Data.Rat.Floor
import Mathlib.Logic.Function.Basic

/-!
# Profiler of the pipeline

Model of `src/internal_modules/roc_audio/profiler.cpp`. `float` is modelled by rational numbers, without
rounding; a division by zero, which gives an infinite value or "not a number", is the outcome "nothing".
The array of chunks is a function on indexes; that the indexes are inside of the array is a part of
the theorems. Not modelled: the rate limiter of log lines (C30), memory.
-/

namespace Verif.Profiler

/-- Division (`profiler.cpp:79, 87, 92, 106, 115, 120`). -/
def qdiv (a b : ℚ) : Option ℚ := if b = 0 then none else some (a / b)

/-- Fields (`profiler.h:70-87`); `L` is `chunk_length_`, `N` is `num_chunks_`. -/
structure P where
  L : Nat
  N : Nat
  chunks : Nat → ℚ
  first : Nat
  last : Nat
  samples : Nat
  avg : ℚ
  full : Bool

/-- Result of the constructor: division by zero of integers, a profiler that is not valid, a valid
one. (Part of the model of roc_audio/profiler.cpp:18-131.) -/
inductive Made
  | trap
  | invalid
  | made (p : P)

/-- Value of `(unsigned long)` of a signed 64-bit number (`profiler.cpp:26-27`). -/
def toULong (x : Int) : Nat := (x % 2 ^ 64).toNat

/-- The constructor (`profiler.cpp:18-53`), when the memory suffices; times are in nanoseconds. A
negative `chunk_length_` is not computed: the configuration is then rejected. -/
def create (rate : Nat) (interval chunk : Int) : Made :=
  if toULong chunk = 0 then .trap
  else
    let L := ⌊(rate : ℚ) * ((chunk : ℚ) / 1000000000)⌋.toNat
    let N := (toULong interval / toULong chunk + 1) % 2 ^ 64
    if interval < 0 ∨ chunk < 0 ∨ L = 0 ∨ N = 0 then .invalid
    else .made { L := L, N := N, chunks := fun _ => 0, first := 0, last := 0, samples := 0, avg := 0,
                 full := false }

/-- One round of the loop: `n` samples of speed `v` (`profiler.cpp:95-127`). -/
def P.round (p : P) (v : ℚ) (n : Nat) : Option P := do
  let samples := p.samples + n
  let d ← qdiv (v - p.chunks p.last) samples
  let speed := p.chunks p.last + d * n
  let chunks := Function.update p.chunks p.last speed
  if samples = p.L then
    let last := (p.last + 1) % p.N
    if last = p.first then
      let d ← qdiv (speed - chunks p.first) ((p.N - 1 : Nat) : ℚ)
      some { p with chunks := Function.update chunks last 0, first := (p.first + 1) % p.N, last := last,
                    samples := 0, avg := p.avg + d, full := true }
    else
      let a ← qdiv (p.avg * ((last - 1 : Nat) : ℚ) + speed) last
      some { p with chunks := Function.update chunks last 0, last := last, samples := 0, avg := a }
  else some { p with chunks := chunks, samples := samples }

/-- The loop (`profiler.cpp:94-130`); a round without samples would be repeated forever. -/
def P.loop (p : P) (v : ℚ) (fd : Nat) : Option P :=
  if _h : fd = 0 then some p
  else
    let n := min fd (p.L - p.samples)
    if _h2 : n = 0 then none
    else match p.round v n with
      | none => none
      | some q => q.loop v (fd - n)
termination_by fd
decreasing_by omega

/-- `add_frame` (`profiler.cpp:59-71`) with `update_moving_avg_` (`profiler.cpp:90-131`): a frame of `fd`
samples that took `elapsed` nanoseconds. -/
def P.addFrame (p : P) (fd : Nat) (elapsed : Int) : Option P := do
  let v ← qdiv ((fd : ℚ) * 1000000000) elapsed
  p.loop v fd

/-- `get_moving_avg` (`profiler.cpp:73-88`). -/
def P.movingAvg (p : P) : Option ℚ :=
  if p.full = false then
    let n : ℚ := ((p.L * p.last : Nat) : ℚ)
    qdiv (p.avg * n + p.chunks p.last * p.samples) (n + p.samples)
  else
    let n : ℚ := ((p.L * (p.N - 1) : Nat) : ℚ)
    qdiv (p.avg * n - p.chunks p.first * p.samples + p.chunks p.last * p.samples) n

/-- A sequence of frames. (Part of the model of roc_audio/profiler.cpp:18-131.) -/
def P.addFrames (p : P) : List (Nat × Int) → Option P
  | [] => some p
  | f :: fs => match p.addFrame f.1 f.2 with
    | none => none
    | some q => q.addFrames fs

end Verif.Profiler
