import Verif.Profiler.Model

/-!
# Average speed
-/

namespace Verif.Profiler

/-- Speed of a frame in samples per second. -/
def speed (f : Nat × Int) : ℚ := (f.1 : ℚ) * 1000000000 / f.2

/-- The speed of every sample, in order. -/
def history : List (Nat × Int) → List ℚ
  | [] => []
  | f :: fs => List.replicate f.1 (speed f) ++ history fs

/-- Mean. -/
def mean (l : List ℚ) : ℚ := l.sum / l.length

/-- The average of the last `N - 1` chunks of `L` samples. Of the oldest chunk, as many samples are left
out as were added to the newest one, and those that remain are counted by the mean of the chunk. Until `N`
chunks are complete the average is over all samples. -/
def windowMean (L N : Nat) (h : List ℚ) : ℚ :=
  if h.length < N * L then mean h
  else
    let w := h.drop ((h.length / L + 1 - N) * L)
    let s := h.length % L
    (((L - s : Nat) : ℚ) * mean (w.take L) + (w.drop L).sum) / (((N - 1) * L : Nat) : ℚ)

end Verif.Profiler
