/-!
# Moving statistics

Model of `src/internal_modules/roc_core/mov_stats.h` for integer samples without overflow
(`T = int64_t` in the repository). The two ring queues (capacity `win_len + 1`) are lists, front
first: `Verif.RingQueue.C12_deque_partial` says that a ring queue of capacity `N` is a deque as long
as it holds at most `N - 1` elements, and `Props.lean` proves that they hold at most `win_len`.
Square root and division by `n * n` of `mov_var` are floating point and not modelled; its argument is.
-/

namespace Verif.MovStats

/-- Fields of `MovStats` (roc_core/mov_stats.h:208-225). -/
structure State where
  win : Nat
  buf : Nat → Int
  buf2 : Nat → Int
  idx : Nat
  movsum : Int
  movsum2 : Int
  full : Bool
  qmax : List Int
  currMax : Int
  qmin : List Int
  currMin : Int

/-- Constructor (roc_core/mov_stats.h:32-64); `none` is the panic for an empty window. `resize` fills
the buffers with `T()`, i.e. zeros (roc_core/array.h:190-192). -/
def State.init (win : Nat) : Option State :=
  if win = 0 then none
  else some ⟨win, fun _ => 0, fun _ => 0, 0, 0, 0, false, [], 0, [], 0⟩

/-- Buffer assignment. (Part of the model of roc_core/mov_stats.h:32-225.) -/
def upd (f : Nat → Int) (i : Nat) (v : Int) : Nat → Int := fun k => if k = i then v else f k

/-- The loop `while (!is_empty() && p(back())) pop_back()` (roc_core/mov_stats.h:174-176, 198-200). -/
def popBackWhile (p : Int → Bool) (q : List Int) : List Int := (q.reverse.dropWhile p).reverse

/-- `slide_max_` / `slide_min_` (roc_core/mov_stats.h:165-182, 189-206), with `worse b x` being
`b < x` for the maximum and `b > x` for the minimum. Returns the queue and the current value. -/
def slide (worse : Int → Int → Bool) (q : List Int) (curr x xOld : Int) : List Int × Int :=
  if q = [] then ([x], x)
  else
    let (q, curr) :=
      if q.head? = some xOld then
        (q.tail, match q.tail.head? with | none => x | some y => y)
      else (q, curr)
    let q := popBackWhile (fun b => worse b x) q
    let curr := if q = [] then x else curr
    (q ++ [x], curr)

/-- `add` (roc_core/mov_stats.h:72-90). -/
def State.add (s : State) (x : Int) : State :=
  let xOld := s.buf s.idx
  let x2Old := s.buf2 s.idx
  let wrap := s.idx + 1 = s.win
  let (qmax, currMax) := slide (fun b x => decide (b < x)) s.qmax s.currMax x xOld
  let (qmin, currMin) := slide (fun b x => decide (b > x)) s.qmin s.currMin x xOld
  { s with
    buf := upd s.buf s.idx x
    buf2 := upd s.buf2 s.idx (x * x)
    movsum := s.movsum + (x - xOld)
    movsum2 := s.movsum2 + (x * x - x2Old)
    idx := if wrap then 0 else s.idx + 1
    full := if wrap then true else s.full
    qmax := qmax
    currMax := currMax
    qmin := qmin
    currMin := currMin }

/-- Number of samples `n` used by `mov_avg` and `mov_var`
(roc_core/mov_stats.h:94-101, 107-114). -/
def State.count (s : State) : Nat := if s.full then s.win else s.idx

/-- `mov_avg` (roc_core/mov_stats.h:93-103); C++ division truncates. -/
def State.avg (s : State) : Int := if s.count = 0 then 0 else s.movsum.tdiv s.count

/-- The numerator under the square root of `mov_var` (roc_core/mov_stats.h:115). -/
def State.varNum (s : State) : Int := s.count * s.movsum2 - s.movsum * s.movsum

/-- `extend_win` (roc_core/mov_stats.h:138-157), successful allocation; `none` is the panic. The new
elements of the buffers are zero. `win_len_` is const and stays. -/
def State.extendWin (s : State) (newWin : Nat) : Option State :=
  if newWin ≤ s.win then none
  else
    some { s with
      movsum := ((List.range s.idx).map s.buf).sum
      movsum2 := ((List.range s.idx).map s.buf2).sum
      full := false }

end Verif.MovStats
