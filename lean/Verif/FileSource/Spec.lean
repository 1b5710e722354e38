import Verif.FileSource.Model

/-!
What a reader of samples is expected to deliver, independently of the sources.
-/

namespace Verif.FileSource

/-- The frame of `n` samples at offset `off` of `data`: `none` (end of stream) when nothing is
left, otherwise the samples followed by zeros up to the requested size
(`wav_source.cpp:122-160`). -/
def expect {α : Type} (zero : α) (data : List α) (off n : Nat) : Option (List α) :=
  if n = 0 ∨ data.length ≤ off then none
  else some (((data.drop off) ++ List.replicate n zero).take n)

/-- A reference source: the samples, a cursor, and whether reading is suspended
(`isource.h:23-35`). -/
structure Ref (α : Type) where
  data : List α
  off : Nat
  paused : Bool

/-- The calls on the reference source, for an input that stays open while paused: `read`
advances the cursor by the requested size, `restart` moves it to the beginning. `pausable`
tells whether `pause` suspends reading (`idevice.h:44-59`). -/
def Ref.step {α : Type} (zero : α) (pausable : Bool) (s : Ref α) : Op α → Res α × Ref α
  | .read n _ =>
      if s.paused then (.frame none, s)
      else (.frame (expect zero s.data s.off n), { s with off := s.off + n })
  | .pause => (.done, { s with paused := pausable })
  | .resume _ => (.flag true, { s with paused := false })
  | .restart _ _ => (.flag true, { s with off := 0, paused := false })
  | .query => (.done, s)

/-- The calls on the reference source, for a device: `resume` after `pause`, and `restart`, begin
a new recording (`sox_source.cpp:122-199`). -/
def Ref.stepDev {α : Type} (zero : α) (s : Ref α) : Op α → Res α × Ref α
  | .read n _ =>
      if s.paused then (.frame none, s)
      else (.frame (expect zero s.data s.off n), { s with off := s.off + n })
  | .pause => (.done, { s with paused := true })
  | .resume none => (.flag true, { s with paused := false })
  | .resume (some i) =>
      if s.paused then (.flag true, { data := i.data, off := 0, paused := false })
      else (.flag true, s)
  | .restart _ none => (.flag true, s)
  | .restart _ (some i) => (.flag true, { data := i.data, off := 0, paused := false })
  | .query => (.done, s)

/-- The results of a sequence of calls on a reference source (`isource.h:23-35`). -/
def refRun {α : Type} (step : Ref α → Op α → Res α × Ref α) : Ref α → List (Op α) → List (Res α)
  | _, [] => []
  | s, o :: os => (step s o).1 :: refRun step (step s o).2 os

/-- The results of a sequence of calls on a source, `none` when one of them aborts
(`isource.h:23-35`). -/
def results {α σ : Type} (step : σ → Op α → Except Panic (Res α × σ)) (s : σ)
    (ops : List (Op α)) : Option (List (Res α)) :=
  match run step s ops with
  | .error _ => none
  | .ok (rs, _) => some rs

/-- All seeks of the calls succeed, and an input that is opened again is the input `i`
(`sox_source.cpp:165-199`, `sndfile_source.cpp:95-117`). -/
def Stable {α : Type} (i : Input α) : Op α → Prop
  | .resume o => o = some i
  | .restart k o => k = true ∧ o = some i
  | _ => True

/-- The size of every frame read is a multiple of `c` (`frame.h`). -/
def Aligned {α : Type} (c : Nat) : Op α → Prop
  | .read n _ => c ∣ n
  | _ => True

/-- An input that is opened again has the rate and the channels asked for and is a device
(`sox_source.cpp:366-399`). -/
def DevOk {α : Type} (rate chans : Nat) : Op α → Prop
  | .resume o => ∃ i, o = some i ∧ i.isFile = false ∧ (rate = 0 ∨ rate = i.rate) ∧
      (chans = 0 ∨ chans = i.chans)
  | .restart _ o => ∃ i, o = some i ∧ i.isFile = false ∧ (rate = 0 ∨ rate = i.rate) ∧
      (chans = 0 ∨ chans = i.chans)
  | _ => True

/-- Along a sequence of calls on a reference source every call meets the condition `ok`
(`isource.h:23-35`). -/
def Along {α : Type} (step : Ref α → Op α → Res α × Ref α) (ok : Ref α → Op α → Prop) :
    Ref α → List (Op α) → Prop
  | _, [] => True
  | s, o :: os => ok s o ∧ Along step ok (step s o).2 os

/-- A recording is not resumed after its end was reached (`sox_source.cpp:143-163`). -/
def NotEnded {α : Type} (r : Ref α) : Op α → Prop
  | .resume _ => r.off ≤ r.data.length
  | _ => True

/-- Not a query of the parameters (`sox_source.cpp:201-239`). -/
def NoQuery {α : Type} : Op α → Prop
  | .query => False
  | _ => True

end Verif.FileSource
