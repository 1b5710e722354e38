import Verif.Watchdog.Model

/-!
# Watchdog: specification

Positions are counted from the beginning of the session, without wrapping.
-/

namespace Verif.Watchdog

/-- Total duration. -/
def dur : List Fr → Nat
  | [] => 0
  | f :: fs => f.dur + dur fs

/-- The frames at the end, after the last frame with playback. -/
def trailing (fs : List Fr) : List Fr := fs.reverse.takeWhile fun f => !f.notBlank

/-- The session has had no playback for the timeout. If there was no playback at all, time is counted from the end of the warm-up,
and the frame during which the warm-up ends is excused. -/
def NoPlayback (c : Cfg) (fs : List Fr) : Prop :=
  c.maxBlank ≠ 0 ∧
  if fs.any (·.notBlank) then c.maxBlank ≤ dur (trailing fs)
  else c.warmup ≤ dur fs.dropLast ∧ c.warmup + c.maxBlank ≤ dur fs

/-- There are both frames with missing samples and frames with dropped packets. -/
def Both (fs : List Fr) : Prop := (∃ f ∈ fs, f.notComplete = true) ∧ ∃ f ∈ fs, f.drops = true

instance (fs : List Fr) : Decidable (Both fs) := by unfold Both; infer_instance

/-- Length of the longest window: the window in which positions wrap has up to twice as many samples. -/
def longest (c : Cfg) (fs : List Fr) : Nat := if dur fs < m32 then c.window else 2 * c.window

/-- Playback was choppy during the timeout: each part of the last `maxDrops` samples, if it is long enough to contain a whole window
with the frames on its boundaries, has both flags. -/
def Choppy (c : Cfg) (dmax : Nat) (fs : List Fr) : Prop :=
  c.maxDrops ≠ 0 ∧ c.maxDrops ≤ dur fs ∧
  ∀ x y z, fs = x ++ y ++ z → dur fs ≤ dur x + c.maxDrops → 2 * longest c fs + dmax ≤ dur y → Both y

/-- Playback is choppy: each part at least as long as a window has both flags. -/
def AllChoppy (c : Cfg) (fs : List Fr) : Prop := ∀ x y z, fs = x ++ y ++ z → c.window ≤ dur y → Both y

/-- Frames obtained from the reader in calls. -/
def frames (h : List (Option Fr)) : List Fr := h.filterMap id

/-- Durations of frames and timeouts fit in half of the range of positions. -/
structure Sane (c : Cfg) (dmax : Nat) (h : List (Option Fr)) : Prop where
  valid : c.valid = true
  dpos : 0 < dmax
  dm : dmax ≤ 2147483648
  window : c.window < 2147483648
  durs : ∀ f ∈ frames h, f.dur ≤ dmax
  blank : c.maxBlank + dmax ≤ m32
  drops : c.maxDrops + dmax ≤ m32
  warmup : c.warmup + dmax ≤ m32

end Verif.Watchdog
