import Verif.TsMapping.Model
import Verif.Units.Lemmas

/-! # C51: capture time mapping -/

namespace Verif.TsMapping

open Verif.Units

/-- A report of the sender: capture time and true (unwrapped) stream time. -/
structure Report where
  captureTs : Int
  stream : Int
deriving DecidableEq, Repr

/-- The last report with a meaningful capture time. -/
def lastValid : List Report → Option Report → Option Report
  | [], acc => acc
  | r :: rs, acc => lastValid rs (if 0 < r.captureTs then some r else acc)

/-- The state describes a report. -/
def Holds (s : St) : Option Report → Prop
  | none => s.hasTs = false
  | some r => s.hasTs = true ∧ s.captTs = r.captureTs ∧ s.rtpTs = BitVec.ofInt 32 r.stream

theorem holds_fold (rs : List Report) : ∀ (s : St) (acc : Option Report), Holds s acc →
    Holds (rs.foldl (fun s r => updateMapping s r.captureTs (BitVec.ofInt 32 r.stream)) s)
      (lastValid rs acc) := by
  induction rs with
  | nil => intro s acc h; exact h
  | cons r rs ih =>
    intro s acc h
    rw [List.foldl_cons]
    unfold lastValid
    apply ih
    unfold updateMapping
    by_cases hc : r.captureTs ≤ 0
    · rw [if_pos hc, if_neg (by omega)]
      cases acc <;> exact h
    · rw [if_neg hc, if_pos (by omega)]
      exact ⟨rfl, rfl, rfl⟩

/-- **C51** (receiver). After every sequence of sender reports, a packet whose true stream time is less
than 2^31 samples away from the last valid report gets the capture time of the report plus the
duration of the difference, across wraps of the 32-bit stream time; if there was no valid report
the packet is left without capture time. -/
theorem C51_inject (toNs : Int → Int) (rs : List Report) (t : Int) :
    let s := rs.foldl (fun s r => updateMapping s r.captureTs (BitVec.ofInt 32 r.stream)) init
    match lastValid rs none with
    | none => inject toNs s ⟨BitVec.ofInt 32 t, 0⟩ = some ⟨BitVec.ofInt 32 t, 0⟩
    | some r => -(2 ^ 31) ≤ t - r.stream → t - r.stream < 2 ^ 31 →
        inject toNs s ⟨BitVec.ofInt 32 t, 0⟩ =
          some ⟨BitVec.ofInt 32 t, r.captureTs + toNs (t - r.stream)⟩ := by
  have h := holds_fold rs init none rfl
  simp only
  cases hl : lastValid rs none with
  | none =>
    rw [hl] at h
    simp only [Holds] at h
    simp only [inject, h]
    rfl
  | some r =>
    rw [hl] at h
    obtain ⟨h1, h2, h3⟩ := h
    simp only
    intro hlo hhi
    simp only [inject, h1, h2, h3, ne_eq, not_true, if_false, if_true]
    rw [show tsDiff (BitVec.ofInt 32 t) (BitVec.ofInt 32 r.stream) = t - r.stream from by
      unfold tsDiff
      have : BitVec.ofInt 32 t - BitVec.ofInt 32 r.stream = BitVec.ofInt 32 (t - r.stream) := by
        apply BitVec.eq_of_toNat_eq
        simp only [BitVec.toNat_sub, BitVec.toNat_ofInt]
        omega
      rw [this, BitVec.toInt_ofInt, Int.bmod_def]
      omega]

/-- Two reports, one of them invalid; packet after a wrap of the stream time; 1 sample = 10 ns. -/
example : inject (· * 10)
    (([⟨1000, 2 ^ 32 - 100⟩, ⟨-5, 7⟩] : List Report).foldl
      (fun s r => updateMapping s r.captureTs (BitVec.ofInt 32 r.stream)) init)
    ⟨BitVec.ofInt 32 (2 ^ 32 + 50), 0⟩ = some ⟨50, 1000 + 150 * 10⟩ := by decide
example : lastValid [⟨1000, 2 ^ 32 - 100⟩, ⟨-5, 7⟩] none = some ⟨1000, 2 ^ 32 - 100⟩ := by decide

/-- **C51** (misuse). A packet that already has a capture time is detected. -/
theorem C51_double_detected (toNs : Int → Int) (s : St) (p : Pkt) (h : p.captureTs ≠ 0) :
    inject toNs s p = none := by
  unfold inject; rw [if_pos h]

example := C51_double_detected id init ⟨5, 7⟩ (by decide)

/-- The last packet of the sender that had a capture time. -/
def lastStamped : List Report → Option Report → Option Report
  | [], acc => acc
  | r :: rs, acc => lastStamped rs (if r.captureTs ≠ 0 then some r else acc)

/-- The packets written by the sender, as a fold of `extract`. -/
def extractAll (s : St) : List Report → Option St
  | [] => some s
  | r :: rs => match extract s ⟨BitVec.ofInt 32 r.stream, r.captureTs⟩ with
    | none => none
    | some s => extractAll s rs

theorem extract_fold (rs : List Report) (hn : ∀ r ∈ rs, 0 ≤ r.captureTs) :
    ∀ (s : St) (acc : Option Report), Holds s acc →
      ∃ s', extractAll s rs = some s' ∧ Holds s' (lastStamped rs acc) := by
  induction rs with
  | nil => intro s acc h; exact ⟨s, rfl, h⟩
  | cons r rs ih =>
    intro s acc h
    have h0 := hn r (by simp)
    have ih := ih (fun x hx => hn x (by simp [hx]))
    unfold extractAll lastStamped extract
    simp only
    rw [if_neg (by omega)]
    by_cases hc : r.captureTs ≠ 0
    · rw [if_pos hc, if_pos hc]
      exact ih _ (some r) ⟨rfl, rfl, rfl⟩
    · rw [if_neg hc, if_neg hc]
      exact ih s acc h

/-- **C51** (sender). After every sequence of packets with non-negative capture times, the mapping of a
positive time is the stream time of the last stamped packet plus the number of samples in the
difference, as a 32-bit stream time; asking before any stamped packet is detected. -/
theorem C51_extract (toSamples : Int → Int) (rs : List Report) (hn : ∀ r ∈ rs, 0 ≤ r.captureTs)
    (now : Int) (hnow : 0 < now) :
    ∃ s, extractAll init rs = some s ∧
      getMapping toSamples s now = (lastStamped rs none).map (fun r =>
        BitVec.ofInt 32 (r.stream + toSamples (now - r.captureTs))) := by
  obtain ⟨s, e, h⟩ := extract_fold rs hn init none rfl
  refine ⟨s, e, ?_⟩
  unfold getMapping
  rw [if_neg (by omega)]
  cases hl : lastStamped rs none with
  | none =>
    rw [hl] at h
    simp only [Holds] at h
    simp [h]
  | some r =>
    rw [hl] at h
    obtain ⟨h1, h2, h3⟩ := h
    simp [h1, h2, h3, BitVec.ofInt_add]

/-- **C51** (end to end). If the conversions between samples and nanoseconds are exact on the two
differences involved, the receiver reconstructs exactly the capture time of a packet from a report
made by the sender at time `now`. -/
theorem C51_end_to_end (toSamples toNs : Int → Int) (sent : Report) (now : Int) (t capture : Int)
    (hsent : 0 < sent.captureTs) (hnow : 0 < now)
    (hexact : toNs (t - (sent.stream + toSamples (now - sent.captureTs))) = capture - now)
    (hlo : -(2 ^ 31) ≤ t - (sent.stream + toSamples (now - sent.captureTs)))
    (hhi : t - (sent.stream + toSamples (now - sent.captureTs)) < 2 ^ 31) :
    ∃ s m, extractAll init [sent] = some s ∧ getMapping toSamples s now = some m ∧
      inject toNs (updateMapping init now m) ⟨BitVec.ofInt 32 t, 0⟩ =
        some ⟨BitVec.ofInt 32 t, capture⟩ := by
  obtain ⟨s, e, h⟩ := C51_extract toSamples [sent] (by simp; omega) now hnow
  simp only [lastStamped] at h
  rw [if_pos (by omega)] at h
  refine ⟨s, _, e, h, ?_⟩
  have hi := C51_inject toNs [⟨now, sent.stream + toSamples (now - sent.captureTs)⟩] t
  simp only [lastValid, if_pos hnow, List.foldl_cons, List.foldl_nil] at hi
  rw [hi hlo hhi, hexact]
  congr 2
  omega

/-- 10 ns per sample; report 40 samples after the stamped packet, packet 60 samples after that. -/
example := C51_end_to_end (· / 10) (· * 10) ⟨1000, 2 ^ 32 - 50⟩ 1400 (2 ^ 32 + 50) 2000 (by decide)
  (by decide) (by decide) (by decide) (by decide)

end Verif.TsMapping
