import Verif.ResamplerTime.Lemmas
import Verif.ResamplerWriter.Props

/-!
# Capture timestamps of resamplers: properties (C86)
-/

namespace Verif.ResamplerTime

open Verif.PcmFormat Verif.SampleTime Verif.BuiltinResampler

/-- Largest error of a timestamp, in nanoseconds, for a frame of `n` output samples; `len` is the number of
input samples that are converted to time. -/
def bound (inRate outRate len n : Nat) (mult : ℚ) : ℚ :=
  ((len : ℚ) / inRate + n / inRate + n / outRate * mult) * 1000000000 / 2 ^ 18 + mult + 3

theorem position_le (ds : List Nat) (n : Nat) : Spec.position ds n ≤ ds.sum := by
  unfold Spec.position
  conv_rhs => rw [← List.take_append_drop n ds, List.sum_append]
  exact Nat.le_add_right _ _

theorem ns_zero (rate : Nat) (h1 : 1 ≤ rate) (h2 : rate ≤ 2 ^ 24) : samplesToNs ((0 : Nat) : ℚ) rate = 0 := by
  have h2 := ns_err 0 rate h1 h2 le_rfl (by norm_num)
  rw [Nat.cast_zero]
  simp only [zero_div, zero_mul, sub_zero, zero_add] at h2
  have h3 : |samplesToNs 0 rate| < 1 := by
    have : (|samplesToNs 0 rate| : ℚ) < ((1 : Int) : ℚ) := by
      push_cast
      linarith
    exact_mod_cast this
  exact abs_eq_zero.1 (by have := abs_nonneg (samplesToNs 0 rate); omega)

theorem combine (inRate outRate chans a b left n dt : Nat) (mult : ℚ) (hi1 : 1 ≤ inRate)
    (hi2 : inRate ≤ 2 ^ 24) (ho1 : 1 ≤ outRate) (ho2 : outRate ≤ 2 ^ 24) (hc : 0 < chans)
    (ha : a ≤ 2 ^ 24) (hb : b ≤ 2 ^ 24) (hn : n * chans ≤ 2 ^ 24) (hc3 : chans ≤ 2 ^ 24)
    (hl : left < m32) (hm : 0 < mult)
    (hdt : |(dt : ℚ) / 2 ^ 20 - inRate / outRate * mult| ≤ 1 / 2 ^ 20 + inRate / outRate * mult / 2 ^ 22) :
    ∃ d, scaledNs outRate chans n mult = some d ∧
      |(((samplesToNs a inRate - samplesToNs b inRate
          - fractOverallToNs inRate chans (leftFloat chans left) - d : Int)) : ℚ)
        - ((a : ℚ) - b - (left : ℚ) / 2 ^ 20 - n * dt / 2 ^ 20) / inRate * 1000000000|
        ≤ ((a + b + (left : ℚ) / 2 ^ 20) / inRate / 2 ^ 21 + (n : ℚ) / inRate / 2 ^ 18
            + n / outRate * mult / 2 ^ 18) * 1000000000 + mult + 3 := by
  obtain ⟨d, hd, e1⟩ := scaled_err outRate chans n mult ho1 ho2 hc hn hc3 (le_of_lt hm)
  refine ⟨d, hd, ?_⟩
  have hq : ∀ m : Nat, m ≤ 2 ^ 24 → (m : ℚ) ≤ 2 ^ 25 := by
    intro m h
    have : (m : ℚ) ≤ ((2 ^ 24 : Nat) : ℚ) := by exact_mod_cast h
    norm_num at this ⊢
    linarith
  have e2 := ns_err (a : ℚ) inRate hi1 hi2 (by positivity) (hq a ha)
  have e3 := ns_err (b : ℚ) inRate hi1 hi2 (by positivity) (hq b hb)
  have e4 := left_err inRate chans left hi1 hi2 hc hc3 hl
  have hI : (0 : ℚ) < inRate := by exact_mod_cast hi1
  have hO : (0 : ℚ) < outRate := by exact_mod_cast ho1
  have e5 : |(n : ℚ) * dt / 2 ^ 20 / inRate - n / outRate * mult|
      ≤ n / inRate / 2 ^ 20 + n / outRate * mult / 2 ^ 22 := by
    have hnI : (0 : ℚ) ≤ n / inRate := by positivity
    have := mul_le_mul_of_nonneg_left hdt hnI
    rw [← abs_of_nonneg hnI, ← abs_mul, abs_of_nonneg hnI] at this
    rw [show (n : ℚ) * dt / 2 ^ 20 / inRate - n / outRate * mult
      = n / inRate * ((dt : ℚ) / 2 ^ 20 - inRate / outRate * mult) by field_simp]
    refine this.trans (le_of_eq ?_)
    field_simp
  obtain ⟨A, hA⟩ : ∃ A : ℚ, A = (a : ℚ) / inRate := ⟨_, rfl⟩
  obtain ⟨B, hB⟩ : ∃ B : ℚ, B = (b : ℚ) / inRate := ⟨_, rfl⟩
  obtain ⟨L, hL⟩ : ∃ L : ℚ, L = (left : ℚ) / 2 ^ 20 / inRate := ⟨_, rfl⟩
  obtain ⟨M, hM⟩ : ∃ M : ℚ, M = (n : ℚ) / outRate * mult := ⟨_, rfl⟩
  obtain ⟨N, hN⟩ : ∃ N : ℚ, N = (n : ℚ) / inRate := ⟨_, rfl⟩
  obtain ⟨D, hD⟩ : ∃ D : ℚ, D = (n : ℚ) * dt / 2 ^ 20 / inRate := ⟨_, rfl⟩
  have hM0 : 0 ≤ M := by rw [hM]; positivity
  have hN0 : 0 ≤ N := by rw [hN]; positivity
  rw [show (n : ℚ) / outRate * 1000000000 * mult = M * 1000000000 by rw [hM]; ring] at e1
  rw [← hA] at e2
  rw [← hB] at e3
  rw [← hL] at e4
  rw [← hD, ← hM, ← hN] at e5
  rw [show ((a : ℚ) - b - (left : ℚ) / 2 ^ 20 - n * dt / 2 ^ 20) / inRate = A - B - L - D by
    rw [hA, hB, hL, hD]; ring,
    show (a + b + (left : ℚ) / 2 ^ 20) / inRate = A + B + L by rw [hA, hB, hL]; ring, ← hN, ← hM]
  push_cast
  have e1' := abs_le.1 e1
  have e2' := abs_le.1 e2
  have e3' := abs_le.1 e3
  have e4' := abs_le.1 e4
  have e5' := abs_le.1 e5
  norm_num at e1' e2' e3' e4' e5' ⊢
  rw [abs_le]
  constructor <;> linarith

/-- **C86.** A frame read from a resampler that is pulled has the timestamp of the point of the input stream that its first
sample corresponds to. Let the input blocks have timestamps that follow a clock, that is, block number
`i` begins at `T + i * frame / in_rate`, up to an error `E`. After any history of reads and of
changes of the scaling, the scaling is set to `mult` and `n` samples are read. Their first sample is at the position
`frame + (sum of all steps before)` of the input, in samples; the timestamp is the
time of this position, up to `E` and `bound` (less than 120 ns for blocks and frames of 10 ms), so the error does not grow
with time. -/
theorem C86_reader {α : Type} (c : Cfg) (blk : Nat → α) (ops : List Op) (inRate outRate dt0 n fuel k : Nat)
    (mult T E : ℚ) (r : Scal) (out : List (Obs α)) (st : St α) (cts : Nat → Int) (h0 : 0 < c.frame)
    (hF : c.frame ≤ 2047) (hi2 : inRate ≤ 2 ^ 24) (ho2 : outRate ≤ 2 ^ 24) (hc : 0 < c.nch)
    (hcf : c.frame * c.nch ≤ 2 ^ 24) (hn0 : 0 < n) (hn : n * c.nch ≤ 2 ^ 24) (hm : 0 < mult) (hT : 0 ≤ T)
    (hs : setScaling c inRate outRate (.num mult) = .ok (some r))
    (hops : AllSteps c.q (ops ++ [.set r.dt, .read n]) dt0)
    (hfuel : Spec.needed (Spec.steps (ops ++ [.set r.dt, .read n]) dt0) c.q
      (Spec.steps (ops ++ [.set r.dt, .read n]) dt0).length < fuel)
    (hrun : run c blk fuel (ops ++ [.set r.dt, .read n]) dt0 0 St.init = .ok (out, k, st))
    (hcts : ∀ i, 0 < cts i ∧ |(cts i : ℚ) - (T + (i * c.frame : Nat) / inRate * 1000000000)| ≤ E) :
    ∃ last t, lastIn inRate c.nch c.frame cts k = some last
      ∧ readerTs inRate outRate c.nch last (nLeft c st) n mult = some t
      ∧ |(t : ℚ) - (T + (c.frame + (Spec.steps ops dt0).sum / 2 ^ 20) / inRate * 1000000000)|
        ≤ E + bound inRate outRate c.frame n mult := by
  obtain ⟨hi1, ho1, _, _⟩ := scaling_inv _ _ _ _ _ hs
  have hsteps : ∀ (l : List Op) (d : Nat), Spec.steps (l ++ [.set r.dt, .read n]) d
      = Spec.steps l d ++ List.replicate n r.dt := by
    intro l
    induction l with
    | nil =>
      intro d
      simp [Spec.steps]
    | cons o l ih =>
      intro d
      cases o with
      | set e => exact ih e
      | read m =>
        show List.replicate m d ++ Spec.steps (l ++ _) d = _
        rw [ih, ← List.append_assoc]
        rfl
  have hne : 0 < (Spec.steps (ops ++ [.set r.dt, .read n]) dt0).length := by
    rw [hsteps, List.length_append, List.length_replicate]
    omega
  have hleft := C84_left c blk _ dt0 fuel k out st h0 hF hops hfuel hne hrun
  rw [hsteps, List.sum_append, sum_rep] at hleft
  obtain ⟨P, hP⟩ : ∃ P, P = (Spec.steps ops dt0).sum := ⟨_, rfl⟩
  rw [← hP] at hleft ⊢
  have hq : c.q = c.frame * one := by
    unfold Cfg.q
    apply Nat.mod_eq_of_lt
    rw [m32_eq]
    exact Nat.mul_lt_mul_of_pos_right (by omega) one_pos
  have hq0 : 0 < c.q := by rw [hq]; exact Nat.mul_pos h0 one_pos
  obtain ⟨j, rfl⟩ : ∃ j, k = j + 1 := by
    refine ⟨k - 1, ?_⟩
    rcases Nat.eq_zero_or_pos k with h | h
    · subst h
      omega
    · omega
  have hk3 : j + 1 = Spec.needed (Spec.steps (ops ++ [.set r.dt, .read n]) dt0) c.q
      (Spec.steps (ops ++ [.set r.dt, .read n]) dt0).length := by
    obtain ⟨st', h⟩ := C84_positions c blk (ops ++ [.set r.dt, .read n]) dt0 fuel h0 hF hops hfuel
    rw [hrun] at h
    simp only [Except.ok.injEq, Prod.mk.injEq] at h
    exact h.2.1
  have hL : nLeft c st ≤ 2 * c.q := by
    unfold Spec.needed at hk3
    rw [if_neg (by omega)] at hk3
    obtain ⟨pos, hpos⟩ : ∃ pos, pos = Spec.position (Spec.steps (ops ++ [.set r.dt, .read n]) dt0)
      ((Spec.steps (ops ++ [.set r.dt, .read n]) dt0).length - 1) := ⟨_, rfl⟩
    rw [← hpos] at hk3
    have h1 : pos ≤ P + n * r.dt := by
      rw [hpos, hP, ← sum_rep, ← List.sum_append, ← hsteps ops dt0]
      exact position_le _ _
    have h2 := Nat.div_mul_le_self pos c.q
    have h3 : (j + 1) * c.q = pos / c.q * c.q + 3 * c.q := by rw [hk3]; ring
    omega
  have hL2 : nLeft c st < m32 := by
    unfold nLeft sub32
    exact Nat.mod_lt _ (by unfold m32; norm_num)
  have hcf1 : c.nch ≤ 2 ^ 24 := by
    have : 1 * c.nch ≤ c.frame * c.nch := Nat.mul_le_mul_right _ h0
    omega
  have hlast : lastIn inRate c.nch c.frame cts (j + 1) = some (cts j + samplesToNs c.frame inRate) := by
    unfold lastIn
    rw [if_pos (hcts j).1, overall _ _ _ hc hcf hcf1]
    rfl
  obtain ⟨d, hd, herr⟩ := combine inRate outRate c.nch c.frame 0 (nLeft c st) n r.dt mult hi1 hi2 ho1 ho2 hc
    (by omega) (by norm_num) hn hcf1 hL2 hm (C84_rate c inRate outRate mult r hi2 ho2 hm hs)
  have hz := ns_zero inRate hi1 hi2
  have hns : 0 ≤ samplesToNs (c.frame : ℚ) inRate := by
    rw [← hz]
    exact samplesToNs_mono inRate hi1 _ _ (by exact_mod_cast Nat.zero_le _)
  have hj := hcts j
  refine ⟨_, clip (cts j + samplesToNs c.frame inRate
    - fractOverallToNs inRate c.nch (leftFloat c.nch (nLeft c st)) - d), hlast, ?_, ?_⟩
  · unfold readerTs
    rw [if_neg (by omega), hd]
    rfl
  apply clip_err
  · positivity
  have hI : (0 : ℚ) < inRate := by exact_mod_cast hi1
  -- the position of the first sample
  have hpos : ((j * c.frame : Nat) : ℚ) + ((c.frame : ℚ) - (nLeft c st : ℚ) / 2 ^ 20 - n * r.dt / 2 ^ 20)
      = c.frame + P / 2 ^ 20 := by
    have h1 : ((j + 1) * (c.frame * one) : Nat) = nLeft c st + c.frame * one + (P + n * r.dt) := by
      rw [← hq]
      exact hleft
    have h2 : (((j + 1) * (c.frame * one) : Nat) : ℚ) = ((nLeft c st + c.frame * one + (P + n * r.dt) : Nat) : ℚ) := by
      rw [h1]
    push_cast at h2 ⊢
    rw [one_cast] at h2
    norm_num
    linarith
  have hLq : (nLeft c st : ℚ) / 2 ^ 20 ≤ 2 * c.frame := by
    have h1 : (nLeft c st : ℚ) ≤ ((2 * c.q : Nat) : ℚ) := by exact_mod_cast hL
    rw [hq] at h1
    push_cast at h1
    rw [one_cast] at h1
    norm_num
    linarith
  unfold bound
  rw [hz] at herr
  have hb : ((c.frame : ℚ) + ((0 : Nat) : ℚ) + (nLeft c st : ℚ) / 2 ^ 20) / inRate / 2 ^ 21
      ≤ c.frame / inRate / 2 ^ 18 := by
    rw [div_div, div_div, div_le_div_iff₀ (by positivity) (by positivity)]
    push_cast
    have : (0 : ℚ) ≤ c.frame := by positivity
    have h8 : ((c.frame : ℚ) + 0 + (nLeft c st : ℚ) / 2 ^ 20) * 2 ^ 18 ≤ c.frame * 2 ^ 21 := by
      norm_num at hLq ⊢
      linarith
    nlinarith
  have hT' : T + (c.frame + P / 2 ^ 20) / inRate * 1000000000
      = T + ((j * c.frame : Nat) : ℚ) / inRate * 1000000000
        + ((c.frame : ℚ) - ((0 : Nat) : ℚ) - (nLeft c st : ℚ) / 2 ^ 20 - n * r.dt / 2 ^ 20) / inRate * 1000000000 := by
    rw [← hpos]
    push_cast
    ring
  rw [hT']
  have h1 := abs_le.1 hj.2
  have h2 := abs_le.1 herr
  push_cast at h1 h2 ⊢
  rw [abs_le]
  constructor <;> linarith

/-- Blocks of 24 samples, reads of 480 samples at 48000: the error is below 83 ns. -/
example : bound 48000 48000 24 480 (1001 / 1000) < 83 := by
  unfold bound
  norm_num

/-- A history as in the theorem. -/
example : setScaling ⟨16, 6, 24, 2⟩ 48000 48000 (.num (1001 / 1000))
      = .ok (some ⟨18659994, 942775, 1049624⟩)
    ∧ (run ⟨16, 6, 24, 2⟩ id 100 [.read 48, .set 1049624, .read 48] 1048576 0 St.init).map
      (fun x => [x.1.length, x.2.1, nLeft ⟨16, 6, 24, 2⟩ x.2.2]) = .ok [96, 6, 25115520] := by
  decide +kernel

/-- Exact timestamps of blocks follow a clock: 24 samples at 48000 are 0.5 ms. -/
example : ∀ i : Nat, 0 < (1000000000 + i * 500000 : Int)
    ∧ |((1000000000 + i * 500000 : Int) : ℚ) - (1000000000 + (i * 24 : Nat) / (48000 : Nat) * 1000000000)| ≤ 0 := by
  intro i
  refine ⟨by positivity, ?_⟩
  push_cast
  rw [show (1000000000 + (i : ℚ) * 500000 - (1000000000 + i * 24 / 48000 * 1000000000)) = 0 by ring]
  simp

/-- **C86.** The same for a resampler that is pushed to. After any history of writes and of changes of the scaling,
the scaling is set to `mult`, and a frame `ys` is written whose first sample is at the time `T + n / in_rate`, up to
`E`, where `n` is the number of samples written before. Every frame that is passed on has the samples
from some position `p0` on, and its timestamp is the time of this position, up to `E` and `bound`. -/
theorem C86_writer {β : Type} (c : Cfg) (ops : List (ResamplerWriter.Op β)) (ys : List β)
    (inRate outRate dt0 size full fuel fuel' : Nat) (mult T E : ℚ) (r : Scal) (cts : Int)
    (frames frames' : List (ResamplerWriter.Out β)) (w w' : ResamplerWriter.W β) (h0 : 0 < c.frame)
    (hF : c.frame ≤ 2047) (hi2 : inRate ≤ 2 ^ 24) (ho2 : outRate ≤ 2 ^ 24) (hc : 0 < c.nch)
    (hcf : c.frame * c.nch ≤ 2 ^ 24) (hys : ys.length * c.nch ≤ 2 ^ 24) (hm : 0 < mult) (hT : 0 ≤ T)
    (hsize : size = full * c.nch) (hfull : 0 < full) (hsz : size ≤ 2 ^ 24)
    (hs : setScaling c inRate outRate (.num mult) = .ok (some r)) (hr0 : 0 < r.dt) (hrq : r.dt ≤ c.q)
    (hops : ResamplerWriter.AllSteps c.q ops dt0)
    (hrun : ResamplerWriter.run c size fuel ops dt0 ResamplerWriter.W.init = .ok (frames, w))
    (hfuel : (ResamplerWriter.Spec.input ops).length
      + (ResamplerWriter.Spec.positions c.frame c.q ops dt0 0 0).length ≤ fuel)
    (hwr : ResamplerWriter.write c r.dt size fuel' ys w = .ok (frames', w'))
    (hcts : cts ≠ 0)
    (hE : |(cts : ℚ) - (T + (ResamplerWriter.Spec.input ops).length / inRate * 1000000000)| ≤ E) :
    ∀ f ∈ frames', ∃ p0 t,
      f.samples = (List.range f.samples.length).map (fun i => Spec.observe
        (ResamplerWriter.Spec.block (ResamplerWriter.Spec.input ops ++ ys) c.frame) c.q (p0 + i * r.dt))
      ∧ writerTs inRate outRate c.nch cts f.inPos f.bufPos f.left f.samples.length mult = some t
      ∧ |(t : ℚ) - (T + (c.frame + p0 / 2 ^ 20) / inRate * 1000000000)|
        ≤ E + bound inRate outRate (c.frame + ys.length) f.samples.length mult := by
  obtain ⟨hi1, ho1, _, _⟩ := scaling_inv _ _ _ _ _ hs
  have hq : c.q = c.frame * one := by
    unfold Cfg.q
    apply Nat.mod_eq_of_lt
    rw [m32_eq]
    exact Nat.mul_lt_mul_of_pos_right (by omega) one_pos
  have hq0 : 0 < c.q := by rw [hq]; exact Nat.mul_pos h0 one_pos
  have hqb : c.q + c.q < m32 := by
    have := Nat.mul_le_mul_right one hF
    have := one_pos
    rw [hq, m32_eq]
    omega
  obtain ⟨n0, hn0⟩ : ∃ n0, n0 = (ResamplerWriter.Spec.input ops).length := ⟨_, rfl⟩
  obtain ⟨xs, hxs⟩ : ∃ xs, xs = ResamplerWriter.Spec.input ops ++ ys := ⟨_, rfl⟩
  have hxl : xs.length = n0 + ys.length := by rw [hxs, List.length_append, hn0]
  obtain ⟨fr, w1, g1, _, _, g4, p', g5⟩ := ResamplerWriter.run_spec c xs size full h0 hc hq0 hq hqb hsize hfull fuel
    ops dt0 0 0 ResamplerWriter.W.init (ResamplerWriter.wrel_init c _) rfl
    (by rw [List.drop_zero, hxs, List.take_left]) (by omega) hops hfuel
  rw [hrun] at g1
  simp only [Except.ok.injEq, Prod.mk.injEq] at g1
  obtain ⟨rfl, rfl⟩ := g1
  rw [Nat.zero_add, ← hn0] at g5
  obtain ⟨F, hFu⟩ : ∃ F, F = ys.length + ResamplerWriter.due c r.dt n0 p' ys := ⟨_, rfl⟩
  obtain ⟨fr2, w2, e1, _, _, _, e5⟩ := ResamplerWriter.write_spec c xs r.dt size full h0 hc hq0 hq hqb hrq hr0
    hsize hfull (fuel' + F) ys n0 p' w g5 (by rw [hxs, hn0, List.drop_left, List.take_length]) (by omega) g4 (by omega)
  rw [ResamplerWriter.write_fuel c r.dt size fuel' F ys w _ hwr] at e1
  simp only [Except.ok.injEq, Prod.mk.injEq] at e1
  obtain ⟨rfl, rfl⟩ := e1
  rw [← hn0] at hE
  rw [← hxs]
  intro f hf
  obtain ⟨⟨_, hfl⟩, k1, k2, k3, p0, k4, k5⟩ := e5 f hf
  obtain ⟨n, hn⟩ : ∃ n, n = f.samples.length := ⟨_, rfl⟩
  rw [← hn] at k4 k5 hfl ⊢
  have hc3 : c.nch ≤ 2 ^ 24 := by
    have : 1 * c.nch ≤ c.frame * c.nch := Nat.mul_le_mul_right _ h0
    omega
  have hnn : n * c.nch ≤ 2 ^ 24 := by
    have : n * c.nch ≤ full * c.nch := Nat.mul_le_mul_right _ hfl
    omega
  have hposc : f.inPos * c.nch ≤ 2 ^ 24 := (Nat.mul_le_mul_right _ k2).trans hys
  have hbufc : f.bufPos * c.nch ≤ 2 ^ 24 := (Nat.mul_le_mul_right _ k1).trans hcf
  have hle : ∀ m, m * c.nch ≤ 2 ^ 24 → m ≤ 2 ^ 24 := by
    intro m h
    have : m * 1 ≤ m * c.nch := Nat.mul_le_mul_left _ hc
    omega
  obtain ⟨d, hd, herr⟩ := combine inRate outRate c.nch f.inPos f.bufPos f.left n r.dt mult hi1 hi2 ho1 ho2 hc
    (hle _ hposc) (hle _ hbufc) hnn hc3 (by omega) hm (C84_rate c inRate outRate mult r hi2 ho2 hm hs)
  refine ⟨p0, clip (cts + samplesToNs f.inPos inRate - samplesToNs f.bufPos inRate
    - fractOverallToNs inRate c.nch (leftFloat c.nch f.left) - d), k4, ?_, ?_⟩
  · unfold writerTs
    rw [if_neg hcts, overall _ _ _ hc hposc hc3, overall _ _ _ hc hbufc hc3, hd]
    rfl
  apply clip_err
  · positivity
  have hI : (0 : ℚ) < inRate := by exact_mod_cast hi1
  have hpos : (n0 : ℚ) + ((f.inPos : ℚ) - f.bufPos - (f.left : ℚ) / 2 ^ 20 - n * r.dt / 2 ^ 20)
      = c.frame + p0 / 2 ^ 20 := by
    rw [hq] at k5
    have h2 : (((n0 + f.inPos) * one : Nat) : ℚ)
        = ((f.bufPos * one + f.left + c.frame * one + (p0 + n * r.dt) : Nat) : ℚ) := by
      rw [k5]
    push_cast at h2 ⊢
    rw [one_cast] at h2
    norm_num
    linarith
  have hLq : (f.left : ℚ) / 2 ^ 20 ≤ 2 * c.frame := by
    have h1 : (f.left : ℚ) ≤ ((2 * c.q : Nat) : ℚ) := by exact_mod_cast k3
    rw [hq] at h1
    push_cast at h1
    rw [one_cast] at h1
    norm_num
    linarith
  have hb1 : (f.bufPos : ℚ) ≤ c.frame := by exact_mod_cast k1
  have hb2 : (f.inPos : ℚ) ≤ ys.length := by exact_mod_cast k2
  have hb : ((f.inPos : ℚ) + f.bufPos + (f.left : ℚ) / 2 ^ 20) / inRate / 2 ^ 21
      ≤ ((c.frame : ℚ) + ys.length) / inRate / 2 ^ 18 := by
    rw [div_div, div_div, div_le_div_iff₀ (by positivity) (by positivity)]
    have : (0 : ℚ) ≤ c.frame := by positivity
    have : (0 : ℚ) ≤ ys.length := by positivity
    have h8 : ((f.inPos : ℚ) + f.bufPos + (f.left : ℚ) / 2 ^ 20) * 2 ^ 18 ≤ ((c.frame : ℚ) + ys.length) * 2 ^ 21 := by
      norm_num at hLq ⊢
      linarith
    nlinarith
  have hT' : T + (c.frame + p0 / 2 ^ 20) / inRate * 1000000000
      = T + (n0 : ℚ) / inRate * 1000000000
        + ((f.inPos : ℚ) - f.bufPos - (f.left : ℚ) / 2 ^ 20 - n * r.dt / 2 ^ 20) / inRate * 1000000000 := by
    rw [← hpos]
    ring
  unfold bound
  rw [hT']
  have h1 := abs_le.1 hE
  have h2 := abs_le.1 herr
  push_cast at h1 h2 ⊢
  rw [abs_le]
  constructor <;> linarith

/-- A frame of 100 samples, then one of 50 with the timestamp of 1 s; the output buffer has place for 20 samples.
The first frame begins at sample 72 of the input, which is 28 samples before sample 100. -/
example : ((ResamplerWriter.run ⟨16, 6, 24, 2⟩ 40 1000 [.write (List.replicate 100 ())] 1048576
      ResamplerWriter.W.init).bind fun x =>
    (ResamplerWriter.write ⟨16, 6, 24, 2⟩ 1049624 40 1000 (List.replicate 50 ()) x.2).map fun y =>
      y.1.map fun f => writerTs 48000 48000 2 1000000000 f.inPos f.bufPos f.left f.samples.length (1001 / 1000))
    = .ok [some 999416667, some 999833750, some 1000250833] := by
  decide +kernel

/-- **C86 fails** after a change of the scaling that was rejected: it is remembered all the same, so the
resampler goes on with 1, and frames of 480 samples have timestamps that are 10 ms too early. -/
theorem C86_rejected_fails :
    setTs ⟨16, 6, 24, 2⟩ 48000 48000 2 (1, ⟨18641352, 943718, 1048576⟩)
      = .ok (false, 2, ⟨18641352, 943718, 1048576⟩)
    ∧ readerTs 48000 48000 2 1000000000 0 480 1 = some 990000000
    ∧ readerTs 48000 48000 2 1000000000 0 480 2 = some 980000000 := by
  decide +kernel

/-- **C86 fails** when some input block has no timestamp: the timestamp of the block before is used as if there
was no block between, so the output is 0.5 ms too early (blocks of 24 samples at 48000). -/
theorem C86_no_timestamp_fails :
    lastIn 48000 2 24 (fun i => 1000000000 + i * 500000) 6 = some 1003000000
    ∧ lastIn 48000 2 24 (fun i => if i = 5 then 0 else 1000000000 + i * 500000) 6 = some 1002500000 := by
  decide +kernel

end Verif.ResamplerTime
