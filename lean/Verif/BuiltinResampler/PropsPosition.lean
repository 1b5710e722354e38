import Verif.BuiltinResampler.PropsWindow

/-!
# Built-in resampler: positions of output samples (C84)
-/

namespace Verif.BuiltinResampler

open Spec Verif.PcmFormat Verif.SampleTime

variable {α : Type}

/-- All values set in a history, and the one in the beginning, are at most `b`. -/
def AllSteps (b : Nat) (ops : List Op) (dt : Nat) : Prop :=
  dt ≤ b ∧ ∀ d, Op.set d ∈ ops → d ≤ b

theorem steps_le (b : Nat) : ∀ (ops : List Op) (dt : Nat), AllSteps b ops dt → ∀ d ∈ steps ops dt, d ≤ b := by
  intro ops
  induction ops with
  | nil =>
    intro dt _ d hd
    cases hd
  | cons op ops ih =>
    intro dt h d hd
    cases op with
    | set e => exact ih e ⟨h.2 e (by simp), fun d' hd' => h.2 d' (by simp [hd'])⟩ d hd
    | read n =>
      have hd' : d ∈ List.replicate n dt ++ steps ops dt := hd
      rcases List.mem_append.1 hd' with h1 | h1
      · rw [(List.mem_replicate.1 h1).2]
        exact h.1
      · exact ih dt ⟨h.1, fun d' hd' => h.2 d' (by simp [hd'])⟩ d h1

/-- **C84.** For any history of reads of any sizes and of changes of the scaling, output sample number `j`
is computed at the position that is exactly the sum of all steps before it, from the three blocks
of input around this position: nothing is lost, repeated or rounded, whatever the sizes of reads,
so there is no drift. The number of blocks taken from below is the least one that
is enough for the last sample. -/
theorem C84_positions (c : Cfg) (blk : Nat → α) (ops : List Op) (dt fuel : Nat) (h0 : 0 < c.frame)
    (hF : c.frame ≤ 2047) (hdt : AllSteps c.q ops dt)
    (hfuel : needed (steps ops dt) c.q (steps ops dt).length < fuel) :
    ∃ st, run c blk fuel ops dt 0 St.init
      = .ok ((List.range (steps ops dt).length).map
            (fun j => observe blk c.q (position (steps ops dt) j)),
          needed (steps ops dt) c.q (steps ops dt).length, st) := by
  have hq : c.q = c.frame * one := by
    unfold Cfg.q
    apply Nat.mod_eq_of_lt
    rw [m32_eq]
    exact Nat.mul_lt_mul_of_pos_right (by omega) one_pos
  have hq0 : 0 < c.q := by rw [hq]; exact Nat.mul_pos h0 one_pos
  have hqb : c.q + c.q ≤ m32 := by
    have := Nat.mul_le_mul_right one hF
    rw [hq, m32_eq]
    omega
  have hn : taken c.q (steps ops dt) 0 0 = needed (steps ops dt) c.q (steps ops dt).length := by
    unfold taken needed
    split_ifs with h
    · rfl
    · rw [Nat.zero_add, Nat.zero_max]
  obtain ⟨st, h1, _, _⟩ := run_spec c blk hq0 fuel (by omega) ops dt 0 0 St.init
    (fun d hd => by have := steps_le c.q ops dt hdt d hd; omega) (rel_init c blk)
    (by show 0 < m32; unfold m32; omega) (by omega)
  rw [hn] at h1
  simp only [Nat.zero_add] at h1
  exact ⟨st, h1⟩

/-- Reads of 5 and of 100 samples with a change of scaling between: 105 positions. -/
example : AllSteps (Cfg.q ⟨16, 6, 24, 1⟩) [.read 5, .set 964342, .read 100] 1048576
    ∧ (steps [.read 5, .set 964342, .read 100] 1048576).length = 105
    ∧ position (steps [.read 5, .set 964342, .read 100] 1048576) 104 = 5 * 1048576 + 99 * 964342
    ∧ needed (steps [.read 5, .set 964342, .read 100] 1048576) (Cfg.q ⟨16, 6, 24, 1⟩) 105 = 7 := by
  refine ⟨⟨by decide, ?_⟩, by decide, by decide, by decide⟩
  intro d hd
  simp only [List.mem_cons, reduceCtorEq, Op.set.injEq, List.not_mem_nil, or_false, false_or] at hd
  subst hd
  decide

/-- **C84.** With the same step all the time, output sample number `j` is at position `j * dt`. -/
theorem C84_no_drift (ns : List Nat) (dt j : Nat) (hj : j ≤ ns.sum) :
    position (steps (ns.map Op.read) dt) j = j * dt := by
  have hs : ∀ ns : List Nat, steps (ns.map Op.read) dt = List.replicate ns.sum dt := by
    intro ns
    induction ns with
    | nil => rfl
    | cons n ns ih =>
      rw [List.map_cons, List.sum_cons, List.replicate_add, ← ih]
      rfl
  have := position_replicate ns.sum dt j [] hj
  rwa [List.append_nil, ← hs] at this

example : position (steps ([160, 441, 7].map Op.read) 964342) 600 = 600 * 964342 :=
  C84_no_drift [160, 441, 7] 964342 600 (by decide)

/-- **C84.** The value behind `n_left_to_process` is exact: the length of all blocks taken, less that value, is
the point of the input for the next output sample, which is one block after its position. -/
theorem C84_left (c : Cfg) (blk : Nat → α) (ops : List Op) (dt fuel k : Nat) (out : List (Obs α)) (st : St α)
    (h0 : 0 < c.frame) (hF : c.frame ≤ 2047) (hdt : AllSteps c.q ops dt)
    (hfuel : needed (steps ops dt) c.q (steps ops dt).length < fuel) (hne : 0 < (steps ops dt).length)
    (hrun : run c blk fuel ops dt 0 St.init = .ok (out, k, st)) :
    k * c.q = nLeft c st + c.q + (steps ops dt).sum := by
  have hq : c.q = c.frame * one := by
    unfold Cfg.q
    apply Nat.mod_eq_of_lt
    rw [m32_eq]
    exact Nat.mul_lt_mul_of_pos_right (by omega) one_pos
  have hq0 : 0 < c.q := by rw [hq]; exact Nat.mul_pos h0 one_pos
  have hqb : c.q + c.q < m32 := by
    have := Nat.mul_le_mul_right one hF
    have := one_pos
    rw [hq, m32_eq]
    omega
  have hle := steps_le c.q ops dt hdt
  obtain ⟨st', h1, h2, h3⟩ := run_spec c blk hq0 fuel (by omega) ops dt 0 0 St.init
    (fun d hd => by have := hle d hd; omega) (rel_init c blk)
    (by show 0 < m32; unfold m32; omega) (by
      unfold taken
      unfold needed at hfuel
      rw [if_neg (by omega)] at hfuel ⊢
      rw [Nat.zero_add, Nat.zero_max]
      omega)
  rw [h1] at hrun
  simp only [Except.ok.injEq, Prod.mk.injEq] at hrun
  obtain ⟨_, hk, rfl⟩ := hrun
  rw [hk] at h2
  unfold taken at hk
  rw [if_neg (by omega), Nat.zero_add, Nat.zero_max] at hk
  obtain ⟨ds, hds⟩ : ∃ ds, ds = steps ops dt := ⟨_, rfl⟩
  rw [← hds] at hk h2 hne hle ⊢
  -- the last step
  have hsum : ds.sum ≤ position ds (ds.length - 1) + c.q ∧ position ds (ds.length - 1) ≤ ds.sum := by
    obtain ⟨l, hl⟩ : ∃ l, l = ds.length - 1 := ⟨_, rfl⟩
    have e : ds = ds.take l ++ ds.drop l := (List.take_append_drop l ds).symm
    have hlen : (ds.drop l).length = 1 := by rw [List.length_drop]; omega
    obtain ⟨d, hd⟩ := List.length_eq_one_iff.1 hlen
    have hmem : d ∈ ds := by
      rw [e, hd]
      simp
    have := hle d hmem
    unfold position
    rw [← hl]
    have es : ds.sum = (ds.take l).sum + d := by
      conv_lhs => rw [e, hd]
      rw [List.sum_append]
      simp
    omega
  have hk3 : 3 ≤ k := by rw [← hk]; exact Nat.le_add_left _ _
  rcases h2 with ⟨h, _⟩ | ⟨g1, g2, _⟩
  · omega
  · obtain ⟨w, rfl⟩ : ∃ w, k = w + 3 := ⟨k - 3, by omega⟩
    rw [show w + 3 - 3 = w by omega] at g2
    have hw : position ds (ds.length - 1) / c.q = w := by omega
    have hw2 : position ds (ds.length - 1) < (w + 1) * c.q := by
      rw [← hw, Nat.mul_comm]
      exact Nat.lt_mul_div_succ _ hq0
    have e1 : (w + 1) * c.q = w * c.q + c.q := by ring
    have e2 : (w + 3) * c.q = w * c.q + 3 * c.q := by ring
    unfold nLeft
    rw [Nat.mod_eq_of_lt (by omega), sub32_eq _ _ (by omega) (by omega)]
    omega

/-- After 105 samples. -/
example : nLeft ⟨16, 6, 24, 1⟩ (⟨(0, 1, 2), (0, 1, 2), fun _ => none, 3, 10 * one⟩ : St Nat) = 38 * one := by
  decide

/-- **C84.** The step is what was asked for: it differs from the ratio of rates multiplied by the
multiplier by less than 2⁻²⁰ and a relative error of 2⁻²² (0.24 ppm). -/
theorem C84_rate (c : Cfg) (inRate outRate : Nat) (mult : ℚ) (r : Scal) (hin : inRate ≤ 2 ^ 24)
    (hout : outRate ≤ 2 ^ 24) (hm : 0 < mult)
    (hs : setScaling c inRate outRate (.num mult) = .ok (some r)) :
    |(r.dt : ℚ) / 2 ^ 20 - inRate / outRate * mult|
      ≤ 1 / 2 ^ 20 + inRate / outRate * mult / 2 ^ 22 := by
  obtain ⟨s1, s2, s3, s4⟩ := scaling_inv _ _ _ _ _ hs
  obtain ⟨_, hdt, _⟩ := accepted_inv c _ r s4
  obtain ⟨e1, e2⟩ := toFix_val _ (le_of_lt s3) _ hdt
  obtain ⟨x, hx⟩ : ∃ x : ℚ, x = (inRate : ℚ) / outRate := ⟨_, rfl⟩
  have hx0 : 0 ≤ x := by rw [hx]; positivity
  have hval : newScaling inRate outRate mult = rnd 24 (rnd 24 x * mult) := by
    unfold newScaling
    rw [rnd_rate _ hin, rnd_rate _ hout, hx]
  rw [hval, rnd_idem (by norm_num)] at e1 e2
  rw [← hx]
  obtain ⟨a1, a2⟩ := rnd_bounds x hx0
  have hr0 := rnd_nonneg 24 x hx0
  obtain ⟨b1, b2⟩ := rnd_bounds (rnd 24 x * mult) (mul_nonneg hr0 (le_of_lt hm))
  have c1 := mul_le_mul_of_nonneg_right a1 (le_of_lt hm)
  have c2 := mul_le_mul_of_nonneg_right a2 (le_of_lt hm)
  obtain ⟨y, hy⟩ : ∃ y, y = x * mult := ⟨_, rfl⟩
  have hy0 : 0 ≤ y := by rw [hy]; exact mul_nonneg hx0 (le_of_lt hm)
  rw [show x * (1 - 1 / 16777216) * mult = y * (1 - 1 / 16777216) by rw [hy]; ring] at c1
  rw [show x * (1 + 1 / 16777216) * mult = y * (1 + 1 / 16777216) by rw [hy]; ring] at c2
  rw [← hy, abs_le]
  norm_num
  constructor <;> linarith

example : setScaling ⟨32, 7, 45, 2⟩ 44100 48000 (.num (1001 / 1000))
      = .ok (some ⟨37282704, 943718, 964342⟩) := by decide +kernel

/-- **C84 fails** to make progress for a very small multiplier: it is accepted, but the step becomes zero, and
all output is made of the first three blocks. -/
theorem C84_zero_step_fails :
    setScaling ⟨16, 6, 24, 1⟩ 48000 48000 (.num (1 / 2000000)) = .ok (some ⟨18641352, 943718, 0⟩) := by
  decide +kernel

/-- Blocks that the last sample of an output is made of; nothing if the read has failed. -/
def blocks (l : Option (List (Obs Nat))) : List (Option Nat) :=
  match l with
  | none => []
  | some l => match l.getLast? with
    | none => []
    | some o => [o.prev, o.cur, o.next]

/-- **C84 fails** after a failed read. Requests 0, 1, 2, 3 to the reader below succeed, request 4 fails, and
request 5 succeeds. The next output sample is made of block 3, of what the failed request has left in
the buffer, and of block 5; the sample before was made of blocks 1, 2 and 3. -/
theorem C84_failed_read_fails :
    ((readLoop ⟨16, 6, 24, 1⟩ 1048576 (fun i => (i ≠ 4, i)) 10 48 0 St.init).bind fun a =>
      (readLoop ⟨16, 6, 24, 1⟩ 1048576 (fun i => (i ≠ 4, i)) 10 1 a.2.1 a.2.2).bind fun b =>
      (readLoop ⟨16, 6, 24, 1⟩ 1048576 (fun i => (i ≠ 4, i)) 10 1 b.2.1 b.2.2).map fun d =>
        [blocks a.1, blocks b.1, blocks d.1])
      = .ok [[some 1, some 2, some 3], [], [some 3, some 4, some 5]] := by
  decide +kernel

/-- **C84 fails** for frames of more than 2047 samples: the value behind `n_left_to_process` wraps around (high
quality, mono, from 192000 to 8000: 512 instead of 4608). -/
theorem C84_left_fails :
    create 2 1 192000 8000 4096 = .ok (some ⟨64, 9, 2304, 1⟩)
    ∧ nLeft ⟨64, 9, 2304, 1⟩ (St.init : St Nat) = 512 * one := by
  decide +kernel

end Verif.BuiltinResampler
