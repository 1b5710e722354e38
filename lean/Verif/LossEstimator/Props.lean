import Verif.LossEstimator.Model
import Verif.RtcpFields.Props
import Verif.SampleTime.Props

/-!
# Losses in reception reports: property C129
-/

namespace Verif.LossEstimator

open Verif.PcmFormat Verif.RtcpFields Verif.SampleTime

theorem after_snoc (l : List (Nat × Int)) (t : Nat) (x : Int) : after (l ++ [(t, x)]) = ⟨t, x⟩ := by
  simp [after, State.next]

/-- What a peer reads from a filled block. -/
theorem fill_read (s : State) (m : List Bytes.Byte) (hm : m.length = 24) (t : Nat) (x : Int) :
    ∃ n : Nat, representable (s.fraction t x) ((n : ℚ) / 256) ∧ readReport (fill s m t x).2 =
      { readReport m with fract := (n : ℚ) / 256, cum := max (-(2 ^ 23)) (min (2 ^ 23 - 1) x) } := by
  have hl : (setCumLoss m x).length = 24 := by
    unfold setCumLoss
    simp only
    rw [put_length (by omega), hm]
  obtain ⟨r, h1, h2⟩ := C24_fract_loss (setCumLoss m x) hl (s.fraction t x)
  have h3 : r = (getBits (fld (setFractLoss (setCumLoss m x) (s.fraction t x)) 4 4) 24 0xFF : Nat) / 256 := by
    have := congrArg Report.fract h2
    simp only [readReport, fractLoss] at this
    exact this.symm
  refine ⟨_, h3 ▸ h1, ?_⟩
  rw [← h3]
  unfold fill
  simp only
  rw [h2, C24_cum_loss m hm]

theorem fraction_nonneg (s : State) (t : Nat) (x : Int) : 0 ≤ s.fraction t x := by
  unfold State.fraction
  simp only
  split_ifs with h <;> first | exact le_rfl | exact not_lt.1 ‹_›

theorem rnd_256 (k : Nat) (h : k ≤ 256) : rnd 24 ((k : ℚ) / 256) = (k : ℚ) / 256 := by
  have h1 := rnd_scale 24 (k : ℚ) (-8)
  have h2 : rnd 24 (k : ℚ) = k := rnd_rate k (by omega)
  rw [h2] at h1
  have e : (2 : ℚ) ^ (-8 : Int) = 1 / 256 := by norm_num
  rw [e, mul_one_div] at h1
  exact h1

theorem fraction_small (t0 t1 : Nat) (x0 x1 : Int) (L D : Nat) (hD : t1 = t0 + D) (hL : x1 = x0 + L) (h0 : 0 < D) (hLD : L ≤ D)
    (hb : D ≤ 2 ^ 24) : (State.mk t0 x0).fraction t1 x1 = rnd 24 ((L : ℚ) / D) := by
  have e1 : x1 - x0 = (L : Int) := by omega
  have e2 : t1 - t0 = D := by omega
  unfold State.fraction
  simp only
  rw [if_pos (c := t1 > t0) (by omega), e1, e2, Int.cast_natCast, rnd_rate L (by omega), rnd_rate D hb, if_neg]
  exact not_lt.2 (rnd_nonneg _ _ (by positivity))

/-- **C129** (exact fraction). Whatever was reported before: when at most 2^15 packets were expected since the previous report (`D`), and `L` of them
were lost, the peer reads the fraction which RFC 3550 demands, `256·L/D` rounded down and limited by 255, and the cumulative loss (limited to 24
bits with sign); other fields of the block stay as they were. -/
theorem C129_exact (l : List (Nat × Int)) (t0 : Nat) (x0 : Int) (L D : Nat) (m : List Bytes.Byte) (hm : m.length = 24) (h0 : 0 < D)
    (hLD : L ≤ D) (hb : D ≤ 2 ^ 15) :
    readReport (fill (after (l ++ [(t0, x0)])) m (t0 + D) (x0 + L)).2 =
      { readReport m with
        fract := ((min 255 (256 * L / D) : Nat) : ℚ) / 256
        cum := max (-(2 ^ 23)) (min (2 ^ 23 - 1) (x0 + L)) } := by
  obtain ⟨n, h1, h2⟩ := fill_read (after (l ++ [(t0, x0)])) m hm (t0 + D) (x0 + L)
  rw [after_snoc] at h1 h2 ⊢
  rw [fraction_small t0 (t0 + D) x0 (x0 + L) L D rfl rfl h0 hLD (by omega)] at h1
  rw [h2]
  have hD : (0 : ℚ) < D := by exact_mod_cast h0
  suffices hn : n = min 255 (256 * L / D) by rw [hn]
  obtain ⟨-, h3, h4⟩ := h1
  by_cases hq : L = D
  · subst hq
    rw [div_self hD.ne'] at h4
    have e : rnd 24 (1 : ℚ) = 1 := by
      have := rnd_256 256 le_rfl
      norm_num at this
      exact this
    rw [e] at h4
    have h5 := h4 le_rfl
    have h6 : (n : ℚ) = 255 := by linarith
    have h7 : n = 255 := by exact_mod_cast h6
    rw [h7, Nat.mul_div_cancel _ h0]
    rfl
  · have hlt : L < D := by omega
    obtain ⟨k, hk⟩ : ∃ k, k = 256 * L / D := ⟨_, rfl⟩
    have k1 : k * D ≤ 256 * L := by rw [hk]; exact Nat.div_mul_le_self _ _
    have k2 : 256 * L < (k + 1) * D := by
      have := Nat.lt_mul_div_succ (256 * L) h0
      rw [← hk] at this
      linarith [Nat.mul_comm D (k + 1)]
    have k3 : k < 256 := by
      by_contra hc
      have : 256 * D ≤ k * D := Nat.mul_le_mul_right _ (by omega)
      omega
    have q1 : (k : ℚ) / 256 ≤ (L : ℚ) / D := by
      rw [div_le_div_iff₀ (by norm_num) hD]
      have : k * D ≤ L * 256 := by omega
      exact_mod_cast this
    have q2 : (L : ℚ) / D + 1 / (256 * 2 ^ 15) ≤ ((k : ℚ) + 1) / 256 := by
      have a1 : (L : ℚ) / D + 1 / (256 * D) ≤ ((k : ℚ) + 1) / 256 := by
        rw [show (L : ℚ) / D + 1 / (256 * D) = (256 * L + 1) / (256 * D) by field_simp, div_le_div_iff₀ (by positivity) (by norm_num)]
        have : (256 * L + 1) * 256 ≤ (k + 1) * (256 * D) := by nlinarith
        exact_mod_cast this
      have a2 : (1 : ℚ) / (256 * 2 ^ 15) ≤ 1 / (256 * D) := by
        apply one_div_le_one_div_of_le (by positivity)
        have : (D : ℚ) ≤ 2 ^ 15 := by exact_mod_cast hb
        linarith
      linarith
    have q3 : (L : ℚ) / D ≤ 1 := by
      rw [div_le_one hD]
      exact_mod_cast hLD
    have r1 : (k : ℚ) / 256 ≤ rnd 24 ((L : ℚ) / D) := by
      rw [← rnd_256 k (by omega)]
      exact rnd_mono 24 (by norm_num) _ _ q1
    have r2 : rnd 24 ((L : ℚ) / D) < ((k : ℚ) + 1) / 256 := by
      have he := rnd_err 24 ((L : ℚ) / D)
      rw [abs_of_nonneg (show (0 : ℚ) ≤ (L : ℚ) / D by positivity)] at he
      have := (abs_le.1 he).2
      norm_num at q2 this ⊢
      linarith
    have r0 : 0 ≤ rnd 24 ((L : ℚ) / D) := rnd_nonneg _ _ (by positivity)
    have k4 : ((k : ℚ) + 1) / 256 ≤ 1 := by
      rw [div_le_one (by norm_num)]
      have : k + 1 ≤ 256 := by omega
      exact_mod_cast this
    obtain ⟨s1, s2⟩ := h3 r0 (by linarith)
    have n1 : (n : ℚ) < (k : ℚ) + 1 := by linarith
    have n2 : (k : ℚ) < (n : ℚ) + 1 := by linarith
    have n3 : n < k + 1 := by exact_mod_cast n1
    have n4 : k < n + 1 := by exact_mod_cast n2
    rw [← hk]
    omega

/-- Three reports: 3 packets of 10 lost between the last two of them, after 100 packets without a loss. The peer reads 76/256. -/
example : (readReport (fill (after [(50, 0), (100, 0)]) (List.replicate 24 0) 110 3).2).fract = 76 / 256 := by
  have := C129_exact [(50, 0)] 100 0 3 10 (List.replicate 24 0) (by simp) (by norm_num) (by norm_num) (by norm_num)
  have := congrArg Report.fract this
  simpa using this

/-- **C129** (no bound). For any counters with `L ≤ D`, what the peer reads differs from the exact fraction by at most 1/256 and the error of three
roundings. -/
theorem C129_near (l : List (Nat × Int)) (t0 : Nat) (x0 : Int) (L D : Nat) (m : List Bytes.Byte) (hm : m.length = 24) (h0 : 0 < D) (hLD : L ≤ D) :
    |(readReport (fill (after (l ++ [(t0, x0)])) m (t0 + D) (x0 + L)).2).fract - (L : ℚ) / D| ≤ 1 / 256 + 1 / 2 ^ 22 := by
  obtain ⟨n, h1, h2⟩ := fill_read (after (l ++ [(t0, x0)])) m hm (t0 + D) (x0 + L)
  rw [after_snoc] at h1 h2 ⊢
  rw [h2]
  simp only
  have hD : (0 : ℚ) < D := by exact_mod_cast h0
  obtain ⟨e1, g1, r1⟩ := rnd_rel 24 (L : ℚ)
  obtain ⟨e2, g2, r2⟩ := rnd_rel 24 (D : ℚ)
  obtain ⟨e3, g3, r3⟩ := rnd_rel 24 (rnd 24 (L : ℚ) / rnd 24 (D : ℚ))
  rw [abs_le] at g1 g2 g3
  have p2 : (0 : ℚ) < 1 + e2 := by norm_num at g2 ⊢; linarith
  have hf : (State.mk t0 x0).fraction (t0 + D) (x0 + L) = (L : ℚ) / D * ((1 + e1) * (1 + e3) / (1 + e2)) := by
    have e1' : x0 + (L : Int) - x0 = (L : Int) := by omega
    have e2' : t0 + D - t0 = D := by omega
    unfold State.fraction
    simp only
    rw [if_pos (c := t0 + D > t0) (by omega), e1', e2', Int.cast_natCast, if_neg, r3, r1, r2]
    · field_simp
    · exact not_lt.2 (rnd_nonneg _ _ (div_nonneg (rnd_nonneg _ _ (by positivity)) (rnd_nonneg _ _ (by positivity))))
  obtain ⟨q, hq⟩ : ∃ q, q = (L : ℚ) / D := ⟨_, rfl⟩
  have q0 : 0 ≤ q := by rw [hq]; positivity
  have q1 : q ≤ 1 := by
    rw [hq, div_le_one hD]
    exact_mod_cast hLD
  have c1 : (1 + e1) * (1 + e3) / (1 + e2) ≤ 1 + 1 / 2 ^ 22 := by
    rw [div_le_iff₀ p2]
    norm_num at g1 g2 g3 ⊢
    nlinarith
  have c2 : 1 - 1 / 2 ^ 22 ≤ (1 + e1) * (1 + e3) / (1 + e2) := by
    rw [le_div_iff₀ p2]
    norm_num at g1 g2 g3 ⊢
    nlinarith
  obtain ⟨c, hc⟩ : ∃ c, c = (1 + e1) * (1 + e3) / (1 + e2) := ⟨_, rfl⟩
  rw [← hc] at c1 c2 hf
  rw [← hq] at hf ⊢
  rw [hf] at h1
  have d1 : q * c ≤ q + 1 / 2 ^ 22 := by norm_num at c1 ⊢; nlinarith
  have d2 : q - 1 / 2 ^ 22 ≤ q * c := by norm_num at c2 ⊢; nlinarith
  have d0 : 0 ≤ q * c := by
    apply mul_nonneg q0
    norm_num at c2; linarith
  obtain ⟨-, h3, h4⟩ := h1
  rw [abs_le]
  by_cases hlt : q * c < 1
  · obtain ⟨s1, s2⟩ := h3 d0 hlt
    constructor <;> linarith
  · have s := h4 (not_lt.1 hlt)
    rw [s]
    constructor <;> norm_num at d1 ⊢ <;> linarith

example : |(readReport (fill (after [(7, 2)]) (List.replicate 24 0) (7 + 2 ^ 40) (2 + (2 ^ 39 : Nat))).2).fract - ((2 ^ 39 : Nat) : ℚ) / (2 ^ 40 : Nat)| ≤
    1 / 256 + 1 / 2 ^ 22 :=
  C129_near [] 7 2 (2 ^ 39) (2 ^ 40) _ (by simp) (by norm_num) (by norm_num)

/-- **C129** (nothing lost). When no packet was expected since the previous report, or the cumulative loss did not grow (late packets or copies
came), the peer reads zero. -/
theorem C129_zero (l : List (Nat × Int)) (t0 t1 : Nat) (x0 x1 : Int) (m : List Bytes.Byte) (hm : m.length = 24) (h : t1 ≤ t0 ∨ x1 ≤ x0) :
    (readReport (fill (after (l ++ [(t0, x0)])) m t1 x1).2).fract = 0 := by
  obtain ⟨n, h1, h2⟩ := fill_read (after (l ++ [(t0, x0)])) m hm t1 x1
  rw [after_snoc] at h1 h2 ⊢
  rw [h2]
  simp only
  have hf : (State.mk t0 x0).fraction t1 x1 = 0 := by
    unfold State.fraction
    simp only
    split_ifs with a b b
    · rfl
    · have hx : x1 ≤ x0 := by omega
      refine le_antisymm ?_ (not_lt.1 b)
      have z : rnd 24 ((x1 - x0 : Int) : ℚ) ≤ 0 := by
        rw [← rnd_zero 24]
        refine rnd_mono 24 (by norm_num) _ _ ?_
        have : x1 - x0 ≤ 0 := by omega
        exact_mod_cast this
      rw [← rnd_zero 24]
      refine rnd_mono 24 (by norm_num) _ _ ?_
      exact div_nonpos_of_nonpos_of_nonneg z (rnd_nonneg _ _ (by positivity))
    · rfl
    · rfl
  rw [hf] at h1
  have := h1.2.1 le_rfl (by norm_num)
  exact le_antisymm this.1 (by positivity)

/-- Two copies came since the previous report. -/
example : (readReport (fill (after [(100, 5)]) (List.replicate 24 0) 120 3).2).fract = 0 :=
  C129_zero [] 100 120 5 3 _ (by simp) (Or.inr (by norm_num))

theorem receiver_zero (l : List Ev) : ∀ (m : Metrics) (s : State), m.total = 0 → m.lost = 0 → s = ⟨0, 0⟩ →
    (∀ b, Ev.report b ∈ l → b.length = 24) → ∀ b ∈ receiver m s l, (readReport b).fract = 0 ∧ (readReport b).cum = 0 := by
  induction l with
  | nil => intro m s _ _ _ _ b hb; simp [receiver] at hb
  | cons e l ih =>
    intro m s h1 h2 h3 h4 b hb
    cases e with
    | packet sn => exact ih (m.update sn) s h1 h2 h3 (fun b hb => h4 b (List.mem_cons_of_mem _ hb)) b hb
    | report m' =>
      simp only [receiver, List.mem_cons] at hb
      rcases hb with rfl | hb
      · have hl := h4 m' (by simp)
        rw [h1, h2, h3]
        refine ⟨C129_zero [] 0 0 0 0 m' hl (by simp), ?_⟩
        obtain ⟨n, -, h⟩ := fill_read ⟨0, 0⟩ m' hl 0 0
        rw [h]
        simp
      · exact ih m _ h1 h2 (by simp [fill, State.next, h1, h2]) (fun b hb => h4 b (List.mem_cons_of_mem _ hb)) b hb

/-- **C129 fails** for the receiver itself: whichever packets came and whichever are missing, every block it sends tells of no loss at all. -/
theorem C129_reported_fails (l : List Ev) (hl : ∀ b, Ev.report b ∈ l → b.length = 24) (b : List Bytes.Byte)
    (hb : b ∈ receiver Metrics.init State.init l) : (readReport b).fract = 0 ∧ (readReport b).cum = 0 :=
  receiver_zero l Metrics.init State.init rfl rfl rfl hl b hb

/-- Packets 1 and 100 came, 98 between them did not; a block is sent after them. -/
example : ∃ b, receiver Metrics.init State.init [.packet 1, .packet 100, .report (List.replicate 24 0)] = [b] ∧
    (readReport b).fract = 0 ∧ (readReport b).cum = 0 :=
  ⟨_, rfl, C129_reported_fails [.packet 1, .packet 100, .report (List.replicate 24 0)] (by
    intro b hb
    simp only [List.mem_cons, List.not_mem_nil, or_false, reduceCtorEq, false_or, Ev.report.injEq] at hb
    rw [hb]; simp) _ (List.mem_singleton.2 rfl)⟩

end Verif.LossEstimator
