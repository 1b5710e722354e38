import Verif.FreqEstimator.Lemmas
import Mathlib.Algebra.Order.BigOperators.Group.Finset
import Mathlib.Algebra.Order.BigOperators.Ring.Finset
import Mathlib.Algebra.Order.Floor.Semiring
import Mathlib.Data.Rat.Floor
import Mathlib.Tactic.NormNum
import Mathlib.Tactic.FieldSimp
import Mathlib.Tactic.Positivity
import Mathlib.Algebra.Order.Archimedean.Basic

/-!
# Frequency estimator: properties (C89)
-/

namespace Verif.FreqEstimator

/-- **C89.** With the responsive profile, whatever was measured: the coefficient is one plus `10⁻⁶` times the last error
plus `10⁻¹⁰` times the sum of all errors, where an error is the difference between the target and the
filtered latency, and there is one after every ten measurements. The filter is applied to the newest measurement and
255 preceding ones, of which every tenth is left out; before the first measurement the latency is taken to be the
target. -/
theorem C89_responsive (h : Nat → ℚ) (g t : ℚ) (ms : List ℚ) :
    (run (responsive h g) (.init t) ms).coeff
      = pi (1 / 1000000) (1 / 10000000000) t (decim h g t 10 ms) :=
  (responsive_inv h g t ms _ rfl).2.2.2.2

/-- **C89.** The same with the gradual profile, where filtered latencies are filtered once more: there is one error after
every hundred measurements, the first filter leaves out every hundredth measurement, the second one every tenth
value. -/
theorem C89_gradual (h : Nat → ℚ) (g t : ℚ) (ms : List ℚ) :
    (run (gradual h g) (.init t) ms).coeff
      = pi (1 / 1000000) (5 / 1000000000) t (decim h g t 10 (decim h g t 100 ms)) :=
  (gradual_inv h g t ms _ rfl).2.2.2.2.2

/-- A filter that takes the value before the newest one: measurements 1, …, 20 with target 5. -/
example : decim (fun j => if j = 1 then 1 else 0) 1 5 10 ((List.range 20).map (fun i => (i : ℚ) + 1)) = [9, 19] := by
  decide +kernel

/-- **C89 fails** if it is to say that the filter works on consecutive measurements: whatever was measured as the tenth,
twentieth, … one has no influence on any filtered value after that (its place in the buffer is taken by the next
measurement). -/
theorem C89_skipped_fails (h : Nat → ℚ) (g t : ℚ) (ms : List ℚ) (i : Nat) (hi : (i + 1) % 10 = 0) (x v : ℚ) :
    ((run (responsive h g) (.init t) (ms.set i x)).decimate (responsive h g) v).2
      = ((run (responsive h g) (.init t) ms).decimate (responsive h g) v).2 := by
  have key : ∀ ms, ((run (responsive h g) (.init t) ms).decimate (responsive h g) v).2
      = if (ms.length + 1) % 10 = 0 then some (fir h g t (v :: (kept 10 ms).reverse)) else none := by
    intro ms
    obtain ⟨h1, h2, h3, _, _⟩ := responsive_inv h g t ms _ rfl
    obtain ⟨s, hs⟩ : ∃ s, s = run (responsive h g) (.init t) ms := ⟨_, rfl⟩
    rw [← hs] at h1 h2 h3 ⊢
    unfold St.decimate
    simp only [responsive]
    rw [h2, dotProd_ring h g t _ _ _ v h3]
    by_cases h10 : (ms.length + 1) % 10 = 0
    · simp only [h10, if_true, put]
    · simp only [h10, if_false]
  have hk : kept 10 (ms.set i x) = kept 10 ms := by
    unfold kept
    rw [List.length_set]
    refine List.map_congr_left fun k hk => ?_
    have hki : (k + 1) % 10 ≠ 0 := by simpa using (List.mem_filter.1 hk).2
    rw [List.getD_eq_getElem?_getD, List.getElem?_set_ne (by rintro rfl; exact hki hi),
      ← List.getD_eq_getElem?_getD]
  rw [key, key, hk, List.length_set]

/-- Other measurements have an influence: here, the ninth of nineteen. -/
example : (8 + 1) % 10 ≠ 0 ∧ (9 + 1) % 10 = 0
    ∧ ((run (responsive (fun j => if j = 10 then 1 else 0) 1) (.init 0) ((List.replicate 19 0).set 8 7)).decimate
        (responsive (fun j => if j = 10 then 1 else 0) 1) 0).2 = some 7
    ∧ ((run (responsive (fun j => if j = 10 then 1 else 0) 1) (.init 0) (List.replicate 19 0)).decimate
        (responsive (fun j => if j = 10 then 1 else 0) 1) 0).2 = some 0 := by
  decide +kernel

theorem sum_h : ∑ j ∈ Finset.range len, feH j = 26027659094259 / 25000000000000 := by decide +kernel

theorem sum_abs_h : ∑ j ∈ Finset.range len, |feH j| = 21174572328641 / 12500000000000 := by decide +kernel

/-- Difference between filtered values and a constant. -/
theorem fir_sub (t m : ℚ) (xs : List ℚ) :
    fir feH feGain t xs - m = (∑ j ∈ Finset.range len, feH j * (xs.getD j t - m)) / feGain - m / 1041106363770361 := by
  unfold fir
  simp only [mul_sub, Finset.sum_sub_distrib]
  rw [← Finset.sum_mul, sum_h]
  unfold feGain
  ring

/-- The filter amplifies at most 1.63 times. -/
theorem fir_near (t m d : ℚ) (xs : List ℚ) (hd : ∀ j, j < len → |xs.getD j t - m| ≤ d) :
    |fir feH feGain t xs - m| ≤ 163 / 100 * d + |m| / 1041106363770361 := by
  rw [fir_sub]
  have h0 : 0 ≤ d := le_trans (abs_nonneg _) (hd 0 (by decide))
  have h1 : |∑ j ∈ Finset.range len, feH j * (xs.getD j t - m)| ≤ 21174572328641 / 12500000000000 * d := by
    rw [← sum_abs_h, Finset.sum_mul]
    refine le_trans (Finset.abs_sum_le_sum_abs _ _) (Finset.sum_le_sum fun j hj => ?_)
    rw [abs_mul]
    exact mul_le_mul_of_nonneg_left (hd j (Finset.mem_range.1 hj)) (abs_nonneg _)
  refine le_trans (abs_sub _ _) (add_le_add ?_ ?_)
  · rw [abs_div, show |feGain| = feGain from abs_of_pos (by unfold feGain; norm_num)]
    refine le_trans (div_le_div_of_nonneg_right h1 (by unfold feGain; norm_num)) ?_
    unfold feGain
    rw [div_le_iff₀ (by norm_num)]
    nlinarith
  · rw [abs_div, show |(1041106363770361 : ℚ)| = 1041106363770361 from abs_of_pos (by norm_num)]

/-- A bound on errors gives a bound on the coefficient. -/
theorem pi_near (P I t e : ℚ) (ys : List ℚ) (hP : 0 ≤ P) (hI : 0 ≤ I) (he : 0 ≤ e) (h : ∀ y ∈ ys, |y - t| ≤ e) :
    |pi P I t ys - 1| ≤ (P + I * ys.length) * e := by
  have hs : ∀ ys : List ℚ, (∀ y ∈ ys, |y - t| ≤ e) → |errs t ys| ≤ ys.length * e := by
    intro ys
    induction ys with
    | nil => intro _; simp [errs]
    | cons y ys ih =>
      intro h
      have h1 := ih (fun y hy => h y (List.mem_cons_of_mem _ hy))
      have h2 := h y List.mem_cons_self
      have : errs t (y :: ys) = (y - t) + errs t ys := by simp [errs]
      rw [this, List.length_cons, Nat.cast_add, Nat.cast_one]
      refine le_trans (abs_add_le _ _) ?_
      linarith
  rcases List.eq_nil_or_concat ys with rfl | ⟨zs, y, rfl⟩
  · simp only [pi, List.map_nil, List.getLast?_nil, sub_self, abs_zero, List.length_nil, Nat.cast_zero, mul_zero,
      add_zero]
    exact mul_nonneg hP he
  · have h1 := h y (by simp)
    have h2 := hs _ h
    rw [List.concat_eq_append] at h2 ⊢
    rw [pi_append, ← errs_append]
    rw [show 1 + P * (y - t) + I * errs t (zs ++ [y]) - 1 = P * (y - t) + I * errs t (zs ++ [y]) by ring, add_mul]
    refine le_trans (abs_add_le _ _) (add_le_add ?_ ?_)
    · rw [abs_mul, abs_of_nonneg hP]
      exact mul_le_mul_of_nonneg_left h1 hP
    · rw [abs_mul, abs_of_nonneg hI, mul_assoc]
      exact mul_le_mul_of_nonneg_left h2 hI

theorem getD_mem_or (xs : List ℚ) (j : Nat) (t : ℚ) : xs.getD j t ∈ xs ∨ xs.getD j t = t := by
  rw [List.getD_eq_getElem?_getD]
  cases h : xs[j]? with
  | none => exact .inr rfl
  | some x => exact .inl (List.mem_of_getElem? h)

theorem kept_mem (p : Nat) (ms : List ℚ) (x : ℚ) (h : x ∈ kept p ms) : x ∈ ms := by
  unfold kept at h
  obtain ⟨i, hi, rfl⟩ := List.mem_map.1 h
  have := List.mem_range.1 (List.mem_filter.1 hi).1
  rw [List.getD_eq_getElem?_getD, List.getElem?_eq_getElem this]
  exact List.getElem_mem this

/-- The filter with decimation keeps values near the target. -/
theorem decim_near (t d : ℚ) (p : Nat) (ms : List ℚ) (h0 : 0 ≤ d) (hd : ∀ x ∈ ms, |x - t| ≤ d) :
    ∀ y ∈ decim feH feGain t p ms, |y - t| ≤ 163 / 100 * d + |t| / 1041106363770361 := by
  intro y hy
  unfold decim at hy
  obtain ⟨k, hk, rfl⟩ := List.mem_map.1 hy
  have hk := List.mem_range.1 hk
  refine fir_near t t d _ fun j _ => ?_
  rcases getD_mem_or (ms.getD (10 * k + 9) 0 :: (kept p (ms.take (10 * k + 9))).reverse) j t with h | h
  · rcases List.mem_cons.1 h with h | h
    · rw [h]
      refine hd _ ?_
      have : 10 * k + 9 < ms.length := by omega
      rw [List.getD_eq_getElem?_getD, List.getElem?_eq_getElem this]
      exact List.getElem_mem this
    · exact hd _ (List.mem_of_mem_take (kept_mem _ _ _ (List.mem_reverse.1 h)))
  · rw [h, sub_self, abs_zero]
    exact h0

/-- **C89.** If all latencies measured so far are within `d` of the target, the coefficient differs from one at most
by `10⁻⁶ + 10⁻¹⁰·k` times `1.63·d`, where `k` is the number of filtered values, up to a relative error
of `10⁻¹⁵` of the target (the gain of the filter is not exactly one). In particular, if all are equal to the target, no
rate correction worth mentioning is made. -/
theorem C89_bounded (t d : ℚ) (ms : List ℚ) (h0 : 0 ≤ d) (hd : ∀ x ∈ ms, |x - t| ≤ d) :
    |(run (responsive feH feGain) (.init t) ms).coeff - 1|
      ≤ (1 / 1000000 + 1 / 10000000000 * (ms.length / 10 : Nat)) * (163 / 100 * d + |t| / 1000000000000000) := by
  rw [C89_responsive]
  have h1 := decim_near t d 10 ms h0 hd
  have ht := abs_nonneg t
  have hle : |t| / 1041106363770361 ≤ |t| / 1000000000000000 := by
    rw [div_le_div_iff₀ (by norm_num) (by norm_num)]
    nlinarith
  have := pi_near (1 / 1000000) (1 / 10000000000) t (163 / 100 * d + |t| / 1000000000000000)
    (decim feH feGain t 10 ms) (by norm_num) (by norm_num) (by positivity)
    (fun y hy => le_trans (h1 y hy) (by linarith))
  rwa [decim_length] at this

/-- **C89.** The same with the gradual profile, with two filters in a row. -/
theorem C89_bounded_gradual (t d : ℚ) (ms : List ℚ) (h0 : 0 ≤ d) (hd : ∀ x ∈ ms, |x - t| ≤ d) :
    |(run (gradual feH feGain) (.init t) ms).coeff - 1|
      ≤ (1 / 1000000 + 5 / 1000000000 * (ms.length / 100 : Nat)) * (266 / 100 * d + 3 * |t| / 1000000000000000) := by
  rw [C89_gradual]
  have ht := abs_nonneg t
  have h1 := decim_near t d 100 ms h0 hd
  have h2 := decim_near t _ 10 _ (by positivity) h1
  have hle : |t| / 1041106363770361 ≤ |t| / 1000000000000000 := by
    rw [div_le_div_iff₀ (by norm_num) (by norm_num)]
    nlinarith
  have := pi_near (1 / 1000000) (5 / 1000000000) t (266 / 100 * d + 3 * |t| / 1000000000000000)
    (decim feH feGain t 10 (decim feH feGain t 100 ms)) (by norm_num) (by norm_num) (by positivity)
    (fun y hy => le_trans (h2 y hy) (by
      have : 3 * |t| / 1000000000000000 = 3 * (|t| / 1000000000000000) := by ring
      rw [this]
      nlinarith))
  rwa [decim_length, decim_length, Nat.div_div_eq_div_mul] at this

/-- Latency 1000 ± 5 samples. -/
example : ∀ x ∈ ([995, 1005, 1000, 1003] : List ℚ), |x - 1000| ≤ 5 := by decide +kernel

/-- After a constant signal of 280 values, filtered values are constant. -/
theorem decim_const (t m : ℚ) (n k : Nat) (hk : 28 ≤ k) (hn : k < n / 10) :
    (decim feH feGain t 10 (List.replicate n m)).getD k 0 = m - m / 1041106363770361 := by
  have hget : ∀ i, i < n → (List.replicate n m).getD i 0 = m := by
    intro i hi
    rw [List.getD_eq_getElem?_getD, List.getElem?_replicate, if_pos hi]
    rfl
  have hkl : ∀ q, (kept 10 (List.replicate q m)).length = q - q / 10 := by
    intro q
    induction q with
    | zero => rfl
    | succ q ih =>
      rw [List.replicate_succ', kept_append, List.length_replicate]
      by_cases h : (q + 1) % 10 = 0
      · rw [if_pos h, ih]
        omega
      · rw [if_neg h, List.length_append, ih, List.length_cons, List.length_nil]
        omega
  unfold decim
  rw [List.length_replicate, List.getD_eq_getElem?_getD, List.getElem?_map, List.getElem?_range hn]
  simp only [Option.map_some, Option.getD_some]
  have hx : fir feH feGain t ((List.replicate n m).getD (10 * k + 9) 0 ::
      (kept 10 ((List.replicate n m).take (10 * k + 9))).reverse) - m = - (m / 1041106363770361) := by
    rw [fir_sub, Finset.sum_eq_zero, zero_div, zero_sub]
    intro j hj
    have hj := Finset.mem_range.1 hj
    rw [hget _ (by omega), List.take_replicate, Nat.min_eq_left (by omega)]
    have hlen : j < (m :: (kept 10 (List.replicate (10 * k + 9) m)).reverse).length := by
      rw [List.length_cons, List.length_reverse, hkl]
      unfold len at hj
      omega
    have : (m :: (kept 10 (List.replicate (10 * k + 9) m)).reverse).getD j t = m := by
      rw [List.getD_eq_getElem?_getD, List.getElem?_eq_getElem hlen]
      simp only [Option.getD_some]
      rcases List.mem_cons.1 (List.getElem_mem hlen) with h | h
      · exact h
      · exact List.eq_of_mem_replicate (kept_mem _ _ _ (List.mem_reverse.1 h))
    rw [this, sub_self, mul_zero]
  linarith

/-- Sum of errors of a constant signal. -/
theorem errs_const (t m : ℚ) (k : Nat) (hk : 28 ≤ k) :
    errs t (decim feH feGain t 10 (List.replicate (10 * k) m))
      = errs t (decim feH feGain t 10 (List.replicate 280 m)) + (k - 28 : ℕ) * (m - m / 1041106363770361 - t) := by
  have step : ∀ k, 28 ≤ k → decim feH feGain t 10 (List.replicate (10 * (k + 1)) m)
      = decim feH feGain t 10 (List.replicate (10 * k) m) ++ [m - m / 1041106363770361] := by
    intro k hk
    have hc := decim_const t m (10 * (k + 1)) k hk (by omega)
    have e : ∀ q, q < 10 → decim feH feGain t 10 (List.replicate (10 * k + q) m)
        = decim feH feGain t 10 (List.replicate (10 * k) m) := by
      intro q
      induction q with
      | zero => intro _; rfl
      | succ q ih =>
        intro hq
        rw [show 10 * k + (q + 1) = 10 * k + q + 1 by omega, List.replicate_succ', decim_append,
          List.length_replicate, if_neg (by omega), ih (by omega)]
    have e10 : decim feH feGain t 10 (List.replicate (10 * (k + 1)) m)
        = decim feH feGain t 10 (List.replicate (10 * k) m) ++
          [fir feH feGain t (m :: (kept 10 (List.replicate (10 * k + 9) m)).reverse)] := by
      rw [show 10 * (k + 1) = 10 * k + 9 + 1 by omega, List.replicate_succ', decim_append, List.length_replicate,
        if_pos (by omega), e 9 (by omega)]
    rw [e10] at hc ⊢
    rw [List.getD_eq_getElem?_getD, List.getElem?_append_right (by
        rw [decim_length, List.length_replicate]; omega), decim_length, List.length_replicate,
      show k - 10 * k / 10 = 0 by omega] at hc
    simp only [List.getElem?_cons_zero, Option.getD_some] at hc
    rw [hc]
  obtain ⟨j, rfl⟩ : ∃ j, k = 28 + j := ⟨k - 28, by omega⟩
  clear hk
  generalize hE : errs t (decim feH feGain t 10 (List.replicate 280 m)) = E
  induction j with
  | zero => rw [show 10 * (28 + 0) = 280 from rfl, hE, show 28 + 0 - 28 = 0 from rfl, Nat.cast_zero, zero_mul, add_zero]
  | succ j ih =>
    rw [show 28 + (j + 1) = 28 + j + 1 by omega, step _ (by omega), errs_append, ih,
      show 28 + j + 1 - 28 = j + 1 by omega, show 28 + j - 28 = j by omega]
    rw [Nat.cast_add, Nat.cast_one]
    ring

/-- **C89.** If the latency stays above the target (both are numbers of samples, of type `uint32_t`), the coefficient
becomes larger than any bound, so the tuner goes to the highest allowed rate; if it stays below, it becomes smaller than
any bound. -/
theorem C89_integral (t m : Nat) (B : ℚ) (hm : m < 2 ^ 32) :
    (t < m → ∃ k, ∀ k', k ≤ k' →
      B < (run (responsive feH feGain) (.init t) (List.replicate (10 * k') (m : ℚ))).coeff)
    ∧ (m < t → ∃ k, ∀ k', k ≤ k' →
      (run (responsive feH feGain) (.init t) (List.replicate (10 * k') (m : ℚ))).coeff < B) := by
  have hco : ∀ k', 29 ≤ k' → (run (responsive feH feGain) (.init t) (List.replicate (10 * k') (m : ℚ))).coeff
      = 1 + 1 / 1000000 * ((m : ℚ) - m / 1041106363770361 - t) + 1 / 10000000000 *
        (errs t (decim feH feGain t 10 (List.replicate 280 (m : ℚ))) + (k' - 28 : ℕ) * ((m : ℚ) - m / 1041106363770361 - t)) := by
    intro k' hk'
    rw [C89_responsive, ← errs_const _ _ _ (by omega)]
    obtain ⟨ys, hys⟩ : ∃ ys, ys = decim feH feGain t 10 (List.replicate (10 * k') (m : ℚ)) := ⟨_, rfl⟩
    have hl := decim_length feH feGain t 10 (List.replicate (10 * k') (m : ℚ))
    have hc := decim_const t m (10 * k') (k' - 1) (by omega) (by omega)
    rw [← hys] at hl hc ⊢
    rw [List.length_replicate] at hl
    rcases List.eq_nil_or_concat ys with h | ⟨zs, y, h⟩
    · rw [h] at hl
      simp only [List.length_nil] at hl
      omega
    · rw [List.concat_eq_append] at h
      rw [h] at hc hl ⊢
      rw [List.length_append, List.length_cons, List.length_nil] at hl
      rw [getD_last _ _ _ (by omega)] at hc
      rw [pi_append, errs_append, hc]
  have hm' : (m : ℚ) ≤ 4294967296 := by exact_mod_cast hm.le
  have hm0 : (0 : ℚ) ≤ m := Nat.cast_nonneg m
  have he : (m : ℚ) / 1041106363770361 ≤ 1 / 2 := by
    rw [div_le_div_iff₀ (by norm_num) (by norm_num)]
    linarith
  have he0 : 0 ≤ (m : ℚ) / 1041106363770361 := by positivity
  obtain ⟨E, hE⟩ : ∃ E, E = errs t (decim feH feGain t 10 (List.replicate 280 (m : ℚ))) := ⟨_, rfl⟩
  refine ⟨fun h => ?_, fun h => ?_⟩
  · have hd : (1 / 2 : ℚ) ≤ (m : ℚ) - m / 1041106363770361 - t := by
      have : (t : ℚ) + 1 ≤ m := by exact_mod_cast h
      linarith
    obtain ⟨N, hN⟩ := exists_nat_gt ((10000000000 * B - E) * 2)
    refine ⟨29 + N, fun k' hk' => ?_⟩
    rw [hco k' (by omega), ← hE]
    have hN' : (N : ℚ) ≤ (k' - 28 : ℕ) := by exact_mod_cast (by omega : N ≤ k' - 28)
    have : (N : ℚ) * (1 / 2) ≤ (k' - 28 : ℕ) * ((m : ℚ) - m / 1041106363770361 - t) :=
      mul_le_mul hN' hd (by norm_num) (Nat.cast_nonneg _)
    linarith
  · have hd : (m : ℚ) - m / 1041106363770361 - t ≤ - 1 / 2 := by
      have : (m : ℚ) + 1 ≤ t := by exact_mod_cast h
      linarith
    obtain ⟨N, hN⟩ := exists_nat_gt ((10000000000 * (1 - B) + E) * 2)
    refine ⟨29 + N, fun k' hk' => ?_⟩
    rw [hco k' (by omega), ← hE]
    have hN' : (N : ℚ) ≤ (k' - 28 : ℕ) := by exact_mod_cast (by omega : N ≤ k' - 28)
    have : (N : ℚ) * (1 / 2) ≤ (k' - 28 : ℕ) * -((m : ℚ) - m / 1041106363770361 - t) :=
      mul_le_mul hN' (by linarith) (by norm_num) (Nat.cast_nonneg _)
    linarith

/-- Target 100 ms and latency 105 ms at 44100 Hz. -/
example : 4410 < 4631 ∧ 4631 < 2 ^ 32 := by decide

end Verif.FreqEstimator
