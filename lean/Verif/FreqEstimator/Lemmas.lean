import Verif.FreqEstimator.Spec
import Mathlib.Tactic.Ring
import Mathlib.Tactic.Linarith

/-!
# Frequency estimator: lemmas
-/

namespace Verif.FreqEstimator

/-- The loop is a sum. -/
theorem dotLoop_eq (h b : Nat → ℚ) (r i j : Nat) (acc : ℚ) :
    dotLoop h b r i j acc = acc + ∑ k ∈ Finset.range r, h (j + k) * b (if k = 0 then i else (i + 255 * k) % len) := by
  induction r generalizing i j acc with
  | zero => simp [dotLoop]
  | succ r ih =>
    rw [dotLoop, ih, Finset.sum_range_succ']
    have : ∀ k, b (if k = 0 then (i + 255) % len else ((i + 255) % len + 255 * k) % len)
        = b (if k + 1 = 0 then i else (i + 255 * (k + 1)) % len) := by
      intro k
      rw [if_neg (Nat.succ_ne_zero k)]
      by_cases hk : k = 0
      · rw [if_pos hk, hk]
      · rw [if_neg hk, Nat.mod_add_mod, show i + 255 * (k + 1) = i + 255 + 255 * k by ring]
    simp only [this, Nat.add_zero, if_true]
    simp only [show ∀ k, j + 1 + k = j + (k + 1) from fun k => by ring]
    ring

/-- A buffer holds these values, the newest first, before the place where the next one goes. -/
def Ring (t : ℚ) (b : Nat → ℚ) (ind : Nat) (older : List ℚ) : Prop :=
  ind < len ∧ ∀ j, 1 ≤ j → j < len → b ((ind + 255 * j) % len) = older.getD (j - 1) t

theorem ring_init (t : ℚ) : Ring t (fun _ => t) 0 [] := ⟨by decide, fun _ _ _ => rfl⟩

theorem ring_keep (t : ℚ) (b : Nat → ℚ) (ind : Nat) (older : List ℚ) (v : ℚ) (h : Ring t b ind older) :
    Ring t (put b ind v) ind older := by
  obtain ⟨h1, h2⟩ := h
  refine ⟨h1, fun j hj1 hj2 => ?_⟩
  rw [← h2 j hj1 hj2]
  unfold put
  rw [if_neg]
  unfold len at *
  omega

theorem ring_push (t : ℚ) (b : Nat → ℚ) (ind : Nat) (older : List ℚ) (v : ℚ) (h : Ring t b ind older) :
    Ring t (put b ind v) ((ind + 1) % len) (v :: older) := by
  obtain ⟨h1, h2⟩ := ring_keep t b ind older v h
  refine ⟨Nat.mod_lt _ (by decide), fun j hj1 hj2 => ?_⟩
  by_cases hj : j = 1
  · rw [hj, show ((ind + 1) % len + 255 * 1) % len = ind by unfold len at *; omega]
    unfold put
    rw [if_pos rfl]
    rfl
  · rw [show ((ind + 1) % len + 255 * j) % len = (ind + 255 * (j - 1)) % len by unfold len at *; omega,
      h2 (j - 1) (by omega) (by omega), show j - 1 = j - 1 - 1 + 1 by omega, List.getD_cons_succ,
      show j - 1 - 1 + 1 - 1 = j - 1 - 1 by omega]

theorem dotProd_ring (h : Nat → ℚ) (g t : ℚ) (b : Nat → ℚ) (ind : Nat) (older : List ℚ) (v : ℚ)
    (hr : Ring t b ind older) : dotProd h (put b ind v) ind / g = fir h g t (v :: older) := by
  obtain ⟨_, h2⟩ := ring_keep t b ind older v hr
  unfold dotProd fir
  rw [dotLoop_eq, zero_add]
  refine congrArg (· / g) (Finset.sum_congr rfl fun k hk => ?_)
  rw [Nat.zero_add]
  refine congrArg (h k * ·) ?_
  by_cases hk0 : k = 0
  · rw [if_pos hk0, hk0]
    unfold put
    rw [if_pos rfl]
    rfl
  · rw [if_neg hk0, h2 k (by omega) (Finset.mem_range.1 hk)]
    obtain ⟨k', rfl⟩ : ∃ k', k = k' + 1 := ⟨k - 1, by omega⟩
    rw [List.getD_cons_succ, Nat.add_sub_cancel]

theorem getD_append (ms : List ℚ) (v : ℚ) (i : Nat) (h : i < ms.length) : (ms ++ [v]).getD i 0 = ms.getD i 0 := by
  simp [List.getD_eq_getElem?_getD, List.getElem?_append_left h]

theorem getD_last (ms : List ℚ) (v : ℚ) (i : Nat) (h : i = ms.length) : (ms ++ [v]).getD i 0 = v := by
  subst h
  simp [List.getD_eq_getElem?_getD]

theorem kept_append (p : Nat) (ms : List ℚ) (v : ℚ) :
    kept p (ms ++ [v]) = if (ms.length + 1) % p = 0 then kept p ms else kept p ms ++ [v] := by
  have hm : ∀ l : List Nat, (∀ i ∈ l, i < ms.length) →
      l.map (fun i => (ms ++ [v]).getD i 0) = l.map (fun i => ms.getD i 0) := by
    intro l hl
    exact List.map_congr_left fun i hi => getD_append ms v i (hl i hi)
  unfold kept
  rw [List.length_append, List.length_cons, List.length_nil, Nat.zero_add, List.range_succ, List.filter_append,
    List.map_append, hm _ (fun i hi => List.mem_range.1 (List.mem_filter.1 hi).1)]
  by_cases h : (ms.length + 1) % p = 0
  · rw [if_pos h, List.filter_cons, if_neg (by simpa using h)]
    simp
  · rw [if_neg h, List.filter_cons, if_pos (by simpa using h)]
    simp only [List.filter_nil, List.map_cons, List.map_nil]
    rw [getD_last ms v _ rfl]

theorem decim_length (h : Nat → ℚ) (g t : ℚ) (p : Nat) (ms : List ℚ) : (decim h g t p ms).length = ms.length / 10 := by
  unfold decim
  rw [List.length_map, List.length_range]

theorem decim_append (h : Nat → ℚ) (g t : ℚ) (p : Nat) (ms : List ℚ) (v : ℚ) :
    decim h g t p (ms ++ [v]) = if (ms.length + 1) % 10 = 0
      then decim h g t p ms ++ [fir h g t (v :: (kept p ms).reverse)] else decim h g t p ms := by
  have hm : ∀ k, k < ms.length / 10 →
      fir h g t ((ms ++ [v]).getD (10 * k + 9) 0 :: (kept p ((ms ++ [v]).take (10 * k + 9))).reverse)
        = fir h g t (ms.getD (10 * k + 9) 0 :: (kept p (ms.take (10 * k + 9))).reverse) := by
    intro k hk
    rw [getD_append _ _ _ (by omega), List.take_append_of_le_length (by omega)]
  unfold decim
  rw [List.length_append, List.length_cons, List.length_nil, Nat.zero_add]
  by_cases h10 : (ms.length + 1) % 10 = 0
  · rw [if_pos h10, show (ms.length + 1) / 10 = ms.length / 10 + 1 by omega, List.range_succ, List.map_append]
    refine congrArg₂ (· ++ ·) (List.map_congr_left fun k hk => hm k (List.mem_range.1 hk)) ?_
    simp only [List.map_cons, List.map_nil]
    rw [getD_last _ _ _ (by omega), show 10 * (ms.length / 10) + 9 = ms.length by omega, List.take_left]
  · rw [if_neg h10, show (ms.length + 1) / 10 = ms.length / 10 by omega]
    exact List.map_congr_left fun k hk => hm k (List.mem_range.1 hk)

/-- Sum of errors. -/
def errs (t : ℚ) (ys : List ℚ) : ℚ := (ys.map (· - t)).sum

theorem errs_append (t : ℚ) (ys : List ℚ) (y : ℚ) : errs t (ys ++ [y]) = errs t ys + (y - t) := by
  unfold errs
  simp

theorem pi_append (P I t : ℚ) (ys : List ℚ) (y : ℚ) :
    pi P I t (ys ++ [y]) = 1 + P * (y - t) + I * (errs t ys + (y - t)) := by
  rw [← errs_append]
  unfold pi errs
  simp

/-- What the fields hold, with one filter. -/
theorem responsive_inv (h : Nat → ℚ) (g t : ℚ) (ms : List ℚ) :
    ∀ s, s = run (responsive h g) (.init t) ms → s.target = t ∧ s.counter = ms.length
      ∧ Ring t s.buf1 s.ind1 (kept 10 ms).reverse ∧ s.accum = errs t (decim h g t 10 ms)
      ∧ s.coeff = pi (1 / 1000000) (1 / 10000000000) t (decim h g t 10 ms) := by
  induction ms using List.reverseRecOn with
  | nil =>
    rintro s rfl
    exact ⟨rfl, rfl, ring_init t, rfl, rfl⟩
  | append_singleton ms v ih =>
    rintro s rfl
    obtain ⟨h1, h2, h3, h4, h5⟩ := ih _ rfl
    have hrun : run (responsive h g) (.init t) (ms ++ [v])
        = (run (responsive h g) (.init t) ms).update (responsive h g) v := by
      simp [run, List.foldl_append]
    rw [hrun]
    obtain ⟨s, hs⟩ : ∃ s, s = run (responsive h g) (.init t) ms := ⟨_, rfl⟩
    rw [← hs] at h1 h2 h3 h4 h5 ⊢
    unfold St.update St.decimate
    simp only [responsive]
    rw [kept_append, decim_append, h2]
    by_cases h10 : (ms.length + 1) % 10 = 0
    · simp only [h10, if_true]
      rw [dotProd_ring h g t _ _ _ v h3]
      simp only [St.control, h1, h4, errs_append, pi_append]
      refine ⟨trivial, by simp, ring_keep _ _ _ _ _ h3, ?_, ?_⟩ <;> simp [put]
    · simp only [h10, if_false]
      refine ⟨h1, by simp, ?_, h4, h5⟩
      rw [List.reverse_append]
      exact ring_push _ _ _ _ _ h3

/-- What the fields hold, with two filters. -/
theorem gradual_inv (h : Nat → ℚ) (g t : ℚ) (ms : List ℚ) :
    ∀ s, s = run (gradual h g) (.init t) ms → s.target = t ∧ s.counter = ms.length % 100
      ∧ Ring t s.buf1 s.ind1 (kept 100 ms).reverse
      ∧ Ring t s.buf2 s.ind2 (kept 10 (decim h g t 100 ms)).reverse
      ∧ s.accum = errs t (decim h g t 10 (decim h g t 100 ms))
      ∧ s.coeff = pi (1 / 1000000) (5 / 1000000000) t (decim h g t 10 (decim h g t 100 ms)) := by
  induction ms using List.reverseRecOn with
  | nil =>
    rintro s rfl
    exact ⟨rfl, rfl, ring_init t, ring_init t, by simp [run, St.init, errs, decim], by simp [run, St.init, pi, decim]⟩
  | append_singleton ms v ih =>
    rintro s rfl
    obtain ⟨h1, h2, h3, h4, h5, h6⟩ := ih _ rfl
    have hrun : run (gradual h g) (.init t) (ms ++ [v])
        = (run (gradual h g) (.init t) ms).update (gradual h g) v := by
      simp [run, List.foldl_append]
    rw [hrun]
    obtain ⟨s, hs⟩ : ∃ s, s = run (gradual h g) (.init t) ms := ⟨_, rfl⟩
    rw [← hs] at h1 h2 h3 h4 h5 h6 ⊢
    unfold St.update St.decimate
    simp only [gradual]
    have hl := decim_length h g t 100 ms
    rw [kept_append, decim_append h g t 100, h2]
    by_cases h10 : (ms.length + 1) % 10 = 0
    · have e10 : (ms.length % 100 + 1) % 10 = 0 := by omega
      simp only [h10, e10, if_true]
      rw [dotProd_ring h g t _ _ _ v h3]
      rw [kept_append, decim_append h g t 10, hl]
      by_cases h100 : (ms.length + 1) % 100 = 0
      · have e1 : (ms.length % 100 + 1) % (10 * 10) = 0 := by omega
        have e2 : (ms.length / 10 + 1) % 10 = 0 := by omega
        simp only [h100, e1, e2, if_true]
        rw [if_neg (by decide), dotProd_ring h g t _ _ _ _ h4]
        simp only [St.control, h1, h5, errs_append, pi_append]
        refine ⟨trivial, ?_, ring_keep _ _ _ _ _ h3, ring_keep _ _ _ _ _ h4, trivial, trivial⟩
        simp only [List.length_append, List.length_cons, List.length_nil]
        omega
      · have e1 : ¬ (ms.length % 100 + 1) % (10 * 10) = 0 := by omega
        have e2 : ¬ (ms.length / 10 + 1) % 10 = 0 := by omega
        simp only [h100, e1, e2, if_false]
        rw [if_neg (by decide)]
        refine ⟨h1, ?_, ?_, ?_, h5, h6⟩
        · simp only [List.length_append, List.length_cons, List.length_nil]
          omega
        · rw [List.reverse_append]
          exact ring_push _ _ _ _ _ h3
        · rw [List.reverse_append]
          exact ring_push _ _ _ _ _ h4
    · have e10 : ¬ (ms.length % 100 + 1) % 10 = 0 := by omega
      have h100 : ¬ (ms.length + 1) % 100 = 0 := by omega
      simp only [h10, e10, h100, if_false]
      refine ⟨h1, ?_, ?_, h4, h5, h6⟩
      · simp only [List.length_append, List.length_cons, List.length_nil]
        omega
      · rw [List.reverse_append]
        exact ring_push _ _ _ _ _ h3

end Verif.FreqEstimator
