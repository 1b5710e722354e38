import Verif.Defaults.Model
import Mathlib.Analysis.SpecialFunctions.Log.Basic
import Mathlib.Tactic.Linarith
import Mathlib.Tactic.NormNum
import Mathlib.Tactic.Ring

/-! # Properties of default values -/

namespace Verif.Defaults

open Verif.ApiConfig

/-! ## Statement -/

/-- The expression of the default tolerance (latency_tuner.cpp:111-114), exactly. -/
noncomputable def exact (t m : Int) : ℝ := (t : ℝ) * (Real.log (400000000 * m) / Real.log (t * 2))

/-- `double` arithmetic and `std::log` are accurate to a relative error of 2^-45, and the result is truncated. -/
def LibOk (lib : Int → Int → Int) : Prop :=
  ∀ t m : Int, 1000000 ≤ t → t < 4611686018427387904 → (m = 1 ∨ m = 4) → |(lib t m : ℝ) - exact t m| ≤ 1 + t / 2 ^ 45

/-- Latency settings of the user: the fields that the public config does not have are zero. -/
def userLat (b : TBackend) (p : TProfile) (target tolerance : Int) : Lat := ⟨b, p, target, tolerance, 0, 0, 0⟩

/-! ## Lemmas -/

theorem ratio_bounds {x y : ℝ} {a b c d : Nat} (h1 : (2 : ℝ) ^ a ≤ x) (h2 : x ≤ 2 ^ b) (h3 : (2 : ℝ) ^ c ≤ y) (h4 : y ≤ 2 ^ d) (hc : 0 < c) :
    (a : ℝ) / d ≤ Real.log x / Real.log y ∧ Real.log x / Real.log y ≤ b / c := by
  have l2 : 0 < Real.log 2 := Real.log_pos (by norm_num)
  have px : 0 < x := lt_of_lt_of_le (by positivity) h1
  have py : 0 < y := lt_of_lt_of_le (by positivity) h3
  have lo : ∀ {z : ℝ} {n : Nat}, (2 : ℝ) ^ n ≤ z → n * Real.log 2 ≤ Real.log z := by
    intro z n h
    rw [← Real.log_pow]
    exact Real.log_le_log (by positivity) h
  have up : ∀ {z : ℝ} {n : Nat}, 0 < z → z ≤ 2 ^ n → Real.log z ≤ n * Real.log 2 := by
    intro z n hz h
    rw [← Real.log_pow]
    exact Real.log_le_log hz h
  have x1 := lo h1
  have x2 := up px h2
  have y1 := lo h3
  have y2 := up py h4
  have hc' : (0 : ℝ) < c := by exact_mod_cast hc
  have ly : 0 < Real.log y := lt_of_lt_of_le (by positivity) y1
  have hd : (0 : ℝ) < d := by
    have : 0 < (d : ℝ) * Real.log 2 := lt_of_lt_of_le ly y2
    exact (pos_iff_pos_of_mul_pos this).2 l2
  constructor
  · rw [div_le_div_iff₀ hd ly]
    have e1 : (a : ℝ) * Real.log y ≤ a * (d * Real.log 2) := mul_le_mul_of_nonneg_left y2 (by positivity)
    have e2 : (a : ℝ) * Real.log 2 * d ≤ Real.log x * d := mul_le_mul_of_nonneg_right x1 hd.le
    linarith
  · rw [div_le_div_iff₀ ly hc']
    have e1 : (b : ℝ) * (c * Real.log 2) ≤ b * Real.log y := mul_le_mul_of_nonneg_left y1 (by positivity)
    have e2 : Real.log x * c ≤ (b : ℝ) * Real.log 2 * c := mul_le_mul_of_nonneg_right x2 hc'.le
    linarith

/-- Bounds of the default tolerance in terms of powers of two around the target. -/
theorem lib_bounds {lib : Int → Int → Int} (h : LibOk lib) {t m : Int} {c d b : Nat} (h1 : 1000000 ≤ t) (h2 : t ≤ 9007199254740992)
    (hm : m = 1 ∨ m = 4) (ha : (400000000 : ℝ) * m ≤ 2 ^ b) (h3 : (2 : ℝ) ^ c ≤ t * 2) (h4 : (t : ℝ) * 2 ≤ 2 ^ d) (hc : 0 < c) :
    (t : ℝ) * (28 / d) - (1 + t / 2 ^ 45) ≤ lib t m ∧ (lib t m : ℝ) ≤ t * (b / c) + (1 + t / 2 ^ 45) := by
  have hb := abs_le.1 (h t m h1 (by omega) hm)
  have ht : (0 : ℝ) ≤ t := by exact_mod_cast (by omega : (0 : Int) ≤ t)
  have hx : (2 : ℝ) ^ 28 ≤ 400000000 * m := by rcases hm with rfl | rfl <;> norm_num
  obtain ⟨r1, r2⟩ := ratio_bounds hx ha h3 h4 hc
  have e1 := mul_le_mul_of_nonneg_left r1 ht
  have e2 := mul_le_mul_of_nonneg_left r2 ht
  unfold exact at hb
  push_cast at e1 e2
  constructor <;> linarith [hb.1, hb.2]

/-- The default tolerance is between a half and two times the target. -/
theorem lib_range {lib : Int → Int → Int} (h : LibOk lib) {t m : Int} (h1 : 1000000 ≤ t) (h2 : t ≤ 9007199254740992) (hm : m = 1 ∨ m = 4) :
    t ≤ 2 * lib t m ∧ lib t m ≤ 2 * t := by
  have t1 : (1000000 : ℝ) ≤ t := by exact_mod_cast h1
  have t2 : (t : ℝ) ≤ 9007199254740992 := by exact_mod_cast h2
  obtain ⟨r1, r2⟩ := lib_bounds h (c := 20) (d := 54) (b := 31) h1 h2 hm (by rcases hm with rfl | rfl <;> norm_num) (by norm_num; linarith)
    (by norm_num; linarith) (by norm_num)
  have a : (t : ℝ) ≤ 2 * lib t m := by
    norm_num at r1
    linarith
  have b : (lib t m : ℝ) ≤ 2 * t := by
    norm_num at r2
    linarith
  exact ⟨by exact_mod_cast a, by exact_mod_cast b⟩

theorem chk_some {x : Int} (h1 : -9223372036854775808 ≤ x) (h2 : x < 9223372036854775808) : chk x = some x := if_pos ⟨h1, h2⟩

theorem tolerance_default (lib : Int → Int → Int) (rx : Bool) {p : TProfile} (hi : p ≠ .intact) {T : Int} (h1 : 0 < T) (h2 : T ≤ 9007199254740992) :
    toleranceOf lib rx p T 0 = some (lib (max T ms) (if rx then 1 else 4)) := by
  unfold toleranceOf
  rw [if_pos hi, if_pos (show (0 : Int) = 0 from rfl), if_pos h1, chk_some (by unfold ms; omega) (by unfold ms; omega)]
  rfl

/-! ## Properties -/

/-- **C103** (partial: latencies up to 2^53 ns, which is 104 days). Settings of a receiver after `deduce_defaults`, field by field: what
the user gave is kept, and zeros are replaced as documented. The default tolerance is between a half and two times the target, at least
0.5 ms. Missing: targets for which the arithmetic overflows (`C103_overflow_fails`). -/
theorem C103_receiver_partial {lib : Int → Int → Int} (hlib : LibOk lib) (b : TBackend) (p : TProfile) (T tol : Int) (h1 : 0 ≤ T)
    (h2 : T ≤ 9007199254740992) :
    ∃ o, (userLat b p T tol).deduce lib defaultLatency true = some o ∧
      (b = .default → o.backend = .niq) ∧ (b ≠ .default → o.backend = b) ∧
      (p ≠ .default → o.profile = p) ∧
      (p = .default → o.profile = if b = .e2e ∨ (0 < T ∧ T < 30000000) then .responsive else .gradual) ∧
      (T ≠ 0 → o.target = T) ∧ (T = 0 → p ≠ .intact → o.target = 200000000) ∧
      (tol ≠ 0 → o.tolerance = tol) ∧ (tol = 0 → p = .intact → o.tolerance = 0) ∧
      (tol = 0 → p ≠ .intact → max o.target 1000000 ≤ 2 * o.tolerance ∧ o.tolerance ≤ 2 * max o.target 1000000) ∧
      (0 < o.target → 0 ≤ o.tolerance → 4 * o.stale ≤ o.tolerance ∧ o.tolerance < 4 * o.stale + 4) ∧
      (p ≠ .intact → o.interval = 5000000 ∧ 0 < o.delta) := by
  have hp : profileOf true (backendOf b) p T ≠ .intact ↔ p ≠ .intact := by
    unfold profileOf
    cases p <;> simp only [reduceCtorEq, if_true, if_false, ne_eq, not_true_eq_false, not_false_eq_true, iff_true] <;> split_ifs <;> simp
  have htgt : targetOf true defaultLatency (profileOf true (backendOf b) p T) T = if T = 0 then if p ≠ .intact then 200000000 else -1 else T := by
    unfold targetOf
    simp only [hp, if_true]
    rfl
  unfold Lat.deduce userLat
  simp only [htgt]
  have htol : ∃ r, toleranceOf lib true (profileOf true (backendOf b) p T) (if T = 0 then if p ≠ .intact then 200000000 else -1 else T) tol = some r ∧
      (tol ≠ 0 → r = tol) ∧ (tol = 0 → p = .intact → r = 0) ∧
      (tol = 0 → p ≠ .intact → ∀ t, t = (if T = 0 then 200000000 else T) → max t 1000000 ≤ 2 * r ∧ r ≤ 2 * max t 1000000) := by
    unfold toleranceOf
    simp only [hp]
    by_cases hi : p = .intact
    · exact ⟨tol, by simp [hi], fun _ => rfl, fun h _ => h, fun _ h => absurd hi h⟩
    · by_cases h0 : tol = 0
      · have hpos : (if T = 0 then if p ≠ .intact then (200000000 : Int) else -1 else T) = if T = 0 then 200000000 else T := by simp [hi]
        rw [hpos]
        generalize ht : (if T = 0 then (200000000 : Int) else T) = t
        have ht1 : 0 < t := by rw [← ht]; split <;> omega
        have ht2 : t ≤ 9007199254740992 := by rw [← ht]; split <;> omega
        refine ⟨lib (max t ms) 1, ?_, fun h => absurd h0 h, fun _ h => absurd h hi, ?_⟩
        · rw [if_pos hi, if_pos h0, if_pos ht1, chk_some (by unfold ms; omega) (by unfold ms; omega)]
          rfl
        · rintro _ _ t' rfl
          exact lib_range hlib (by omega) (by omega) (.inl rfl)
      · exact ⟨tol, by simp [h0], fun _ => rfl, fun h => absurd h h0, fun h => absurd h h0⟩
  obtain ⟨r, e, r1, r2, r3⟩ := htol
  rw [e]
  refine ⟨_, rfl, ?_, ?_, ?_, ?_, ?_, ?_, r1, r2, ?_, ?_, ?_⟩
  · rintro rfl; rfl
  · intro h; simp [backendOf, h]
  · intro h; simp [profileOf, h]
  · rintro rfl
    simp only [profileOf, backendOf, ms]
    cases b <;> simp
  · intro h; simp [h]
  · intro h h'; simp [h, h']
  · intro h h'
    exact r3 h h' _ (by simp [h'])
  · intro h3 h4
    simp only at h3 h4 ⊢
    simp only [and_true, h3, if_true]
    by_cases hr : r = 0
    · subst hr; simp
    · rw [if_pos hr, Int.tdiv_eq_ediv_of_nonneg h4]
      omega
  · intro h
    simp only [hp.2 h, ne_eq, not_false_eq_true, and_self, if_true]
    exact ⟨rfl, by unfold delta0; norm_num⟩

/-- **C103** (partial, as above). With these settings a session of the receiver is created, unless tuning is disabled and the target is zero. -/
theorem C103_session_partial {lib : Int → Int → Int} (hlib : LibOk lib) (b : TBackend) (p : TProfile) (T tol : Int) (h1 : 0 ≤ T)
    (h2 : T ≤ 9007199254740992) (h3 : 0 ≤ tol) (h4 : tol ≤ 4611686018427387904) (hn : ¬ (p = .intact ∧ T = 0)) {E : Type} (conv : Int → Int)
    (hc : 0 < conv (if T = 0 then 200000000 else T)) (hc2 : 0 < conv 5000000) (log : Nat) (e : E) :
    ∃ o s, (userLat b p T tol).deduce lib defaultLatency true = some o ∧ o.tuner conv log e = some (some s) := by
  obtain ⟨o, e1, -, -, f1, f2, f3, f4, f5, f6, f7, f8, f9⟩ := C103_receiver_partial hlib b p T tol h1 h2
  have ht : o.target = if T = 0 then 200000000 else T := by
    split
    · exact f4 ‹_› (fun h => hn ⟨h, ‹_›⟩)
    · exact f3 ‹_›
  have hpos : 0 < o.target := by rw [ht]; split <;> omega
  have hle : o.target ≤ 9007199254740992 := by rw [ht]; split <;> omega
  have htol : 0 ≤ o.tolerance ∧ o.tolerance ≤ 4611686018427387904 := by
    by_cases h0 : tol = 0
    · by_cases hi : p = .intact
      · rw [f6 h0 hi]; omega
      · have := f7 h0 hi; omega
    · rw [f5 h0]; exact ⟨h3, h4⟩
  have hprof : o.profile ≠ .intact → p ≠ .intact := by
    intro h h'
    exact h (by rw [f1 (by rw [h']; decide), h'])
  refine ⟨o, ?_⟩
  have hu : o.tuner conv log e = some (LatencyTuner.create conv log e o.cfg) := by
    unfold Lat.tuner
    rw [if_neg]
    rintro ⟨-, -, -, h | h⟩
    · rw [chk_some (by omega) (by omega)] at h; cases h
    · rw [chk_some (by omega) (by omega)] at h; cases h
  have hcr : ∃ s, LatencyTuner.create conv log e o.cfg = some s := by
    unfold LatencyTuner.create Lat.cfg
    simp only
    rw [if_neg (by omega)]
    by_cases hi : o.profile = .intact
    · simp only [hi, ne_eq, not_true_eq_false, decide_false, Bool.false_or]
      by_cases h0 : o.tolerance = 0
      · simp [h0]
      · rw [if_pos (by simpa using h0), if_neg (by rw [← ht] at hc; omega), if_neg (by omega)]
        simp
    · obtain ⟨i1, i2⟩ := f9 (hprof hi)
      simp only [hi, ne_eq, not_false_eq_true, decide_true, Bool.true_or, if_true]
      rw [if_neg (by rw [← ht] at hc; omega), if_neg (by omega), if_neg (by rw [i1]; omega), if_neg (by exact not_le.2 i2)]
      exact ⟨_, rfl⟩
  obtain ⟨s, hs⟩ := hcr
  exact ⟨s, e1, by rw [hu, hs]⟩

/-- **C103** (negation). A zero target on a receiver without latency tuning is not replaced by a default: every session is rejected. -/
theorem C103_intact_fails (lib : Int → Int → Int) (b : TBackend) (tol : Int) {E : Type} (conv : Int → Int) (log : Nat) (e : E) :
    ∃ o, (userLat b .intact 0 tol).deduce lib defaultLatency true = some o ∧ o.tuner conv log e = some none := by
  refine ⟨_, rfl, ?_⟩
  unfold Lat.tuner
  rw [if_neg (by rintro ⟨-, h, -⟩; revert h; simp [profileOf, targetOf, userLat]), LatencyTuner.create,
    if_pos (by simp [Lat.cfg, profileOf, targetOf, userLat])]

/-- **C103** (partial, as above). On a sender a zero profile disables tuning. The tuner is created exactly if tuning is disabled and no
tolerance is set, or if a target is set. -/
theorem C103_sender_partial {lib : Int → Int → Int} (hlib : LibOk lib) (b : TBackend) (p : TProfile) (T tol : Int) (h1 : 0 ≤ T)
    (h2 : T ≤ 9007199254740992) (h3 : 0 ≤ tol) (h4 : tol ≤ 4611686018427387904) {E : Type} (conv : Int → Int)
    (hc : 0 < T → 0 < conv T) (hc2 : 0 < conv 5000000) (log : Nat) (e : E) :
    ∃ o, (userLat b p T tol).deduce lib defaultLatency false = some o ∧ (p = .default → o.profile = .intact) ∧ (p ≠ .default → o.profile = p) ∧
      (T ≠ 0 → o.target = T) ∧ (tol ≠ 0 → o.tolerance = tol) ∧
      ((∃ s, o.tuner conv log e = some (some s)) ↔ ((o.profile = .intact ∧ tol = 0) ∨ T ≠ 0)) ∧
      (o.tuner conv log e = some none ↔ ¬ ((o.profile = .intact ∧ tol = 0) ∨ T ≠ 0)) := by
  have hp : profileOf false (backendOf b) p T = if p = .default then .intact else p := by
    unfold profileOf
    simp
  generalize hq : (if p = TProfile.default then TProfile.intact else p) = q at hp
  have hq1 : p = .default → q = .intact := by rintro rfl; rw [← hq]; rfl
  have hq2 : p ≠ .default → q = p := by intro h; rw [← hq, if_neg h]
  unfold Lat.deduce userLat
  simp only [hp]
  by_cases hi : q = .intact
  · have e1 : targetOf false defaultLatency q T = T := by unfold targetOf; rw [hi]; split <;> simp_all
    have e2 : toleranceOf lib false q T tol = some tol := by unfold toleranceOf; rw [hi]; simp
    simp only [e1, e2, Option.map_some]
    refine ⟨_, rfl, hq1, hq2, fun _ => rfl, fun _ => rfl, ?_⟩
    have hu : ∀ o : Lat, o.target = T → o.tolerance = tol → o.tuner conv log e = some (LatencyTuner.create conv log e o.cfg) := by
      intro o o1 o2
      unfold Lat.tuner
      rw [if_neg]
      rw [o1, o2]
      rintro ⟨-, -, -, h | h⟩
      · rw [chk_some (by omega) (by omega)] at h; cases h
      · rw [chk_some (by omega) (by omega)] at h; cases h
    rw [hu _ rfl rfl]
    simp only [Option.some.injEq]
    simp only [Lat.cfg, LatencyTuner.create, hi, ne_eq, not_true_eq_false, decide_false, Bool.false_or]
    rw [if_neg (by omega)]
    by_cases h0 : tol = 0
    · simp [h0]
    · rw [if_pos (by simpa using h0)]
      by_cases hT : T = 0
      · simp [hT, h0]
      · have := hc (by omega)
        rw [if_neg (by omega), if_neg (by omega)]
        simp [hT]
  · by_cases hT : T = 0
    · subst hT
      have e1 : targetOf false defaultLatency q 0 = -1 := by unfold targetOf; simp [hi]
      obtain ⟨r, e2, r1⟩ : ∃ r, toleranceOf lib false q (-1) tol = some r ∧ (tol ≠ 0 → r = tol) := by
        unfold toleranceOf
        rw [if_pos hi]
        by_cases h0 : tol = 0
        · exact ⟨-1, by simp [h0], fun h => absurd h0 h⟩
        · exact ⟨tol, by simp [h0], fun _ => rfl⟩
      simp only [e1, e2, Option.map_some]
      refine ⟨_, rfl, hq1, hq2, fun h => absurd rfl h, r1, ?_⟩
      have hu : ∀ o : Lat, o.target = -1 → o.tuner conv log e = some none := by
        intro o o1
        unfold Lat.tuner
        rw [if_neg (by rw [o1]; rintro ⟨-, h, -⟩; omega)]
        simp only [Lat.cfg, LatencyTuner.create, o1]
        rfl
      rw [hu _ rfl]
      simp [hi]
    · have e1 : targetOf false defaultLatency q T = T := by unfold targetOf; simp [hT]
      obtain ⟨r, e2, r1, r2⟩ : ∃ r, toleranceOf lib false q T tol = some r ∧ (tol ≠ 0 → r = tol) ∧ 0 ≤ r ∧ r ≤ 4611686018427387904 := by
        unfold toleranceOf
        rw [if_pos hi]
        by_cases h0 : tol = 0
        · have := lib_range hlib (t := max T ms) (m := 4) (by unfold ms; omega) (by unfold ms; omega) (.inr rfl)
          refine ⟨lib (max T ms) 4, ?_, fun h => absurd h0 h, ?_, ?_⟩
          · rw [if_pos h0, if_pos (by omega), chk_some (by unfold ms; omega) (by unfold ms; omega)]
            rfl
          · unfold ms at *; omega
          · unfold ms at *; omega
        · exact ⟨tol, by simp [h0], fun _ => rfl, h3, h4⟩
      simp only [e1, e2, Option.map_some]
      refine ⟨_, rfl, hq1, hq2, fun _ => rfl, r1, ?_⟩
      have hu : ∀ o : Lat, o.target = T → o.tolerance = r → o.tuner conv log e = some (LatencyTuner.create conv log e o.cfg) := by
        intro o o1 o2
        unfold Lat.tuner
        rw [if_neg]
        rw [o1, o2]
        rintro ⟨-, -, -, h | h⟩
        · rw [chk_some (by omega) (by omega)] at h; cases h
        · rw [chk_some (by omega) (by omega)] at h; cases h
      rw [hu _ rfl rfl]
      simp only [Option.some.injEq]
      simp only [Lat.cfg, LatencyTuner.create, hi, ne_eq, not_false_eq_true, decide_true, Bool.true_or, if_true, true_and]
      have := hc (by omega)
      have hd : ¬ delta0 ≤ 0 := by unfold delta0; norm_num
      rw [if_neg (by omega), if_neg (by omega), if_neg (by omega), if_neg (by rw [show 5 * ms = 5000000 from rfl]; omega), if_neg hd]
      simp [hT]

/-- **C103.** If the same target and tuning profile are set on both sides, the default tolerance of the sender is larger than the one of the
receiver, so that bounds are first exceeded on the receiver. -/
theorem C103_sender_larger {lib : Int → Int → Int} (hlib : LibOk lib) (b b' : TBackend) (p : TProfile) (hp : p ≠ .default) (hi : p ≠ .intact) (T : Int)
    (h1 : 0 < T) (h2 : T ≤ 9007199254740992) :
    ∃ r s, (userLat b p T 0).deduce lib defaultLatency true = some r ∧ (userLat b' p T 0).deduce lib defaultLatency false = some s ∧
      r.tolerance < s.tolerance := by
  have e : ∀ rx b, (userLat b p T 0).deduce lib defaultLatency rx =
      some ⟨backendOf b, p, T, lib (max T ms) (if rx then 1 else 4), if lib (max T ms) (if rx then 1 else 4) ≠ 0 then (lib (max T ms) (if rx then 1 else 4)).tdiv 4 else 0, 5 * ms, delta0⟩ := by
    intro rx b
    unfold Lat.deduce userLat
    have e1 : ∀ b, profileOf rx b p T = p := by intro b; simp [profileOf, hp]
    have e2 : targetOf rx defaultLatency p T = T := by simp [targetOf, show T ≠ 0 by omega]
    simp only [e1, e2, tolerance_default lib rx hi h1 h2]
    simp [hi, h1]
  rw [e, e]
  refine ⟨_, _, rfl, rfl, ?_⟩
  simp only [if_true, Bool.false_eq_true, if_false]
  generalize hM : max T ms = M
  have m1 : 1000000 ≤ M := by rw [← hM]; unfold ms; omega
  have m2 : M ≤ 9007199254740992 := by rw [← hM]; unfold ms; omega
  have a1 := (abs_le.1 (hlib M 1 m1 (by omega) (.inl rfl))).2
  have a4 := (abs_le.1 (hlib M 4 m1 (by omega) (.inr rfl))).1
  have t1 : (1000000 : ℝ) ≤ M := by exact_mod_cast m1
  have t2 : (M : ℝ) ≤ 9007199254740992 := by exact_mod_cast m2
  have hr := (ratio_bounds (x := 4) (y := M * 2) (a := 2) (b := 2) (c := 20) (d := 54) (by norm_num) (by norm_num) (by norm_num; linarith)
    (by norm_num; linarith) (by norm_num)).1
  have hs : exact M 4 = exact M 1 + M * (Real.log 4 / Real.log (M * 2)) := by
    unfold exact
    push_cast
    rw [show (400000000 : ℝ) * 4 = (400000000 * 1) * 4 by norm_num, Real.log_mul (by norm_num) (by norm_num)]
    ring
  have hm := mul_le_mul_of_nonneg_left hr (show (0 : ℝ) ≤ M by linarith)
  have : (lib M 1 : ℝ) < lib M 4 := by
    rw [hs] at a4
    norm_num at hm a1 a4
    linarith
  exact_mod_cast this

/-- **C103** (negation). The tolerances in the comment of the formula are not what it gives: for targets of 1 ms, 10 ms and 2 s the comment says
8 ms, 20 ms and 1444 ms. For 200 ms it is right. -/
theorem C103_tolerance_fails {lib : Int → Int → Int} (hlib : LibOk lib) (b : TBackend) (p : TProfile) (hp : p = .responsive ∨ p = .gradual) :
    (∃ o, (userLat b p 1000000 0).deduce lib defaultLatency true = some o ∧ o.tolerance < 1500000) ∧
    (∃ o, (userLat b p 10000000 0).deduce lib defaultLatency true = some o ∧ o.tolerance < 12500000) ∧
    (∃ o, (userLat b p 2000000000 0).deduce lib defaultLatency true = some o ∧ 1700000000 < o.tolerance) ∧
    (∃ o, (userLat b p 200000000 0).deduce lib defaultLatency true = some o ∧ 199999998 ≤ o.tolerance ∧ o.tolerance ≤ 200000002) := by
  have e : ∀ T : Int, 1000000 ≤ T → T ≤ 9007199254740992 → ∃ o, (userLat b p T 0).deduce lib defaultLatency true = some o ∧ o.tolerance = lib T 1 := by
    intro T t1 t2
    obtain ⟨o, ho⟩ : ∃ o, (userLat b p T 0).deduce lib defaultLatency true = some o := by
      obtain ⟨o, h, -⟩ := C103_receiver_partial hlib b p T 0 (by omega) t2
      exact ⟨o, h⟩
    refine ⟨o, ho, ?_⟩
    unfold Lat.deduce userLat at ho
    have hd : p ≠ .default := by rcases hp with rfl | rfl <;> decide
    have hi : p ≠ .intact := by rcases hp with rfl | rfl <;> decide
    have e1 : ∀ b, profileOf true b p T = p := by intro b; simp [profileOf, hd]
    have e2 : targetOf true defaultLatency p T = T := by simp [targetOf, show T ≠ 0 by omega]
    simp only [e1, e2, tolerance_default lib true hi (show 0 < T by omega) t2] at ho
    injection ho with ho
    rw [← ho]
    simp only [if_true]
    rw [show max T ms = T by unfold ms; omega]
  refine ⟨?_, ?_, ?_, ?_⟩
  · obtain ⟨o, h, h'⟩ := e 1000000 (by norm_num) (by norm_num)
    refine ⟨o, h, ?_⟩
    have := (lib_bounds hlib (t := 1000000) (m := 1) (b := 29) (c := 20) (d := 54) (by norm_num) (by norm_num) (.inl rfl) (by norm_num) (by norm_num)
      (by norm_num) (by norm_num)).2
    rw [h']
    have h3 : (lib 1000000 1 : ℝ) < 1500000 := by norm_num at this; linarith
    exact_mod_cast h3
  · obtain ⟨o, h, h'⟩ := e 10000000 (by norm_num) (by norm_num)
    refine ⟨o, h, ?_⟩
    have := (lib_bounds hlib (t := 10000000) (m := 1) (b := 29) (c := 24) (d := 54) (by norm_num) (by norm_num) (.inl rfl) (by norm_num) (by norm_num)
      (by norm_num) (by norm_num)).2
    rw [h']
    have h3 : (lib 10000000 1 : ℝ) < 12500000 := by norm_num at this; linarith
    exact_mod_cast h3
  · obtain ⟨o, h, h'⟩ := e 2000000000 (by norm_num) (by norm_num)
    refine ⟨o, h, ?_⟩
    have := (lib_bounds hlib (t := 2000000000) (m := 1) (b := 29) (c := 24) (d := 32) (by norm_num) (by norm_num) (.inl rfl) (by norm_num) (by norm_num)
      (by norm_num) (by norm_num)).1
    rw [h']
    have h3 : (1700000000 : ℝ) < lib 2000000000 1 := by norm_num at this; linarith
    exact_mod_cast h3
  · obtain ⟨o, h, h'⟩ := e 200000000 (by norm_num) (by norm_num)
    refine ⟨o, h, ?_⟩
    have hb := abs_le.1 (hlib 200000000 1 (by norm_num) (by norm_num) (.inl rfl))
    have hx : exact 200000000 1 = 200000000 := by
      unfold exact
      push_cast
      rw [show (200000000 : ℝ) * 2 = 400000000 * 1 by norm_num, div_self (Real.log_pos (by norm_num)).ne', mul_one]
    rw [hx] at hb
    rw [h']
    have h3 : (199999998 : ℝ) ≤ lib 200000000 1 := by norm_num at hb; linarith [hb.1]
    have h4 : (lib 200000000 1 : ℝ) ≤ 200000002 := by norm_num at hb; linarith [hb.2]
    exact ⟨by exact_mod_cast h3, by exact_mod_cast h4⟩

/-- **C103** (negation). Targets from 2^61 ns, which the type of the field allows, overflow signed arithmetic when the receiver is opened with
default timeouts. -/
theorem C103_overflow_fails (lib : Int → Int → Int) (speex : Bool) (c : SourceCfg) (h0 : c.noPlayback = 0) (h1 : 2305843009213693952 ≤ c.target) :
    receiverDeduce lib speex c = none := by
  unfold receiverDeduce
  cases e : Lat.deduce lib defaultLatency true ⟨c.tbackend, c.tprofile, c.target, c.tolerance, 0, 0, 0⟩ with
  | none => rfl
  | some o =>
    have ht : o.target = c.target := by
      unfold Lat.deduce at e
      simp only [Option.map_eq_some_iff] at e
      obtain ⟨r, -, e⟩ := e
      rw [← e]
      simp [targetOf, show c.target ≠ 0 by omega]
    simp only [Option.bind_some]
    unfold Wd.deduce
    rw [h0, ht]
    simp only [if_true]
    rw [if_neg (show ¬ c.target ≤ 0 by omega)]
    have : chk (c.target * 4) = none := by unfold chk; rw [if_neg (by omega)]
    rw [this]
    rfl

/-- **C103** (partial: targets up to 2^53 ns). Timeouts of the watchdog: values of the user are kept, zero means 4/3 of the target for the lack of playback and 2 s
for choppy playback; a negative value, and only that, disables the check. The watchdog accepts these settings at any rate of samples. -/
theorem C103_watchdog_partial (target np ch : Int) (h1 : target ≤ 9007199254740992) (conv : Int → Nat)
    (hm : ∀ a b, 0 ≤ a → a ≤ b → conv a ≤ conv b) :
    ∃ w, (Wd.mk np ch 0 0).deduce target = some w ∧
      (np ≠ 0 → w.noPlayback = np) ∧
      (np = 0 → ∀ t, (0 < target → t = target) → (target ≤ 0 → t = 200000000) → 3 * w.noPlayback ≤ 4 * t ∧ 4 * t < 3 * w.noPlayback + 3 ∧ w.warmup = t) ∧
      (ch ≠ 0 → w.choppy = ch) ∧ (ch = 0 → w.choppy = 2000000000) ∧
      ((w.cfg conv).maxBlank = 0 ↔ np < 0) ∧ ((w.cfg conv).maxDrops = 0 ↔ ch < 0) ∧ 1 ≤ (w.cfg conv).warmup ∧ (w.cfg conv).valid = true := by
  generalize ht : (if target ≤ 0 then 200 * ms else target) = t
  have hms : ms = 1000000 := rfl
  have t1 : 0 < t := by rw [← ht]; split <;> omega
  have t2 : t ≤ 9007199254740992 := by rw [← ht]; split <;> omega
  have t3 : (0 < target → t = target) ∧ (target ≤ 0 → t = 200000000) := by
    rw [← ht]
    constructor <;> intro h
    · rw [if_neg (by omega)]
    · rw [if_pos h]; rfl
  unfold Wd.deduce
  simp only [ht]
  rw [chk_some (by omega) (by omega)]
  obtain ⟨r, e, r1, r2⟩ : ∃ r, (if np = 0 then (some (t * 4)).map fun x => x.tdiv 3 else some np) = some r ∧ (np ≠ 0 → r = np) ∧ (np = 0 → r = t * 4 / 3) := by
    by_cases h : np = 0
    · exact ⟨t * 4 / 3, by rw [if_pos h]; simp [Int.tdiv_eq_ediv_of_nonneg (show 0 ≤ t * 4 by omega)], fun h' => absurd h h', fun _ => rfl⟩
    · exact ⟨np, by rw [if_neg h], fun _ => rfl, fun h' => absurd h' h⟩
  rw [e]
  refine ⟨_, rfl, r1, ?_, ?_, ?_, ?_, ?_, ?_, ?_⟩
  · intro h t' p1 p2
    have := r2 h
    have : t' = t := by
      by_cases hp : 0 < target
      · rw [p1 hp, t3.1 hp]
      · rw [p2 (by omega), t3.2 (by omega)]
    subst this
    exact ⟨show 3 * r ≤ 4 * t' by omega, show 4 * t' < 3 * r + 3 by omega, rfl⟩
  · intro h; simp [h]
  · intro h; simp [h, ms]
  · simp only [Wd.cfg]
    by_cases h : np = 0
    · have := r2 h
      rw [if_pos (by omega)]; omega
    · have := r1 h
      split <;> omega
  · simp only [Wd.cfg]
    by_cases h : ch = 0
    · simp [h, ms]
    · simp only [h, if_false]
      split <;> omega
  · simp only [Wd.cfg, if_true]
    rw [if_pos (by omega)]
    omega
  · simp only [Wd.cfg, Watchdog.Cfg.valid, if_true]
    generalize hx : (if ch = 0 then 2000 * ms else ch) = x
    by_cases h : 0 ≤ x
    · have hd : x.tdiv 4 = x / 4 := Int.tdiv_eq_ediv_of_nonneg h
      have := hm (min (300 * ms) (x.tdiv 4)) x (by rw [hd]; simp only [ms]; omega) (by rw [hd]; omega)
      simp only [ge_iff_le, h, if_true]
      simp only [decide_eq_true_eq]
      omega
    · simp [show ¬ x ≥ 0 by omega]

/-- **C103.** Default resampler: the built-in one for the responsive profile or if Speex is not available, otherwise Speex; a value of the user
is kept. -/
theorem C103_resampler (speex : Bool) (b : RBackend) (p : TProfile) :
    (b ≠ .default → rbackendOf speex b p = b) ∧
    (b = .default → (rbackendOf speex b p = .builtin ↔ p = .responsive ∨ speex = false) ∧ (rbackendOf speex b p = .speex ↔ ¬ (p = .responsive ∨ speex = false))) := by
  unfold rbackendOf
  constructor
  · intro h; rw [if_neg h]
  · intro h
    rw [if_pos h]
    split <;> simp_all

/-! ## Examples -/

/-- A library that meets the assumption. -/
example : LibOk fun t m => ⌊exact t m⌋ := by
  intro t m h1 _ _
  have ht : (0 : ℝ) ≤ t := by exact_mod_cast (by omega : (0 : Int) ≤ t)
  have a := Int.floor_le (exact t m)
  have b := Int.lt_floor_add_one (exact t m)
  have c : (0 : ℝ) ≤ t / 2 ^ 45 := by positivity
  rw [abs_le]
  constructor <;> linarith

/-- Conversion at 44100 Hz: what the theorems assume of it. -/
example : (∀ a b : Int, 0 ≤ a → a ≤ b → (a * 44100 / 1000000000).toNat ≤ (b * 44100 / 1000000000).toNat) ∧ 0 < (5000000 * 44100 / 1000000000 : Int) ∧
    0 < (200000000 * 44100 / 1000000000 : Int) := by
  refine ⟨fun a b _ _ => by omega, by decide, by decide⟩

end Verif.Defaults
