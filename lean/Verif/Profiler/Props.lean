import Verif.Profiler.Lemmas
import Mathlib.Tactic.NormNum
import Mathlib.Algebra.Order.BigOperators.Group.List

/-!
# C114: Profiler
-/

namespace Verif.Profiler

/-- A profiler with chunks of `L` samples and `N` chunks, as the constructor makes it. -/
def start (L N : Nat) : P :=
  { L := L, N := N, chunks := fun _ => 0, first := 0, last := 0, samples := 0, avg := 0, full := false }

theorem start_inv {L N : Nat} (hL : 1 ≤ L) (hN : 2 ≤ N) : Inv (start L N) [] 0 0 := by
  refine ⟨hL, hN, by simp, hL, rfl, by simp [start], ?_, ?_, ?_, ?_, ?_⟩
  · show false = decide (N ≤ 0)
    rw [eq_comm, decide_eq_false_iff_not]; omega
  · show 0 = if 0 < N then 0 else _
    rw [if_pos (by omega)]
  · intro j hj; omega
  · simp [start, psum]
  · show if 0 < N then _ else _
    rw [if_pos (by omega)]
    simp [start, psum]

theorem avg_of_inv {p : P} {h : List ℚ} {c s : Nat} (hi : Inv p h c s) (hne : h ≠ []) :
    p.movingAvg = some (windowMean p.L p.N h) := by
  have hL := hi.hL
  have hN := hi.hN
  have hlen := hi.len
  have hs := hi.hs
  have hLq : (p.L : ℚ) ≠ 0 := Nat.cast_ne_zero.mpr (by omega)
  have hpos : h.length ≠ 0 := fun e => hne (List.length_eq_zero_iff.mp e)
  have hcur := hi.cur
  have ha := hi.avg
  unfold P.movingAvg windowMean
  rw [hi.full, hi.samples, hi.last, hi.first]
  by_cases hc : c < p.N
  · have hlt : h.length < p.N * p.L := by
      rw [hlen]
      have : (c + 1) * p.L ≤ p.N * p.L := Nat.mul_le_mul_right _ hc
      rw [Nat.add_mul, Nat.one_mul] at this
      omega
    rw [if_pos (by simpa using hc), if_pos hlt]
    rw [if_pos hc] at ha
    rw [Nat.mod_eq_of_lt hc] at hcur ⊢
    have e : (((p.L * c : Nat) : ℚ) + s) = (h.length : ℚ) := by rw [hlen]; push_cast; ring
    simp only
    rw [e, qdiv_some (Nat.cast_ne_zero.mpr hpos), mean, ← psum_all]
    congr 2
    rw [hcur]
    push_cast
    rw [hlen] at *
    linarith
  · have hge : ¬ h.length < p.N * p.L := by
      rw [hlen]
      have : p.N * p.L ≤ c * p.L := Nat.mul_le_mul_right _ (by omega)
      omega
    rw [if_neg (by simpa using hc), if_neg hge, if_neg hc]
    rw [if_neg hc] at ha
    have hdiv : h.length / p.L = c := by
      rw [hlen, Nat.mul_comm, Nat.mul_add_div (by omega), Nat.div_eq_of_lt hs, Nat.add_zero]
    have hmod : h.length % p.L = s := by
      rw [hlen, Nat.mul_comm, Nat.mul_add_mod, Nat.mod_eq_of_lt hs]
    rw [hdiv, hmod]
    have hj := hi.chunk (c + 1 - p.N) (by omega) (by omega)
    have hjm : (c + 1 - p.N) % p.N = (c + 1) % p.N := by
      conv => rhs; rw [show c + 1 = (c + 1 - p.N) + p.N by omega, Nat.add_mod_right]
    rw [hjm] at hj
    have hn0 : ((p.L * (p.N - 1) : Nat) : ℚ) ≠ 0 := by
      apply Nat.cast_ne_zero.mpr
      exact Nat.mul_ne_zero (by omega) (by omega)
    rw [qdiv_some hn0]
    have hmul : (c + 1 - p.N + 1) * p.L = (c + 1 - p.N) * p.L + p.L := by rw [Nat.add_mul, Nat.one_mul]
    have hle : (c + 1 - p.N + 1) * p.L ≤ c * p.L := Nat.mul_le_mul_right _ (by omega)
    have htl : ((h.drop ((c + 1 - p.N) * p.L)).take p.L).length = p.L := by
      rw [List.length_take, List.length_drop]; omega
    have hm : mean ((h.drop ((c + 1 - p.N) * p.L)).take p.L) =
        (psum h ((c + 1 - p.N + 1) * p.L) - psum h ((c + 1 - p.N) * p.L)) / p.L := by
      unfold mean
      rw [htl, sum_drop_take, hmul]
    simp only [hm]
    rw [List.drop_drop, sum_drop, ← hmul, ← hj, hcur]
    have e1 : ((p.L * (p.N - 1) : Nat) : ℚ) = ((p.N - 1) * p.L : Nat) := by rw [Nat.mul_comm]
    rw [e1]
    congr 2
    have e2 : p.chunks ((c + 1) % p.N) * (p.L : ℚ) / p.L = p.chunks ((c + 1) % p.N) := by
      field_simp
    have hNq : (((p.N - 1) * p.L : Nat) : ℚ) = ((p.N : ℚ) - 1) * p.L := by
      rw [Nat.cast_mul, Nat.cast_sub (by omega)]; simp
    have hsq : ((p.L - s : Nat) : ℚ) = (p.L : ℚ) - s := Nat.cast_sub (by omega)
    rw [e2, hNq, ha, hsq, hlen]
    linarith

/-- **C114** (average). Whatever the sizes of frames, after any sequence of frames with at least one sample
the profiler reports the average speed of the samples in its window: all of them until the `N` chunks are
complete, then the last `N - 1` chunks. No value on the way is infinite or not a number, the loop ends, and
the indexes are inside of the array. -/
theorem C114_average (L N : Nat) (hL : 1 ≤ L) (hN : 2 ≤ N) (fs : List (Nat × Int))
    (he : ∀ f ∈ fs, f.2 ≠ 0) :
    ∃ p, (start L N).addFrames fs = some p ∧ p.first < N ∧ p.last < N ∧
      (history fs ≠ [] → p.movingAvg = some (windowMean L N (history fs))) := by
  obtain ⟨q, c, s, hq, e1, e2, hi⟩ := frames_inv fs (start_inv hL hN) he
  have e1' : q.L = L := e1
  have e2' : q.N = N := e2
  refine ⟨q, hq, ?_, ?_, fun hne => ?_⟩
  · rw [hi.first, e2']
    split
    · omega
    · exact Nat.mod_lt _ (by omega)
  · rw [hi.last, e2']; exact Nat.mod_lt _ (by omega)
  · rw [List.nil_append] at hi
    have := avg_of_inv hi hne
    rw [e1', e2'] at this
    exact this

theorem history_length : ∀ fs, (history fs).length = (fs.map Prod.fst).sum
  | [] => rfl
  | f :: fs => by simp [history, history_length fs]

theorem sum_between {l : List ℚ} {a b : ℚ} (h : ∀ x ∈ l, a ≤ x ∧ x ≤ b) :
    a * l.length ≤ l.sum ∧ l.sum ≤ b * l.length := by
  induction l with
  | nil => simp
  | cons x l ih =>
    obtain ⟨h1, h2⟩ := ih (fun y hy => h y (by simp [hy]))
    obtain ⟨h3, h4⟩ := h x (by simp)
    simp only [List.sum_cons, List.length_cons]
    push_cast
    constructor <;> linarith

theorem mean_between {l : List ℚ} {a b : ℚ} (hne : l ≠ []) (h : ∀ x ∈ l, a ≤ x ∧ x ≤ b) :
    a ≤ mean l ∧ mean l ≤ b := by
  obtain ⟨h1, h2⟩ := sum_between h
  have hp : (0 : ℚ) < l.length := by
    have : l.length ≠ 0 := fun e => hne (List.length_eq_zero_iff.mp e)
    exact_mod_cast Nat.pos_of_ne_zero this
  unfold mean
  exact ⟨by rw [le_div_iff₀ hp]; exact h1, by rw [div_le_iff₀ hp]; exact h2⟩

/-- **C114** (range). The reported average is between the least and the greatest speed of the samples in the
window, that is the last `N` chunks at most. -/
theorem C114_range (L N : Nat) (hL : 1 ≤ L) (hN : 2 ≤ N) (h : List ℚ) (hne : h ≠ []) (a b : ℚ)
    (hab : ∀ x ∈ h.drop ((h.length / L + 1 - N) * L), a ≤ x ∧ x ≤ b) :
    a ≤ windowMean L N h ∧ windowMean L N h ≤ b := by
  unfold windowMean
  by_cases hlt : h.length < N * L
  · rw [if_pos hlt]
    apply mean_between hne
    have : h.length / L < N := by rw [Nat.div_lt_iff_lt_mul (by omega)]; exact hlt
    have hz : h.length / L + 1 - N = 0 := by omega
    rw [hz] at hab
    simpa using hab
  · rw [if_neg hlt]
    have hc : N ≤ h.length / L := by rw [Nat.le_div_iff_mul_le (by omega)]; omega
    have hdm := Nat.div_add_mod h.length L
    have hml := Nat.mod_lt h.length (show L > 0 by omega)
    generalize h.length / L = c at *
    generalize h.length % L = s at *
    have hwl : (h.drop ((c + 1 - N) * L)).length = (N - 1) * L + s := by
      rw [List.length_drop, ← hdm]
      have e : c = (c + 1 - N) + (N - 1) := by omega
      conv => lhs; lhs; rw [e, Nat.mul_comm, Nat.add_mul]
      omega
    simp only
    generalize h.drop ((c + 1 - N) * L) = w at *
    have hNL : L ≤ (N - 1) * L := Nat.le_mul_of_pos_left _ (by omega)
    have htake : (w.take L) ≠ [] := by
      intro e
      have := congrArg List.length e
      rw [List.length_take, hwl] at this
      simp at this; omega
    obtain ⟨m1, m2⟩ := mean_between htake (fun x hx => hab x (List.mem_of_mem_take hx))
    obtain ⟨d1, d2⟩ := sum_between (l := w.drop L) (fun x hx => hab x (List.mem_of_mem_drop hx))
    have hdl : ((w.drop L).length : ℚ) = ((N - 1) * L : Nat) - L + s := by
      rw [List.length_drop, hwl]
      rw [Nat.sub_add_comm hNL, Nat.cast_add, Nat.cast_sub hNL]
    rw [hdl] at d1 d2
    have hsq : ((L - s : Nat) : ℚ) = (L : ℚ) - s := Nat.cast_sub (by omega)
    have hp : (0 : ℚ) < (((N - 1) * L : Nat) : ℚ) := by
      exact_mod_cast Nat.mul_pos (by omega) (by omega)
    have hq : (0 : ℚ) ≤ ((L - s : Nat) : ℚ) := Nat.cast_nonneg _
    have n1 := mul_le_mul_of_nonneg_left m1 hq
    have n2 := mul_le_mul_of_nonneg_left m2 hq
    constructor
    · rw [le_div_iff₀ hp]
      rw [hsq] at *
      linarith
    · rw [div_le_iff₀ hp]
      rw [hsq] at *
      linarith

/-- **C114** (configuration). With a chunk duration that is not zero, the profiler is valid iff both durations are
not negative and a chunk has at least one sample; then the window has at least two chunks iff the interval is
not shorter than a chunk. -/
theorem C114_create_partial (rate : Nat) (interval chunk : Int) (hi : 0 ≤ interval ∧ interval < 2 ^ 63)
    (hc : 0 < chunk ∧ chunk < 2 ^ 63) :
    (1000000000 ≤ (rate : Int) * chunk ↔ ∃ p, create rate interval chunk = .made p) ∧
    ∀ p, create rate interval chunk = .made p →
      p = start (rate * chunk.toNat / 1000000000) (interval.toNat / chunk.toNat + 1) ∧
      1 ≤ p.L ∧ (2 ≤ p.N ↔ chunk ≤ interval) := by
  obtain ⟨i, rfl⟩ := Int.eq_ofNat_of_zero_le hi.1
  obtain ⟨c, rfl⟩ := Int.eq_ofNat_of_zero_le (Int.le_of_lt hc.1)
  have hc0 : 0 < c := by simpa using hc.1
  have hi64 : i < 2 ^ 63 := by exact_mod_cast hi.2
  have hc64 : c < 2 ^ 63 := by exact_mod_cast hc.2
  have hu : ∀ n : Nat, n < 2 ^ 63 → toULong (n : Int) = n := by
    intro n hn
    unfold toULong
    omega
  have hL : ⌊(rate : ℚ) * (((c : Int) : ℚ) / 1000000000)⌋.toNat = rate * c / 1000000000 := by
    have : (rate : ℚ) * (((c : Int) : ℚ) / 1000000000) = ((rate * c : Nat) : ℚ) / ((1000000000 : Nat) : ℚ) := by
      push_cast; ring
    rw [this, Rat.floor_natCast_div_natCast]
    rfl
  have hdl : i / c ≤ i := Nat.div_le_self _ _
  have hN : (i / c + 1) % 2 ^ 64 = i / c + 1 := Nat.mod_eq_of_lt (by omega)
  unfold create
  rw [hu i hi64, hu c hc64, if_neg (by omega)]
  simp only [hL, hN, Int.toNat_natCast]
  have hLe : 1 ≤ rate * c / 1000000000 ↔ 1000000000 ≤ rate * c := by
    rw [Nat.le_div_iff_mul_le (by omega), Nat.one_mul]
  have hcast : (1000000000 : Int) ≤ (rate : Int) * ((c : Nat) : Int) ↔ 1000000000 ≤ rate * c := by
    exact_mod_cast Iff.rfl
  rw [hcast, ← hLe]
  by_cases h1 : 1 ≤ rate * c / 1000000000
  · rw [if_neg (by
      rintro (h | h | h | h)
      · omega
      · omega
      · omega
      · exact Nat.succ_ne_zero _ h)]
    refine ⟨⟨fun _ => ⟨_, rfl⟩, fun _ => h1⟩, ?_⟩
    intro p hp
    cases hp
    refine ⟨rfl, h1, ?_⟩
    show 2 ≤ i / c + 1 ↔ ((c : Nat) : Int) ≤ i
    have : 1 ≤ i / c ↔ c ≤ i := by rw [Nat.le_div_iff_mul_le hc0, Nat.one_mul]
    omega
  · rw [if_pos (by omega)]
    refine ⟨⟨fun h => absurd h h1, ?_⟩, ?_⟩
    · rintro ⟨p, hp⟩; cases hp
    · intro p hp; cases hp

/-- **C114 fails** (configuration): a chunk duration of zero is not reported as invalid but divides by zero
before the check. -/
theorem C114_zero_chunk_fails (rate : Nat) (interval : Int) : create rate interval 0 = .trap := by
  unfold create
  rw [if_pos (by decide)]

/-- **C114 fails** (one chunk): a profiler whose interval is shorter than a chunk is valid, but as soon as the
chunk is complete the average is not a number. -/
theorem C114_one_chunk_fails (L : Nat) (hL : 1 ≤ L) (e : Int) (he : e ≠ 0) :
    (start L 1).addFrame L e = none := by
  have hf : ((e : Int) : ℚ) ≠ 0 := Int.cast_ne_zero.mpr he
  have hLq : ((0 + L : Nat) : ℚ) ≠ 0 := Nat.cast_ne_zero.mpr (by omega)
  unfold P.addFrame
  rw [qdiv_some hf]
  simp only [Option.bind_eq_bind, Option.bind_some]
  unfold P.loop
  rw [dif_neg (by omega)]
  have hn : min L ((start L 1).L - (start L 1).samples) = L := by simp [start]
  simp only [hn, dif_neg (show L ≠ 0 by omega)]
  have : (start L 1).round (↑L * 1000000000 / ↑e) L = none := by
    unfold P.round
    simp only [start, Option.bind_eq_bind, Nat.zero_add, Nat.mod_self, if_true]
    simp [qdiv]
  rw [this]

/-- **C114 fails** (no frames): before the first sample the average is not a number. -/
theorem C114_empty_fails (L N : Nat) : (start L N).movingAvg = none := by
  simp [start, P.movingAvg, qdiv]

/-- **C114 fails** (samples per second): the average of the speeds of samples is not the number of samples
per second of work. Ten samples take one second and ten take three: twenty samples in four seconds are reported
as 6.67 samples per second, not 5. -/
theorem C114_rate_fails :
    let fs : List (Nat × Int) := [(10, 1000000000), (10, 3000000000)]
    ∃ p, (start 10 3).addFrames fs = some p ∧ p.movingAvg = some (20 / 3) ∧
      ((fs.map Prod.fst).sum : ℚ) * 1000000000 / ((fs.map Prod.snd).sum : Int) = 5 := by
  intro fs
  obtain ⟨p, hp, _, _, ha⟩ := C114_average 10 3 (by omega) (by omega) fs (by decide)
  refine ⟨p, hp, ?_, ?_⟩
  · rw [ha (by simp [fs, history])]
    have : history fs = List.replicate 10 10 ++ List.replicate 10 (10 / 3) := by
      simp only [fs, history, speed]; norm_num
    rw [this]
    congr 1
    unfold windowMean mean
    rw [if_pos (by simp)]
    rw [List.sum_append, List.sum_replicate, List.sum_replicate]
    norm_num
  · simp only [fs]; norm_num

/-- Frames of odd sizes, with a window of two chunks of four samples. -/
example : ∃ p, (start 4 3).addFrames [(3, 3000000000), (7, 3500000000), (5, 5000000000)] = some p ∧
    p.movingAvg = some (windowMean 4 3 [1, 1, 1, 2, 2, 2, 2, 2, 2, 2, 1, 1, 1, 1, 1]) ∧
    windowMean 4 3 [1, 1, 1, 2, 2, 2, 2, 2, 2, 2, 1, 1, 1, 1, 1] = 11 / 8 := by
  obtain ⟨p, hp, _, _, ha⟩ := C114_average 4 3 (by omega) (by omega)
    [(3, 3000000000), (7, 3500000000), (5, 5000000000)] (by decide)
  have hh : history [(3, 3000000000), (7, 3500000000), (5, 5000000000)] =
      [1, 1, 1, 2, 2, 2, 2, 2, 2, 2, 1, 1, 1, 1, 1] := by
    simp only [history, speed]; norm_num [List.replicate]
  refine ⟨p, hp, ?_, ?_⟩
  · rw [ha (by rw [hh]; simp), hh]
  · unfold windowMean mean
    norm_num
example := C114_range 4 3 (by omega) (by omega) [1, 1, 1, 2, 2, 2, 2, 2, 2, 2, 1, 1, 1, 1, 1] (by simp) 1 2
  (by norm_num)
example := C114_create_partial 44100 1000000000 10000000 (by decide) (by decide)

end Verif.Profiler
