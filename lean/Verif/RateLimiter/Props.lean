import Verif.RateLimiter.Model

/-! # C52: rate limiter -/

namespace Verif.RateLimiter

theorem allow_pos (s : State) (hp : 0 < s.period) (t : Nat) (h : s.pos ≤ t) :
    t < (s.allow t).1.pos ∧ (s.allow t).1.pos ≤ t + s.period ∧ (s.allow t).1.period = s.period ∧
    (s.allow t).1.pos / s.period = t / s.period + 1 := by
  unfold State.allow
  rw [if_pos h]
  simp only
  have h1 := Nat.div_add_mod t s.period
  have h2 := Nat.mod_lt t hp
  have h3 : (t / s.period + 1) * s.period = s.period * (t / s.period) + s.period := by
    rw [Nat.add_mul, Nat.one_mul, Nat.mul_comm]
  refine ⟨by omega, by omega, trivial, ?_⟩
  rw [Nat.mul_div_cancel _ hp]

theorem grants_cells (ts : List Nat) : ∀ (s : State), 0 < s.period → s.pos % s.period = 0 →
    (grants s ts).Pairwise (fun a b => a / s.period < b / s.period) ∧
    ∀ g ∈ grants s ts, s.pos ≤ g := by
  induction ts with
  | nil => intro s _ _; simp [grants]
  | cons t ts ih =>
    intro s hp hgrid
    unfold grants
    by_cases h : t ≥ s.pos
    · have ha := allow_pos s hp t h
      have hgrid' : (s.allow t).1.pos % (s.allow t).1.period = 0 := by
        simp [State.allow, if_pos h]
      have hi := ih (s.allow t).1 (by rw [ha.2.2.1]; exact hp) hgrid'
      have hres : (s.allow t).2 = true := by simp [State.allow, if_pos h]
      split
      · rename_i s' heq
        rw [heq] at ha hi
        simp only at ha hi
        rw [ha.2.2.1] at hi
        refine ⟨List.pairwise_cons.mpr ⟨fun g hg => ?_, hi.1⟩, fun g hg => ?_⟩
        · have h1 := hi.2 g hg
          have h2 := Nat.div_le_div_right (c := s.period) h1
          omega
        · rcases List.mem_cons.mp hg with rfl | hg
          · exact h
          · have := hi.2 g hg; omega
      · rename_i s' heq; rw [heq] at hres; simp at hres
    · have hres : s.allow t = (s, false) := by simp [State.allow, if_neg h]
      rw [hres]
      exact ih s hp hgrid

/-- **C52** (partial: on a fixed grid). For every sequence of request times, at most one request is
granted in each period-long cell `[k*period, (k+1)*period)` counted from the start. Missing from
the property: a full period between two grants (`C52_distance_fails`). -/
theorem C52_one_grant_per_cell_partial (period : Int) (s0 : State) (h0 : State.init period = some s0)
    (ts : List Nat) :
    (grants s0 ts).Pairwise (fun a b => a / s0.period < b / s0.period) := by
  unfold State.init at h0
  split at h0
  · simp at h0
  · rw [Option.some.injEq] at h0
    subst h0
    exact (grants_cells ts _ (by simp; omega) (by simp)).1

example := C52_one_grant_per_cell_partial 10 ⟨10, 0⟩ rfl [3, 9, 10, 11, 35, 40, 41]
example : grants ⟨10, 0⟩ [3, 9, 10, 11, 35, 40, 41] = [3, 10, 35, 40] := by decide

/-- **C52** (partial): any three grants span more than one full period. -/
theorem C52_three_grants_partial (period : Int) (s0 : State) (h0 : State.init period = some s0)
    (ts pre mid post : List Nat) (a b c : Nat) (rest : List Nat)
    (h : grants s0 ts = pre ++ a :: mid ++ b :: post ++ c :: rest) : a + s0.period < c := by
  have hp := C52_one_grant_per_cell_partial period s0 h0 ts
  have hpos : 0 < s0.period := by
    unfold State.init at h0
    split at h0
    · simp at h0
    · rw [Option.some.injEq] at h0; subst h0; simp; omega
  rw [h] at hp
  simp only [List.append_assoc, List.cons_append, List.pairwise_append, List.pairwise_cons,
    List.mem_append, List.mem_cons] at hp
  have hab : a / s0.period < b / s0.period := hp.2.1.1 b (by simp)
  have hbc : b / s0.period < c / s0.period := (hp.2.1.2).2.1.1 c (by simp)
  have h1 := Nat.div_add_mod a s0.period
  have h2 := Nat.mod_lt a hpos
  have h3 := Nat.div_mul_le_self c s0.period
  have h4 : (a / s0.period + 2) * s0.period ≤ c / s0.period * s0.period :=
    Nat.mul_le_mul_right _ (by omega)
  rw [Nat.add_mul, Nat.mul_comm] at h4
  omega

example : 3 + 10 < 35 :=
  C52_three_grants_partial 10 ⟨10, 0⟩ rfl [3, 9, 10, 11, 35, 40, 41] [] [] [] 3 10 35 [40] (by decide)

/-- **C52** (liveness): a request made a full period or more after the last grant is granted. -/
theorem C52_granted_after_period (s : State) (hp : 0 < s.period) (t t' : Nat)
    (hg : (s.allow t).2 = true) (h : t + s.period ≤ t') :
    ((s.allow t).1.allow t').2 = true ∧ (s.allow t).1.wouldAllow t' = true := by
  have hpos : s.pos ≤ t := by
    unfold State.allow at hg
    split at hg
    · assumption
    · simp at hg
  have ha := allow_pos s hp t hpos
  constructor
  · generalize (s.allow t).1 = s' at *
    unfold State.allow
    rw [if_pos (by omega)]
  · simp only [State.wouldAllow, ge_iff_le, decide_eq_true_eq]; omega

example := C52_granted_after_period ⟨10, 0⟩ (by decide) 7 17 rfl (by decide)

/-- A non-positive period is an abort. -/
theorem C52_bad_period (period : Int) (h : period ≤ 0) : State.init period = none := by
  simp [State.init, h]

example := C52_bad_period (-5) (by decide)

/-- **C52 fails**: with period 10, requests at 9 and 10 are both granted. -/
theorem C52_distance_fails : ∃ s0, State.init 10 = some s0 ∧ grants s0 [9, 10] = [9, 10] :=
  ⟨_, rfl, by decide⟩

end Verif.RateLimiter
