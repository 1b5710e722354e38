import Verif.LatencyTuner.Model
import Mathlib.Tactic.SplitIfs
import Mathlib.Tactic.Linarith
import Mathlib.Tactic.Ring

/-!
# Latency tuner: lemmas
-/

namespace Verif.LatencyTuner

/-- Samples that a history advances. -/
def total : List Op → Nat
  | [] => 0
  | .advance d :: os => d + total os
  | _ :: os => total os

theorem spin_some {pos k : Nat} (hk : 0 < k) (hp : pos + k < m32) (fuel : Nat) : ∀ q, pos + 1 - q < fuel →
    ∃ n q', spin pos k fuel q = some (n, q') ∧ q' = q + n * k ∧ pos < q' ∧ (q ≤ pos → q' ≤ pos + k) := by
  induction fuel with
  | zero => intro q hq; omega
  | succ f ih =>
    intro q hq
    unfold spin
    by_cases hqp : q ≤ pos
    · rw [if_pos hqp]
      obtain ⟨n, q', h1, h2, h3, h4⟩ := ih (q + k) (by omega)
      rw [Nat.mod_eq_of_lt (by omega), h1]
      refine ⟨n + 1, q', rfl, by rw [h2]; ring, h3, fun _ => ?_⟩
      by_cases hc : q + k ≤ pos
      · exact h4 hc
      · have : n = 0 := by
          cases f with
          | zero => unfold spin at h1; cases h1
          | succ f =>
            unfold spin at h1
            rw [if_neg hc] at h1
            injection h1 with h1
            injection h1 with h1 _
            exact h1.symm
        rw [h2, this]
        omega
    · rw [if_neg hqp]
      exact ⟨0, q, rfl, by omega, by omega, fun h => absurd h hqp⟩

theorem loop_some {pos k : Nat} (hk : 0 < k) (hp : pos + k < m32) (q : Nat) :
    ∃ n q', loop pos k q = some (n, q') ∧ q' = q + n * k ∧ pos < q' ∧ (q ≤ pos → q' ≤ pos + k) := spin_some hk hp (m32 + 1) q (by omega)

/-- The loop does not end if `q` never exceeds the position. -/
theorem spin_none {pos k : Nat} (P : Nat → Prop) (h1 : ∀ q, P q → q ≤ pos) (h2 : ∀ q, P q → P ((q + k) % m32)) (fuel : Nat) : ∀ q, P q → spin pos k fuel q = none := by
  induction fuel with
  | zero => intro q _; rfl
  | succ f ih =>
    intro q hq
    unfold spin
    rw [if_pos (h1 q hq), ih _ (h2 q hq)]
    rfl

theorem spin_iff (pos k fuel q : Nat) : (spin pos k fuel q).isSome = true ↔ q < m32 ∧ (∃ i < fuel, pos < (q + i * k) % m32) ∨ m32 ≤ q ∧ (∃ i < fuel, pos < if i = 0 then q else (q + i * k) % m32) := by
  induction fuel generalizing q with
  | zero => simp [spin]
  | succ f ih =>
    unfold spin
    have hlt : (q + k) % m32 < m32 := Nat.mod_lt _ (by decide)
    have hs : ∀ i, ((q + k) % m32 + i * k) % m32 = (q + (i + 1) * k) % m32 := by
      intro i
      rw [Nat.mod_add_mod]
      congr 1
      ring
    by_cases hq : q ≤ pos
    · rw [if_pos hq, Option.isSome_map, ih]
      constructor
      · rintro (⟨_, i, hi, h⟩ | ⟨h, _⟩)
        · rw [hs] at h
          by_cases hm : q < m32
          · exact Or.inl ⟨hm, i + 1, by omega, h⟩
          · exact Or.inr ⟨by omega, i + 1, by omega, by rw [if_neg (by omega)]; exact h⟩
        · omega
      · rintro (⟨hm, i, hi, h⟩ | ⟨hm, i, hi, h⟩)
        · left
          cases i with
          | zero => rw [Nat.zero_mul, Nat.add_zero, Nat.mod_eq_of_lt hm] at h; omega
          | succ i => exact ⟨hlt, i, by omega, by rw [hs]; exact h⟩
        · left
          cases i with
          | zero => simp at h; omega
          | succ i =>
            rw [if_neg (by omega)] at h
            exact ⟨hlt, i, by omega, by rw [hs]; exact h⟩
    · rw [if_neg hq]
      simp only [Option.isSome_some, true_iff]
      by_cases hm : q < m32
      · exact Or.inl ⟨hm, 0, by omega, by rw [Nat.zero_mul, Nat.add_zero, Nat.mod_eq_of_lt hm]; omega⟩
      · exact Or.inr ⟨by omega, 0, by omega, by simp; omega⟩

/-- If the loop does not end within `2^32` iterations, it never ends. -/
theorem spin_forever {pos k q : Nat} (hq : q < m32) (h : loop pos k q = none) (fuel : Nat) : spin pos k fuel q = none := by
  by_contra hc
  have h1 : (spin pos k fuel q).isSome = true := by
    cases hs : spin pos k fuel q with
    | none => exact absurd hs hc
    | some r => rfl
  rw [spin_iff] at h1
  have h2 : ¬ (loop pos k q).isSome = true := by rw [h]; simp
  unfold loop at h2
  rw [spin_iff] at h2
  rcases h1 with ⟨_, i, hi, h3⟩ | ⟨h1, _⟩
  · refine h2 (Or.inl ⟨hq, i % m32, ?_, ?_⟩)
    · have : i % m32 < m32 := Nat.mod_lt _ (by decide)
      omega
    · have : (q + i % m32 * k) % m32 = (q + i * k) % m32 := by
        rw [Nat.add_mod, Nat.mul_mod, Nat.mod_mod, ← Nat.mul_mod, ← Nat.add_mod]
      rw [this]
      exact h3
  · omega

theorem spin_gt {pos k : Nat} (fuel : Nat) : ∀ {q n q' : Nat}, spin pos k fuel q = some (n, q') → pos < q' := by
  induction fuel with
  | zero => intro q n q' h; cases h
  | succ f ih =>
    intro q n q' h
    unfold spin at h
    split_ifs at h with hq
    · obtain ⟨⟨a, b⟩, h1, h2⟩ := Option.map_eq_some_iff.1 h
      injection h2 with _ h2
      rw [← h2]
      exact ih h1
    · injection h with h
      injection h with _ h
      omega

theorem report_gt {E : Type} {s s' : St E} (h : s.report = some s') : s'.pos < s'.reportPos := by
  unfold St.report at h
  split_ifs at h with hp
  · injection h with h; rw [← h]; exact hp
  · obtain ⟨⟨n, q⟩, h1, h2⟩ := Option.map_eq_some_iff.1 h
    rw [← h2]
    exact spin_gt _ h1

/-! ## Members that do not change -/

/-- Parts of the configuration in the state. -/
structure Same {E : Type} (s t : St E) : Prop where
  interval : t.interval = s.interval
  reportInterval : t.reportInterval = s.reportInterval
  delta : t.delta = s.delta
  backend : t.backend = s.backend
  tuning : t.tuning = s.tuning
  bounds : t.bounds = s.bounds
  min : t.min = s.min
  max : t.max = s.max
  maxStalling : t.maxStalling = s.maxStalling

theorem Same.refl {E : Type} (s : St E) : Same s s := ⟨rfl, rfl, rfl, rfl, rfl, rfl, rfl, rfl, rfl⟩

theorem Same.trans {E : Type} {s t u : St E} (h1 : Same s t) (h2 : Same t u) : Same s u :=
  ⟨h2.1.trans h1.1, h2.2.trans h1.2, h2.3.trans h1.3, h2.4.trans h1.4, h2.5.trans h1.5, h2.6.trans h1.6, h2.7.trans h1.7, h2.8.trans h1.8, h2.9.trans h1.9⟩

theorem write_same {E : Type} (conv : Int → Int) (s : St E) (m : Metrics) : Same s (s.write conv m) ∧ (s.write conv m).pos = s.pos ∧ (s.write conv m).scalePos = s.scalePos ∧
    (s.write conv m).reportPos = s.reportPos ∧ (s.write conv m).count = s.count ∧ (s.write conv m).fresh = s.fresh ∧ (s.write conv m).coeff = s.coeff ∧ (s.write conv m).fe = s.fe := by
  unfold St.write
  simp only
  split_ifs <;> exact ⟨⟨rfl, rfl, rfl, rfl, rfl, rfl, rfl, rfl, rfl⟩, rfl, rfl, rfl, rfl, rfl, rfl, rfl⟩

theorem scale_same {E : Type} {est : Est E} {s s' : St E} {l : Int} (h : s.scale est l = some s') : Same s s' ∧ s'.pos = s.pos ∧ s'.reportPos = s.reportPos ∧ s'.niq = s.niq ∧ s'.e2e = s.e2e := by
  unfold St.scale at h
  split_ifs at h
  · injection h with h; rw [← h]; exact ⟨.refl _, rfl, rfl, rfl, rfl⟩
  · split at h
    · cases h
    · injection h with h; rw [← h]; exact ⟨⟨rfl, rfl, rfl, rfl, rfl, rfl, rfl, rfl, rfl⟩, rfl, rfl, rfl, rfl⟩

theorem update_same {E : Type} {est : Est E} {s s' : St E} {b : Bool} (h : s.update est = some (s', b)) :
    Same s s' ∧ s'.pos = s.pos ∧ s'.reportPos = s.reportPos ∧ s'.niq = s.niq ∧ s'.e2e = s.e2e := by
  unfold St.update at h
  have hr : Same s s ∧ s.pos = s.pos ∧ s.reportPos = s.reportPos ∧ s.niq = s.niq ∧ s.e2e = s.e2e := ⟨.refl _, rfl, rfl, rfl, rfl⟩
  split at h
  · injection h with h; injection h with h _; rw [← h]; exact hr
  · split_ifs at h
    · injection h with h; injection h with h _; rw [← h]; exact hr
    · obtain ⟨t, h1, h2⟩ := Option.map_eq_some_iff.1 h
      injection h2 with h2 _
      rw [← h2]
      exact scale_same h1
    · injection h with h; injection h with h _; rw [← h]; exact hr

theorem report_same {E : Type} {s s' : St E} (h : s.report = some s') : Same s s' ∧ s'.pos = s.pos ∧ s'.scalePos = s.scalePos ∧ s'.count = s.count ∧ s'.fresh = s.fresh ∧ s'.coeff = s.coeff ∧
    s'.niq = s.niq ∧ s'.e2e = s.e2e ∧ s'.fe = s.fe := by
  unfold St.report at h
  split_ifs at h
  · injection h with h; rw [← h]; exact ⟨.refl _, rfl, rfl, rfl, rfl, rfl, rfl, rfl, rfl⟩
  · obtain ⟨t, h1, h2⟩ := Option.map_eq_some_iff.1 h
    rw [← h2]
    exact ⟨⟨rfl, rfl, rfl, rfl, rfl, rfl, rfl, rfl, rfl⟩, rfl, rfl, rfl, rfl, rfl, rfl, rfl, rfl⟩

theorem fetch_same {E : Type} (s : St E) : Same s s.fetch.1 ∧ s.fetch.1.pos = s.pos ∧ s.fetch.1.scalePos = s.scalePos ∧ s.fetch.1.reportPos = s.reportPos ∧ s.fetch.1.count = s.count ∧
    s.fetch.1.niq = s.niq ∧ s.fetch.1.e2e = s.e2e := by
  unfold St.fetch
  split_ifs <;> exact ⟨⟨rfl, rfl, rfl, rfl, rfl, rfl, rfl, rfl, rfl⟩, rfl, rfl, rfl, rfl, rfl, rfl⟩

/-! ## Positions before the first wrap -/

/-- Positions after `T` samples. -/
structure Pos {E : Type} (T : Nat) (s : St E) : Prop where
  pos : s.pos = T
  scale : s.scalePos = s.count * s.interval
  scaleUp : s.scalePos ≤ T + s.interval
  report : s.reportPos ≤ T + s.reportInterval

theorem Pos.scaled {E : Type} {T : Nat} {s : St E} (h : Pos T s) (hk : 0 < s.interval) (hm : T + s.interval < m32) (est : Est E) (l : Int) :
    ∃ s', s.scale est l = some s' ∧ Pos T s' ∧ s'.count = T / s.interval + 1 := by
  unfold St.scale
  by_cases hp : s.pos < s.scalePos
  · rw [if_pos hp]
    refine ⟨s, rfl, h, ?_⟩
    rw [h.pos, h.scale] at hp
    have hu := h.scaleUp
    rw [h.scale] at hu
    have h1 : T / s.interval < s.count := (Nat.div_lt_iff_lt_mul hk).2 hp
    have h2 : s.count - 1 ≤ T / s.interval := by
      rw [Nat.le_div_iff_mul_le hk, Nat.sub_mul]
      omega
    omega
  · rw [if_neg hp]
    obtain ⟨n, q, h1, h2, h3, h4⟩ := loop_some (pos := s.pos) hk (by rw [h.pos]; exact hm) s.scalePos
    rw [h1]
    simp only
    have h4 := h4 (by omega)
    rw [h.pos] at h3 h4
    have h5 : q = (s.count + n) * s.interval := by rw [h2, h.scale]; ring
    refine ⟨_, rfl, ⟨h.pos, h5, h4, h.report⟩, ?_⟩
    simp only
    rw [h5] at h3 h4
    have h6 : T / s.interval < s.count + n := (Nat.div_lt_iff_lt_mul hk).2 h3
    have h7 : s.count + n - 1 ≤ T / s.interval := by
      rw [Nat.le_div_iff_mul_le hk, Nat.sub_mul]
      omega
    omega

theorem Pos.reported {E : Type} {T : Nat} {s : St E} (hp : s.pos = T) (hk : 0 < s.reportInterval) (hm : T + s.reportInterval < m32) (hr : s.reportPos ≤ T + s.reportInterval) :
    ∃ s', s.report = some s' ∧ s'.reportPos ≤ T + s'.reportInterval := by
  unfold St.report
  by_cases h : s.pos < s.reportPos
  · rw [if_pos h]; exact ⟨s, rfl, hr⟩
  · rw [if_neg h]
    obtain ⟨n, q, h1, h2, h3, h4⟩ := loop_some (pos := s.pos) hk (by rw [hp]; exact hm) s.reportPos
    rw [h1]
    have h4 := h4 (by omega)
    rw [hp] at h4
    exact ⟨_, rfl, h4⟩

theorem Pos.call {E : Type} {conv : Int → Int} {est : Est E} {T : Nat} {s : St E} (h : Pos T s) (hk : s.tuning = true → 0 < s.interval) (hr : 0 < s.reportInterval) {o : Op}
    (hm : T + total [o] + s.interval < m32) (hm' : T + total [o] + s.reportInterval < m32) : ∃ r, s.call conv est o = some r ∧ Same s r.1 ∧ Pos (T + total [o]) r.1 := by
  cases o with
  | write m =>
    obtain ⟨h1, h2, h3, h4, h5, _⟩ := write_same conv s m
    exact ⟨_, rfl, h1, ⟨h2.trans h.pos, by rw [h3, h5, h1.interval]; exact h.scale, by rw [h3, h1.interval]; exact h.scaleUp, by rw [h4, h1.reportInterval]; exact h.report⟩⟩
  | fetch =>
    obtain ⟨h1, h2, h3, h4, h5, _⟩ := fetch_same s
    exact ⟨_, rfl, h1, ⟨h2.trans h.pos, by rw [h3, h5, h1.interval]; exact h.scale, by rw [h3, h1.interval]; exact h.scaleUp, by rw [h4, h1.reportInterval]; exact h.report⟩⟩
  | advance d =>
    simp only [total] at hm hm' ⊢
    have hT : T + (d + 0) = T + d := by omega
    rw [hT] at hm hm' ⊢
    have hpos : (s.pos + d) % m32 = T + d := by rw [h.pos]; exact Nat.mod_eq_of_lt (by omega)
    obtain ⟨s', h1, h2⟩ := Pos.reported (s := { s with pos := (s.pos + d) % m32 }) hpos hr hm' (by have := h.report; simp only; omega)
    obtain ⟨h3, h4, h5, h6, _⟩ := report_same h1
    have h3' : Same s s' := ⟨h3.1, h3.2, h3.3, h3.4, h3.5, h3.6, h3.7, h3.8, h3.9⟩
    refine ⟨(s', .unit), ?_, h3', ⟨h4.trans hpos, ?_, ?_, h2⟩⟩
    · show (s.advance d).map _ = _
      unfold St.advance
      rw [h1]
      rfl
    · rw [h5, h6, h3'.interval]; exact h.scale
    · rw [h5, h3'.interval]
      have := h.scaleUp
      simp only
      omega
  | update =>
    simp only [total, Nat.add_zero] at hm hm' ⊢
    show ∃ r, (s.update est).map _ = some r ∧ _
    unfold St.update
    cases hl : s.latency with
    | none => exact ⟨_, rfl, .refl s, h⟩
    | some l =>
      simp only
      by_cases hb : s.bounds = true ∧ s.check l = false
      · rw [if_pos hb]; exact ⟨_, rfl, .refl s, h⟩
      · rw [if_neg hb]
        by_cases ht : s.tuning = true
        · rw [if_pos ht]
          obtain ⟨s', h1, h2, _⟩ := h.scaled (hk ht) hm est l
          rw [h1]
          exact ⟨_, rfl, (scale_same h1).1, h2⟩
        · rw [if_neg ht]; exact ⟨_, rfl, .refl s, h⟩

theorem total_cons (o : Op) (os : List Op) : total (o :: os) = total [o] + total os := by
  cases o <;> simp [total]

theorem Pos.runs {E : Type} {conv : Int → Int} {est : Est E} {T : Nat} {s : St E} (h : Pos T s) (hk : s.tuning = true → 0 < s.interval) (hr : 0 < s.reportInterval) {l : List Op}
    (hm : T + total l + s.interval < m32) (hm' : T + total l + s.reportInterval < m32) : ∃ s' rs, s.runs conv est l = some (s', rs) ∧ Same s s' ∧ Pos (T + total l) s' := by
  induction l generalizing T s with
  | nil => exact ⟨s, [], rfl, .refl s, h⟩
  | cons o os ih =>
    rw [total_cons] at hm hm' ⊢
    obtain ⟨r, h1, h2, h3⟩ := h.call (conv := conv) (est := est) hk hr (o := o) (by omega) (by omega)
    obtain ⟨s', rs, h4, h5, h6⟩ := ih h3 (by rw [h2.tuning, h2.interval]; exact hk) (by rw [h2.reportInterval]; exact hr) (by rw [h2.interval]; omega) (by rw [h2.reportInterval]; omega)
    refine ⟨s', r.2 :: rs, ?_, h2.trans h5, ?_⟩
    · simp only [St.runs]
      rw [h1, Option.bind_some, h4]
      rfl
    · rw [← Nat.add_assoc]; exact h6

/-- A new tuner. -/
theorem create_spec {E : Type} {conv : Int → Int} {log : Nat} {e : E} {c : Cfg} {s : St E} (h : create conv log e c = some s) :
    Pos 0 s ∧ (s.tuning = true → 0 < s.interval ∧ 0 < s.delta) ∧ s.reportInterval = log ∧ s.count = 0 ∧ s.fresh = false ∧ s.niq = none ∧ s.e2e = none ∧ s.delta = c.delta ∧ s.tuning = c.tuning ∧
      s.backend = c.backend ∧ (s.bounds = true → s.min = conv (c.target - c.tolerance) ∧ s.max = conv (c.target + c.tolerance) ∧ s.maxStalling = conv c.stale) ∧
      s.bounds = (c.tuning || decide (c.tolerance ≠ 0)) ∧ (c.tuning = true → s.interval = (conv c.interval).toNat) ∧ s.reportPos = 0 := by
  unfold create at h
  simp only at h
  by_cases h1 : c.target < 0
  · rw [if_pos h1] at h; cases h
  rw [if_neg h1] at h
  by_cases h2 : (c.tuning || decide (c.tolerance ≠ 0)) = true
  · rw [if_pos h2] at h
    by_cases h3 : c.target ≤ 0 ∨ conv c.target ≤ 0
    · rw [if_pos h3] at h; cases h
    rw [if_neg h3] at h
    by_cases h4 : c.tolerance < 0
    · rw [if_pos h4] at h; cases h
    rw [if_neg h4] at h
    by_cases h5 : c.tuning = true
    · rw [if_pos h5] at h
      by_cases h6 : c.interval ≤ 0 ∨ conv c.interval ≤ 0
      · rw [if_pos h6] at h; cases h
      rw [if_neg h6] at h
      by_cases h7 : c.delta ≤ 0
      · rw [if_pos h7] at h; cases h
      rw [if_neg h7] at h
      injection h with h
      rw [← h]
      push Not at h6 h7
      refine ⟨⟨rfl, by simp, by simp, by simp⟩, fun _ => ⟨?_, h7⟩, rfl, rfl, rfl, rfl, rfl, rfl, rfl, rfl, fun _ => ⟨rfl, rfl, rfl⟩, rfl, fun _ => rfl, rfl⟩
      simp only
      omega
    · rw [if_neg h5] at h
      injection h with h
      rw [← h]
      exact ⟨⟨rfl, by simp, by simp, by simp⟩, fun hc => absurd hc h5, rfl, rfl, rfl, rfl, rfl, rfl, rfl, rfl, fun _ => ⟨rfl, rfl, rfl⟩, rfl, fun hc => absurd hc h5, rfl⟩
  · rw [if_neg h2] at h
    injection h with h
    rw [← h]
    have h3 : ¬ c.tuning = true := fun hc => h2 (by rw [hc]; rfl)
    exact ⟨⟨rfl, by simp, by simp, by simp⟩, fun hc => absurd hc h3, rfl, rfl, rfl, rfl, rfl, rfl, rfl, rfl, fun hc => absurd hc h2, rfl, fun hc => absurd hc h3, rfl⟩

end Verif.LatencyTuner
