import Verif.BuiltinResampler.Spec
import Mathlib.Tactic.Ring
import Mathlib.Tactic.Linarith

/-!
# Built-in resampler: lemmas
-/

namespace Verif.BuiltinResampler

open Spec

theorem one_pos : 0 < one := by unfold one; norm_num

/-- Left part: going to the next sample takes a step off. -/
theorem argL_step (step p k : Nat) (h : (k + 1) * one ≤ p) :
    (p - k * one) * step / one = (p - (k + 1) * one) * step / one + step := by
  have e : p - k * one = (p - (k + 1) * one) + one := by
    have : (k + 1) * one = k * one + one := by ring
    omega
  rw [e, Nat.add_mul, Nat.mul_comm one step, Nat.add_mul_div_right _ _ one_pos]

/-- Right part: going to the next sample adds a step. -/
theorem argR_step (step p k : Nat) (h : p ≤ k * one) :
    (((k + 1) * one - p) * step + (one - 1)) / one
      = ((k * one - p) * step + (one - 1)) / one + step := by
  have e : (k + 1) * one - p = (k * one - p) + one := by
    have : (k + 1) * one = k * one + one := by ring
    omega
  rw [e, Nat.add_mul, Nat.add_right_comm, Nat.mul_comm one step, Nat.add_mul_div_right _ _ one_pos]

theorem argAt_left (step p k : Nat) (h : k * one ≤ p) : argAt step p k = (p - k * one) * step / one := by
  unfold argAt
  rw [if_pos h]

theorem argAt_right (step p k : Nat) (h : p < k * one) :
    argAt step p k = ((k * one - p) * step + (one - 1)) / one := by
  unfold argAt
  rw [if_neg (by omega)]

/-- In the window the position in the table is bounded. -/
theorem argAt_le (half step p k : Nat) (h1 : p ≤ k * one + half) (h2 : k * one ≤ p + half) :
    argAt step p k ≤ (half * step + (one - 1)) / one := by
  unfold argAt
  split_ifs with h
  · refine Nat.div_le_div_right ?_
    have : (p - k * one) * step ≤ half * step := Nat.mul_le_mul_right _ (by omega)
    omega
  · refine Nat.div_le_div_right ?_
    have : (k * one - p) * step ≤ half * step := Nat.mul_le_mul_right _ (by omega)
    omega

/-- The turn from the left part to the right part. -/
theorem arg_turn (step s : Nat) :
    step - (s % one) * step / one = ((one - s % one) * step + (one - 1)) / one := by
  have hr : s % one < one := Nat.mod_lt _ one_pos
  obtain ⟨r, hr'⟩ : ∃ r, r = s % one := ⟨_, rfl⟩
  rw [← hr'] at hr ⊢
  obtain ⟨y, hy⟩ : ∃ y, y = r * step := ⟨_, rfl⟩
  have hle : y ≤ one * step := by rw [hy]; exact Nat.mul_le_mul_right _ (by omega)
  rw [Nat.sub_mul, ← hy]
  unfold one at *
  omega

/-- The value at the turn. -/
def step_turn_value (step s : Nat) : Nat := ((one - s % one) * step + (one - 1)) / one

/-- A tap inside of a frame and of the table. -/
theorem tap_ok (c : Cfg) (slot j ch arg fract : Nat) (hb : c.bits ≤ 20) (hj : j < c.frame)
    (hch : ch < c.nch) (harg : arg < c.win * one + 2 ^ (20 - c.bits)) :
    tap c slot (j * c.nch + ch) arg fract = .ok ⟨slot, j * c.nch + ch, arg, fract⟩ := by
  unfold tap
  rw [if_pos]
  constructor
  · have : (j + 1) * c.nch ≤ c.frame * c.nch := Nat.mul_le_mul_right _ hj
    have e : (j + 1) * c.nch = j * c.nch + c.nch := by ring
    omega
  · have hp : 0 < 2 ^ (20 - c.bits) := by positivity
    have hone : one = 2 ^ c.bits * 2 ^ (20 - c.bits) := by
      rw [← pow_add, show c.bits + (20 - c.bits) = 20 by omega]
      rfl
    have e : c.win * one + 2 ^ (20 - c.bits) = (c.win * 2 ^ c.bits + 1) * 2 ^ (20 - c.bits) := by
      rw [hone]; ring
    rw [e] at harg
    have := (Nat.div_lt_iff_lt_mul hp).2 harg
    omega

/-- The tap for sample `k` of the three frames. -/
def tapAt (c : Cfg) (step p ch fract k : Nat) : Tap :=
  ⟨k / c.frame, k % c.frame * c.nch + ch, argAt step p k, fract⟩

theorem prevLoop_spec (c : Cfg) (sc : Scal) (p ch f : Nat) (hb : c.bits ≤ 20) (hch : ch < c.nch)
    (hp : c.frame * one ≤ p) (hm : c.win * one + 2 ^ (20 - c.bits) ≤ m32) : ∀ (m k fuel : Nat),
    k + m = c.frame → m ≤ fuel →
    (p - k * one) * sc.step / one < c.win * one + 2 ^ (20 - c.bits) →
    prevLoop c sc f (c.frame * c.nch + ch) fuel (k * c.nch + ch) ((p - k * one) * sc.step / one)
      = .ok ((List.range' k m).map (tapAt c sc.step p ch f),
          (p - c.frame * one) * sc.step / one) := by
  intro m
  induction m with
  | zero =>
    intro k fuel h1 h2 h3
    have : k = c.frame := by omega
    subst this
    unfold prevLoop
    rw [if_pos (by omega)]
    rfl
  | succ m ih =>
    intro k fuel h1 h2 h3
    obtain ⟨fuel, rfl⟩ : ∃ f', fuel = f' + 1 := ⟨fuel - 1, by omega⟩
    have hk : k < c.frame := by omega
    have hkf : (k + 1) * one ≤ c.frame * one := Nat.mul_le_mul_right _ hk
    have hlt : k * c.nch + ch < c.frame * c.nch + ch := by
      have : (k + 1) * c.nch ≤ c.frame * c.nch := Nat.mul_le_mul_right _ hk
      have e : (k + 1) * c.nch = k * c.nch + c.nch := by ring
      omega
    have hst := argL_step sc.step p k (by omega)
    unfold prevLoop
    rw [if_neg (not_not.2 hlt)]
    simp only
    rw [tap_ok c 0 k ch _ f hb hk hch h3]
    simp only [Except.bind]
    have hsub : sub32 ((p - k * one) * sc.step / one) sc.step = (p - (k + 1) * one) * sc.step / one := by
      unfold sub32
      rw [hst]
      obtain ⟨y, hy⟩ : ∃ y, y = (p - (k + 1) * one) * sc.step / one := ⟨_, rfl⟩
      rw [hst, ← hy] at h3
      rw [← hy, show y + sc.step + m32 - sc.step = y + m32 by omega, Nat.add_mod_right,
        Nat.mod_eq_of_lt (by omega)]
    rw [hsub, show k * c.nch + ch + c.nch = (k + 1) * c.nch + ch by ring,
      ih (k + 1) fuel (by omega) (by omega) (by omega)]
    simp only [Except.map, List.range'_succ, List.map_cons]
    unfold tapAt
    rw [argAt_left _ _ _ (show k * one ≤ p by
      have : k * one ≤ (k + 1) * one := Nat.mul_le_mul_right _ (by omega)
      omega), Nat.div_eq_of_lt hk, Nat.mod_eq_of_lt hk]

theorem leftLoop_spec (c : Cfg) (sc : Scal) (s ch f : Nat) (hb : c.bits ≤ 20) (hch : ch < c.nch)
    (hstep : 0 < sc.step) (hs : s < c.frame * one) (hm : c.win * one + 2 ^ (20 - c.bits) ≤ m32) :
    ∀ (m j fuel : Nat), j + m = s / one → m ≤ fuel →
    (s - j * one) * sc.step / one < c.win * one + 2 ^ (20 - c.bits) →
    leftLoop c sc f fuel (j * c.nch + ch) ((s - j * one) * sc.step / one)
      = .ok ((List.range' (c.frame + j + 1) m).map (tapAt c sc.step (c.frame * one + s) ch f),
          s / one * c.nch + ch, s % one * sc.step / one) := by
  have hsf : s / one < c.frame := (Nat.div_lt_iff_lt_mul one_pos).2 hs
  intro m
  induction m with
  | zero =>
    intro j fuel h1 h2 h3
    have hj : j = s / one := by omega
    have hr : s - j * one = s % one := by
      rw [hj]
      have := Nat.div_add_mod s one
      rw [Nat.mul_comm] at this
      omega
    have hlt : s % one * sc.step / one < sc.step := by
      rw [Nat.div_lt_iff_lt_mul one_pos, Nat.mul_comm]
      exact Nat.mul_lt_mul_of_pos_left (Nat.mod_lt _ one_pos) hstep
    rw [hr]
    unfold leftLoop
    rw [if_pos (by omega), hj]
    rfl
  | succ m ih =>
    intro j fuel h1 h2 h3
    obtain ⟨fuel, rfl⟩ : ∃ f', fuel = f' + 1 := ⟨fuel - 1, by omega⟩
    have hj1 : (j + 1) * one ≤ s := by
      have : j + 1 ≤ s / one := by omega
      exact (Nat.le_div_iff_mul_le one_pos).1 this
    have hst := argL_step sc.step s j hj1
    have hge : (s - j * one) * sc.step / one ≥ sc.step := by rw [hst]; exact Nat.le_add_left _ _
    unfold leftLoop
    rw [if_neg (not_not.2 hge)]
    simp only
    have hsub : sub32 ((s - j * one) * sc.step / one) sc.step = (s - (j + 1) * one) * sc.step / one := by
      unfold sub32
      rw [hst]
      obtain ⟨y, hy⟩ : ∃ y, y = (s - (j + 1) * one) * sc.step / one := ⟨_, rfl⟩
      rw [hst, ← hy] at h3
      rw [← hy, show y + sc.step + m32 - sc.step = y + m32 by omega, Nat.add_mod_right,
        Nat.mod_eq_of_lt (by omega)]
    rw [hsub, show j * c.nch + ch + c.nch = (j + 1) * c.nch + ch by ring,
      tap_ok c 1 (j + 1) ch _ f hb (by omega) hch (lt_of_le_of_lt (by rw [hst]; exact Nat.le_add_right _ _) h3)]
    simp only [Except.bind]
    rw [ih (j + 1) fuel (by omega) (by omega) (by omega)]
    simp only [Except.map, List.range'_succ, List.map_cons]
    have hdiv : (c.frame + j + 1) / c.frame = 1 := by
      rw [show c.frame + j + 1 = c.frame + (j + 1) by ring, Nat.add_div_left _ (by omega),
        Nat.div_eq_of_lt (by omega)]
    have hmod : (c.frame + j + 1) % c.frame = j + 1 := by
      rw [show c.frame + j + 1 = c.frame + (j + 1) by ring, Nat.add_mod_left, Nat.mod_eq_of_lt (by omega)]
    have harg : argAt sc.step (c.frame * one + s) (c.frame + j + 1) = (s - (j + 1) * one) * sc.step / one := by
      have e : (c.frame + j + 1) * one = c.frame * one + (j + 1) * one := by ring
      rw [argAt_left _ _ _ (by omega), e]
      congr 2
      omega
    rw [show c.frame + j + 1 + 1 = c.frame + (j + 1) + 1 by ring]
    unfold tapAt
    rw [hdiv, hmod, harg]

theorem rightLoop_spec (c : Cfg) (sc : Scal) (slot p ch f stop e : Nat) (hb : c.bits ≤ 20)
    (hch : ch < c.nch) (he : e ≤ c.frame) (hstop : ∀ j, j * c.nch + ch < stop ↔ j < e)
    (hm : c.win * one + 2 ^ (20 - c.bits) ≤ m32)
    (hfit : ∀ j, j < e → p ≤ (slot * c.frame + j) * one →
      ((((slot * c.frame + j) * one - p) * sc.step + (one - 1)) / one
        < c.win * one + 2 ^ (20 - c.bits))) :
    ∀ (m j fuel : Nat), j + m = e → m ≤ fuel → p < (slot * c.frame + j) * one →
    rightLoop c sc slot f stop fuel (j * c.nch + ch)
      ((((slot * c.frame + j) * one - p) * sc.step + (one - 1)) / one % m32)
      = .ok ((List.range' (slot * c.frame + j) m).map (tapAt c sc.step p ch f),
          (((slot * c.frame + e) * one - p) * sc.step + (one - 1)) / one % m32) := by
  intro m
  induction m with
  | zero =>
    intro j fuel h1 h2 h3
    have hj : j = e := by omega
    subst hj
    unfold rightLoop
    rw [if_pos (by rw [hstop]; omega)]
    rfl
  | succ m ih =>
    intro j fuel h1 h2 h3
    obtain ⟨fuel, rfl⟩ : ∃ f', fuel = f' + 1 := ⟨fuel - 1, by omega⟩
    unfold rightLoop
    rw [if_neg (not_not.2 ((hstop j).2 (by omega)))]
    simp only
    have hf := hfit j (by omega) (by omega)
    have hst := argR_step sc.step p (slot * c.frame + j) (by omega)
    rw [Nat.mod_eq_of_lt (by omega : (((slot * c.frame + j) * one - p) * sc.step + (one - 1)) / one < m32),
      tap_ok c slot j ch _ f hb (by omega) hch hf]
    simp only [Except.bind]
    have hadd : add32 ((((slot * c.frame + j) * one - p) * sc.step + (one - 1)) / one) sc.step
        = (((slot * c.frame + (j + 1)) * one - p) * sc.step + (one - 1)) / one % m32 := by
      unfold add32
      rw [show slot * c.frame + (j + 1) = slot * c.frame + j + 1 by ring, hst]
    have hlt : (slot * c.frame + j) * one ≤ (slot * c.frame + (j + 1)) * one :=
      Nat.mul_le_mul_right _ (by omega)
    rw [hadd, show j * c.nch + ch + c.nch = (j + 1) * c.nch + ch by ring,
      ih (j + 1) fuel (by omega) (by omega) (by omega)]
    simp only [Except.map, List.range'_succ, List.map_cons]
    have hdiv : (slot * c.frame + j) / c.frame = slot := by
      rw [Nat.mul_comm, Nat.mul_add_div (by omega), Nat.div_eq_of_lt (by omega), Nat.add_zero]
    have hmod : (slot * c.frame + j) % c.frame = j := by
      rw [Nat.mul_comm, Nat.mul_add_mod, Nat.mod_eq_of_lt (by omega)]
    rw [show slot * c.frame + j + 1 = slot * c.frame + (j + 1) by ring]
    unfold tapAt
    rw [hdiv, hmod, argAt_right _ _ _ h3]

theorem m32_eq : m32 = 4096 * one := rfl

theorem qceil_eq (x : Nat) (h : x + one ≤ m32) : qceil x = (x + (one - 1)) / one * one := by
  unfold qceil add32
  unfold m32 one at *
  split_ifs with h0 <;> omega

theorem toSize_qceil (x : Nat) (h : x + one ≤ m32) : toSize (qceil x) = (x + (one - 1)) / one := by
  rw [qceil_eq x h]
  unfold toSize
  exact Nat.mul_div_left _ one_pos

theorem toSize_qfloor (x : Nat) : toSize (qfloor x) = x / one := by
  unfold toSize qfloor
  exact Nat.mul_div_left _ one_pos

theorem sub32_eq (a b : Nat) (h1 : b ≤ a) (h2 : a < m32) : sub32 a b = a - b := by
  unfold sub32
  rw [show a + m32 - b = a - b + m32 by omega, Nat.add_mod_right, Nat.mod_eq_of_lt (by omega)]

theorem add32_eq (a b : Nat) (h : a + b < m32) : add32 a b = a + b := Nat.mod_eq_of_lt h

/-- Everything that `resample` needs. -/
structure Good (c : Cfg) (sc : Scal) : Prop where
  bits : c.bits ≤ 20
  frame : c.frame ≤ 2047
  half : sc.half < c.frame * one
  wide : one ≤ sc.half
  step : 0 < sc.step
  table : c.win * one + 2 ^ (20 - c.bits) ≤ m32
  fits : Fits c sc

theorem Good.q {c : Cfg} {sc : Scal} (g : Good c sc) : c.q = c.frame * one := by
  unfold Cfg.q
  apply Nat.mod_eq_of_lt
  rw [m32_eq]
  exact Nat.mul_lt_mul_of_pos_right (by have := g.frame; omega) one_pos

theorem Good.big {c : Cfg} {sc : Scal} (g : Good c sc) : 2 * (c.frame * one) + 2 * one ≤ m32 := by
  have := Nat.mul_le_mul_right one g.frame
  rw [m32_eq]
  omega

theorem first_le (half p : Nat) (h : one ≤ half) (hp : half ≤ p) : first half p * one ≤ p := by
  unfold first
  have := Nat.div_mul_le_self (p - half + (one - 1)) one
  have := one_pos
  omega

theorem first_ge (half p : Nat) (hp : half ≤ p) : p ≤ first half p * one + half := by
  unfold first
  unfold one
  omega

theorem last_le (half p : Nat) : last half p * one ≤ p + half := Nat.div_mul_le_self _ _

theorem beginPrev_eq {c : Cfg} {sc : Scal} (g : Good c sc) (s : Nat) :
    beginPrev c sc s = if s ≥ sc.half then c.frame else first sc.half (c.frame * one + s) := by
  have hb := g.big
  have hh := g.half
  unfold beginPrev
  split_ifs with h
  · rfl
  · rw [g.q, sub32_eq _ _ (by omega) (by omega), add32_eq _ _ (by omega), toSize_qceil _ (by omega)]
    unfold first
    congr 2
    omega

theorem beginCur_eq {c : Cfg} {sc : Scal} (g : Good c sc) (s : Nat) (hs : s < c.frame * one) :
    beginCur sc s = if s ≥ sc.half then first sc.half (c.frame * one + s) - c.frame else 0 := by
  have hb := g.big
  have hh := g.half
  unfold beginCur
  split_ifs with h
  · rw [sub32_eq _ _ (by omega) (by omega), toSize_qceil _ (by omega)]
    unfold first
    rw [show c.frame * one + s - sc.half + (one - 1) = s - sc.half + (one - 1) + c.frame * one by omega,
      Nat.add_mul_div_right _ _ one_pos]
    exact (Nat.add_sub_cancel _ _).symm
  · rfl

theorem endCur_eq {c : Cfg} {sc : Scal} (g : Good c sc) (s : Nat) (hs : s < c.frame * one)
    (hne : s + sc.half ≠ c.frame * one) :
    endCur c sc s = min (c.frame - 1) (last sc.half (c.frame * one + s) - c.frame) := by
  have hb := g.big
  have hh := g.half
  have hlast : last sc.half (c.frame * one + s) = (s + sc.half) / one + c.frame := by
    unfold last
    rw [show c.frame * one + s + sc.half = s + sc.half + c.frame * one by omega,
      Nat.add_mul_div_right _ _ one_pos]
  unfold endCur
  rw [add32_eq _ _ (by omega), g.q, hlast, Nat.add_sub_cancel]
  split_ifs with h
  · have : c.frame ≤ (s + sc.half) / one := (Nat.le_div_iff_mul_le one_pos).2 (by omega)
    omega
  · have : (s + sc.half) / one < c.frame := (Nat.div_lt_iff_lt_mul one_pos).2 (by omega)
    rw [toSize_qfloor]
    omega

theorem endNext_eq {c : Cfg} {sc : Scal} (g : Good c sc) (s : Nat) (hs : s < c.frame * one)
    (hne : s + sc.half ≠ c.frame * one) :
    endNext c sc s = last sc.half (c.frame * one + s) + 1 - 2 * c.frame := by
  have hb := g.big
  have hh := g.half
  have hlast : last sc.half (c.frame * one + s) = (s + sc.half) / one + c.frame := by
    unfold last
    rw [show c.frame * one + s + sc.half = s + sc.half + c.frame * one by omega,
      Nat.add_mul_div_right _ _ one_pos]
  unfold endNext
  rw [add32_eq _ _ (by omega), g.q, hlast]
  split_ifs with h
  · have : c.frame ≤ (s + sc.half) / one := (Nat.le_div_iff_mul_le one_pos).2 (by omega)
    rw [sub32_eq _ _ (by omega) (by omega), toSize_qfloor]
    have e : s + sc.half = s + sc.half - c.frame * one + c.frame * one := by omega
    have e2 : (s + sc.half) / one = (s + sc.half - c.frame * one) / one + c.frame := by
      conv_lhs => rw [e]
      exact Nat.add_mul_div_right _ _ one_pos
    rw [e2]
    omega
  · have : (s + sc.half) / one < c.frame := (Nat.div_lt_iff_lt_mul one_pos).2 (by omega)
    omega

theorem sincCur_eq {c : Cfg} {sc : Scal} (g : Good c sc) (s : Nat) (hs : s < c.frame * one) :
    sincCur c sc s
      = (c.frame * one + s - first sc.half (c.frame * one + s) * one) * sc.step / one := by
  have hb := g.big
  have hh := g.half
  have hf := first_le sc.half (c.frame * one + s) g.wide (by omega)
  have hg := first_ge sc.half (c.frame * one + s) (by omega)
  unfold sincCur
  rw [g.q, add32_eq _ _ (by omega), sub32_eq (c.frame * one + s) sc.half (by omega) (by omega),
    qceil_eq _ (by omega)]
  have e : (c.frame * one + s - sc.half + (one - 1)) / one = first sc.half (c.frame * one + s) := rfl
  rw [e, sub32_eq _ _ hf (by omega)]
  apply Nat.mod_eq_of_lt
  have h1 := argAt_le sc.half sc.step (c.frame * one + s) (first sc.half (c.frame * one + s)) hg (by omega)
  rw [argAt_left _ _ _ hf] at h1
  have h2 := g.fits
  unfold Fits at h2
  have h3 := g.table
  exact lt_of_lt_of_le (lt_of_le_of_lt h1 h2) h3

theorem resample_spec {c : Cfg} {sc : Scal} (g : Good c sc) (s ch : Nat) (hch : ch < c.nch)
    (hs : s < c.frame * one) (hne : s + sc.half ≠ c.frame * one) :
    resample c sc s ch = .ok (window c sc (c.frame * one + s) ch) := by
  have hb := g.big
  have hh := g.half
  have hw := g.wide
  obtain ⟨p, hp⟩ : ∃ p, p = c.frame * one + s := ⟨_, rfl⟩
  obtain ⟨a, ha⟩ : ∃ a, a = first sc.half p := ⟨_, rfl⟩
  obtain ⟨b, hb'⟩ : ∃ b, b = last sc.half p := ⟨_, rfl⟩
  obtain ⟨k, hk⟩ : ∃ k, k = s / one := ⟨_, rfl⟩
  have hf := first_le sc.half p g.wide (by omega)
  have hg := first_ge sc.half p (by omega)
  have hl := last_le sc.half p
  rw [← ha] at hf hg
  rw [← hb'] at hl
  have hkF : k < c.frame := by rw [hk]; exact (Nat.div_lt_iff_lt_mul one_pos).2 hs
  have hk1 : k * one ≤ s := by rw [hk]; exact Nat.div_mul_le_self _ _
  have hk2 : s < (k + 1) * one := by
    rw [hk, Nat.mul_comm]
    exact Nat.lt_mul_div_succ _ one_pos
  -- positions of the ends
  have haF : a ≤ c.frame + k := by
    have : a * one < (c.frame + k + 1) * one := by
      have e : (c.frame + k + 1) * one = c.frame * one + (k + 1) * one := by ring
      omega
    have := Nat.lt_of_mul_lt_mul_right this
    omega
  have hbk : c.frame + k + 1 ≤ b := by
    rw [hb']
    unfold last
    rw [Nat.le_div_iff_mul_le one_pos]
    have e : (c.frame + k + 1) * one = c.frame * one + k * one + one := by ring
    omega
  have hb3 : b < 3 * c.frame := by
    rw [hb']
    unfold last
    rw [Nat.div_lt_iff_lt_mul one_pos]
    have e : 3 * c.frame * one = 3 * (c.frame * one) := by ring
    omega
  have hfit : ∀ x, x ≤ (sc.half * sc.step + (one - 1)) / one → x < c.win * one + 2 ^ (20 - c.bits) :=
    fun x hx => lt_of_le_of_lt hx g.fits
  have hin : ∀ j, a ≤ j → j ≤ b → argAt sc.step p j < c.win * one + 2 ^ (20 - c.bits) := by
    intro j h1 h2
    refine hfit _ (argAt_le _ _ _ _ ?_ ?_)
    · have : a * one ≤ j * one := Nat.mul_le_mul_right _ h1
      omega
    · have : j * one ≤ b * one := Nat.mul_le_mul_right _ h2
      omega
  have hBP := beginPrev_eq g s
  have hBC := beginCur_eq g s hs
  have hEC := endCur_eq g s hs hne
  have hEN := endNext_eq g s hs hne
  have hSC := sincCur_eq g s hs
  rw [← hp] at hBP hBC hEC hEN hSC
  rw [← ha] at hBP hBC hSC
  rw [← hb'] at hEC hEN
  -- where the previous frame is entered, and where the current one is
  have haw : s ≥ sc.half → c.frame ≤ a := by
    intro h
    rw [ha]
    unfold first
    rw [Nat.le_div_iff_mul_le one_pos]
    omega
  have haw2 : ¬ s ≥ sc.half → a ≤ c.frame := by
    intro h
    have : a * one < (c.frame + 1) * one := by
      have e : (c.frame + 1) * one = c.frame * one + one := by ring
      rw [ha]
      unfold first
      have := Nat.div_mul_le_self (p - sc.half + (one - 1)) one
      omega
    have := Nat.lt_of_mul_lt_mul_right this
    omega
  obtain ⟨bp, hbp⟩ : ∃ x, x = beginPrev c sc s := ⟨_, rfl⟩
  obtain ⟨bc, hbc⟩ : ∃ x, x = beginCur sc s := ⟨_, rfl⟩
  have hbpv : bp = min a c.frame := by
    rw [hbp, hBP]
    split_ifs with h
    · have := haw h; omega
    · have := haw2 h; omega
  have hbcv : bc = a - c.frame := by
    rw [hbc, hBC]
    split_ifs with h
    · rfl
    · have := haw2 h; omega
  obtain ⟨x0, hx0⟩ : ∃ x, x = argAt sc.step p a := ⟨_, rfl⟩
  have hx0' : x0 = (p - a * one) * sc.step / one := by rw [hx0, argAt_left _ _ _ hf]
  have hx1 : x0 < c.win * one + 2 ^ (20 - c.bits) := by rw [hx0]; exact hin a le_rfl (by omega)
  obtain ⟨f0, hf0⟩ : ∃ f, f = fractOf c x0 := ⟨_, rfl⟩
  obtain ⟨x1, hx1'⟩ : ∃ x, x = argAt sc.step p (c.frame + k + 1) := ⟨_, rfl⟩
  obtain ⟨f1, hf1⟩ : ∃ f, f = fractOf c x1 := ⟨_, rfl⟩
  have hk1p : p < (c.frame + k + 1) * one := by
    have e : (c.frame + k + 1) * one = c.frame * one + (k + 1) * one := by ring
    omega
  -- previous frame
  have hprev : prevLoop c sc f0 (c.frame * c.nch + ch) (c.frame + 1) (bp * c.nch + ch) x0
      = .ok ((List.range' a (c.frame - a)).map (tapAt c sc.step p ch f0),
          (s - bc * one) * sc.step / one) := by
    by_cases h : a ≤ c.frame
    · have := prevLoop_spec c sc p ch f0 g.bits hch (by omega) g.table (c.frame - a) a (c.frame + 1)
        (by omega) (by omega) (by rw [← hx0']; exact hx1)
      rw [← hx0'] at this
      rw [show bp = a by omega, this, show bc = 0 by omega]
      rw [show p - c.frame * one = s - 0 * one by omega]
    · rw [show bp = c.frame by omega, show c.frame - a = 0 by omega]
      unfold prevLoop
      rw [if_pos (by omega), hx0']
      simp only [List.range'_zero, List.map_nil]
      have e : bc * one = a * one - c.frame * one := by rw [hbcv, Nat.sub_mul]
      rw [show s - bc * one = p - a * one by omega]
  -- where the current frame is entered
  obtain ⟨y0, hy0⟩ : ∃ y, y = (s - bc * one) * sc.step / one := ⟨_, rfl⟩
  have hbck : bc ≤ k := by omega
  have hy0a : argAt sc.step p (c.frame + bc) = y0 := by
    have e : (c.frame + bc) * one = c.frame * one + bc * one := by ring
    have : bc * one ≤ k * one := Nat.mul_le_mul_right _ hbck
    rw [argAt_left _ _ _ (by omega), hy0]
    congr 2
    omega
  have hy0f : y0 < c.win * one + 2 ^ (20 - c.bits) := by
    rw [← hy0a]
    exact hin _ (by omega) (by omega)
  have htap0 : tap c 1 (bc * c.nch + ch) y0 f0 = .ok (tapAt c sc.step p ch f0 (c.frame + bc)) := by
    rw [tap_ok c 1 bc ch _ f0 g.bits (by omega) hch hy0f]
    unfold tapAt
    rw [hy0a, Nat.add_div_left _ (by omega), Nat.div_eq_of_lt (by omega), Nat.add_mod_left,
      Nat.mod_eq_of_lt (by omega)]
  have hleft : leftLoop c sc f0 (y0 + 1) (bc * c.nch + ch) y0
      = .ok ((List.range' (c.frame + bc + 1) (k - bc)).map (tapAt c sc.step p ch f0),
          k * c.nch + ch, s % one * sc.step / one) := by
    have := leftLoop_spec c sc s ch f0 g.bits hch g.step hs g.table (k - bc) bc (y0 + 1) (by omega) (by
      -- the number of steps is at most the value
      rw [hy0]
      have h1 : k - bc ≤ (s - bc * one) / one := by
        rw [Nat.le_div_iff_mul_le one_pos, Nat.sub_mul]
        omega
      have h2 : (s - bc * one) / one ≤ (s - bc * one) * sc.step / one :=
        Nat.div_le_div_right (Nat.le_mul_of_pos_right _ g.step)
      omega) (by rw [← hy0]; exact hy0f)
    rw [← hy0, ← hp, ← hk] at this
    exact this
  -- the right part
  have hturn : sub32 sc.step (s % one * sc.step / one) = x1 := by
    have hlt : s % one * sc.step / one < sc.step := by
      rw [Nat.div_lt_iff_lt_mul one_pos, Nat.mul_comm]
      exact Nat.mul_lt_mul_of_pos_left (Nat.mod_lt _ one_pos) g.step
    have hx1v : x1 = step_turn_value sc.step s := by
      rw [hx1', argAt_right _ _ _ hk1p]
      unfold step_turn_value
      have hmod : s % one = s - k * one := by
        have := Nat.div_add_mod s one
        rw [Nat.mul_comm, ← hk] at this
        omega
      have e : (c.frame + k + 1) * one = c.frame * one + k * one + one := by ring
      have e2 : (c.frame + k + 1) * one - p = one - s % one := by
        rw [hmod, e]
        omega
      rw [e2]
    have hx1lt : x1 < m32 := by
      rw [hx1']
      exact lt_of_lt_of_le (hin _ (by omega) (by omega)) g.table
    have ht := arg_turn sc.step s
    rw [hx1v] at hx1lt ⊢
    unfold step_turn_value at hx1lt ⊢
    rw [← ht] at hx1lt ⊢
    unfold sub32
    rw [show sc.step + m32 - s % one * sc.step / one = sc.step - s % one * sc.step / one + m32 from
      Nat.sub_add_comm (le_of_lt hlt), Nat.add_mod_right, Nat.mod_eq_of_lt hx1lt]
  obtain ⟨ec, hec⟩ : ∃ x, x = endCur c sc s := ⟨_, rfl⟩
  obtain ⟨en, hen⟩ : ∃ x, x = endNext c sc s := ⟨_, rfl⟩
  rw [← hec] at hEC
  rw [← hen] at hEN
  have hnch : 0 < c.nch := by omega
  have hin2 : ∀ slot j, a ≤ slot * c.frame + j → slot * c.frame + j ≤ b →
      p ≤ (slot * c.frame + j) * one →
      (((slot * c.frame + j) * one - p) * sc.step + (one - 1)) / one
        < c.win * one + 2 ^ (20 - c.bits) := by
    intro slot j h1 h2 h3
    refine hfit _ (Nat.div_le_div_right ?_)
    have h4 : (slot * c.frame + j) * one ≤ b * one := Nat.mul_le_mul_right _ h2
    have : ((slot * c.frame + j) * one - p) * sc.step ≤ sc.half * sc.step :=
      Nat.mul_le_mul_right _ (by omega)
    omega
  have hx1m : x1 % m32 = x1 := by
    apply Nat.mod_eq_of_lt
    rw [hx1']
    exact lt_of_lt_of_le (hin _ (by omega) (by omega)) g.table
  obtain ⟨z, hz⟩ : ∃ z, z = (((1 * c.frame + (ec + 1)) * one - p) * sc.step + (one - 1)) / one % m32 :=
    ⟨_, rfl⟩
  have hright : rightLoop c sc 1 f1 (ec * c.nch + ch + 1) (c.frame + 1) (k * c.nch + ch + c.nch) x1
      = .ok ((List.range' (c.frame + k + 1) (ec - k)).map (tapAt c sc.step p ch f1), z) := by
    have := rightLoop_spec c sc 1 p ch f1 (ec * c.nch + ch + 1) (ec + 1) g.bits hch (by omega)
      (by
        intro j
        constructor
        · intro h
          have : j * c.nch < (ec + 1) * c.nch := by
            have e : (ec + 1) * c.nch = ec * c.nch + c.nch := by ring
            omega
          exact Nat.lt_of_mul_lt_mul_right this
        · intro h
          have : j * c.nch ≤ ec * c.nch := Nat.mul_le_mul_right _ (by omega)
          omega)
      g.table
      (fun j h1 h2 => by
        by_cases h3 : a ≤ 1 * c.frame + j
        · exact hin2 1 j h3 (by omega) h2
        · have : (1 * c.frame + j + 1) * one ≤ a * one := Nat.mul_le_mul_right _ (by omega)
          have e : (1 * c.frame + j + 1) * one = (1 * c.frame + j) * one + one := by ring
          have := one_pos
          omega)
      (ec - k) (k + 1) (c.frame + 1) (by omega) (by omega)
      (by rw [show 1 * c.frame + (k + 1) = c.frame + k + 1 by ring]; exact hk1p)
    rw [← hz, show 1 * c.frame + (k + 1) = c.frame + k + 1 by ring, ← argAt_right _ _ _ hk1p, ← hx1',
      hx1m, show (k + 1) * c.nch + ch = k * c.nch + ch + c.nch by ring] at this
    exact this
  have hnext : ∃ w, rightLoop c sc 2 f1 (en * c.nch + ch) (c.frame + 1) ch z
      = .ok ((List.range' (c.frame + ec + 1) en).map (tapAt c sc.step p ch f1), w) := by
    by_cases h2F : 2 * c.frame ≤ b
    · have hecF : ec = c.frame - 1 := by omega
      have := rightLoop_spec c sc 2 p ch f1 (en * c.nch + ch) en g.bits hch (by omega)
        (by
          intro j
          constructor
          · intro h
            exact Nat.lt_of_mul_lt_mul_right (show j * c.nch < en * c.nch by omega)
          · intro h
            have := Nat.mul_lt_mul_of_pos_right h hnch
            omega)
        g.table
        (fun j h1 h2 => hin2 2 j (by omega) (by omega) h2)
        en 0 (c.frame + 1) (by omega) (by omega)
        (by
          have : (c.frame + k + 1) * one ≤ (2 * c.frame + 0) * one := Nat.mul_le_mul_right _ (by omega)
          omega)
      rw [Nat.zero_mul, Nat.zero_add] at this
      rw [hz, show 1 * c.frame + (ec + 1) = 2 * c.frame + 0 by omega,
        show c.frame + ec + 1 = 2 * c.frame + 0 by omega]
      exact ⟨_, this⟩
    · have hen0 : en = 0 := by omega
      refine ⟨z, ?_⟩
      unfold rightLoop
      rw [hen0, if_pos (by omega)]
      rfl
  obtain ⟨w, hnext⟩ := hnext
  have hres : resample c sc s ch
      = .ok ((List.range' a (c.frame - a)).map (tapAt c sc.step p ch f0)
          ++ tapAt c sc.step p ch f0 (c.frame + bc)
            :: (List.range' (c.frame + bc + 1) (k - bc)).map (tapAt c sc.step p ch f0)
          ++ (List.range' (c.frame + k + 1) (ec - k)).map (tapAt c sc.step p ch f1)
          ++ (List.range' (c.frame + ec + 1) en).map (tapAt c sc.step p ch f1)) := by
    unfold resample
    rw [if_neg (by have := g.step; omega), ← hbp, ← hbc, ← hec, ← hen, if_neg (by omega),
      if_neg (by omega), if_neg (by omega), if_neg (by omega), hSC, ← hx0']
    simp only
    rw [← hf0, hprev]
    simp only [Except.bind]
    rw [← hy0, htap0]
    simp only
    rw [hleft]
    simp only
    rw [if_neg (by
      have : (k + 1) * c.nch ≤ c.frame * c.nch := Nat.mul_le_mul_right _ hkF
      have e : (k + 1) * c.nch = k * c.nch + c.nch := by ring
      omega), hturn, ← hf1, hright]
    simp only
    rw [hnext]
    rfl
  rw [hres, ← hp]
  refine congrArg _ ?_
  have hpo : p / one = c.frame + k := by
    rw [hp, Nat.add_comm, Nat.add_mul_div_right _ _ one_pos, ← hk, Nat.add_comm]
  unfold window
  rw [← ha, ← hb', hpo]
  have hsplit : List.range' a (b + 1 - a)
      = List.range' a (c.frame + k + 1 - a) ++ List.range' (c.frame + k + 1) (b - (c.frame + k)) := by
    have := List.range'_append_1 (s := a) (m := c.frame + k + 1 - a) (n := b - (c.frame + k))
    rw [show a + (c.frame + k + 1 - a) = c.frame + k + 1 by omega,
      show c.frame + k + 1 - a + (b - (c.frame + k)) = b + 1 - a by omega] at this
    exact this.symm
  have hl2 : List.range' a (c.frame - a) ++ (c.frame + bc) :: List.range' (c.frame + bc + 1) (k - bc)
      = List.range' a (c.frame + k + 1 - a) := by
    rw [← List.range'_succ]
    by_cases h : a ≤ c.frame
    · have := List.range'_append_1 (s := a) (m := c.frame - a) (n := k - bc + 1)
      rw [show a + (c.frame - a) = c.frame + bc by omega,
        show c.frame - a + (k - bc + 1) = c.frame + k + 1 - a by omega] at this
      exact this
    · rw [show c.frame - a = 0 by omega, show c.frame + bc = a by omega,
        show k - bc + 1 = c.frame + k + 1 - a by omega]
      rfl
  have hr2 : List.range' (c.frame + k + 1) (ec - k) ++ List.range' (c.frame + ec + 1) en
      = List.range' (c.frame + k + 1) (b - (c.frame + k)) := by
    have := List.range'_append_1 (s := c.frame + k + 1) (m := ec - k) (n := en)
    rw [show c.frame + k + 1 + (ec - k) = c.frame + ec + 1 by omega,
      show ec - k + en = b - (c.frame + k) by omega] at this
    exact this
  rw [hsplit, List.map_append, ← hl2, ← hr2]
  rw [List.append_assoc, ← List.map_append, ← List.map_cons, ← List.map_append]
  refine congrArg₂ (· ++ ·) ?_ ?_
  · apply List.map_congr_left
    intro j hj
    rw [hl2, List.mem_range'_1] at hj
    have : j * one ≤ (c.frame + k) * one := Nat.mul_le_mul_right _ (by omega)
    have e : (c.frame + k) * one = c.frame * one + k * one := by ring
    rw [if_pos (by omega), ← hx0, ← hf0]
    rfl
  · apply List.map_congr_left
    intro j hj
    rw [hr2, List.mem_range'_1] at hj
    have : (c.frame + k + 1) * one ≤ j * one := Nat.mul_le_mul_right _ (by omega)
    rw [if_neg (by omega), ← hx1', ← hf1]
    rfl

end Verif.BuiltinResampler
