import Verif.Profiler.Spec
import Mathlib.Tactic.Ring
import Mathlib.Tactic.Linarith
import Mathlib.Tactic.FieldSimp
import Mathlib.Tactic.SplitIfs
import Mathlib.Algebra.BigOperators.Group.List.Basic

/-! # Profiler: invariant -/

namespace Verif.Profiler

def psum (h : List ℚ) (k : Nat) : ℚ := (h.take k).sum

theorem psum_append (h g : List ℚ) {k : Nat} (hk : k ≤ h.length) : psum (h ++ g) k = psum h k := by
  unfold psum; rw [List.take_append_of_le_length hk]

theorem psum_grow (h : List ℚ) (n : Nat) (v : ℚ) {k : Nat} (hk : k = h.length + n) :
    psum (h ++ List.replicate n v) k = psum h h.length + n * v := by
  subst hk
  unfold psum
  rw [List.take_of_length_le (by simp), List.take_length, List.sum_append, List.sum_replicate]
  simp

theorem psum_all (h : List ℚ) : psum h h.length = h.sum := by unfold psum; rw [List.take_length]

theorem sum_drop (h : List ℚ) (k : Nat) : (h.drop k).sum = psum h h.length - psum h k := by
  have := congrArg List.sum (List.take_append_drop k h)
  rw [List.sum_append] at this
  rw [psum_all]; unfold psum; linarith

theorem sum_drop_take (h : List ℚ) (k l : Nat) : ((h.drop k).take l).sum = psum h (k + l) - psum h k := by
  unfold psum
  rw [List.take_add, List.sum_append]; ring

theorem mod_ne {N j c : Nat} (h1 : j < c) (h2 : c < j + N) : j % N ≠ c % N := by
  intro h
  have h3 : (c - j) % N = 0 := Nat.sub_mod_eq_zero_of_mod_eq h.symm
  rw [Nat.mod_eq_of_lt (by omega)] at h3
  omega

/-- State after the samples `h`. -/
structure Inv (p : P) (h : List ℚ) (c s : Nat) : Prop where
  hL : 1 ≤ p.L
  hN : 2 ≤ p.N
  len : h.length = c * p.L + s
  hs : s < p.L
  samples : p.samples = s
  last : p.last = c % p.N
  full : p.full = decide (p.N ≤ c)
  first : p.first = if c < p.N then 0 else (c + 1) % p.N
  chunk : ∀ j, j < c → c < j + p.N → p.chunks (j % p.N) * p.L = psum h ((j + 1) * p.L) - psum h (j * p.L)
  cur : p.chunks (c % p.N) * s = psum h (c * p.L + s) - psum h (c * p.L)
  avg : if c < p.N then p.avg * (c * p.L) = psum h (c * p.L)
    else p.avg * ((p.N - 1) * p.L) = psum h (c * p.L) - psum h ((c + 1 - p.N) * p.L)

theorem qdiv_some {a b : ℚ} (h : b ≠ 0) : qdiv a b = some (a / b) := by unfold qdiv; rw [if_neg h]

/-- The state of the last chunk after the round. -/
theorem round_cur {p : P} {h : List ℚ} {c s n : Nat} (hi : Inv p h c s) (v : ℚ) (hn : 1 ≤ n) :
    (p.chunks p.last + (v - p.chunks p.last) / ((s + n : Nat) : ℚ) * n) * ((s + n : Nat) : ℚ) =
      psum (h ++ List.replicate n v) (c * p.L + (s + n)) - psum (h ++ List.replicate n v) (c * p.L) := by
  rw [psum_grow h n v (by rw [hi.len]; omega), psum_append h _ (by rw [hi.len]; omega), hi.len, hi.last]
  have h0 : ((s + n : Nat) : ℚ) ≠ 0 := Nat.cast_ne_zero.mpr (by omega)
  have := hi.cur
  have e : (p.chunks (c % p.N) + (v - p.chunks (c % p.N)) / ((s + n : Nat) : ℚ) * n) * ((s + n : Nat) : ℚ) =
      p.chunks (c % p.N) * ((s + n : Nat) : ℚ) + (v - p.chunks (c % p.N)) * n := by
    field_simp
  rw [e]
  push_cast
  linarith

theorem round_inv {p : P} {h : List ℚ} {c s n : Nat} (hi : Inv p h c s) (v : ℚ) (hn : 1 ≤ n)
    (hle : s + n ≤ p.L) :
    ∃ q, p.round v n = some q ∧ q.L = p.L ∧ q.N = p.N ∧
      Inv q (h ++ List.replicate n v) (if s + n = p.L then c + 1 else c) (if s + n = p.L then 0 else s + n) := by
  have h0 : ((s + n : Nat) : ℚ) ≠ 0 := Nat.cast_ne_zero.mpr (by omega)
  have hcur := round_cur hi v hn
  have hL := hi.hL
  have hN := hi.hN
  have hlen : ∀ j, j ≤ c → j * p.L ≤ h.length := by
    intro j hj
    rw [hi.len]
    exact Nat.le_add_right_of_le (Nat.mul_le_mul_right _ hj)
  unfold P.round
  simp only [hi.samples, qdiv_some h0, Option.bind_eq_bind, Option.bind_some]
  generalize hsp : p.chunks p.last + (v - p.chunks p.last) / ((s + n : Nat) : ℚ) * n = sp at *
  by_cases hf : s + n = p.L
  · rw [if_pos hf, if_pos hf, if_pos hf]
    have hlast : (p.last + 1) % p.N = (c + 1) % p.N := by rw [hi.last, Nat.mod_add_mod]
    have hLq : (p.L : ℚ) ≠ 0 := Nat.cast_ne_zero.mpr (by omega)
    rw [hf] at hcur
    have hcL : (c + 1) * p.L = c * p.L + p.L := by rw [Nat.add_mul, Nat.one_mul]
    have hchunk : ∀ j, j < c + 1 → c + 1 < j + p.N →
        (Function.update (Function.update p.chunks p.last sp) ((c + 1) % p.N) 0) (j % p.N) * p.L =
          psum (h ++ List.replicate n v) ((j + 1) * p.L) - psum (h ++ List.replicate n v) (j * p.L) := by
      intro j hj1 hj2
      rw [Function.update_of_ne (mod_ne hj1 hj2), hi.last]
      by_cases hjc : j = c
      · subst hjc
        rw [Function.update_self, hcur, hcL]
      · rw [Function.update_of_ne (mod_ne (by omega) (by omega)),
          hi.chunk j (by omega) (by omega), psum_append _ _ (hlen _ (by omega)),
          psum_append _ _ (hlen _ (by omega))]
    by_cases hc : c + 1 < p.N
    · have hne : ¬ (c + 1) % p.N = p.first := by
        rw [hi.first, if_pos (by omega), Nat.mod_eq_of_lt hc]; omega
      rw [hlast, if_neg hne]
      have h1 : (((c + 1) % p.N : Nat) : ℚ) ≠ 0 := by
        rw [Nat.mod_eq_of_lt hc]; exact Nat.cast_ne_zero.mpr (by omega)
      rw [qdiv_some h1]
      refine ⟨_, rfl, rfl, rfl, ?_⟩
      refine ⟨hL, hN, ?_, hL, rfl, rfl, ?_, ?_, hchunk, ?_, ?_⟩
      · simp only [List.length_append, List.length_replicate, hi.len, Nat.add_zero]; rw [hcL]; omega
      · show p.full = _
        rw [hi.full]
        simp only [decide_eq_decide]; omega
      · show p.first = _
        rw [hi.first, if_pos (by omega), if_pos hc]
      · simp [Function.update_self]
      · simp only [if_pos hc]
        have ha := hi.avg
        rw [if_pos (by omega)] at ha
        have e : (c + 1) % p.N = c + 1 := Nat.mod_eq_of_lt hc
        simp only [e, Nat.add_sub_cancel]
        have h2 : ((c + 1 : Nat) : ℚ) ≠ 0 := Nat.cast_ne_zero.mpr (by omega)
        have e2 : (p.avg * (c : ℚ) + sp) / ((c + 1 : Nat) : ℚ) * (((c + 1 : Nat) : ℚ) * p.L) =
            p.avg * (c * p.L) + sp * p.L := by field_simp
        rw [e2, ha, hcur, hcL, psum_append _ _ (hlen c (Nat.le_refl _))]
        ring
    · have heq : (c + 1) % p.N = p.first := by
        rw [hi.first]
        by_cases hc2 : c < p.N
        · rw [if_pos hc2]
          have : c + 1 = p.N := by omega
          rw [this, Nat.mod_self]
        · rw [if_neg hc2]
      have hnl : p.first ≠ p.last := by
        rw [← heq, hi.last]
        exact (mod_ne (Nat.lt_succ_self c) (by omega)).symm
      have h1 : ((p.N - 1 : Nat) : ℚ) ≠ 0 := Nat.cast_ne_zero.mpr (by omega)
      rw [hlast, if_pos heq, Function.update_of_ne hnl, qdiv_some h1]
      refine ⟨_, rfl, rfl, rfl, ?_⟩
      refine ⟨hL, hN, ?_, hL, rfl, rfl, ?_, ?_, hchunk, ?_, ?_⟩
      · simp only [List.length_append, List.length_replicate, hi.len, Nat.add_zero]; rw [hcL]; omega
      · show true = _
        rw [eq_comm, decide_eq_true_eq]; show p.N ≤ c + 1; omega
      · show (p.first + 1) % p.N = _
        rw [if_neg hc, ← heq, Nat.mod_add_mod]
      · simp [Function.update_self]
      · simp only [if_neg hc]
        have ha := hi.avg
        -- the oldest chunk
        have hj := hi.chunk (c + 1 - p.N) (by omega) (by omega)
        have hjm : (c + 1 - p.N) % p.N = p.first := by
          rw [← heq]
          conv => rhs; rw [show c + 1 = (c + 1 - p.N) + p.N by omega, Nat.add_mod_right]
        rw [hjm] at hj
        have e2 : (p.avg + (sp - p.chunks p.first) / ((p.N - 1 : Nat) : ℚ)) * (((p.N - 1 : Nat) : ℚ) * p.L) =
            p.avg * (((p.N - 1 : Nat) : ℚ) * p.L) + sp * p.L - p.chunks p.first * p.L := by
          field_simp; ring
        have hNq : ((p.N - 1 : Nat) : ℚ) = (p.N : ℚ) - 1 := by
          rw [Nat.cast_sub (by omega)]; simp
        rw [hNq] at e2 ⊢
        have e3 : c + 1 - p.N + 1 = c + 1 + 1 - p.N := by omega
        rw [e3] at hj
        rw [e2, hcur, hj, hcL, psum_append _ _ (hlen c (Nat.le_refl _)),
          psum_append _ _ (hlen (c + 1 + 1 - p.N) (by omega))]
        by_cases hc2 : c < p.N
        · rw [if_pos hc2] at ha
          have hcN : c + 1 = p.N := by omega
          have : (p.N : ℚ) - 1 = c := by rw [← hcN]; push_cast; ring
          rw [this, ha]
          have hz : c + 1 - p.N = 0 := by omega
          rw [hz]
          simp only [psum, Nat.zero_mul, List.take_zero, List.sum_nil]
          ring
        · rw [if_neg hc2] at ha
          rw [ha]; ring
  · rw [if_neg hf, if_neg hf, if_neg hf]
    refine ⟨_, rfl, rfl, rfl, ?_⟩
    refine ⟨hL, hN, ?_, ?_, rfl, hi.last, hi.full, hi.first, ?_, ?_, ?_⟩
    · simp only [List.length_append, List.length_replicate, hi.len]; omega
    · show s + n < p.L; omega
    · intro j hj1 hj2
      show (Function.update p.chunks p.last sp) (j % p.N) * p.L = _
      rw [hi.last, Function.update_of_ne (mod_ne hj1 hj2), hi.chunk j hj1 hj2,
        psum_append _ _ (hlen _ (by omega)), psum_append _ _ (hlen _ (by omega))]
    · show (Function.update p.chunks p.last sp) (c % p.N) * _ = _
      rw [hi.last, Function.update_self]
      exact hcur
    · have ha := hi.avg
      show if c < p.N then p.avg * (c * p.L) = psum _ (c * p.L)
        else p.avg * ((p.N - 1) * p.L) = psum _ (c * p.L) - psum _ ((c + 1 - p.N) * p.L)
      rw [psum_append _ _ (hlen c (Nat.le_refl _)), psum_append _ _ (hlen (c + 1 - p.N) (by omega))]
      exact ha

theorem loop_inv (v : ℚ) : ∀ (fd : Nat) {p : P} {h : List ℚ} {c s : Nat}, Inv p h c s →
    ∃ q c' s', p.loop v fd = some q ∧ q.L = p.L ∧ q.N = p.N ∧ Inv q (h ++ List.replicate fd v) c' s' := by
  intro fd
  induction fd using Nat.strongRecOn with
  | _ fd ih =>
    intro p h c s hi
    unfold P.loop
    by_cases h0 : fd = 0
    · subst h0
      exact ⟨p, c, s, by simp, rfl, rfl, by simpa using hi⟩
    · rw [dif_neg h0]
      have hs := hi.hs
      rw [hi.samples]
      have hn : min fd (p.L - s) ≠ 0 := by omega
      simp only [dif_neg hn]
      obtain ⟨q, hq, e1, e2, hi2⟩ := round_inv hi v (n := min fd (p.L - s)) (by omega) (by omega)
      rw [hq]
      obtain ⟨r, c', s', hr, f1, f2, hi3⟩ := ih (fd - min fd (p.L - s)) (by omega) hi2
      refine ⟨r, c', s', hr, by rw [f1, e1], by rw [f2, e2], ?_⟩
      rw [List.append_assoc, List.replicate_append_replicate] at hi3
      rw [show min fd (p.L - s) + (fd - min fd (p.L - s)) = fd by omega] at hi3
      exact hi3

theorem frames_inv : ∀ (fs : List (Nat × Int)) {p : P} {h : List ℚ} {c s : Nat}, Inv p h c s →
    (∀ f ∈ fs, f.2 ≠ 0) →
    ∃ q c' s', p.addFrames fs = some q ∧ q.L = p.L ∧ q.N = p.N ∧ Inv q (h ++ history fs) c' s'
  | [], p, h, c, s, hi, _ => ⟨p, c, s, rfl, rfl, rfl, by simpa [history] using hi⟩
  | f :: fs, p, h, c, s, hi, he => by
    have hf : ((f.2 : Int) : ℚ) ≠ 0 := Int.cast_ne_zero.mpr (he f (by simp))
    obtain ⟨q, c', s', hq, e1, e2, hi2⟩ := loop_inv (speed f) f.1 hi
    obtain ⟨r, c'', s'', hr, f1, f2, hi3⟩ := frames_inv fs hi2 (fun g hg => he g (by simp [hg]))
    refine ⟨r, c'', s'', ?_, by rw [f1, e1], by rw [f2, e2], ?_⟩
    · unfold P.addFrames P.addFrame
      rw [qdiv_some hf]
      simp only [Option.bind_eq_bind, Option.bind_some]
      show (match p.loop (speed f) f.1 with
        | none => none
        | some q => q.addFrames fs) = some r
      rw [hq]; exact hr
    · rw [List.append_assoc] at hi3; exact hi3

end Verif.Profiler
