import Verif.ResamplerWriter.Lemmas
import Verif.BuiltinResampler.PropsWindow

/-!
# Resampler writer: properties (C85)
-/

namespace Verif.ResamplerWriter

open Verif.BuiltinResampler Verif.BuiltinResampler.Spec Spec

variable {β : Type}

/-- **C85.** For any history of writes of frames of any sizes and of changes of the scaling: the frames passed
on, put together, are the output samples at the positions that the input written so far allows, one
after another, computed from the blocks of the whole input in order, so nothing is lost,
repeated or computed from a buffer that is being filled. Each frame passed on is
non-empty and fits into the output buffer, and `write` always returns. -/
theorem C85_output (c : Cfg) (ops : List (Op β)) (dt size full fuel : Nat) (h0 : 0 < c.frame)
    (hF : c.frame ≤ 2047) (hn : 0 < c.nch) (hsize : size = full * c.nch) (hfull : 0 < full)
    (hdt : AllSteps c.q ops dt)
    (hfuel : (input ops).length + (positions c.frame c.q ops dt 0 0).length ≤ fuel) :
    ∃ frames w, run c size fuel ops dt W.init = .ok (frames, w)
      ∧ (frames.map Out.samples).flatten
        = (positions c.frame c.q ops dt 0 0).map (observe (block (input ops) c.frame) c.q)
      ∧ ∀ f ∈ frames, 0 < f.samples.length ∧ f.samples.length * c.nch ≤ size := by
  have hq : c.q = c.frame * one := by
    unfold Cfg.q
    apply Nat.mod_eq_of_lt
    rw [m32_eq]
    exact Nat.mul_lt_mul_of_pos_right (by omega) one_pos
  have hq0 : 0 < c.q := by rw [hq]; exact Nat.mul_pos h0 one_pos
  have hqb : c.q + c.q < m32 := by
    have := Nat.mul_le_mul_right one hF
    have := one_pos
    rw [hq, m32_eq]
    omega
  obtain ⟨frames, w, g1, g2, g3, _⟩ := run_spec c (input ops) size full h0 hn hq0 hq hqb hsize hfull fuel ops dt 0 0
    W.init (wrel_init c _) rfl (by rw [List.drop_zero, List.take_length]) (by rw [Nat.zero_add]) hdt hfuel
  refine ⟨frames, w, g1, g2, fun f hf => ⟨(g3 f hf).1, ?_⟩⟩
  rw [hsize]
  exact Nat.mul_le_mul_right _ (g3 f hf).2

/-- 100 elements in frames of 30, 30 and 40, with a change of scaling: 4 blocks are used, and 46 samples
come out. -/
example : AllSteps (Cfg.q ⟨16, 6, 24, 2⟩)
      [.write (List.replicate 30 7), .set 1000000, .write (List.replicate 30 8), .write (List.replicate 40 9)]
      1048576
    ∧ (positions 24 (Cfg.q ⟨16, 6, 24, 2⟩)
      [.write (List.replicate 30 7), .set 1000000, .write (List.replicate 30 8), .write (List.replicate 40 9)]
      1048576 0 0).length = 51 := by
  refine ⟨⟨by decide, ?_⟩, by decide⟩
  intro d hd
  simp only [List.mem_cons, reduceCtorEq, Op.set.injEq, List.not_mem_nil, or_false, false_or] at hd
  subst hd
  decide

/-- **C85.** The output does not depend on how the input is divided into frames: writing non-empty frames one
after another gives the same samples as writing all of them at once. -/
theorem C85_division (f q dt : Nat) (hdt : 0 < dt) (chunks : List (List β)) (hne : ∀ x ∈ chunks, x ≠ [])
    (h : chunks ≠ []) (n p : Nat) :
    positions f q (chunks.map Op.write) dt n p = positions f q [.write chunks.flatten] dt n p := by
  have one_eq : ∀ (ys : List β) (n p : Nat), ys ≠ [] → positions f q [.write ys] dt n p
      = (List.range (count q dt p ((n + ys.length - 1) / f))).map (fun j => p + j * dt) := by
    intro ys n p hy
    simp only [positions, if_neg hy, List.append_nil]
  induction chunks generalizing n p with
  | nil => exact absurd rfl h
  | cons x rest ih =>
    have hx := hne x (by simp)
    by_cases hr : rest = []
    · subst hr
      simp
    · have hfl : rest.flatten ≠ [] := by
        intro h0
        obtain ⟨y, l, rfl⟩ := List.exists_cons_of_ne_nil hr
        have := hne y (by simp)
        rw [List.flatten_cons] at h0
        exact this (List.append_eq_nil_iff.1 h0).1
      have hxf : x ++ rest.flatten ≠ [] := by
        intro h0
        exact hx (List.append_eq_nil_iff.1 h0).1
      obtain ⟨a, ha⟩ : ∃ a, a = count q dt p ((n + x.length - 1) / f) := ⟨_, rfl⟩
      have e1 : positions f q ((x :: rest).map Op.write) dt n p
          = (List.range a).map (fun j => p + j * dt)
            ++ positions f q (rest.map Op.write) dt (n + x.length) (p + a * dt) := by
        simp only [List.map_cons, positions, if_neg hx, ← ha]
      rw [e1, ih (fun y hy => hne y (by simp [hy])) hr, one_eq _ _ _ hfl, List.flatten_cons, one_eq _ _ _ hxf,
        List.length_append]
      obtain ⟨k, hk⟩ : ∃ k, k = (n + x.length + rest.flatten.length - 1) / f := ⟨_, rfl⟩
      rw [← Nat.add_assoc, ← hk]
      have hbelow : 0 < a → p + (a - 1) * dt < (k - 2) * q := by
        intro h1
        have hle : (n + x.length - 1) / f ≤ k := by
          rw [hk]
          exact Nat.div_le_div_right (by omega)
        refine lt_of_lt_of_le ?_ (Nat.mul_le_mul_right q (show (n + x.length - 1) / f - 2 ≤ k - 2 by omega))
        rw [ha] at h1 ⊢
        unfold count at h1 ⊢
        obtain ⟨X, hX⟩ : ∃ X, X = ((n + x.length - 1) / f - 2) * q := ⟨_, rfl⟩
        rw [← hX] at h1 ⊢
        have h2 := Nat.div_mul_le_self (X - p + (dt - 1)) dt
        obtain ⟨b, hb⟩ : ∃ b, (X - p + (dt - 1)) / dt = b + 1 := ⟨_, (Nat.succ_pred_eq_of_pos h1).symm⟩
        rw [hb] at h2 ⊢
        rw [show b + 1 - 1 = b by omega]
        have e : (b + 1) * dt = b * dt + dt := by ring
        omega
      rw [count_shift q dt p k a hdt hbelow, List.range_add, List.map_append, List.map_map]
      refine congrArg _ ?_
      apply List.map_congr_left
      intro j _
      show p + a * dt + j * dt = p + (a + j) * dt
      ring

example : positions 24 (24 * one) ([[1, 2, 3], [4], [5, 6]].map Op.write) 1048576 90 (one * 20)
    = positions 24 (24 * one) [.write [1, 2, 3, 4, 5, 6]] 1048576 90 (one * 20) :=
  C85_division 24 (24 * one) 1048576 (by decide) [[1, 2, 3], [4], [5, 6]] (by decide) (by decide) 90 (one * 20)

/-- The error of a call; `none` for a call that returns. -/
def errOf {α : Type} : Except Err α → Option Err
  | .ok _ => none
  | .error e => some e

/-- **C85 fails** when the size of the output buffer is not a multiple of the number of channels: samples are
written after its end. The size is the capacity of the buffer given by the factory, it is not rounded to
the number of channels (`resampler_writer.cpp:58`); 6 channels and a buffer of 1024 samples are
enough, and one frame of 300 samples per channel. -/
theorem C85_channels_fails :
    create 0 6 48000 48000 1024 = .ok (some ⟨16, 6, 24, 6⟩)
    ∧ errOf (run ⟨16, 6, 24, 6⟩ 1024 2000 [.write (List.replicate 300 ())] 1048576 W.init) = some .undef := by
  refine ⟨?_, ?_⟩ <;> decide +kernel

theorem popLoop_zero {α : Type} (c : Cfg) (hq : 0 < c.q) : ∀ (n : Nat) (st : St α), st.s = 0 →
    (popLoop c 0 n st).1.length = n ∧ (popLoop c 0 n st).2 = st := by
  intro n
  induction n with
  | zero => intro st _; exact ⟨rfl, rfl⟩
  | succ n ih =>
    intro st hs
    have e : ({ st with s := add32 (snap st.s) 0 } : St α) = st := by
      rw [hs, show add32 (snap 0) 0 = 0 by decide +kernel]
      cases st
      cases hs
      rfl
    simp only [popLoop, if_neg (show ¬ st.s ≥ c.q by omega), e, List.length_cons]
    exact ⟨by rw [(ih st hs).1], (ih st hs).2⟩

/-- **C85 fails** for a scaling so small that the step is zero (`C84_zero_step_fails` has one that is
accepted): once the resampler has its first three blocks, `write` fills the output buffer again and again with the
same sample and never returns, whatever frame is written. -/
theorem C85_zero_step_fails (c : Cfg) (full : Nat) (hq : 0 < c.q) (hn : 0 < c.nch) (xs : List β) (hx : xs ≠ [])
    (w : W β) (hr : 3 ≤ w.st.ready) (hs : w.st.s = 0) (hacc : w.acc = []) (fuel : Nat) :
    write c 0 (full * c.nch) fuel xs w = .error .hang := by
  have key : ∀ fuel pos, writeLoop c 0 (full * c.nch) fuel pos xs w = .error .hang := by
    intro fuel
    induction fuel with
    | zero =>
      intro pos
      unfold writeLoop
      rw [if_neg hx]
    | succ fuel ih =>
      intro pos
      unfold writeLoop
      rw [if_neg hx]
      have hroom : (full * c.nch - w.acc.length * c.nch + (c.nch - 1)) / c.nch = full := by
        rw [hacc, List.length_nil, Nat.zero_mul, Nat.sub_zero, Nat.add_comm, Nat.add_mul_div_right _ _ hn,
          Nat.div_eq_of_lt (by omega), Nat.zero_add]
      have hp := popLoop_zero c hq full w.st hs
      have hpop : popRoom c 0 (full * c.nch - w.acc.length * c.nch) w.st = .ok ((popLoop c 0 full w.st).1, w.st) := by
        unfold popRoom pop
        simp only [hroom]
        rw [if_neg (show ¬ w.st.ready < 3 by omega), hp.1, if_neg]
        · exact congrArg Except.ok (Prod.ext rfl hp.2)
        · rw [hacc, List.length_nil, Nat.zero_mul, Nat.sub_zero]
          omega
      simp only [hpop, Except.bind, hp.1]
      rw [hacc, List.length_nil, Nat.zero_mul, Nat.sub_zero, if_neg (Nat.lt_irrefl _), List.nil_append, hp.1,
        if_pos rfl]
      have e : ({ w with acc := [] } : W β) = w := by
        cases w
        cases hacc
        rfl
      simp only [List.drop_zero, e, ih, Except.map]
  unfold write
  rw [key fuel 0]
  rfl

/-- After a frame of 72 samples the resampler has three blocks and is at position 0. -/
example : (run ⟨16, 6, 24, 1⟩ 1024 100 [.write (List.replicate 72 ())] 0 W.init).map
    (fun r => [r.2.st.ready, r.2.st.s, r.2.acc.length]) = .ok [3, 0, 0] := by
  decide +kernel

end Verif.ResamplerWriter
