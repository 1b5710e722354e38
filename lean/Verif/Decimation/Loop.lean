import Verif.Decimation.Lemmas

/-!
# Decimation resampler: lemmas on `pop_output`
-/

namespace Verif.Decimation

open Verif.PcmFormat Verif.SampleTime Spec

/-- Samples that are pending. -/
def pend {S : Type} (st : St S) : List S := st.inBuf.drop st.inPos

theorem pend_length {S : Type} (st : St S) : (pend st).length = rem st := by
  simp [pend, rem]

theorem Spec.Edit.trans {S : Type} {n : Nat} {a b o : List S} {k : Nat} {l r : List S}
    (h : Edit n a b o k l r) : ∀ {o' : List S} {k' : Nat} {l' r' : List S}, Edit n l r o' k' l' r' →
    Edit n a b (o ++ o') (k + k') l' r' := by
  induction h with
  | done last ins => intro o' k' l' r' h2; simpa using h2
  | keep last f ins outs k l r hf _ ih =>
    intro o' k' l' r' h2
    rw [List.append_assoc]
    exact Edit.keep last f ins _ _ _ _ hf (ih h2)
  | omitted last f ins outs k l r hf _ ih =>
    intro o' k' l' r' h2
    rw [show k + 1 + k' = k + k' + 1 by omega]
    exact Edit.omitted last f ins _ _ _ _ hf (ih h2)
  | repeated last ins outs k l r hf _ ih =>
    intro o' k' l' r' h2
    rw [List.append_assoc, show k + 1 + k' = k + k' + 1 by omega]
    exact Edit.repeated last ins _ _ _ _ hf (ih h2)

theorem Spec.Edit.more {S : Type} {n : Nat} {a b o : List S} {k : Nat} {l r : List S}
    (h : Edit n a b o k l r) (x : List S) : Edit n a (b ++ x) o k l (r ++ x) := by
  induction h with
  | done last ins => exact Edit.done last _
  | keep last f ins outs k l r hf _ ih =>
    rw [List.append_assoc]
    exact Edit.keep last f _ _ _ _ _ hf ih
  | omitted last f ins outs k l r hf _ ih =>
    rw [List.append_assoc]
    exact Edit.omitted last f _ _ _ _ _ hf ih
  | repeated last ins outs k l r hf _ ih => exact Edit.repeated last _ _ _ _ _ hf ih

theorem Spec.Edit.copied {S : Type} (n : Nat) (hn : 0 < n) (k : Nat) : ∀ (last ins : List S), 0 < k →
    n * k ≤ ins.length →
    Edit n last ins (ins.take (n * k)) 0 ((ins.take (n * k)).drop (n * k - n)) (ins.drop (n * k)) := by
  induction k with
  | zero => intro _ _ h; omega
  | succ k ih =>
    intro last ins _ hle
    have hmul : n * (k + 1) = n + n * k := by rw [Nat.mul_succ, Nat.add_comm]
    rw [hmul] at hle ⊢
    have hsplit : ins = ins.take n ++ ins.drop n := (List.take_append_drop n ins).symm
    have hf : (ins.take n).length = n := by rw [List.length_take]; omega
    have ht : ins.take (n + n * k) = ins.take n ++ (ins.drop n).take (n * k) := List.take_add
    have hd : ins.drop (n + n * k) = (ins.drop n).drop (n * k) := by rw [List.drop_drop]
    rcases Nat.eq_zero_or_pos k with hk | hk
    · subst hk
      have e1 : Edit n last (ins.take n ++ ins.drop n) (ins.take n ++ []) 0 (ins.take n) (ins.drop n) :=
        Edit.keep last (ins.take n) _ _ _ _ _ hf (Edit.done _ _)
      simpa using e1
    · have e1 := ih (ins.take n) (ins.drop n) hk (by rw [List.length_drop]; omega)
      have hge : n ≤ n * k := Nat.le_mul_of_pos_right n hk
      have e2 : (ins.take (n + n * k)).drop (n + n * k - n)
          = ((ins.drop n).take (n * k)).drop (n * k - n) := by
        rw [ht, show n + n * k - n = n + (n * k - n) by omega, ← List.drop_drop]
        congr 1
        rw [List.drop_append, hf]
        simp [hf]
      rw [e2, ht, hd]
      have e3 := Edit.keep last (ins.take n) _ _ _ _ _ hf e1
      rwa [← hsplit] at e3

theorem thr_hi {S : Type} {n : Nat} {st : St S} {j : Nat} (h : Inv n st j) :
    rnd 24 (rnd 24 (rem st : ℚ) + n) = rem st + n := by
  have h1 := rem_le h
  have h2 := h.le
  rw [rnd_natCast (rem st) (by omega)]
  have := rnd_natCast (rem st + n) (by omega)
  push_cast at this
  exact this

theorem thr_lo {S : Type} {n : Nat} {st : St S} {j : Nat} (h : Inv n st j) :
    rnd 24 (rnd 24 (rem st : ℚ) - n) = rem st - n := by
  have h1 := rem_le h
  have h2 := h.le
  rw [rnd_natCast (rem st) (by omega)]
  have := rnd_int 24 (by norm_num) ((rem st : Int) - n) (by rw [abs_le]; constructor <;> omega)
  push_cast at this
  exact this

theorem le_rem {S : Type} {n : Nat} {st : St S} {j : Nat} (h : Inv n st j) (hr : 0 < rem st) :
    n ≤ rem st := Nat.le_of_dvd hr (rem_dvd h)

theorem adjust_spec {S : Type} {n : Nat} {st : St S} {j : Nat} (h : Inv n st j) (hr : 0 < rem st)
    (out : List S) : ∃ (new : List S) (e : Nat), (adjust n st out).2 = out ++ new ∧ e ≤ j ∧
      Inv n (adjust n st out).1 (j - e) ∧ Tight n (adjust n st out).1 ∧
      Edit n st.last (pend st) new e (adjust n st out).1.last (pend (adjust n st out).1) ∧
      |(new.length : ℚ) + (adjust n st out).1.acc - st.acc| ≤ eps n ∧
      (adjust n st out).1.mult = st.mult ∧ (adjust n st out).1.useInner = st.useInner ∧
      (new = [] ∨ new.length = n) ∧
      (rem (adjust n st out).1 = rem st ∨ (new = [] ∧ rem (adjust n st out).1 + n = rem st)) := by
  have hn : (0 : ℚ) < n := by exact_mod_cast h.pos
  have hn2 := h.le
  have hnr := le_rem h hr
  have hr16 := rem_le h
  have hr16q : (rem st : ℚ) ≤ 16 * n := by exact_mod_cast hr16
  have hnrq : (n : ℚ) ≤ rem st := by exact_mod_cast hnr
  have heps : 0 ≤ eps n := by unfold eps; positivity
  by_cases hd : (⌊st.acc⌋ : ℚ) ≥ rnd 24 (rnd 24 (rem st) + n)
  · -- a frame is repeated
    have ha : adjust n st out = ({ st with acc := rnd 24 (st.acc - n) }, out ++ st.last) := by
      unfold adjust
      rw [if_pos hd]
    rw [ha]
    rw [thr_hi h] at hd
    have hge : (rem st : ℚ) + n ≤ st.acc := le_trans hd (Int.floor_le _)
    have hj : 1 ≤ j := by
      rcases Nat.eq_zero_or_pos j with h0 | h0
      · have := h.c0 h0
        linarith
      · exact h0
    have hrem : rem ({ st with acc := rnd 24 (st.acc - n) } : St S) = rem st := rfl
    have b1 : (rem st : ℚ) ≤ rnd 24 (st.acc - n) := by
      have := int_le_rnd (st.acc - n) (rem st : Int) (by rw [abs_le]; constructor <;> omega)
        (by push_cast; linarith)
      exact_mod_cast this
    have b2 : rnd 24 (st.acc - n) ≤ rem st + n := by
      have := rnd_le_int (st.acc - n) ((rem st : Int) + n) (by rw [abs_le]; constructor <;> omega)
        (by push_cast; linarith [h.hi])
      push_cast at this
      exact this
    refine ⟨st.last, 1, rfl, hj, ⟨h.pos, h.le, h.mult, h.buf, h.at_, h.within, h.size, h.last, ?_, ?_, ?_, ?_⟩,
      ⟨?_, ?_⟩, ?_, ?_, rfl, rfl, Or.inr h.last, Or.inl hrem⟩
    · rw [hrem]; show rnd 24 (st.acc - n) ≤ _; linarith
    · rw [hrem]; show _ ≤ rnd 24 (st.acc - n); linarith
    · intro hj0
      have hj1 : j = 1 := by omega
      have := (h.c1 hj1).2
      rw [hrem]
      show rnd 24 (st.acc - n) = _
      have e1 : st.acc - n = rem st := by linarith
      rw [e1, rnd_natCast _ (by omega)]
    · intro _
      rw [hrem]
      exact ⟨by show _ ≤ rnd 24 (st.acc - n); linarith, b2⟩
    · rw [hrem]; show _ ≤ rnd 24 (st.acc - n); linarith
    · rw [hrem]; exact b2
    · have := Edit.repeated (n := n) st.last (pend st) [] 0 st.last (pend st) h.last (Edit.done _ _)
      rw [List.append_nil] at this
      exact this
    · rw [h.last]
      have := op_err n (st.acc - n) (by rw [abs_le]; constructor <;> linarith [h.hi])
      have e1 : (n : ℚ) + rnd 24 (st.acc - n) - st.acc = rnd 24 (st.acc - n) - (st.acc - n) := by ring
      show |(n : ℚ) + rnd 24 (st.acc - n) - st.acc| ≤ eps n
      rw [e1]
      exact this
  · by_cases hs : (⌈st.acc⌉ : ℚ) ≤ rnd 24 (rnd 24 (rem st) - n)
    · -- a frame is omitted
      have ha : adjust n st out = ({ st with inPos := st.inPos + n }, out) := by
        unfold adjust
        rw [if_neg hd, if_pos hs]
      rw [ha]
      rw [thr_lo h] at hs
      have hle : st.acc ≤ (rem st : ℚ) - n := le_trans (Int.le_ceil _) hs
      have hrem : rem ({ st with inPos := st.inPos + n } : St S) + n = rem st := by
        unfold rem at hnr ⊢
        show st.inBuf.length - (st.inPos + n) + n = _
        omega
      have hremq : (rem ({ st with inPos := st.inPos + n } : St S) : ℚ) = rem st - n := by
        rw [← hrem]
        push_cast
        ring
      have hj : 1 ≤ j := by
        rcases Nat.eq_zero_or_pos j with h0 | h0
        · have := h.c0 h0
          linarith
        · exact h0
      have hlen : st.inPos + n ≤ st.inBuf.length := by
        unfold rem at hnr
        omega
      refine ⟨[], 1, by simp, hj, ⟨h.pos, h.le, h.mult, h.buf, ?_, ?_, h.size, h.last, ?_, ?_, ?_, ?_⟩,
        ⟨?_, ?_⟩, ?_, ?_, rfl, rfl, Or.inl rfl, Or.inr ⟨rfl, hrem⟩⟩
      · exact Nat.dvd_add h.at_ (Nat.dvd_refl n)
      · exact hlen
      · rw [hremq]; show st.acc ≤ _; linarith
      · rw [hremq]; show _ ≤ st.acc; linarith [h.lo]
      · intro hj0
        have hj1 : j = 1 := by omega
        have := (h.c1 hj1).1
        rw [hremq]
        show st.acc = _
        linarith
      · intro _
        rw [hremq]
        exact ⟨by show _ ≤ st.acc; linarith [h.lo], by show st.acc ≤ _; linarith⟩
      · rw [hremq]; show _ ≤ st.acc; linarith [h.lo]
      · rw [hremq]; show st.acc ≤ _; linarith
      · have hp : pend st = (pend st).take n ++ pend ({ st with inPos := st.inPos + n } : St S) := by
          unfold pend
          show _ = _ ++ st.inBuf.drop (st.inPos + n)
          rw [← List.drop_drop, List.take_append_drop]
        have hl : ((pend st).take n).length = n := by
          rw [List.length_take, pend_length]
          omega
        have := Edit.omitted (n := n) st.last ((pend st).take n)
          (pend ({ st with inPos := st.inPos + n } : St S)) [] 0 _ _ hl (Edit.done _ _)
        rw [← hp] at this
        exact this
      · simp [heps]
    · have ha : adjust n st out = (st, out) := by
        unfold adjust
        rw [if_neg hd, if_neg hs]
      rw [ha]
      rw [thr_hi h] at hd
      rw [thr_lo h] at hs
      have h1 : st.acc < rem st + n := by
        by_contra hc
        apply hd
        have : ((rem st : Int) + n) ≤ ⌊st.acc⌋ := Int.le_floor.2 (by push_cast; linarith)
        have : (((rem st : Int) + n : Int) : ℚ) ≤ (⌊st.acc⌋ : ℚ) := by exact_mod_cast this
        push_cast at this
        exact this
      have h2 : (rem st : ℚ) - n < st.acc := by
        by_contra hc
        apply hs
        have : ⌈st.acc⌉ ≤ ((rem st : Int) - n) := Int.ceil_le.2 (by push_cast; linarith)
        have : (⌈st.acc⌉ : ℚ) ≤ (((rem st : Int) - n : Int) : ℚ) := by exact_mod_cast this
        push_cast at this
        exact this
      refine ⟨[], 0, by simp, Nat.zero_le _, h, ⟨h2.le, h1.le⟩, Edit.done _ _, by simp [heps], rfl, rfl,
        Or.inl rfl, Or.inl rfl⟩

theorem copy_spec {S : Type} {n : Nat} {st : St S} {j : Nat} (h : Inv n st j) (ht : Tight n st)
    (out : List S) (outSize : Nat) (ho : n ∣ outSize) (hl : n ∣ out.length) (_ : out.length ≤ outSize) :
    ∃ (st' : St S) (new : List S), copy n st out outSize = .ok (st', out ++ new) ∧
      Inv n st' j ∧ Tight n st' ∧ Edit n st.last (pend st) new 0 st'.last (pend st') ∧
      |(new.length : ℚ) + st'.acc - st.acc| ≤ eps n ∧ st'.mult = st.mult ∧ st'.useInner = st.useInner ∧
      new.length = min (rem st) (outSize - out.length) ∧ rem st' + new.length = rem st := by
  have hn : (0 : ℚ) < n := by exact_mod_cast h.pos
  have hn2 := h.le
  have hr16 := rem_le h
  have hr16q : (rem st : ℚ) ≤ 16 * n := by exact_mod_cast hr16
  have heps : 0 ≤ eps n := by unfold eps; positivity
  obtain ⟨t1, t2⟩ := ht
  obtain ⟨c, hc⟩ : ∃ c, c = min (rem st) (outSize - out.length) := ⟨_, rfl⟩
  have hdvd : n ∣ c := by
    rw [hc]
    rcases Nat.le_total (rem st) (outSize - out.length) with h1 | h1
    · rw [Nat.min_eq_left h1]
      exact rem_dvd h
    · rw [Nat.min_eq_right h1]
      exact Nat.dvd_sub ho hl
  have hcr : c ≤ rem st := by rw [hc]; exact Nat.min_le_left _ _
  by_cases h0 : c = 0
  · refine ⟨st, [], ?_, h, ⟨t1, t2⟩, Edit.done _ _, by simp [heps], rfl, rfl, ?_, by simp⟩
    · unfold copy
      simp only
      rw [← hc, h0]
      simp
    · rw [← hc, h0]
      rfl
  · obtain ⟨k, hk⟩ := hdvd
    have hk0 : 0 < k := by
      rcases Nat.eq_zero_or_pos k with hz | hz
      · subst hz
        simp at hk
        omega
      · exact hz
    have hnc : n ≤ c := by
      rw [hk]
      exact Nat.le_mul_of_pos_right n hk0
    obtain ⟨new, hnew⟩ : ∃ new, new = (pend st).take c := ⟨_, rfl⟩
    have hnl : new.length = c := by
      rw [hnew, List.length_take, pend_length]
      omega
    have hlast : (out ++ new).drop ((out ++ new).length - n) = new.drop (c - n) := by
      rw [List.length_append, hnl, List.drop_append,
        List.drop_eq_nil_of_le (by omega), List.nil_append]
      congr 1
      omega
    obtain ⟨st', hst⟩ : ∃ st' : St S, st' = { st with inPos := st.inPos + c, acc := rnd 24 (st.acc - c), last := new.drop (c - n) } := ⟨_, rfl⟩
    have hinpos : st'.inPos = st.inPos + c := by rw [hst]
    have hacc : st'.acc = rnd 24 (st.acc - c) := by rw [hst]
    have hbuf : st'.inBuf = st.inBuf := by rw [hst]
    have hm : st'.mult = st.mult := by rw [hst]
    have hla : st'.last = new.drop (c - n) := by rw [hst]
    have hrem : rem st' + c = rem st := by
      unfold rem at hcr ⊢
      rw [hinpos, hbuf]
      omega
    have hremq : (rem st' : ℚ) = rem st - c := by
      rw [← hrem]
      push_cast
      ring
    have hr' : rem st' ≤ 16 * n := by omega
    have b1 : (rem st' : ℚ) - n ≤ st'.acc := by
      rw [hacc]
      have := int_le_rnd (st.acc - c) ((rem st' : Int) - n) (by rw [abs_le]; constructor <;> omega)
        (by push_cast; linarith)
      push_cast at this
      exact this
    have b2 : st'.acc ≤ rem st' + n := by
      rw [hacc]
      have := rnd_le_int (st.acc - c) ((rem st' : Int) + n) (by rw [abs_le]; constructor <;> omega)
        (by push_cast; linarith)
      push_cast at this
      exact this
    refine ⟨st', new, ?_, ⟨h.pos, h.le, by rw [hm]; exact h.mult, by rw [hbuf]; exact h.buf, ?_, ?_,
      by rw [hbuf]; exact h.size, ?_, ?_, ?_, ?_, ?_⟩, ⟨b1, b2⟩, ?_, ?_, hm, by rw [hst], by rw [hnl, hc], by rw [hnl, hrem]⟩
    · unfold copy
      simp only
      rw [← hc, if_pos h0, if_neg (by rw [hk]; simp)]
      rw [show (List.drop st.inPos st.inBuf) = pend st from rfl, ← hnew, hlast, ← hst]
    · rw [hinpos]
      exact Nat.dvd_add h.at_ ⟨k, hk⟩
    · rw [hinpos, hbuf]
      have := h.within
      unfold rem at hcr
      omega
    · rw [hla, List.length_drop, hnl]
      omega
    · linarith
    · linarith
    · intro hj
      have := h.c0 hj
      have hcast : (rem st : ℚ) - c = (rem st' : ℚ) := hremq.symm
      rw [hacc, this, hcast]
      exact rnd_natCast _ (by omega)
    · intro _
      exact ⟨b1, b2⟩
    · rw [hla]
      have hed := Edit.copied n h.pos k st.last (pend st) hk0 (by rw [pend_length, ← hk]; exact hcr)
      rw [← hk, ← hnew] at hed
      have hp : pend st' = (pend st).drop c := by
        unfold pend
        rw [hinpos, hbuf, List.drop_drop]
      rw [hp]
      exact hed
    · rw [hnl, hacc]
      have hcq : (c : ℚ) ≤ rem st := by exact_mod_cast hcr
      have hc0 : (0 : ℚ) ≤ c := Nat.cast_nonneg c
      have := op_err n (st.acc - c) (by rw [abs_le]; constructor <;> linarith)
      have e1 : (c : ℚ) + rnd 24 (st.acc - c) - st.acc = rnd 24 (st.acc - c) - (st.acc - c) := by ring
      rw [e1]
      exact this

/-- One pass of the loop with pending samples. -/
theorem iter_spec {S : Type} {n : Nat} {st : St S} {j : Nat} (h : Inv n st j) (hr : 0 < rem st)
    (out : List S) (outSize : Nat) (ho : n ∣ outSize) (hl : n ∣ out.length) (hlt : out.length < outSize) :
    ∃ (st' : St S) (new : List S) (e : Nat),
      copy n (adjust n st out).1 (adjust n st out).2 outSize = .ok (st', out ++ new) ∧ e ≤ j ∧
      Inv n st' (j - e) ∧ Tight n st' ∧ Edit n st.last (pend st) new e st'.last (pend st') ∧
      |(new.length : ℚ) + st'.acc - st.acc| ≤ 2 * eps n ∧ st'.mult = st.mult ∧
      st'.useInner = st.useInner ∧ n ∣ (out ++ new).length ∧ (out ++ new).length ≤ outSize ∧
      (rem st' = 0 ∨ (out ++ new).length = outSize) ∧
      (outSize - (out ++ new).length) + rem st' < (outSize - out.length) + rem st := by
  obtain ⟨new1, e, a1, a2, a3, a4, a5, a6, a7, a8, a9, a10⟩ := adjust_spec h hr out
  have hroom : n ≤ outSize - out.length := Nat.le_of_dvd (by omega) (Nat.dvd_sub ho hl)
  have hl1 : n ∣ (out ++ new1).length ∧ (out ++ new1).length ≤ outSize := by
    rw [List.length_append]
    rcases a9 with h9 | h9
    · rw [h9]
      simp only [List.length_nil, Nat.add_zero]
      exact ⟨hl, by omega⟩
    · rw [h9]
      exact ⟨Nat.dvd_add hl (Nat.dvd_refl n), by omega⟩
  rw [a1]
  obtain ⟨st', new2, c1, c2, c3, c4, c5, c6, c7, c8, c9⟩ :=
    copy_spec a3 a4 (out ++ new1) outSize ho hl1.1 hl1.2
  have hn := h.pos
  have hdr := rem_dvd c2
  refine ⟨st', new1 ++ new2, e, ?_, a2, c2, c3, ?_, ?_, by rw [c6, a7], by rw [c7, a8], ?_, ?_, ?_, ?_⟩
  · rw [c1, List.append_assoc]
  · have := a5.trans c4
    simpa using this
  · have e1 : ((new1 ++ new2).length : ℚ) + st'.acc - st.acc
        = ((new1.length : ℚ) + (adjust n st out).1.acc - st.acc)
          + ((new2.length : ℚ) + st'.acc - (adjust n st out).1.acc) := by
      rw [List.length_append]
      push_cast
      ring
    rw [e1]
    refine (abs_add_le _ _).trans ?_
    linarith
  · rw [← List.append_assoc, List.length_append]
    refine Nat.dvd_add hl1.1 ?_
    rw [c8]
    rcases Nat.le_total (rem (adjust n st out).1) (outSize - (out ++ new1).length) with h1 | h1
    · rw [Nat.min_eq_left h1]
      exact rem_dvd a3
    · rw [Nat.min_eq_right h1]
      exact Nat.dvd_sub ho hl1.1
  · rw [← List.append_assoc, List.length_append]
    omega
  · rw [← List.append_assoc, List.length_append]
    omega
  · rw [List.length_append, List.length_append] at *
    rcases a9 with h9 | h9
    · rw [h9] at c8 hl1 ⊢
      simp only [List.length_nil] at *
      rcases a10 with h10 | h10
      · omega
      · omega
    · rcases a10 with h10 | h10
      · omega
      · rw [h10.1] at h9
        simp only [List.length_nil] at h9
        omega

/-- Error of a run of the loop, in operations. -/
def budget {S : Type} (st : St S) (out : List S) (outSize used : Nat) : Nat :=
  if out.length < outSize then 4 * used + (if rem st = 0 then 0 else 2) + 2 else 0

theorem at_end {S : Type} {n : Nat} {st : St S} {j : Nat} (h : Inv n st j) :
    st.inPos = st.inBuf.length ↔ rem st = 0 := by
  have := h.within
  unfold rem
  omega

theorem abs_step {a b c x y : ℚ} (h1 : |a| ≤ x) (h2 : |b| ≤ y) (h : c = a + b) : |c| ≤ x + y := by
  rw [h]
  exact (abs_add_le _ _).trans (add_le_add h1 h2)

theorem loop_spec {S : Type} {n : Nat} (outSize : Nat) (ho : n ∣ outSize) (fuel : Nat) :
    ∀ (st : St S) (out : List S) (chunks : List (List S)) (j : Nat), Inv n st j →
      (rem st = 0 → Tight n st) → n ∣ out.length → out.length ≤ outSize →
      (∀ x ∈ chunks, ChunkOk n x) →
      (outSize - out.length) + rem st + chunks.flatten.length < fuel →
      ∃ (st' : St S) (new : List S) (used rest : List (List S)) (e : Nat),
        popLoop n outSize fuel st out chunks = .ok (st', out ++ new, rest) ∧ chunks = used ++ rest ∧
        e ≤ j + used.length ∧ Inv n st' (j + used.length - e) ∧ (rem st' = 0 → Tight n st') ∧
        Edit n st.last (pend st ++ used.flatten) new e st'.last (pend st') ∧
        |(new.length : ℚ) + st'.acc - st.acc - used.flatten.length / st.mult|
          ≤ budget st out outSize used.length * eps n ∧
        st'.mult = st.mult ∧ st'.useInner = st.useInner ∧ (out ++ new).length ≤ outSize ∧
        ((out ++ new).length < outSize → rem st' = 0) := by
  induction fuel with
  | zero => intro st out chunks j _ _ _ _ _ hf; omega
  | succ fuel ih =>
    intro st out chunks j h ht hl hle hch hf
    have hn := h.pos
    have heps : 0 ≤ eps n := by unfold eps; positivity
    by_cases hlt : out.length < outSize
    · have g1 : ¬ ¬ (st.inBuf.length % n = 0 ∧ st.inPos % n = 0 ∧ st.inPos ≤ st.inBuf.length) := by
        rw [not_not]
        exact ⟨Nat.mod_eq_zero_of_dvd h.buf, Nat.mod_eq_zero_of_dvd h.at_, h.within⟩
      have g2 : ¬ ¬ (outSize % n = 0 ∧ out.length % n = 0 ∧ out.length ≤ outSize) := by
        rw [not_not]
        exact ⟨Nat.mod_eq_zero_of_dvd ho, Nat.mod_eq_zero_of_dvd hl, hle⟩
      by_cases hr0 : rem st = 0
      · by_cases hu : st.useInner = true
        · -- the inner resampler is asked
          have gc : st.inPos = st.inBuf.length ∧ st.useInner = true := ⟨(at_end h).2 hr0, hu⟩
          cases chunks with
          | nil =>
            obtain ⟨i1, i2, i3⟩ := take_empty_inv h hr0 (ht hr0)
            refine ⟨take st [], [], [], [], 0, ?_, rfl, Nat.zero_le _, by simpa using i1, fun _ => i2, ?_, ?_,
              rfl, rfl, by simpa using hle, fun _ => rfl⟩
            · rw [popLoop, if_pos hlt, if_neg g1, if_neg g2]
              simp only [gc, and_self, if_true, List.headD_nil, List.tail_nil, List.append_nil]
              rw [if_pos (by rfl)]
            · have hp : pend st = [] := by
                apply List.eq_nil_of_length_eq_zero
                rw [pend_length, hr0]
              rw [hp]
              exact Edit.done _ _
            · unfold budget
              rw [if_pos hlt, if_pos hr0]
              simp only [List.length_nil, List.flatten_nil]
              push_cast
              have e1 : (0 : ℚ) + (take st []).acc - st.acc - 0 / st.mult = (take st []).acc - st.acc := by
                rw [zero_div]; ring
              rw [e1]
              refine i3.trans ?_
              linarith
          | cons c cs =>
            have hc := hch c (by simp)
            obtain ⟨i1, i2⟩ := take_inv h hr0 (ht hr0) c hc.1 hc.2
            have hp : pend st = [] := by
              apply List.eq_nil_of_length_eq_zero
              rw [pend_length, hr0]
            by_cases hce : c = []
            · subst hce
              obtain ⟨_, i3, i4⟩ := take_empty_inv h hr0 (ht hr0)
              refine ⟨take st [], [], [[]], cs, 0, ?_, rfl, Nat.zero_le _, by simpa using i1, fun _ => i3, ?_, ?_,
                rfl, rfl, by simpa using hle, fun _ => rfl⟩
              · rw [popLoop, if_pos hlt, if_neg g1, if_neg g2]
                simp only [gc, and_self, if_true, List.headD_cons, List.tail_cons, List.append_nil]
                rw [if_pos (by rfl)]
              · rw [hp]
                exact Edit.done _ _
              · unfold budget
                rw [if_pos hlt, if_pos hr0]
                simp only [List.length_nil, List.flatten_cons, List.flatten_nil, List.append_nil, List.length_cons]
                push_cast
                have e1 : (0 : ℚ) + (take st []).acc - st.acc - 0 / st.mult = (take st []).acc - st.acc := by
                  rw [zero_div]; ring
                rw [e1]
                refine i4.trans ?_
                linarith
            · have hrt : 0 < rem (take st c) := by
                show 0 < c.length - 0
                have := List.length_pos_iff.2 hce
                omega
              obtain ⟨s2, nw, e, k1, k2, k3, k4, k5, k6, k7, k8, k9, k10, k11, k12⟩ :=
                iter_spec i1 hrt out outSize ho hl hlt
              have hrc : rem (take st c) = c.length := rfl
              obtain ⟨s3, nw2, used, rest, e2, q1, q2, q3, q4, q5, q6, q7, q8, q9, q10, q11⟩ :=
                ih s2 (out ++ nw) cs (j + 1 - e) k3 (fun _ => k4) k9 k10
                  (fun x hx => hch x (List.mem_cons_of_mem _ hx))
                  (by simp only [List.flatten_cons, List.length_append] at hf k12 ⊢; omega)
              refine ⟨s3, nw ++ nw2, c :: used, rest, e + e2, ?_, ?_, ?_, ?_, q5, ?_, ?_, ?_, ?_, ?_, ?_⟩
              · rw [popLoop, if_pos hlt, if_neg g1, if_neg g2]
                simp only [gc, and_self, if_true, List.headD_cons, List.tail_cons]
                rw [if_neg (by show ¬ (0 = c.length); rw [hrc] at hrt; omega), k1]
                show popLoop n outSize fuel s2 (out ++ nw) cs = _
                rw [q1, List.append_assoc]
              · rw [q2]; rfl
              · rw [List.length_cons]; omega
              · have : j + (c :: used).length - (e + e2) = j + 1 - e + used.length - e2 := by
                  rw [List.length_cons]; omega
                rw [this]
                exact q4
              · rw [hp, List.nil_append, List.flatten_cons]
                have hpt : pend (take st c) = c := rfl
                rw [hpt] at k5
                exact (k5.more used.flatten).trans q6
              · rw [k7] at q7
                have hb : budget s2 (out ++ nw) outSize used.length ≤ 4 * used.length + 2 := by
                  unfold budget
                  rcases k11 with hk | hk
                  · rw [hk]; split <;> simp
                  · rw [if_neg (by omega)]; omega
                have hb' : (budget s2 (out ++ nw) outSize used.length : ℚ) ≤ 4 * used.length + 2 := by
                  exact_mod_cast hb
                have q7' : |(nw2.length : ℚ) + s3.acc - s2.acc - used.flatten.length / (take st c).mult|
                    ≤ (4 * used.length + 2) * eps n :=
                  q7.trans (mul_le_mul_of_nonneg_right hb' heps)
                unfold budget
                rw [if_pos hlt, if_pos hr0]
                have s1 := abs_step k6 q7' rfl
                have s2' := abs_step i2 s1 rfl
                have e1 : ((nw ++ nw2).length : ℚ) + s3.acc - st.acc - ((c :: used).flatten.length : ℚ) / st.mult
                    = ((take st c).acc - st.acc - c.length / st.mult)
                      + (((nw.length : ℚ) + s2.acc - (take st c).acc)
                        + ((nw2.length : ℚ) + s3.acc - s2.acc - used.flatten.length / (take st c).mult)) := by
                  rw [show (take st c).mult = st.mult from rfl, List.flatten_cons, List.length_append,
                    List.length_append]
                  push_cast
                  rw [add_div]
                  ring
                rw [e1]
                refine s2'.trans ?_
                rw [List.length_cons]
                push_cast
                linarith
              · rw [q8, k7]; rfl
              · rw [q9, k8]; rfl
              · rw [← List.append_assoc]; exact q10
              · rw [← List.append_assoc]; exact q11
        · -- there is nothing to read
          have gc : ¬ (st.inPos = st.inBuf.length ∧ st.useInner = true) := fun hc => hu hc.2
          refine ⟨st, [], [], chunks, 0, ?_, rfl, Nat.zero_le _, h, ht, ?_, ?_, rfl, rfl, by simpa using hle,
            fun _ => hr0⟩
          · rw [popLoop, if_pos hlt, if_neg g1, if_neg g2]
            simp only [gc, if_false]
            rw [if_pos ((at_end h).2 hr0), List.append_nil]
          · simp only [List.flatten_nil, List.append_nil]
            exact Edit.done _ _
          · simp only [List.length_nil, List.flatten_nil]
            push_cast
            have e1 : (0 : ℚ) + st.acc - st.acc - 0 / st.mult = 0 := by rw [zero_div]; ring
            rw [e1, abs_zero]
            positivity
      · -- there are pending samples
        have hr : 0 < rem st := Nat.pos_of_ne_zero hr0
        have gne : ¬ st.inPos = st.inBuf.length := fun hc => hr0 ((at_end h).1 hc)
        have gc : ¬ (st.inPos = st.inBuf.length ∧ st.useInner = true) := fun hc => gne hc.1
        obtain ⟨s2, nw, e, k1, k2, k3, k4, k5, k6, k7, k8, k9, k10, k11, k12⟩ :=
          iter_spec h hr out outSize ho hl hlt
        obtain ⟨s3, nw2, used, rest, e2, q1, q2, q3, q4, q5, q6, q7, q8, q9, q10, q11⟩ :=
          ih s2 (out ++ nw) chunks (j - e) k3 (fun _ => k4) k9 k10 hch (by omega)
        refine ⟨s3, nw ++ nw2, used, rest, e + e2, ?_, q2, by omega, ?_, q5, ?_, ?_, by rw [q8, k7],
          by rw [q9, k8], ?_, ?_⟩
        · rw [popLoop, if_pos hlt, if_neg g1, if_neg g2]
          simp only [gc, if_false]
          rw [if_neg gne, k1]
          show popLoop n outSize fuel s2 (out ++ nw) chunks = _
          rw [q1, List.append_assoc]
        · have : j + used.length - (e + e2) = j - e + used.length - e2 := by omega
          rw [this]
          exact q4
        · exact (k5.more used.flatten).trans q6
        · rw [k7] at q7
          have hb : budget s2 (out ++ nw) outSize used.length ≤ 4 * used.length + 2 := by
            unfold budget
            rcases k11 with hk | hk
            · rw [hk]; split <;> simp
            · rw [if_neg (by omega)]; omega
          have hb' : (budget s2 (out ++ nw) outSize used.length : ℚ) ≤ 4 * used.length + 2 := by
            exact_mod_cast hb
          have q7' := q7.trans (mul_le_mul_of_nonneg_right hb' heps)
          unfold budget
          rw [if_pos hlt, if_neg hr0]
          have s1 := abs_step k6 q7' rfl
          have e1 : ((nw ++ nw2).length : ℚ) + s3.acc - st.acc - (used.flatten.length : ℚ) / st.mult
              = ((nw.length : ℚ) + s2.acc - st.acc)
                + ((nw2.length : ℚ) + s3.acc - s2.acc - used.flatten.length / st.mult) := by
            rw [List.length_append]
            push_cast
            ring
          rw [e1]
          refine s1.trans ?_
          push_cast
          linarith
        · rw [← List.append_assoc]; exact q10
        · rw [← List.append_assoc]; exact q11
    · refine ⟨st, [], [], chunks, 0, ?_, rfl, Nat.zero_le _, h, ht, ?_, ?_, rfl, rfl, by simpa using hle, ?_⟩
      · rw [popLoop, if_neg hlt, List.append_nil]
      · simp only [List.flatten_nil, List.append_nil]
        exact Edit.done _ _
      · simp only [List.length_nil, List.flatten_nil]
        push_cast
        have e1 : (0 : ℚ) + st.acc - st.acc - 0 / st.mult = 0 := by rw [zero_div]; ring
        rw [e1, abs_zero]
        positivity
      · intro hc
        simp at hc
        omega

end Verif.Decimation
