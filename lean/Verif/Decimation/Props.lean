import Verif.Decimation.Loop

/-!
# Decimation resampler: properties

C92: the output of the resampler is its input with single frames omitted or repeated, not more than
one per portion of input, and its length follows the scaling.
-/

namespace Verif.Decimation

open Verif.PcmFormat Verif.SampleTime Spec

theorem admitted_iff (n i o : Nat) (m : ℚ) :
    ¬ (i = 0 ∨ o = 0 ∨ multOk n m = false) ↔ Admitted n i o m := by
  unfold Admitted multOk frameSize
  rw [decide_eq_false_iff_not, not_not]
  constructor
  · intro h
    refine ⟨fun hc => h (Or.inl hc), fun hc => h (Or.inr (Or.inl hc)), ?_, ?_⟩
    · by_contra hc
      exact h (Or.inr (Or.inr (Or.inl (by linarith))))
    · by_contra hc
      exact h (Or.inr (Or.inr (Or.inr (by linarith))))
  · rintro ⟨h1, h2, h3, h4⟩ hc
    rcases hc with hc | hc | hc | hc
    · exact h1 hc
    · exact h2 hc
    · linarith
    · linarith

theorem multOk_one (n : Nat) (hn : n ≤ 65536) : multOk n 1 = true := by
  unfold multOk frameSize
  rw [decide_eq_true_iff, div_one, rnd_natCast _ (by omega), sub_self, rnd_zero]
  simp only [abs_zero]
  have : (0 : ℚ) ≤ n := Nat.cast_nonneg n
  rintro (h | h)
  · linarith
  · linarith

theorem set_spec {S : Type} (n : Nat) (st : St S) (i o : Nat) (m : ℚ) (ok : Bool) :
    (setScaling n st i o m ok).2.inBuf = st.inBuf ∧ (setScaling n st i o m ok).2.inPos = st.inPos ∧
    (setScaling n st i o m ok).2.acc = st.acc ∧ (setScaling n st i o m ok).2.last = st.last ∧
    ((Admitted n i o m ∧ (i = o ∨ ok = true)) → (setScaling n st i o m ok).2.mult = m ∧ multOk n m = true
      ∧ (setScaling n st i o m ok).1 = true) ∧
    (¬ (Admitted n i o m ∧ (i = o ∨ ok = true)) → (setScaling n st i o m ok).2.mult = st.mult
      ∧ (setScaling n st i o m ok).1 = false) := by
  unfold setScaling
  by_cases h1 : i = 0 ∨ o = 0 ∨ multOk n m = false
  · rw [if_pos h1]
    refine ⟨rfl, rfl, rfl, rfl, ?_, fun _ => ⟨rfl, rfl⟩⟩
    intro h
    exact absurd h1 ((admitted_iff n i o m).2 h.1)
  · rw [if_neg h1]
    have ha := (admitted_iff n i o m).1 h1
    have hm : multOk n m = true := by
      cases hb : multOk n m with
      | true => rfl
      | false => exact absurd (Or.inr (Or.inr hb)) h1
    by_cases hio : i = o
    · rw [hio] at ha
      simp [hio, hm, ha]
    · cases ok with
      | true =>
        simp [hio, hm, ha]
      | false => simp [hio]

theorem init_inv {S : Type} (n : Nat) (zero : S) (u : Bool) (h0 : 0 < n) (hn : n ≤ 65536) :
    Inv n (init n zero u) 0 ∧ Tight n (init n zero u) := by
  have hq : (0 : ℚ) < n := by exact_mod_cast h0
  have hr : rem (init n zero u) = 0 := rfl
  have ha : (init n zero u).acc = 0 := rfl
  refine ⟨⟨h0, hn, multOk_one n hn, Nat.dvd_zero n, Nat.dvd_zero n, Nat.le_refl _, Nat.zero_le _, ?_, ?_, ?_, ?_, ?_⟩,
    ?_, ?_⟩
  · exact List.length_replicate
  all_goals rw [hr, ha]; push_cast
  · linarith
  · linarith
  · intro _; rfl
  · intro hj; cases hj
  · linarith
  · linarith

theorem run_spec {S : Type} {n : Nat} {st st' : St S} {evs : List (Ev S)} (hrun : Run n st evs st') :
    ∀ j, Inv n st j → (rem st = 0 → Tight n st) → ∃ e, e ≤ j + portions evs ∧
      Inv n st' (j + portions evs - e) ∧ (rem st' = 0 → Tight n st') ∧
      Edit n st.last (pend st ++ consumed evs) (produced evs) e st'.last (pend st') ∧
      |((produced evs).length : ℚ) + st'.acc - st.acc - ideal n st.mult evs|
        ≤ (4 * portions evs + 4 * pops evs) * eps n := by
  induction hrun with
  | nil st =>
    intro j h ht
    refine ⟨0, Nat.zero_le _, h, ht, ?_, ?_⟩
    · simp only [consumed, produced, List.append_nil]
      exact Edit.done _ _
    · simp [produced, ideal, portions, pops]
  | scale st i o m ok t st' hr ih =>
    intro j h ht
    obtain ⟨s1, s2, s3, s4, s5, s6⟩ := set_spec n st i o m ok
    have hrem : rem (setScaling n st i o m ok).2 = rem st := by unfold rem; rw [s1, s2]
    have hmok : multOk n (setScaling n st i o m ok).2.mult = true := by
      by_cases hc : Admitted n i o m ∧ (i = o ∨ ok = true)
      · rw [(s5 hc).1]; exact (s5 hc).2.1
      · rw [(s6 hc).1]; exact h.mult
    have hinv : Inv n (setScaling n st i o m ok).2 j :=
      ⟨h.pos, h.le, hmok, by rw [s1]; exact h.buf, by rw [s2]; exact h.at_, by rw [s1, s2]; exact h.within,
        by rw [s1]; exact h.size, by rw [s4]; exact h.last, by rw [s3, hrem]; exact h.hi,
        by rw [s3, hrem]; exact h.lo, by rw [s3, hrem]; exact h.c0, by rw [s3, hrem]; exact h.c1⟩
    obtain ⟨e, q1, q2, q3, q4, q5⟩ := ih j hinv (by
      unfold Tight
      rw [s3, hrem]
      exact ht)
    refine ⟨e, q1, q2, q3, ?_, ?_⟩
    · rw [s4] at q4
      have : pend (setScaling n st i o m ok).2 = pend st := by unfold pend; rw [s1, s2]
      rw [this] at q4
      exact q4
    · rw [s3] at q5
      simp only [ideal, produced, portions, pops]
      by_cases hc : Admitted n i o m ∧ (i = o ∨ ok = true)
      · rw [if_pos hc]
        rw [(s5 hc).1] at q5
        exact q5
      · rw [if_neg hc]
        rw [(s6 hc).1] at q5
        exact q5
  | push st d t st' hu hd hp hr ih =>
    intro j h ht
    have heps : 0 ≤ eps n := by unfold eps; positivity
    have hr0 := (at_end h).1 hp
    have hpush : push st d = take st d := by
      unfold push
      rw [hu]
      simp
    rw [hpush] at ih hr
    obtain ⟨i1, i2⟩ := take_inv h hr0 (ht hr0) d (by rw [hd]; exact Nat.dvd_mul_left n 16) (by omega)
    have hrt : rem (take st d) ≠ 0 := by
      show d.length - 0 ≠ 0
      have := h.pos
      omega
    obtain ⟨e, q1, q2, q3, q4, q5⟩ := ih (j + 1) i1 (fun hc => absurd hc hrt)
    have hpe : pend st = [] := by
      apply List.eq_nil_of_length_eq_zero
      rw [pend_length, hr0]
    refine ⟨e, by simp only [portions]; omega, ?_, q3, ?_, ?_⟩
    · simp only [portions]
      rw [show j + (1 + portions t) - e = j + 1 + portions t - e by omega]
      exact q2
    · simp only [consumed, produced]
      rw [hpe, List.nil_append]
      have hpt : pend (take st d) = d := rfl
      rw [hpt] at q4
      exact q4
    · simp only [produced, ideal, portions, pops]
      have s1 := abs_step i2 q5 rfl
      have e1 : ((produced t).length : ℚ) + st'.acc - st.acc - ((d.length : ℚ) / st.mult + ideal n st.mult t)
          = ((take st d).acc - st.acc - d.length / st.mult)
            + (((produced t).length : ℚ) + st'.acc - (take st d).acc - ideal n (take st d).mult t) := by
        rw [show (take st d).mult = st.mult from rfl]
        ring
      rw [e1]
      refine s1.trans ?_
      push_cast
      linarith
  | pushInner st d t st' hu hr ih =>
    intro j h ht
    have hpush : push st d = st := by
      unfold push
      rw [hu]
      simp
    rw [hpush] at ih
    obtain ⟨e, q1, q2, q3, q4, q5⟩ := ih j h ht
    exact ⟨e, q1, q2, q3, q4, q5⟩
  | pop st size c out s1 t st' hs hc hp hr ih =>
    intro j h ht
    have heps : 0 ≤ eps n := by unfold eps; positivity
    obtain ⟨sx, new, used, rest, e, p1, p2, p3, p4, p5, p6, p7, p8, p9, p10, p11⟩ :=
      loop_spec size hs (size + rem st + c.flatten.length + 1) st [] c j h ht (Nat.dvd_zero n)
        (Nat.zero_le _) hc (by simp only [List.length_nil]; omega)
    unfold pop at hp
    rw [p1] at hp
    have hp := Except.ok.inj hp
    have hx1 : sx = s1 := congrArg Prod.fst hp
    have hx2 : [] ++ new = out := congrArg (fun x => x.2.1) hp
    have hx3 : rest = [] := congrArg (fun x => x.2.2) hp
    rw [List.nil_append] at hx2
    subst hx1 hx2 hx3
    rw [List.append_nil] at p2
    subst p2
    obtain ⟨e2, q1, q2, q3, q4, q5⟩ := ih (j + c.length - e) p4 p5
    refine ⟨e + e2, by simp only [portions]; omega, ?_, q3, ?_, ?_⟩
    · simp only [portions]
      rw [show j + (c.length + portions t) - (e + e2) = j + c.length - e + portions t - e2 by omega]
      exact q2
    · simp only [consumed, produced]
      rw [← List.append_assoc]
      exact (p6.more (consumed t)).trans q4
    · simp only [produced, ideal, portions, pops]
      rw [p8] at q5
      have hb : budget st ([] : List S) size c.length ≤ 4 * c.length + 4 := by
        unfold budget
        split
        · split <;> omega
        · omega
      have hb' : (budget st ([] : List S) size c.length : ℚ) ≤ 4 * c.length + 4 := by exact_mod_cast hb
      have s1 := abs_step (p7.trans (mul_le_mul_of_nonneg_right hb' heps)) q5 rfl
      have e1 : ((new ++ produced t).length : ℚ) + st'.acc - st.acc
            - ((c.flatten.length : ℚ) / st.mult + ideal n st.mult t)
          = ((new.length : ℚ) + sx.acc - st.acc - c.flatten.length / st.mult)
            + (((produced t).length : ℚ) + st'.acc - sx.acc - ideal n st.mult t) := by
        rw [List.length_append]
        push_cast
        ring
      rw [e1]
      refine s1.trans ?_
      push_cast
      linarith

theorem run_append {S : Type} {n : Nat} {st' : St S} (e1 : List (Ev S)) :
    ∀ {st : St S} {e2 : List (Ev S)}, Run n st (e1 ++ e2) st' → ∃ s, Run n st e1 s ∧ Run n s e2 st' := by
  induction e1 with
  | nil => intro st e2 h; exact ⟨st, Run.nil st, h⟩
  | cons a t ih =>
    intro st e2 h
    cases h with
    | scale _ i o m ok _ _ hr =>
      obtain ⟨s, h1, h2⟩ := ih hr
      exact ⟨s, Run.scale _ _ _ _ _ _ _ h1, h2⟩
    | push _ d _ _ hu hd hp hr =>
      obtain ⟨s, h1, h2⟩ := ih hr
      exact ⟨s, Run.push _ _ _ _ hu hd hp h1, h2⟩
    | pushInner _ d _ _ hu hr =>
      obtain ⟨s, h1, h2⟩ := ih hr
      exact ⟨s, Run.pushInner _ d _ _ hu h1, h2⟩
    | pop _ size c out s1 _ _ hs hc hp hr =>
      obtain ⟨s, h1, h2⟩ := ih hr
      exact ⟨s, Run.pop _ _ _ _ _ _ _ hs hc hp h1, h2⟩

/-- **C92**: whatever is asked for, the output is the input with frames omitted or repeated, not more
than one per portion of input; not more than a portion of input is pending. -/
theorem C92_edit {S : Type} (n : Nat) (zero : S) (u : Bool) (evs : List (Ev S)) (st : St S)
    (h0 : 0 < n) (hn : n ≤ 65536) (h : Run n (init n zero u) evs st) :
    (∃ (k : Nat) (last : List S), Edit n (List.replicate n zero) (consumed evs) (produced evs) k last
        (st.inBuf.drop st.inPos) ∧ k ≤ portions evs) ∧
      (st.inBuf.drop st.inPos).length ≤ 16 * n := by
  obtain ⟨i1, i2⟩ := init_inv n zero u h0 hn
  obtain ⟨e, q1, q2, q3, q4, q5⟩ := run_spec h 0 i1 (fun _ => i2)
  refine ⟨⟨e, st.last, q4, by omega⟩, ?_⟩
  show (pend st).length ≤ _
  rw [pend_length]
  exact rem_le q2

/-- **C92**: the length of the output follows the scaling, however it is changed and however long the
stream is: it differs from the sum of the lengths of portions of input, each divided by the scaling
it is taken with, by two frames at most (less what is pending), besides the errors of rounding:
20 · 2⁻²⁴ of a frame for an operation, 4 operations for a portion of input or a call. When less is
returned than was asked for, nothing is pending, and the difference is one frame. -/
theorem C92_drift {S : Type} (n : Nat) (zero : S) (u : Bool) (evs : List (Ev S)) (st : St S)
    (h0 : 0 < n) (hn : n ≤ 65536) (h : Run n (init n zero u) evs st) :
    |((produced evs).length : ℚ) + (st.inBuf.drop st.inPos).length - ideal n 1 evs|
        ≤ 2 * n + 4 * (portions evs + pops evs) * (20 * n / 2 ^ 24) ∧
      (st.inBuf.drop st.inPos = [] → |((produced evs).length : ℚ) - ideal n 1 evs|
        ≤ n + 4 * (portions evs + pops evs) * (20 * n / 2 ^ 24)) := by
  obtain ⟨i1, i2⟩ := init_inv n zero u h0 hn
  obtain ⟨e, q1, q2, q3, q4, q5⟩ := run_spec h 0 i1 (fun _ => i2)
  rw [show st.inBuf.drop st.inPos = pend st from rfl]
  refine ⟨?_, ?_⟩
  · rw [pend_length]
    have h1 : |(rem st : ℚ) - st.acc| ≤ 2 * n := by
      rw [abs_le]
      constructor <;> linarith [q2.hi, q2.lo]
    have := abs_step h1 q5 rfl
    have e1 : ((produced evs).length : ℚ) + rem st - ideal n 1 evs
        = (rem st - st.acc) + (((produced evs).length : ℚ) + st.acc - (init n zero u).acc
          - ideal n (init n zero u).mult evs) := by
      show _ = (rem st - st.acc) + (((produced evs).length : ℚ) + st.acc - 0 - ideal n 1 evs)
      ring
    rw [e1]
    refine this.trans (le_of_eq ?_)
    unfold eps
    ring
  · intro hp
    have hr : rem st = 0 := by rw [← pend_length, hp]; rfl
    obtain ⟨t1, t2⟩ := q3 hr
    rw [hr] at t1 t2
    push_cast at t1 t2
    have h1 : |-st.acc| ≤ n := by
      rw [abs_le]
      constructor <;> linarith
    have := abs_step h1 q5 rfl
    have e1 : ((produced evs).length : ℚ) - ideal n 1 evs
        = -st.acc + (((produced evs).length : ℚ) + st.acc - (init n zero u).acc
          - ideal n (init n zero u).mult evs) := by
      show _ = -st.acc + (((produced evs).length : ℚ) + st.acc - 0 - ideal n 1 evs)
      ring
    rw [e1]
    refine this.trans (le_of_eq ?_)
    unfold eps
    ring

/-- **C92**: when less is returned than was asked for, all input is used up: every frame of it is
copied or omitted, and the next portion may be pushed. -/
theorem C92_short {S : Type} (n : Nat) (zero : S) (u : Bool) (evs : List (Ev S)) (st : St S)
    (size : Nat) (c : List (List S)) (out : List S) (h0 : 0 < n) (hn : n ≤ 65536)
    (h : Run n (init n zero u) (evs ++ [.pop size c out]) st) (hs : out.length < size) :
    st.inPos = st.inBuf.length ∧ ∃ (k : Nat) (last : List S),
      Edit n (List.replicate n zero) (consumed (evs ++ [.pop size c out]))
        (produced (evs ++ [.pop size c out])) k last [] := by
  obtain ⟨i1, i2⟩ := init_inv n zero u h0 hn
  obtain ⟨e, q1, q2, q3, q4, q5⟩ := run_spec h 0 i1 (fun _ => i2)
  obtain ⟨s, r1, r2⟩ := run_append evs h
  obtain ⟨e', p1, p2, p3, p4, p5⟩ := run_spec r1 0 i1 (fun _ => i2)
  have hr : rem st = 0 := by
    cases r2 with
    | pop _ _ _ _ s1 _ _ hsz hc hp hr =>
      cases hr with
      | nil =>
        obtain ⟨sx, new, used, rest, e, x1, x2, x3, x4, x5, x6, x7, x8, x9, x10, x11⟩ :=
          loop_spec size hsz (size + rem s + c.flatten.length + 1) s [] c _ p2 p3 (Nat.dvd_zero n)
            (Nat.zero_le _) hc (by simp only [List.length_nil]; omega)
        unfold pop at hp
        rw [x1] at hp
        have hp := Except.ok.inj hp
        have hx1 : sx = st := congrArg Prod.fst hp
        have hx2 : [] ++ new = out := congrArg (fun x => x.2.1) hp
        rw [← hx1]
        apply x11
        rw [hx2]
        exact hs
  refine ⟨(at_end q2).2 hr, e, st.last, ?_⟩
  have hp : pend st = [] := by
    apply List.eq_nil_of_length_eq_zero
    rw [pend_length, hr]
  rw [hp] at q4
  exact q4

/-- **C92**: no call made by the rules aborts or fails to end, and no more is returned than was asked
for, in whole frames; less is returned only when nothing is pending. -/
theorem C92_no_abort {S : Type} (n : Nat) (zero : S) (u : Bool) (evs : List (Ev S)) (st : St S)
    (size : Nat) (c : List (List S)) (h0 : 0 < n) (hn : n ≤ 65536)
    (h : Run n (init n zero u) evs st) (hs : n ∣ size) (hc : ∀ x ∈ c, ChunkOk n x) :
    ∃ (st' : St S) (out : List S) (rest : List (List S)), pop n st size c = .ok (st', out, rest) ∧
      out.length ≤ size ∧ (out.length < size → st'.inPos = st'.inBuf.length) := by
  obtain ⟨i1, i2⟩ := init_inv n zero u h0 hn
  obtain ⟨e, q1, q2, q3, q4, q5⟩ := run_spec h 0 i1 (fun _ => i2)
  obtain ⟨sx, new, used, rest, e, x1, x2, x3, x4, x5, x6, x7, x8, x9, x10, x11⟩ :=
    loop_spec size hs (size + rem st + c.flatten.length + 1) st [] c _ q2 q3 (Nat.dvd_zero n)
      (Nat.zero_le _) hc (by simp only [List.length_nil]; omega)
  refine ⟨sx, new, rest, ?_, by simpa using x10, ?_⟩
  · unfold pop
    rw [x1, List.nil_append]
  · intro hlt
    exact (at_end x4).2 (x11 (by simpa using hlt))

/-- **C92**: asking for a part of a frame aborts. -/
theorem C92_abort {S : Type} (n : Nat) (st : St S) (size : Nat) (c : List (List S))
    (h : ¬ n ∣ size) : pop n st size c = .error .panic := by
  have hpos : 0 < size := by
    rcases Nat.eq_zero_or_pos size with hz | hz
    · subst hz
      exact absurd (Nat.dvd_zero n) h
    · exact hz
  unfold pop
  rw [popLoop, if_pos (by simpa using hpos)]
  split
  · rfl
  · rw [if_pos (fun hc => h (Nat.dvd_of_mod_eq_zero hc.1))]

/-- **C92**: `set_scaling` succeeds exactly when the scaling is admitted and the inner resampler, if
needed, agrees. -/
theorem C92_scaling {S : Type} (n : Nat) (st : St S) (i o : Nat) (m : ℚ) (ok : Bool) :
    (setScaling n st i o m ok).1 = true ↔ Admitted n i o m ∧ (i = o ∨ ok = true) := by
  obtain ⟨s1, s2, s3, s4, s5, s6⟩ := set_spec n st i o m ok
  constructor
  · intro h
    by_contra hc
    rw [(s6 hc).2] at h
    cases h
  · intro h
    exact (s5 h).2.2

/-- **C92**: a scaling that changes the speed by less than 6 percent up or down is admitted, one that
changes it by more than 7 percent is not. -/
theorem C92_range (n i o : Nat) (m : ℚ) (h0 : 0 < n) (hn : n ≤ 65536) (hi : i ≠ 0) (ho : o ≠ 0) :
    (94 / 100 < 1 / m ∧ 1 / m < 106 / 100 → Admitted n i o m) ∧
    (1 / m < 93 / 100 ∨ 107 / 100 < 1 / m → ¬ Admitted n i o m) := by
  have hn' : (0 : ℚ) < n := by exact_mod_cast h0
  have hc16 : (((16 * n : Nat)) : ℚ) = 16 * n := by push_cast; ring
  have hq : (((16 * n : Nat)) : ℚ) / m = 16 * n * (1 / m) := by rw [hc16]; ring
  obtain ⟨v, hv⟩ : ∃ v, v = 1 / m := ⟨_, rfl⟩
  unfold Admitted
  rw [hq, hc16, ← hv]
  obtain ⟨x, hx⟩ : ∃ x, x = 16 * (n : ℚ) * v := ⟨_, rfl⟩
  rw [← hx]
  have e1 := rnd_err 24 x
  have e2 := rnd_err 24 (rnd 24 x - 16 * n)
  constructor
  · rintro ⟨h1, h2⟩
    have hvpos : 0 < v := by linarith
    refine ⟨hi, ho, ?_, ?_⟩
    · rw [hv] at hvpos
      exact one_div_pos.1 hvpos
    · have hx1 : 15 * n + n / 100 ≤ x := by rw [hx]; nlinarith
      have hx2 : x ≤ 17 * n - n / 100 := by rw [hx]; nlinarith
      have b1 := abs_le.1 (e1.trans (show |x| / 2 ^ 24 ≤ n / 1000 by
        rw [abs_of_nonneg (by linarith), div_le_iff₀ (by norm_num)]
        norm_num
        linarith))
      have b3 : |rnd 24 x - 16 * n| ≤ n := by
        rw [abs_le]
        constructor <;> linarith [b1.1, b1.2]
      have c1 := rnd_le_int (rnd 24 x - 16 * n) (n : Int) (by rw [abs_le]; constructor <;> omega)
        (by push_cast; exact (abs_le.1 b3).2)
      have c2 := int_le_rnd (rnd 24 x - 16 * n) (-(n : Int)) (by rw [abs_le]; constructor <;> omega)
        (by push_cast; exact (abs_le.1 b3).1)
      push_cast at c1 c2
      exact abs_le.2 ⟨c2, c1⟩
  · rintro h ⟨_, _, hm, h4⟩
    have hvpos : 0 < v := by rw [hv]; exact one_div_pos.2 hm
    have hxpos : 0 ≤ x := by rw [hx]; positivity
    rw [abs_of_nonneg hxpos] at e1
    obtain ⟨y, hy⟩ : ∃ y, y = rnd 24 x - 16 * n := ⟨_, rfl⟩
    rw [← hy] at e2 h4
    have h5 : |y| ≤ n + n / 1000 := by
      have h6 : |y| - |rnd 24 y| ≤ |rnd 24 y - y| := by
        rw [abs_sub_comm]
        exact abs_sub_abs_le_abs_sub _ _
      have h7 : |y| * (1 - 1 / 2 ^ 24) ≤ n := by
        have : |y| / 2 ^ 24 = |y| * (1 / 2 ^ 24) := by ring
        linarith
      norm_num at h7
      linarith
    have h8 := abs_le.1 h5
    have e1' := abs_le.1 e1
    have h9 : rnd 24 x ≤ 17 * n + n / 1000 := by linarith [h8.2]
    have h10 : 15 * n - (n : ℚ) / 1000 ≤ rnd 24 x := by linarith [h8.1]
    have h11 : x ≤ 17 * n + n / 500 := by
      have := e1'.1
      norm_num at this
      linarith
    have h12 : 15 * n - (n : ℚ) / 500 ≤ x := by
      have := e1'.2
      norm_num at this
      linarith
    rcases h with h | h
    · have : x < 16 * n * (93 / 100) := by rw [hx]; exact mul_lt_mul_of_pos_left h (by linarith)
      linarith
    · have : 16 * n * (107 / 100) < x := by rw [hx]; exact mul_lt_mul_of_pos_left h (by linarith)
      linarith

/-- **C92 fails** for `set_scaling` that returns false: it is not without effect. If the inner
resampler does not agree with the rates, samples that are pushed later go to it nevertheless. -/
theorem C92_failed_scaling_fails : ∃ (st : St Nat) (d : List Nat),
    push st d ≠ st ∧ (setScaling 2 st 44100 48000 1 false).1 = false ∧
      push (setScaling 2 st 44100 48000 1 false).2 d = (setScaling 2 st 44100 48000 1 false).2 := by
  have hm := multOk_one 2 (by norm_num)
  have e : setScaling 2 (init 2 0 false) 44100 48000 1 false
      = (false, { (init 2 0 false : St Nat) with useInner := true }) := by
    unfold setScaling
    rw [hm]
    simp
  refine ⟨init 2 0 false, [1, 2], ?_, ?_, ?_⟩
  · intro h
    have := congrArg St.inBuf h
    simp [push, take, init] at this
  · rw [e]
  · rw [e]
    rfl

deriving instance DecidableEq for Except

/-- The hypotheses of the theorems are met: at a scaling of 17/16, two portions of 16 samples give 31
samples; the first sample of the second one is omitted. -/
example : ∃ st, Run 1 (init 1 (0 : Nat) false)
    [.scale 44100 44100 (17 / 16) true, .push (List.range 16), .pop 20 [] (List.range 16),
      .push (List.range 16), .pop 20 [] (List.range' 1 15)] st := by
  refine ⟨⟨false, 17 / 16, List.range 16, 16, -462607 / 524288, [15]⟩, .scale _ _ _ _ _ _ _ (.push _ _ _ _ ?_ rfl ?_
    (.pop _ _ _ _ ⟨false, 17 / 16, List.range 16, 16, -986895 / 1048576, [15]⟩ _ _ (by decide)
    (by simp) ?_ (.push _ _ _ _ rfl rfl (by decide) (.pop _ _ _ _ _ _ _ (by decide) (by simp) ?_ (.nil _)))))⟩
  all_goals decide +kernel

end Verif.Decimation
