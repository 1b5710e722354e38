import Verif.Mixer.Lemmas

/-!
# C40, C64: the mixer
-/

namespace Verif.Mixer

variable {σ : Type} {add : Rat → Rat → Rat} {rd : Rd σ}

/-- **C40**: with any number of inputs but one, the output at each position is made of what the inputs delivered for that position, one after another with
clipping; an input without data counts as silence. -/
theorem C40_mix (hz : ZeroLaw add) (hf : Fills rd) {m m' : Mx σ} {bs : List (List S)} {fs : List Frame} (hm : 0 < m.maxRead) (h1 : m.readers.length ≠ 1)
    (h : reads add rd m bs = .ok (m', fs)) :
    ∃ ns : List Nat, ns.sum = total bs ∧ (∀ k ∈ ns, 0 < k ∧ k ≤ m.maxRead) ∧ (samplesOf fs).length = total bs ∧
      ∀ k, k < total bs → (samplesOf fs)[k]? = some (mixAt add (m.readers.map fun s => (deliver rd ns s).1) k) := by
  obtain ⟨ns, q1, q2, _, q4⟩ := reads_spec hz hf bs m m' fs hm h1 h
  refine ⟨ns, q1, q2, by rw [q4, mixed_length], fun k hk => ?_⟩
  rw [q4]
  unfold mixed
  rw [List.getElem?_map, List.getElem?_range hk]
  rfl

theorem fold_none (cols : List (List S)) (k : Nat) (x : S) (hx : LegalN x) : LegalN (cols.foldl (fun a c => mixOne add a (c.getD k (some 0))) x) := by
  induction cols generalizing x with
  | nil => exact hx
  | cons c cols ih => exact ih _ (mixOne_legal _ _ _)

theorem fold_some (cols : List (List S)) (k : Nat) (x : S) (hx : x ≠ none) (hc : ∀ c ∈ cols, c.getD k (some 0) ≠ none) :
    cols.foldl (fun a c => mixOne add a (c.getD k (some 0))) x ≠ none := by
  induction cols generalizing x with
  | nil => exact hx
  | cons c cols ih =>
    refine ih _ ?_ (fun c hc' => hc c (by simp [hc']))
    have := hc c (by simp)
    obtain ⟨a, ha⟩ := Option.ne_none_iff_exists'.1 hx
    obtain ⟨b, hb⟩ := Option.ne_none_iff_exists'.1 this
    show mixOne add x (c.getD k (some 0)) ≠ none
    rw [ha, hb]
    intro h
    cases h

/-- **C40**: with any number of inputs but one, output samples are legal, unless an input delivers NaN. No assumption about the addition but that silence is neutral. -/
theorem C40_range_partial (hz : ZeroLaw add) (hf : Fills rd) {m m' : Mx σ} {bs : List (List S)} {fs : List Frame} (hm : 0 < m.maxRead) (h1 : m.readers.length ≠ 1)
    (hnan : ∀ s ∈ m.readers, ∀ ns, ∀ x ∈ (deliver rd ns s).1, x ≠ none)
    (h : reads add rd m bs = .ok (m', fs)) : ∀ x ∈ samplesOf fs, Legal x := by
  intro x hx
  obtain ⟨ns, _, _, q3, q4⟩ := C40_mix hz hf hm h1 h
  obtain ⟨k, hk, rfl⟩ := List.mem_iff_getElem.1 hx
  have q := q4 k (by omega)
  rw [List.getElem?_eq_getElem hk] at q
  injection q with q
  rw [q]
  have hl : LegalN (mixAt add (m.readers.map fun s => (deliver rd ns s).1) k) := fold_none _ _ _ (fun q hq => by cases hq; constructor <;> linarith)
  have hs : mixAt add (m.readers.map fun s => (deliver rd ns s).1) k ≠ none := by
    refine fold_some _ _ _ (by simp) (fun c hc => ?_)
    obtain ⟨s, hs, rfl⟩ := List.mem_map.1 hc
    by_cases hkl : k < (deliver rd ns s).1.length
    · rw [List.getD_eq_getElem?_getD, List.getElem?_eq_getElem hkl]
      exact hnan s hs ns _ (List.getElem_mem hkl)
    · rw [List.getD_eq_getElem?_getD, List.getElem?_eq_none (by omega)]
      simp
  obtain ⟨q, hq⟩ := Option.ne_none_iff_exists'.1 hs
  exact ⟨q, hq, hl q hq⟩

theorem zeroLaw_exact : ZeroLaw (· + ·) := fun x _ _ => add_zero x

theorem fold_fits (cols : List (List S)) (k : Nat) : ∀ (qs : List Rat) (a : Rat), cols.map (fun c => c.getD k (some 0)) = qs.map some → Fits a qs →
    cols.foldl (fun a c => mixOne (· + ·) a (c.getD k (some 0))) (some a) = some (a + qs.sum) := by
  induction cols with
  | nil =>
    intro qs a h _
    cases qs with
    | nil => simp
    | cons q qs => cases h
  | cons c cols ih =>
    intro qs a h hfit
    cases qs with
    | nil => cases h
    | cons q qs =>
      rw [List.map_cons, List.map_cons] at h
      injection h with e1 e2
      obtain ⟨f1, f2, f3⟩ := hfit
      rw [List.foldl_cons, e1]
      have : mixOne (· + ·) (some a) (some q) = some (a + q) := clip_id f1 f2
      rw [this, ih qs (a + q) e2 f3, List.sum_cons, add_assoc]

/-- **C40**: where the sums of the first inputs, of the first two inputs, and so on are all legal, the output is the sum of the inputs (in exact arithmetic).
Missing for the full statement: only the total sum should have to be legal (see `C40_clip_fails`). -/
theorem C40_sum_partial (hf : Fills rd) {m m' : Mx σ} {bs : List (List S)} {fs : List Frame} (hm : 0 < m.maxRead) (h1 : m.readers.length ≠ 1)
    (h : reads (· + ·) rd m bs = .ok (m', fs)) :
    ∃ ns : List Nat, ns.sum = total bs ∧ ∀ k, k < total bs → ∀ qs : List Rat, m.readers.map (fun s => (deliver rd ns s).1.getD k (some 0)) = qs.map some → Fits 0 qs →
      (samplesOf fs)[k]? = some (some qs.sum) := by
  obtain ⟨ns, q1, _, _, q4⟩ := C40_mix zeroLaw_exact hf hm h1 h
  refine ⟨ns, q1, fun k hk qs hqs hfit => ?_⟩
  rw [q4 k hk]
  unfold mixAt
  rw [fold_fits _ k qs 0 (by rw [List.map_map]; exact hqs) hfit, zero_add]

/-- **C40**: if the inputs are streams, the output does not depend on the size of the temporary buffer and on how it is cut into frames. -/
theorem C40_chunks (hz : ZeroLaw add) (hf : Fills rd) {m1 m2 m1' m2' : Mx σ} {bs1 bs2 : List (List S)} {fs1 fs2 : List Frame}
    (hm1 : 0 < m1.maxRead) (hm2 : 0 < m2.maxRead) (hrd : m1.readers = m2.readers) (hlen : m1.readers.length ≠ 1)
    (hst : ∀ s ∈ m1.readers, ∃ x, IsStream rd s x) (htot : total bs1 = total bs2)
    (h1 : reads add rd m1 bs1 = .ok (m1', fs1)) (h2 : reads add rd m2 bs2 = .ok (m2', fs2)) : samplesOf fs1 = samplesOf fs2 := by
  obtain ⟨ns1, p1, _, _, p4⟩ := reads_spec hz hf bs1 m1 m1' fs1 hm1 hlen h1
  obtain ⟨ns2, q1, _, _, q4⟩ := reads_spec hz hf bs2 m2 m2' fs2 hm2 (by rw [← hrd]; exact hlen) h2
  rw [p4, q4, ← hrd, htot]
  congr 1
  apply List.map_congr_left
  intro s hs
  obtain ⟨x, hx⟩ := hst s hs
  rw [hx, hx, p1, q1, htot]

/-! ## Examples and failures -/

/-- The frames that are output. -/
def outs (add : Rat → Rat → Rat) (rd : Rd σ) (m : Mx σ) (bs : List (List S)) : Option (List Frame) := (reads add rd m bs).toOption.map (·.2)

theorem outs_some {m : Mx σ} {bs : List (List S)} {fs : List Frame} (h : outs add rd m bs = some fs) : ∃ m', reads add rd m bs = .ok (m', fs) := by
  unfold outs at h
  cases hr : reads add rd m bs with
  | error e => rw [hr] at h; cases h
  | ok r =>
    rw [hr] at h
    injection h with h
    exact ⟨r.1, by rw [← h]⟩

/-- A reader for examples: position, value, flags and timestamp; it gives the value at even positions and zero at odd ones. A value of 100 stands for a reader without data. -/
abbrev Ex := Nat × Rat × Nat × Int

def exRd : Rd Ex := fun s n =>
  (if s.2.1 = 100 then none else some ⟨(List.range n).map fun i => some (if (s.1 + i) % 2 = 0 then s.2.1 else 0), s.2.2.1, s.2.2.2⟩, (s.1 + n, s.2))

theorem exRd_fills : Fills exRd := by
  intro s n r h
  unfold exRd at h
  dsimp only at h
  split_ifs at h
  injection h with h
  rw [← h]
  simp

/-- A stream. -/
theorem exRd_stream (v : Rat) (hv : v ≠ 100) (fl : Nat) (ts : Int) (ns : List Nat) : ∀ p, deliver exRd ns (p, v, fl, ts) =
    ((List.range ns.sum).map fun i => some (if (p + i) % 2 = 0 then v else 0), (p + ns.sum, v, fl, ts)) := by
  induction ns with
  | nil => intro p; rfl
  | cons n ns ih =>
    intro p
    have e : exRd (p, v, fl, ts) n = (some ⟨(List.range n).map fun i => some (if (p + i) % 2 = 0 then v else 0), fl, ts⟩, (p + n, v, fl, ts)) := by
      unfold exRd
      dsimp only
      rw [if_neg hv]
    unfold deliver
    rw [e, ih, List.sum_cons, List.range_add, List.map_append, List.map_map, ← Nat.add_assoc]
    refine Prod.ext ?_ rfl
    dsimp only
    congr 1
    apply List.map_congr_left
    intro i _
    show some _ = some _
    rw [show p + n + i = p + (n + i) by omega]

/-- The hypotheses of `C40_mix`, `C40_sum_partial` and `C40_chunks` hold of two streams; cut into frames of 3 and 2 samples with a temporary buffer of 2 samples,
and into one frame of 5 samples with a buffer of 10. -/
example : Fills exRd ∧ (∀ s ∈ ([(0, 1/2, 0, 0), (1, -1/4, 0, 0)] : List Ex), ∃ x, IsStream exRd s x) ∧
    (∃ m', reads (· + ·) exRd ⟨[(0, 1/2, 0, 0), (1, -1/4, 0, 0)], 2, 1, true⟩ [[none, none, none], [none, none]] =
      .ok (m', [⟨[some (1/2), some (-1/4), some (1/2)], 0, 3, 0⟩, ⟨[some (-1/4), some (1/2)], 0, 2, 0⟩])) ∧
    (∃ m', reads (· + ·) exRd ⟨[(0, 1/2, 0, 0), (1, -1/4, 0, 0)], 10, 1, true⟩ [[none, none, none, none, none]] =
      .ok (m', [⟨[some (1/2), some (-1/4), some (1/2), some (-1/4), some (1/2)], 0, 5, 0⟩])) := by
  refine ⟨exRd_fills, ?_, ?_, ?_⟩
  · intro s hs
    rcases List.mem_cons.1 hs with rfl | hs
    · exact ⟨_, fun ns => by rw [exRd_stream _ (by norm_num)]⟩
    · rw [List.mem_singleton] at hs
      subst hs
      exact ⟨_, fun ns => by rw [exRd_stream _ (by norm_num)]⟩
  · exact outs_some (by decide +kernel)
  · exact outs_some (by decide +kernel)

/-- The condition of `C40_sum_partial` on the samples. -/
example : Fits 0 [1/2, -1/4, 3/4] := ⟨by norm_num, by norm_num, by norm_num, by norm_num, by norm_num, by norm_num, trivial⟩

/-- The hypotheses of `C40_range_partial`. -/
example : ∀ s ∈ ([(0, 3, 0, 0), (1, -7, 0, 0)] : List Ex), ∀ ns, ∀ x ∈ (deliver exRd ns s).1, x ≠ none := by
  intro s hs ns x hx
  rcases List.mem_cons.1 hs with rfl | hs
  · rw [exRd_stream _ (by norm_num)] at hx
    obtain ⟨i, _, rfl⟩ := List.mem_map.1 hx
    simp
  · rw [List.mem_singleton] at hs
    subst hs
    rw [exRd_stream _ (by norm_num)] at hx
    obtain ⟨i, _, rfl⟩ := List.mem_map.1 hx
    simp

/-- **C40** fails: clipping after each addition instead of after the sum. Inputs 1, 1, -1 have the legal sum 1, but the output is 0; and in another order it is 1. -/
theorem C40_clip_fails :
    (∃ m', reads (· + ·) exRd ⟨[(0, 1, 0, 0), (0, 1, 0, 0), (0, -1, 0, 0)], 10, 1, true⟩ [[none]] = .ok (m', [⟨[some 0], 0, 1, 0⟩])) ∧
    (∃ m', reads (· + ·) exRd ⟨[(0, 1, 0, 0), (0, -1, 0, 0), (0, 1, 0, 0)], 10, 1, true⟩ [[none]] = .ok (m', [⟨[some 1], 0, 1, 0⟩])) ∧
    (1 : Rat) + 1 + -1 = 1 :=
  ⟨outs_some (by decide +kernel), outs_some (by decide +kernel), by norm_num⟩

/-- **C40** fails with a single input: samples are not clipped, and when the input has no data, what was in the buffer before is output instead of silence. -/
theorem C40_single_fails :
    (∃ m', reads (· + ·) exRd ⟨[(0, 3, 0, 0)], 10, 1, true⟩ [[none]] = .ok (m', [⟨[some 3], 0, 1, 0⟩])) ∧
    (∀ b : List S, b ≠ [] → ∃ m' f, reads (· + ·) exRd ⟨[(0, 100, 0, 0)], 10, 1, true⟩ [b] = .ok (m', [f]) ∧ f.samples = b) := by
  refine ⟨outs_some (by decide +kernel), fun b hb => ?_⟩
  have hl : b.length / 1 ≠ 0 := by
    rw [Nat.div_one]
    intro h
    exact hb (List.length_eq_zero_iff.1 h)
  have e : exRd ((0, 100, 0, 0) : Ex) b.length = (none, (b.length, 100, 0, 0)) := by
    unfold exRd
    dsimp only
    rw [if_pos rfl, Nat.zero_add]
  refine ⟨⟨[(b.length, 100, 0, 0)], 10, 1, true⟩, ⟨b, 0, b.length / 1, 0⟩, ?_, rfl⟩
  unfold reads read
  dsimp only
  rw [e]
  dsimp only
  unfold Frame.mk?
  rw [if_neg (by rintro (h | h) <;> [exact hl h; exact absurd h (by decide)])]
  rfl

/-! ## Capture timestamps and flags -/

/-- The readers' answers to one request. -/
def answers (rd : Rd σ) (n : Nat) (ss : List σ) : List (Option Resp) := ss.map fun s => (rd s n).1

theorem loop_meta (ss : List σ) (n : Nat) : ∀ a : Acc, (∀ s ∈ ss, ∃ r, (rd s n).1 = some r ∧ 0 < r.cts) → (a.base = 0 → a.sum = 0 ∧ a.count = 0) → 0 ≤ a.base →
    let b := (loop add rd true n ss a).2
    b.count = a.count + ss.length ∧
    (b.base : Rat) * (b.count : Rat) + (b.sum : Rat) = (a.base : Rat) * (a.count : Rat) + (a.sum : Rat) + (ss.map fun s => (((rd s n).1.map (·.cts)).getD 0 : Rat)).sum := by
  induction ss with
  | nil => intro a _ _ _; exact ⟨rfl, by simp [loop]⟩
  | cons s ss ih =>
    intro a hs ha hb
    obtain ⟨r, hr, hc⟩ := hs s (by simp)
    have e : (loop add rd true n (s :: ss) a).2 = (loop add rd true n ss (a.frame add true r)).2 := by
      show (loop add rd true n ss (match (rd s n).1 with | none => a | some x => a.frame add true x)).2 = _
      rw [hr]
    have hc0 : r.cts ≠ 0 := by omega
    obtain ⟨f1, f2, f3⟩ : (a.frame add true r).base = (if a.base = 0 then r.cts else a.base) ∧ (a.frame add true r).sum = a.sum + (r.cts - (if a.base = 0 then r.cts else a.base)) ∧
        (a.frame add true r).count = a.count + 1 := by
      refine ⟨?_, ?_, ?_⟩
      · show (if true = true ∧ r.cts ≠ 0 ∧ a.base = 0 then r.cts else a.base) = _
        by_cases h : a.base = 0
        · rw [if_pos ⟨rfl, hc0, h⟩, if_pos h]
        · rw [if_neg (fun k => h k.2.2), if_neg h]
      · show (if true = true ∧ r.cts ≠ 0 then _ else _) = _
        rw [if_pos ⟨rfl, hc0⟩]
      · show (if true = true ∧ r.cts ≠ 0 then _ else _) = _
        rw [if_pos ⟨rfl, hc0⟩]
    obtain ⟨q1, q2⟩ := ih (a.frame add true r) (fun t ht => hs t (by simp [ht]))
      (by
        intro h
        rw [f1] at h
        split_ifs at h with h0
        · exact absurd h hc0
        · exact absurd h h0)
      (by rw [f1]; split_ifs <;> omega)
    dsimp only
    rw [e]
    refine ⟨by rw [q1, f3, List.length_cons]; omega, ?_⟩
    rw [q2, f1, f2, f3, List.map_cons, List.sum_cons, hr]
    show _ = _ + (((r.cts : Int) : Rat) + _)
    by_cases h : a.base = 0
    · obtain ⟨h1, h2⟩ := ha h
      rw [if_pos h, h1, h2, h]
      push_cast
      ring
    · rw [if_neg h]
      push_cast
      ring

theorem loop_flags (ss : List σ) (n : Nat) (ts : Bool) : ∀ a : Acc, (loop add rd ts n ss a).2.flags = ss.foldl (fun x s => x ||| ((rd s n).1.map (·.flags)).getD 0) a.flags := by
  induction ss with
  | nil => intro a; rfl
  | cons s ss ih =>
    intro a
    show (loop add rd ts n ss _).2.flags = _
    rw [ih, List.foldl_cons]
    rcases Option.eq_none_or_eq_some (rd s n).1 with h | ⟨r, h⟩
    · rw [h]; simp
    · rw [h]; rfl

theorem sum_cts_nonneg {g : σ → Rat} (ss : List σ) (h : ∀ s ∈ ss, 0 ≤ g s) : 0 ≤ (ss.map g).sum := by
  induction ss with
  | nil => simp
  | cons s ss ih =>
    rw [List.map_cons, List.sum_cons]
    exact add_nonneg (h s (by simp)) (ih fun t ht => h t (by simp [ht]))

/-- **C64**: if the frame fits in the temporary buffer and all inputs (at least two) deliver frames with capture timestamps, the output gets the average of these timestamps,
rounded down; and the flags of all inputs. Missing for the full statement: inputs without timestamps, and larger frames (see `C64_missing_fails` and `C64_large_fails`).
The arithmetic is exact here; `double` adds a relative error of 2⁻⁵³. -/
theorem C64_average_partial {m m' : Mx σ} {b : List S} {f : Frame} (hts : m.ts = true) (h2 : 2 ≤ m.readers.length) (hb : b.length ≤ m.maxRead) (hb0 : b ≠ [])
    (hr : ∀ s ∈ m.readers, ∃ r, (rd s b.length).1 = some r ∧ 0 < r.cts) (h : reads add rd m [b] = .ok (m', [f])) :
    (f.cts : Rat) ≤ (m.readers.map fun s => (((rd s b.length).1.map (·.cts)).getD 0 : Rat)).sum / m.readers.length ∧
    (m.readers.map fun s => (((rd s b.length).1.map (·.cts)).getD 0 : Rat)).sum / m.readers.length < f.cts + 1 ∧
    f.flags = m.readers.foldl (fun x s => x ||| ((rd s b.length).1.map (·.flags)).getD 0) 0 := by
  have hl : b.length ≠ 0 := fun k => hb0 (List.length_eq_zero_iff.1 k)
  have h : ((Frame.mk? (chunkLoop add rd b.length m b.length 0 0).2.1 (chunkLoop add rd b.length m b.length 0 0).2.2.1
      (b.length / m.chans) (chunkLoop add rd b.length m b.length 0 0).2.2.2).map fun g => ((chunkLoop add rd b.length m b.length 0 0).1, g)).bind
        (fun r => (reads add rd r.1 []).map fun q => (q.1, r.2 :: q.2)) = .ok (m', [f]) := by
    have h : (read add rd m ⟨b, 0, 0, 0⟩).bind (fun r => (reads add rd r.1 []).map fun q => (q.1, r.2 :: q.2)) = .ok (m', [f]) := h
    rw [read_multi (by omega)] at h
    exact h
  have e : (chunkLoop add rd b.length m b.length 0 0).2.2 = (read_ add rd m b.length 0 0).2.2 := by
    obtain ⟨n, hn⟩ := Nat.exists_eq_succ_of_ne_zero hl
    have : chunkLoop add rd b.length m b.length 0 0 = chunkLoop add rd (n + 1) m b.length 0 0 := by rw [hn]
    rw [this]
    show (if b.length = 0 then _ else _ : Mx σ × List S × Nat × Int).2.2 = _
    rw [if_neg hl]
    have hk : (if b.length > m.maxRead then m.maxRead else b.length) = b.length := if_neg (by omega)
    rw [hk]
    show (chunkLoop add rd n _ (b.length - b.length) _ _).2.2 = _
    rw [Nat.sub_self]
    cases n with
    | zero => rfl
    | succ n => rfl
  cases hk : Frame.mk? (chunkLoop add rd b.length m b.length 0 0).2.1 (chunkLoop add rd b.length m b.length 0 0).2.2.1
      (b.length / m.chans) (chunkLoop add rd b.length m b.length 0 0).2.2.2 with
  | error e => rw [hk] at h; cases h
  | ok g =>
    rw [hk] at h
    have hg : g = f := by
      injection h with h
      injection h with _ h
      injection h with h _
    subst hg
    obtain ⟨hf, _, hpos⟩ := mk?_ok hk
    have hcts : g.cts = (read_ add rd m b.length 0 0).2.2.2 := by rw [hf, ← e]
    have hfl : g.flags = (read_ add rd m b.length 0 0).2.2.1 := by rw [hf, ← e]
    obtain ⟨L, hL⟩ : ∃ L, L = loop add rd m.ts b.length m.readers ⟨List.replicate b.length (some 0), 0, 0, 0, 0⟩ := ⟨_, rfl⟩
    have hm := loop_meta (add := add) (rd := rd) m.readers b.length ⟨List.replicate b.length (some 0), 0, 0, 0, 0⟩ hr (fun _ => ⟨rfl, rfl⟩) (Int.le_refl _)
    dsimp only at hm
    rw [← hts, ← hL] at hm
    obtain ⟨m1, m2⟩ := hm
    rw [Nat.zero_add] at m1
    have hcts2 : g.cts = trunc ((L.2.base : Rat) * ((L.2.count : Rat) / (m.readers.length : Rat)) + (L.2.sum : Rat) / (m.readers.length : Rat)) := by
      rw [hcts, hL]
      show (if _ then _ else _) = _
      rw [if_pos (by rw [← hL, m1]; omega)]
    have hn : (m.readers.length : Rat) ≠ 0 := by
      have : (0 : Rat) < (m.readers.length : Rat) := by exact_mod_cast (by omega : 0 < m.readers.length)
      exact ne_of_gt this
    have hval : (L.2.base : Rat) * ((L.2.count : Rat) / (m.readers.length : Rat)) + (L.2.sum : Rat) / (m.readers.length : Rat) =
        (m.readers.map fun s => (((rd s b.length).1.map (·.cts)).getD 0 : Rat)).sum / m.readers.length := by
      have : (L.2.base : Rat) * ((L.2.count : Rat) / (m.readers.length : Rat)) + (L.2.sum : Rat) / (m.readers.length : Rat) =
        ((L.2.base : Rat) * (L.2.count : Rat) + (L.2.sum : Rat)) / m.readers.length := by
        rw [add_div, mul_div_assoc]
      rw [this, m2]
      congr 1
      push_cast
      ring
    rw [hval] at hcts2
    have hnn : 0 ≤ (m.readers.map fun s => (((rd s b.length).1.map (·.cts)).getD 0 : Rat)).sum / m.readers.length := by
      apply div_nonneg
      · exact sum_cts_nonneg _ (fun s hs => by
          obtain ⟨r, hr, hc⟩ := hr s hs
          rw [hr]
          show (0 : Rat) ≤ ((r.cts : Int) : Rat)
          exact_mod_cast hc.le)
      · exact_mod_cast Nat.zero_le _
    have hfloor : g.cts = ⌊(m.readers.map fun s => (((rd s b.length).1.map (·.cts)).getD 0 : Rat)).sum / m.readers.length⌋ := by
      rw [hcts2]
      unfold trunc
      rw [if_pos hnn]
    refine ⟨?_, ?_, ?_⟩
    · rw [hfloor]; exact Int.floor_le _
    · rw [hfloor]; exact Int.lt_floor_add_one _
    · rw [hfl]
      exact loop_flags m.readers b.length m.ts _

/-- The hypotheses of `C64_average_partial`. -/
example : ∃ m', reads (· + ·) exRd ⟨[(0, 1/2, 2, 1700000000000000000), (0, 1/4, 4, 1700000000000000100)], 10, 1, true⟩ [[none, none]] =
    .ok (m', [⟨[some (3/4), some 0], 6, 2, 1700000000000000050⟩]) := outs_some (by decide +kernel)

/-- **C64** fails when an input has no timestamp (yet): its missing timestamp counts as zero, and the output timestamp is half of the right one. -/
theorem C64_missing_fails : ∃ m', reads (· + ·) exRd ⟨[(0, 1/2, 2, 1700000000000000000), (0, 1/4, 2, 0)], 10, 1, true⟩ [[none]] =
    .ok (m', [⟨[some (3/4)], 2, 1, 850000000000000000⟩]) := outs_some (by decide +kernel)

/-- A reader whose timestamps advance by 1000 for each sample. -/
def advRd : Rd Int := fun t n => (some ⟨List.replicate n (some 0), 2, t⟩, t + 1000 * n)

/-- **C64** fails for a frame larger than the temporary buffer: the timestamp is that of the last part, not of the first sample. -/
theorem C64_large_fails : ∃ m', reads (· + ·) advRd ⟨[1700000000000000000, 1700000000000000000], 2, 1, true⟩ [[none, none, none, none]] =
    .ok (m', [⟨[some 0, some 0, some 0, some 0], 2, 4, 1700000000000002000⟩]) := outs_some (by decide +kernel)

end Verif.Mixer
