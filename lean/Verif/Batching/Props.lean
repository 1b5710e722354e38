import Verif.Batching.Lemmas

/-!
# Mapping of frames in batches: properties C81, C82

A frame of any size is converted through a temporary buffer of any size that holds at least one
sample per channel. The result does not depend on the size of that buffer.
-/

namespace Verif.Batching

open Verif.ChannelSet Verif.ChannelMapper Verif.PcmFormat Verif.PcmCoder Spec

variable {α : Type}

/-! ## C81: channel mapper reader and writer -/

/-- Reading through a channel mapper gives the mapping of the whole block of samples of the stream
at once, with the flags and the capture timestamp with which the reader below would deliver the
whole block, and it fails only if that would fail. The size of the temporary buffer does not
matter. -/
theorem C81_read (ar : Arith α) {cin cout : CSet} (hin : Reach cin) (hout : Reach cout)
    (hvi : cin.isValid = true) (hvo : cout.isValid = true) (s : Source α) (hreg : Regular s)
    (hsane : Sane s) (buf : Nat) (hbuf : cin.chans.card ≤ buf) (p n : Nat) (out : List α) (hn : 0 < n)
    (hn32 : n < 2 ^ 32) (hlen : out.length = n * cout.chans.card) :
    ∃ res, ChannelMapper.map ar cin cout
        ((List.range (n * cin.chans.card)).map fun j => s.sample (p + j)) out = some res ∧
      crRead ar cin cout buf s p out
        = .ok ((s.info p (n * cin.chans.card)).map fun x => (⟨res, x.1, x.2⟩, n)) := by
  obtain ⟨hni, hpi⟩ := valid_card hin hvi
  obtain ⟨hno, hpo⟩ := valid_card hout hvo
  obtain ⟨row, r1, r2, r3⟩ := map_rows ar hin hout hvi hvo
  refine ⟨rows row cin.chans.card s.sample p n, ?_, ?_⟩
  · have := r3 n (s.block p (n * cin.chans.card)) out (block_length _ _ _) hlen
    rw [rows_of_get row _ r1 s.sample p n _ (fun j hj => block_get s p _ j hj)] at this
    exact this
  · unfold crRead
    rw [hni, hno, hlen, if_neg (by rw [Nat.mul_mod_left]; omega), Nat.mul_div_left _ hpo,
      crLoop_spec ar hin hout hvi hvo s hreg hsane row r1 r2 r3 _ (Nat.div_pos hbuf hpi) n n p 0 true
        ⟨out, 0, 0⟩ le_rfl hn (by simp [hlen])]
    simp only [Except.bind]
    cases hi : s.info p (n * cin.chans.card) with
    | none => simp only [Option.map_none]
    | some x =>
      simp only [Option.map_some, List.take_zero, List.nil_append, Nat.zero_or, if_true]
      unfold setDuration
      rw [Nat.mod_eq_of_lt (show n < m32 by unfold m32; omega), if_neg (by omega)]
      rfl

/-- A stream of numbers that ends after 100 samples and has a flag on sample 5, with stereo to mono,
and a buffer for one sample per channel: three samples per channel from position 2. -/
example : ∃ (s : Source Nat) (cin cout : CSet), Regular s ∧ Sane s ∧ Reach cin ∧ Reach cout ∧
    cin.isValid = true ∧ cout.isValid = true ∧ cin.chans.card = 2 ∧ cout.chans.card = 1 ∧
    s.info 2 6 = some (4, 2) ∧
    crRead ⟨0, fun _ _ s x => s + x, id⟩ cin cout 3 s 2 [0, 0, 0]
      = .ok (some (⟨[2 + 3, 4 + 5, 6 + 7], 4, 2⟩, 3)) := by
  refine ⟨⟨fun j => j, fun p n => if p + n ≤ 100 then
      some (if p ≤ 5 ∧ 5 < p + n then 4 else 0, (p : Int)) else none⟩,
    (CSet.make .surround .smpte 0x11).getD CSet.empty, (CSet.make .surround .smpte 4).getD CSet.empty,
    ?_, ?_, .make (l := .surround) (o := .smpte) (m := 0x11) rfl,
    .make (l := .surround) (o := .smpte) (m := 4) rfl, by decide +kernel, by decide +kernel,
    by decide +kernel, by decide +kernel, by decide +kernel, by decide +kernel⟩
  · intro p a b ha hb
    have hor : ((if p ≤ 5 ∧ 5 < p + a then 4 else 0) |||
        (if p + a ≤ 5 ∧ 5 < p + a + b then 4 else 0) : Nat)
        = if p ≤ 5 ∧ 5 < p + (a + b) then 4 else 0 := by
      by_cases h1 : p ≤ 5 ∧ 5 < p + a
      · rw [if_pos h1, if_neg (by omega), if_pos (by omega)]
        rfl
      · rw [if_neg h1]
        by_cases h2 : p + a ≤ 5 ∧ 5 < p + a + b
        · rw [if_pos h2, if_pos (by omega)]
          rfl
        · rw [if_neg h2, if_neg (by omega)]
          rfl
    show (if p + (a + b) ≤ 100 then _ else _) = (if p + a ≤ 100 then _ else _ : Option _).bind _
    rw [← hor]
    obtain ⟨x, hx⟩ : ∃ x, x = (if p ≤ 5 ∧ 5 < p + a then 4 else 0 : Nat) := ⟨_, rfl⟩
    obtain ⟨y, hy⟩ : ∃ y, y = (if p + a ≤ 5 ∧ 5 < p + a + b then 4 else 0 : Nat) := ⟨_, rfl⟩
    simp only [← hx, ← hy]
    by_cases h : p + (a + b) ≤ 100
    · rw [if_pos h, if_pos (show p + a ≤ 100 by omega)]
      simp only [Option.bind_some]
      rw [if_pos (show p + a + b ≤ 100 by omega)]
      rfl
    · rw [if_neg h]
      by_cases h1 : p + a ≤ 100
      · rw [if_pos h1]
        simp only [Option.bind_some]
        rw [if_neg (show ¬ p + a + b ≤ 100 by omega)]
        rfl
      · rw [if_neg h1]
        rfl
  · intro p n x hx
    simp only at hx
    by_cases h : p + n ≤ 100
    · rw [if_pos h] at hx
      obtain rfl := Option.some.inj hx
      refine ⟨?_, by simp⟩
      simp only
      split_ifs <;> rfl
    · rw [if_neg h] at hx
      exact absurd hx (by simp)

/-- Writing a frame through a channel mapper passes on the mapping of the whole frame, in frames that
fit into the temporary buffer, with the flags of the frame; durations add up to the duration of the
frame. -/
theorem C81_write (ar : Arith α) {cin cout : CSet} (hin : Reach cin) (hout : Reach cout)
    (hvi : cin.isValid = true) (hvo : cout.isValid = true) (junk : α) (rate : Nat) (r1 : 1 ≤ rate)
    (r2 : rate ≤ 2 ^ 24) (buf : Nat) (hbuf : cout.chans.card ≤ buf) (n : Nat) (inp : List α)
    (hn32 : n < 2 ^ 32) (hlen : inp.length = n * cin.chans.card)
    (hlong : (n : ℚ) / rate * 1000000000 ≤ 2 ^ 61) (flags : Nat) (hraw : flags % 2 = 0) (cts : Int)
    (hc : 0 ≤ cts) :
    ∃ fs, cwWrite ar cin cout junk rate buf inp flags cts = .ok fs ∧
      (∀ out : List α, out.length = n * cout.chans.card →
        ChannelMapper.map ar cin cout inp out = some (fs.flatMap WFrame.samples)) ∧
      (fs.map WFrame.dur).sum = n ∧
      (∀ f ∈ fs, f.flags = flags ∧ f.samples.length = f.dur * cout.chans.card ∧ 0 < f.dur ∧
        f.samples.length ≤ buf) ∧
      (cts = 0 → ∀ f ∈ fs, f.cts = 0) ∧
      (cts ≠ 0 → ∀ j f, fs[j]? = some f →
        |(f.cts : ℚ) - (cts + (((fs.take j).map WFrame.dur).sum : ℚ) / rate * 1000000000)|
          ≤ (((fs.take j).map WFrame.dur).sum : ℚ) / rate * 1000000000 / 2 ^ 22 + j / 2) := by
  obtain ⟨hni, hpi⟩ := valid_card hin hvi
  obtain ⟨hno, hpo⟩ := valid_card hout hvo
  obtain ⟨row, w1, w2, w3⟩ := map_rows ar hin hout hvi hvo
  obtain ⟨fs, g1, g2, g3, g4, g5⟩ := cwLoop_spec ar hin hout hvi hvo row w1 w2 w3 junk rate r1 r2
    (buf / cout.chans.card) (Nat.div_pos hbuf hpo) flags (fun j => (inp[j]?).getD junk) n n 0 inp cts
    le_rfl hn32 hc hlong hlen (by
      intro j hj
      rw [Nat.zero_add, List.getElem?_eq_getElem hj]
      rfl)
  refine ⟨fs, ?_, ?_, g3, ?_, ?_, ?_⟩
  · unfold cwWrite
    rw [hni, hno, hasNotRaw_even flags hraw, hlen, if_neg (by simp),
      if_neg (by rw [Nat.mul_mod_left]; omega), Nat.mul_div_left _ hpi]
    exact g1
  · intro out ho
    rw [w3 n inp out hlen ho, g2]
    refine congrArg some (rows_of_get row _ w1 _ 0 n _ ?_)
    intro j hj
    rw [← hlen] at hj
    rw [Nat.zero_add, List.getElem?_eq_getElem hj]
    rfl
  · intro f hf
    obtain ⟨a1, a2, a3, a4⟩ := g4 f hf
    refine ⟨a1, a2, a3, ?_⟩
    rw [a2]
    exact (Nat.le_div_iff_mul_le hpo).1 a4
  · intro h0
    rw [h0] at g5
    exact ctsOk_zero rate fs g5
  · intro h0
    refine ctsOk_error rate r1 r2 fs cts (by omega) g5 ?_
    rw [g3]
    exact hlong

/-- Three stereo samples become mono through a buffer for two samples, so two frames are written. -/
example : ∃ (cin cout : CSet), Reach cin ∧ Reach cout ∧
    cin.isValid = true ∧ cout.isValid = true ∧ cin.chans.card = 2 ∧ cout.chans.card = 1 ∧
    cwWrite ⟨0, fun _ _ s x => s + x, id⟩ cin cout 99 48000 2 [1, 2, 3, 4, 5, 6] 4 0
      = .ok [⟨[3, 7], 4, 2, 0⟩, ⟨[11], 4, 1, 0⟩] := by
  refine ⟨(CSet.make .surround .smpte 0x11).getD CSet.empty,
    (CSet.make .surround .smpte 4).getD CSet.empty, .make (l := .surround) (o := .smpte) (m := 0x11) rfl,
    .make (l := .surround) (o := .smpte) (m := 4) rfl, by decide +kernel, by decide +kernel,
    by decide +kernel, by decide +kernel, by decide +kernel⟩

/-- It is false that a frame can be read through any temporary buffer: if the buffer is smaller than
one sample for all channels, and the reader below accepts empty frames, the loop never ends. -/
theorem C81_small_buffer_read_fails (ar : Arith α) {cin cout : CSet} (hin : Reach cin)
    (hout : Reach cout) (hvi : cin.isValid = true) (hvo : cout.isValid = true) (s : Source α)
    (hsane : Sane s) (buf : Nat) (hbuf : buf < cin.chans.card) (p n : Nat) (hn : 0 < n)
    (hinfo : (s.info p 0).isSome) (st : RSt α) (first : Bool) :
    ∀ repetitions, crLoop ar cin cout s (buf / cin.chans.card) repetitions n p 0 first st
      = .error .hang := by
  obtain ⟨hni, hpi⟩ := valid_card hin hvi
  obtain ⟨hno, hpo⟩ := valid_card hout hvo
  obtain ⟨row, w1, w2, w3⟩ := map_rows ar hin hout hvi hvo
  obtain ⟨x, hx⟩ := Option.isSome_iff_exists.1 hinfo
  obtain ⟨fl, cts⟩ := x
  obtain ⟨e1, e2⟩ := hsane _ _ _ hx
  simp only at e1 e2
  intro fuel
  induction fuel generalizing st first with
  | zero =>
    unfold crLoop
    rw [if_neg (by omega)]
  | succ fuel ih =>
    unfold crLoop
    rw [if_neg (by omega), Nat.div_eq_of_lt hbuf, Nat.min_zero]
    unfold crBatch
    rw [Nat.zero_mul, Nat.zero_mul, hx]
    simp only [hasNotRaw_even fl e1, Bool.false_eq_true, if_false]
    rw [w3 0 _ _ (by rw [block_length, Nat.zero_mul]) (by simp)]
    simp only
    rw [if_neg (by omega)]
    simp only [Except.bind, Nat.sub_zero, Nat.add_zero]
    have := ih ⟨st.out.take 0 ++ ((List.range 0).flatMap fun ns => row fun j =>
        (s.block p 0)[ns * cin.chans.card + j]?) ++ st.out.drop 0, st.flags ||| fl,
      if first then cts else st.cts⟩ false
    rw [Nat.div_eq_of_lt hbuf] at this
    exact this

/-- Eight channels and a buffer for four samples. -/
example : ∃ cin : CSet, Reach cin ∧ cin.isValid = true ∧ 4 < cin.chans.card :=
  ⟨(CSet.make .multitrack .none 255).getD CSet.empty, .make (l := .multitrack) (o := .none) (m := 255) rfl,
    by decide +kernel, by decide +kernel⟩

/-- It is false that a frame can be written through any temporary buffer: if the buffer is smaller
than one sample for all channels, the first batch is empty, and the duration of zero aborts. -/
theorem C81_small_buffer_write_fails (ar : Arith α) {cin cout : CSet} (hin : Reach cin)
    (hout : Reach cout) (hvi : cin.isValid = true) (hvo : cout.isValid = true) (junk : α)
    (rate buf : Nat) (hbuf : buf < cout.chans.card) (n : Nat) (hn : 0 < n) (inp : List α)
    (hlen : inp.length = n * cin.chans.card) (flags : Nat) (cts : Int) :
    cwWrite ar cin cout junk rate buf inp flags cts = .error .panic := by
  obtain ⟨hni, hpi⟩ := valid_card hin hvi
  obtain ⟨hno, hpo⟩ := valid_card hout hvo
  obtain ⟨row, w1, w2, w3⟩ := map_rows ar hin hout hvi hvo
  unfold cwWrite
  rw [hni, hno, hlen, Nat.mul_div_left _ hpi, Nat.mul_mod_left]
  split_ifs with h1 h2
  · rfl
  · exact absurd rfl h2
  · obtain ⟨m, rfl⟩ : ∃ m, n = m + 1 := ⟨n - 1, by omega⟩
    unfold cwLoop
    rw [if_neg (by omega), Nat.div_eq_of_lt hbuf, Nat.min_zero]
    unfold cwBatch
    rw [Nat.zero_mul, Nat.zero_mul, w3 0 _ _ (by simp) (by simp)]
    simp only
    unfold mkFrame
    rw [if_pos (Nat.zero_mod _)]
    rfl

/-- It is false that an empty frame can be read through a channel mapper: it aborts, because
the duration of a frame cannot be set to zero. -/
theorem C81_empty_fails (ar : Arith α) (cin cout : CSet) (buf : Nat) (s : Source α) (p : Nat) :
    crRead ar cin cout buf s p [] = .error .panic := by
  unfold crRead
  rw [if_neg (by simp)]
  simp only [List.length_nil, Nat.zero_div]
  unfold crLoop
  rw [if_pos rfl]
  rfl

/-! ## C82: PCM mapper reader and writer -/

/-- Reading in an integer format from a reader of raw samples: the frame has the levels of the samples
of the stream one after another; trailing bytes that are not enough for a sample are not changed;
flags and capture timestamp are those with which the reader below would deliver the whole block,
and the frame is marked as not raw. The size of the temporary buffer does not matter. -/
theorem C82_read (o : Fmt) (ho : o.code ∈ codes) (ao : o.code.packed % 8 = 0) (nch : Nat)
    (hnch : 0 < nch) (s : Source Flt) (hreg : Regular s) (hsane : Sane s)
    (hx : ∀ j, PcmCoder.Spec.IsSample (s.sample j)) (buf : Nat) (hbuf : 4 * nch ≤ buf) (p : Nat)
    (out : List Nat) (n : Nat) (hn : n = out.length / (o.code.packed / 8) / nch) (hn0 : 0 < n)
    (hn32 : n < 2 ^ 32) :
    (s.info p (n * nch) = none → prRead o nch buf s p out = .ok none) ∧
    ∀ x, s.info p (n * nch) = some x →
      ∃ out', prRead o nch buf s p out = .ok (some (⟨out', x.1 ||| notRaw, x.2⟩, n)) ∧
        out'.length = out.length ∧
        (∀ q, n * nch * (o.code.packed / 8) ≤ q → out'[q]? = out[q]?) ∧
        ∀ j, j < n * nch →
          PcmCoder.Spec.levelAt o out' j = PcmCoder.Spec.quantize o.code.width (s.sample (p + j)) := by
  have hk0 := octets_pos o.code ho ao
  rw [← packed_octets o.code ao] at hn ⊢
  have hcnt : out.length * 8 / o.code.packed / nch = n := by
    have := room o.code ho ao out.length 0
    rw [Nat.mul_zero, Nat.sub_zero, Nat.sub_zero] at this
    rw [this, hn]
  have hmb : 0 < buf * 8 / 32 / nch := by
    refine Nat.div_pos ?_ hnch
    omega
  have hfit : n * nch * packedOctets o.code ≤ out.length := by
    have h1 : n * nch ≤ out.length / packedOctets o.code := by
      rw [hn]
      exact Nat.div_mul_le_self _ _
    exact le_trans (Nat.mul_le_mul_right _ h1) (Nat.div_mul_le_self _ _)
  obtain ⟨i1, i2⟩ := prLoop_spec o ho ao nch hnch s hreg hsane _ hmb n p hx n 0 ⟨out, 0, 0⟩ (by omega)
    hn0 hfit (by intro j hj; omega)
  simp only [Nat.zero_mul, Nat.mul_zero, Nat.add_zero, Nat.sub_zero] at i1 i2
  constructor
  · intro hnone
    unfold prRead
    rw [hcnt, i1 hnone]
    rfl
  · intro x hs
    obtain ⟨out', e1, e2, e3, e4⟩ := i2 x hs
    refine ⟨out', ?_, e2, e3, e4⟩
    unfold prRead
    rw [hcnt, e1]
    simp only [Except.bind, Nat.zero_or, if_true]
    unfold setDuration
    rw [Nat.mod_eq_of_lt (show n < m32 by unfold m32; omega), if_neg (by omega)]
    rfl

/-- Silence with a capture timestamp, in 16-bit stereo: a frame of 6 bytes has room for one
sample per channel. -/
example : ∃ (s : Source Flt), Regular s ∧ Sane s ∧ (∀ j, PcmCoder.Spec.IsSample (s.sample j)) ∧
    s.info 6 2 = some (4, 1000000) ∧
    (⟨true, 16, 16, 16⟩ : Code) ∈ codes ∧ (16 : Nat) % 8 = 0 ∧ 6 / (16 / 8) / 2 = 1 := by
  refine ⟨⟨fun _ => .num 0, fun _ _ => some (4, 1000000)⟩, ?_, ?_, fun _ => rnd_zero 24, rfl, by decide,
    by norm_num, by norm_num⟩
  · intro p a b _ _
    rfl
  · intro p n x hx
    obtain rfl := Option.some.inj hx
    exact ⟨rfl, by norm_num⟩

/-- Writing a frame in an integer format to a writer of raw samples: passes on the samples of the
frame in order, in frames that fit into the temporary buffer, with the flags of the frame but
marked as raw; durations add up to the duration of the frame. -/
theorem C82_write (i : Fmt) (hi : i.code ∈ codes) (ai : i.code.packed % 8 = 0) (nch : Nat)
    (hnch : 0 < nch) (b : List Nat) (hb : ∀ x ∈ b, x < 256) (rate : Nat) (r1 : 1 ≤ rate)
    (r2 : rate ≤ 2 ^ 24) (buf : Nat) (hbuf : 4 * nch ≤ buf) (n : Nat)
    (hn : n = b.length / (i.code.packed / 8) / nch) (hn32 : n < 2 ^ 32)
    (hlong : (n : ℚ) / rate * 1000000000 ≤ 2 ^ 61) (flags : Nat) (cts : Int) (hc : 0 ≤ cts) :
    ∃ fs, pwWrite i nch rate buf b flags cts = .ok fs ∧
      fs.flatMap WFrame.samples = PcmCoder.Spec.samples i b 0 (n * nch) ∧
      (fs.map WFrame.dur).sum = n ∧
      (∀ f ∈ fs, f.flags = flags / 2 * 2 ∧ f.samples.length = f.dur * nch ∧ 0 < f.dur ∧
        4 * f.samples.length ≤ buf) ∧
      (cts = 0 → ∀ f ∈ fs, f.cts = 0) ∧
      (cts ≠ 0 → ∀ j f, fs[j]? = some f →
        |(f.cts : ℚ) - (cts + (((fs.take j).map WFrame.dur).sum : ℚ) / rate * 1000000000)|
          ≤ (((fs.take j).map WFrame.dur).sum : ℚ) / rate * 1000000000 / 2 ^ 22 + j / 2) := by
  rw [← packed_octets i.code ai] at hn
  have hcnt : b.length * 8 / i.code.packed / nch = n := by
    have := room i.code hi ai b.length 0
    rw [Nat.mul_zero, Nat.sub_zero, Nat.sub_zero] at this
    rw [this, hn]
  have hmb : 0 < buf * 8 / 32 / nch := by
    refine Nat.div_pos ?_ hnch
    omega
  have hfit : n * nch * packedOctets i.code ≤ b.length := by
    have h1 : n * nch ≤ b.length / packedOctets i.code := by
      rw [hn]
      exact Nat.div_mul_le_self _ _
    exact le_trans (Nat.mul_le_mul_right _ h1) (Nat.div_mul_le_self _ _)
  obtain ⟨fs, g1, g2, g3, g4, g5⟩ := pwLoop_spec i hi ai nch hnch b hb rate r1 r2 _ hmb n
    (flags - (flags &&& notRaw)) hn32 hfit n 0 cts (by omega) (by omega) hc (by simpa using hlong)
  simp only [Nat.zero_mul, Nat.mul_zero, Nat.sub_zero] at g1 g2 g3
  refine ⟨fs, ?_, g2, g3, ?_, ?_, ?_⟩
  · unfold pwWrite
    rw [hcnt]
    exact g1
  · intro f hf
    obtain ⟨a1, a2, a3, a4⟩ := g4 f hf
    refine ⟨?_, a2, a3, ?_⟩
    · rw [a1, Nat.and_one_is_mod]
      omega
    · have := (Nat.le_div_iff_mul_le hnch).1 a4
      rw [a2]
      omega
  · intro h0
    rw [h0] at g5
    exact ctsOk_zero rate fs g5
  · intro h0
    refine ctsOk_error rate r1 r2 fs cts (by omega) g5 ?_
    rw [g3]
    exact hlong

/-- A frame of three 16-bit samples per channel, stereo, with a capture timestamp, at 44100. -/
example : (⟨true, 16, 16, 16⟩ : Code) ∈ codes ∧ 12 / (16 / 8) / 2 = 3 ∧
    (3 : ℚ) / 44100 * 1000000000 ≤ 2 ^ 61 := by
  refine ⟨by decide, by norm_num, by norm_num⟩

/-- It is false that a frame can be read through any temporary buffer: if the buffer is smaller than
one raw sample for all channels, and the reader below accepts empty frames, the loop never ends. -/
theorem C82_small_buffer_read_fails (o : Fmt) (ho : o.code ∈ codes) (ao : o.code.packed % 8 = 0)
    (nch : Nat) (s : Source Flt) (hsane : Sane s) (buf : Nat) (hbuf : buf < 4 * nch) (p cnt : Nat)
    (hcnt : 0 < cnt) (hinfo : (s.info p 0).isSome) (st : RSt Nat) :
    ∀ repetitions, prLoop o nch s (buf * 8 / 32 / nch) cnt repetitions p 0 0 st = .error .hang := by
  obtain ⟨x, hx⟩ := Option.isSome_iff_exists.1 hinfo
  obtain ⟨fl, cts⟩ := x
  obtain ⟨e1, e2⟩ := hsane _ _ _ hx
  simp only at e1 e2
  have hnch : 0 < nch := by omega
  have hpk : 0 < o.code.packed := by
    have := octets_pos o.code ho ao
    rw [packed_octets _ ao] at this
    omega
  have hz : buf * 8 / 32 / nch = 0 := by
    rw [Nat.div_eq_zero_iff]
    right
    omega
  have hcond : 0 < cnt * nch * o.code.packed := Nat.mul_pos (Nat.mul_pos hcnt hnch) hpk
  rw [hz]
  intro fuel
  induction fuel generalizing st with
  | zero =>
    unfold prLoop
    rw [if_neg (not_not.2 hcond)]
  | succ fuel ih =>
    unfold prLoop
    rw [if_neg (not_not.2 hcond), Nat.min_zero, Nat.zero_mul]
    simp only
    rw [hx]
    simp only
    obtain ⟨kk, b1, m1, m2, m3, m4, m6, m5⟩ := encMap_spec o ho ao (s.block p 0) st.out 0 (by
        simp [Source.block]) (by omega)
    have hkk : kk = 0 := by
      rw [m2, block_length]
      omega
    subst hkk
    rw [Nat.mul_zero] at m1
    rw [m1]
    simp only [ofMap, Except.bind]
    rw [if_neg (by omega)]
    simp only [Nat.add_zero, Nat.zero_mul, Nat.mul_zero]
    exact ih _

/-- Three channels and a buffer for two raw samples. -/
example : 8 < 4 * 3 := by norm_num

/-- It is false that a frame can be written through any temporary buffer: if the buffer is smaller
than one raw sample for all channels, the first batch is empty, and the duration of zero aborts. -/
theorem C82_small_buffer_write_fails (i : Fmt) (hi : i.code ∈ codes) (ai : i.code.packed % 8 = 0)
    (nch : Nat) (rate buf : Nat) (hbuf : buf < 4 * nch) (b : List Nat) (hb : ∀ x ∈ b, x < 256)
    (hn : 0 < b.length / (i.code.packed / 8) / nch) (flags : Nat) (cts : Int) :
    pwWrite i nch rate buf b flags cts = .error .panic := by
  have hk0 := octets_pos i.code hi ai
  have hnch : 0 < nch := by omega
  have hz : buf * 8 / 32 / nch = 0 := by
    rw [Nat.div_eq_zero_iff]
    right
    omega
  have hcnt : b.length * 8 / i.code.packed / nch = b.length / (i.code.packed / 8) / nch := by
    have := room i.code hi ai b.length 0
    rw [Nat.mul_zero, Nat.sub_zero, Nat.sub_zero] at this
    rw [this, packed_octets i.code ai]
  have hpk : 0 < i.code.packed := by
    rw [packed_octets _ ai] at hk0
    omega
  obtain ⟨n, hn'⟩ : ∃ n, b.length / (i.code.packed / 8) / nch = n + 1 :=
    ⟨b.length / (i.code.packed / 8) / nch - 1, by omega⟩
  unfold pwWrite
  rw [hcnt, hz, hn']
  unfold pwLoop
  rw [if_neg (not_not.2 (Nat.mul_pos (Nat.mul_pos (by omega) hnch) hpk)), Nat.min_zero, Nat.zero_mul]
  simp only
  have := decMap_spec i hi ai b hb 0 0 (by omega)
  simp only [Nat.zero_mul, Nat.mul_zero] at this
  rw [this]
  simp only [ofMap, Except.bind]
  unfold mkFrame
  rw [if_pos (Nat.zero_mod _)]

/-- A frame of one 16-bit sample for three channels, and a buffer for two raw samples. -/
example : 0 < 6 / (16 / 8) / 3 ∧ 8 < 4 * 3 := by norm_num

/-- It is false that an empty frame, or one too small for a sample of each channel, can be read
through a PCM mapper: it aborts, because the duration of a frame cannot be set to zero. -/
theorem C82_empty_fails (o : Fmt) (nch buf : Nat) (s : Source Flt) (p : Nat) (out : List Nat)
    (h : out.length * 8 / o.code.packed / nch = 0) :
    prRead o nch buf s p out = .error .panic := by
  unfold prRead
  rw [h]
  unfold prLoop
  rw [if_pos (by omega)]
  rfl

/-- Three bytes are not enough for a 16-bit stereo sample. -/
example : 3 * 8 / 16 / 2 = 0 := by norm_num

end Verif.Batching
