import Verif.BufSizes.Model
import Verif.SampleTime.Props

/-!
# C127: sizes of buffers
-/

namespace Verif.BufSizes

open FecCodec (Kind)
open RtpCodec (Out)
open PcmFormat (rnd rnd_zero)
open SampleTime

/-! ### Packets in buffers -/

/-- Size of a source packet with this payload: RTP header and payload id. -/
def sourceSize (s : Scheme) (payload : Nat) : Nat := 12 + payload + (if s = .none then 0 else 6)

theorem rtp_prepare (flags : BitVec 32) (hf : flags &&& RtpCodec.flagRTP = 0) (m : List Bytes.Byte) (len payload : Nat) :
    RtpCodec.prepare flags {} m ⟨0, len⟩ payload = if 12 + payload ≤ m.length then
      .ok (flags ||| RtpCodec.flagRTP, { header := some ⟨0, 12⟩, payload := some ⟨12, payload⟩ }, ⟨0, 12 + payload⟩) else .reject := by
  simp only [RtpCodec.prepare, RtpCodec.need, Bytes.Slice.subslice, Bytes.Slice.reslice, Bytes.Slice.capacity, RtpCodec.headerLen,
    RtpCodec.addFlags, hf, Nat.add_zero, Nat.sub_self, Nat.sub_zero, gt_iff_lt, Nat.lt_irrefl, Nat.not_lt_zero, if_false, ne_eq, not_true]
  by_cases h1 : m.length < 12
  · rw [if_pos h1, if_neg (by omega)]
  · rw [if_neg h1, if_neg h1]
    simp only [Nat.lt_irrefl, if_false, Nat.sub_self]
    by_cases h2 : m.length - 12 < payload
    · rw [if_pos h2, if_neg (by omega)]
    · rw [if_neg h2, if_neg h2]
      simp only []
      rw [if_neg (by omega), if_pos (by omega)]

theorem source_prepare (k : Kind) (hk : k.size = 6) (m : List Bytes.Byte) (len payload : Nat) :
    ((FecCodec.prepareSource k flagAudio {} {} m ⟨0, len⟩ payload).bind fun _ => Out.ok ()) =
      if 12 + payload + 6 ≤ m.length then .ok () else .reject := by
  have e : (⟨0, len⟩ : Bytes.Slice).subslice 0 0 = some ⟨0, 0⟩ := by simp [Bytes.Slice.subslice]
  have e2 : (⟨0, 0⟩ : Bytes.Slice).subslice 0 0 = some ⟨0, 0⟩ := by simp [Bytes.Slice.subslice]
  unfold FecCodec.prepareSource
  simp only [RtpCodec.need, e, e2]
  rw [rtp_prepare flagAudio (by decide), hk]
  by_cases h1 : 12 + payload ≤ m.length
  · rw [if_pos h1]
    simp only [RtpCodec.Out.bind, Bytes.Slice.subslice, Bytes.Slice.capacity, Bytes.Slice.reslice, Nat.lt_irrefl, gt_iff_lt, if_false, Nat.zero_add, Nat.sub_self]
    by_cases h2 : m.length - (12 + payload) < 6
    · rw [if_pos h2, if_neg (by omega)]
    · rw [if_neg h2, if_neg (by omega), if_neg h2]
      simp only [RtpCodec.addFlags]
      rw [if_neg (by decide)]
      simp only []
      rw [if_neg (by omega), if_neg (by omega), if_pos (by omega)]
  · rw [if_neg h1, if_neg (by omega)]
    rfl

/-- C127: a source packet can be created exactly if it fits in the buffer, otherwise an error is reported; never an abort. -/
theorem C127_source (s : Scheme) (buf payload : Nat) :
    makeSource s buf payload = if sourceSize s payload ≤ buf then .ok () else .reject := by
  have hl : (List.replicate buf (0 : Bytes.Byte)).length = buf := List.length_replicate
  cases s
  · simp only [makeSource, Scheme.source, sourceSize]
    rw [rtp_prepare flagAudio (by decide), hl]
    by_cases h : 12 + payload ≤ buf
    · rw [if_pos h, if_pos (by simpa using h)]
      rfl
    · rw [if_neg h, if_neg (by simpa using h)]
      rfl
  · simp only [makeSource, Scheme.source, sourceSize]
    rw [source_prepare .ldpcSource rfl, hl]
    rfl
  · simp only [makeSource, Scheme.source, sourceSize]
    rw [source_prepare .rs8m rfl, hl]
    rfl

/-- C127: a repair packet of either scheme needs 20 bytes more than the payload. With less than 8 bytes an error is reported; otherwise, if the buffer
is too small, the process aborts (`roc_fec/composer.h:84-90` does not compare the size of the payload with the capacity). -/
theorem C127_repair (s : Scheme) (k : Kind) (hs : s.repair = some k) (buf payload : Nat) :
    makeRepair k buf payload = if payload + 20 ≤ buf then .ok () else if 8 ≤ buf then .panic else .reject := by
  have hl : (List.replicate buf (0 : Bytes.Byte)).length = buf := List.length_replicate
  have hk : padAs k.size 8 + k.size = 8 ∧ padAs k.size 8 ≤ 2 ∧ k.size ≤ 8 := by
    cases s <;> simp only [Scheme.repair, Option.some.injEq, reduceCtorEq] at hs <;> subst hs <;> decide
  obtain ⟨pad, hp⟩ : ∃ p, p = padAs k.size 8 := ⟨_, rfl⟩
  unfold makeRepair FecCodec.prepareRepair
  rw [← hp] at hk ⊢
  by_cases h0 : buf < pad
  · rw [if_pos h0, if_neg (by omega), if_neg (by omega)]
  rw [if_neg h0]
  simp only [RtpCodec.need, Bytes.Slice.subslice, Bytes.Slice.reslice, Bytes.Slice.capacity, hl, Nat.add_zero, Nat.sub_self, Nat.sub_zero, gt_iff_lt, Nat.lt_irrefl,
    Nat.not_lt_zero, if_false]
  by_cases h1 : buf - pad < k.size
  · rw [if_pos h1, if_neg (by omega), if_neg (by omega)]
    rfl
  rw [if_neg h1, if_neg h1]
  simp only [Nat.lt_irrefl, if_false, Nat.sub_self]
  by_cases h2 : buf - (pad + k.size) < 12 + payload
  · rw [if_pos h2, if_neg (by omega), if_pos (by omega)]
    rfl
  rw [if_neg h2]
  simp only [RtpCodec.addFlags]
  rw [if_neg (by decide)]
  simp only []
  rw [if_neg (by decide)]
  simp only []
  rw [if_neg (by omega), if_pos (by omega)]
  rfl

/-- C127 fails for sizes of the buffer between those of source and repair packets: for each size of the payload there are sizes of the buffer for which
source packets are created and the first repair packet aborts the process. -/
theorem C127_repair_fails (s : Scheme) (k : Kind) (hs : s.repair = some k) (payload buf : Nat) (h : buf = payload + 18 ∨ buf = payload + 19) :
    makeSource s buf payload = .ok () ∧ makeRepair k buf payload = .panic := by
  have hn : s ≠ .none := by rintro rfl; cases hs
  rw [C127_source, C127_repair s k hs, sourceSize, if_neg hn, if_pos (by omega), if_neg (by omega), if_pos (by omega)]
  exact ⟨rfl, rfl⟩

example : Scheme.repair .rs8m = some .rs8m ∧ makeSource .rs8m 900 882 = .ok () ∧ makeRepair .rs8m 900 882 = .panic := by decide +kernel

/-! ### Durations -/

theorem rnd_le_pow (k : Nat) (x : ℚ) (h : x ≤ 2 ^ k) : rnd 24 x ≤ 2 ^ k := by
  have := rnd_mono 24 (by norm_num) x (2 ^ (k : Int)) (by rw [zpow_natCast]; exact h)
  rw [rnd_pow 24 (by norm_num), zpow_natCast] at this
  exact this

theorem roundAway_le_pow (k : Nat) (x : ℚ) (h : x ≤ 2 ^ k) : roundAway x ≤ 2 ^ k := by
  have h1 := roundAway_mono x (((2 ^ k : Int) : ℚ)) (by push_cast; exact h)
  rw [roundAway_eq (((2 ^ k : Int) : ℚ)) (2 ^ k) (by simp)] at h1
  exact h1

/-- A bound on the number of samples: up to 2⁴² ns (more than an hour). -/
theorem fract_le (ns : Int) (rate r : Nat) (hns : ns ≤ 2 ^ 42) (hr : rate ≤ 2 ^ r) : nsToFract ns rate ≤ 2 ^ (13 + r) := by
  unfold nsToFract
  apply roundAway_le_pow
  apply rnd_le_pow
  have h1 : rnd 24 (ns : ℚ) ≤ 2 ^ 42 := rnd_le_pow 42 _ (by exact_mod_cast hns)
  have h2 : rnd 24 (rnd 24 (ns : ℚ) / rnd 24 ((second : Int) : ℚ)) ≤ 2 ^ 13 := by
    apply rnd_le_pow
    rw [rnd_second, div_le_iff₀ (by norm_num)]
    refine h1.trans (by norm_num)
  have h3 : rnd 24 (rate : ℚ) ≤ 2 ^ r := rnd_le_pow r _ (by exact_mod_cast hr)
  have h4 : 0 ≤ rnd 24 (rate : ℚ) := rnd_nonneg 24 _ (by positivity)
  rw [pow_add]
  calc _ ≤ (2 : ℚ) ^ 13 * rnd 24 (rate : ℚ) := mul_le_mul_of_nonneg_right h2 h4
    _ ≤ _ := mul_le_mul_of_nonneg_left h3 (by positivity)

theorem nsToInt_val (tmax : Int) (k : Nat) (hk : (2 : Int) ^ (k + 1) ≤ tmax) (ns : Int) (rate c : Nat) (hc : 1 ≤ c) (hc2 : c ≤ 2 ^ 24) (h0 : 0 ≤ ns)
    (hv : nsToFract ns rate * c ≤ 2 ^ k) : nsToInt 0 tmax ns rate c = nsToFract ns rate * c := by
  have hv0 : 0 ≤ nsToFract ns rate := nsToFract_nonneg rate ns h0
  have hz : rnd 24 ((0 : Int) : ℚ) = 0 := by simpa using rnd_zero 24
  have hbig : (2 : ℚ) ^ (k + 1) ≤ rnd 24 (tmax : ℚ) := rnd_ge 24 (by norm_num) _ _ (by exact_mod_cast hk)
  have hlt : rnd 24 ((nsToFract ns rate : ℚ) * c) ≤ 2 ^ k := rnd_le_pow k _ (by exact_mod_cast hv)
  have hp : (0 : ℚ) < 2 ^ k := by positivity
  unfold nsToInt
  rw [hz, rnd_rate c hc2]
  by_cases h : nsToFract ns rate = 0
  · rw [h]
    simp [rnd_zero]
  · have h1 : (1 : ℚ) ≤ nsToFract ns rate := by exact_mod_cast (by omega : 1 ≤ nsToFract ns rate)
    have hcq : (1 : ℚ) ≤ c := by exact_mod_cast hc
    have p1 : (2 : ℚ) ^ 0 ≤ rnd 24 ((nsToFract ns rate : ℚ) * c) := rnd_ge 24 (by norm_num) 0 _ (by nlinarith)
    rw [if_neg (by linarith [p1, pow_zero (2 : ℚ)]), if_neg (by
      push Not
      rw [pow_succ] at hbig
      linarith)]

theorem overall_val (ns : Int) (rate c : Nat) (hr : rate ≤ 2 ^ 20) (hc : 1 ≤ c) (hc2 : c ≤ 1024) (h0 : 0 ≤ ns) (h1 : ns ≤ 2 ^ 42) :
    nsToSamplesOverall rate c ns = some (nsToFract ns rate * c) := by
  unfold nsToSamplesOverall
  rw [if_neg (by omega), nsToInt_val (2 ^ 64 - 1) 43 (by norm_num) ns rate c hc (by omega) h0]
  have := fract_le ns rate 20 h1 hr
  have h2 := nsToFract_nonneg rate ns h0
  have h3 : (c : Int) ≤ 2 ^ 10 := by exact_mod_cast hc2
  calc nsToFract ns rate * c ≤ 2 ^ (13 + 20) * 2 ^ 10 := by gcongr
    _ = 2 ^ 43 := by norm_num

theorem stream_val (ns : Int) (h0 : 0 ≤ ns) (h1 : ns ≤ 2 ^ 42) : nsToStreamTs 44100 ns = some (nsToFract ns 44100) := by
  unfold nsToStreamTs
  rw [if_neg (by omega), nsToInt_val (2 ^ 32 - 1) 29 (by norm_num) ns 44100 1 le_rfl (by norm_num) h0]
  · simp
  · have := fract_le ns 44100 16 h1 (by norm_num)
    simpa using this

theorem fract_rate (ns : Int) (h0 : 0 ≤ ns) (r r' : Nat) (h : r ≤ r') : nsToFract ns r ≤ nsToFract ns r' := by
  unfold nsToFract
  apply roundAway_mono
  apply rnd_mono 24 (by norm_num)
  apply mul_le_mul_of_nonneg_left
  · apply rnd_mono 24 (by norm_num)
    exact_mod_cast h
  · apply rnd_nonneg
    rw [rnd_second]
    apply div_nonneg (rnd_nonneg _ _ (by exact_mod_cast h0)) (by norm_num)

/-- Rates differ by a factor less than 6: so do numbers of samples, up to rounding. -/
theorem fract_ratio (ns : Int) (h0 : 0 ≤ ns) : nsToFract ns 44100 * 4 ≤ nsToFract ns 8000 * 24 + 14 := by
  unfold nsToFract
  obtain ⟨x, hx⟩ : ∃ x, x = rnd 24 (rnd 24 (ns : ℚ) / rnd 24 ((second : Int) : ℚ)) := ⟨_, rfl⟩
  have hx0 : 0 ≤ x := by
    rw [hx]
    apply rnd_nonneg
    rw [rnd_second]
    apply div_nonneg (rnd_nonneg _ _ (by exact_mod_cast h0)) (by norm_num)
  rw [← hx, rnd_rate 44100 (by norm_num), rnd_rate 8000 (by norm_num)]
  have a := roundAway_err (rnd 24 (x * (44100 : Nat)))
  have b := roundAway_err (rnd 24 (x * (8000 : Nat)))
  obtain ⟨e, he, e1⟩ := rnd_rel 24 (x * (44100 : Nat))
  obtain ⟨f, hf, f1⟩ := rnd_rel 24 (x * (8000 : Nat))
  rw [abs_le] at a b he hf
  have : ((roundAway (rnd 24 (x * (44100 : Nat))) * 4 : Int) : ℚ) ≤ ((roundAway (rnd 24 (x * (8000 : Nat))) * 24 + 14 : Int) : ℚ) := by
    push_cast at *
    have q1 : rnd 24 (x * 44100) ≤ x * 44100 * (1 + 1 / 2 ^ 24) := by
      rw [e1]
      exact mul_le_mul_of_nonneg_left (by linarith [he.2]) (by positivity)
    have q2 : x * 8000 * (1 - 1 / 2 ^ 24) ≤ rnd 24 (x * 8000) := by
      rw [f1]
      exact mul_le_mul_of_nonneg_left (by linarith [hf.1]) (by positivity)
    norm_num at q1 q2
    linarith [a.2, b.1]
  exact_mod_cast this

/-! ### `roc-send` -/

/-- C127: without `--max-packet-size`, packets of `roc-send` which are not longer than its frames fit in its buffers, source packets and repair packets, whatever the
lengths are, if the rate given with `--rate` is at least 8000 Hz or is not given. -/
theorem C127_send (s : Scheme) (rate : Nat) (frameLen packetLen : Int) (hr : rate = 0 ∨ 8000 ≤ rate ∧ rate ≤ 2 ^ 20) (hp : 0 < packetLen) (h : packetLen ≤ frameLen)
    (hm : frameLen ≤ 2 ^ 42) :
    ∃ buf payload, sendPacketBuf rate frameLen = some buf ∧ payloadSize packetLen = some payload ∧ makeSource s buf payload = .ok () ∧
      ∀ k, s.repair = some k → makeRepair k buf payload = .ok () := by
  obtain ⟨r, hr'⟩ : ∃ r, r = if rate = 0 then 48000 else rate := ⟨_, rfl⟩
  have hr1 : 8000 ≤ r ∧ r ≤ 2 ^ 20 := by
    rw [hr']
    split <;> omega
  have hf0 := nsToFract_nonneg r frameLen (by omega)
  have hp0 := nsToFract_nonneg 44100 packetLen hp.le
  have hb := fract_le frameLen r 20 hm hr1.2
  have h1 := nsToFract_mono 44100 packetLen frameLen h
  have h2 := fract_ratio frameLen (by omega)
  have h3 := fract_rate frameLen (by omega) 8000 r hr1.1
  obtain ⟨a, ha⟩ : ∃ a, a = nsToFract frameLen r := ⟨_, rfl⟩
  obtain ⟨b, hb'⟩ : ∃ b, b = nsToFract packetLen 44100 := ⟨_, rfl⟩
  rw [← ha] at hf0 hb h3
  rw [← hb'] at h1 hp0
  norm_num at hb
  have hbuf : sendPacketBuf rate frameLen = some (64 + a.toNat * 24) := by
    unfold sendPacketBuf approxSize
    rw [← hr', overall_val frameLen r 12 hr1.2 (by norm_num) (by norm_num) (by omega) hm, ← ha]
    simp only [Option.map_some, Option.some.injEq]
    rw [Nat.mod_eq_of_lt (by push_cast; unfold m64; omega)]
    omega
  have hpay : payloadSize packetLen = some (b.toNat * 4) := by
    unfold payloadSize
    rw [stream_val packetLen hp.le (by omega), ← hb']
    rfl
  have hle : b.toNat * 4 + 20 ≤ 64 + a.toNat * 24 := by omega
  refine ⟨_, _, hbuf, hpay, ?_, ?_⟩
  · rw [C127_source, if_pos]
    unfold sourceSize
    split <;> omega
  · intro k hk
    rw [C127_repair s k hk, if_pos hle]

/-- Frames of 10 ms, packets of 5 ms, no rate: lengths by default. -/
example : ((0 : Nat) = 0 ∨ 8000 ≤ 0 ∧ 0 ≤ 2 ^ 20) ∧ (0 : Int) < 5000000 ∧ (5000000 : Int) ≤ defaultFrameLen ∧ defaultFrameLen ≤ 2 ^ 42 ∧
    sendPacketBuf 0 defaultFrameLen = some 11584 ∧ payloadSize 5000000 = some 884 := by decide +kernel

/-- What is sent when no packet can be created: nothing, whatever is written. -/
theorem starved_run {α : Type} (c : Packetizer.Cfg) (s : Scheme) (buf payload : Nat) (hm : makeSource s buf payload = .reject) (frames : List (List α × Int)) :
    Packetizer.run c ⟨none⟩ (calls s buf payload frames) = some (frames.map fun _ => [], ⟨none⟩) := by
  induction frames with
  | nil => rfl
  | cons f fs ih =>
    have h : Packetizer.step c ⟨none⟩ (.write f.1 f.2 [decide (makeSource s buf payload = .ok ())]) = some ([], ⟨none⟩) := by
      rw [hm]
      show Packetizer.loop c f.1.length ⟨none⟩ f.1 f.2 [false] = _
      rcases hl : f.1.length with _ | n
      · unfold Packetizer.loop
        rw [if_pos hl]
      · unfold Packetizer.loop
        rw [if_neg (by omega)]
        rfl
    show (Packetizer.step c ⟨none⟩ (.write f.1 f.2 [decide (makeSource s buf payload = .ok ())])).bind _ = _
    rw [h]
    show (Packetizer.run c ⟨none⟩ (calls s buf payload fs)).map _ = _
    rw [ih]
    rfl

theorem payload_val (packetLen : Int) (h0 : 0 ≤ packetLen) (h1 : packetLen ≤ 2 ^ 42) :
    payloadSize packetLen = some ((nsToFract packetLen 44100).toNat * 4) := by
  unfold payloadSize
  rw [stream_val packetLen h0 h1]
  rfl

/-- C127 fails for packets longer than frames (the size of packet buffers is computed from the length of frames, `roc_send/main.cpp:250-251`): with the default length of
frames and `--packet-len` of 66 ms or more no packet can be created, and `roc-send` sends nothing, whatever it reads, although it reports no error when it starts. -/
theorem C127_send_fails (s : Scheme) (packetLen : Int) (h : 66000000 ≤ packetLen) (hm : packetLen ≤ 2 ^ 42) :
    ∃ buf payload, sendPacketBuf 0 defaultFrameLen = some buf ∧ payloadSize packetLen = some payload ∧ makeSource s buf payload = .reject ∧
      pumpOk defaultFrameBuf 44100 2 defaultFrameLen = some true ∧
      ∀ {α : Type} (c : Packetizer.Cfg) (frames : List (List α × Int)), Packetizer.run c ⟨none⟩ (calls s buf payload frames) = some (frames.map fun _ => [], ⟨none⟩) := by
  have hr : ∀ n, 2911 * 4 ≤ n → makeSource s 11584 n = .reject := by
    intro n hn
    rw [C127_source, if_neg]
    unfold sourceSize
    split <;> omega
  have h1 : nsToFract 66000000 44100 = 2911 := by decide +kernel
  have h2 := nsToFract_mono 44100 66000000 packetLen h
  rw [h1] at h2
  have h3 := hr ((nsToFract packetLen 44100).toNat * 4) (by omega)
  exact ⟨11584, _, by decide +kernel, payload_val packetLen (by omega) hm, h3, by decide +kernel, fun c frames => starved_run c s _ _ h3 frames⟩

example : (66000000 : Int) ≤ 100000000 ∧ (100000000 : Int) ≤ 2 ^ 42 := by decide

/-! ### `roc-recv` -/

/-- Size of the datagram of a repair packet with this payload of source packets. -/
def repairSize (k : Kind) (payload : Nat) : Nat := k.size + (12 + payload)

/-- C127: packets of up to 11 ms, source packets and repair packets, get to a receiver with the default size of packet buffers. -/
theorem C127_recv (s : Scheme) (packetLen : Int) (h0 : 0 < packetLen) (h : packetLen ≤ 11000000) :
    ∃ payload, payloadSize packetLen = some payload ∧ arrives defaultPacketBuf (sourceSize s payload) = true ∧
      ∀ k, s.repair = some k → arrives defaultPacketBuf (repairSize k payload) = true := by
  have h1 : nsToFract 11000000 44100 = 485 := by decide +kernel
  have h2 := nsToFract_mono 44100 packetLen 11000000 h
  rw [h1] at h2
  refine ⟨_, payload_val packetLen h0.le (by omega), ?_, ?_⟩
  · unfold arrives sourceSize defaultPacketBuf
    split <;> simp only [Bool.and_eq_true, decide_eq_true_eq] <;> omega
  · intro k _
    have hk : k.size ≤ 8 := by cases k <;> decide
    unfold arrives repairSize defaultPacketBuf
    simp only [Bool.and_eq_true, decide_eq_true_eq]
    omega

example : (0 : Int) < 5000000 ∧ (5000000 : Int) ≤ 11000000 ∧ payloadSize 5000000 = some 884 := by decide +kernel

/-- C127 fails between `roc-send` and `roc-recv` for packets from 12 ms to 65 ms: with the defaults for everything else the sender creates all packets and the receiver drops
each of them. -/
theorem C127_recv_fails (s : Scheme) (packetLen : Int) (h : 12000000 ≤ packetLen) (h' : packetLen ≤ 65000000) :
    ∃ buf payload, sendPacketBuf 0 defaultFrameLen = some buf ∧ payloadSize packetLen = some payload ∧ makeSource s buf payload = .ok () ∧
      (∀ k, s.repair = some k → makeRepair k buf payload = .ok ()) ∧ arrives defaultPacketBuf (sourceSize s payload) = false := by
  have h1 : nsToFract 12000000 44100 = 529 := by decide +kernel
  have h2 := nsToFract_mono 44100 12000000 packetLen h
  have h3 : nsToFract 65000000 44100 = 2867 := by decide +kernel
  have h4 := nsToFract_mono 44100 packetLen 65000000 h'
  rw [h1] at h2
  rw [h3] at h4
  refine ⟨11584, _, by decide +kernel, payload_val packetLen (by omega) (by omega), ?_, ?_, ?_⟩
  · rw [C127_source, if_pos]
    unfold sourceSize
    split <;> omega
  · intro k hk
    rw [C127_repair s k hk, if_pos (by omega)]
  · unfold arrives sourceSize defaultPacketBuf
    rw [Bool.and_eq_false_iff]
    right
    rw [decide_eq_false_iff_not]
    split <;> omega

example : (12000000 : Int) ≤ 20000000 ∧ (20000000 : Int) ≤ 65000000 ∧ payloadSize 20000000 = some 3528 := by decide +kernel

/-! ### Frames -/

theorem pump_val (buf rate chans : Nat) (frameLen : Int) (hr : rate ≤ 2 ^ 20) (hc : 1 ≤ chans) (hc2 : chans ≤ 1024) (h0 : 0 ≤ frameLen) (h1 : frameLen ≤ 2 ^ 42) :
    pumpOk buf rate chans frameLen =
      some (decide ((nsToFract frameLen rate * chans).toNat ≠ 0) && decide ((nsToFract frameLen rate * chans).toNat ≤ buf / 4)) := by
  unfold pumpOk
  rw [overall_val frameLen rate chans hr hc hc2 h0 h1]
  rfl

/-- C127: without `--max-frame-size`, `roc-recv` can start for each length of frames of at least one sample, if the output has at most 12 channels and a rate that is not above the one given
with `--rate` (48000 Hz if none is given). -/
theorem C127_frames_recv (rate outRate chans : Nat) (frameLen : Int) (hr : rate ≤ 2 ^ 20) (ho : outRate ≤ if rate = 0 then 48000 else rate) (hc : 1 ≤ chans) (hc2 : chans ≤ 12)
    (h0 : 0 < frameLen) (h1 : frameLen ≤ 2 ^ 42) (hn : nsToFract frameLen outRate ≠ 0) :
    ∃ buf, recvFrameBuf rate frameLen = some buf ∧ pumpOk buf outRate chans frameLen = some true := by
  obtain ⟨r, hr'⟩ : ∃ r, r = if rate = 0 then 48000 else rate := ⟨_, rfl⟩
  have hr2 : r ≤ 2 ^ 20 := by
    rw [hr']
    split <;> omega
  rw [← hr'] at ho
  have ha := fract_le frameLen r 20 h1 hr2
  have ha0 := nsToFract_nonneg r frameLen h0.le
  have hb0 := nsToFract_nonneg outRate frameLen h0.le
  have hab := fract_rate frameLen h0.le outRate r ho
  norm_num at ha
  refine ⟨(nsToFract frameLen r).toNat * 48, ?_, ?_⟩
  · unfold recvFrameBuf
    rw [← hr', overall_val frameLen r 12 hr2 (by norm_num) (by norm_num) h0.le h1]
    simp only [Option.map_some, Option.some.injEq]
    rw [Nat.mod_eq_of_lt (by push_cast; unfold m64; omega)]
    omega
  · rw [pump_val _ outRate chans frameLen (by omega) hc (by omega) h0.le h1]
    have e1 : nsToFract frameLen outRate * chans ≤ nsToFract frameLen r * 12 := by
      have : (chans : Int) ≤ 12 := by exact_mod_cast hc2
      gcongr
    have e2 : 1 ≤ nsToFract frameLen outRate * chans := by
      have h3 : (1 : Int) ≤ chans := by exact_mod_cast hc
      have h4 : 1 ≤ nsToFract frameLen outRate := by omega
      nlinarith
    obtain ⟨v, hv⟩ : ∃ v, v = nsToFract frameLen outRate * chans := ⟨_, rfl⟩
    rw [← hv] at e1 e2 ⊢
    rw [Option.some.injEq, Bool.and_eq_true, decide_eq_true_eq, decide_eq_true_eq]
    omega

example : (44100 : Nat) ≤ (if (0 : Nat) = 0 then 48000 else 0) ∧ nsToFract 20000000 44100 = 882 := by decide +kernel

/-- C127: without `--max-frame-size`, `roc-send` can start for each length of frames up to 10 ms of at least one sample, if the input has at most two channels and at most
51200 samples per second. -/
theorem C127_frames_send (rate chans : Nat) (frameLen : Int) (hr : rate ≤ 51200) (hc : 1 ≤ chans) (hc2 : chans ≤ 2) (h0 : 0 < frameLen) (h1 : frameLen ≤ defaultFrameLen)
    (hn : nsToFract frameLen rate ≠ 0) : pumpOk defaultFrameBuf rate chans frameLen = some true := by
  have e : nsToFract defaultFrameLen 51200 = 512 := by decide +kernel
  have h2 := nsToFract_mono 51200 frameLen defaultFrameLen h1
  have h3 := fract_rate frameLen h0.le rate 51200 hr
  have h4 := nsToFract_nonneg rate frameLen h0.le
  rw [pump_val _ rate chans frameLen (by omega) hc (by omega) h0.le (h1.trans (by decide)), Option.some.injEq, Bool.and_eq_true, decide_eq_true_eq, decide_eq_true_eq]
  unfold defaultFrameBuf
  rcases (by omega : chans = 1 ∨ chans = 2) with rfl | rfl <;> push_cast <;> omega

example : nsToFract 5000000 44100 = 221 ∧ (5000000 : Int) ≤ defaultFrameLen := by decide +kernel

/-- C127 fails for longer frames (`roc-send` does not compute the size of frame buffers from the length of frames, as `roc-recv` does): with `--frame-len` of 12 ms or more `roc-send` does not
start for stereo input of at least 44100 Hz. With the default length it does not start from 52000 Hz on. -/
theorem C127_frames_fails (rate : Nat) (frameLen : Int) (hr : rate ≤ 2 ^ 20) (h1 : frameLen ≤ 2 ^ 42) (h : 44100 ≤ rate ∧ 12000000 ≤ frameLen ∨ 52000 ≤ rate ∧ defaultFrameLen ≤ frameLen) :
    pumpOk defaultFrameBuf rate 2 frameLen = some false := by
  have h0 : 0 ≤ frameLen := by unfold defaultFrameLen at h; omega
  have hv : 520 ≤ nsToFract frameLen rate := by
    rcases h with ⟨a, b⟩ | ⟨a, b⟩
    · have e : nsToFract 12000000 44100 = 529 := by decide +kernel
      have h2 := nsToFract_mono 44100 _ _ b
      have h3 := fract_rate frameLen h0 _ _ a
      omega
    · have e : nsToFract defaultFrameLen 52000 = 520 := by decide +kernel
      have h2 := nsToFract_mono 52000 _ _ b
      have h3 := fract_rate frameLen h0 _ _ a
      omega
  rw [pump_val _ rate 2 frameLen hr (by norm_num) (by norm_num) h0 h1, Option.some.injEq, Bool.and_eq_false_iff]
  right
  rw [decide_eq_false_iff_not]
  unfold defaultFrameBuf
  push_cast
  omega

example : (96000 : Nat) ≤ 2 ^ 20 ∧ defaultFrameLen ≤ 2 ^ 42 ∧ 52000 ≤ 96000 := by decide

end Verif.BufSizes
