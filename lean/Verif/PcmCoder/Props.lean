import Verif.PcmCoder.Lemmas

/-!
# PCM encoder and decoder: properties C79, C80

`Enc.run` and `Dec.run` are sequences of calls of `PcmEncoder` and `PcmDecoder`. Formats are those
whose samples take whole bytes (20 of the 24 integer codes, in both endiannesses).
-/

namespace Verif.PcmCoder

open Verif.PcmFormat Spec

/-! ## C79: the frame does not depend on how samples are divided into writes -/

theorem enc_writes (o : Fmt) (ho : o.code ∈ codes) (ao : o.code.packed % 8 = 0) (nch cap : Nat) :
    ∀ (ws : List (List Flt)) (b : List Nat) (used : Nat), cap = b.length / packedOctets o.code →
    (∀ l ∈ ws, ∀ x ∈ l, IsSample x) →
    ∃ b', Enc.run o nch ⟨some b, 8 * (min used cap * packedOctets o.code)⟩
        (ws.map .write ++ [.finish])
        = .ok ((counts nch cap used ws).map (fun n => (n, [])) ++ [(0, b')], Enc.init) ∧
      b'.length = b.length ∧
      (∀ q, q < min used cap * packedOctets o.code ∨
        min (used + ws.flatten.length) cap * packedOctets o.code ≤ q → b'[q]? = b[q]?) ∧
      ((∀ x ∈ b, x < 256) → ∀ x ∈ b', x < 256) ∧
      ∀ j x, ws.flatten[j]? = some x → used + j < cap →
        levelAt o b' (used + j) = quantize o.code.width x := by
  have hk0 := octets_pos o.code ho ao
  intro ws
  induction ws with
  | nil =>
    intro b used hcap _
    exact ⟨b, rfl, rfl, fun _ _ => rfl, fun h => h, by simp⟩
  | cons l ws ih =>
    intro b used hcap hx
    have hcapk : cap * packedOctets o.code ≤ b.length := by
      rw [hcap]
      exact Nat.div_mul_le_self _ _
    have hT : min used cap * packedOctets o.code ≤ cap * packedOctets o.code :=
      Nat.mul_le_mul_right _ (by omega)
    obtain ⟨k, b1, m1, m2, m3, m4, m6, m5⟩ := encMap_spec o ho ao l b (min used cap * packedOctets o.code)
      (hx l (List.mem_cons_self)) (by omega)
    have hk : k = min l.length (cap - used) := by
      rw [m2, mul_comm (min used cap), Nat.sub_mul_div, ← hcap]
      omega
    have hT' : min used cap * packedOctets o.code + k * packedOctets o.code
        = min (used + l.length) cap * packedOctets o.code := by
      rw [← Nat.add_mul]
      congr 1
      omega
    rw [hT'] at m1 m4 m6
    obtain ⟨b', g1, g2, g3, g5, g4⟩ := ih b1 (used + l.length) (by rw [m3]; exact hcap)
      (fun l' h => hx l' (List.mem_cons_of_mem _ h))
    have hmono : min (used + l.length) cap * packedOctets o.code
        ≤ min (used + l.length + ws.flatten.length) cap * packedOctets o.code :=
      Nat.mul_le_mul_right _ (by omega)
    have hmono0 : min used cap * packedOctets o.code
        ≤ min (used + l.length) cap * packedOctets o.code :=
      Nat.mul_le_mul_right _ (by omega)
    refine ⟨b', ?_, by rw [g2, m3], ?_, ?_, ?_⟩
    · simp only [List.map_cons, List.cons_append, Enc.run, Enc.step, Enc.write]
      rw [m1]
      simp only [Except.map, Except.bind]
      rw [g1]
      simp only [counts, List.map_cons, List.cons_append]
      rw [hk]
    · intro q hq
      simp only [List.flatten_cons, List.length_append, ← Nat.add_assoc] at hq
      rw [g3 q (by omega), m4 q (by omega)]
    · intro hb
      refine g5 ?_
      intro x hx'
      obtain ⟨q, hq⟩ := List.getElem?_of_mem hx'
      by_cases hin : min used cap * packedOctets o.code ≤ q ∧
          q < min (used + l.length) cap * packedOctets o.code
      · exact m6 q x hin.1 hin.2 hq
      · rw [m4 q (by omega)] at hq
        exact hb x (List.mem_of_getElem? hq)
    · intro j x hj hlt
      simp only [List.flatten_cons] at hj
      by_cases hjl : j < l.length
      · rw [List.getElem?_append_left hjl] at hj
        have := (m5 j x (by omega) hj).1
        rw [← this, min_eq_left (by omega : used ≤ cap), ← Nat.add_mul]
        unfold levelAt
        rw [packed_octets o.code ao]
        congr 1
        apply container_congr
        intro q _ hq
        refine g3 q (Or.inl ?_)
        have e : (used + j) * (o.code.packed / 8) + o.code.packed / 8
            = (used + j + 1) * (o.code.packed / 8) := by ring
        rw [e, ← packed_octets o.code ao] at hq
        refine lt_of_lt_of_le hq (Nat.mul_le_mul_right _ (by omega))
      · rw [List.getElem?_append_right (by omega)] at hj
        have := g4 (j - l.length) x hj (by omega)
        rw [← this]
        congr 1
        omega

/-- The samples of all writes together are put into the frame one after another, however they
are divided into writes, until there is no more room; each write returns how many samples per
channel of it fit. The rest of the frame is not changed. After `end` the encoder is as new. -/
theorem C79_writes (o : Fmt) (ho : o.code ∈ codes) (ao : o.code.packed % 8 = 0) (nch : Nat)
    (b : List Nat) (ws : List (List Flt)) (hx : ∀ l ∈ ws, ∀ x ∈ l, IsSample x) :
    ∃ b', Enc.run o nch Enc.init (.begin b :: (ws.map .write ++ [.finish]))
        = .ok ((0, []) :: ((counts nch (b.length / (o.code.packed / 8)) 0 ws).map (fun n => (n, []))
          ++ [(0, b')]), Enc.init) ∧
      b'.length = b.length ∧
      (∀ q, min ws.flatten.length (b.length / (o.code.packed / 8)) * (o.code.packed / 8) ≤ q →
        b'[q]? = b[q]?) ∧
      ((∀ x ∈ b, x < 256) → ∀ x ∈ b', x < 256) ∧
      ∀ j x, ws.flatten[j]? = some x → j < b.length / (o.code.packed / 8) →
        levelAt o b' j = quantize o.code.width x := by
  obtain ⟨b', g1, g2, g3, g5, g4⟩ := enc_writes o ho ao nch (b.length / (o.code.packed / 8)) ws b 0
    (by rw [packed_octets _ ao]) hx
  rw [packed_octets _ ao] at g1 g3
  simp only [Nat.zero_min, Nat.zero_mul, Nat.mul_zero] at g1
  refine ⟨b', ?_, g2, ?_, g5, ?_⟩
  · simp only [Enc.run, Enc.step, Enc.begin, Enc.init, Option.isSome_none, Bool.false_eq_true,
      if_false, Except.map, Except.bind]
    rw [g1]
    rfl
  · intro q hq
    refine g3 q (Or.inr ?_)
    rw [Nat.zero_add]
    exact hq
  · intro j x hj hlt
    have := g4 j x hj (by omega)
    rw [Nat.zero_add] at this
    exact this

/-- Two stereo samples and one more in two writes, into a frame of 16-bit samples that has room for
two: the second write returns zero. The samples are 1/2, -1/2, 1, -2 (clipped), 0, 0. -/
example : (∀ l ∈ [[Flt.num (1 / 2), .num (-1 / 2), .num 1, .num (-2)], [.num 0, .num 0]],
      ∀ x ∈ l, IsSample x) ∧
    counts 2 4 0 [[Flt.num (1 / 2), .num (-1 / 2), .num 1, .num (-2)], [.num 0, .num 0]] = [2, 0] ∧
    [Flt.num (1 / 2), .num (-1 / 2), .num 1, .num (-2)].map (quantize 16)
      = [16384, -16384, 32767, -32768] := by
  have p0 : rnd 24 0 = 0 := rnd_zero 24
  have p1 : rnd 24 1 = 1 := by
    have := rnd_int 24 (by norm_num) 1 (by norm_num)
    simpa using this
  have p2 : rnd 24 (-2) = -2 := by
    have := rnd_int 24 (by norm_num) (-2) (by norm_num)
    simpa using this
  have p3 : rnd 24 (1 / 2) = 1 / 2 := by
    have := rnd_scale 24 1 (-1)
    rw [p1] at this
    norm_num at this ⊢
    exact this
  have p4 : rnd 24 (-1 / 2) = -1 / 2 := by
    have q : rnd 24 (-1) = -1 := by
      have := rnd_int 24 (by norm_num) (-1) (by norm_num)
      simpa using this
    have := rnd_scale 24 (-1) (-1)
    rw [q] at this
    norm_num at this ⊢
    exact this
  refine ⟨?_, by decide, ?_⟩
  · simp only [List.mem_cons, List.not_mem_nil, or_false, forall_eq_or_imp, forall_eq, IsSample]
    exact ⟨⟨p3, p4, p1, p2⟩, p0, p0⟩
  · simp only [List.map_cons, List.map_nil, quantize]
    norm_num

/-- Calls in the wrong order abort; nothing else does, and nothing is undefined. -/
theorem C79_abort_iff (o : Fmt) (ho : o.code ∈ codes) (ao : o.code.packed % 8 = 0) (nch : Nat)
    (ops : List EncOp) (hx : ∀ l, EncOp.write l ∈ ops → ∀ x ∈ l, IsSample x) :
    (paired false ops = true → ∃ r, Enc.run o nch Enc.init ops = .ok r) ∧
    (paired false ops = false → Enc.run o nch Enc.init ops = .error .panic) := by
  have key : ∀ (ops : List EncOp) (e : Enc), (∀ l, EncOp.write l ∈ ops → ∀ x ∈ l, IsSample x) →
      (e = Enc.init ∨ ∃ b p, e = ⟨some b, 8 * p⟩ ∧ p ≤ b.length) →
      (paired e.frame.isSome ops = true → ∃ r, Enc.run o nch e ops = .ok r) ∧
      (paired e.frame.isSome ops = false → Enc.run o nch e ops = .error .panic) := by
    intro ops
    induction ops with
    | nil =>
      intro e _ _
      exact ⟨fun _ => ⟨_, rfl⟩, fun h => absurd h (by simp [paired])⟩
    | cons op ops ih =>
      intro e hx he
      have hx' : ∀ l, EncOp.write l ∈ ops → ∀ x ∈ l, IsSample x :=
        fun l h => hx l (List.mem_cons_of_mem _ h)
      have lift : ∀ (e' : Enc) (r : Nat × List Nat), e.step o nch op = .ok (r, e') →
          (e' = Enc.init ∨ ∃ b p, e' = ⟨some b, 8 * p⟩ ∧ p ≤ b.length) →
          (paired e.frame.isSome (op :: ops) = paired e'.frame.isSome ops) →
          (paired e.frame.isSome (op :: ops) = true → ∃ r, Enc.run o nch e (op :: ops) = .ok r) ∧
          (paired e.frame.isSome (op :: ops) = false →
            Enc.run o nch e (op :: ops) = .error .panic) := by
        intro e' r hs he' hp
        rw [hp]
        obtain ⟨i1, i2⟩ := ih e' hx' he'
        simp only [Enc.run, hs, Except.bind]
        constructor
        · intro h
          obtain ⟨r', hr'⟩ := i1 h
          rw [hr']
          exact ⟨_, rfl⟩
        · intro h
          rw [i2 h]
          rfl
      rcases he with he | ⟨b, p, he, hp⟩
      · subst he
        cases op with
        | begin b =>
          refine lift ⟨some b, 8 * 0⟩ (0, []) ?_ (Or.inr ⟨b, 0, rfl, by omega⟩) ?_
          · simp [Enc.step, Enc.begin, Enc.init, Except.map]
          · simp [paired, Enc.init]
        | write l =>
          refine ⟨fun h => absurd h (by simp [paired, Enc.init]), fun _ => ?_⟩
          simp [Enc.run, Enc.step, Enc.write, Enc.init, Except.map, Except.bind]
        | finish =>
          refine ⟨fun h => absurd h (by simp [paired, Enc.init]), fun _ => ?_⟩
          simp [Enc.run, Enc.step, Enc.finish, Enc.init, Except.map, Except.bind]
      · subst he
        cases op with
        | begin b' =>
          refine ⟨fun h => absurd h (by simp [paired]), fun _ => ?_⟩
          simp [Enc.run, Enc.step, Enc.begin, Except.map, Except.bind]
        | write l =>
          obtain ⟨k, b1, m1, m2, m3, _⟩ := encMap_spec o ho ao l b p
            (hx l (List.mem_cons_self)) hp
          refine lift ⟨some b1, 8 * (p + k * packedOctets o.code)⟩ (k / nch, []) ?_
            (Or.inr ⟨b1, _, rfl, ?_⟩) ?_
          · simp only [Enc.step, Enc.write, m1, Except.map]
          · have h1 : k ≤ (b.length - p) / packedOctets o.code := by omega
            have := (Nat.le_div_iff_mul_le (octets_pos o.code ho ao)).1 h1
            omega
          · simp [paired]
        | finish =>
          refine lift Enc.init (0, b) ?_ (Or.inl rfl) ?_
          · simp [Enc.step, Enc.finish, Except.map, Enc.init]
          · simp [paired, Enc.init]
  have := key ops Enc.init hx (Or.inl rfl)
  simpa [Enc.init] using this

/-- Two frames are encoded one after another; `begin` in the middle of a frame aborts. -/
example : paired false [.begin [0], .write [], .finish, .begin [0], .finish] = true ∧
    paired false [.begin [0], .begin [0]] = false := by decide

/-- It is false that the samples which a write does not report leave the frame alone: if the size of
the frame is not a multiple of the size of a sample with all channels, a part of a sample is
written at the end. Here: 16-bit stereo, a frame of 6 bytes, two samples, one is reported, and
all 6 bytes are changed. -/
theorem C79_unreported_fails :
    ∃ (o : Fmt) (nch : Nat) (b : List Nat) (l : List Flt) (n : Nat) (e : Enc) (b' : List Nat),
      o.code ∈ codes ∧ (∀ x ∈ l, IsSample x) ∧
      Enc.write o nch ⟨some b, 0⟩ l = .ok (n, e) ∧ n * nch * (o.code.packed / 8) = 4 ∧
      e.frame = some b' ∧ b'[4]? ≠ b[4]? := by
  have hz : ∀ x ∈ [Flt.num 0, .num 0, .num 0, .num 0], IsSample x := by
    intro x hx
    simp only [List.mem_cons, List.not_mem_nil, or_false, or_self] at hx
    subst hx
    exact rnd_zero 24
  obtain ⟨k, b', m1, m2, m3, m4, m6, m5⟩ := encMap_spec ⟨⟨true, 16, 16, 16⟩, false⟩ (by decide)
    (by decide) [.num 0, .num 0, .num 0, .num 0] [9, 9, 9, 9, 9, 9] 0 hz (by decide)
  have hk : k = 3 := by rw [m2]; decide
  subst hk
  have h2 := (m5 2 (.num 0) (by norm_num) rfl).1
  have hq : quantize 16 (.num 0) = 0 := by simp only [quantize]; norm_num
  simp only at h2
  rw [hq] at h2
  refine ⟨⟨⟨true, 16, 16, 16⟩, false⟩, 2, [9, 9, 9, 9, 9, 9], [.num 0, .num 0, .num 0, .num 0], 1,
    ⟨some b', 48⟩, b', by decide, hz, ?_, by decide, rfl, ?_⟩
  · have m1' := m1
    rw [Nat.mul_zero] at m1'
    simp only [Enc.write]
    rw [m1']
    have hpo : packedOctets ⟨true, 16, 16, 16⟩ = 2 := by decide
    simp only [Except.map, hpo]
  · intro h9
    simp only [List.length_cons, List.length_nil] at m3
    have h4 : b'[4]? = some 9 := by rw [h9]; rfl
    have h5 : ∃ y, b'[5]? = some y := ⟨b'[5], List.getElem?_eq_getElem _⟩
    obtain ⟨y, h5⟩ := h5
    have hy := m6 5 y (by norm_num) (by decide) h5
    have hc : PcmFormat.Spec.container false 2 b' 4 = 9 + 256 * y := by
      unfold PcmFormat.Spec.container
      simp only [Bool.false_eq_true, if_false]
      rw [drop_take_cons b' 4 1 9 h4, drop_take_cons b' 5 0 y h5]
      simp [PcmFormat.Spec.number]
    have hpo : packedOctets ⟨true, 16, 16, 16⟩ = 2 := by decide
    rw [hpo, show 0 + 2 * 2 = 4 by norm_num, hc] at h2
    unfold PcmFormat.Spec.level at h2
    simp only [if_true] at h2
    norm_num at h2
    split_ifs at h2 <;> omega

/-! ## C80: the decoder returns the samples of the frame, in order -/

/-- The call for a request. -/
def reqOp (r : Req) : DecOp := if r.skip then .shift r.n else .read r.n

theorem dec_reqs (i : Fmt) (hi : i.code ∈ codes) (ai : i.code.packed % 8 = 0) (nch : Nat)
    (hnch : 0 < nch) (b : List Nat) (hb : ∀ x ∈ b, x < 256) (pos total : Nat)
    (ht : total = b.length / packedOctets i.code / nch) (htm : total < m32) :
    ∀ (rs : List Req) (s : Nat), s ≤ total →
    (serve i nch total b s rs).2 ≤ total ∧ s ≤ (serve i nch total b s rs).2 ∧
    Dec.run i nch ⟨(pos + s) % m32, total - s, some b, 8 * (s * nch * packedOctets i.code)⟩
        (rs.map reqOp)
      = .ok ((serve i nch total b s rs).1,
        ⟨(pos + (serve i nch total b s rs).2) % m32, total - (serve i nch total b s rs).2, some b,
          8 * ((serve i nch total b s rs).2 * nch * packedOctets i.code)⟩) := by
  have hk0 := octets_pos i.code hi ai
  have hpk : i.code.packed = 8 * packedOctets i.code := by rw [packed_octets _ ai]; omega
  intro rs
  induction rs with
  | nil => intro s hs; exact ⟨hs, le_rfl, rfl⟩
  | cons r rs ih =>
    intro s hs
    obtain ⟨k, hk⟩ : ∃ k, k = min r.n (total - s) := ⟨_, rfl⟩
    obtain ⟨i1, i2, i3⟩ := ih (s + k) (by omega)
    have hk' : (if r.n > total - s then total - s else r.n) = k := by
      rw [hk]
      split_ifs <;> omega
    have hsv : serve i nch total b s (r :: rs)
        = ((k, if r.skip then [] else samples i b (s * nch) (k * nch))
          :: (serve i nch total b (s + k) rs).1, (serve i nch total b (s + k) rs).2) := by
      rw [hk]
      rfl
    have hposk : ((pos + s) % m32 + k % m32) % m32 = (pos + (s + k)) % m32 := by
      unfold m32
      omega
    have hav : (total - s + m32 - k % m32) % m32 = total - (s + k) := by
      unfold m32 at *
      omega
    rw [hsv]
    refine ⟨i1, by simp only; omega, ?_⟩
    simp only [List.map_cons, Dec.run]
    have hstep : Dec.step i nch ⟨(pos + s) % m32, total - s, some b,
        8 * (s * nch * packedOctets i.code)⟩ (reqOp r)
        = .ok ((k, if r.skip then [] else samples i b (s * nch) (k * nch)),
          ⟨(pos + (s + k)) % m32, total - (s + k), some b,
            8 * ((s + k) * nch * packedOctets i.code)⟩) := by
      unfold reqOp
      cases hsk : r.skip
      · simp only [Bool.false_eq_true, if_false, Dec.step, Dec.read]
        rw [hk']
        have hfit : (s * nch + k * nch) * packedOctets i.code ≤ b.length := by
          rw [← Nat.add_mul]
          have h1 : s + k ≤ b.length / packedOctets i.code / nch := by omega
          have h2 := (Nat.le_div_iff_mul_le hnch).1 h1
          exact (Nat.le_div_iff_mul_le hk0).1 h2
        rw [decMap_spec i hi ai b hb _ _ hfit]
        have hl : (samples i b (s * nch) (k * nch)).length / nch = k := by
          unfold samples
          rw [List.length_map, List.length_range, Nat.mul_div_left _ hnch]
        simp only [Except.map]
        rw [hl, hposk, hav, ← Nat.add_mul]
      · simp only [if_true, Dec.step, Dec.shift, Except.map]
        rw [hk', hposk, hav]
        congr 3
        rw [hpk]
        ring
    rw [hstep]
    simp only [Except.bind]
    rw [i3]
    rfl

/-- Whatever the sizes of the requests, to read or to skip, each one gets the next samples of the
frame, or those that are left. Nothing is lost and nothing is repeated. `position` is the position
of the frame plus the number of samples consumed, `available` is the number of samples left. -/
theorem C80_reads (i : Fmt) (hi : i.code ∈ codes) (ai : i.code.packed % 8 = 0) (nch : Nat)
    (hnch : 0 < nch) (d : Dec) (hd : d.frame = none ∧ d.off = 0) (b : List Nat)
    (hb : ∀ x ∈ b, x < 256) (pos total : Nat) (hpos : pos < m32)
    (ht : total = b.length / (i.code.packed / 8) / nch) (htm : total < m32) (rs : List Req) :
    ∃ d', Dec.run i nch d (.begin pos b :: rs.map reqOp)
        = .ok ((0, []) :: (serve i nch total b 0 rs).1, d') ∧
      d'.pos = (pos + (serve i nch total b 0 rs).2) % m32 ∧
      d'.avail = total - (serve i nch total b 0 rs).2 ∧ (serve i nch total b 0 rs).2 ≤ total := by
  have hpk : i.code.packed = 8 * packedOctets i.code := by rw [packed_octets _ ai]; omega
  have ht' : total = b.length / packedOctets i.code / nch := by rw [packed_octets _ ai]; exact ht
  obtain ⟨i1, _, i3⟩ := dec_reqs i hi ai nch hnch b hb pos total ht' htm rs 0 (by omega)
  refine ⟨⟨(pos + (serve i nch total b 0 rs).2) % m32, total - (serve i nch total b 0 rs).2, some b,
    8 * ((serve i nch total b 0 rs).2 * nch * packedOctets i.code)⟩, ?_, rfl, rfl, i1⟩
  obtain ⟨p, a, f, off⟩ := d
  obtain ⟨h1, h2⟩ := hd
  simp only at h1 h2
  subst h1 h2
  simp only [Dec.run, Dec.step, Dec.begin, Option.isSome_none, Bool.false_eq_true, if_false, Except.map,
    Except.bind]
  have hav : b.length * 8 / i.code.packed / nch % m32 = total := by
    have : b.length * 8 / i.code.packed = b.length / packedOctets i.code := by
      rw [hpk, Nat.mul_comm b.length, Nat.mul_div_mul_left _ _ (by norm_num)]
    rw [this, ← ht', Nat.mod_eq_of_lt htm]
  rw [hav]
  simp only [Nat.zero_mul, Nat.mul_zero, Nat.add_zero, Nat.sub_zero, Nat.mod_eq_of_lt hpos] at i3
  rw [i3]

/-- A frame of three 8-bit samples at position 5: one is read, one is skipped, two are requested and
one is left. -/
example : (serve ⟨⟨true, 8, 8, 8⟩, false⟩ 1 3 [64, 1, 0xc0] 0
      [⟨false, 1⟩, ⟨true, 1⟩, ⟨false, 2⟩]).1 = [(1, [1 / 2]), (1, []), (1, [-1 / 2])] ∧
    (serve ⟨⟨true, 8, 8, 8⟩, false⟩ 1 3 [64, 1, 0xc0] 0
      [⟨false, 1⟩, ⟨true, 1⟩, ⟨false, 2⟩]).2 = 3 := by
  have h1 : levelAt ⟨⟨true, 8, 8, 8⟩, false⟩ [64, 1, 0xc0] 0 = 64 := by decide
  have h2 : levelAt ⟨⟨true, 8, 8, 8⟩, false⟩ [64, 1, 0xc0] 2 = -64 := by decide
  have r1 : rnd 53 (64 : ℚ) = 64 := by
    have := rnd_int 53 (by norm_num) 64 (by norm_num)
    simpa using this
  have r2 : rnd 24 (64 : ℚ) = 64 := by
    have := rnd_int 24 (by norm_num) 64 (by norm_num)
    simpa using this
  have r3 : rnd 53 (-64 : ℚ) = -64 := by
    have := rnd_int 53 (by norm_num) (-64) (by norm_num)
    simpa using this
  have r4 : rnd 24 (-64 : ℚ) = -64 := by
    have := rnd_int 24 (by norm_num) (-64) (by norm_num)
    simpa using this
  refine ⟨?_, by decide⟩
  simp only [serve, samples]
  norm_num
  rw [h1, h2]
  unfold rawOf
  push_cast
  rw [r1, r2, r3, r4]
  norm_num

/-- Calls in the wrong order abort; nothing else does, and nothing is undefined, for frames of less
than 2³² samples. -/
theorem C80_abort_iff (i : Fmt) (hi : i.code ∈ codes) (ai : i.code.packed % 8 = 0) (nch : Nat)
    (hnch : 0 < nch) (ops : List DecOp)
    (hops : ∀ pos b, DecOp.begin pos b ∈ ops → pos < m32 ∧ (∀ x ∈ b, x < 256) ∧
      b.length / (i.code.packed / 8) / nch < m32) :
    (pairedDec false ops = true → ∃ r, Dec.run i nch Dec.init ops = .ok r) ∧
    (pairedDec false ops = false → Dec.run i nch Dec.init ops = .error .panic) := by
  have key : ∀ (ops : List DecOp) (d : Dec),
      (∀ pos b, DecOp.begin pos b ∈ ops → pos < m32 ∧ (∀ x ∈ b, x < 256) ∧
        b.length / (i.code.packed / 8) / nch < m32) →
      ((d.frame = none ∧ d.off = 0) ∨ ∃ pos b s, s ≤ b.length / packedOctets i.code / nch ∧
        (∀ x ∈ b, x < 256) ∧ b.length / packedOctets i.code / nch < m32 ∧
        d = ⟨(pos + s) % m32, b.length / packedOctets i.code / nch - s, some b,
          8 * (s * nch * packedOctets i.code)⟩) →
      (pairedDec d.frame.isSome ops = true → ∃ r, Dec.run i nch d ops = .ok r) ∧
      (pairedDec d.frame.isSome ops = false → Dec.run i nch d ops = .error .panic) := by
    intro ops
    induction ops with
    | nil =>
      intro d _ _
      exact ⟨fun _ => ⟨_, rfl⟩, fun h => absurd h (by simp [pairedDec])⟩
    | cons op ops ih =>
      intro d hx hd
      have lift : ∀ (d' : Dec) (r : Nat × List ℚ), d.step i nch op = .ok (r, d') →
          ((d'.frame = none ∧ d'.off = 0) ∨ ∃ pos b s, s ≤ b.length / packedOctets i.code / nch ∧
            (∀ x ∈ b, x < 256) ∧ b.length / packedOctets i.code / nch < m32 ∧
            d' = ⟨(pos + s) % m32, b.length / packedOctets i.code / nch - s, some b,
              8 * (s * nch * packedOctets i.code)⟩) →
          (pairedDec d.frame.isSome (op :: ops) = pairedDec d'.frame.isSome ops) →
          (pairedDec d.frame.isSome (op :: ops) = true → ∃ r, Dec.run i nch d (op :: ops) = .ok r) ∧
          (pairedDec d.frame.isSome (op :: ops) = false →
            Dec.run i nch d (op :: ops) = .error .panic) := by
        intro d' r hs hd' hp
        rw [hp]
        obtain ⟨i1, i2⟩ := ih d' (fun pos b h => hx pos b (List.mem_cons_of_mem _ h)) hd'
        simp only [Dec.run, hs, Except.bind]
        constructor
        · intro h
          obtain ⟨r', hr'⟩ := i1 h
          rw [hr']
          exact ⟨_, rfl⟩
        · intro h
          rw [i2 h]
          rfl
      rcases hd with hd | ⟨pos, b, s, hs, hb, hm, hd⟩
      · obtain ⟨p, a, f, off⟩ := d
        obtain ⟨h1, h2⟩ := hd
        simp only at h1 h2
        subst h1 h2
        cases op with
        | begin pos b =>
          obtain ⟨g1, g2, g3⟩ := hx pos b (List.mem_cons_self)
          rw [← packed_octets _ ai] at g3
          obtain ⟨d', e1, _⟩ := C80_reads i hi ai nch hnch ⟨p, a, none, 0⟩ ⟨rfl, rfl⟩ b g2 pos _ g1
            rfl (by rw [← packed_octets _ ai]; exact g3) []
          have hav : b.length * 8 / i.code.packed / nch % m32
              = b.length / packedOctets i.code / nch := by
            have hpk : i.code.packed = 8 * packedOctets i.code := by rw [packed_octets _ ai]; omega
            have : b.length * 8 / i.code.packed = b.length / packedOctets i.code := by
              rw [hpk, Nat.mul_comm b.length, Nat.mul_div_mul_left _ _ (by norm_num)]
            rw [this, Nat.mod_eq_of_lt g3]
          refine lift ⟨pos, b.length / packedOctets i.code / nch, some b, 0⟩ (0, []) ?_
            (Or.inr ⟨pos, b, 0, by omega, g2, g3, ?_⟩) ?_
          · simp only [Dec.step, Dec.begin, Option.isSome_none, Bool.false_eq_true, if_false, Except.map]
            rw [hav]
          · simp [Nat.mod_eq_of_lt g1]
          · simp [pairedDec]
        | read n =>
          refine ⟨fun h => absurd h (by simp [pairedDec]), fun _ => ?_⟩
          simp [Dec.run, Dec.step, Dec.read, Except.bind]
        | shift n =>
          refine ⟨fun h => absurd h (by simp [pairedDec]), fun _ => ?_⟩
          simp [Dec.run, Dec.step, Dec.shift, Except.map, Except.bind]
        | finish =>
          refine ⟨fun h => absurd h (by simp [pairedDec]), fun _ => ?_⟩
          simp [Dec.run, Dec.step, Dec.finish, Except.map, Except.bind]
      · subst hd
        have one : ∀ r : Req, ∃ q d', Dec.step i nch ⟨(pos + s) % m32,
            b.length / packedOctets i.code / nch - s, some b, 8 * (s * nch * packedOctets i.code)⟩
            (reqOp r) = .ok (q, d') ∧ ∃ pos b s, s ≤ b.length / packedOctets i.code / nch ∧
            (∀ x ∈ b, x < 256) ∧ b.length / packedOctets i.code / nch < m32 ∧
            d' = ⟨(pos + s) % m32, b.length / packedOctets i.code / nch - s, some b,
              8 * (s * nch * packedOctets i.code)⟩ := by
          intro r
          obtain ⟨j1, j2, j3⟩ := dec_reqs i hi ai nch hnch b hb pos _ rfl hm [r] s hs
          simp only [List.map_cons, List.map_nil, Dec.run] at j3
          cases hst : Dec.step i nch ⟨(pos + s) % m32, b.length / packedOctets i.code / nch - s,
            some b, 8 * (s * nch * packedOctets i.code)⟩ (reqOp r) with
          | error e =>
            rw [hst] at j3
            exact absurd j3 (by simp [Except.bind])
          | ok q =>
            rw [hst] at j3
            simp only [Except.bind, Except.map, Except.ok.injEq, Prod.mk.injEq] at j3
            exact ⟨q.1, q.2, rfl, pos, b, _, j1, hb, hm, j3.2⟩
        cases op with
        | begin pos b =>
          refine ⟨fun h => absurd h (by simp [pairedDec]), fun _ => ?_⟩
          simp [Dec.run, Dec.step, Dec.begin, Except.map, Except.bind]
        | read n =>
          obtain ⟨q, d', e1, e2⟩ := one ⟨false, n⟩
          refine lift d' q (by simpa [reqOp] using e1) (Or.inr e2) ?_
          obtain ⟨_, b', _, _, _, _, e3⟩ := e2
          rw [e3]
          simp [pairedDec]
        | shift n =>
          obtain ⟨q, d', e1, e2⟩ := one ⟨true, n⟩
          refine lift d' q (by simpa [reqOp] using e1) (Or.inr e2) ?_
          obtain ⟨_, b', _, _, _, _, e3⟩ := e2
          rw [e3]
          simp [pairedDec]
        | finish =>
          refine lift ⟨(pos + s) % m32, 0, none, 0⟩ (0, []) ?_ (Or.inl ⟨rfl, rfl⟩) ?_
          · simp [Dec.step, Dec.finish, Except.map]
          · simp [pairedDec]
  have := key ops Dec.init hops (Or.inl ⟨rfl, rfl⟩)
  simpa [Dec.init] using this

example : pairedDec false [.begin 7 [0], .read 1, .shift 1, .finish, .begin 8 [], .finish] = true ∧
    pairedDec false [.begin 7 [0], .finish, .read 1] = false := by decide

/-- The number of bytes announced by the encoder for `n` samples is decoded to `n` samples. -/
theorem C80_sizes (f : Fmt) (hf : f.code ∈ codes) (nch n : Nat) (hnch : 0 < nch)
    (ha : f.code.packed % 8 = 0) :
    decodedSampleCount f nch (encodedByteCount f nch n) = n ∧
    encodedByteCount f nch n = n * nch * (f.code.packed / 8) := by
  have hk0 := octets_pos f.code hf ha
  have hpk : f.code.packed = 8 * packedOctets f.code := by rw [packed_octets _ ha]; omega
  have h1 : encodedByteCount f nch n = n * nch * packedOctets f.code := by
    unfold encodedByteCount
    rw [hpk, show n * nch * (8 * packedOctets f.code) = 8 * (n * nch * packedOctets f.code) by ring]
    omega
  refine ⟨?_, by rw [h1, packed_octets _ ha]⟩
  unfold decodedSampleCount
  rw [h1, hpk, show n * nch * packedOctets f.code * 8 = n * nch * (8 * packedOctets f.code) by ring,
    Nat.mul_div_left _ (by omega), Nat.mul_div_left _ hnch]

example : encodedByteCount ⟨⟨true, 24, 24, 32⟩, true⟩ 2 10 = 60 := by decide

/-- For every format, also for those with samples that are not whole bytes: the number of bytes announced by the
encoder for `n` samples has room for all their bits, has less than a byte to spare, and is decoded to at least `n` samples. -/
theorem C80_enough (f : Fmt) (hf : f.code ∈ codes) (nch n : Nat) (hnch : 0 < nch) :
    n * nch * f.code.packed ≤ 8 * encodedByteCount f nch n ∧ 8 * encodedByteCount f nch n < n * nch * f.code.packed + 8 ∧
    n ≤ decodedSampleCount f nch (encodedByteCount f nch n) := by
  have h1 : n * nch * f.code.packed ≤ 8 * encodedByteCount f nch n := by unfold encodedByteCount; omega
  refine ⟨h1, by unfold encodedByteCount; omega, ?_⟩
  have hp : 0 < f.code.packed := by
    have : codes.all (fun c => 0 < c.packed) = true := by decide +kernel
    simpa using List.all_eq_true.mp this _ hf
  unfold decodedSampleCount
  rw [Nat.le_div_iff_mul_le hnch, Nat.le_div_iff_mul_le hp]
  omega

/-- Three samples of twenty bits take eight bytes. -/
example : ∃ c ∈ codes, c.packed = 20 ∧ encodedByteCount ⟨c, true⟩ 1 3 = 8 := by decide

/-- Samples that are written in any pieces into a frame of their size, and read in any pieces, are
the same in the same order, each one rounded to the format. -/
theorem C80_roundtrip (f : Fmt) (hf : f.code ∈ codes) (ha : f.code.packed % 8 = 0) (nch : Nat)
    (hnch : 0 < nch) (n : Nat) (hn : n < m32) (b : List Nat) (hb : ∀ x ∈ b, x < 256)
    (hlen : b.length = encodedByteCount f nch n) (ws : List (List Flt))
    (hx : ∀ l ∈ ws, ∀ x ∈ l, IsSample x) (hw : ws.flatten.length = n * nch)
    (pos : Nat) (hpos : pos < m32) (sizes : List Nat) (hs : sizes.sum = n) :
    ∃ res b' res' d', Enc.run f nch Enc.init (.begin b :: (ws.map .write ++ [.finish]))
        = .ok (res ++ [(0, b')], Enc.init) ∧
      Dec.run f nch Dec.init (.begin pos b' :: sizes.map .read) = .ok (res', d') ∧
      (res'.map Prod.snd).flatten = ws.flatten.map fun x => rawOf f.code.width (quantize f.code.width x) := by
  have hk0 := octets_pos f.code hf ha
  obtain ⟨b', e1, e2, _, e4, e5⟩ := C79_writes f hf ha nch b ws hx
  obtain ⟨_, hsz⟩ := C80_sizes f hf nch n hnch ha
  have hcap : b.length / (f.code.packed / 8) = n * nch := by
    rw [hlen, hsz, Nat.mul_div_left _ (by rw [← packed_octets _ ha]; exact hk0)]
  rw [hcap] at e5
  have htot : n = b'.length / (f.code.packed / 8) / nch := by
    rw [e2, hcap, Nat.mul_div_left _ hnch]
  obtain ⟨d', r1, _⟩ := C80_reads f hf ha nch hnch Dec.init ⟨rfl, rfl⟩ b' (e4 hb) pos n hpos htot hn
    (sizes.map fun k => ⟨false, k⟩)
  have hops : (sizes.map fun k => (⟨false, k⟩ : Req)).map reqOp = sizes.map .read := by
    rw [List.map_map]
    rfl
  rw [hops] at r1
  refine ⟨_, b', _, d', e1.trans (by rw [← List.cons_append]), r1, ?_⟩
  have hserve : ∀ (ks : List Nat) (s : Nat), s + ks.sum = n →
      ((serve f nch n b' s (ks.map fun k => ⟨false, k⟩)).1.map Prod.snd).flatten
        = samples f b' (s * nch) (ks.sum * nch) := by
    intro ks
    induction ks with
    | nil => intro s _; simp [serve, samples]
    | cons k ks ih =>
      intro s hsum
      rw [List.sum_cons] at hsum
      have hk : min k (n - s) = k := by omega
      have := ih (s + k) (by omega)
      simp only [List.map_cons, serve, hk, Bool.false_eq_true, if_false, List.flatten_cons]
      rw [this, List.sum_cons, Nat.add_mul, Nat.add_mul]
      unfold samples
      rw [List.range_add, List.map_append, List.map_map]
      congr 1
      apply List.map_congr_left
      intro j _
      simp only [Function.comp, Nat.add_assoc]
  have hflat := hserve sizes 0 (by omega)
  simp only [List.map_cons, List.flatten_cons, List.nil_append]
  rw [hflat, hs]
  unfold samples
  apply List.ext_getElem?
  intro j
  simp only [List.getElem?_map, Nat.zero_mul, Nat.zero_add]
  by_cases hj : j < n * nch
  · rw [List.getElem?_range hj]
    have hj' : j < ws.flatten.length := by omega
    rw [List.getElem?_eq_getElem hj']
    simp only [Option.map_some]
    rw [e5 j _ (List.getElem?_eq_getElem hj') hj]
  · rw [List.getElem?_eq_none (by simpa using hj), List.getElem?_eq_none (by omega)]
    rfl

/-- Writes of one and two stereo samples, reads of two and one: the sizes agree. -/
example : ([[Flt.num 0, .num 0], [.num 0, .num 0, .num 0, .num 0]] : List (List Flt)).flatten.length
    = 3 * 2 ∧ [2, 1].sum = 3 ∧
    (List.replicate 12 0).length = encodedByteCount ⟨⟨true, 16, 16, 16⟩, true⟩ 2 3 := by decide

theorem floor_float (y : ℚ) (h : rnd 24 y = y) :
    rnd 24 ((⌊y⌋ : Int) : ℚ) = (⌊y⌋ : Int) ∧ rnd 24 ((⌈y⌉ : Int) : ℚ) = (⌈y⌉ : Int) := by
  by_cases hy : |y| < 2 ^ 24
  · rw [abs_lt] at hy
    constructor
    · apply rnd_int 24 (by norm_num)
      rw [abs_le]
      constructor
      · have : (-2 ^ 24 : Int) ≤ ⌊y⌋ := Int.le_floor.2 (by push_cast; linarith)
        exact this
      · have : ⌊y⌋ < (2 ^ 24 : Int) := Int.floor_lt.2 (by push_cast; linarith)
        linarith
    · apply rnd_int 24 (by norm_num)
      rw [abs_le]
      constructor
      · have : (-2 ^ 24 : Int) < ⌈y⌉ := Int.lt_ceil.2 (by push_cast; linarith)
        linarith
      · exact Int.ceil_le.2 (by push_cast; linarith)
  · push Not at hy
    have hl : (24 : Int) ≤ Int.log 2 |y| := by
      rw [← Int.zpow_le_iff_le_log (by norm_num) (lt_of_lt_of_le (by norm_num) hy)]
      have : ((2 : Nat) : ℚ) ^ (24 : Int) = 2 ^ 24 := by norm_num
      rw [this]
      exact hy
    obtain ⟨e, he⟩ : ∃ e : Nat, (e : Int) = Int.log 2 |y| - ((24 : Nat) - 1) := by
      refine ⟨(Int.log 2 |y| - ((24 : Nat) - 1)).toNat, ?_⟩
      rw [Int.toNat_of_nonneg]
      push_cast
      omega
    have hint : ∃ m : Int, y = (m : ℚ) := by
      refine ⟨roundEven (y / 2 ^ (Int.log 2 |y| - ((24 : Nat) - 1))) * 2 ^ e, ?_⟩
      conv_lhs => rw [← h]
      unfold rnd
      push_cast at he ⊢
      rw [← he, zpow_natCast]
    obtain ⟨m, hm⟩ := hint
    rw [hm] at h ⊢
    simp only [Int.floor_intCast, Int.ceil_intCast]
    exact ⟨h, h⟩

theorem rnd_int32_max : rnd 24 ((2 ^ 31 - 1 : Nat) : ℚ) = 2 ^ 31 := by
  rw [rnd_nat 24 (2 ^ 31 - 1) 30 (by norm_num) (by norm_num)]
  have h1 : ((2 ^ 31 - 1 : Nat) : ℚ) / 2 ^ (((30 : Nat) : Int) - ((24 : Nat) - 1))
      = 2 ^ 24 - 1 / 128 := by norm_num
  have hf : ⌊(2 ^ 24 - 1 / 128 : ℚ)⌋ = 2 ^ 24 - 1 := by
    rw [Int.floor_eq_iff]
    norm_num
  rw [h1]
  unfold roundEven
  rw [hf]
  norm_num

/-- What a sample between -1 and 1 becomes after encoding and decoding differs from it by at most
one step of the format; what is outside is clipped first. -/
theorem C80_error (c : Code) (hc : c ∈ codes) (q : ℚ) (hq : rnd 24 q = q) :
    |rawOf c.width (quantize c.width (.num q)) - max (-1) (min 1 q)| ≤ 1 / 2 ^ (c.width - 1) := by
  have hcw : c.width ≤ 24 ∨ c.width = 32 ∨ c.width = 64 := by
    revert c
    decide
  obtain ⟨w, hwd⟩ : ∃ w, w = c.width := ⟨_, rfl⟩
  rw [← hwd] at hcw ⊢
  obtain ⟨M, hM⟩ : ∃ M : ℚ, M = 2 ^ (w - 1) := ⟨_, rfl⟩
  have hMpos : 0 < M := by rw [hM]; positivity
  have h53 : ∀ x : ℚ, rnd 24 x = x → rnd 24 (rnd 53 x) = x := by
    intro x hx
    rw [rnd24_53 x hx, hx]
  have hMr : rnd 24 M = M := by
    have h1 : rnd 24 1 = 1 := by
      have := rnd_int 24 (by norm_num) 1 (by norm_num)
      simpa using this
    have := rnd_scale 24 1 ((w - 1 : Nat) : Int)
    rw [h1, one_mul, zpow_natCast, ← hM] at this
    exact this
  have hqM : rnd 24 (q * M) = q * M := by
    have := rnd_scale 24 q ((w - 1 : Nat) : Int)
    rw [hq, zpow_natCast, ← hM] at this
    exact this
  unfold rawOf
  rw [← hM]
  simp only [quantize]
  split_ifs with g1 g2 g3
  · have hneg : rnd 24 (-M) = -M := by
      have := rnd_scale 24 (-1) ((w - 1 : Nat) : Int)
      have h1 : rnd 24 (-1) = -1 := by
        have := rnd_int 24 (by norm_num) (-1) (by norm_num)
        simpa using this
      rw [h1, zpow_natCast, ← hM] at this
      simpa using this
    have : ((-2 ^ (w - 1) : Int) : ℚ) = -M := by rw [hM]; push_cast; rfl
    rw [this, h53 _ hneg, max_eq_left (by rw [min_eq_right (by linarith)]; linarith)]
    rw [neg_div, div_self (ne_of_gt hMpos)]
    norm_num
    positivity
  · have : ((2 ^ (w - 1) - 1 : Int) : ℚ) = M - 1 := by rw [hM]; push_cast; rfl
    rw [this, min_eq_left g2, max_eq_right (by norm_num)]
    have hM1 : 1 ≤ M := by rw [hM]; exact one_le_pow₀ (by norm_num)
    have up : rnd 24 (rnd 53 (M - 1)) ≤ M := by
      have m1 : rnd 53 (M - 1) ≤ rnd 53 M := SampleTime.rnd_mono 53 (by norm_num) _ _ (by linarith)
      rw [rnd24_53 M hMr] at m1
      have m2 := SampleTime.rnd_mono 24 (by norm_num) _ _ m1
      rw [hMr] at m2
      exact m2
    have lo : M - 1 ≤ rnd 24 (rnd 53 (M - 1)) := by
      rcases hcw with hsmall' | h32 | h64
      · have hsmall : M ≤ 2 ^ 24 := by
          rw [hM]
          exact pow_le_pow_right₀ (by norm_num) (by omega)
        have hMi : M - 1 = ((2 ^ (w - 1) - 1 : Int) : ℚ) := this.symm
        have hr : rnd 24 (M - 1) = M - 1 := by
          rw [hMi]
          apply rnd_int 24 (by norm_num)
          have h1 : ((2 ^ (w - 1) - 1 : Int) : ℚ) ≤ ((2 ^ 24 : Int) : ℚ) := by
            rw [← hMi]; push_cast; linarith
          have h1' : (2 ^ (w - 1) - 1 : Int) ≤ 2 ^ 24 := by exact_mod_cast h1
          have h2 : (0 : Int) < 2 ^ (w - 1) := by positivity
          rw [abs_le]
          constructor
          · linarith
          · exact h1'
        rw [h53 _ hr]
      · subst h32
        have e1 : M - 1 = ((2 ^ 31 - 1 : Nat) : ℚ) := by rw [hM]; norm_num
        have e2 : rnd 53 ((2 ^ 31 - 1 : Nat) : ℚ) = ((2 ^ 31 - 1 : Nat) : ℚ) := by
          have := rnd_int 53 (by norm_num) (2 ^ 31 - 1) (by norm_num)
          push_cast at this ⊢
          exact this
        rw [e1, e2, rnd_int32_max]
        norm_num
      · subst h64
        have e1 : M - 1 = ((2 ^ 63 - 1 : Nat) : ℚ) := by rw [hM]; norm_num
        have e2 : M = 2 ^ 63 := by rw [hM]
        rw [e1, rnd_int64_max, ← e2, hMr, e2]
        norm_num
    have e1 : rnd 24 (rnd 53 (M - 1)) / M ≤ 1 := by
      rw [div_le_one hMpos]
      exact up
    have e2 : 1 - 1 / M ≤ rnd 24 (rnd 53 (M - 1)) / M := by
      rw [le_div_iff₀ hMpos, sub_mul, one_mul, one_div, inv_mul_cancel₀ (ne_of_gt hMpos)]
      exact lo
    rw [abs_le]
    constructor <;> linarith [show (0 : ℚ) < 1 / M by positivity]
  · obtain ⟨f1, _⟩ := floor_float (q * M) hqM
    rw [← hM]
    rw [h53 _ f1, min_eq_right (by linarith), max_eq_right (by linarith)]
    have a1 := Int.floor_le (q * M)
    have a2 := Int.lt_floor_add_one (q * M)
    obtain ⟨t, ht⟩ : ∃ t : ℚ, t = (⌊q * M⌋ : Int) := ⟨_, rfl⟩
    rw [← ht] at a1 a2 ⊢
    have e : t / M - q = (t - q * M) / M := by field_simp
    rw [e, abs_div, abs_of_pos hMpos]
    apply div_le_div_of_nonneg_right _ hMpos.le
    rw [abs_le]
    constructor <;> linarith
  · obtain ⟨_, f1⟩ := floor_float (q * M) hqM
    rw [← hM]
    rw [h53 _ f1, min_eq_right (by linarith), max_eq_right (by linarith)]
    have a1 := Int.le_ceil (q * M)
    have a2 := Int.ceil_lt_add_one (q * M)
    obtain ⟨t, ht⟩ : ∃ t : ℚ, t = (⌈q * M⌉ : Int) := ⟨_, rfl⟩
    rw [← ht] at a1 a2 ⊢
    have e : t / M - q = (t - q * M) / M := by field_simp
    rw [e, abs_div, abs_of_pos hMpos]
    apply div_le_div_of_nonneg_right _ hMpos.le
    rw [abs_le]
    constructor <;> linarith

end Verif.PcmCoder
