import Verif.WavFile.Model
import Verif.WavFile.Spec
import Mathlib.Tactic.Ring

/-!
# WAV files: properties

C95: the file written is a WAV file with the samples written.
-/

namespace Verif.WavFile

open Spec

/-! ## Content of the file -/

theorem memory_length (big : Bool) (k v : Nat) : (memory big k v).length = k := by
  have h : ∀ k v, (octets k v).length = k := by
    intro k
    induction k with
    | zero => intro v; rfl
    | succ k ih => intro v; exact congrArg (· + 1) (ih _)
  unfold memory
  split
  · rw [List.length_reverse, h]
  · exact h k v

theorem image_length (big : Bool) (h : Header) : (h.image big).length = 44 := by
  unfold Header.image
  simp only [List.length_append, memory_length]

theorem write_cons (big : Bool) (s : Sink) (f : List Nat) (hf : s.file = some f) (x : List Nat) (hx : x ≠ []) :
    s.write big x = some ⟨some ((s.header.update x.length).image big ++ f.drop 44 ++ x.flatMap (memory big 4)),
      s.header.update x.length⟩ := by
  have : 0 < x.length := List.length_pos_iff.2 hx
  unfold Sink.write
  simp only [hf, this, if_true, image_length]

theorem write_nil (big : Bool) (s : Sink) (f : List Nat) (hf : s.file = some f) : s.write big [] = some s := by
  unfold Sink.write
  simp only [hf, List.length_nil, lt_irrefl, if_false]

theorem update_update (h : Header) (a b : Nat) : (h.update a).update b = h.update (a + b) := by
  have : ((h.samples + a % 2 ^ 32) % 2 ^ 32 + b % 2 ^ 32) % 2 ^ 32 = (h.samples + (a + b) % 2 ^ 32) % 2 ^ 32 := by
    omega
  unfold Header.update
  simp only [this]

/-- What was written last is the header with the number of all samples, followed by all samples. -/
theorem writes_spec (big : Bool) (l : List (List Nat)) : ∀ (s : Sink) (h0 : Header) (a : List Nat),
    s.file = some ((h0.update a.length).image big ++ a.flatMap (memory big 4)) → s.header = h0.update a.length →
    s.writes big l = some ⟨some ((h0.update (a ++ l.flatten).length).image big ++
      (a ++ l.flatten).flatMap (memory big 4)), h0.update (a ++ l.flatten).length⟩ := by
  induction l with
  | nil =>
    intro s h0 a hf hh
    unfold Sink.writes
    rw [List.flatten_nil, List.append_nil, ← hf, ← hh]
  | cons x l ih =>
    intro s h0 a hf hh
    unfold Sink.writes
    by_cases hx : x = []
    · rw [hx, write_nil big s _ hf]
      simp only [Option.bind_some, List.flatten_cons, List.nil_append]
      exact ih s h0 a hf hh
    · rw [write_cons big s _ hf x hx]
      simp only [Option.bind_some]
      have := ih ⟨some ((s.header.update x.length).image big ++
        List.drop 44 ((h0.update a.length).image big ++ a.flatMap (memory big 4)) ++ x.flatMap (memory big 4)),
        s.header.update x.length⟩ h0 (a ++ x) ?_ ?_
      · rw [this, List.flatten_cons, List.append_assoc]
      · rw [hh, update_update, List.length_append, List.drop_left' (image_length _ _), List.append_assoc,
          List.flatMap_append]
      · change s.header.update x.length = _
        rw [hh, update_update, List.length_append]

/-- The whole life of a sink: file after all calls of `write`. -/
theorem file_spec (big : Bool) (junk : Nat × Nat × Nat) (channels rate : Nat) (l : List (List Nat))
    (hl : l.flatten ≠ []) : ∃ s s', (Sink.new big junk channels rate).open true = some (true, s) ∧
      s.writes big l = some s' ∧ s'.file = some (((Header.new big junk channels rate 32).update l.flatten.length).image big
        ++ l.flatten.flatMap (memory big 4)) := by
  refine ⟨⟨some [], .new big junk channels rate 32⟩, ?_⟩
  induction l with
  | nil => exact absurd rfl hl
  | cons x l ih =>
    by_cases hx : x = []
    · rw [hx, List.flatten_cons, List.nil_append] at hl
      rw [hx, List.flatten_cons, List.nil_append]
      obtain ⟨s', h1, h2, h3⟩ := ih hl
      refine ⟨s', h1, ?_, h3⟩
      unfold Sink.writes
      rw [write_nil big _ [] rfl]
      exact h2
    · unfold Sink.writes
      rw [write_cons big _ [] rfl x hx]
      simp only [Option.bind_some]
      refine ⟨_, rfl, writes_spec big l _ (.new big junk channels rate 32) x ?_ rfl, ?_⟩
      · rw [List.drop_nil, List.append_nil]
      · rw [List.flatten_cons]

theorem flatMap_length (big : Bool) (l : List Nat) : (l.flatMap (memory big 4)).length = 4 * l.length := by
  induction l with
  | nil => rfl
  | cons x l ih =>
    rw [List.flatMap_cons, List.length_append, ih, memory_length, List.length_cons]
    omega

theorem le_drop (f : List Nat) (k : Nat) : ∀ off n, le (f.drop n) off k = le f (n + off) k := by
  induction k with
  | zero => intro off n; rfl
  | succ k ih =>
    intro off n
    unfold le
    rw [ih, List.getD_eq_getElem?_getD, List.getElem?_drop, ← List.getD_eq_getElem?_getD, Nat.add_assoc]

theorem samples_spec (x : List Nat) (hx : ∀ v ∈ x, v < 2 ^ 32) : ∀ a : List Nat,
    (List.range x.length).map (fun i => le (a ++ x.flatMap (memory false 4)) (a.length + 4 * i) 4) = x := by
  induction x with
  | nil => intro a; rfl
  | cons v x ih =>
    intro a
    rw [List.length_cons, List.range_succ_eq_map, List.map_cons, List.map_map]
    congr 1
    · have h := le_drop (a ++ (v :: x).flatMap (memory false 4)) 4 0 a.length
      rw [List.drop_left] at h
      rw [Nat.mul_zero, ← h, List.flatMap_cons]
      have hv := hx v (List.mem_cons_self ..)
      change v % 256 + 256 * (v / 256 % 256 + 256 * (v / 256 / 256 % 256 + 256 * (v / 256 / 256 / 256 % 256 + 256 * 0))) = v
      omega
    · have := ih (fun w hw => hx w (List.mem_cons_of_mem _ hw)) (a ++ memory false 4 v)
      conv_rhs => rw [← this]
      apply List.map_congr_left
      intro i _
      simp only [Function.comp, List.flatMap_cons, List.append_assoc, List.length_append, memory_length]
      congr 1
      omega

/-- Fields read by offset, on a little-endian host. -/
theorem image_le (h : Header) (t : List Nat) :
    le (h.image false ++ t) 4 4 = h.chunkSize % 2 ^ 32 ∧ le (h.image false ++ t) 16 4 = h.sub1Size % 2 ^ 32 ∧
    le (h.image false ++ t) 20 2 = h.audioFormat % 2 ^ 16 ∧ le (h.image false ++ t) 22 2 = h.channels % 2 ^ 16 ∧
    le (h.image false ++ t) 24 4 = h.rate % 2 ^ 32 ∧ le (h.image false ++ t) 28 4 = h.byteRate % 2 ^ 32 ∧
    le (h.image false ++ t) 32 2 = h.blockAlign % 2 ^ 16 ∧ le (h.image false ++ t) 34 2 = h.bits % 2 ^ 16 ∧
    le (h.image false ++ t) 40 4 = h.sub2Size % 2 ^ 32 := by
  simp only [Header.image, memory, octets, Bool.false_eq_true, if_false, List.cons_append, List.nil_append,
    List.append_assoc, le, List.getD_cons_succ, List.getD_cons_zero]
  refine ⟨?_, ?_, ?_, ?_, ?_, ?_, ?_, ?_, ?_⟩ <;> omega

/-- Tags, on a little-endian host. -/
theorem image_tag (h : Header) (t : List Nat) :
    ((h.image false ++ t).drop 0).take 4 = octets 4 h.chunkId ∧
    ((h.image false ++ t).drop 8).take 4 = octets 4 h.format ∧
    ((h.image false ++ t).drop 12).take 4 = octets 4 h.sub1Id ∧
    ((h.image false ++ t).drop 36).take 4 = octets 4 h.sub2Id := by
  simp only [Header.image, memory, octets, Bool.false_eq_true, if_false, List.cons_append, List.nil_append,
    List.append_assoc, List.drop_succ_cons, List.drop_zero, List.take_succ_cons, List.take_zero, and_self]

/-- Size of the format, on a big-endian host. -/
theorem image_big (h : Header) (t : List Nat) : le (h.image true ++ t) 16 4 =
    h.sub1Size / 256 / 256 / 256 % 256 + 256 * (h.sub1Size / 256 / 256 % 256 + 256 * (h.sub1Size / 256 % 256 +
      256 * (h.sub1Size % 256 + 256 * 0))) := by
  simp only [Header.image, memory, octets, if_true, List.reverse_cons, List.reverse_nil, List.cons_append, List.nil_append,
    List.append_assoc, le, List.getD_cons_succ, List.getD_cons_zero]

/-- **C95**: after any calls of `write`, at least one not empty, a little-endian host has written a
header with the given number of channels and rate, followed by all samples in order. -/
theorem C95_content (junk : Nat × Nat × Nat) (channels rate : Nat) (l : List (List Nat)) (hl : l.flatten ≠ [])
    (hc : channels ≤ 1024) (hr : rate * channels * 4 < 2 ^ 32) (hr0 : rate < 2 ^ 32) (hv : ∀ v ∈ l.flatten, v < 2 ^ 32) :
    ∃ s s' f, (Sink.new false junk channels rate).open true = some (true, s) ∧ s.writes false l = some s' ∧
      s'.file = some f ∧ f.length = 44 + 4 * l.flatten.length ∧ Format f channels rate ∧ Spec.samples f = l.flatten := by
  obtain ⟨s, s', h1, h2, h3⟩ := file_spec false junk channels rate l hl
  refine ⟨s, s', _, h1, h2, h3, ?_, ?_, ?_⟩
  · rw [List.length_append, image_length, flatMap_length]
  · obtain ⟨_, e2, e3, e4, e5, e6, e7, e8, _⟩ :=
      image_le ((Header.new false junk channels rate 32).update l.flatten.length) (l.flatten.flatMap (memory false 4))
    obtain ⟨t1, t2, t3, t4⟩ :=
      image_tag ((Header.new false junk channels rate 32).update l.flatten.length) (l.flatten.flatMap (memory false 4))
    refine ⟨t1.trans ?_, t2.trans ?_, t3.trans ?_, e2.trans rfl, e3.trans rfl, e4.trans ?_, e5.trans ?_, e6.trans ?_,
      e7.trans ?_, e8.trans rfl, t4.trans ?_⟩
    · change octets 4 (reverseOctets 4 0x52494646) = _
      decide
    · change octets 4 (reverseOctets 4 0x57415645) = _
      decide
    · change octets 4 (reverseOctets 4 0x666d7420) = _
      decide
    · exact Nat.mod_eq_of_lt (by change channels < _; omega)
    · exact Nat.mod_eq_of_lt hr0
    · change rate * channels * (32 / 8) % 2 ^ 32 % 2 ^ 32 = _
      rw [Nat.mod_mod]
      exact Nat.mod_eq_of_lt hr
    · change channels * (32 / 8) % 2 ^ 16 % 2 ^ 16 = _
      omega
    · change octets 4 (reverseOctets 4 0x64617461) = _
      decide
  · unfold Spec.samples
    rw [List.length_append, image_length, flatMap_length, show (44 + 4 * l.flatten.length - 44) / 4 = l.flatten.length by omega]
    have := samples_spec l.flatten hv (((Header.new false junk channels rate 32).update l.flatten.length).image false)
    rw [image_length] at this
    exact this

/-- **C95**: the sizes in the header. `junk.2.2` is what the memory of the header contained. -/
theorem C95_fields (junk : Nat × Nat × Nat) (channels rate : Nat) (l : List (List Nat)) (hl : l.flatten ≠ []) :
    ∃ s s' f, (Sink.new false junk channels rate).open true = some (true, s) ∧ s.writes false l = some s' ∧
      s'.file = some f ∧ le f 40 4 = (junk.2.2 + l.flatten.length) * channels * 4 % 2 ^ 32 ∧
      le f 4 4 = (36 + le f 40 4) % 2 ^ 32 := by
  obtain ⟨s, s', h1, h2, h3⟩ := file_spec false junk channels rate l hl
  refine ⟨s, s', _, h1, h2, h3, ?_⟩
  have e : ∀ n, ((junk.2.2 + n % 2 ^ 32) % 2 ^ 32 * channels * (32 / 8)) % 2 ^ 32 = (junk.2.2 + n) * channels * 4 % 2 ^ 32 := by
    intro n
    rw [Nat.mul_assoc, Nat.mul_assoc, Nat.mod_mul_mod, Nat.mul_mod, Nat.add_mod_mod, ← Nat.mul_mod]
  obtain ⟨h5, _, _, _, _, _, _, _, h4⟩ :=
    image_le ((Header.new false junk channels rate 32).update l.flatten.length) (l.flatten.flatMap (memory false 4))
  rw [h4, h5]
  constructor
  · change (((junk.2.2 + _ % 2 ^ 32) % 2 ^ 32 * channels * (32 / 8)) % 2 ^ 32) % 2 ^ 32 = _
    rw [Nat.mod_mod, e]
  · have : ∀ (h : Header) n, (h.update n).chunkSize % 2 ^ 32 = (36 + (h.update n).sub2Size % 2 ^ 32) % 2 ^ 32 := by
      intro h n
      unfold Header.update
      simp only
      omega
    exact this _ _

/-- The sizes in the header are those of the file, in the only case where this can be relied on:
one channel, and memory that happened to be zero. Missing: any other case (see below). -/
theorem C95_sizes_partial (a b rate : Nat) (l : List (List Nat)) (hl : l.flatten ≠ [])
    (h : 36 + 4 * l.flatten.length < 2 ^ 32) :
    ∃ s s' f, (Sink.new false (a, b, 0) 1 rate).open true = some (true, s) ∧ s.writes false l = some s' ∧
      s'.file = some f ∧ Sizes f := by
  obtain ⟨s, s', f, h1, h2, h3, h4, h5⟩ := C95_fields (a, b, 0) 1 rate l hl
  obtain ⟨t, t', g1, g2, g3⟩ := file_spec false (a, b, 0) 1 rate l hl
  have e1 : s = t := by
    rw [h1] at g1
    exact congrArg Prod.snd (Option.some.inj g1)
  rw [e1, g2] at h2
  rw [← Option.some.inj h2, g3] at h3
  have e2 := Option.some.inj h3
  have hlen : f.length = 44 + 4 * l.flatten.length := by
    rw [← e2, List.length_append, image_length, flatMap_length]
  refine ⟨t, t', f, g1, g2, by rw [g3, e2], ?_, ?_⟩
  · rw [h5, h4, hlen]
    simp only
    omega
  · rw [h4, hlen]
    simp only
    omega

/-- **C95 fails** for several channels: the header claims as many times the data as there are channels,
even if the memory happened to be zero. -/
theorem C95_channels_fails (a b channels rate : Nat) (l : List (List Nat)) (hl : l.flatten ≠ []) (hc : 2 ≤ channels)
    (h : 4 * l.flatten.length * channels < 2 ^ 32) :
    ∃ s s' f, (Sink.new false (a, b, 0) channels rate).open true = some (true, s) ∧ s.writes false l = some s' ∧
      s'.file = some f ∧ le f 40 4 = channels * (4 * l.flatten.length) ∧ ¬ Sizes f := by
  obtain ⟨s, s', f, h1, h2, h3, h4, h5⟩ := C95_fields (a, b, 0) channels rate l hl
  obtain ⟨t, t', g1, g2, g3⟩ := file_spec false (a, b, 0) channels rate l hl
  have e1 : s = t := by
    rw [h1] at g1
    exact congrArg Prod.snd (Option.some.inj g1)
  rw [e1, g2] at h2
  rw [← Option.some.inj h2, g3] at h3
  have e2 := Option.some.inj h3
  have hlen : f.length = 44 + 4 * l.flatten.length := by
    rw [← e2, List.length_append, image_length, flatMap_length]
  have h6 : le f 40 4 = channels * (4 * l.flatten.length) := by
    rw [h4, Nat.mod_eq_of_lt]
    · simp only
      ring
    · simp only
      rw [show (0 + l.flatten.length) * channels * 4 = 4 * l.flatten.length * channels by ring]
      exact h
  refine ⟨t, t', f, g1, g2, by rw [g3, e2], h6, fun hs => ?_⟩
  have h7 := hs.data
  rw [h6, hlen] at h7
  have h8 : 0 < l.flatten.length := List.length_pos_iff.2 hl
  have h9 : 2 * (4 * l.flatten.length) ≤ channels * (4 * l.flatten.length) := Nat.mul_le_mul_right _ hc
  omega

/-- **C95 fails** for one channel too: memory from the heap arena is filled with 0x7a
(`memory_ops.cpp:15-25`, `heap_arena.cpp:68`), and the number of samples starts from that. -/
theorem C95_memory_fails (a b rate : Nat) (l : List (List Nat)) (hl : l.flatten ≠ [])
    (h : 4 * l.flatten.length < 2 ^ 32) :
    ∃ s s' f, (Sink.new false (a, b, 0x7a7a7a7a) 1 rate).open true = some (true, s) ∧ s.writes false l = some s' ∧
      s'.file = some f ∧ ¬ Sizes f := by
  obtain ⟨s, s', f, h1, h2, h3, h4, h5⟩ := C95_fields (a, b, 0x7a7a7a7a) 1 rate l hl
  obtain ⟨t, t', g1, g2, g3⟩ := file_spec false (a, b, 0x7a7a7a7a) 1 rate l hl
  have e1 : s = t := by
    rw [h1] at g1
    exact congrArg Prod.snd (Option.some.inj g1)
  rw [e1, g2] at h2
  rw [← Option.some.inj h2, g3] at h3
  have e2 := Option.some.inj h3
  have hlen : f.length = 44 + 4 * l.flatten.length := by
    rw [← e2, List.length_append, image_length, flatMap_length]
  refine ⟨t, t', f, g1, g2, by rw [g3, e2], fun hs => ?_⟩
  have h7 := hs.data
  rw [h4, hlen] at h7
  simp only at h7
  omega

/-- **C95 fails** on a big-endian host: the size of the format is wrong. -/
theorem C95_big_endian_fails (junk : Nat × Nat × Nat) (channels rate : Nat) (l : List (List Nat))
    (hl : l.flatten ≠ []) :
    ∃ s s' f, (Sink.new true junk channels rate).open true = some (true, s) ∧ s.writes true l = some s' ∧
      s'.file = some f ∧ le f 16 4 = 2 ^ 20 ∧ ∀ c r, ¬ Format f c r := by
  obtain ⟨s, s', h1, h2, h3⟩ := file_spec true junk channels rate l hl
  have h4 := image_big ((Header.new true junk channels rate 32).update l.flatten.length) (l.flatten.flatMap (memory true 4))
  have h5 : ((Header.new true junk channels rate 32).update l.flatten.length).sub1Size = 4096 := by
    change reverseOctets 2 0x10 = 4096
    decide
  rw [h5] at h4
  refine ⟨s, s', _, h1, h2, h3, h4, fun c r hf => ?_⟩
  have h6 := hf.fmtSize
  rw [h4] at h6
  norm_num at h6

/-- **C95**: calls in the wrong order abort, others do not. -/
theorem C95_order (big : Bool) (s : Sink) (x : List Nat) (ok : Bool) :
    ((s.write big x).isSome ↔ s.file.isSome) ∧ ((s.open ok).isSome ↔ s.file = none) := by
  unfold Sink.write Sink.open
  cases hf : s.file with
  | none => cases ok <;> simp
  | some f =>
    by_cases hx : 0 < x.length <;> simp [hx]

/-- The theorems apply: two frames of a mono stream. -/
example := C95_content (1, 2, 3) 1 44100 [[5, 6], [], [7]] (by decide) (by decide) (by decide) (by decide) (by decide)

example := C95_sizes_partial 1 2 44100 [[5, 6], [], [7]] (by decide) (by decide)

example := C95_channels_fails 1 2 2 44100 [[5, 6], [], [7, 8]] (by decide) (by decide) (by decide)

end Verif.WavFile
