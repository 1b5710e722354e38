import Verif.ChannelSet.Lemmas

/-! # C42: channel sets behave as sets -/

namespace Verif.ChannelSet

/-- Every modifying call, on an object with any history, has exactly its mathematical effect on
the set of channels reported by `has_channel`, and aborts exactly when its arguments are not
channel numbers or not a range. -/
theorem C42_operations (s : CSet) (op : Op) :
    (s.apply op).map CSet.chans = specApply s.chans op := by
  have hM : maxChannels = 1024 := rfl
  have hclear : ∀ k, has clearWords k = false := by intro k; simp [has, clearWords]
  have hrange : ∀ a b k, k ∈ List.range' a (b + 1 - a) ↔ a ≤ k ∧ k ≤ b := by
    intro a b k
    rw [List.mem_range'_1]; omega
  have hsetRange : ∀ (s : CSet) a b, (s.setRange a b).map CSet.chans
      = if a ≤ b ∧ b < 1024 then some (Finset.Icc a b) else none := by
    intro s a b
    unfold CSet.setRange
    by_cases h : a ≤ b ∧ b < 1024
    · rw [if_neg (c := _ ∨ _) (by omega), if_neg (c := a > b) (by omega), if_pos h, Option.map_some, chans_index]
      refine congrArg some ?_
      ext k
      rw [mem_chans]
      simp only [has_foldl_setBit, hclear, Bool.false_or, decide_eq_true_eq, hrange, Finset.mem_Icc]
      omega
    · rw [if_neg h]
      by_cases h1 : a ≥ maxChannels ∨ b ≥ maxChannels
      · rw [if_pos h1]; rfl
      · rw [if_neg h1, if_pos (by omega)]; rfl
  have hmask : ∀ (s : CSet) m, (s.setMask m).chans = maskChans m := by
    intro s m
    unfold CSet.setMask
    rw [chans_index]
    ext k
    rw [mem_chans]
    simp only [has_mask, maskChans, Finset.mem_filter, Finset.mem_range, Bool.and_eq_true,
      decide_eq_true_eq]
    constructor
    · rintro ⟨_, h⟩; exact h
    · intro h; exact ⟨by omega, h⟩
  cases op with
  | setMask m =>
    simp only [CSet.apply, specApply, Option.map_some, hmask]
  | setRange a b => exact hsetRange s a b
  | setCount n =>
    simp only [CSet.apply, specApply, CSet.setCount]
    by_cases h : n < 1024
    · rw [if_neg (c := n ≥ maxChannels) (by omega), if_pos h]
      match n, h with
      | 0, _ => simp only [Option.map_some, hmask]; exact congrArg some (by decide)
      | 1, _ => simp only [Option.map_some, hmask]; exact congrArg some (by decide)
      | 2, _ => simp only [Option.map_some, hmask]; exact congrArg some (by decide)
      | 3, _ => simp only [Option.map_some, hmask]; exact congrArg some (by decide)
      | 4, _ => simp only [Option.map_some, hmask]; exact congrArg some (by decide)
      | 5, _ => simp only [Option.map_some, hmask]; exact congrArg some (by decide)
      | 6, _ => simp only [Option.map_some, hmask]; exact congrArg some (by decide)
      | 7, _ => simp only [Option.map_some, hmask]; exact congrArg some (by decide)
      | n + 8, h =>
        simp only [hsetRange, countChans]
        rw [if_pos (by omega)]
        refine congrArg some ?_
        ext k
        simp only [Finset.mem_Icc, Finset.mem_range]; omega
    · rw [if_pos (c := n ≥ maxChannels) (by omega), if_neg h]; rfl
  | toggle n e =>
    simp only [CSet.apply, specApply, CSet.toggle]
    by_cases h : n < 1024
    · rw [if_neg (c := n ≥ maxChannels) (by omega), if_pos h, Option.map_some, chans_index]
      refine congrArg some ?_
      ext k
      rw [mem_chans]
      cases e with
      | true =>
        simp only [if_true, has_setBit, Bool.or_eq_true, decide_eq_true_eq, Finset.mem_insert, mem_chans]
        constructor
        · tauto
        · rintro (rfl | h2)
          · exact ⟨h, Or.inr rfl⟩
          · tauto
      | false =>
        simp only [Bool.false_eq_true, if_false, has_clearBit, Bool.and_eq_true, Bool.not_eq_true',
          decide_eq_false_iff_not, Finset.mem_erase, mem_chans]
        tauto
    · rw [if_pos (c := n ≥ maxChannels) (by omega), if_neg h]; rfl
  | toggleRange a b e =>
    simp only [CSet.apply, specApply, CSet.toggleRange]
    by_cases h : a ≤ b ∧ b < 1024
    · rw [if_neg (c := _ ∨ _) (by omega), if_neg (c := a > b) (by omega), if_pos h, Option.map_some, chans_index]
      refine congrArg some ?_
      ext k
      rw [mem_chans]
      cases e with
      | true =>
        simp only [if_true, has_foldl_setBit, Bool.or_eq_true, decide_eq_true_eq, hrange, Finset.mem_union,
          Finset.mem_Icc, mem_chans]
        constructor
        · tauto
        · rintro (h2 | h2)
          · tauto
          · exact ⟨by omega, Or.inr h2⟩
      | false =>
        simp only [Bool.false_eq_true, if_false, has_foldl_clearBit, Bool.and_eq_true, Bool.not_eq_true',
          decide_eq_false_iff_not, hrange, Finset.mem_sdiff, Finset.mem_Icc, mem_chans]
        tauto
    · rw [if_neg h]
      by_cases h1 : a ≥ maxChannels ∨ b ≥ maxChannels
      · rw [if_pos h1]; rfl
      · rw [if_neg h1, if_pos (by omega)]; rfl
  | and o =>
    simp only [CSet.apply, specApply, CSet.and, Option.map_some, chans_index]
    refine congrArg some ?_
    ext k
    simp only [mem_chans, Finset.mem_inter, has, BitVec.getLsbD_and, Bool.and_eq_true]
    tauto
  | or o =>
    simp only [CSet.apply, specApply, CSet.or, Option.map_some, chans_index]
    refine congrArg some ?_
    ext k
    simp only [mem_chans, Finset.mem_union, has, BitVec.getLsbD_or, Bool.or_eq_true]
    tauto
  | xor o =>
    simp only [CSet.apply, specApply, CSet.xor, Option.map_some, chans_index]
    refine congrArg some ?_
    ext k
    simp only [mem_chans, Finset.mem_symmDiff, has, BitVec.getLsbD_xor, not_and,
      Bool.not_eq_true]
    cases (s.words (k / 64)).getLsbD (k % 64) <;> cases (o.words (k / 64)).getLsbD (k % 64) <;> simp
  | clear =>
    simp only [CSet.apply, specApply, CSet.clear, Option.map_some, chans_index]
    refine congrArg some ?_
    ext k
    simp [mem_chans, hclear]

/-- Non-vacuity: clearing channels 70..72 of channels 64..79 leaves 13 channels. -/
example : ((CSet.empty.setRange 64 79).bind fun s => s.toggleRange 70 72 false).map CSet.numChannels
    = some 13 := by decide +kernel

/-- Count, first and last channel of every object, whatever calls produced it; asking an empty
set for its first or last channel is the only abort. Channel numbers below 1024 can always be
queried. -/
theorem C42_counting {s : CSet} (h : Reach s) :
    s.numChannels = s.chans.card ∧
    (s.chans = ∅ → s.firstChannel = none ∧ s.lastChannel = none) ∧
    (∀ hne : s.chans.Nonempty, s.firstChannel = some (s.chans.min' hne) ∧
      s.lastChannel = some (s.chans.max' hne)) ∧
    (∀ n, s.hasChannel n = if n < 1024 then some (decide (n ∈ s.chans)) else none) := by
  obtain ⟨h1, h2, h3⟩ := reach_indexed h
  have hi := indexWords_inv s.words
  have hnum : s.num = s.chans.card := by rw [chans_eq, h1, hi.num]
  refine ⟨hnum, ?_, ?_, ?_⟩
  · intro he
    have : s.num = 0 := by rw [hnum, he]; rfl
    simp [CSet.firstChannel, CSet.lastChannel, this]
  · intro hne
    have hpos : s.num ≠ 0 := by rw [hnum]; exact Finset.card_ne_zero.2 hne
    have hf : (indexWords s.words).hasFirst = true := by
      rw [hi.hf]
      obtain ⟨n, hn⟩ := hne
      exact ⟨n, (mem_chans s n).1 hn⟩
    obtain ⟨a1, a2, a3⟩ := hi.first hf
    obtain ⟨b1, b2, b3⟩ := hi.last hf
    simp only [CSet.firstChannel, CSet.lastChannel, if_neg hpos, Option.some.injEq]
    constructor
    · rw [h2]
      apply le_antisymm
      · apply Finset.le_min'
        intro y hy
        rw [mem_chans] at hy
        exact a3 y hy.1 hy.2
      · exact Finset.min'_le _ _ ((mem_chans s _).2 ⟨a2, a1⟩)
    · rw [h3]
      apply le_antisymm
      · exact Finset.le_max' _ _ ((mem_chans s _).2 ⟨b2, b1⟩)
      · apply Finset.max'_le
        intro y hy
        rw [mem_chans] at hy
        exact b3 y hy.1 hy.2
  · intro n
    by_cases hn : n < 1024
    · rw [if_pos hn, hasChannel_eq s n hn]
      refine congrArg some ?_
      rw [Bool.eq_iff_iff, decide_eq_true_eq, mem_chans]
      tauto
    · rw [if_neg hn]
      simp only [CSet.hasChannel, maxChannels]
      rw [if_pos (by omega)]

theorem last_of_reach {s : CSet} (h : Reach s) :
    (s.last < 64 → ∀ n ∈ s.chans, n < 64) ∧ (64 ≤ s.last → s.last ∈ s.chans) := by
  obtain ⟨_, _, h3⟩ := reach_indexed h
  have hi := indexWords_inv s.words
  constructor
  · intro _ n hn
    have hn' := (mem_chans s n).1 hn
    have hf := hi.hf.2 ⟨n, hn'⟩
    have := (hi.last hf).2.2 n hn'.1 hn'.2
    omega
  · intro hl
    cases hf : (indexWords s.words).hasFirst with
    | true =>
      obtain ⟨b1, b2, _⟩ := hi.last hf
      rw [h3]; exact (mem_chans s _).2 ⟨b2, b1⟩
    | false =>
      have := (hi.zero hf).2
      omega

theorem word0 {s : CSet} (hl : ∀ n ∈ s.chans, n < 64) (i : Nat) (hi : i < 64) :
    (s.words 0).getLsbD i = true ↔ i ∈ s.chans := by
  rw [mem_chans]
  unfold has
  rw [show i / 64 = 0 by omega, show i % 64 = i by omega]
  constructor
  · intro h; exact ⟨by omega, h⟩
  · exact fun h => h.2

theorem mem_maskChans (m : BitVec 32) (i : Nat) : i ∈ maskChans m ↔ (m.setWidth 64).getLsbD i = true := by
  simp only [maskChans, Finset.mem_filter, Finset.mem_range, BitVec.getLsbD_setWidth, Bool.and_eq_true,
    decide_eq_true_eq]
  constructor
  · rintro ⟨a, b⟩; exact ⟨by omega, b⟩
  · rintro ⟨a, b⟩
    refine ⟨?_, b⟩
    by_contra hc
    rw [BitVec.getLsbD_of_ge m i (by omega)] at b
    exact absurd b (by simp)

/-- Equality and subset queries against a mask agree with the mathematical set, for sets over
all 1024 channels. -/
theorem C42_mask_queries {s : CSet} (h : Reach s) (m : BitVec 32) :
    (s.isEqual m = true ↔ s.chans = maskChans m) ∧
    (s.isSubset m = true ↔ s.chans ⊆ maskChans m) := by
  obtain ⟨hlo, hhi⟩ := last_of_reach h
  have hm : ∀ i ∈ maskChans m, i < 32 := by
    intro i hi; simp only [maskChans, Finset.mem_filter, Finset.mem_range] at hi; exact hi.1
  by_cases hl : s.last ≥ 64
  · have hmem := hhi hl
    have hnot : s.last ∉ maskChans m := fun hc => by have := hm _ hc; omega
    constructor
    · simp only [CSet.isEqual, wordBits, if_pos hl, Bool.false_eq_true, false_iff]
      intro he; rw [he] at hmem; exact hnot hmem
    · simp only [CSet.isSubset, wordBits, if_pos hl, Bool.false_eq_true, false_iff]
      intro he; exact hnot (he hmem)
  · have hlt := hlo (by omega)
    constructor
    · simp only [CSet.isEqual, wordBits, if_neg hl, beq_iff_eq]
      constructor
      · intro he
        ext i
        rw [mem_maskChans, ← he]
        by_cases hi : i < 64
        · rw [word0 hlt i hi]
        · rw [BitVec.getLsbD_of_ge _ i (by omega)]
          constructor
          · intro hc; exact absurd (hlt i hc) hi
          · intro hc; simp at hc
      · intro he
        apply BitVec.eq_of_getLsbD_eq
        intro i hi
        rw [Bool.eq_iff_iff, word0 hlt i hi, he, mem_maskChans]
    · simp only [CSet.isSubset, wordBits, if_neg hl, beq_iff_eq]
      constructor
      · intro he i hi
        have hi64 := hlt i hi
        rw [mem_maskChans]
        rw [← word0 hlt i hi64, ← he] at hi
        simp only [BitVec.getLsbD_and, Bool.and_eq_true] at hi
        exact hi.2
      · intro he
        apply BitVec.eq_of_getLsbD_eq
        intro i hi
        rw [BitVec.getLsbD_and]
        cases hc : (s.words 0).getLsbD i with
        | false => simp
        | true =>
          have := he ((word0 hlt i hi).1 hc)
          rw [mem_maskChans] at this
          rw [this]; rfl

/-- Non-vacuity: a reachable set with a channel above the word size. -/
example : ∃ s, Reach s ∧ s.isSubset 0x11 = false ∧ s.chans.card = 2 := by
  refine ⟨(((CSet.empty.setMask 1).toggle 100 true).getD CSet.empty), ?_, by decide +kernel, by decide +kernel⟩
  exact .apply (.toggle 100 true) (.apply (.setMask 1) .empty rfl) rfl

/-- Superset queries agree with the mathematical set as long as no channel above 63 is enabled
(the missing part is `C42_superset_fails`). -/
theorem C42_superset_partial {s : CSet} (h : Reach s) (m : BitVec 32) (hs : ∀ n ∈ s.chans, n < 64) :
    s.isSuperset m = true ↔ maskChans m ⊆ s.chans := by
  obtain ⟨_, hhi⟩ := last_of_reach h
  have hl : ¬ s.last ≥ 64 := fun hc => by have := hs _ (hhi hc); omega
  simp only [CSet.isSuperset, wordBits, if_neg hl, beq_iff_eq]
  constructor
  · intro he i hi
    have hi32 : i < 32 := by
      simp only [maskChans, Finset.mem_filter, Finset.mem_range] at hi; exact hi.1
    rw [mem_maskChans, ← he] at hi
    simp only [BitVec.getLsbD_and, Bool.and_eq_true] at hi
    exact (word0 hs i (by omega)).1 hi.1
  · intro he
    apply BitVec.eq_of_getLsbD_eq
    intro i hi
    rw [BitVec.getLsbD_and]
    cases hc : (m.setWidth 64).getLsbD i with
    | false => simp
    | true =>
      have := he ((mem_maskChans m i).2 hc)
      rw [(word0 hs i hi).2 this]; rfl

/-- **Finding.** The set {100} is reported to be a superset of every mask, for example of the
stereo mask, although it contains neither of its channels (channel_set.cpp:170-172). -/
theorem C42_superset_fails :
    ∃ s, Reach s ∧ s.isSuperset 0x11 = true ∧ s.chans = {100} := by
  refine ⟨((CSet.empty.toggle 100 true).getD CSet.empty), ?_, by decide +kernel, by decide +kernel⟩
  exact .apply (.toggle 100 true) .empty rfl

/-- `set_count(n)` yields `n` channels for every `n` below the maximum. -/
theorem C42_set_count {s s' : CSet} (h : Reach s) (n : Nat) (hs : s.setCount n = some s') :
    s'.numChannels = n := by
  have h' : Reach s' := .apply (.setCount n) h hs
  rw [(C42_counting h').1]
  have hop := C42_operations s (.setCount n)
  simp only [CSet.apply, hs, Option.map_some, specApply] at hop
  split_ifs at hop with hn
  simp only [Option.some.injEq] at hop
  rw [hop]
  match n with
  | 0 => rfl
  | 1 => rfl
  | 2 => rfl
  | 3 => rfl
  | 4 => rfl
  | 5 => rfl
  | 6 => rfl
  | 7 => rfl
  | n + 8 => simp only [countChans, Finset.card_range]

/-- Non-vacuity: 1000 channels can be requested. -/
example : ∃ s, CSet.empty.setCount 1000 = some s := ⟨_, rfl⟩

/-- **Finding.** `set_count` aborts when asked for all `max_channels()` channels
(channel_set.cpp:205), although a set of 1024 channels is legal and `set_range(0, 1023)` makes
one. -/
theorem C42_set_count_max_fails (s : CSet) :
    s.setCount maxChannels = none ∧ ∃ s', s.setRange 0 (maxChannels - 1) = some s' := by
  refine ⟨rfl, ?_⟩
  unfold CSet.setRange maxChannels
  rw [if_neg (by omega), if_neg (by omega)]
  exact ⟨_, rfl⟩

/-- Two objects compare equal exactly when they have the same layout, order and channels. -/
theorem C42_equality (s o : CSet) :
    s.eq o = true ↔ s.layout = o.layout ∧ s.order = o.order ∧ s.chans = o.chans := by
  unfold CSet.eq numWords
  simp only [Bool.and_eq_true, decide_eq_true_eq, List.all_eq_true, List.mem_range, beq_iff_eq, and_assoc]
  refine and_congr Iff.rfl (and_congr Iff.rfl ?_)
  constructor
  · intro h
    ext k
    simp only [mem_chans, has]
    constructor
    · rintro ⟨a, b⟩; rw [h _ (by omega)] at b; exact ⟨a, b⟩
    · rintro ⟨a, b⟩; rw [← h _ (by omega)] at b; exact ⟨a, b⟩
  · intro h w hw
    apply BitVec.eq_of_getLsbD_eq
    intro i hi
    rw [Bool.eq_iff_iff]
    have hk := Finset.ext_iff.1 h (64 * w + i)
    simp only [mem_chans, has] at hk
    rw [show (64 * w + i) / 64 = w by omega, show (64 * w + i) % 64 = i by omega] at hk
    have : 64 * w + i < 1024 := by omega
    tauto

/-- The byte view used when the set is sent elsewhere: bit `j` of byte `n` is channel `8n+j`;
bytes beyond 127 abort. -/
theorem C42_bytes (s : CSet) (n : Nat) :
    (128 ≤ n → s.byteAt n = none) ∧
    (n < 128 → ∃ b, s.byteAt n = some b ∧ ∀ j, j < 8 → (b.getLsbD j = true ↔ 8 * n + j ∈ s.chans)) := by
  unfold CSet.byteAt
  constructor
  · intro h; rw [if_pos h]
  · intro h
    rw [if_neg (by omega)]
    refine ⟨_, rfl, ?_⟩
    intro j hj
    rw [mem_chans]
    simp only [BitVec.getLsbD_setWidth, BitVec.getLsbD_ushiftRight, has]
    rw [show (8 * n + j) / 64 = n / 8 by omega, show (8 * n + j) % 64 = n % 8 * 8 + j by omega]
    have : 8 * n + j < 1024 := by omega
    simp [hj, this]

/-- A valid set is never empty, so its first and last channel can be taken; a valid surround set
has only channels below `ChanPos_Max` = 17. -/
theorem C42_valid {s : CSet} (h : Reach s) (hv : s.isValid = true) :
    s.chans.Nonempty ∧ s.firstChannel.isSome ∧ s.lastChannel.isSome ∧
      (s.layout = .surround → ∀ n ∈ s.chans, n < 17) := by
  have hc := C42_counting h
  have hnum : s.num ≠ 0 := by
    unfold CSet.isValid at hv
    split at hv
    · simp at hv
    · simp only [decide_eq_true_eq] at hv; exact hv.2.1
    · simp only [decide_eq_true_eq] at hv; exact hv.2
  have hne : s.chans.Nonempty := by
    rw [← Finset.card_ne_zero, ← hc.1]; exact hnum
  refine ⟨hne, by simp [CSet.firstChannel, hnum], by simp [CSet.lastChannel, hnum], ?_⟩
  intro hl n hn
  have hlast := (hc.2.2.1 hne).2
  simp only [CSet.lastChannel, if_neg hnum, Option.some.injEq] at hlast
  have hle := Finset.le_max' s.chans n hn
  unfold CSet.isValid at hv
  rw [hl] at hv
  simp only [decide_eq_true_eq] at hv
  omega

/-- Non-vacuity: a valid stereo set. -/
example : ∃ s, Reach s ∧ s.isValid = true ∧ s.layout = .surround := by
  refine ⟨(CSet.make .surround .smpte 0x11).getD CSet.empty, ?_, by decide +kernel, by decide +kernel⟩
  exact .make (l := .surround) (o := .smpte) (m := 0x11) rfl

end Verif.ChannelSet
