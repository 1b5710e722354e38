import Verif.SpecParse.FormatModel
import Verif.SpecParse.Props

/-!
# Printing of channel sets: properties

C94: the text printed for the channels of a set is accepted by `parse_sample_spec`, and means the same
set.
-/

namespace Verif.SpecParse

open Verif.ChannelSet Spec

theorem posStr_eq (n : Nat) (h : n < 17) : ∃ s, posStr n = some s ∧ positions[n]? = some s := by
  have : ∀ n < 17, ∃ s ∈ positions[n]?, posStr n = some s := by decide +kernel
  obtain ⟨s, h1, h2⟩ := this n h
  exact ⟨s, h2, h1⟩

theorem has_iff {s : CSet} (hr : Reach s) (n : Nat) (h : n < 1024) :
    s.hasChannel n = some (decide (n ∈ s.chans)) := by
  rw [(C42_counting hr).2.2.2 n, if_pos h]

theorem namesText_aux {s : CSet} (hr : Reach s) (h17 : ∀ n ∈ s.chans, n < 17) (hf : s.first ∈ s.chans) :
    ∀ m, s.first + m < 1024 → ∃ t, (List.range' s.first (m + 1)).foldl (nameStep s) (some []) = some t ∧
      Names t (s.chans.filter fun n => s.first ≤ n ∧ n ≤ s.first + m) := by
  intro m
  induction m with
  | zero =>
    intro hlt
    obtain ⟨x, e1, e2⟩ := posStr_eq s.first (h17 _ hf)
    refine ⟨x.toList, ?_, ?_⟩
    · simp only [Nat.zero_add, List.range'_one, List.foldl_cons, List.foldl_nil, nameStep]
      rw [has_iff hr s.first hlt]
      simp [hf, e1]
    · have : (s.chans.filter fun n => s.first ≤ n ∧ n ≤ s.first + 0) = {s.first} := by
        ext n
        rw [Finset.mem_filter, Finset.mem_singleton]
        constructor
        · rintro ⟨_, h1, h2⟩
          omega
        · intro h1
          rw [h1]
          exact ⟨hf, by omega⟩
      rw [this]
      exact .one _ _ e2
  | succ m ih =>
    intro hlt
    obtain ⟨t, h1, h2⟩ := ih (by omega)
    rw [List.range'_1_concat, List.foldl_append, h1]
    simp only [List.foldl_cons, List.foldl_nil, nameStep]
    rw [has_iff hr _ (by omega)]
    by_cases hm : s.first + (m + 1) ∈ s.chans
    · obtain ⟨x, e1, e2⟩ := posStr_eq _ (h17 _ hm)
      refine ⟨t ++ ',' :: x.toList, ?_, ?_⟩
      · simp [hm, e1]
      · have : (s.chans.filter fun n => s.first ≤ n ∧ n ≤ s.first + (m + 1))
            = insert (s.first + (m + 1)) (s.chans.filter fun n => s.first ≤ n ∧ n ≤ s.first + m) := by
          ext n
          rw [Finset.mem_filter, Finset.mem_insert, Finset.mem_filter]
          constructor
          · rintro ⟨a1, a2, a3⟩
            by_cases hc : n = s.first + (m + 1)
            · exact Or.inl hc
            · exact Or.inr ⟨a1, a2, by omega⟩
          · rintro (a | ⟨a1, a2, a3⟩)
            · rw [a]
              exact ⟨hm, by omega⟩
            · exact ⟨a1, a2, by omega⟩
        rw [this]
        exact .more _ _ _ _ h2 e2
    · refine ⟨t, ?_, ?_⟩
      · simp [hm]
      · have : (s.chans.filter fun n => s.first ≤ n ∧ n ≤ s.first + (m + 1))
            = s.chans.filter fun n => s.first ≤ n ∧ n ≤ s.first + m := by
          ext n
          rw [Finset.mem_filter, Finset.mem_filter]
          constructor
          · rintro ⟨a1, a2, a3⟩
            refine ⟨a1, a2, ?_⟩
            by_contra hc
            rw [show n = s.first + (m + 1) by omega] at a1
            exact hm a1
          · rintro ⟨a1, a2, a3⟩
            exact ⟨a1, a2, by omega⟩
        rw [this]
        exact h2

theorem bounds {s : CSet} (hr : Reach s) (hne : s.chans ≠ ∅) :
    s.num ≠ 0 ∧ s.first ∈ s.chans ∧ s.last ∈ s.chans ∧ (∀ n ∈ s.chans, s.first ≤ n ∧ n ≤ s.last) ∧
      ∀ n ∈ s.chans, n < 1024 := by
  have hcount := C42_counting hr
  have hne' := Finset.nonempty_iff_ne_empty.2 hne
  have hnum : s.num ≠ 0 := by
    have := hcount.1
    unfold CSet.numChannels at this
    rw [this]
    exact fun h0 => hne (Finset.card_eq_zero.1 h0)
  obtain ⟨h1, h2⟩ := hcount.2.2.1 hne'
  unfold CSet.firstChannel at h1
  unfold CSet.lastChannel at h2
  rw [if_neg hnum] at h1 h2
  rw [Option.some.inj h1, Option.some.inj h2]
  refine ⟨hnum, Finset.min'_mem _ _, Finset.max'_mem _ _, fun n hn => ⟨Finset.min'_le _ _ hn, Finset.le_max' _ _ hn⟩,
    fun n hn => ?_⟩
  unfold CSet.chans at hn
  exact Finset.mem_range.1 (Finset.mem_filter.1 hn).1

/-- **C94**: names printed for a set with the surround layout mean this set. -/
theorem C94_surround {s : CSet} (hr : Reach s) (hl : s.layout = .surround) (hne : s.chans ≠ ∅)
    (h17 : ∀ n ∈ s.chans, n < 17) : ∃ t, chansText s = some t ∧ Channels t .surround .smpte s.chans := by
  obtain ⟨_, hf, hla, hb, hlt⟩ := bounds hr hne
  have h1 := hb _ hla
  have h2 := hlt _ hla
  obtain ⟨t, e, hn⟩ := namesText_aux hr h17 hf (s.last - s.first) (by omega)
  refine ⟨t, ?_, ?_⟩
  · unfold chansText namesText
    rw [if_pos hl, show s.last + 1 - s.first = s.last - s.first + 1 by omega]
    exact e
  · have : (s.chans.filter fun n => s.first ≤ n ∧ n ≤ s.first + (s.last - s.first)) = s.chans := by
      apply Finset.filter_true_of_mem
      intro n hn
      have := hb n hn
      omega
    rw [this] at hn
    exact .names t _ hn

/-- **C94 fails** beyond the table of positions: printing a surround set with channel 17 or above aborts. -/
theorem C94_surround_fails : ∃ s, Reach s ∧ s.layout = .surround ∧ s.chans ≠ ∅ ∧ setText s = none := by
  obtain ⟨s1, e1, u1⟩ := toggle_some CSet.empty 17 (by decide)
  have r1 := u1.reach .empty
  have e2 : s1.setLayout .surround = some { s1 with layout := .surround } := by
    unfold CSet.setLayout
    rw [if_neg (by decide)]
  have r2 : Reach { s1 with layout := .surround } := .setLayout .surround r1 e2
  have hmem : 17 ∈ s1.chans := by rw [u1.chans]; exact Finset.mem_insert_self _ _
  have hchans : s1.chans = {17} := by
    rw [u1.chans]
    have : CSet.empty.chans = ∅ := by
      ext n
      rw [mem_chans]
      simp [CSet.empty, CSet.index, clearWords, has]
    rw [this]
    rfl
  have hne : ({ s1 with layout := .surround } : CSet).chans ≠ ∅ := by
    change s1.chans ≠ ∅
    exact Finset.ne_empty_of_mem hmem
  obtain ⟨hnum, hf, hla, hb, hlt⟩ := bounds r2 hne
  refine ⟨_, r2, rfl, hne, ?_⟩
  change s1.num ≠ 0 at hnum
  change s1.first ∈ s1.chans at hf
  change s1.last ∈ s1.chans at hla
  rw [hchans, Finset.mem_singleton] at hf hla
  have hhas := has_iff r2 17 (by decide)
  have : ({ s1 with layout := .surround } : CSet).chans = s1.chans := rfl
  rw [this] at hhas
  have hstep : nameStep { s1 with layout := .surround } (some []) 17 = none := by
    unfold nameStep
    rw [hhas, decide_eq_true hmem]
    rfl
  have hnames : namesText { s1 with layout := .surround } = none := by
    unfold namesText
    change (List.range' s1.first (s1.last + 1 - s1.first)).foldl _ _ = none
    rw [hf, hla]
    exact hstep
  unfold setText chansText
  rw [if_pos hnum, if_pos rfl, hnames]
  rfl

/-! ## Masks -/

/-- Bytes of a set as numbers. -/
def byteVal (s : CSet) (n : Nat) : Nat := ((s.byteAt n).getD 0).toNat

theorem byteVal_lt (s : CSet) (n : Nat) : byteVal s n < 256 := by
  unfold byteVal
  exact ((s.byteAt n).getD 0).isLt

/-- Number with the first `k` bytes. -/
def bytesVal (s : CSet) : Nat → Nat
  | 0 => 0
  | k + 1 => byteVal s k * 2 ^ (8 * k) + bytesVal s k

theorem bytesVal_lt (s : CSet) (k : Nat) : bytesVal s k < 2 ^ (8 * k) := by
  induction k with
  | zero => exact Nat.one_pos
  | succ k ih =>
    unfold bytesVal
    have h1 := byteVal_lt s k
    have h2 : byteVal s k * 2 ^ (8 * k) ≤ 255 * 2 ^ (8 * k) := Nat.mul_le_mul_right _ (by omega)
    have h3 : 2 ^ (8 * (k + 1)) = 256 * 2 ^ (8 * k) := by
      rw [Nat.mul_add, pow_add]
      ring
    omega

theorem bytesVal_bit (s : CSet) (k i : Nat) : (bytesVal s k).testBit i = (decide (i < 8 * k) && (byteVal s (i / 8)).testBit (i % 8)) := by
  induction k with
  | zero => simp [bytesVal]
  | succ k ih =>
    unfold bytesVal
    rw [Nat.mul_comm, Nat.testBit_two_pow_mul_add _ (bytesVal_lt s k)]
    split
    · rename_i h
      rw [ih]
      simp [h, show i < 8 * (k + 1) by omega]
    · rename_i h
      by_cases h2 : i < 8 * (k + 1)
      · rw [show i - 8 * k = i % 8 by omega, show i / 8 = k by omega]
        simp [h2]
      · rw [Nat.testBit_lt_two_pow]
        · simp [h2]
        · have := byteVal_lt s k
          have h3 : (2 : Nat) ^ 8 ≤ 2 ^ (i - 8 * k) := Nat.pow_le_pow_right (by omega) (by omega)
          exact lt_of_lt_of_le this h3

theorem hexChar_dig : ∀ d < 16, dig (hexChar d) = d ∧ isHex (hexChar d) = true := by decide +kernel

theorem byteAt_val (s : CSet) (n : Nat) (h : n < 128) : ∃ b : BitVec 8, s.byteAt n = some b ∧ b.toNat = byteVal s n := by
  cases e : s.byteAt n with
  | none =>
    unfold CSet.byteAt at e
    rw [if_neg (by omega)] at e
    cases e
  | some b =>
    refine ⟨b, rfl, ?_⟩
    unfold byteVal
    rw [e]
    rfl

/-- Digits of all bytes below the last one. -/
theorem bytesText_low (s : CSet) (hl : lastByte s < 128) : ∀ n, n < lastByte s → ∃ t, bytesText s n = some t ∧
    t.length = 2 * (n + 1) ∧ (∀ c ∈ t, isHex c = true) ∧ value 16 t = bytesVal s (n + 1) := by
  have hbyte : ∀ n, n < lastByte s → ∃ t, byteText s n = some t ∧ t.length = 2 ∧ (∀ c ∈ t, isHex c = true) ∧
      value 16 t = byteVal s n := by
    intro n hn
    obtain ⟨b, e, hb⟩ := byteAt_val s n (by omega)
    have hlt := byteVal_lt s n
    unfold byteText
    rw [e]
    simp only [Option.map_some, hb]
    rw [if_pos (Or.inr (by omega))]
    obtain ⟨d1, d2⟩ := hexChar_dig (byteVal s n / 16 % 16) (by omega)
    obtain ⟨d3, d4⟩ := hexChar_dig (byteVal s n % 16) (by omega)
    refine ⟨_, rfl, rfl, ?_, ?_⟩
    · intro c hc
      simp only [List.cons_append, List.nil_append, List.mem_cons, List.not_mem_nil, or_false] at hc
      rcases hc with hc | hc
      · rw [hc]; exact d2
      · rw [hc]; exact d4
    · rw [value_append, show value 16 [hexChar (byteVal s n / 16 % 16)] = dig (hexChar (byteVal s n / 16 % 16)) by
        simp [value, dig], d1, d3]
      omega
  intro n
  induction n with
  | zero =>
    intro h
    obtain ⟨t, e1, e2, e3, e4⟩ := hbyte 0 h
    refine ⟨t, e1, e2, e3, ?_⟩
    rw [e4]
    simp [bytesVal]
  | succ n ih =>
    intro h
    obtain ⟨t, e1, e2, e3, e4⟩ := hbyte (n + 1) h
    obtain ⟨u, f1, f2, f3, f4⟩ := ih (by omega)
    refine ⟨t ++ u, ?_, ?_, ?_, ?_⟩
    · unfold bytesText
      rw [e1, f1]
      rfl
    · rw [List.length_append, e2, f2]
      omega
    · intro c hc
      rcases List.mem_append.1 hc with hc | hc
      · exact e3 c hc
      · exact f3 c hc
    · have : ∀ t u : List Char, value 16 (t ++ u) = value 16 t * 16 ^ u.length + value 16 u := by
        intro t u
        induction t with
        | nil => simp [value]
        | cons c t ih =>
          rw [List.cons_append]
          simp only [value]
          rw [ih, List.length_append, pow_add]
          ring
      rw [this, e4, f4, f2]
      conv_rhs => unfold bytesVal
      rw [show (16 : Nat) ^ (2 * (n + 1)) = 2 ^ (8 * (n + 1)) by
        rw [show (16 : Nat) = 2 ^ 4 by norm_num, ← pow_mul]
        congr 1
        omega]

theorem value_app (t u : List Char) : value 16 (t ++ u) = value 16 t * 16 ^ u.length + value 16 u := by
  induction t with
  | nil => simp [value]
  | cons c t ih =>
    rw [List.cons_append]
    simp only [value]
    rw [ih, List.length_append, pow_add]
    ring

theorem lastByte_spec (s : CSet) : lastByte s < 128 ∧ ∀ n, n < 128 → lastByte s < n → byteVal s n = 0 := by
  have key : ∀ k, (List.range (k + 1)).foldl (fun l n => if s.byteAt n ≠ some 0 then n else l) 0 ≤ k ∧
      ∀ n, n < k + 1 → (List.range (k + 1)).foldl (fun l n => if s.byteAt n ≠ some 0 then n else l) 0 < n →
        s.byteAt n = some 0 := by
    intro k
    induction k with
    | zero =>
      refine ⟨?_, ?_⟩
      · simp
      · intro n h1 h2
        omega
    | succ k ih =>
      rw [List.range_succ, List.foldl_append]
      simp only [List.foldl_cons, List.foldl_nil]
      by_cases hc : s.byteAt (k + 1) ≠ some 0
      · rw [if_pos hc]
        exact ⟨Nat.le_refl _, fun n h1 h2 => by omega⟩
      · rw [if_neg hc]
        refine ⟨by omega, fun n h1 h2 => ?_⟩
        by_cases hn : n = k + 1
        · rw [hn]
          exact not_not.1 hc
        · exact ih.2 n (by omega) h2
  have h : lastByte s ≤ 127 ∧ ∀ n, n < 127 + 1 → lastByte s < n → s.byteAt n = some 0 := key 127
  refine ⟨by omega, fun n h1 h2 => ?_⟩
  have := h.2 n h1 h2
  unfold byteVal
  rw [this]
  rfl

theorem bytesText_all (s : CSet) : ∃ t, bytesText s (lastByte s) = some t ∧ t ≠ [] ∧ (∀ c ∈ t, isHex c = true) ∧
    value 16 t = bytesVal s (lastByte s + 1) := by
  obtain ⟨hl, _⟩ := lastByte_spec s
  have htop : ∃ t, byteText s (lastByte s) = some t ∧ t ≠ [] ∧ (∀ c ∈ t, isHex c = true) ∧
      value 16 t = byteVal s (lastByte s) := by
    obtain ⟨b, e, hb⟩ := byteAt_val s (lastByte s) hl
    have hlt := byteVal_lt s (lastByte s)
    unfold byteText
    rw [e]
    simp only [Option.map_some, hb]
    obtain ⟨d1, d2⟩ := hexChar_dig (byteVal s (lastByte s) / 16 % 16) (by omega)
    obtain ⟨d3, d4⟩ := hexChar_dig (byteVal s (lastByte s) % 16) (by omega)
    refine ⟨_, rfl, by simp, ?_, ?_⟩
    · intro c hc
      rcases List.mem_append.1 hc with hc | hc
      · split at hc
        · rw [List.mem_singleton.1 hc]; exact d2
        · cases hc
      · rw [List.mem_singleton.1 hc]; exact d4
    · rw [value_append, d3]
      split
      · rw [show value 16 [hexChar (byteVal s (lastByte s) / 16 % 16)]
          = dig (hexChar (byteVal s (lastByte s) / 16 % 16)) by simp [value, dig], d1]
        omega
      · rename_i h
        rw [not_or, not_not] at h
        have : value 16 [] = 0 := rfl
        rw [this]
        omega
  obtain ⟨t, e1, e2, e3, e4⟩ := htop
  cases hn : lastByte s with
  | zero =>
    rw [hn] at e1 e4
    refine ⟨t, e1, e2, e3, ?_⟩
    rw [e4]
    simp [bytesVal]
  | succ n =>
    obtain ⟨u, f1, f2, f3, f4⟩ := bytesText_low s hl n (by omega)
    rw [hn] at e1 e4
    refine ⟨t ++ u, ?_, by simp [e2], ?_, ?_⟩
    · unfold bytesText
      rw [e1, f1]
      rfl
    · intro c hc
      rcases List.mem_append.1 hc with hc | hc
      · exact e3 c hc
      · exact f3 c hc
    · rw [value_app, e4, f4, f2]
      conv_rhs => unfold bytesVal
      rw [show (16 : Nat) ^ (2 * (n + 1)) = 2 ^ (8 * (n + 1)) by
        rw [show (16 : Nat) = 2 ^ 4 by norm_num, ← pow_mul]
        congr 1
        omega]

theorem byteVal_bit {s : CSet} (n : Nat) (h : n < 1024) :
    (byteVal s (n / 8)).testBit (n % 8) = decide (n ∈ s.chans) := by
  obtain ⟨b, e, hb⟩ := (C42_bytes s (n / 8)).2 (by omega)
  have := hb (n % 8) (by omega)
  rw [show 8 * (n / 8) + n % 8 = n by omega] at this
  unfold byteVal
  rw [e, Bool.eq_iff_iff, decide_eq_true_iff, ← this]
  rfl

/-- **C94**: the mask printed for a set with the multitrack layout means this set. -/
theorem C94_multitrack {s : CSet} (hl : s.layout = .multitrack) :
    ∃ t, chansText s = some t ∧ Channels t .multitrack .none s.chans := by
  obtain ⟨t, e1, e2, e3, e4⟩ := bytesText_all s
  obtain ⟨hlt, hz⟩ := lastByte_spec s
  refine ⟨'0' :: 'x' :: t, ?_, ?_⟩
  · unfold chansText
    rw [if_neg (by rw [hl]; decide), e1]
    rfl
  · have hlt' : value 16 t < 2 ^ 1024 := by
      rw [e4]
      exact lt_of_lt_of_le (bytesVal_lt s _) (Nat.pow_le_pow_right (by omega) (by omega))
    have := Channels.mask t e2 (fun c hc => (hexDigit_iff c).2 (e3 c hc)) hlt'
    have hA : ((Finset.range 1024).filter fun n => (value 16 t).testBit n = true) = s.chans := by
      ext n
      rw [Finset.mem_filter, Finset.mem_range, e4, bytesVal_bit]
      constructor
      · rintro ⟨h1, h2⟩
        rw [byteVal_bit n h1] at h2
        exact of_decide_eq_true (Bool.and_eq_true_iff.1 h2).2
      · intro h1
        have hn : n < 1024 := by
          unfold CSet.chans at h1
          exact Finset.mem_range.1 (Finset.mem_filter.1 h1).1
        refine ⟨hn, ?_⟩
        have h2 := byteVal_bit (s := s) n hn
        rw [h2]
        have : n < 8 * (lastByte s + 1) := by
          by_contra hc
          have h3 := hz (n / 8) (by omega) (by omega)
          rw [h3] at h2
          simp [h1] at h2
        simp [this, h1]
    rw [hA] at this
    exact this

/-- **C94**: the text printed for the channels, given to the parser, yields the set that was printed. -/
theorem C94_round_trip {s : CSet} (hr : Reach s) (hne : s.chans ≠ ∅)
    (h : s.layout = .multitrack ∨ s.layout = .surround ∧ ∀ n ∈ s.chans, n < 17) :
    ∃ a t, setText s = some (a ++ " ch=".toList ++ t ++ ['>']) ∧ ∀ res, ∃ sp,
      parse res ("-/-/".toList ++ t) = .ok (true, sp) ∧ sp.chs.layout = s.layout ∧ sp.chs.chans = s.chans := by
  obtain ⟨hnum, _⟩ := bounds hr hne
  have key : ∃ t o, chansText s = some t ∧ Channels t s.layout o s.chans := by
    rcases h with h | ⟨h1, h2⟩
    · obtain ⟨t, e, hc⟩ := C94_multitrack h
      rw [h]
      exact ⟨t, _, e, hc⟩
    · obtain ⟨t, e, hc⟩ := C94_surround hr h1 hne h2
      rw [h1]
      exact ⟨t, _, e, hc⟩
  obtain ⟨t, o, e, hc⟩ := key
  refine ⟨headText s, t, ?_, fun res => ?_⟩
  · unfold setText
    rw [if_pos hnum, e]
    rfl
  · obtain ⟨sp, p1, _, _, p4, _, p6⟩ := (C93_meaning res ("-/-/".toList ++ t) 0 0 s.layout o s.chans).2
      ⟨['-'], ['-'], t, rfl, .dash, .dash, hc⟩
    exact ⟨sp, p1, p4, p6⟩

/-- **C94**: sets with the same layout that are printed alike have the same channels. -/
theorem C94_distinct {s s' : CSet} (hr : Reach s) (hr' : Reach s') (hne : s.chans ≠ ∅) (hne' : s'.chans ≠ ∅)
    (h : s.layout = .multitrack ∨ s.layout = .surround ∧ ∀ n ∈ s.chans, n < 17)
    (h' : s'.layout = .multitrack ∨ s'.layout = .surround ∧ ∀ n ∈ s'.chans, n < 17)
    (he : chansText s = chansText s') : s.chans = s'.chans := by
  have key : ∀ s : CSet, Reach s → s.chans ≠ ∅ →
      (s.layout = .multitrack ∨ s.layout = .surround ∧ ∀ n ∈ s.chans, n < 17) →
      ∃ t o, chansText s = some t ∧ Channels t s.layout o s.chans := by
    intro s hr hne h
    rcases h with h | ⟨h1, h2⟩
    · obtain ⟨t, e, hc⟩ := C94_multitrack h
      rw [h]
      exact ⟨t, _, e, hc⟩
    · obtain ⟨t, e, hc⟩ := C94_surround hr h1 hne h2
      rw [h1]
      exact ⟨t, _, e, hc⟩
  obtain ⟨t, o, e, hc⟩ := key s hr hne h
  obtain ⟨t', o', e', hc'⟩ := key s' hr' hne' h'
  rw [e, e'] at he
  have ht := Option.some.inj he
  rw [ht] at hc
  exact (C93_unique ("-/-/".toList ++ t') 0 0 0 0 _ _ _ _ _ _ ⟨['-'], ['-'], t', rfl, .dash, .dash, hc⟩
    ⟨['-'], ['-'], t', rfl, .dash, .dash, hc'⟩).2.2.2.2

/-- A multitrack set with two channels. -/
def pair (a b : Nat) : Option CSet :=
  (CSet.empty.toggle a true).bind fun s => (s.toggle b true).bind fun s => s.setLayout .multitrack

/-- **C94 fails** in the buffer of `channel_set_to_str`: different sets are printed alike. -/
theorem C94_truncated_fails : ∃ s s', Reach s ∧ Reach s' ∧ s.layout = .multitrack ∧ s'.layout = .multitrack ∧
    setStr s = setStr s' ∧ (setStr s).isSome ∧ s.chans ≠ s'.chans := by
  have hreach : ∀ a b s, a < 1024 → b < 1024 → pair a b = some s → Reach s ∧ s.layout = .multitrack ∧
      ∀ n, n ∈ s.chans ↔ n = a ∨ n = b := by
    intro a b s ha hb h
    obtain ⟨s1, e1, u1⟩ := toggle_some CSet.empty a ha
    obtain ⟨s2, e2, u2⟩ := toggle_some s1 b hb
    have e3 : s2.setLayout .multitrack = some { s2 with layout := .multitrack } := by
      unfold CSet.setLayout
      rw [if_neg (by decide)]
    unfold pair at h
    rw [e1] at h
    simp only [Option.bind_some] at h
    rw [e2] at h
    simp only [Option.bind_some] at h
    rw [e3] at h
    rw [← Option.some.inj h]
    refine ⟨.setLayout .multitrack (u2.reach (u1.reach .empty)) e3, rfl, fun n => ?_⟩
    change n ∈ s2.chans ↔ _
    have : CSet.empty.chans = ∅ := by
      ext n
      rw [mem_chans]
      simp [CSet.empty, CSet.index, clearWords, has]
    rw [u2.chans, u1.chans, this]
    simp [or_comm]
  have hval : ((pair 1023 0).bind setStr).isSome = true ∧ (pair 1023 0).bind setStr = (pair 1023 1).bind setStr := by
    decide +kernel
  cases e1 : pair 1023 0 with
  | none => rw [e1] at hval; exact absurd hval.1 (by decide)
  | some s =>
    cases e2 : pair 1023 1 with
    | none =>
      rw [e2] at hval
      rw [hval.2] at hval
      exact absurd hval.1 (by decide)
    | some s' =>
      rw [e1, e2] at hval
      obtain ⟨r1, l1, c1⟩ := hreach _ _ _ (by decide) (by decide) e1
      obtain ⟨r2, l2, c2⟩ := hreach _ _ _ (by decide) (by decide) e2
      refine ⟨s, s', r1, r2, l1, l2, hval.2, hval.1, fun hc => ?_⟩
      have := (c1 0).2 (Or.inr rfl)
      rw [hc, c2] at this
      omega

/-- The theorems apply: {0, 9} is printed as 0x201. -/
example : ((pair 0 9).bind setText).map String.ofList = some "<multitrack n_ch=2 ch=0x201>" := by decide +kernel

end Verif.SpecParse
