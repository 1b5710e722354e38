import Verif.ChannelMatrix.Lemmas

/-! # C56, C57: building the surround mapping matrix -/

namespace Verif.ChannelMatrix

/-- The channel orders a valid surround set can have. -/
def orders : List (List Nat) := [orderSmpte, orderAlsa]

theorem order_ok : ∀ o ∈ orders, o.Nodup ∧ ∀ i ∈ o, i < chanMax := by decide

/-- **C56.** For all input and output channel sets and orders in which both sides have some
channel besides low frequency (that their order supports), building the mapping ends.
The missing part, sets with only the low frequency channel, is `C56_lfe_output_fails` and
`C56_lfe_input_fails`. -/
theorem C56_terminates_partial (inO outO : List Nat) (hi : inO ∈ orders) (ho : outO ∈ orders) (cin cout : Nat)
    (hin : ∃ ch ∈ indexList inO cin, ch ≠ 16) (hout : ∃ ch ∈ indexList outO cout, ch ≠ 16) :
    ∃ fuel, (build fuel inO outO cin cout).isSome = true := by
  refine ⟨8, ?_⟩
  have key : ∀ O ∈ orders, ∀ s, (∃ ch ∈ indexList O s, ch ≠ 16) →
      maskOf (indexList O s) < 2 ^ 17 ∧ closure masks (maskOf (indexList O s)) ≠ 0x10000 := by
    rintro O hO s ⟨ch, hch, hne⟩
    have hlt : maskOf (indexList O s) < 2 ^ 17 := by
      apply maskOf_lt
      intro i hi'
      exact (order_ok O hO).2 i (List.mem_filter.1 hi').1
    refine ⟨hlt, ?_⟩
    intro hc
    have h17 : ch < 17 := (order_ok O hO).2 ch (List.mem_filter.1 hch).1
    have hself : sub (maskOf (indexList O s)) (closure masks (maskOf (indexList O s))) = true := by
      apply (fold_le masks (maskOf (indexList O s)) 0x1ffff).2.2
      rw [sub_iff]
      intro i hi'
      rw [testBit_maskOf, decide_eq_true_eq] at hi'
      have : i < 17 := (order_ok O hO).2 i (List.mem_filter.1 hi').1
      rw [show (0x1ffff : Nat) = 2 ^ 17 - 1 by decide, Nat.testBit_two_pow_sub_one]
      simpa using this
    rw [hc, sub_iff] at hself
    have hb := hself ch (by rw [testBit_maskOf]; simpa using hch)
    rw [show (0x10000 : Nat) = 2 ^ 16 by decide, Nat.testBit_two_pow] at hb
    simp only [decide_eq_true_eq] at hb
    omega
  obtain ⟨l1, c1⟩ := key inO hi cin hin
  obtain ⟨l2, c2⟩ := key outO ho cout hout
  unfold build buildMap
  rw [Option.isSome_map]
  split
  · rfl
  · rw [Option.isSome_map, ends_iff,
      ends_agree (c' := closure masks (maskOf (indexList inO cin))) (o' := closure masks (maskOf (indexList outO cout)))
        (fun m hm => (sub_closure l1 hm).symm) (fun m hm => (sub_closure l2 hm).symm)]
    exact ends_family _ (closure_mem _) c1 _ (closure_mem _) c2

/-- Non-vacuity: 7.1 in ALSA order to stereo in SMPTE order. -/
example : (∃ ch ∈ indexList orderAlsa 0x102f5, ch ≠ 16) ∧ (∃ ch ∈ indexList orderSmpte 0x11, ch ≠ 16) := by
  decide

/-- **Finding.** Mapping stereo to an output set that has only the low frequency channel never
ends: the builder alternates between the tables `2.1<>1.1` and `3.1<>2.1` forever
(channel_mapper_matrix.cpp:98-155). The same happens for an output set none of whose channels is
supported by its order, here a top channel in ALSA order. -/
theorem C56_lfe_output_fails (fuel : Nat) :
    build fuel orderSmpte orderSmpte 0x11 0x10000 = none ∧
    build fuel orderSmpte orderAlsa 0x11 0x400 = none := by
  have cyc : ∀ out, out = 0x10000 ∨ out = 0 → ∀ fuel,
      ends tables fuel 0x11 out = false ∧ ends tables fuel 0x10011 out = false ∧
      ends tables fuel 0x10004 out = false := by
    intro out ho fuel
    induction fuel with
    | zero => exact ⟨rfl, rfl, rfl⟩
    | succ f ih =>
      have s1 : select tables (f + 1) 0x11 out = some (some (tbl1, true, 0x10004)) := by
        rcases ho with rfl | rfl <;> rfl
      have s2 : select tables (f + 1) 0x10011 out = some (some (tbl1, true, 0x10004)) := by
        rcases ho with rfl | rfl <;> rfl
      have s3 : select tables (f + 1) 0x10004 out = some (some (tbl3, true, 0x10011)) := by
        rcases ho with rfl | rfl <;> rfl
      unfold ends
      rw [s1, s2, s3]
      exact ⟨ih.2.2, ih.2.2, ih.2.1⟩
  constructor
  · have : buildLoop tables fuel 0x11 0x10000 none = none := by
      rw [← Option.isNone_iff_eq_none, ← Option.not_isSome, ends_iff, (cyc _ (Or.inl rfl) fuel).1]; rfl
    unfold build
    rw [Option.map_eq_none_iff]
    show buildMap fuel 0x11 0x10000 = none
    unfold buildMap
    rw [if_neg (by decide), this]; rfl
  · have : buildLoop tables fuel 0x11 0 none = none := by
      rw [← Option.isNone_iff_eq_none, ← Option.not_isSome, ends_iff, (cyc _ (Or.inr rfl) fuel).1]; rfl
    unfold build
    rw [Option.map_eq_none_iff]
    show buildMap fuel 0x11 0 = none
    unfold buildMap
    rw [if_neg (by decide), this]; rfl

/-- **Finding.** Mapping a set with only the low frequency channel to stereo never ends either:
`next_upmix_table_` alternates between the same two tables (channel_mapper_matrix.cpp:230-254). -/
theorem C56_lfe_input_fails (fuel : Nat) :
    build fuel orderSmpte orderSmpte 0x10000 0x11 = none := by
  have cyc : ∀ f best, upLoop tables 0x10000 f 0x11 best = none ∧
      upLoop tables 0x10000 f 0x10004 best = none ∧ upLoop tables 0x10000 f 0x10011 best = none := by
    intro f
    induction f with
    | zero => intro best; exact ⟨rfl, rfl, rfl⟩
    | succ f ih =>
      intro best
      have s1 : tables.find? (upOk 0x10000 0x11) = some tbl1 := rfl
      have s2 : tables.find? (upOk 0x10000 0x10004) = some tbl3 := rfl
      have s3 : tables.find? (upOk 0x10000 0x10011) = some tbl1 := rfl
      unfold upLoop
      rw [s1, s2, s3]
      exact ⟨(ih _).2.1, (ih _).2.2, (ih _).2.1⟩
  have hsel : ∀ f, select tables f 0x10000 0x11 = none := by
    intro f
    unfold select
    rw [show canDownmix 0x10000 0x11 tables = false from rfl]
    simp only [Bool.false_eq_true, if_false, nextUpmix, (cyc f none).1, Option.map_none]
  have hloop : buildLoop tables fuel 0x10000 0x11 none = none := by
    cases fuel with
    | zero => rfl
    | succ f => unfold buildLoop; rw [hsel]
  unfold build
  rw [Option.map_eq_none_iff]
  show buildMap fuel 0x10000 0x11 = none
  unfold buildMap
  rw [if_neg (by decide), hloop]; rfl

/-- **C57.** Surround mapping never amplifies: whatever the sets and orders, all coefficients are
nonnegative and those of one output channel sum up to at most one, so inputs within [-1, 1] give
outputs within [-1, 1] (in exact arithmetic) and clipping is not needed. -/
theorem C57_no_gain {fuel : Nat} {inO outO : List Nat} (hi : inO ∈ orders) {cin cout : Nat} {co : Nat → Nat → ℚ}
    (h : build fuel inO outO cin cout = some co) :
    (∀ o i, 0 ≤ co o i) ∧ (∀ o, ∑ i ∈ Finset.range chanMax, co o i ≤ 1) ∧
    ∀ (o n : Nat) (x : Nat → ℚ), n ≤ chanMax → (∀ i, -1 ≤ x i ∧ x i ≤ 1) →
      -1 ≤ ∑ i ∈ Finset.range n, x i * co o i ∧ ∑ i ∈ Finset.range n, x i * co o i ≤ 1 := by
  unfold build at h
  rw [Option.map_eq_some_iff] at h
  obtain ⟨m, hm, rfl⟩ := h
  have hg := indexMat_good (buildMap_good hm) (indexList inO cin) (indexList outO cout)
    ((order_ok inO hi).1.filter _) (fun i hi' => (order_ok inO hi).2 i (List.mem_filter.1 hi').1)
  obtain ⟨co, hco⟩ : ∃ co, co = indexMat (indexList inO cin) (indexList outO cout) m := ⟨_, rfl⟩
  rw [← hco] at hg ⊢
  refine ⟨hg.1, hg.2, ?_⟩
  intro o n x hn hx
  have hsub : Finset.range n ⊆ Finset.range chanMax := Finset.range_subset_range.2 hn
  have hle : ∑ i ∈ Finset.range n, co o i ≤ 1 :=
    le_trans (Finset.sum_le_sum_of_subset_of_nonneg hsub fun i _ _ => hg.1 o i) (hg.2 o)
  constructor
  · have : ∑ i ∈ Finset.range n, -co o i ≤ ∑ i ∈ Finset.range n, x i * co o i := by
      apply Finset.sum_le_sum
      intro i _
      have := mul_le_mul_of_nonneg_right (hx i).1 (hg.1 o i)
      rwa [neg_one_mul] at this
    rw [Finset.sum_neg_distrib] at this
    exact le_trans (neg_le_neg hle) this
  · refine le_trans (Finset.sum_le_sum fun i _ => ?_) hle
    have := mul_le_mul_of_nonneg_right (hx i).2 (hg.1 o i)
    rwa [one_mul] at this

/-- Non-vacuity: the stereo to mono matrix exists and averages. -/
example : ∃ co, build 8 orderSmpte orderSmpte 0x11 0x4 = some co ∧ co 0 0 = 1 / 2 ∧ co 0 1 = 1 / 2 := by
  refine ⟨_, rfl, ?_, ?_⟩ <;> decide +kernel

/-- **C57.** When both sides have the same channels (that their orders support), every output
position receives exactly the input position of the same channel, whatever the two orders. -/
theorem C57_same_channels {fuel : Nat} {inO outO : List Nat} (ho : outO ∈ orders)
    (cin cout : Nat) (hsame : ∀ ch, ch ∈ indexList inO cin ↔ ch ∈ indexList outO cout) :
    ∃ co, build fuel inO outO cin cout = some co ∧
      ∀ oi ii o i, (indexList outO cout)[oi]? = some o → (indexList inO cin)[ii]? = some i →
        co oi ii = if o = i then 1 else 0 := by
  have hmask : maskOf (indexList inO cin) = maskOf (indexList outO cout) := by
    apply Nat.eq_of_testBit_eq
    intro k
    rw [testBit_maskOf, testBit_maskOf]
    exact decide_eq_decide.2 (hsame k)
  refine ⟨indexMat (indexList inO cin) (indexList outO cout) diag, ?_, ?_⟩
  · simp only [build, buildMap, hmask, if_true, Option.map_some]
  · intro oi ii o i h1 h2
    unfold indexMat
    rw [h1, h2]
    have hlt : o < chanMax := (order_ok outO ho).2 o (List.mem_filter.1 (List.mem_of_getElem? h1)).1
    simp only [diag, hlt, true_and]

/-- Non-vacuity: 5.1 in SMPTE and ALSA order. -/
example : ∀ ch, ch ∈ indexList orderSmpte 0x10295 ↔ ch ∈ indexList orderAlsa 0x10295 := by
  have h1 : ∀ ch ∈ indexList orderSmpte 0x10295, ch ∈ indexList orderAlsa 0x10295 := by decide
  have h2 : ∀ ch ∈ indexList orderAlsa 0x10295, ch ∈ indexList orderSmpte 0x10295 := by decide
  exact fun ch => ⟨h1 ch, h2 ch⟩

/-- **Finding.** Mapping 7.1.4 to 7.1.2 with a three channel center finds no table and falls back to
the diagonal matrix: the four top channels of the input are lost, and the two top channels of the
output stay silent, although tables for 7.1.4 to 7.1.2 and for 7.1.2 with either center exist. -/
theorem C57_coverage_fails :
    ∃ co, build 8 orderSmpte orderSmpte 0x1cef5 0x132ff = some co ∧
      (∀ oi, oi < 14 → ∀ ii, 8 ≤ ii → ii < 12 → co oi ii = 0) ∧
      (indexList orderSmpte 0x1cef5)[8]? = some 10 ∧ (indexList orderSmpte 0x1cef5)[11]? = some 15 ∧
      (∀ ii, ii < 12 → co 10 ii = 0 ∧ co 11 ii = 0) ∧
      (indexList orderSmpte 0x132ff)[10]? = some 12 ∧ (indexList orderSmpte 0x132ff)[11]? = some 13 := by
  refine ⟨_, rfl, ?_, rfl, rfl, ?_, rfl, rfl⟩ <;> decide +kernel

end Verif.ChannelMatrix
