import Verif.Batching.Spec
import Verif.ChannelMapper.Props
import Verif.PcmCoder.Props
import Verif.SampleTime.Props

/-!
# Mapping of frames in batches: lemmas
-/

namespace Verif.Batching

open Verif.ChannelSet Verif.ChannelMapper Verif.PcmFormat Verif.PcmCoder Spec

variable {α : Type}

/-- Mapping works sample by sample. -/
theorem map_rows (ar : Arith α) {cin cout : CSet} (hin : Reach cin) (hout : Reach cout)
    (hvi : cin.isValid = true) (hvo : cout.isValid = true) :
    ∃ row : (Nat → Option α) → List α,
      (∀ f g, (∀ j, j < cin.chans.card → f j = g j) → row f = row g) ∧
      (∀ f, (row f).length = cout.chans.card) ∧
      ∀ (n : Nat) (inp out : List α), inp.length = n * cin.chans.card →
        out.length = n * cout.chans.card →
        ChannelMapper.map ar cin cout inp out
          = some ((List.range n).flatMap fun ns => row fun j => inp[ns * cin.chans.card + j]?) := by
  have hmixed : cin.layout ≠ cout.layout → ∃ row : (Nat → Option α) → List α,
      (∀ f g, (∀ j, j < cin.chans.card → f j = g j) → row f = row g) ∧
      (∀ f, (row f).length = cout.chans.card) ∧
      ∀ (n : Nat) (inp out : List α), inp.length = n * cin.chans.card →
        out.length = n * cout.chans.card →
        ChannelMapper.map ar cin cout inp out
          = some ((List.range n).flatMap fun ns => row fun j => inp[ns * cin.chans.card + j]?) := by
    intro hl
    refine ⟨fun f => (List.range cout.chans.card).map fun j =>
      if j < cin.chans.card then (f j).getD ar.zero else ar.zero, ?_, by simp, ?_⟩
    · intro f g h
      apply List.map_congr_left
      intro j _
      split_ifs with hj
      · rw [h j hj]
      · rfl
    · intro n inp out h1 h2
      exact C41_mixed ar hin hout hvi hvo hl inp out n h1 h2
  by_cases hl : cin.layout = cout.layout
  · cases hc : cin.layout with
    | none =>
      exfalso
      unfold CSet.isValid at hvi
      rw [hc] at hvi
      exact absurd hvi (by simp)
    | surround =>
      rw [hc] at hl
      refine ⟨fun f => (List.range cout.chans.card).map fun o =>
        ar.clip ((List.range cin.chans.card).foldl
          (fun s i => ar.acc o i s ((f i).getD ar.zero)) ar.zero), ?_, by simp, ?_⟩
      · intro f g h
        apply List.map_congr_left
        intro o _
        refine congrArg ar.clip (List.foldl_ext _ _ _ ?_)
        intro s i hi
        rw [h i (List.mem_range.1 hi)]
      · intro n inp out h1 h2
        exact C41_surround ar hin hout hvi hvo hc hl.symm inp out n h1 h2
    | multitrack =>
      rw [hc] at hl
      refine ⟨fun f => (chanList cout.chans).map fun ch =>
        if ch ∈ cin.chans then (f (rank cin.chans ch)).getD ar.zero else ar.zero, ?_, ?_, ?_⟩
      · intro f g h
        apply List.map_congr_left
        intro ch _
        split_ifs with hch
        · rw [h _ (rank_lt hch)]
        · rfl
      · intro f
        rw [List.length_map, chanList_length _ (chans_lt cout)]
      · intro n inp out h1 h2
        exact C41_multitrack ar hin hout hvi hvo hc hl.symm inp out n h1 h2
  · exact hmixed hl

/-- Output for the samples of a stream. -/
def rows (row : (Nat → Option α) → List α) (ci : Nat) (x : Nat → α) (p n : Nat) : List α :=
  (List.range n).flatMap fun ns => row fun j => some (x (p + ns * ci + j))

theorem rows_add (row : (Nat → Option α) → List α) (ci : Nat) (x : Nat → α) (p a b : Nat) :
    rows row ci x p (a + b) = rows row ci x p a ++ rows row ci x (p + a * ci) b := by
  unfold rows
  rw [List.range_add, List.flatMap_append, List.flatMap_map]
  congr 1
  refine List.flatMap_congr ?_
  intro ns _
  congr 1
  funext j
  congr 2
  ring

theorem rows_length (row : (Nat → Option α) → List α) (ci co : Nat)
    (hr : ∀ f, (row f).length = co) (x : Nat → α) (p n : Nat) :
    (rows row ci x p n).length = n * co := by
  unfold rows
  exact flatMap_length n (fun ns _ => hr _)

theorem block_length (s : Source α) (p n : Nat) : (s.block p n).length = n := by
  simp [Source.block]

theorem block_get (s : Source α) (p n j : Nat) (h : j < n) :
    (s.block p n)[j]? = some (s.sample (p + j)) := by
  unfold Source.block
  rw [List.getElem?_map, List.getElem?_range h]
  rfl

theorem rows_of_get (row : (Nat → Option α) → List α) (ci : Nat)
    (hc : ∀ f g, (∀ j, j < ci → f j = g j) → row f = row g) (x : Nat → α) (p n : Nat)
    (l : List α) (h : ∀ j, j < n * ci → l[j]? = some (x (p + j))) :
    ((List.range n).flatMap fun ns => row fun j => l[ns * ci + j]?) = rows row ci x p n := by
  unfold rows
  refine List.flatMap_congr ?_
  intro ns hns
  apply hc
  intro j hj
  have hns' := List.mem_range.1 hns
  have : (ns + 1) * ci ≤ n * ci := Nat.mul_le_mul_right _ hns'
  have e : (ns + 1) * ci = ns * ci + ci := by ring
  rw [h (ns * ci + j) (by omega), Nat.add_assoc]

theorem hasNotRaw_even (f : Nat) (h : f % 2 = 0) : hasNotRaw f = false := by
  unfold hasNotRaw notRaw
  rw [Nat.and_one_is_mod, h]
  rfl

theorem crLoop_spec (ar : Arith α) {cin cout : CSet} (hin : Reach cin) (hout : Reach cout)
    (hvi : cin.isValid = true) (hvo : cout.isValid = true) (s : Source α) (hreg : Regular s)
    (hsane : Sane s) (row : (Nat → Option α) → List α)
    (hrc : ∀ f g, (∀ j, j < cin.chans.card → f j = g j) → row f = row g)
    (hrl : ∀ f, (row f).length = cout.chans.card)
    (hrow : ∀ (n : Nat) (inp out : List α), inp.length = n * cin.chans.card →
        out.length = n * cout.chans.card →
        ChannelMapper.map ar cin cout inp out
          = some ((List.range n).flatMap fun ns => row fun j => inp[ns * cin.chans.card + j]?))
    (mb : Nat) (hmb : 0 < mb) : ∀ (fuel n p op : Nat) (first : Bool) (st : RSt α), n ≤ fuel → 0 < n →
    st.out.length = op + n * cout.chans.card →
    crLoop ar cin cout s mb fuel n p op first st
      = .ok ((s.info p (n * cin.chans.card)).map fun x =>
          ⟨st.out.take op ++ rows row cin.chans.card s.sample p n, st.flags ||| x.1,
            if first then x.2 else st.cts⟩) := by
  obtain ⟨hni, hpi⟩ := valid_card hin hvi
  obtain ⟨hno, hpo⟩ := valid_card hout hvo
  intro fuel
  induction fuel with
  | zero => intro n p op first st h1 h2; omega
  | succ fuel ih =>
    intro n p op first st h1 h2 hlen
    obtain ⟨k, hk⟩ : ∃ k, k = min n mb := ⟨_, rfl⟩
    have hk1 : 0 < k := by omega
    unfold crLoop
    rw [if_neg (by omega), ← hk]
    have hkle : k * cout.chans.card ≤ n * cout.chans.card := Nat.mul_le_mul_right _ (by omega)
    -- one batch
    have hb : crBatch ar cin cout s p k op first st
        = .ok ((s.info p (k * cin.chans.card)).map fun x =>
          ⟨st.out.take op ++ rows row cin.chans.card s.sample p k
            ++ st.out.drop (op + k * cout.chans.card), st.flags ||| x.1,
            if first then x.2 else st.cts⟩) := by
      unfold crBatch
      rw [hni, hno]
      cases hi : s.info p (k * cin.chans.card) with
      | none => rfl
      | some x =>
        obtain ⟨fl, cts⟩ := x
        obtain ⟨g1, g2⟩ := hsane _ _ _ hi
        simp only [hasNotRaw_even fl g1, Bool.false_eq_true, if_false]
        rw [hrow k _ _ (block_length _ _ _) (by simp; omega),
          rows_of_get row _ hrc s.sample p k _ (fun j hj => block_get s p _ j hj)]
        simp only
        rw [if_neg (by simp only at g2; omega)]
        rfl
    rw [hb]
    simp only [Except.bind]
    cases hi : s.info p (k * cin.chans.card) with
    | none =>
      simp only [Option.map_none]
      by_cases hkn : k = n
      · rw [← hkn, hi]
        rfl
      · have hr := hreg p (k * cin.chans.card) ((n - k) * cin.chans.card) (Nat.mul_pos hk1 hpi)
          (Nat.mul_pos (by omega) hpi)
        rw [← Nat.add_mul, show k + (n - k) = n by omega, hi] at hr
        rw [hr]
        rfl
    | some x =>
      simp only [Option.map_some]
      rw [hni, hno]
      by_cases hkn : k = n
      · rw [← hkn, hi, Nat.sub_self]
        unfold crLoop
        rw [if_pos rfl]
        simp only [Option.map_some]
        rw [List.drop_eq_nil_of_le (by rw [hlen, hkn]), List.append_nil]
      · have hlen2 : (st.out.take op ++ rows row cin.chans.card s.sample p k
            ++ st.out.drop (op + k * cout.chans.card)).length
            = op + k * cout.chans.card + (n - k) * cout.chans.card := by
          rw [List.length_append, List.length_append, rows_length row _ _ hrl, List.length_take,
            List.length_drop, hlen, Nat.sub_mul]
          omega
        rw [ih (n - k) _ _ false _ (by omega) (by omega) hlen2]
        have hr := hreg p (k * cin.chans.card) ((n - k) * cin.chans.card) (Nat.mul_pos hk1 hpi)
          (Nat.mul_pos (by omega) hpi)
        rw [← Nat.add_mul, show k + (n - k) = n by omega, hi] at hr
        rw [hr]
        cases hj : s.info (p + k * cin.chans.card) ((n - k) * cin.chans.card) with
        | none => simp only [Option.bind_some, Option.map_none]
        | some y =>
        simp only [Option.bind_some, Option.map_some, Bool.false_eq_true, if_false]
        have htake : (st.out.take op ++ rows row cin.chans.card s.sample p k
            ++ st.out.drop (op + k * cout.chans.card)).take (op + k * cout.chans.card)
            = st.out.take op ++ rows row cin.chans.card s.sample p k := by
          have hl : (st.out.take op ++ rows row cin.chans.card s.sample p k).length
              = op + k * cout.chans.card := by
            rw [List.length_append, rows_length row _ _ hrl, List.length_take, hlen]
            omega
          rw [← hl, List.take_left]
        rw [htake, List.append_assoc, ← rows_add, show k + (n - k) = n by omega, Nat.or_assoc]

/-- Frames carry capture timestamps one after another. -/
def CtsOk {β : Type} (rate : Nat) : Int → List (WFrame β) → Prop
  | _, [] => True
  | cts, f :: fs => f.cts = cts ∧ CtsOk rate (nextCts rate cts f.dur) fs

theorem ns_nonneg (rate n : Nat) (h1 : 1 ≤ rate) (h2 : rate ≤ 2 ^ 24)
    (hb : (n : ℚ) / rate * 1000000000 ≤ 2 ^ 61) : 0 ≤ SampleTime.samplesPerChanToNs rate n := by
  have := abs_le.1 (SampleTime.C78_duration_error rate n h1 h2 hb)
  have hq : (0 : ℚ) ≤ (n : ℚ) / rate * 1000000000 := by positivity
  obtain ⟨q, hqe⟩ : ∃ q, q = (n : ℚ) / rate * 1000000000 := ⟨_, rfl⟩
  rw [← hqe] at this hq
  have h3 : (-1 : ℚ) < (SampleTime.samplesPerChanToNs rate n : ℚ) := by
    have := this.1
    norm_num at this
    linarith
  have h4 : (-1 : Int) < SampleTime.samplesPerChanToNs rate n := by exact_mod_cast h3
  omega

theorem nextCts_nonneg (rate n : Nat) (cts : Int) (h1 : 1 ≤ rate) (h2 : rate ≤ 2 ^ 24)
    (hb : (n : ℚ) / rate * 1000000000 ≤ 2 ^ 61) (hc : 0 ≤ cts) : 0 ≤ nextCts rate cts n := by
  have := ns_nonneg rate n h1 h2 hb
  unfold nextCts
  split_ifs <;> omega

theorem dur_le (rate m n : Nat) (h : m ≤ n) (hb : (n : ℚ) / rate * 1000000000 ≤ 2 ^ 61) :
    (m : ℚ) / rate * 1000000000 ≤ 2 ^ 61 := by
  have hm : (m : ℚ) ≤ n := by exact_mod_cast h
  have : (m : ℚ) / rate ≤ n / rate := div_le_div_of_nonneg_right hm (by positivity)
  linarith

theorem ctsOk_zero {β : Type} (rate : Nat) : ∀ (fs : List (WFrame β)), CtsOk rate 0 fs →
    ∀ f ∈ fs, f.cts = 0 := by
  intro fs
  induction fs with
  | nil => intro _ f hf; exact absurd hf (by simp)
  | cons g fs ih =>
    intro h f hf
    obtain ⟨h1, h2⟩ := h
    have : nextCts rate 0 g.dur = 0 := by unfold nextCts; simp
    rw [this] at h2
    rcases List.mem_cons.1 hf with hf | hf
    · rw [hf, h1]
    · exact ih h2 f hf

theorem ctsOk_error {β : Type} (rate : Nat) (h1 : 1 ≤ rate) (h2 : rate ≤ 2 ^ 24) :
    ∀ (fs : List (WFrame β)) (cts : Int), 0 < cts → CtsOk rate cts fs →
    ((fs.map WFrame.dur).sum : ℚ) / rate * 1000000000 ≤ 2 ^ 61 →
    ∀ j f, fs[j]? = some f →
      |(f.cts : ℚ) - (cts + (((fs.take j).map WFrame.dur).sum : ℚ) / rate * 1000000000)|
        ≤ (((fs.take j).map WFrame.dur).sum : ℚ) / rate * 1000000000 / 2 ^ 22 + j / 2 := by
  intro fs
  induction fs with
  | nil => intro cts _ _ _ j f hf; exact absurd hf (by simp)
  | cons g fs ih =>
    intro cts hc h hb j f hf
    obtain ⟨e1, e2⟩ := h
    cases j with
    | zero =>
      simp only [List.getElem?_cons_zero, Option.some.injEq] at hf
      rw [← hf, e1]
      simp
    | succ j =>
      simp only [List.getElem?_cons_succ] at hf
      simp only [List.map_cons, List.sum_cons] at hb
      have hbg := dur_le rate g.dur (g.dur + (fs.map WFrame.dur).sum) (by omega) (by exact_mod_cast hb)
      have hbs := dur_le rate (fs.map WFrame.dur).sum (g.dur + (fs.map WFrame.dur).sum) (by omega)
        (by exact_mod_cast hb)
      have hnn := ns_nonneg rate g.dur h1 h2 hbg
      have hnext : nextCts rate cts g.dur = cts + SampleTime.samplesPerChanToNs rate g.dur := by
        unfold nextCts
        rw [if_pos (by omega)]
      rw [hnext] at e2
      have hi := ih _ (by omega) e2 (by exact_mod_cast hbs) j f hf
      have he := SampleTime.C78_duration_error rate g.dur h1 h2 hbg
      simp only [List.take_succ_cons, List.map_cons, List.sum_cons]
      push_cast at hi ⊢
      obtain ⟨S, hS⟩ : ∃ S : ℚ, S = (((fs.take j).map WFrame.dur).sum : ℚ) / rate * 1000000000 := ⟨_, rfl⟩
      obtain ⟨D, hD⟩ : ∃ D : ℚ, D = (g.dur : ℚ) / rate * 1000000000 := ⟨_, rfl⟩
      have hsum : ((g.dur : ℚ) + (((fs.take j).map WFrame.dur).sum : ℚ)) / rate * 1000000000 = D + S := by
        rw [hD, hS]
        ring
      rw [hsum]
      rw [← hS] at hi
      rw [← hD] at he
      have a1 := abs_le.1 hi
      have a2 := abs_le.1 he
      rw [abs_le]
      constructor
      · have := a1.1
        have := a2.1
        have e : (D + S) / 2 ^ 22 = D / 2 ^ 22 + S / 2 ^ 22 := by ring
        rw [e]
        linarith
      · have := a1.2
        have := a2.2
        have e : (D + S) / 2 ^ 22 = D / 2 ^ 22 + S / 2 ^ 22 := by ring
        rw [e]
        linarith

theorem mkFrame_ok {β : Type} (l : List β) (flags n : Nat) (cts : Int) (h1 : 0 < n) (h2 : n < m32)
    (h3 : 0 ≤ cts) : mkFrame l flags n cts = .ok ⟨l, flags, n, cts⟩ := by
  unfold mkFrame
  rw [Nat.mod_eq_of_lt h2, if_neg (by omega), if_neg (by omega)]

theorem cwLoop_spec (ar : Arith α) {cin cout : CSet} (hin : Reach cin) (hout : Reach cout)
    (hvi : cin.isValid = true) (hvo : cout.isValid = true) (row : (Nat → Option α) → List α)
    (hrc : ∀ f g, (∀ j, j < cin.chans.card → f j = g j) → row f = row g)
    (hrl : ∀ f, (row f).length = cout.chans.card)
    (hrow : ∀ (n : Nat) (inp out : List α), inp.length = n * cin.chans.card →
        out.length = n * cout.chans.card →
        ChannelMapper.map ar cin cout inp out
          = some ((List.range n).flatMap fun ns => row fun j => inp[ns * cin.chans.card + j]?))
    (junk : α) (rate : Nat) (r1 : 1 ≤ rate) (r2 : rate ≤ 2 ^ 24) (mb : Nat) (hmb : 0 < mb) (flags : Nat)
    (x : Nat → α) : ∀ (fuel n p : Nat) (inp : List α) (cts : Int), n ≤ fuel → n < m32 → 0 ≤ cts →
    (n : ℚ) / rate * 1000000000 ≤ 2 ^ 61 →
    inp.length = n * cin.chans.card → (∀ j, j < inp.length → inp[j]? = some (x (p + j))) →
    ∃ fs, cwLoop ar cin cout junk rate mb flags fuel inp n cts = .ok fs ∧
      fs.flatMap WFrame.samples = rows row cin.chans.card x p n ∧
      (fs.map WFrame.dur).sum = n ∧
      (∀ f ∈ fs, f.flags = flags ∧ f.samples.length = f.dur * cout.chans.card ∧ 0 < f.dur ∧
        f.dur ≤ mb) ∧
      CtsOk rate cts fs := by
  obtain ⟨hni, hpi⟩ := valid_card hin hvi
  obtain ⟨hno, hpo⟩ := valid_card hout hvo
  intro fuel
  induction fuel with
  | zero =>
    intro n p inp cts h1 _ _ _ _ _
    have : n = 0 := by omega
    subst this
    refine ⟨[], ?_, by simp [rows], rfl, by simp, trivial⟩
    unfold cwLoop
    rfl
  | succ fuel ih =>
    intro n p inp cts h1 hn32 hc hb hlen hx
    by_cases h0 : n = 0
    · subst h0
      refine ⟨[], ?_, by simp [rows], rfl, by simp, trivial⟩
      unfold cwLoop
      rfl
    obtain ⟨k, hk⟩ : ∃ k, k = min n mb := ⟨_, rfl⟩
    have hkle : k * cin.chans.card ≤ n * cin.chans.card := Nat.mul_le_mul_right _ (by omega)
    have hsub : (n - k) * cin.chans.card = n * cin.chans.card - k * cin.chans.card := Nat.sub_mul _ _ _
    obtain ⟨fs, g1, g2, g3, g4, g5⟩ := ih (n - k) (p + k * cin.chans.card)
      (inp.drop (k * cin.chans.card)) (nextCts rate cts k) (by omega) (by omega)
      (nextCts_nonneg rate k cts r1 r2 (dur_le rate k n (by omega) hb) hc)
      (dur_le rate (n - k) n (by omega) hb) (by rw [List.length_drop, hlen, hsub]) (by
        intro j hj
        rw [List.length_drop] at hj
        rw [List.getElem?_drop, hx _ (by omega)]
        rw [Nat.add_assoc])
    refine ⟨⟨rows row cin.chans.card x p k, flags, k, cts⟩ :: fs, ?_, ?_, ?_, ?_, ?_⟩
    · unfold cwLoop
      rw [if_neg h0, ← hk]
      unfold cwBatch
      rw [hni, hno, hrow k _ _ (by rw [List.length_take, hlen]; omega) (by simp),
        rows_of_get row _ hrc x p k _ (by
          intro j hj
          rw [List.getElem?_take, if_pos hj]
          exact hx j (by omega))]
      simp only
      rw [mkFrame_ok _ _ _ _ (by omega) (by omega) hc]
      simp only [Except.bind]
      rw [g1]
      rfl
    · rw [List.flatMap_cons, g2, ← rows_add, show k + (n - k) = n by omega]
    · rw [List.map_cons, List.sum_cons, g3]
      show k + (n - k) = n
      omega
    · intro f hf
      rcases List.mem_cons.1 hf with hf | hf
      · rw [hf]
        exact ⟨rfl, rows_length row _ _ hrl _ _ _, by simp only; omega, by simp only; omega⟩
      · exact g4 f hf
    · exact ⟨rfl, g5⟩

theorem prLoop_spec (o : Fmt) (ho : o.code ∈ codes) (ao : o.code.packed % 8 = 0) (nch : Nat)
    (hnch : 0 < nch) (s : Source Flt) (hreg : Regular s) (hsane : Sane s) (mb : Nat) (hmb : 0 < mb)
    (cnt p0 : Nat) (hx : ∀ j, IsSample (s.sample j)) :
    ∀ (fuel so : Nat) (st : RSt Nat), cnt - so ≤ fuel → so < cnt →
    cnt * nch * packedOctets o.code ≤ st.out.length →
    (∀ j, j < so * nch → levelAt o st.out j = PcmCoder.Spec.quantize o.code.width (s.sample (p0 + j))) →
    (s.info (p0 + so * nch) ((cnt - so) * nch) = none →
      prLoop o nch s mb cnt fuel (p0 + so * nch) so (8 * (so * nch * packedOctets o.code)) st = .ok none) ∧
    ∀ x, s.info (p0 + so * nch) ((cnt - so) * nch) = some x →
      ∃ out', prLoop o nch s mb cnt fuel (p0 + so * nch) so (8 * (so * nch * packedOctets o.code)) st
          = .ok (some ⟨out', st.flags ||| x.1, if so = 0 then x.2 else st.cts⟩) ∧
        out'.length = st.out.length ∧
        (∀ q, cnt * nch * packedOctets o.code ≤ q → out'[q]? = st.out[q]?) ∧
        ∀ j, j < cnt * nch →
          levelAt o out' j = PcmCoder.Spec.quantize o.code.width (s.sample (p0 + j)) := by
  have hk0 := octets_pos o.code ho ao
  have hpk : o.code.packed = 8 * packedOctets o.code := by rw [packed_octets _ ao]; omega
  obtain ⟨w, hw⟩ : ∃ w, w = packedOctets o.code := ⟨_, rfl⟩
  intro fuel
  induction fuel with
  | zero => intro so st h1 h2; omega
  | succ fuel ih =>
    intro so st h1 h2 hlen hdone
    obtain ⟨k, hk⟩ : ∃ k, k = min (cnt - so) mb := ⟨_, rfl⟩
    have hk1 : 0 < k := by omega
    have hsok : (so + k) * nch ≤ cnt * nch := Nat.mul_le_mul_right _ (by omega)
    have hsok' : (so + k) * nch = so * nch + k * nch := by ring
    have hB : (so * nch + k * nch) * packedOctets o.code ≤ cnt * nch * packedOctets o.code :=
      Nat.mul_le_mul_right _ (by omega)
    have hB' : (so * nch + k * nch) * packedOctets o.code
        = so * nch * packedOctets o.code + k * nch * packedOctets o.code := by ring
    have hkn : 0 < k * nch := Nat.mul_pos hk1 hnch
    have hkw : 0 < k * nch * packedOctets o.code := Nat.mul_pos hkn hk0
    have hsplit : (cnt - so) * nch = k * nch + (cnt - (so + k)) * nch := by
      rw [← Nat.add_mul]
      congr 1
      omega
    have hcond : 8 * (so * nch * packedOctets o.code) < cnt * nch * o.code.packed := by
      have : cnt * nch * o.code.packed = 8 * (cnt * nch * packedOctets o.code) := by rw [hpk]; ring
      omega
    obtain ⟨kk, b1, m1, m2, m3, m4, m6, m5⟩ := encMap_spec o ho ao (s.block (p0 + so * nch) (k * nch))
      st.out (so * nch * packedOctets o.code) (by
        intro x hx'
        simp only [Source.block, List.mem_map] at hx'
        obtain ⟨j, _, rfl⟩ := hx'
        exact hx _) (by omega)
    have hkk : kk = k * nch := by
      rw [m2, block_length, min_eq_left]
      rw [Nat.le_div_iff_mul_le hk0]
      omega
    subst hkk
    have hstep : prLoop o nch s mb cnt (fuel + 1) (p0 + so * nch) so
        (8 * (so * nch * packedOctets o.code)) st
        = match s.info (p0 + so * nch) (k * nch) with
          | none => .ok none
          | some x => prLoop o nch s mb cnt fuel (p0 + (so + k) * nch) (so + k)
              (8 * ((so + k) * nch * packedOctets o.code))
              ⟨b1, st.flags ||| x.1, if so = 0 then x.2 else st.cts⟩ := by
      conv_lhs => unfold prLoop
      rw [if_neg (not_not.2 hcond), ← hk]
      cases hi : s.info (p0 + so * nch) (k * nch) with
      | none => rfl
      | some x =>
        obtain ⟨fl, cts⟩ := x
        obtain ⟨g1, g2⟩ := hsane _ _ _ hi
        simp only at g2
        simp only
        rw [m1]
        simp only [ofMap, Except.bind]
        rw [if_neg (by omega), hsok', hB', Nat.add_assoc]
    rw [hstep]
    have hdone1 : ∀ j, j < (so + k) * nch →
        levelAt o b1 j = PcmCoder.Spec.quantize o.code.width (s.sample (p0 + j)) := by
      intro j hj
      by_cases hjs : j < so * nch
      · rw [← hdone j hjs]
        unfold levelAt
        rw [packed_octets o.code ao] at m4
        refine congrArg _ (container_congr _ _ _ _ _ ?_)
        intro q _ hq
        refine m4 q (Or.inl ?_)
        have e : j * (o.code.packed / 8) + o.code.packed / 8 = (j + 1) * (o.code.packed / 8) := by ring
        rw [e] at hq
        exact lt_of_lt_of_le hq (Nat.mul_le_mul_right _ hjs)
      · have := (m5 (j - so * nch) (s.sample (p0 + so * nch + (j - so * nch))) (by omega)
          (block_get s _ _ _ (by omega))).1
        rw [← Nat.add_mul, show so * nch + (j - so * nch) = j by omega,
          show p0 + so * nch + (j - so * nch) = p0 + j by omega] at this
        rw [← this]
        unfold levelAt
        rw [packed_octets o.code ao]
    by_cases hend : so + k = cnt
    · have hall : (cnt - so) * nch = k * nch := by rw [← hend]; congr 1; omega
      rw [hall]
      constructor
      · intro hn
        rw [hn]
      · intro x hs
        rw [hs]
        refine ⟨b1, ?_, m3, ?_, ?_⟩
        · simp only
          unfold prLoop
          rw [if_pos]
          rw [hend, hpk]
          have : cnt * nch * (8 * packedOctets o.code) = 8 * (cnt * nch * packedOctets o.code) := by ring
          omega
        · intro q hq
          exact m4 q (Or.inr (by omega))
        · intro j hj
          exact hdone1 j (by rw [hend]; exact hj)
    · have hr := hreg (p0 + so * nch) (k * nch) ((cnt - (so + k)) * nch) hkn
        (Nat.mul_pos (by omega) hnch)
      rw [← hsplit] at hr
      rw [hr]
      cases hi : s.info (p0 + so * nch) (k * nch) with
      | none =>
        exact ⟨fun _ => rfl, fun x hx' => absurd hx' (by simp)⟩
      | some x =>
        simp only [Option.bind_some]
        obtain ⟨i1, i2⟩ := ih (so + k) ⟨b1, st.flags ||| x.1, if so = 0 then x.2 else st.cts⟩
          (by omega) (by omega) (by rw [m3]; exact hlen) hdone1
        rw [Nat.add_assoc, ← hsok']
        constructor
        · intro hn
          refine i1 ?_
          cases hy : s.info (p0 + (so + k) * nch) ((cnt - (so + k)) * nch) with
          | none => rfl
          | some y => rw [hy] at hn; exact absurd hn (by simp)
        · intro z hz
          cases hy : s.info (p0 + (so + k) * nch) ((cnt - (so + k)) * nch) with
          | none => rw [hy] at hz; exact absurd hz (by simp)
          | some y =>
            rw [hy] at hz
            simp only [Option.map_some, Option.some.injEq] at hz
            subst hz
            obtain ⟨out', e1, e2, e3, e4⟩ := i2 y hy
            refine ⟨out', ?_, by rw [e2, m3], ?_, e4⟩
            · rw [e1]
              rw [if_neg (by omega : ¬ so + k = 0), Nat.or_assoc]
            · intro q hq
              rw [e3 q hq]
              exact m4 q (Or.inr (by omega))

theorem samples_add (i : Fmt) (b : List Nat) (s m n : Nat) :
    PcmCoder.Spec.samples i b s (m + n)
      = PcmCoder.Spec.samples i b s m ++ PcmCoder.Spec.samples i b (s + m) n := by
  unfold PcmCoder.Spec.samples
  rw [List.range_add, List.map_append, List.map_map]
  congr 1
  apply List.map_congr_left
  intro j _
  simp only [Function.comp]
  rw [Nat.add_assoc]

theorem pwLoop_spec (i : Fmt) (hi : i.code ∈ codes) (ai : i.code.packed % 8 = 0) (nch : Nat)
    (hnch : 0 < nch) (b : List Nat) (hb : ∀ x ∈ b, x < 256) (rate : Nat) (r1 : 1 ≤ rate)
    (r2 : rate ≤ 2 ^ 24) (mb : Nat) (hmb : 0 < mb) (cnt flags : Nat) (hcnt : cnt < m32)
    (hlen : cnt * nch * packedOctets i.code ≤ b.length) : ∀ (fuel so : Nat) (cts : Int),
    cnt - so ≤ fuel → so ≤ cnt → 0 ≤ cts → ((cnt - so : Nat) : ℚ) / rate * 1000000000 ≤ 2 ^ 61 →
    ∃ fs, pwLoop i nch rate mb cnt flags b fuel so (8 * (so * nch * packedOctets i.code)) cts = .ok fs ∧
      fs.flatMap WFrame.samples = PcmCoder.Spec.samples i b (so * nch) ((cnt - so) * nch) ∧
      (fs.map WFrame.dur).sum = cnt - so ∧
      (∀ f ∈ fs, f.flags = flags ∧ f.samples.length = f.dur * nch ∧ 0 < f.dur ∧ f.dur ≤ mb) ∧
      CtsOk rate cts fs := by
  have hk0 := octets_pos i.code hi ai
  have hpk : i.code.packed = 8 * packedOctets i.code := by rw [packed_octets _ ai]; omega
  have hend : ∀ fuel cts, pwLoop i nch rate mb cnt flags b fuel cnt
      (8 * (cnt * nch * packedOctets i.code)) cts = .ok [] := by
    intro fuel cts
    unfold pwLoop
    rw [if_pos]
    have : cnt * nch * i.code.packed = 8 * (cnt * nch * packedOctets i.code) := by rw [hpk]; ring
    omega
  intro fuel
  induction fuel with
  | zero =>
    intro so cts h1 h2 _ _
    have : so = cnt := by omega
    subst this
    exact ⟨[], hend _ _, by simp [PcmCoder.Spec.samples], by simp, by simp, trivial⟩
  | succ fuel ih =>
    intro so cts h1 h2 hc hq
    by_cases h0 : so = cnt
    · subst h0
      exact ⟨[], hend _ _, by simp [PcmCoder.Spec.samples], by simp, by simp, trivial⟩
    obtain ⟨k, hk⟩ : ∃ k, k = min (cnt - so) mb := ⟨_, rfl⟩
    have hk1 : 0 < k := by omega
    have hsok : (so + k) * nch ≤ cnt * nch := Nat.mul_le_mul_right _ (by omega)
    have hsok' : (so + k) * nch = so * nch + k * nch := by ring
    have hB : (so * nch + k * nch) * packedOctets i.code ≤ cnt * nch * packedOctets i.code :=
      Nat.mul_le_mul_right _ (by omega)
    have hB' : (so * nch + k * nch) * packedOctets i.code
        = so * nch * packedOctets i.code + k * nch * packedOctets i.code := by ring
    have hkw : 0 < k * nch * packedOctets i.code := Nat.mul_pos (Nat.mul_pos hk1 hnch) hk0
    have hcond : 8 * (so * nch * packedOctets i.code) < cnt * nch * i.code.packed := by
      have : cnt * nch * i.code.packed = 8 * (cnt * nch * packedOctets i.code) := by rw [hpk]; ring
      omega
    obtain ⟨fs, g1, g2, g3, g4, g5⟩ := ih (so + k) (nextCts rate cts k) (by omega) (by omega)
      (nextCts_nonneg rate k cts r1 r2 (dur_le rate k (cnt - so) (by omega) hq) hc)
      (dur_le rate (cnt - (so + k)) (cnt - so) (by omega) hq)
    refine ⟨⟨PcmCoder.Spec.samples i b (so * nch) (k * nch), flags, k, cts⟩ :: fs, ?_, ?_, ?_, ?_, ?_⟩
    · unfold pwLoop
      rw [if_neg (not_not.2 hcond), ← hk]
      simp only
      rw [decMap_spec i hi ai b hb _ _ (by omega)]
      simp only [ofMap, Except.bind]
      rw [mkFrame_ok _ _ _ _ hk1 (by omega) hc]
      simp only
      rw [← hsok', g1]
      rfl
    · rw [List.flatMap_cons, g2, hsok', ← samples_add]
      congr 1
      rw [← Nat.add_mul]
      congr 1
      omega
    · rw [List.map_cons, List.sum_cons, g3]
      show k + (cnt - (so + k)) = cnt - so
      omega
    · intro f hf
      rcases List.mem_cons.1 hf with hf | hf
      · rw [hf]
        exact ⟨rfl, by simp [PcmCoder.Spec.samples], hk1, by simp only; omega⟩
      · exact g4 f hf
    · exact ⟨rfl, g5⟩

end Verif.Batching
