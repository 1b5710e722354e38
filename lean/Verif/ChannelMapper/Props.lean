import Verif.ChannelMapper.Spec
import Verif.ChannelSet.Props

/-! # C41: channel mapping -/

namespace Verif.ChannelMapper

open Verif.ChannelSet

variable {α : Type}

/-- The output buffer is `done` followed by untouched samples. -/
structure At (out0 : List α) (ip : Nat) (done : List α) (c : Cur α) : Prop where
  ip : c.ip = ip
  op : c.op = done.length
  out : c.out = done ++ out0.drop done.length
  len : done.length ≤ out0.length

theorem At.put {out0 : List α} {ip : Nat} {done : List α} {c : Cur α} (h : At out0 ip done c)
    (hl : done.length < out0.length) (v : α) :
    ∃ c', c.put v = some c' ∧ At out0 ip (done ++ [v]) c' := by
  have hlen : c.out.length = out0.length := by rw [h.out]; simp; have := h.len; omega
  refine ⟨{ c with op := c.op + 1, out := c.out.set c.op v }, ?_, ?_⟩
  · unfold Cur.put
    rw [if_pos (by rw [h.op, hlen]; exact hl)]
  · refine ⟨h.ip, by simp [h.op], ?_, by simp; omega⟩
    simp only
    rw [h.op, h.out, List.set_append_right _ _ (le_refl _), Nat.sub_self, List.drop_eq_getElem_cons hl,
      List.set_cons_zero]
    simp

theorem At.ip_add {out0 : List α} {ip : Nat} {done : List α} {c : Cur α} (h : At out0 ip done c) (k : Nat) :
    At out0 (ip + k) done { c with ip := c.ip + k } :=
  ⟨by simp [h.ip], h.op, h.out, h.len⟩

/-- A loop over frames, each of which appends `row ns` to the output and moves the input by `w`. -/
theorem frames {out0 : List α} {step : Cur α → Nat → Option (Cur α)} {row : Nat → List α} {w : Nat}
    (n : Nat)
    (hstep : ∀ ns, ns < n → ∀ done c, At out0 (ns * w) done c →
      done = (List.range ns).flatMap row →
      ∃ c', step c ns = some c' ∧ At out0 ((ns + 1) * w) (done ++ row ns) c') :
    ∃ c', (List.range n).foldlM step (⟨0, 0, out0⟩ : Cur α) = some c' ∧
      At out0 (n * w) ((List.range n).flatMap row) c' := by
  have hall : ∀ k, k ≤ n → ∃ c', (List.range k).foldlM step (⟨0, 0, out0⟩ : Cur α) = some c' ∧
      At out0 (k * w) ((List.range k).flatMap row) c' := by
    intro k
    induction k with
    | zero => intro _; exact ⟨_, rfl, ⟨by simp, rfl, by simp, by simp⟩⟩
    | succ k ih =>
      intro hk
      obtain ⟨c, hc, hat⟩ := ih (by omega)
      obtain ⟨c', hc', hat'⟩ := hstep k (by omega) _ c hat rfl
      refine ⟨c', ?_, ?_⟩
      · rw [List.range_succ, List.foldlM_append, hc]
        simp only [Option.bind_eq_bind, Option.bind_some, List.foldlM_cons, List.foldlM_nil, hc']
        rfl
      · rw [List.range_succ, List.flatMap_append]
        simpa using hat'
  exact hall n (le_refl n)

theorem flatMap_length {row : Nat → List α} {m : Nat} (n : Nat) (h : ∀ ns, ns < n → (row ns).length = m) :
    ((List.range n).flatMap row).length = n * m := by
  induction n with
  | zero => simp
  | succ n ih =>
    rw [List.range_succ, List.flatMap_append, List.length_append, ih (fun ns h' => h ns (by omega))]
    simp only [List.flatMap_cons, List.flatMap_nil, List.append_nil]
    rw [h n (by omega), Nat.add_mul, Nat.one_mul]

theorem chanList_length (A : Finset Nat) (hA : ∀ n ∈ A, n < 1024) : (chanList A).length = A.card := by
  have h := List.toFinset_card_of_nodup (l := chanList A) ((List.nodup_range).filter _)
  rw [← h]
  refine congrArg Finset.card ?_
  ext k
  simp only [chanList, List.mem_toFinset, List.mem_filter, List.mem_range, decide_eq_true_eq]
  exact ⟨fun h => h.2, fun h => ⟨hA k h, h⟩⟩

theorem filter_range_length (A : Finset Nat) (k : Nat) :
    ((List.range k).filter (· ∈ A)).length = rank A k := by
  have h := List.toFinset_card_of_nodup (l := (List.range k).filter (· ∈ A)) ((List.nodup_range).filter _)
  rw [← h, rank]
  congr 1
  ext j
  simp only [List.mem_toFinset, List.mem_filter, List.mem_range, decide_eq_true_eq, Finset.mem_filter]
  tauto

theorem rank_lt {A : Finset Nat} {ch : Nat} (h : ch ∈ A) : rank A ch < A.card := by
  refine Finset.card_lt_card ?_
  refine ⟨Finset.filter_subset _ _, fun hc => ?_⟩
  have := hc h
  simp at this

theorem rank_succ (A : Finset Nat) (k : Nat) : rank A (k + 1) = rank A k + if k ∈ A then 1 else 0 := by
  rw [← filter_range_length, ← filter_range_length, List.range_succ, List.filter_append, List.length_append]
  congr 1
  by_cases h : k ∈ A <;> simp [h]

theorem chans_lt (s : CSet) : ∀ n ∈ s.chans, n < 1024 := fun n hn => ((mem_chans s n).1 hn).1

/-- One frame of the multitrack mapping. -/
theorem mm_frame (zero : α) {cin cout inout : CSet} (hin : Reach cin) (hout : Reach cout)
    (hio : inout = cin.or cout) (hne : cin.chans.Nonempty) (inp out0 : List α) (n ns : Nat) (hns : ns < n)
    (hil : inp.length = n * cin.chans.card) (hol : out0.length = n * cout.chans.card)
    (done : List α) (c : Cur α) (hat : At out0 (ns * cin.chans.card) done c)
    (hdone : done.length = ns * cout.chans.card) :
    ∃ c', (inout.firstChannel.bind fun first => inout.lastChannel.bind fun last =>
        (List.range' first (last + 1 - first)).foldlM (mmStep zero cin cout inp) c) = some c' ∧
      At out0 ((ns + 1) * cin.chans.card) (done ++ (chanList cout.chans).map fun ch =>
        if ch ∈ cin.chans then (inp[ns * cin.chans.card + rank cin.chans ch]?).getD zero else zero) c' := by
  have hr : Reach inout := by subst hio; exact .apply (.or cout) hin rfl
  have hch : inout.chans = cin.chans ∪ cout.chans := by
    have := C42_operations cin (.or cout)
    simp only [CSet.apply, Option.map_some, specApply, Option.some.injEq] at this
    rw [hio]; exact this
  have hneio : inout.chans.Nonempty := by
    obtain ⟨x, hx⟩ := hne
    exact ⟨x, by rw [hch]; exact Finset.mem_union_left _ hx⟩
  obtain ⟨hf, hl⟩ := (C42_counting hr).2.2.1 hneio
  rw [hf, hl]
  simp only [Option.bind_some]
  obtain ⟨f, hfd⟩ : ∃ f, f = inout.chans.min' hneio := ⟨_, rfl⟩
  obtain ⟨l, hld⟩ : ∃ l, l = inout.chans.max' hneio := ⟨_, rfl⟩
  rw [← hfd, ← hld]
  have hfmin : ∀ x ∈ inout.chans, f ≤ x := fun x hx => by rw [hfd]; exact Finset.min'_le _ _ hx
  have hlmax : ∀ x ∈ inout.chans, x ≤ l := fun x hx => by rw [hld]; exact Finset.le_max' _ _ hx
  have hl1024 : l < 1024 := by
    have : l ∈ inout.chans := by rw [hld]; exact Finset.max'_mem _ _
    exact chans_lt _ _ this
  have hfl : f ≤ l := hlmax f (by rw [hfd]; exact Finset.min'_mem _ _)
  obtain ⟨g, hg⟩ : ∃ g : Nat → α, g = fun ch =>
      if ch ∈ cin.chans then (inp[ns * cin.chans.card + rank cin.chans ch]?).getD zero else zero := ⟨_, rfl⟩
  have hcardle : ∀ k, rank cin.chans k ≤ cin.chans.card := fun k => Finset.card_filter_le _ _
  -- loop invariant
  have hloop : ∀ m, f + m ≤ l + 1 → ∃ c', (List.range' f m).foldlM (mmStep zero cin cout inp) c = some c' ∧
      At out0 (ns * cin.chans.card + rank cin.chans (f + m))
        (done ++ ((List.range (f + m)).filter (· ∈ cout.chans)).map g) c' := by
    intro m
    induction m with
    | zero =>
      intro _
      refine ⟨c, rfl, ?_⟩
      have h1 : rank cin.chans (f + 0) = 0 := by
        simp only [rank, Finset.card_eq_zero, Finset.filter_eq_empty_iff]
        intro x hx
        have := hfmin x (by rw [hch]; exact Finset.mem_union_left _ hx)
        omega
      have h2 : (List.range (f + 0)).filter (· ∈ cout.chans) = [] := by
        rw [List.filter_eq_nil_iff]
        intro x hx
        simp only [List.mem_range] at hx
        simp only [decide_eq_true_eq]
        intro hc
        have := hfmin x (by rw [hch]; exact Finset.mem_union_right _ hc)
        omega
      rw [h1, h2]; simpa using hat
    | succ m ih =>
      intro hm
      obtain ⟨c1, hc1, hat1⟩ := ih (by omega)
      obtain ⟨ch, hchd⟩ : ∃ ch, ch = f + m := ⟨_, rfl⟩
      have h1024 : ch < 1024 := by omega
      have hi : cin.hasChannel ch = some (decide (ch ∈ cin.chans)) := by
        rw [(C42_counting hin).2.2.2 ch, if_pos h1024]
      have ho : cout.hasChannel ch = some (decide (ch ∈ cout.chans)) := by
        rw [(C42_counting hout).2.2.2 ch, if_pos h1024]
      have hroom : ch ∈ cout.chans →
          (done ++ ((List.range (f + m)).filter (· ∈ cout.chans)).map g).length < out0.length := by
        intro hc
        rw [List.length_append, List.length_map, filter_range_length, hdone, hol, ← hchd]
        have := rank_lt hc
        have : (ns + 1) * cout.chans.card ≤ n * cout.chans.card := Nat.mul_le_mul_right _ (by omega)
        rw [Nat.add_mul] at this
        omega
      have hread : ch ∈ cin.chans → inp[c1.ip]? = some (g ch) := by
        intro hc
        have hidx : ns * cin.chans.card + rank cin.chans ch < inp.length := by
          rw [hil]
          have := rank_lt hc
          have : (ns + 1) * cin.chans.card ≤ n * cin.chans.card := Nat.mul_le_mul_right _ (by omega)
          rw [Nat.add_mul] at this
          omega
        rw [hat1.ip, ← hchd, hg]
        simp only [hc, if_true, List.getElem?_eq_getElem hidx, Option.getD_some]
      have hstep : ∃ c2, mmStep zero cin cout inp c1 ch = some c2 ∧
          At out0 (ns * cin.chans.card + rank cin.chans (ch + 1))
            (done ++ ((List.range (ch + 1)).filter (· ∈ cout.chans)).map g) c2 := by
        unfold mmStep
        rw [hi, ho]
        simp only [Option.bind_some, decide_eq_true_eq]
        rw [rank_succ, List.range_succ, List.filter_append, List.map_append, ← List.append_assoc]
        rw [← hchd] at hat1 hroom
        by_cases hci : ch ∈ cin.chans <;> by_cases hco : ch ∈ cout.chans
        · obtain ⟨c2, hp, hat2⟩ := hat1.put (hroom hco) (g ch)
          refine ⟨{ c2 with ip := c2.ip + 1 }, ?_, ?_⟩
          · rw [if_pos hci, if_pos hco, hread hci]
            simp only [Option.bind_some, hp, Option.map_some]
          · have := hat2.ip_add 1
            simpa [hci, hco, Nat.add_assoc] using this
        · refine ⟨{ c1 with ip := c1.ip + 1 }, by rw [if_pos hci, if_neg hco], ?_⟩
          have := hat1.ip_add 1
          simpa [hci, hco, Nat.add_assoc] using this
        · obtain ⟨c2, hp, hat2⟩ := hat1.put (hroom hco) zero
          refine ⟨c2, by rw [if_neg hci, if_pos hco, hp], ?_⟩
          have hgz : g ch = zero := by rw [hg]; simp [hci]
          simpa [hci, hco, hgz] using hat2
        · refine ⟨c1, by rw [if_neg hci, if_neg hco], ?_⟩
          simpa [hci, hco] using hat1
      obtain ⟨c2, hc2, hat2⟩ := hstep
      refine ⟨c2, ?_, ?_⟩
      · rw [List.range'_concat, List.foldlM_append, hc1]
        simp only [Option.bind_eq_bind, Option.bind_some, List.foldlM_cons, List.foldlM_nil, Nat.one_mul]
        rw [← hchd, hc2]; rfl
      · rw [hchd] at hat2; exact hat2
  obtain ⟨c', hc', hat'⟩ := hloop (l + 1 - f) (by omega)
  refine ⟨c', hc', ?_⟩
  rw [show f + (l + 1 - f) = l + 1 by omega] at hat'
  have e1 : rank cin.chans (l + 1) = cin.chans.card := by
    simp only [rank]
    refine congrArg Finset.card ?_
    rw [Finset.filter_eq_self]
    intro x hx
    have := hlmax x (by rw [hch]; exact Finset.mem_union_left _ hx)
    omega
  have e2 : (List.range (l + 1)).filter (· ∈ cout.chans) = chanList cout.chans := by
    unfold chanList
    have hr1024 : List.range 1024 = List.range (l + 1) ++ List.map (fun x => l + 1 + x) (List.range (1024 - (l + 1))) := by
      rw [← List.range_add, Nat.add_sub_cancel' (by omega)]
    rw [hr1024, List.filter_append]
    have : (List.map (fun x => l + 1 + x) (List.range (1024 - (l + 1)))).filter (· ∈ cout.chans) = [] := by
      rw [List.filter_eq_nil_iff]
      intro x hx
      simp only [List.mem_map, List.mem_range] at hx
      obtain ⟨y, _, hy⟩ := hx
      simp only [decide_eq_true_eq]
      intro hc
      have := hlmax x (by rw [hch]; exact Finset.mem_union_right _ hc)
      omega
    rw [this, List.append_nil]
  rw [e1, e2, hg] at hat'
  rw [Nat.add_mul, Nat.one_mul]
  exact hat'

theorem valid_card {s : CSet} (h : Reach s) (hv : s.isValid = true) :
    s.numChannels = s.chans.card ∧ 0 < s.chans.card :=
  ⟨(C42_counting h).1, Finset.card_pos.2 (C42_valid h hv).1⟩

theorem At.full {out0 : List α} {ip : Nat} {done : List α} {c : Cur α} (h : At out0 ip done c)
    (hl : done.length = out0.length) : c.out = done := by
  rw [h.out, hl]; simp

/-- Sizes a caller must provide: whole multi-channel samples, the same number on both sides. -/
theorem sizes {a b n x y : Nat} (ha : 0 < a) (hb : 0 < b) (hx : x = n * a) (hy : y = n * b) :
    x % a = 0 ∧ y % b = 0 ∧ x / a = n ∧ y / b = n := by
  subst hx; subst hy
  exact ⟨Nat.mul_mod_left _ _, Nat.mul_mod_left _ _, Nat.mul_div_left _ ha, Nat.mul_div_left _ hb⟩

/-- **C41, multitrack.** For every pair of valid multitrack sets and every number of samples, the
mapping succeeds without touching memory outside of the two buffers, and the output is exactly:
each common channel unchanged, zero for channels missing in the input, channels missing in the
output dropped. -/
theorem C41_multitrack (ar : Arith α) {cin cout : CSet} (hin : Reach cin) (hout : Reach cout)
    (hvi : cin.isValid = true) (hvo : cout.isValid = true)
    (hli : cin.layout = .multitrack) (hlo : cout.layout = .multitrack)
    (inp out : List α) (n : Nat) (hil : inp.length = n * cin.chans.card)
    (hol : out.length = n * cout.chans.card) :
    map ar cin cout inp out = some (specMM ar.zero cin.chans cout.chans inp n) := by
  obtain ⟨hni, hpi⟩ := valid_card hin hvi
  obtain ⟨hno, hpo⟩ := valid_card hout hvo
  obtain ⟨s1, s2, s3, s4⟩ := sizes hpi hpo hil hol
  unfold map
  simp only [hvi, hvo, not_true_eq_false, or_self, if_false, hni, hno, s1, s2, s3, s4, ne_eq, hli, hlo]
  have hrowlen : ∀ ns, ns < n → ((chanList cout.chans).map fun ch =>
      if ch ∈ cin.chans then (inp[ns * cin.chans.card + rank cin.chans ch]?).getD ar.zero else ar.zero).length
      = cout.chans.card := by
    intro ns _
    rw [List.length_map, chanList_length _ (chans_lt _)]
  obtain ⟨c', hc', hat⟩ := frames (out0 := out) (w := cin.chans.card)
    (step := fun c _ => (cin.or cout).firstChannel.bind fun first => (cin.or cout).lastChannel.bind fun last =>
      (List.range' first (last + 1 - first)).foldlM (mmStep ar.zero cin cout inp) c)
    (row := fun ns => (chanList cout.chans).map fun ch =>
      if ch ∈ cin.chans then (inp[ns * cin.chans.card + rank cin.chans ch]?).getD ar.zero else ar.zero) n
    (by
      intro ns hns done c hat hd
      refine mm_frame ar.zero hin hout rfl (C42_valid hin hvi).1 inp out n ns hns hil hol done c hat ?_
      rw [hd, flatMap_length ns (fun k hk => hrowlen k (by omega))])
  unfold mapMM
  rw [hc', Option.map_some]
  refine congrArg some ?_
  rw [hat.full]
  · rfl
  · rw [hol, flatMap_length n hrowlen]

/-- Non-vacuity: channels {1, 2} to {2, 3}, two samples. -/
example : ∃ cin cout, Reach cin ∧ Reach cout ∧ cin.isValid = true ∧ cout.isValid = true ∧
    map ⟨0, fun _ _ _ _ => 0, id⟩ cin cout [11, 12, 21, 22] [9, 9, 9, 9] = some [12, 0, 22, 0] := by
  refine ⟨(CSet.make .multitrack .none 6).getD CSet.empty, (CSet.make .multitrack .none 12).getD CSet.empty,
    .make (l := .multitrack) (o := .none) (m := 6) rfl, .make (l := .multitrack) (o := .none) (m := 12) rfl,
    by decide +kernel, by decide +kernel, by decide +kernel⟩

/-- Where each channel ends up in the output of the multitrack mapping. -/
theorem C41_multitrack_channel (ar : Arith α) {cin cout : CSet} (hin : Reach cin) (hout : Reach cout)
    (hvi : cin.isValid = true) (hvo : cout.isValid = true)
    (hli : cin.layout = .multitrack) (hlo : cout.layout = .multitrack)
    (inp out : List α) (n : Nat) (hil : inp.length = n * cin.chans.card)
    (hol : out.length = n * cout.chans.card) :
    ∃ res, map ar cin cout inp out = some res ∧ res.length = out.length ∧
      ∀ ns, ns < n → ∀ ch ∈ cout.chans,
        (ch ∈ cin.chans → res[ns * cout.chans.card + rank cout.chans ch]?
          = inp[ns * cin.chans.card + rank cin.chans ch]?) ∧
        (ch ∉ cin.chans → res[ns * cout.chans.card + rank cout.chans ch]? = some ar.zero) := by
  refine ⟨_, C41_multitrack ar hin hout hvi hvo hli hlo inp out n hil hol, ?_, ?_⟩
  · unfold specMM
    rw [flatMap_length n (m := cout.chans.card)]
    · exact hol.symm
    · intro ns _; rw [List.length_map, chanList_length _ (chans_lt _)]
  · intro ns hns ch hch
    have hrow : ∀ k, k < n → ((chanList cout.chans).map fun ch =>
        if ch ∈ cin.chans then (inp[k * cin.chans.card + rank cin.chans ch]?).getD ar.zero else ar.zero).length
        = cout.chans.card := by
      intro k _; rw [List.length_map, chanList_length _ (chans_lt _)]
    have hch1024 := chans_lt _ _ hch
    have hsplit : List.range n = List.range ns ++ ns :: List.range' (ns + 1) (n - ns - 1) := by
      rw [List.range_eq_range', List.range_eq_range', ← List.range'_succ]
      rw [show n - ns - 1 + 1 = n - ns by omega]
      have := List.range'_append (s := 0) (m := ns) (n := n - ns) (step := 1)
      rw [show ns + (n - ns) = n by omega] at this
      simpa using this.symm
    have hget : (specMM ar.zero cin.chans cout.chans inp n)[ns * cout.chans.card + rank cout.chans ch]?
        = ((chanList cout.chans).map fun ch =>
        if ch ∈ cin.chans then (inp[ns * cin.chans.card + rank cin.chans ch]?).getD ar.zero else ar.zero)[rank cout.chans ch]? := by
      unfold specMM
      rw [hsplit, List.flatMap_append, List.flatMap_cons]
      rw [List.getElem?_append_right]
      · rw [flatMap_length ns (fun k hk => hrow k (by omega))]
        rw [Nat.add_sub_cancel_left, List.getElem?_append_left]
        rw [hrow ns hns]; exact rank_lt hch
      · rw [flatMap_length ns (fun k hk => hrow k (by omega))]; omega
    have hcl : (chanList cout.chans)[rank cout.chans ch]? = some ch := by
      unfold chanList
      rw [show 1024 = ch + (1 + (1023 - ch)) by omega, List.range_add, List.range_add, List.map_append,
        List.filter_append, List.getElem?_append_right]
      · rw [filter_range_length, Nat.sub_self, List.filter_append]
        simp [hch]
      · rw [filter_range_length]
    rw [hget, List.getElem?_map, hcl]
    constructor
    · intro hci
      simp only [Option.map_some, hci, if_true]
      have hidx : ns * cin.chans.card + rank cin.chans ch < inp.length := by
        rw [hil]
        have := rank_lt hci
        have : (ns + 1) * cin.chans.card ≤ n * cin.chans.card := Nat.mul_le_mul_right _ (by omega)
        rw [Nat.add_mul] at this
        omega
      rw [List.getElem?_eq_getElem hidx]; rfl
    · intro hci
      simp [hci]

/-- **C41, surround and multitrack.** Mapping between a surround and a multitrack set copies the
first channels in order and fills the rest with zero, inside the buffers. -/
theorem C41_mixed (ar : Arith α) {cin cout : CSet} (hin : Reach cin) (hout : Reach cout)
    (hvi : cin.isValid = true) (hvo : cout.isValid = true) (hl : cin.layout ≠ cout.layout)
    (inp out : List α) (n : Nat) (hil : inp.length = n * cin.chans.card)
    (hol : out.length = n * cout.chans.card) :
    map ar cin cout inp out = some (specMS ar.zero cin.chans.card cout.chans.card inp n) := by
  obtain ⟨hni, hpi⟩ := valid_card hin hvi
  obtain ⟨hno, hpo⟩ := valid_card hout hvo
  obtain ⟨s1, s2, s3, s4⟩ := sizes hpi hpo hil hol
  have hms : mapMS ar.zero cin cout inp n ⟨0, 0, out⟩ =
      some ⟨n * cin.chans.card, out.length, specMS ar.zero cin.chans.card cout.chans.card inp n⟩ := by
    have hrowlen : ∀ ns, ns < n → ((List.range cout.chans.card).map fun j =>
        if j < cin.chans.card then (inp[ns * cin.chans.card + j]?).getD ar.zero else ar.zero).length
        = cout.chans.card := by
      intro ns _; simp
    obtain ⟨c', hc', hat⟩ := frames (out0 := out) (w := cin.chans.card)
      (step := fun c _ =>
        ((List.range cout.numChannels).foldlM (msStep ar.zero cin.numChannels inp) (c, 0)).map fun r =>
        if r.2 < cin.numChannels then { r.1 with ip := r.1.ip + (cin.numChannels - r.2) } else r.1)
      (row := fun ns => (List.range cout.chans.card).map fun j =>
        if j < cin.chans.card then (inp[ns * cin.chans.card + j]?).getD ar.zero else ar.zero) n
      (by
        intro ns hns done c hat hd
        have hdl : done.length = ns * cout.chans.card := by
          rw [hd, flatMap_length ns (fun k hk => hrowlen k (by omega))]
        have hbi : (ns + 1) * cin.chans.card ≤ n * cin.chans.card := Nat.mul_le_mul_right _ (by omega)
        have hbo : (ns + 1) * cout.chans.card ≤ n * cout.chans.card := Nat.mul_le_mul_right _ (by omega)
        rw [Nat.add_mul] at hbi hbo
        have hloop : ∀ m, m ≤ cout.chans.card → ∃ c1,
            (List.range m).foldlM (msStep ar.zero cin.numChannels inp) (c, 0)
              = some (c1, min m cin.chans.card) ∧
            At out (ns * cin.chans.card + min m cin.chans.card) (done ++ (List.range m).map fun j =>
              if j < cin.chans.card then (inp[ns * cin.chans.card + j]?).getD ar.zero else ar.zero) c1 := by
          intro m
          induction m with
          | zero => intro _; exact ⟨c, by simp, by simpa using hat⟩
          | succ m ih =>
            intro hm
            obtain ⟨c1, hc1, hat1⟩ := ih (by omega)
            have hroom : (done ++ (List.range m).map fun j =>
              if j < cin.chans.card then (inp[ns * cin.chans.card + j]?).getD ar.zero else ar.zero).length
                < out.length := by simp [hdl]; omega
            rw [List.range_succ, List.foldlM_append, hc1]
            simp only [Option.bind_eq_bind, Option.bind_some, List.foldlM_cons, List.foldlM_nil, List.map_append,
              List.map_cons, List.map_nil]
            by_cases hmi : m < cin.chans.card
            · have hmin : min m cin.chans.card = m := by omega
              have hmin' : min (m + 1) cin.chans.card = m + 1 := by omega
              have hidx : ns * cin.chans.card + m < inp.length := by omega
              rw [hmin] at hat1 ⊢
              obtain ⟨c2, hp, hat2⟩ := hat1.put hroom (inp[ns * cin.chans.card + m]'hidx)
              refine ⟨{ c2 with ip := c2.ip + 1 }, ?_, ?_⟩
              · simp only [msStep, hni, hmi, if_true, hat1.ip, List.getElem?_eq_getElem hidx, Option.bind_some,
                  hp, Option.map_some, hmin']
                rfl
              · have := hat2.ip_add 1
                rw [hmin']
                simpa [hmi, List.getElem?_eq_getElem hidx, Nat.add_assoc] using this
            · have hmin : min m cin.chans.card = cin.chans.card := by omega
              have hmin' : min (m + 1) cin.chans.card = cin.chans.card := by omega
              rw [hmin] at hat1 ⊢
              obtain ⟨c2, hp, hat2⟩ := hat1.put hroom ar.zero
              refine ⟨c2, ?_, ?_⟩
              · simp only [msStep, hni, lt_irrefl, if_false, hp, Option.map_some, hmin']
                rfl
              · rw [hmin']
                simpa [hmi] using hat2
        obtain ⟨c1, hc1, hat1⟩ := hloop cout.chans.card (le_refl _)
        rw [hno]
        simp only [hc1, Option.map_some]
        by_cases hlt : cout.chans.card < cin.chans.card
        · have hmin : min cout.chans.card cin.chans.card = cout.chans.card := by omega
          rw [hmin] at hat1 ⊢
          rw [hni, if_pos hlt]
          refine ⟨_, rfl, ?_⟩
          have := hat1.ip_add (cin.chans.card - cout.chans.card)
          rw [show ns * cin.chans.card + cout.chans.card + (cin.chans.card - cout.chans.card)
            = (ns + 1) * cin.chans.card by rw [Nat.add_mul]; omega] at this
          exact this
        · have hmin : min cout.chans.card cin.chans.card = cin.chans.card := by omega
          rw [hmin] at hat1 ⊢
          rw [hni, if_neg (by omega)]
          refine ⟨_, rfl, ?_⟩
          rw [show (ns + 1) * cin.chans.card = ns * cin.chans.card + cin.chans.card by rw [Nat.add_mul]; omega]
          exact hat1)
    unfold mapMS
    rw [hc']
    refine congrArg some ?_
    have hlen : ((List.range n).flatMap fun ns => (List.range cout.chans.card).map fun j =>
        if j < cin.chans.card then (inp[ns * cin.chans.card + j]?).getD ar.zero else ar.zero).length = out.length := by
      rw [hol, flatMap_length n hrowlen]
    have h1 := hat.full hlen
    have h2 := hat.op
    have h3 := hat.ip
    rw [hlen] at h2
    cases c'
    simp only at h1 h2 h3
    rw [h1, h2, h3]
    rfl
  unfold map
  simp only [hvi, hvo, not_true_eq_false, or_self, if_false, hni, hno, s1, s2, s3, s4, ne_eq]
  have hvn : cin.layout ≠ .none := by
    intro h; simp [CSet.isValid, h] at hvi
  have hvn' : cout.layout ≠ .none := by
    intro h; simp [CSet.isValid, h] at hvo
  cases hci : cin.layout <;> cases hco : cout.layout <;> simp_all

/-- Non-vacuity: stereo to three tracks. -/
example : ∃ cin cout, Reach cin ∧ Reach cout ∧ cin.isValid = true ∧ cout.isValid = true ∧
    cin.layout ≠ cout.layout ∧
    map ⟨0, fun _ _ _ _ => 0, id⟩ cin cout [11, 12, 21, 22] [9, 9, 9, 9, 9, 9] = some [11, 12, 0, 21, 22, 0] := by
  refine ⟨(CSet.make .surround .smpte 0x11).getD CSet.empty, (CSet.make .multitrack .none 14).getD CSet.empty,
    .make (l := .surround) (o := .smpte) (m := 0x11) rfl, .make (l := .multitrack) (o := .none) (m := 14) rfl,
    by decide +kernel, by decide +kernel, by decide +kernel, by decide +kernel⟩

/-- **C41, surround.** Mapping between two surround sets stays inside the two buffers and the
coefficient matrix; every output channel is the clipped accumulation over the input channels. -/
theorem C41_surround (ar : Arith α) {cin cout : CSet} (hin : Reach cin) (hout : Reach cout)
    (hvi : cin.isValid = true) (hvo : cout.isValid = true)
    (hli : cin.layout = .surround) (hlo : cout.layout = .surround)
    (inp out : List α) (n : Nat) (hil : inp.length = n * cin.chans.card)
    (hol : out.length = n * cout.chans.card) :
    map ar cin cout inp out = some (specSS ar cin.chans.card cout.chans.card inp n) := by
  obtain ⟨hni, hpi⟩ := valid_card hin hvi
  obtain ⟨hno, hpo⟩ := valid_card hout hvo
  obtain ⟨s1, s2, s3, s4⟩ := sizes hpi hpo hil hol
  have h17 : ∀ {s : CSet}, Reach s → s.isValid = true → s.layout = .surround → s.chans.card ≤ 17 := by
    intro s hr hv hl
    have := (C42_valid hr hv).2.2.2 hl
    have hsub : s.chans ⊆ Finset.range 17 := fun x hx => Finset.mem_range.2 (this x hx)
    simpa using Finset.card_le_card hsub
  have h17i := h17 hin hvi hli
  have h17o := h17 hout hvo hlo
  unfold map
  simp only [hvi, hvo, not_true_eq_false, or_self, if_false, hni, hno, s1, s2, s3, s4, ne_eq, hli, hlo]
  have hrowlen : ∀ ns, ns < n → ((List.range cout.chans.card).map fun o =>
    ar.clip ((List.range cin.chans.card).foldl
      (fun s i => ar.acc o i s ((inp[ns * cin.chans.card + i]?).getD ar.zero)) ar.zero)).length
      = cout.chans.card := by
    intro ns _; simp
  obtain ⟨c', hc', hat⟩ := frames (out0 := out) (w := cin.chans.card)
    (step := fun c _ =>
    ((List.range cout.numChannels).foldlM (fun c o =>
      ((List.range cin.numChannels).foldlM (fun s i =>
        if o < 17 ∧ i < 17 then (inp[c.ip + i]?).map fun x => ar.acc o i s x else none) ar.zero).bind
        fun s => c.put (ar.clip s)) c).map
      fun c => { c with ip := c.ip + cin.numChannels })
    (row := fun ns => (List.range cout.chans.card).map fun o =>
      ar.clip ((List.range cin.chans.card).foldl
        (fun s i => ar.acc o i s ((inp[ns * cin.chans.card + i]?).getD ar.zero)) ar.zero)) n
    (by
      intro ns hns done c hat hd
      have hdl : done.length = ns * cout.chans.card := by
        rw [hd, flatMap_length ns (fun k hk => hrowlen k (by omega))]
      have hbi : (ns + 1) * cin.chans.card ≤ n * cin.chans.card := Nat.mul_le_mul_right _ (by omega)
      have hbo : (ns + 1) * cout.chans.card ≤ n * cout.chans.card := Nat.mul_le_mul_right _ (by omega)
      rw [Nat.add_mul] at hbi hbo
      have hinner : ∀ o, o < 17 → ∀ m, m ≤ cin.chans.card →
          (List.range m).foldlM (fun s i =>
            if o < 17 ∧ i < 17 then (inp[ns * cin.chans.card + i]?).map fun x => ar.acc o i s x else none) ar.zero
          = some ((List.range m).foldl
            (fun s i => ar.acc o i s ((inp[ns * cin.chans.card + i]?).getD ar.zero)) ar.zero) := by
        intro o ho m
        induction m with
        | zero => intro _; rfl
        | succ m ih =>
          intro hm
          have hidx : ns * cin.chans.card + m < inp.length := by omega
          rw [List.range_succ, List.foldlM_append, List.foldl_append, ih (by omega)]
          simp only [Option.bind_eq_bind, Option.bind_some, List.foldlM_cons, List.foldlM_nil, List.foldl_cons,
            List.foldl_nil]
          rw [if_pos (by omega), List.getElem?_eq_getElem hidx]
          rfl
      have hloop : ∀ m, m ≤ cout.chans.card → ∃ c1,
          (List.range m).foldlM (fun c o =>
            ((List.range cin.numChannels).foldlM (fun s i =>
              if o < 17 ∧ i < 17 then (inp[c.ip + i]?).map fun x => ar.acc o i s x else none) ar.zero).bind
            fun s => c.put (ar.clip s)) c = some c1 ∧
          At out (ns * cin.chans.card) (done ++ (List.range m).map fun o =>
            ar.clip ((List.range cin.chans.card).foldl
              (fun s i => ar.acc o i s ((inp[ns * cin.chans.card + i]?).getD ar.zero)) ar.zero)) c1 := by
        intro m
        induction m with
        | zero => intro _; exact ⟨c, by simp, by simpa using hat⟩
        | succ m ih =>
          intro hm
          obtain ⟨c1, hc1, hat1⟩ := ih (by omega)
          have hroom : (done ++ (List.range m).map fun o =>
            ar.clip ((List.range cin.chans.card).foldl
              (fun s i => ar.acc o i s ((inp[ns * cin.chans.card + i]?).getD ar.zero)) ar.zero)).length
              < out.length := by simp [hdl]; omega
          obtain ⟨c2, hp, hat2⟩ := hat1.put hroom (ar.clip ((List.range cin.chans.card).foldl
              (fun s i => ar.acc m i s ((inp[ns * cin.chans.card + i]?).getD ar.zero)) ar.zero))
          refine ⟨c2, ?_, ?_⟩
          · rw [List.range_succ, List.foldlM_append, hc1]
            simp only [Option.bind_eq_bind, Option.bind_some, List.foldlM_cons, List.foldlM_nil]
            rw [hat1.ip, hni, hinner m (by omega) _ (le_refl _)]
            simp only [Option.bind_some, hp]
            rfl
          · rw [List.range_succ, List.map_append, ← List.append_assoc]
            exact hat2
      obtain ⟨c1, hc1, hat1⟩ := hloop cout.chans.card (le_refl _)
      rw [hno]
      refine ⟨{ c1 with ip := c1.ip + cin.numChannels }, by rw [hc1]; rfl, ?_⟩
      have := hat1.ip_add cin.numChannels
      rw [hni, show ns * cin.chans.card + cin.chans.card = (ns + 1) * cin.chans.card by rw [Nat.add_mul]; omega]
        at this
      rw [hni]; exact this)
  unfold mapSS
  rw [hc', Option.map_some]
  refine congrArg some ?_
  rw [hat.full]
  · rfl
  · rw [hol, flatMap_length n hrowlen]

/-- Non-vacuity: stereo to mono, with addition and a clip at 20. -/
example : ∃ cin cout, Reach cin ∧ Reach cout ∧ cin.isValid = true ∧ cout.isValid = true ∧
    map ⟨0, fun _ _ s x => s + x, min 20⟩ cin cout [1, 2, 21, 22] [9, 9] = some [3, 20] := by
  refine ⟨(CSet.make .surround .smpte 0x11).getD CSet.empty, (CSet.make .surround .smpte 4).getD CSet.empty,
    .make (l := .surround) (o := .smpte) (m := 0x11) rfl, .make (l := .surround) (o := .smpte) (m := 4) rfl,
    by decide +kernel, by decide +kernel, by decide +kernel⟩

/-- **C41** (refusal). Whatever the sets, buffers that do not hold the same whole number of
multi-channel samples are never mapped: the call aborts, nothing is written. -/
theorem C41_size_mismatch {α : Type} (ar : Arith α) {cin cout : CSet} (hin : Reach cin) (hout : Reach cout)
    (inp out : List α)
    (h : ¬ ∃ n, inp.length = n * cin.chans.card ∧ out.length = n * cout.chans.card) :
    map ar cin cout inp out = none := by
  unfold map
  by_cases hv : ¬ cin.isValid ∨ ¬ cout.isValid
  · rw [if_pos hv]
  · rw [if_neg hv]
    simp only [not_or, Decidable.not_not] at hv
    have ⟨hni, _⟩ := valid_card hin hv.1
    have ⟨hno, _⟩ := valid_card hout hv.2
    dsimp only
    rw [hni, hno]
    by_cases h1 : inp.length % cin.chans.card ≠ 0
    · rw [if_pos h1]
    rw [if_neg h1]
    by_cases h2 : out.length % cout.chans.card ≠ 0
    · rw [if_pos h2]
    rw [if_neg h2]
    by_cases h3 : inp.length / cin.chans.card ≠ out.length / cout.chans.card
    · rw [if_pos h3]
    exfalso
    simp only [ne_eq, Decidable.not_not] at h1 h2 h3
    refine h ⟨inp.length / cin.chans.card, ?_, ?_⟩
    · exact (Nat.div_mul_cancel (Nat.dvd_of_mod_eq_zero h1)).symm
    · rw [h3]; exact (Nat.div_mul_cancel (Nat.dvd_of_mod_eq_zero h2)).symm

/-- **C41** (refusal): an invalid channel set is never accepted. -/
theorem C41_invalid_set {α : Type} (ar : Arith α) {cin cout : CSet}
    (inp out : List α) (h : cin.isValid = false ∨ cout.isValid = false) :
    map ar cin cout inp out = none := by
  unfold map
  rw [if_pos]
  rcases h with h | h <;> simp [h]

/-- Non-vacuity: three samples do not fit a stereo set. -/
example : map ⟨0, fun _ _ s x => s + x, min 20⟩ ((CSet.make .surround .smpte 0x11).getD CSet.empty)
    ((CSet.make .surround .smpte 4).getD CSet.empty) [1, 2, 3] [9] = none := by
  refine C41_size_mismatch _ (.make (l := .surround) (o := .smpte) (m := 0x11) rfl)
    (.make (l := .surround) (o := .smpte) (m := 4) rfl) _ _ ?_
  rintro ⟨n, hn, hm⟩
  have h1 : ((CSet.make .surround .smpte 0x11).getD CSet.empty).chans.card = 2 := by decide +kernel
  have h2 : 3 = n * ((CSet.make .surround .smpte 0x11).getD CSet.empty).chans.card := hn
  rw [h1] at h2
  omega

end Verif.ChannelMapper
