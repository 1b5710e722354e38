import Verif.SpecParse.Lemmas

/-! # Parsing of sample specs: runs of the machine on tokens -/

namespace Verif.SpecParse

open Verif.ChannelSet Spec

theorem run_cons (p : PS) (c : Char) (t : List Char) : run p (c :: t) = (step p c).bind fun p => run p t := rfl

theorem run_append (p : PS) (a b : List Char) : run p (a ++ b) = (run p a).bind fun p => run p b := by
  induction a generalizing p with
  | nil => rfl
  | cons c t ih =>
    rw [List.cons_append, run_cons, run_cons]
    cases h : step p c with
    | ok p' => exact ih p'
    | no => rfl
    | panic => rfl
    | overflow => rfl

/-- Characters of one class in a state that keeps them. -/
theorem tok_run (q : Q) (cls : Char → Bool)
    (hstep : ∀ p c, p.q = q → cls c = true → step p c = .ok (p.more q c)) :
    ∀ (l : List Char) (p : PS), p.q = q → (∀ c ∈ l, cls c = true) → run p l = .ok { p with tok := p.tok ++ l } := by
  intro l
  induction l with
  | nil =>
    intro p _ _
    rw [List.append_nil]
    rfl
  | cons c t ih =>
    intro p hq h
    rw [run_cons, hstep p c hq (h c List.mem_cons_self)]
    simp only [Out.bind]
    rw [ih _ rfl (fun x hx => h x (List.mem_cons_of_mem _ hx))]
    unfold PS.more
    simp only [List.append_assoc, List.singleton_append]
    rw [← hq]

theorem ne_of_cls {cls : Char → Bool} {c d : Char} (h : cls c = true) (hd : cls d = false) : c ≠ d := by
  intro e
  rw [e, hd] at h
  cases h

theorem step_fmt (p : PS) (c : Char) (hq : p.q = .fmt) (h : isFmt c = true) : step p c = .ok (p.more .fmt c) := by
  unfold step
  simp only [hq, if_neg (ne_of_cls (d := '/') h (by decide)), h, if_true]

theorem step_rate (p : PS) (c : Char) (hq : p.q = .rate) (h : c.isDigit = true) :
    step p c = .ok (p.more .rate c) := by
  unfold step
  simp only [hq, if_neg (ne_of_cls (d := '/') h (by decide)), h, if_true]

theorem step_mask (p : PS) (c : Char) (hq : p.q = .mask) (h : isMask c = true) : step p c = .ok (p.more .mask c) := by
  unfold step
  simp only [hq, h, if_true]

theorem step_chan (p : PS) (c : Char) (hq : p.q = .chan) (h : c.isUpper = true) :
    step p c = .ok (p.more .chan c) := by
  unfold step
  simp only [hq, if_neg (ne_of_cls (d := ',') h (by decide)), h, if_true]

theorem step_num (p : PS) (c : Char) (hq : p.q = .num) (h : c.isDigit = true) :
    step p c = .ok (p.more .num c) := by
  unfold step
  simp only [hq, if_neg (ne_of_cls (d := ',') h (by decide)), if_neg (ne_of_cls (d := '-') h (by decide)), h, if_true]

theorem step_zero (p : PS) (c : Char) (hq : p.q = .zero) (h : c.isDigit = true) :
    step p c = .ok (p.more .num c) := by
  unfold step
  simp only [hq, if_neg (ne_of_cls (d := ',') h (by decide)), if_neg (ne_of_cls (d := '-') h (by decide)),
    if_neg (ne_of_cls (d := 'x') h (by decide)), h, if_true]

theorem step_rng (p : PS) (c : Char) (hq : p.q = .rng) (h : c.isDigit = true) :
    step p c = .ok (p.more .rng c) := by
  unfold step
  simp only [hq, if_neg (ne_of_cls (d := ',') h (by decide)), h, if_true]

theorem step_hex (p : PS) (c : Char) (hq : p.q = .hex) (h : isHex c = true) : step p c = .ok (p.more .hex c) := by
  unfold step
  simp only [hq, h, if_true]

/-! ## Format and rate -/

theorem format_table : (List.range 78).all (fun k => (PcmNames.toStr (k + 1)).any fun s =>
    s.toList.all isFmt && !s.toList.isEmpty && decide (s.toList.length < 16)) = true := by decide +kernel

theorem format_token (f : Nat) (s : String) (h : PcmNames.toStr f = some s) :
    f ≠ 0 ∧ PcmNames.fromStr s = f ∧ s.toList ≠ [] ∧ s.toList.length < 16 ∧ ∀ c ∈ s.toList, isFmt c = true := by
  have hf : 1 ≤ f ∧ f ≤ 78 := (PcmNames.C77_valid_iff f).2.1 (by rw [h]; rfl)
  obtain ⟨s', h1, h2⟩ := PcmNames.C77_roundtrip f hf
  rw [h] at h1
  have h1 := Option.some.inj h1
  rw [← h1] at h2
  have := List.all_eq_true.1 format_table (f - 1) (List.mem_range.2 (by omega))
  rw [show f - 1 + 1 = f by omega, h] at this
  simp only [Option.any_some, Bool.and_eq_true, List.all_eq_true, decide_eq_true_eq, Bool.not_eq_true',
    List.isEmpty_eq_false_iff] at this
  exact ⟨by omega, h2, this.1.2, this.2, this.1.1⟩

/-- A non-empty token of a class, from the state before it. -/
theorem start_run (q : Q) (cls : Char → Bool) (p : PS) (l : List Char) (hl : l ≠ []) (h : ∀ c ∈ l, cls c = true)
    (hstep : ∀ p c, p.q = q → cls c = true → step p c = .ok (p.more q c))
    (hfirst : ∀ c, cls c = true → step p c = .ok (p.start q c)) :
    run p l = .ok { p with q := q, tok := l } := by
  cases l with
  | nil => exact absurd rfl hl
  | cons c t =>
    rw [run_cons, hfirst c (h c List.mem_cons_self)]
    simp only [Out.bind]
    rw [tok_run q cls hstep t _ rfl (fun x hx => h x (List.mem_cons_of_mem _ hx))]
    rfl

theorem first_fmt (p : PS) (c : Char) (hq : p.q = .start) (h : isFmt c = true) :
    step p c = .ok (p.start .fmt c) := by
  unfold step
  simp only [hq, if_neg (ne_of_cls (d := '-') h (by decide)), h, if_true]

theorem first_rate (p : PS) (c : Char) (hq : p.q = .rate0) (h : c.isDigit = true) :
    step p c = .ok (p.start .rate c) := by
  unfold step
  simp only [hq, if_neg (ne_of_cls (d := '-') h (by decide)), h, if_true]

/-- The format and the slash after it. -/
theorem format_run (p : PS) (f : List Char) (n : Nat) (h : Format f n) (hq : p.q = .start) (hn : p.spec.fmt = 0) :
    ∃ p', run p (f ++ ['/']) = .ok p' ∧ p'.q = .rate0 ∧ p'.spec = { p.spec with fmt := n } := by
  cases h with
  | dash =>
    refine ⟨(p.go .fDash).go .rate0, ?_, rfl, ?_⟩
    · rw [List.singleton_append, run_cons]
      have : step p '-' = .ok (p.go .fDash) := by unfold step; simp only [hq, if_true]
      rw [this]
      rfl
    · rw [← hn]
      rfl
  | name _ s hs =>
    obtain ⟨h1, h2, h3, h4, h5⟩ := format_token n s hs
    refine ⟨({ p with q := .fmt, tok := s.toList, spec := { p.spec with fmt := n } } : PS).go .rate0, ?_, rfl, rfl⟩
    rw [run_append, start_run .fmt isFmt p s.toList h3 h5 step_fmt (fun c hc => first_fmt p c hq hc)]
    simp only [Out.bind, run, step, setFormat, if_true, String.ofList_toList, h2, h1, if_false]
    rw [if_neg (by omega)]

/-- The rate and the slash after it. -/
theorem rate_run (p : PS) (r : List Char) (n : Nat) (h : Rate r n) (hq : p.q = .rate0) (hn : p.spec.rate = 0) :
    ∃ p', run p (r ++ ['/']) = .ok p' ∧ p'.q = .ch0 ∧ p'.spec = { p.spec with rate := n } := by
  cases h with
  | dash =>
    refine ⟨(p.go .rDash).go .ch0, ?_, rfl, ?_⟩
    · rw [List.singleton_append, run_cons]
      have : step p '-' = .ok (p.go .rDash) := by unfold step; simp only [hq, if_true]
      rw [this]
      rfl
    · rw [← hn]
      rfl
  | num _ _ hd h0 hlt =>
    obtain ⟨h1, h2, h3⟩ := hd
    refine ⟨({ p with q := .rate, tok := r, spec := { p.spec with rate := n } } : PS).go .ch0, ?_, rfl, rfl⟩
    rw [run_append, start_run .rate Char.isDigit p r h1 h2 step_rate (fun c hc => first_rate p c hq hc)]
    simp only [Out.bind, run, step, setRate, if_true, parseSize_eq r h2]
    rw [if_pos (by rw [← h3]; exact hlt), ← h3]
    simp only
    rw [if_neg (by omega)]

/-! ## Lists -/

/-- Action run when an item of `mtr_list` ends. -/
def leave (p : PS) : Out PS := if p.q = .rng then setMtrRange p else setMtrNumber p

/-- State inside of the last number of an item. -/
def InItem (q : Q) : Prop := q = .zero ∨ q = .num ∨ q = .rng

theorem step_comma (p : PS) (h : InItem p.q) : step p ',' = (leave p).bind fun p => .ok (p.go .numSep) := by
  unfold step leave
  rcases h with h | h | h
  · rw [h]
    simp
  · rw [h]
    simp
  · rw [h]
    simp

theorem eof_item (p : PS) (h : InItem p.q) : eof p = (leave p).bind setMtr := by
  unfold eof leave
  rcases h with h | h | h
  · rw [h]
    simp
  · rw [h]
    simp
  · rw [h]
    simp

/-- A number at the start of an item. -/
theorem number_run (p : PS) (l : List Char) (hl : l ≠ []) (h : ∀ c ∈ l, c.isDigit = true)
    (hq : p.q = .ch0 ∨ p.q = .numSep) :
    ∃ q, (q = .zero ∨ q = .num) ∧ run p l = .ok { p with q := q, tok := l } := by
  rcases hq with hq | hq
  · cases l with
    | nil => exact absurd rfl hl
    | cons c t =>
      have hc := h c List.mem_cons_self
      have ht : ∀ x ∈ t, x.isDigit = true := fun x hx => h x (List.mem_cons_of_mem _ hx)
      have hlow : c.isLower = false := by
        rw [isDigit_iff] at hc
        by_contra hcon
        rw [Bool.not_eq_false] at hcon
        unfold Char.isLower at hcon
        simp only [Bool.and_eq_true, decide_eq_true_eq, UInt32.le_iff_toNat_le] at hcon
        have := hcon.1
        change 97 ≤ c.toNat at this
        omega
      have hup : c.isUpper = false := by
        rw [isDigit_iff] at hc
        by_contra hcon
        rw [Bool.not_eq_false] at hcon
        unfold Char.isUpper at hcon
        simp only [Bool.and_eq_true, decide_eq_true_eq, UInt32.le_iff_toNat_le] at hcon
        have := hcon.1
        change 65 ≤ c.toNat at this
        omega
      by_cases h0 : c = '0'
      · have hs : step p c = .ok (p.start .zero c) := by
          unfold step
          simp only [hq, if_neg (ne_of_cls (d := '-') hc (by decide)), hlow, hup, Bool.false_eq_true, if_false,
            if_pos h0]
        cases t with
        | nil =>
          refine ⟨.zero, Or.inl rfl, ?_⟩
          rw [run_cons, hs]
          rfl
        | cons d u =>
          refine ⟨.num, Or.inr rfl, ?_⟩
          rw [run_cons, hs]
          simp only [Out.bind]
          rw [run_cons, step_zero _ d rfl (ht d List.mem_cons_self)]
          simp only [Out.bind]
          rw [tok_run .num Char.isDigit step_num u _ rfl (fun x hx => ht x (List.mem_cons_of_mem _ hx))]
          rfl
      · have hs : step p c = .ok (p.start .num c) := by
          unfold step
          simp only [hq, if_neg (ne_of_cls (d := '-') hc (by decide)), hlow, hup, Bool.false_eq_true, if_false,
            if_neg h0, hc, if_true]
        refine ⟨.num, Or.inr rfl, ?_⟩
        rw [run_cons, hs]
        simp only [Out.bind]
        rw [tok_run .num Char.isDigit step_num t _ rfl ht]
        rfl
  · refine ⟨.num, Or.inr rfl, ?_⟩
    apply start_run .num Char.isDigit p l hl h step_num
    intro c hc
    unfold step
    simp only [hq, hc, if_true]

/-- A range, up to its end. -/
theorem range_run (p : PS) (l l' : List Char) (a b : Nat) (ha : Decimal l a) (hb : Decimal l' b) (h : a < 1024)
    (hq : p.q = .ch0 ∨ p.q = .numSep) :
    run p (l ++ '-' :: l') = .ok { p with q := .rng, tok := l', rb := a } := by
  obtain ⟨a1, a2, a3⟩ := ha
  obtain ⟨b1, b2, b3⟩ := hb
  obtain ⟨q, hq', hr⟩ := number_run p l a1 a2 hq
  rw [run_append, hr]
  simp only [Out.bind]
  have hs : step { p with q := q, tok := l } '-' = .ok { p with q := .rngSep, tok := [], rb := a } := by
    have he : ∀ q, setMtrRangeBegin { p with q := q, tok := l } = .ok { p with q := q, tok := l, rb := a } := by
      intro q
      simp only [setMtrRangeBegin, parseTrack_eq l a2]
      rw [if_pos (by rw [← a3]; exact h), ← a3]
    unfold step
    rcases hq' with hq' | hq' <;> rw [hq'] <;> simp [he, Out.bind, PS.go]
  rw [run_cons, hs]
  simp only [Out.bind]
  rw [start_run .rng Char.isDigit _ l' b1 b2 step_rng (fun c hc => by unfold step; simp only [hc, if_true])]

/-- An item that has a meaning. -/
theorem item_run (p : PS) (l : List Char) (B : Finset Nat) (h : Item l B) (hq : p.q = .ch0 ∨ p.q = .numSep) :
    ∃ p' s', run p l = .ok p' ∧ InItem p'.q ∧ p'.spec = p.spec ∧ leave p' = .ok (p'.setChs s') ∧
      Upd p.spec.chs s' (p.spec.chs.chans ∪ B) := by
  cases h with
  | track _ n hd hn =>
    obtain ⟨h1, h2, h3⟩ := hd
    obtain ⟨q, hq', hr⟩ := number_run p l h1 h2 hq
    obtain ⟨s', e, u⟩ := toggle_some p.spec.chs n hn
    have hi : insert n p.spec.chs.chans = p.spec.chs.chans ∪ {n} := by
      rw [Finset.union_comm, Finset.insert_eq]
    rw [hi] at u
    refine ⟨_, s', hr, ?_, rfl, ?_, u⟩
    · rcases hq' with hq' | hq'
      · exact Or.inl hq'
      · exact Or.inr (Or.inl hq')
    · unfold leave
      rw [if_neg (by
        intro hc
        change q = Q.rng at hc
        rcases hq' with hq' | hq' <;> rw [hq'] at hc <;> cases hc)]
      unfold setMtrNumber
      simp only [parseTrack_eq l h2]
      rw [if_pos (by rw [← h3]; exact hn), ← h3]
      simp only [e, ofOption, Out.bind]
  | range d d' a b ha hb hab hb' =>
    have hr := range_run p d d' a b ha hb (by omega) hq
    obtain ⟨b1, b2, b3⟩ := hb
    obtain ⟨s', e, u⟩ := toggleRange_some p.spec.chs a b ⟨hab, hb'⟩
    refine ⟨_, s', hr, Or.inr (Or.inr rfl), rfl, ?_, u⟩
    unfold leave
    rw [if_pos rfl]
    unfold setMtrRange
    simp only [parseTrack_eq d' b2]
    rw [if_pos (by rw [← b3]; exact hb'), ← b3]
    simp only [e, ofOption, Out.bind]

/-- A reversed range. -/
theorem reversed_run (p : PS) (l : List Char) (h : Reversed l) (hq : p.q = .ch0 ∨ p.q = .numSep) :
    ∃ p', run p l = .ok p' ∧ InItem p'.q ∧ leave p' = .panic := by
  cases h with
  | mk d d' a b ha hb hab hlt =>
    have hr := range_run p d d' a b ha hb hlt hq
    obtain ⟨b1, b2, b3⟩ := hb
    refine ⟨_, hr, Or.inr (Or.inr rfl), ?_⟩
    unfold leave
    rw [if_pos rfl]
    unfold setMtrRange
    simp only [parseTrack_eq d' b2]
    rw [if_pos (by rw [← b3]; omega), ← b3]
    simp only
    rw [toggleRange_none _ _ _ (by omega)]
    rfl

theorem tracks_run (p : PS) (hq : p.q = .ch0) (h0 : p.spec.chs.chans = ∅) (l : List Char) (A : Finset Nat)
    (h : Tracks l A) :
    ∃ p' s', run p l = .ok p' ∧ InItem p'.q ∧ leave p' = .ok (p'.setChs s') ∧
      p'.spec.fmt = p.spec.fmt ∧ p'.spec.rate = p.spec.rate ∧ s'.chans = A ∧ (Reach p.spec.chs → Reach s') := by
  induction h with
  | one l A hi =>
    obtain ⟨p', s', h1, h2, h3, h4, u⟩ := item_run p l A hi (Or.inl hq)
    rw [h0, Finset.empty_union] at u
    exact ⟨p', s', h1, h2, h4, by rw [h3], by rw [h3], u.chans, u.reach⟩
  | more l l' A B ht hi ih =>
    obtain ⟨p1, s1, h1, h2, h3, h4, h5, h6, h7⟩ := ih
    have hc : step p1 ',' = .ok ((p1.setChs s1).go .numSep) := by
      rw [step_comma p1 h2, h3]
      rfl
    obtain ⟨p', s', e1, e2, e3, e4, u⟩ := item_run ((p1.setChs s1).go .numSep) l' B hi (Or.inr rfl)
    refine ⟨p', s', ?_, e2, e4, ?_, ?_, ?_, ?_⟩
    · rw [run_append, h1]
      simp only [Out.bind]
      rw [run_cons, hc]
      exact e1
    · rw [e3]; exact h4
    · rw [e3]; exact h5
    · rw [u.chans, ← h6]; rfl
    · exact fun hr => u.reach (h7 hr)

theorem name_run (p : PS) (s : String) (n : Nat) (h : positions[n]? = some s)
    (hq : p.q = .ch0 ∨ p.q = .chanSep) :
    run p s.toList = .ok { p with q := .chan, tok := s.toList } ∧
      ∃ s', setSurroundChannel { p with q := .chan, tok := s.toList }
          = .ok (({ p with q := .chan, tok := s.toList } : PS).setChs s')
        ∧ Upd p.spec.chs s' (insert n p.spec.chs.chans) := by
  have hup : ∀ s ∈ positions, s.toList ≠ [] ∧ ∀ c ∈ s.toList, c.isUpper = true := by decide +kernel
  obtain ⟨h1, h2⟩ := hup s (List.mem_of_getElem? h)
  refine ⟨?_, ?_⟩
  · apply start_run .chan Char.isUpper p s.toList h1 h2 step_chan
    intro c hc
    unfold step
    rcases hq with hq | hq
    · have hlow : c.isLower = false := by
        by_contra hcon
        rw [Bool.not_eq_false] at hcon
        unfold Char.isLower at hcon
        unfold Char.isUpper at hc
        simp only [Bool.and_eq_true, decide_eq_true_eq, UInt32.le_iff_toNat_le] at hcon hc
        have c1 := hcon.1
        have c2 := hc.2
        change 97 ≤ c.toNat at c1
        change c.toNat ≤ 90 at c2
        omega
      simp only [hq, if_neg (ne_of_cls (d := '-') hc (by decide)), hlow, Bool.false_eq_true, if_false, hc, if_true]
    · simp only [hq, hc, if_true]
  · have hn := pos_lt s n h
    obtain ⟨s', e, u⟩ := toggle_some p.spec.chs n (by omega)
    refine ⟨s', ?_, u⟩
    unfold setSurroundChannel
    simp only [pos_lookup s n h, e, ofOption, Out.bind]

theorem names_run (p : PS) (hq : p.q = .ch0) (h0 : p.spec.chs.chans = ∅) (l : List Char) (A : Finset Nat)
    (h : Names l A) :
    ∃ p' s', run p l = .ok p' ∧ p'.q = .chan ∧ setSurroundChannel p' = .ok (p'.setChs s') ∧
      p'.spec.fmt = p.spec.fmt ∧ p'.spec.rate = p.spec.rate ∧ s'.chans = A ∧ (Reach p.spec.chs → Reach s') := by
  induction h with
  | one n s hs =>
    obtain ⟨h1, s', h2, u⟩ := name_run p s n hs (Or.inl hq)
    rw [h0] at u
    exact ⟨_, s', h1, rfl, h2, rfl, rfl, u.chans, u.reach⟩
  | more l A n s ht hs ih =>
    obtain ⟨p1, s1, h1, h2, h3, h4, h5, h6, h7⟩ := ih
    have hc : step p1 ',' = .ok ((p1.setChs s1).go .chanSep) := by
      unfold step
      simp only [h2, if_true, h3, Out.bind]
    obtain ⟨e1, s', e2, u⟩ := name_run ((p1.setChs s1).go .chanSep) s n hs (Or.inr rfl)
    refine ⟨_, s', ?_, rfl, e2, h4, h5, ?_, ?_⟩
    · rw [run_append, h1]
      simp only [Out.bind]
      rw [run_cons, hc]
      exact e1
    · rw [u.chans, ← h6]; rfl
    · exact fun hr => u.reach (h7 hr)

/-! ## Channels -/

theorem preset_chars : presets.all (fun y => match y.1.toList with
    | [] => false
    | c :: t => c.isLower && !t.isEmpty && t.all isMask) = true := by decide +kernel

theorem mask_run (p : PS) (hq : p.q = .ch0) (s : String) (l : List String) (h : (s, l) ∈ presets) :
    run p s.toList = .ok { p with q := .mask, tok := s.toList } := by
  have := List.all_eq_true.1 preset_chars _ h
  simp only at this
  cases hs : s.toList with
  | nil => rw [hs] at this; cases this
  | cons c t =>
    rw [hs] at this
    simp only [Bool.and_eq_true, Bool.not_eq_true', List.isEmpty_eq_false_iff, List.all_eq_true] at this
    obtain ⟨⟨h1, h2⟩, h3⟩ := this
    have e : step p c = .ok (p.start .mask1 c) := by
      unfold step
      simp only [hq, if_neg (ne_of_cls (d := '-') h1 (by decide)), h1, if_true]
    rw [run_cons, e]
    simp only [Out.bind]
    cases t with
    | nil => exact absurd rfl h2
    | cons d u =>
      have e2 : step (p.start .mask1 c) d = .ok ((p.start .mask1 c).more .mask d) := by
        unfold step
        simp only [PS.start, h3 d List.mem_cons_self, if_true]
      rw [run_cons, e2]
      simp only [Out.bind]
      rw [tok_run .mask isMask step_mask u _ rfl (fun x hx => h3 x (List.mem_cons_of_mem _ hx))]
      rfl

theorem hex_run (p : PS) (hq : p.q = .ch0) (l : List Char) (hl : l ≠ []) (h : ∀ c ∈ l, isHex c = true) :
    run p ('0' :: 'x' :: l) = .ok { p with q := .hex, tok := l } := by
  have e : step p '0' = .ok (p.start .zero '0') := by
    unfold step
    rw [hq]
    rfl
  rw [run_cons, e]
  simp only [Out.bind]
  have e2 : step (p.start .zero '0') 'x' = .ok ((p.start .zero '0').go .hex0) := rfl
  rw [run_cons, e2]
  simp only [Out.bind]
  rw [start_run .hex isHex _ l hl h step_hex (fun c hc => by
    unfold step
    simp only [PS.go, hc, if_true])]
  rfl

theorem surround_end (p : PS) : ∃ s', setSurround p = .ok (p.setChs s') ∧ s'.chans = p.spec.chs.chans ∧
    s'.layout = .surround ∧ s'.order = .smpte ∧ (Reach p.spec.chs → Reach s') := by
  obtain ⟨s', e, h⟩ := chans_setLayout p.spec.chs .surround .smpte (by decide)
  refine ⟨s'.setOrder .smpte, ?_, h⟩
  unfold setSurround
  simp only [e, ofOption, Out.bind]

theorem mtr_end (p : PS) : ∃ s', setMtr p = .ok (p.setChs s') ∧ s'.chans = p.spec.chs.chans ∧
    s'.layout = .multitrack ∧ s'.order = .none ∧ (Reach p.spec.chs → Reach s') := by
  obtain ⟨s', e, h⟩ := chans_setLayout p.spec.chs .multitrack .none (by decide)
  refine ⟨s'.setOrder .none, ?_, h⟩
  unfold setMtr
  simp only [e, ofOption, Out.bind]

/-- Channels that have a meaning, and the end of the string. -/
theorem channels_run (p : PS) (hq : p.q = .ch0) (h0 : p.spec.chs.chans = ∅) (hl : p.spec.chs.layout = .none)
    (ho : p.spec.chs.order = .none) (c : List Char) (l : Layout) (o : Order) (A : Finset Nat)
    (h : Channels c l o A) :
    ∃ p', (run p c).bind eof = .ok p' ∧ p'.spec.fmt = p.spec.fmt ∧ p'.spec.rate = p.spec.rate ∧
      p'.spec.chs.chans = A ∧ p'.spec.chs.layout = l ∧ p'.spec.chs.order = o := by
  cases h with
  | dash =>
    refine ⟨p.go .cDash, ?_, rfl, rfl, h0, hl, ho⟩
    rw [run_cons]
    have : step p '-' = .ok (p.go .cDash) := by unfold step; simp only [hq, if_true]
    rw [this]
    rfl
  | preset s t ht =>
    obtain ⟨m, e1, e2⟩ := preset_table s t ht
    obtain ⟨s', f1, f2, f3, f4, f5⟩ :=
      surround_end (({ p with q := .mask, tok := s.toList } : PS).setChs (p.spec.chs.setMask m))
    refine ⟨(({ p with q := .mask, tok := s.toList } : PS).setChs (p.spec.chs.setMask m)).setChs s', ?_, rfl, rfl, ?_,
      f3, f4⟩
    · rw [mask_run p hq s t ht]
      simp only [Out.bind, eof, setSurroundMask, e1]
      exact f1
    · rw [← e2, ← (setMask_upd p.spec.chs m).chans]
      exact f2
  | names _ _ hn =>
    obtain ⟨p', s1, h1, h2, h3, h4, h5, h6, h7⟩ := names_run p hq h0 c A hn
    obtain ⟨s', f1, f2, f3, f4, f5⟩ := surround_end (p'.setChs s1)
    refine ⟨(p'.setChs s1).setChs s', ?_, h4, h5, ?_, f3, f4⟩
    · rw [h1]
      simp only [Out.bind, eof, h2, h3]
      exact f1
    · rw [← h6]; exact f2
  | mask l hl hx hv =>
    have hx' : ∀ c ∈ l, isHex c = true := fun c hc => (hexDigit_iff c).1 (hx c hc)
    rcases parseMask_spec p.spec.chs l hx' with ⟨_, s1, e, u⟩ | ⟨hc, _⟩
    · obtain ⟨s', f1, f2, f3, f4, f5⟩ := mtr_end (({ p with q := .hex, tok := l } : PS).setChs s1)
      refine ⟨(({ p with q := .hex, tok := l } : PS).setChs s1).setChs s', ?_, rfl, rfl, ?_, f3, f4⟩
      · rw [hex_run p hq l hl hx']
        simp only [Out.bind, eof, setMtrMask, e]
        exact f1
      · have := u.chans
        unfold hexChans at this
        rw [h0, Finset.empty_union] at this
        rw [← this]
        exact f2
    · exact absurd hv (Nat.not_lt.2 hc)
  | tracks _ _ ht =>
    obtain ⟨p', s1, h1, h2, h3, h4, h5, h6, h7⟩ := tracks_run p hq h0 c A ht
    obtain ⟨s', f1, f2, f3, f4, f5⟩ := mtr_end (p'.setChs s1)
    refine ⟨(p'.setChs s1).setChs s', ?_, h4, h5, ?_, f3, f4⟩
    · rw [h1]
      simp only [Out.bind]
      rw [eof_item p' h2, h3]
      exact f1
    · rw [← h6]; exact f2

theorem tail_panic (p : PS) (h : InItem p.q) (hl : leave p = .panic) (t : List Char)
    (ht : t = [] ∨ ∃ t', t = ',' :: t') : (run p t).bind eof = .panic := by
  rcases ht with ht | ⟨t', ht⟩
  · rw [ht]
    show eof p = .panic
    rw [eof_item p h, hl]
    rfl
  · rw [ht, run_cons, step_comma p h, hl]
    rfl

theorem bind_assoc {α β γ : Type} (x : Out α) (f : α → Out β) (g : β → Out γ) :
    (x.bind f).bind g = x.bind fun a => (f a).bind g := by
  cases x <;> rfl

/-- Channels on which the parser aborts. -/
theorem aborts_run (p : PS) (hq : p.q = .ch0) (h0 : p.spec.chs.chans = ∅) (c : List Char) (h : Aborts c) :
    (run p c).bind eof = .panic := by
  cases h with
  | mask l hl hx hv =>
    have hx' : ∀ c ∈ l, isHex c = true := fun c hc => (hexDigit_iff c).1 (hx c hc)
    rcases parseMask_spec p.spec.chs l hx' with ⟨hc, _⟩ | ⟨_, e⟩
    · exact absurd hc (Nat.not_lt.2 hv)
    · rw [hex_run p hq l hl hx']
      simp only [Out.bind, eof, setMtrMask, e]
  | first l t hr ht =>
    obtain ⟨p', h1, h2, h3⟩ := reversed_run p l hr (Or.inl hq)
    rw [run_append, h1]
    simp only [Out.bind]
    exact tail_panic p' h2 h3 t ht
  | later l l' t A htr hr ht =>
    obtain ⟨p1, s1, h1, h2, h3, h4, h5, h6, h7⟩ := tracks_run p hq h0 l A htr
    have hc : step p1 ',' = .ok ((p1.setChs s1).go .numSep) := by
      rw [step_comma p1 h2, h3]
      rfl
    obtain ⟨p', e1, e2, e3⟩ := reversed_run ((p1.setChs s1).go .numSep) l' hr (Or.inr rfl)
    rw [run_append, h1, bind_assoc]
    simp only [Out.bind]
    rw [run_cons, hc]
    simp only [Out.bind]
    rw [run_append, e1]
    simp only [Out.bind]
    exact tail_panic p' e2 e3 t ht

end Verif.SpecParse
