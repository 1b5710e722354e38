import Verif.SpecParse.Backward

/-!
# Parsing of sample specs: properties

C93: `parse_sample_spec` and `parse_encoding` accept exactly the strings of the documented language
and give them their meaning; strings on which they abort or overrun a buffer.
-/

namespace Verif.SpecParse

open Verif.ChannelSet Spec

theorem isFmt_iff (c : Char) : isFmt c = true ↔ c ∈ "abcdefghijklmnopqrstuvwxyz0123456789_".toList := by
  constructor
  · intro h
    have key : ∀ k < 128, isFmt (Char.ofNat k) = true →
        Char.ofNat k ∈ "abcdefghijklmnopqrstuvwxyz0123456789_".toList := by decide +kernel
    have hlt : c.toNat < 128 := by
      unfold isFmt Char.isLower Char.isDigit at h
      simp only [Bool.or_eq_true, Bool.and_eq_true, decide_eq_true_eq, UInt32.le_iff_toNat_le, ge_iff_le] at h
      rcases h with (h | h) | h
      · have := h.2
        change c.toNat ≤ 122 at this
        omega
      · have := h.2
        change c.toNat ≤ 57 at this
        omega
      · rw [h]
        decide
    have := key c.toNat hlt
    rw [Char.ofNat_toNat] at this
    exact this h
  · intro h
    have : ∀ c ∈ "abcdefghijklmnopqrstuvwxyz0123456789_".toList, isFmt c = true := by decide +kernel
    exact this c h

/-- The state at the start. -/
def startPS (res : SSpec) : PS := { q := .start, tok := [], rb := 0, spec := res.clear }

theorem start_inv (res : SSpec) : Inv (startPS res) [] := ⟨rfl, rfl, rfl, clear_fresh res.chs⟩

/-- Outcome of the run and the end. -/
def outcome (res : SSpec) (s : List Char) : Out PS := (run (startPS res) s).bind eof

theorem parse_eq (res : SSpec) (s : List Char) : parse res s = match outcome res s with
  | .ok p => .ok (true, p.spec)
  | .no => .ok (false, res.clear)
  | .panic => .panic
  | .overflow => .overflow := rfl

theorem head_run (res : SSpec) (f r : List Char) (m n : Nat) (hf : Format f m) (hr : Rate r n) (c : List Char) :
    ∃ p, p.q = .ch0 ∧ p.spec = { res.clear with fmt := m, rate := n } ∧
      outcome res (f ++ '/' :: (r ++ '/' :: c)) = (run p c).bind eof := by
  obtain ⟨p1, a1, a2, a3⟩ := format_run (startPS res) f m hf rfl rfl
  obtain ⟨p2, b1, b2, b3⟩ := rate_run p1 r n hr a2 (by rw [a3]; rfl)
  refine ⟨p2, b2, by rw [b3, a3]; rfl, ?_⟩
  unfold outcome
  rw [show f ++ '/' :: (r ++ '/' :: c) = (f ++ ['/']) ++ ((r ++ ['/']) ++ c) by simp, run_append, a1]
  simp only [Out.bind]
  rw [run_append, b1]
  rfl

/-- **C93**: a string is accepted exactly if it is a sample spec in the documented language, and what
is returned is its meaning, whatever the result contained before. -/
theorem C93_meaning (res : SSpec) (s : List Char) (fmt rate : Nat) (layout : Layout) (order : Order)
    (A : Finset Nat) :
    (∃ sp, parse res s = .ok (true, sp) ∧ sp.fmt = fmt ∧ sp.rate = rate ∧ sp.chs.layout = layout ∧
      sp.chs.order = order ∧ sp.chs.chans = A) ↔ Means s fmt rate layout order A := by
  constructor
  · rintro ⟨sp, h, h1, h2, h3, h4, h5⟩
    rw [parse_eq] at h
    have hr := run_inv s (startPS res) [] (start_inv res)
    rw [List.nil_append] at hr
    unfold outcome at h
    cases e : run (startPS res) s with
    | ok p =>
      rw [e] at h hr
      have he := eof_inv p s hr
      simp only [Out.bind] at h
      cases e2 : eof p with
      | ok p' =>
        rw [e2] at h he
        simp only at he
        have h6 : p'.spec = sp := by
          have := Out.ok.inj h
          exact congrArg Prod.snd this
        rw [h6, h1, h2, h3, h4, h5] at he
        exact he
      | no =>
        rw [e2] at h
        have := congrArg Prod.fst (Out.ok.inj h)
        cases this
      | panic => rw [e2] at h; cases h
      | overflow => rw [e2] at h; cases h
    | no =>
      rw [e] at h
      have := congrArg Prod.fst (Out.ok.inj h)
      cases this
    | panic => rw [e] at h; cases h
    | overflow => rw [e] at h; cases h
  · rintro ⟨f, r, c, hs, hf, hr, hc⟩
    obtain ⟨p, p1, p2, p3⟩ := head_run res f r fmt rate hf hr c
    obtain ⟨c1, c2, c3⟩ := clear_fresh res.chs
    have hch : p.spec.chs = res.chs.clear := by rw [p2]; rfl
    obtain ⟨p', e1, e2, e3, e4, e5, e6⟩ := channels_run p p1 (by rw [hch]; exact c1) (by rw [hch]; exact c2)
      (by rw [hch]; exact c3) c layout order A hc
    refine ⟨p'.spec, ?_, ?_, ?_, e5, e6, e4⟩
    · rw [parse_eq, hs, p3, e1]
    · rw [e2, p2]
    · rw [e3, p2]

/-- **C93**: the language has no string with two meanings. -/
theorem C93_unique (s : List Char) (f f' r r' : Nat) (l l' : Layout) (o o' : Order) (A A' : Finset Nat)
    (h : Means s f r l o A) (h' : Means s f' r' l' o' A') : f = f' ∧ r = r' ∧ l = l' ∧ o = o' ∧ A = A' := by
  obtain ⟨sp, h1, h2, h3, h4, h5, h6⟩ := (C93_meaning Encoding.empty.spec s f r l o A).2 h
  obtain ⟨sp', g1, g2, g3, g4, g5, g6⟩ := (C93_meaning Encoding.empty.spec s f' r' l' o' A').2 h'
  rw [h1] at g1
  have e : sp = sp' := congrArg Prod.snd (Out.ok.inj g1)
  rw [e] at h2 h3 h4 h5 h6
  exact ⟨h2.symm.trans g2, h3.symm.trans g3, h4.symm.trans g4, h5.symm.trans g5, h6.symm.trans g6⟩

/-- **C93**: when false is returned, the result is empty. -/
theorem C93_rejected (res sp : SSpec) (s : List Char) (h : parse res s = .ok (false, sp)) :
    sp.fmt = 0 ∧ sp.rate = 0 ∧ sp.chs.chans = ∅ ∧ sp.chs.layout = .none ∧ sp.chs.order = .none := by
  rw [parse_eq] at h
  obtain ⟨c1, c2, c3⟩ := clear_fresh res.chs
  cases e : outcome res s with
  | ok p =>
    rw [e] at h
    have := congrArg Prod.fst (Out.ok.inj h)
    cases this
  | no =>
    rw [e] at h
    have : res.clear = sp := congrArg Prod.snd (Out.ok.inj h)
    rw [← this]
    exact ⟨rfl, rfl, c1, c2, c3⟩
  | panic => rw [e] at h; cases h
  | overflow => rw [e] at h; cases h

/-- **C93**: the buffer for the format is overrun exactly if the format has more than 15 characters,
known or not. -/
theorem C93_overflow_iff (res : SSpec) (s : List Char) : parse res s = .overflow ↔ LongFormat s := by
  constructor
  · intro h
    rw [parse_eq] at h
    have hr := run_inv s (startPS res) [] (start_inv res)
    rw [List.nil_append] at hr
    unfold outcome at h
    cases e : run (startPS res) s with
    | ok p =>
      rw [e] at h hr
      have he := eof_inv p s hr
      simp only [Out.bind] at h
      cases e2 : eof p with
      | ok p' => rw [e2] at h; cases h
      | no => rw [e2] at h; cases h
      | panic => rw [e2] at h; cases h
      | overflow => rw [e2] at he; exact he.elim
    | no => rw [e] at h; cases h
    | panic => rw [e] at h; cases h
    | overflow =>
      rw [e] at hr
      obtain ⟨f, t, h1, h2, h3⟩ := hr
      exact ⟨f, t, h1, h2, fun c hc => (isFmt_iff c).1 (h3 c hc)⟩
  · rintro ⟨f, t, h1, h2, h3⟩
    have h3' : ∀ c ∈ f, isFmt c = true := fun c hc => (isFmt_iff c).2 (h3 c hc)
    have hne : f ≠ [] := by
      intro hc
      rw [hc] at h2
      simp at h2
    have e : outcome res s = .overflow := by
      unfold outcome
      rw [h1, run_append, start_run .fmt isFmt _ f hne h3' step_fmt (fun c hc => first_fmt _ c rfl hc)]
      simp only [Out.bind]
      rw [run_cons]
      have : step { (startPS res) with q := .fmt, tok := f } '/' = .overflow := by
        unfold step setFormat
        simp only [if_true]
        rw [if_pos (by omega)]
        rfl
      rw [this]
      rfl
    rw [parse_eq, e]

/-- **C93**: the parser aborts exactly if the format and the rate have a meaning, and the channels are a
mask with a bit beyond 1024, or a list in which a reversed range follows items that have a meaning. -/
theorem C93_abort_iff (res : SSpec) (s : List Char) : parse res s = .panic ↔
    ∃ f r c m n, s = f ++ '/' :: (r ++ '/' :: c) ∧ Format f m ∧ Rate r n ∧ Aborts c := by
  constructor
  · intro h
    rw [parse_eq] at h
    have hr := run_inv s (startPS res) [] (start_inv res)
    rw [List.nil_append] at hr
    unfold outcome at h
    cases e : run (startPS res) s with
    | ok p =>
      rw [e] at h hr
      have he := eof_inv p s hr
      simp only [Out.bind] at h
      cases e2 : eof p with
      | ok p' => rw [e2] at h; cases h
      | no => rw [e2] at h; cases h
      | panic => rw [e2] at he; exact he
      | overflow => rw [e2] at he; exact he.elim
    | no => rw [e] at h; cases h
    | panic => rw [e] at hr; exact hr
    | overflow => rw [e] at h; cases h
  · rintro ⟨f, r, c, m, n, h1, h2, h3, h4⟩
    obtain ⟨p, p1, p2, p3⟩ := head_run res f r m n h2 h3 c
    have hch : p.spec.chs = res.chs.clear := by rw [p2]; rfl
    have := aborts_run p p1 (by rw [hch]; exact (clear_fresh res.chs).1) c h4
    rw [parse_eq, h1, p3, this]

/-- **C93 (partial)**: the parser returns, with true or false, unless the format is long or the channels
are of the kind described by `Aborts`. Missing: these two cases, see `C93_overflow_fails` and
`C93_abort_fails`. -/
theorem C93_returns_partial (res : SSpec) (s : List Char) (h1 : ¬ LongFormat s)
    (h2 : ∀ f r c, s = f ++ '/' :: (r ++ '/' :: c) → ¬ Aborts c) : ∃ b sp, parse res s = .ok (b, sp) := by
  cases e : parse res s with
  | ok x => exact ⟨x.1, x.2, rfl⟩
  | no =>
    rw [parse_eq] at e
    cases e2 : outcome res s <;> rw [e2] at e <;> cases e
  | panic =>
    obtain ⟨f, r, c, m, n, a1, _, _, a2⟩ := (C93_abort_iff res s).1 e
    exact absurd a2 (h2 f r c a1)
  | overflow => exact absurd ((C93_overflow_iff res s).1 e) h1

/-- **C93 fails**: a format of 16 characters overruns a buffer on the stack. -/
theorem C93_overflow_fails (res : SSpec) : parse res "s16s16s16s16s16s/44100/stereo".toList = .overflow :=
  (C93_overflow_iff res _).2 ⟨"s16s16s16s16s16s".toList, "44100/stereo".toList, by decide, by decide, by decide⟩

/-- **C93 fails**: a reversed range aborts the program. -/
theorem C93_abort_fails (res : SSpec) : parse res "s16/44100/1,5-3".toList = .panic := by
  apply (C93_abort_iff res _).2
  refine ⟨"s16".toList, "44100".toList, "1,5-3".toList, 7, 44100, by decide, .name 7 "s16" (by decide),
    .num _ _ ⟨by decide, by decide, by decide⟩ (by decide) (by decide), ?_⟩
  exact .later ['1'] "5-3".toList [] {1} (.one _ _ (.track _ 1 ⟨by decide, by decide, by decide⟩ (by decide)))
    (.mk ['5'] ['3'] 5 3 ⟨by decide, by decide, by decide⟩ ⟨by decide, by decide, by decide⟩ (by decide) (by decide))
    (Or.inl rfl)

theorem value_zeros (k : Nat) : value 16 (List.replicate k '0') = 0 := by
  induction k with
  | zero => rfl
  | succ k ih =>
    rw [List.replicate_succ]
    simp only [value]
    rw [ih]
    simp

/-- **C93 fails**: a mask of 257 digits aborts the program. -/
theorem C93_long_mask_fails (res : SSpec) :
    parse res ("-/-/0x1".toList ++ List.replicate 256 '0') = .panic := by
  apply (C93_abort_iff res _).2
  refine ⟨['-'], ['-'], '0' :: 'x' :: '1' :: List.replicate 256 '0', 0, 0, rfl, .dash, .dash, .mask _ (List.cons_ne_nil _ _) ?_ ?_⟩
  · intro c hc
    rcases List.mem_cons.1 hc with hc | hc
    · rw [hc]
      unfold HexDigit
      decide
    · rw [List.eq_of_mem_replicate hc]
      unfold HexDigit
      decide
  · simp only [value]
    rw [value_zeros, List.length_replicate]
    have : (16 : Nat) ^ 256 = 2 ^ 1024 := by
      rw [show (16 : Nat) = 2 ^ 4 by norm_num, ← pow_mul]
    rw [this]
    simp

/-! ## Validity -/

theorem toggle_reach {s s' : CSet} {n : Nat} (h : ofOption (s.toggle n true) = .ok s') (hr : Reach s) : Reach s' := by
  cases e : s.toggle n true with
  | none => rw [e] at h; cases h
  | some x =>
    rw [e] at h
    have h := Out.ok.inj h
    rw [← h]
    exact .apply (.toggle n true) hr e

theorem hexBits_reach (num pos : Nat) (bs : List Nat) (s s' : CSet) (h : hexBits s num pos bs = .ok s')
    (hr : Reach s) : Reach s' := by
  rcases hexBits_spec num pos bs s with ⟨x, e, _, A, u, _⟩ | ⟨e, _⟩
  · rw [e] at h
    have h := Out.ok.inj h
    rw [← h]
    exact u.reach hr
  · rw [e] at h
    cases h

theorem hexLoop_reach : ∀ (l : List Char) (s s' : CSet) (pos : Nat), hexLoop s pos l = .ok s' → Reach s → Reach s' := by
  intro l
  induction l with
  | nil =>
    intro s s' pos h hr
    have h := Out.ok.inj h
    rw [← h]
    exact hr
  | cons c t ih =>
    intro s s' pos h hr
    unfold hexLoop at h
    cases e : hexBits s (hexVal c) pos [0, 1, 2, 3] with
    | ok s1 =>
      rw [e] at h
      exact ih s1 s' (pos + 4) h (hexBits_reach _ _ _ _ _ e hr)
    | no => rw [e] at h; cases h
    | panic => rw [e] at h; cases h
    | overflow => rw [e] at h; cases h

/-- An action keeps the set reachable. -/
def Keeps (f : PS → Out PS) : Prop := ∀ p p', f p = .ok p' → Reach p.spec.chs → Reach p'.spec.chs

theorem keeps_bind {f g : PS → Out PS} (hf : Keeps f) (hg : Keeps g) : Keeps fun p => (f p).bind g := by
  intro p p' h hr
  cases e : f p with
  | ok p1 =>
    have h' : ((f p).bind g) = .ok p' := h
    rw [e] at h'
    exact hg p1 p' h' (hf p p1 e hr)
  | no => have h' : ((f p).bind g) = .ok p' := h; rw [e] at h'; cases h'
  | panic => have h' : ((f p).bind g) = .ok p' := h; rw [e] at h'; cases h'
  | overflow => have h' : ((f p).bind g) = .ok p' := h; rw [e] at h'; cases h'

theorem keeps_go (q : Q) : Keeps fun p => .ok (p.go q) := by
  intro p p' h hr
  have h := Out.ok.inj h
  rw [← h]
  exact hr

theorem keeps_setFormat : Keeps setFormat := by
  intro p p' h hr
  unfold setFormat at h
  split at h
  · cases h
  · split at h
    · cases h
    · rw [← Out.ok.inj h]; exact hr

theorem keeps_setRate : Keeps setRate := by
  intro p p' h hr
  unfold setRate at h
  split at h
  · cases h
  · split at h
    · cases h
    · rw [← Out.ok.inj h]; exact hr

theorem keeps_setSurroundMask : Keeps setSurroundMask := by
  intro p p' h hr
  unfold setSurroundMask at h
  split at h
  · cases h
  · rename_i m _
    rw [← Out.ok.inj h]
    exact .apply (.setMask m) hr rfl

theorem chs_reach {p p' : PS} {o : Option CSet}
    (h : ((ofOption o).bind fun s => Out.ok (p.setChs s)) = .ok p')
    (hr : ∀ s, o = some s → Reach s) : Reach p'.spec.chs := by
  cases o with
  | none => cases h
  | some s =>
    have h := Out.ok.inj h
    rw [← h]
    exact hr s rfl

theorem keeps_setSurroundChannel : Keeps setSurroundChannel := by
  intro p p' h hr
  unfold setSurroundChannel at h
  split at h
  · cases h
  · rename_i n _
    exact chs_reach h (fun s hs => .apply (.toggle n true) hr hs)

theorem keeps_setMtrNumber : Keeps setMtrNumber := by
  intro p p' h hr
  unfold setMtrNumber at h
  split at h
  · cases h
  · rename_i n _
    exact chs_reach h (fun s hs => .apply (.toggle n true) hr hs)

theorem keeps_setMtrRangeBegin : Keeps setMtrRangeBegin := by
  intro p p' h hr
  unfold setMtrRangeBegin at h
  split at h
  · cases h
  · rw [← Out.ok.inj h]; exact hr

theorem keeps_setMtrRange : Keeps setMtrRange := by
  intro p p' h hr
  unfold setMtrRange at h
  split at h
  · cases h
  · rename_i n _
    exact chs_reach h (fun s hs => .apply (.toggleRange p.rb n true) hr hs)

theorem keeps_setMtrMask : Keeps setMtrMask := by
  intro p p' h hr
  unfold setMtrMask at h
  cases e : parseMask p.spec.chs p.tok with
  | ok s =>
    rw [e] at h
    have h := Out.ok.inj h
    rw [← h]
    exact hexLoop_reach _ _ _ _ e hr
  | no => rw [e] at h; cases h
  | panic => rw [e] at h; cases h
  | overflow => rw [e] at h; cases h

theorem keeps_setSurround : Keeps setSurround := by
  intro p p' h hr
  obtain ⟨s', e, _, _, _, hx⟩ := surround_end p
  rw [e] at h
  rw [← Out.ok.inj h]
  exact hx hr

theorem keeps_setMtr : Keeps setMtr := by
  intro p p' h hr
  obtain ⟨s', e, _, _, _, hx⟩ := mtr_end p
  rw [e] at h
  rw [← Out.ok.inj h]
  exact hx hr

theorem step_reach (c : Char) : Keeps fun p => step p c := by
  intro p p' h hr
  simp only [step] at h
  split at h <;> (repeat' split at h) <;> first
    | cases h; done
    | (rw [← Out.ok.inj h]; exact hr)
    | exact keeps_bind keeps_setFormat (keeps_go _) p p' h hr
    | exact keeps_bind keeps_setRate (keeps_go _) p p' h hr
    | exact keeps_bind keeps_setSurroundChannel (keeps_go _) p p' h hr
    | exact keeps_bind keeps_setMtrNumber (keeps_go _) p p' h hr
    | exact keeps_bind keeps_setMtrRangeBegin (keeps_go _) p p' h hr
    | exact keeps_bind keeps_setMtrRange (keeps_go _) p p' h hr

theorem eof_reach : Keeps eof := by
  intro p p' h hr
  simp only [eof] at h
  split at h <;> first
    | cases h; done
    | (rw [← Out.ok.inj h]; exact hr)
    | exact keeps_bind keeps_setSurroundMask keeps_setSurround p p' h hr
    | exact keeps_bind keeps_setSurroundChannel keeps_setSurround p p' h hr
    | exact keeps_bind keeps_setMtrNumber keeps_setMtr p p' h hr
    | exact keeps_bind keeps_setMtrRange keeps_setMtr p p' h hr
    | exact keeps_bind keeps_setMtrMask keeps_setMtr p p' h hr

theorem run_reach : ∀ (s : List Char), Keeps fun p => run p s := by
  intro s
  induction s with
  | nil =>
    intro p p' h hr
    have h := Out.ok.inj h
    rw [← h]
    exact hr
  | cons c t ih => exact keeps_bind (step_reach c) ih

theorem parse_reach (res sp : SSpec) (s : List Char) (h : parse res s = .ok (true, sp)) (hr : Reach res.chs) :
    Reach sp.chs := by
  rw [parse_eq] at h
  cases e : outcome res s with
  | ok p =>
    rw [e] at h
    have h1 : p.spec = sp := congrArg Prod.snd (Out.ok.inj h)
    rw [← h1]
    exact keeps_bind (run_reach s) eof_reach (startPS res) p e (.apply .clear hr rfl)
  | no =>
    rw [e] at h
    have := congrArg Prod.fst (Out.ok.inj h)
    cases this
  | panic => rw [e] at h; cases h
  | overflow => rw [e] at h; cases h

theorem surround_lt {c : List Char} {l : Layout} {o : Order} {A : Finset Nat} (h : Channels c l o A)
    (hl : l = .surround) : (∀ n ∈ A, n < 17) ∧ o = .smpte := by
  cases h with
  | dash => cases hl
  | preset s t _ =>
    refine ⟨fun n hn => ?_, rfl⟩
    unfold channelsOf at hn
    exact Finset.mem_range.1 (Finset.mem_filter.1 hn).1
  | names _ _ hn =>
    refine ⟨?_, rfl⟩
    clear hl
    induction hn with
    | one n s h =>
      intro k hk
      rw [Finset.mem_singleton.1 hk]
      exact pos_lt s n h
    | more l A n s _ h ih =>
      intro k hk
      rcases Finset.mem_insert.1 hk with hk | hk
      · rw [hk]; exact pos_lt s n h
      · exact ih k hk
  | mask => cases hl
  | tracks => cases hl

theorem mtr_order {c : List Char} {l : Layout} {o : Order} {A : Finset Nat} (h : Channels c l o A)
    (hl : l = .multitrack) : o = .none := by
  cases h <;> first | rfl | cases hl

/-- **C93 (partial)**: if channels are given and the set is not empty, it is a valid channel set.
Missing: an empty set, see `C93_valid_fails`. -/
theorem C93_valid_partial (res sp : SSpec) (s : List Char) (h : parse res s = .ok (true, sp))
    (hr : Reach res.chs) (hl : sp.chs.layout ≠ .none) (hc : sp.chs.chans ≠ ∅) : sp.chs.isValid = true := by
  obtain ⟨f, r, c, _, _, _, h4⟩ := (C93_meaning res s _ _ _ _ _).1 ⟨sp, h, rfl, rfl, rfl, rfl, rfl⟩
  have hrs := parse_reach res sp s h hr
  have hcount := C42_counting hrs
  have hnum : sp.chs.num ≠ 0 := by
    have := hcount.1
    unfold CSet.numChannels at this
    rw [this]
    exact fun h0 => hc (Finset.card_eq_zero.1 h0)
  unfold CSet.isValid
  cases hly : sp.chs.layout with
  | none => exact absurd hly hl
  | surround =>
    obtain ⟨g1, g2⟩ := surround_lt h4 hly
    have hlast : sp.chs.last < 17 := by
      have hne := Finset.nonempty_iff_ne_empty.2 hc
      have h5 := (hcount.2.2.1 hne).2
      unfold CSet.lastChannel at h5
      rw [if_neg hnum] at h5
      rw [Option.some.inj h5]
      exact g1 _ (Finset.max'_mem _ hne)
    simp [g2, hnum, hlast]
  | multitrack =>
    have := mtr_order h4 hly
    simp [this, hnum]

/-- **C93 fails** for validity: a mask of zeros is accepted, and gives a layout with no channels. -/
theorem C93_valid_fails (res : SSpec) : ∃ sp, parse res "s16/44100/0x0".toList = .ok (true, sp) ∧
    sp.chs.layout = .multitrack ∧ sp.chs.chans = ∅ := by
  have hm : Means "s16/44100/0x0".toList 7 44100 .multitrack .none
      ((Finset.range 1024).filter fun n => (value 16 ['0']).testBit n = true) := by
    refine ⟨"s16".toList, "44100".toList, "0x0".toList, by decide, .name 7 "s16" (by decide),
      .num _ _ ⟨by decide, by decide, by decide⟩ (by decide) (by decide), .mask ['0'] (by decide) ?_ ?_⟩
    · intro c hc
      rw [List.mem_singleton.1 hc]
      unfold HexDigit
      decide
    · exact Nat.two_pow_pos _
  obtain ⟨sp, h1, h2, h3, h4, h5, h6⟩ := (C93_meaning res _ _ _ _ _ _).2 hm
  refine ⟨sp, h1, h4, ?_⟩
  rw [h6]
  ext n
  simp [value]

/-! ## Encodings -/

/-- **C93**: `parse_encoding` accepts exactly a number less than 2³², a colon and a sample spec, and gives
this number and the meaning of the sample spec. -/
theorem C93_encoding (s : List Char) (pt fmt rate : Nat) (layout : Layout) (order : Order) (A : Finset Nat) :
    (∃ e, parseEncoding s = .ok (true, e) ∧ e.pt = pt ∧ e.spec.fmt = fmt ∧ e.spec.rate = rate ∧
      e.spec.chs.layout = layout ∧ e.spec.chs.order = order ∧ e.spec.chs.chans = A) ↔
    ∃ d t, s = d ++ ':' :: t ∧ Decimal d pt ∧ pt < 2 ^ 32 ∧ Means t fmt rate layout order A := by
  constructor
  · rintro ⟨e, h, h1, h2, h3, h4, h5, h6⟩
    have hs : s = s.takeWhile (· ≠ ':') ++ s.dropWhile (· ≠ ':') := List.takeWhile_append_dropWhile.symm
    unfold parseEncoding at h
    simp only at h
    cases hd : s.dropWhile (· ≠ ':') with
    | nil =>
      rw [hd] at h
      have := congrArg Prod.fst (Out.ok.inj h)
      cases this
    | cons x t =>
      rw [hd] at h hs
      simp only at h
      have hx : x = ':' := by
        have := List.head?_dropWhile_not (fun c : Char => decide (c ≠ ':')) s
        rw [hd] at this
        simpa using this
      split at h
      · have := congrArg Prod.fst (Out.ok.inj h)
        cases this
      · rename_i hdig
        rw [not_or, Bool.not_eq_false, List.all_eq_true] at hdig
        split at h
        · have := congrArg Prod.fst (Out.ok.inj h)
          cases this
        · split at h
          · have := congrArg Prod.fst (Out.ok.inj h)
            cases this
          · rename_i hlt
            cases hp : parse Encoding.empty.spec t with
            | ok x =>
              rw [hp] at h
              obtain ⟨b, sp⟩ := x
              cases b with
              | false =>
                have := congrArg Prod.fst (Out.ok.inj h)
                cases this
              | true =>
                have he : { pt := strtoul10 (s.takeWhile (· ≠ ':')), spec := sp } = e :=
                  congrArg Prod.snd (Out.ok.inj h)
                have hm := strtoul_eq _ hdig.2
                rw [hm] at hlt
                have hv : pt = value 10 (s.takeWhile (· ≠ ':')) := by
                  rw [← h1, ← he]
                  simp only
                  rw [hm]
                  omega
                refine ⟨s.takeWhile (· ≠ ':'), t, by rw [hx] at hs; exact hs, ⟨hdig.1, hdig.2, hv⟩, by omega, ?_⟩
                rw [← he] at h2 h3 h4 h5 h6
                exact (C93_meaning _ t _ _ _ _ _).1 ⟨sp, hp, h2, h3, h4, h5, h6⟩
            | no => rw [hp] at h; cases h
            | panic => rw [hp] at h; cases h
            | overflow => rw [hp] at h; cases h
  · rintro ⟨d, t, hs, ⟨hd1, hd2, hd3⟩, hlt, hm⟩
    obtain ⟨sp, h1, h2⟩ := (C93_meaning Encoding.empty.spec t _ _ _ _ _).2 hm
    have hne : ∀ c ∈ d, decide (c ≠ ':') = true := by
      intro c hc
      have := hd2 c hc
      apply decide_eq_true
      intro e
      rw [e] at this
      revert this
      decide
    have e1 : s.takeWhile (· ≠ ':') = d := by
      rw [hs, List.takeWhile_append_of_pos hne]
      simp
    have e2 : s.dropWhile (· ≠ ':') = ':' :: t := by
      rw [hs, List.dropWhile_append_of_pos hne]
      simp
    have hv : strtoul10 d = pt := by
      rw [strtoul_eq d hd2, ← hd3]
      omega
    refine ⟨{ pt := pt, spec := sp }, ?_, rfl, h2⟩
    unfold parseEncoding
    simp only
    rw [e1, e2]
    simp only
    rw [if_neg (by
      rw [not_or, Bool.not_eq_false, List.all_eq_true]
      exact ⟨hd1, hd2⟩), hv, if_neg (by omega), if_neg (by omega), h1]
    simp [Out.bind]

/-- The hypotheses are met: a list of tracks with a range. -/
example : Means "f32/96000/1,10-20".toList 73 96000 .multitrack .none ({1} ∪ Finset.Icc 10 20) := by
  refine ⟨"f32".toList, "96000".toList, "1,10-20".toList, by decide, .name 73 "f32" (by decide),
    .num _ _ ⟨by decide, by decide, by decide⟩ (by decide) (by decide), .tracks _ _ ?_⟩
  exact .more ['1'] "10-20".toList {1} (Finset.Icc 10 20)
    (.one _ _ (.track _ 1 ⟨by decide, by decide, by decide⟩ (by decide)))
    (.range "10".toList "20".toList 10 20 ⟨by decide, by decide, by decide⟩ ⟨by decide, by decide, by decide⟩
      (by decide) (by decide))

/-- The hypotheses are met: a preset, a list of names, an unset spec. -/
example : Means "s18_4le/48000/surround5.1".toList 27 48000 .surround .smpte
      (channelsOf ["FL", "FC", "FR", "BL", "BR", "LFE"]) ∧
    Means "-/44100/FL,FC,FR".toList 0 44100 .surround .smpte {4, 2, 0} ∧ Means "-/-/-".toList 0 0 .none .none ∅ := by
  refine ⟨⟨"s18_4le".toList, "48000".toList, "surround5.1".toList, by decide, .name 27 "s18_4le" (by decide),
    .num _ _ ⟨by decide, by decide, by decide⟩ (by decide) (by decide), .preset "surround5.1" _ (by decide)⟩,
    ⟨['-'], "44100".toList, "FL,FC,FR".toList, by decide, .dash,
    .num _ _ ⟨by decide, by decide, by decide⟩ (by decide) (by decide), .names _ _ ?_⟩,
    ⟨['-'], ['-'], ['-'], by decide, .dash, .dash, .dash⟩⟩
  exact .more "FL,FC".toList {2, 0} 4 "FR" (.more "FL".toList {0} 2 "FC" (.one 0 "FL" (by decide)) (by decide)) (by decide)

end Verif.SpecParse
