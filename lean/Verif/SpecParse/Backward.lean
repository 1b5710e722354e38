import Verif.SpecParse.Forward

/-! # Parsing of sample specs: what is known in each state of the machine -/

namespace Verif.SpecParse

open Verif.ChannelSet Spec

/-- No channels are set. -/
def Fresh (s : CSet) : Prop := s.chans = ∅ ∧ s.layout = .none ∧ s.order = .none

/-- The string `c` is an item, or a list with an item at its end; the list is in the set already. -/
def Pfx (R : List Char → Finset Nat → Prop) (s : CSet) (c item : List Char) : Prop :=
  (c = item ∧ s.chans = ∅) ∨ ∃ l, R l s.chans ∧ c = l ++ ',' :: item

/-- Digits. -/
def Digits (l : List Char) : Prop := l ≠ [] ∧ ∀ c ∈ l, c.isDigit = true

/-- What is known of the string of channels that is read, `c`. -/
def CInv (p : PS) (c : List Char) : Prop :=
  match p.q with
  | .ch0 => c = [] ∧ Fresh p.spec.chs
  | .cDash => c = ['-'] ∧ Fresh p.spec.chs
  | .mask1 => c = p.tok
  | .mask => c = p.tok
  | .chan => Pfx Names p.spec.chs c p.tok
  | .chanSep => ∃ l, Names l p.spec.chs.chans ∧ c = l ++ [',']
  | .zero => c = ['0'] ∧ p.tok = ['0'] ∧ p.spec.chs.chans = ∅
  | .num => Digits p.tok ∧ Pfx Tracks p.spec.chs c p.tok
  | .rngSep => ∃ d, Decimal d p.rb ∧ p.rb < 1024 ∧ Pfx Tracks p.spec.chs c (d ++ ['-'])
  | .rng => ∃ d, Decimal d p.rb ∧ p.rb < 1024 ∧ Digits p.tok ∧ Pfx Tracks p.spec.chs c (d ++ '-' :: p.tok)
  | .numSep => ∃ l, Tracks l p.spec.chs.chans ∧ c = l ++ [',']
  | .hex0 => c = ['0', 'x'] ∧ p.spec.chs.chans = ∅
  | .hex => c = '0' :: 'x' :: p.tok ∧ p.tok ≠ [] ∧ (∀ x ∈ p.tok, isHex x = true) ∧ p.spec.chs.chans = ∅
  | _ => False

/-- What is known of the string that is read, `s`. -/
def Inv (p : PS) (s : List Char) : Prop :=
  match p.q with
  | .start => s = [] ∧ p.spec.fmt = 0 ∧ p.spec.rate = 0 ∧ Fresh p.spec.chs
  | .fDash => s = ['-'] ∧ p.spec.fmt = 0 ∧ p.spec.rate = 0 ∧ Fresh p.spec.chs
  | .fmt => s = p.tok ∧ p.tok ≠ [] ∧ (∀ c ∈ p.tok, isFmt c = true) ∧ p.spec.rate = 0 ∧ Fresh p.spec.chs
  | .rate0 => ∃ f, s = f ++ ['/'] ∧ Format f p.spec.fmt ∧ p.spec.rate = 0 ∧ Fresh p.spec.chs
  | .rDash => ∃ f, s = f ++ ['/', '-'] ∧ Format f p.spec.fmt ∧ p.spec.rate = 0 ∧ Fresh p.spec.chs
  | .rate => ∃ f, s = f ++ '/' :: p.tok ∧ Format f p.spec.fmt ∧ Digits p.tok ∧ Fresh p.spec.chs
  | _ => ∃ f r c, s = f ++ '/' :: (r ++ '/' :: c) ∧ Format f p.spec.fmt ∧ Rate r p.spec.rate ∧ CInv p c

/-- What is required of an outcome after `s`. -/
def Post (x : Out PS) (s : List Char) : Prop :=
  match x with
  | .ok p => Inv p s
  | .no => True
  | .overflow => ∃ f, s = f ++ ['/'] ∧ 15 < f.length ∧ ∀ c ∈ f, isFmt c = true
  | .panic => ∃ f r c m n, s = f ++ '/' :: (r ++ '/' :: c) ∧ Format f m ∧ Rate r n ∧
      ∀ t, Aborts (c ++ t)

theorem digit_digits {c : Char} (h : c.isDigit = true) : Digits [c] :=
  ⟨by simp, fun x hx => by rw [List.mem_singleton.1 hx]; exact h⟩

theorem Digits.more {l : List Char} (hl : Digits l) {c : Char} (h : c.isDigit = true) : Digits (l ++ [c]) := by
  refine ⟨by simp, fun x hx => ?_⟩
  rcases List.mem_append.1 hx with hx | hx
  · exact hl.2 x hx
  · rw [List.mem_singleton.1 hx]; exact h

theorem Pfx.more {R : List Char → Finset Nat → Prop} {s : CSet} {c item : List Char} (h : Pfx R s c item)
    (x : List Char) : Pfx R s (c ++ x) (item ++ x) := by
  rcases h with ⟨h1, h2⟩ | ⟨l, h1, h2⟩
  · exact Or.inl ⟨by rw [h1], h2⟩
  · exact Or.inr ⟨l, h1, by rw [h2]; simp⟩

theorem Pfx.tracks {s s' : CSet} {c item : List Char} {B : Finset Nat} (h : Pfx Tracks s c item) (hi : Item item B)
    (hs : s'.chans = s.chans ∪ B) : Tracks c s'.chans := by
  rcases h with ⟨h1, h2⟩ | ⟨l, h1, h2⟩
  · rw [hs, h2, Finset.empty_union, h1]
    exact .one _ _ hi
  · rw [hs, h2]
    exact .more _ _ _ _ h1 hi

theorem Pfx.names {s s' : CSet} {c : List Char} {n : Nat} {x : String} (h : Pfx Names s c x.toList)
    (hi : positions[n]? = some x) (hs : s'.chans = insert n s.chans) : Names c s'.chans := by
  rcases h with ⟨h1, h2⟩ | ⟨l, h1, h2⟩
  · rw [hs, h2, h1]
    exact .one _ _ hi
  · rw [hs, h2]
    exact .more _ _ _ _ h1 hi

theorem Pfx.aborts {s : CSet} {c item : List Char} (h : Pfx Tracks s c item) (hr : Reversed item) (t : List Char)
    (ht : t = [] ∨ ∃ t', t = ',' :: t') : Aborts (c ++ t) := by
  rcases h with ⟨h1, _⟩ | ⟨l, h1, h2⟩
  · rw [h1]
    exact Aborts.first item t hr ht
  · rw [h2, List.append_assoc, List.cons_append]
    exact Aborts.later l item t s.chans h1 hr ht

/-- The end of a name. -/
theorem name_leave (p : PS) (c : List Char) (h : Pfx Names p.spec.chs c p.tok) :
    setSurroundChannel p = .no ∨
    ∃ s', setSurroundChannel p = .ok (p.setChs s') ∧ Names c s'.chans := by
  unfold setSurroundChannel
  cases hl : lookup p.tok posNames with
  | none => exact Or.inl rfl
  | some n =>
    obtain ⟨x, h1, h2⟩ := lookup_mem _ _ _ hl
    obtain ⟨h3, h4⟩ := pos_mem x n h1
    obtain ⟨s', e, u⟩ := toggle_some p.spec.chs n (by omega)
    refine Or.inr ⟨s', ?_, ?_⟩
    · simp only [e, ofOption, Out.bind]
    · rw [← h2] at h
      exact h.names h3 u.chans

/-- The end of an item of a list of tracks. -/
theorem number_leave (p : PS) (c : List Char) (hd : Digits p.tok) (h : Pfx Tracks p.spec.chs c p.tok) :
    setMtrNumber p = .no ∨ ∃ s', setMtrNumber p = .ok (p.setChs s') ∧ Tracks c s'.chans := by
  unfold setMtrNumber
  rw [parseTrack_eq _ hd.2]
  split
  · exact Or.inl rfl
  · rename_i n hn
    split at hn
    · rename_i hlt
      have hn := Option.some.inj hn
      obtain ⟨s', e, u⟩ := toggle_some p.spec.chs n (by omega)
      refine Or.inr ⟨s', ?_, ?_⟩
      · simp only [e, ofOption, Out.bind]
      · apply h.tracks (.track p.tok n ⟨hd.1, hd.2, hn.symm⟩ (by omega))
        rw [u.chans, Finset.union_comm, Finset.insert_eq]
    · cases hn

theorem range_leave (p : PS) (c d : List Char) (hb : Decimal d p.rb) (hlt : p.rb < 1024) (hd : Digits p.tok)
    (h : Pfx Tracks p.spec.chs c (d ++ '-' :: p.tok)) :
    setMtrRange p = .no ∨ (∃ s', setMtrRange p = .ok (p.setChs s') ∧ Tracks c s'.chans) ∨
    (setMtrRange p = .panic ∧ ∀ t, (t = [] ∨ ∃ t', t = ',' :: t') → Aborts (c ++ t)) := by
  unfold setMtrRange
  rw [parseTrack_eq _ hd.2]
  split
  · exact Or.inl rfl
  · rename_i n hn
    split at hn
    · rename_i hv
      have hn := Option.some.inj hn
      by_cases hab : p.rb ≤ n
      · obtain ⟨s', e, u⟩ := toggleRange_some p.spec.chs p.rb n ⟨hab, by omega⟩
        refine Or.inr (Or.inl ⟨s', ?_, ?_⟩)
        · simp only [e, ofOption, Out.bind]
        · exact h.tracks (.range d p.tok p.rb n hb ⟨hd.1, hd.2, hn.symm⟩ hab (by omega)) u.chans
      · refine Or.inr (Or.inr ⟨?_, ?_⟩)
        · rw [toggleRange_none _ _ _ (by omega)]
          rfl
        · exact h.aborts (.mk d p.tok p.rb n hb ⟨hd.1, hd.2, hn.symm⟩ (by omega) hlt)
    · cases hn

theorem zero_digits : Digits ['0'] := digit_digits (by decide)

/-- A state after the second slash. -/
theorem inv_chan {p : PS} {f r c : List Char} (hf : Format f p.spec.fmt) (hr : Rate r p.spec.rate)
    (h : CInv p c) {s : List Char} (hs : s = f ++ '/' :: (r ++ '/' :: c)) : Inv p s := by
  have : ∃ f r c, s = f ++ '/' :: (r ++ '/' :: c) ∧ Format f p.spec.fmt ∧ Rate r p.spec.rate ∧ CInv p c :=
    ⟨f, r, c, hs, hf, hr, h⟩
  unfold Inv
  unfold CInv at h
  split <;> first | exact this | (rename_i hq; rw [hq] at h; exact h.elim)

theorem app_assoc (f r c : List Char) (x : Char) :
    f ++ '/' :: (r ++ '/' :: c) ++ [x] = f ++ '/' :: (r ++ '/' :: (c ++ [x])) := by simp

/-- A step in a state after the second slash. -/
theorem step_chan_inv (p : PS) (f r c : List Char) (x : Char) (hf : Format f p.spec.fmt) (hr : Rate r p.spec.rate)
    (h : CInv p c) : Post (step p x) (f ++ '/' :: (r ++ '/' :: c) ++ [x]) := by
  rw [app_assoc]
  have ok : ∀ p', p'.spec.fmt = p.spec.fmt → p'.spec.rate = p.spec.rate → CInv p' (c ++ [x]) →
      Post (.ok p') (f ++ '/' :: (r ++ '/' :: (c ++ [x]))) := by
    intro p' h1 h2 h3
    exact inv_chan (by rw [h1]; exact hf) (by rw [h2]; exact hr) h3 rfl
  unfold CInv at h
  unfold step
  cases hq : p.q with
  | start => rw [hq] at h; exact h.elim
  | fDash => rw [hq] at h; exact h.elim
  | fmt => rw [hq] at h; exact h.elim
  | rate0 => rw [hq] at h; exact h.elim
  | rDash => rw [hq] at h; exact h.elim
  | rate => rw [hq] at h; exact h.elim
  | ch0 =>
    rw [hq] at h
    obtain ⟨h1, h2⟩ := h
    simp only
    split
    · rename_i hx
      exact ok _ rfl rfl ⟨by rw [h1, hx]; rfl, h2⟩
    · split
      · exact ok _ rfl rfl (by rw [h1]; rfl)
      · split
        · exact ok _ rfl rfl (Or.inl ⟨by rw [h1]; rfl, h2.1⟩)
        · split
          · rename_i hx
            exact ok _ rfl rfl ⟨by rw [h1, hx]; rfl, by rw [hx]; rfl, h2.1⟩
          · split
            · rename_i hx
              exact ok _ rfl rfl ⟨digit_digits hx, Or.inl ⟨by rw [h1]; rfl, h2.1⟩⟩
            · trivial
  | cDash => trivial
  | mask1 =>
    rw [hq] at h
    simp only
    split
    · exact ok _ rfl rfl (by rw [h]; rfl)
    · trivial
  | mask =>
    rw [hq] at h
    simp only
    split
    · exact ok _ rfl rfl (by rw [h]; rfl)
    · trivial
  | chan =>
    rw [hq] at h
    simp only
    split
    · rename_i hx
      rcases name_leave p c h with e | ⟨s', e, h1⟩
      · rw [e]; trivial
      · rw [e]
        exact ok _ rfl rfl ⟨c, h1, by rw [hx]⟩
    · split
      · exact ok _ rfl rfl (Pfx.more h [x])
      · trivial
  | chanSep =>
    rw [hq] at h
    obtain ⟨l, h1, h2⟩ := h
    simp only
    split
    · exact ok _ rfl rfl (Or.inr ⟨l, h1, by rw [h2]; simp [PS.start]⟩)
    · trivial
  | zero =>
    rw [hq] at h
    obtain ⟨h1, h2, h3⟩ := h
    have hd : Digits p.tok := by rw [h2]; exact zero_digits
    have hp : Pfx Tracks p.spec.chs c p.tok := Or.inl ⟨by rw [h1, h2], h3⟩
    simp only
    split
    · rename_i hx
      exact ok _ rfl rfl ⟨by rw [h1, hx]; rfl, h3⟩
    · split
      · rename_i hx
        rcases number_leave p c hd hp with e | ⟨s', e, h1⟩
        · rw [e]; trivial
        · rw [e]
          exact ok _ rfl rfl ⟨c, h1, by rw [hx]⟩
      · split
        · rename_i hx
          unfold setMtrRangeBegin
          rw [parseTrack_eq _ hd.2]
          split_ifs with hlt
          · refine ok _ rfl rfl ⟨p.tok, ⟨hd.1, hd.2, rfl⟩, hlt, ?_⟩
            rw [hx]
            exact hp.more ['-']
          · trivial
        · split
          · rename_i hx
            exact ok _ rfl rfl ⟨hd.more hx, hp.more [x]⟩
          · trivial
  | num =>
    rw [hq] at h
    obtain ⟨hd, hp⟩ := h
    simp only
    split
    · rename_i hx
      rcases number_leave p c hd hp with e | ⟨s', e, h1⟩
      · rw [e]; trivial
      · rw [e]
        exact ok _ rfl rfl ⟨c, h1, by rw [hx]⟩
    · split
      · rename_i hx
        unfold setMtrRangeBegin
        rw [parseTrack_eq _ hd.2]
        split_ifs with hlt
        · refine ok _ rfl rfl ⟨p.tok, ⟨hd.1, hd.2, rfl⟩, hlt, ?_⟩
          rw [hx]
          exact hp.more ['-']
        · trivial
      · split
        · rename_i hx
          exact ok _ rfl rfl ⟨hd.more hx, hp.more [x]⟩
        · trivial
  | rngSep =>
    rw [hq] at h
    obtain ⟨d, h1, h2, h3⟩ := h
    simp only
    split
    · rename_i hx
      refine ok _ rfl rfl ⟨d, h1, h2, digit_digits hx, ?_⟩
      have := h3.more [x]
      rw [List.append_assoc] at this
      exact this
    · trivial
  | rng =>
    rw [hq] at h
    obtain ⟨d, h1, h2, h3, h4⟩ := h
    simp only
    split
    · rename_i hx
      rcases range_leave p c d h1 h2 h3 h4 with e | ⟨s', e, h5⟩ | ⟨e, h5⟩
      · rw [e]; trivial
      · rw [e]
        exact ok _ rfl rfl ⟨c, h5, by rw [hx]⟩
      · rw [e]
        refine ⟨f, r, c ++ [x], _, _, rfl, hf, hr, fun t => ?_⟩
        rw [hx, List.append_assoc]
        exact h5 _ (Or.inr ⟨t, rfl⟩)
    · split
      · rename_i hx
        refine ok _ rfl rfl ⟨d, h1, h2, h3.more hx, ?_⟩
        have := h4.more [x]
        rw [List.append_assoc, List.cons_append] at this
        exact this
      · trivial
  | numSep =>
    rw [hq] at h
    obtain ⟨l, h1, h2⟩ := h
    simp only
    split
    · rename_i hx
      exact ok _ rfl rfl ⟨digit_digits hx, Or.inr ⟨l, h1, by rw [h2]; simp [PS.start]⟩⟩
    · trivial
  | hex0 =>
    rw [hq] at h
    obtain ⟨h1, h2⟩ := h
    simp only
    split
    · rename_i hx
      exact ok _ rfl rfl ⟨by rw [h1]; rfl, by simp [PS.start], fun y hy => by
        rw [List.mem_singleton.1 hy]; exact hx, h2⟩
    · trivial
  | hex =>
    rw [hq] at h
    obtain ⟨h1, h2, h3, h4⟩ := h
    simp only
    split
    · rename_i hx
      refine ok _ rfl rfl ⟨by rw [h1]; rfl, by simp [PS.more], fun y hy => ?_, h4⟩
      rcases List.mem_append.1 hy with hy | hy
      · exact h3 y hy
      · rw [List.mem_singleton.1 hy]; exact hx
    · trivial

theorem step_inv (p : PS) (s : List Char) (x : Char) (h : Inv p s) : Post (step p x) (s ++ [x]) := by
  have chan : (∃ f r c, s = f ++ '/' :: (r ++ '/' :: c) ∧ Format f p.spec.fmt ∧ Rate r p.spec.rate ∧ CInv p c) →
      Post (step p x) (s ++ [x]) := by
    rintro ⟨f, r, c, h1, h2, h3, h4⟩
    rw [h1]
    exact step_chan_inv p f r c x h2 h3 h4
  unfold Inv at h
  cases hq : p.q with
  | start =>
    rw [hq] at h
    obtain ⟨h1, h2, h3, h4⟩ := h
    unfold step
    rw [hq]
    simp only
    split
    · rename_i hx
      exact ⟨by rw [h1, hx]; rfl, h2, h3, h4⟩
    · split
      · rename_i hx
        refine ⟨by rw [h1]; rfl, by simp [PS.start], fun y hy => ?_, h3, h4⟩
        rw [List.mem_singleton.1 hy]
        exact hx
      · trivial
  | fDash =>
    rw [hq] at h
    obtain ⟨h1, h2, h3, h4⟩ := h
    unfold step
    rw [hq]
    simp only
    split
    · rename_i hx
      refine ⟨['-'], by rw [h1, hx], ?_, h3, h4⟩
      show Format ['-'] p.spec.fmt
      rw [h2]
      exact .dash
    · trivial
  | fmt =>
    rw [hq] at h
    obtain ⟨h1, h2, h3, h4, h5⟩ := h
    unfold step
    rw [hq]
    simp only
    split
    · rename_i hx
      unfold setFormat
      split
      · exact ⟨p.tok, by rw [h1, hx], by omega, h3⟩
      · split
        · trivial
        · rename_i hn
          refine ⟨p.tok, by rw [h1, hx], ?_, h4, h5⟩
          have := Format.name _ _ (PcmNames.C77_only_names _ hn)
          rw [String.toList_ofList] at this
          exact this
    · split
      · rename_i hx
        refine ⟨by rw [h1]; rfl, by simp [PS.more], fun y hy => ?_, h4, h5⟩
        rcases List.mem_append.1 hy with hy | hy
        · exact h3 y hy
        · rw [List.mem_singleton.1 hy]; exact hx
      · trivial
  | rate0 =>
    rw [hq] at h
    obtain ⟨f, h1, h2, h3, h4⟩ := h
    unfold step
    rw [hq]
    simp only
    split
    · rename_i hx
      exact ⟨f, by rw [h1, hx]; simp, h2, h3, h4⟩
    · split
      · rename_i hx
        exact ⟨f, by rw [h1]; simp [PS.start], h2, digit_digits hx, h4⟩
      · trivial
  | rDash =>
    rw [hq] at h
    obtain ⟨f, h1, h2, h3, h4⟩ := h
    unfold step
    rw [hq]
    simp only
    split
    · rename_i hx
      refine inv_chan (p := p.go .ch0) (s := s ++ [x]) (f := f) (r := ['-']) (c := []) h2 ?_ ⟨rfl, h4⟩ (by rw [h1, hx]; simp)
      show Rate ['-'] p.spec.rate
      rw [h3]
      exact .dash
    · trivial
  | rate =>
    rw [hq] at h
    obtain ⟨f, h1, h2, h3, h4⟩ := h
    unfold step
    rw [hq]
    simp only
    split
    · rename_i hx
      unfold setRate
      rw [parseSize_eq _ h3.2]
      split
      · trivial
      · rename_i n hn
        split at hn
        · rename_i hlt
          split
          · trivial
          · rename_i h0
            have hn := Option.some.inj hn
            refine inv_chan (p := ({ p with spec := { p.spec with rate := n } } : PS).go .ch0) (s := s ++ [x]) (f := f)
              (r := p.tok) (c := []) h2 ?_ ⟨rfl, h4⟩ (by rw [h1, hx]; simp)
            exact .num p.tok n ⟨h3.1, h3.2, hn.symm⟩ (by omega) (by omega)
        · cases hn
    · split
      · rename_i hx
        exact ⟨f, by rw [h1]; simp [PS.more], h2, h3.more hx, h4⟩
      · trivial
  | ch0 => rw [hq] at h; exact chan h
  | cDash => rw [hq] at h; exact chan h
  | mask1 => rw [hq] at h; exact chan h
  | mask => rw [hq] at h; exact chan h
  | chan => rw [hq] at h; exact chan h
  | chanSep => rw [hq] at h; exact chan h
  | zero => rw [hq] at h; exact chan h
  | num => rw [hq] at h; exact chan h
  | rngSep => rw [hq] at h; exact chan h
  | rng => rw [hq] at h; exact chan h
  | numSep => rw [hq] at h; exact chan h
  | hex0 => rw [hq] at h; exact chan h
  | hex => rw [hq] at h; exact chan h

/-- What is required of an outcome of a run on a whole string. -/
def PostAll (x : Out PS) (s : List Char) : Prop :=
  match x with
  | .ok p => Inv p s
  | .no => True
  | .overflow => ∃ f t, s = f ++ '/' :: t ∧ 15 < f.length ∧ ∀ c ∈ f, isFmt c = true
  | .panic => ∃ f r c m n, s = f ++ '/' :: (r ++ '/' :: c) ∧ Format f m ∧ Rate r n ∧ Aborts c

theorem run_inv (t : List Char) : ∀ (p : PS) (s : List Char), Inv p s → PostAll (run p t) (s ++ t) := by
  induction t with
  | nil =>
    intro p s h
    rw [List.append_nil]
    exact h
  | cons x t ih =>
    intro p s h
    have hs := step_inv p s x h
    rw [run_cons]
    cases e : step p x with
    | ok p' =>
      rw [e] at hs
      have := ih p' (s ++ [x]) hs
      rw [List.append_assoc] at this
      exact this
    | no => trivial
    | overflow =>
      rw [e] at hs
      obtain ⟨f, h1, h2, h3⟩ := hs
      refine ⟨f, t, ?_, h2, h3⟩
      have : s ++ x :: t = (s ++ [x]) ++ t := by simp
      rw [this, h1]
      simp
    | panic =>
      rw [e] at hs
      obtain ⟨f, r, c, m, n, h1, h2, h3, h4⟩ := hs
      refine ⟨f, r, c ++ t, m, n, ?_, h2, h3, h4 t⟩
      have : s ++ x :: t = (s ++ [x]) ++ t := by simp
      rw [this, h1]
      simp

/-- The end of the string. -/
theorem eof_inv (p : PS) (s : List Char) (h : Inv p s) :
    match eof p with
    | .ok p' => Means s p'.spec.fmt p'.spec.rate p'.spec.chs.layout p'.spec.chs.order p'.spec.chs.chans
    | .no => True
    | .overflow => False
    | .panic => ∃ f r c m n, s = f ++ '/' :: (r ++ '/' :: c) ∧ Format f m ∧ Rate r n ∧ Aborts c := by
  have mtr : ∀ (p' : PS) (f r c : List Char), s = f ++ '/' :: (r ++ '/' :: c) → Format f p'.spec.fmt →
      Rate r p'.spec.rate → Channels c .multitrack .none p'.spec.chs.chans → ∃ p'', setMtr p' = .ok p'' ∧
      Means s p''.spec.fmt p''.spec.rate p''.spec.chs.layout p''.spec.chs.order p''.spec.chs.chans := by
    intro p' f r c h1 h2 h3 h4
    obtain ⟨s', e1, e2, e3, e4, _⟩ := mtr_end p'
    refine ⟨_, e1, f, r, c, h1, h2, h3, ?_⟩
    show Channels c s'.layout s'.order s'.chans
    rw [e2, e3, e4]
    exact h4
  have sur : ∀ (p' : PS) (f r c : List Char), s = f ++ '/' :: (r ++ '/' :: c) → Format f p'.spec.fmt →
      Rate r p'.spec.rate → Channels c .surround .smpte p'.spec.chs.chans → ∃ p'', setSurround p' = .ok p'' ∧
      Means s p''.spec.fmt p''.spec.rate p''.spec.chs.layout p''.spec.chs.order p''.spec.chs.chans := by
    intro p' f r c h1 h2 h3 h4
    obtain ⟨s', e1, e2, e3, e4, _⟩ := surround_end p'
    refine ⟨_, e1, f, r, c, h1, h2, h3, ?_⟩
    show Channels c s'.layout s'.order s'.chans
    rw [e2, e3, e4]
    exact h4
  unfold Inv at h
  unfold eof
  cases hq : p.q with
  | start => trivial
  | fDash => trivial
  | fmt => trivial
  | rate0 => trivial
  | rDash => trivial
  | rate => trivial
  | ch0 => trivial
  | mask1 => trivial
  | chanSep => trivial
  | rngSep => trivial
  | numSep => trivial
  | hex0 => trivial
  | cDash =>
    rw [hq] at h
    obtain ⟨f, r, c, h1, h2, h3, h4⟩ := h
    unfold CInv at h4
    rw [hq] at h4
    obtain ⟨h5, h6, h7, h8⟩ := h4
    refine ⟨f, r, c, h1, h2, h3, ?_⟩
    rw [h5, h6, h7, h8]
    exact .dash
  | mask =>
    rw [hq] at h
    obtain ⟨f, r, c, h1, h2, h3, h4⟩ := h
    unfold CInv at h4
    rw [hq] at h4
    simp only at h4
    simp only [setSurroundMask]
    cases hl : lookup p.tok maskNames with
    | none => trivial
    | some m =>
      obtain ⟨x, g1, g2⟩ := lookup_mem _ _ _ hl
      obtain ⟨l, g3, g4⟩ := mask_table (x, m) g1
      obtain ⟨p'', e, hm⟩ := sur (p.setChs (p.spec.chs.setMask m)) f r c h1 h2 h3 (by
        show Channels c .surround .smpte (p.spec.chs.setMask m).chans
        rw [(setMask_upd p.spec.chs m).chans, g4, h4, ← g2]
        exact .preset x l g3)
      simp only [Out.bind]
      rw [e]
      exact hm
  | chan =>
    rw [hq] at h
    obtain ⟨f, r, c, h1, h2, h3, h4⟩ := h
    unfold CInv at h4
    rw [hq] at h4
    simp only
    rcases name_leave p c h4 with e | ⟨s', e, h5⟩
    · rw [e]; trivial
    · obtain ⟨p'', e', hm⟩ := sur (p.setChs s') f r c h1 h2 h3 (.names c _ h5)
      rw [e]
      simp only [Out.bind]
      rw [e']
      exact hm
  | zero =>
    rw [hq] at h
    obtain ⟨f, r, c, h1, h2, h3, h4⟩ := h
    unfold CInv at h4
    rw [hq] at h4
    obtain ⟨g1, g2, g3⟩ := h4
    simp only
    rcases number_leave p c (by rw [g2]; exact zero_digits) (Or.inl ⟨by rw [g1, g2], g3⟩) with e | ⟨s', e, h5⟩
    · rw [e]; trivial
    · obtain ⟨p'', e', hm⟩ := mtr (p.setChs s') f r c h1 h2 h3 (.tracks c _ h5)
      rw [e]
      simp only [Out.bind]
      rw [e']
      exact hm
  | num =>
    rw [hq] at h
    obtain ⟨f, r, c, h1, h2, h3, h4⟩ := h
    unfold CInv at h4
    rw [hq] at h4
    obtain ⟨g1, g2⟩ := h4
    simp only
    rcases number_leave p c g1 g2 with e | ⟨s', e, h5⟩
    · rw [e]; trivial
    · obtain ⟨p'', e', hm⟩ := mtr (p.setChs s') f r c h1 h2 h3 (.tracks c _ h5)
      rw [e]
      simp only [Out.bind]
      rw [e']
      exact hm
  | rng =>
    rw [hq] at h
    obtain ⟨f, r, c, h1, h2, h3, h4⟩ := h
    unfold CInv at h4
    rw [hq] at h4
    obtain ⟨d, g1, g2, g3, g4⟩ := h4
    simp only
    rcases range_leave p c d g1 g2 g3 g4 with e | ⟨s', e, h5⟩ | ⟨e, h5⟩
    · rw [e]; trivial
    · obtain ⟨p'', e', hm⟩ := mtr (p.setChs s') f r c h1 h2 h3 (.tracks c _ h5)
      rw [e]
      simp only [Out.bind]
      rw [e']
      exact hm
    · rw [e]
      have := h5 [] (Or.inl rfl)
      rw [List.append_nil] at this
      exact ⟨f, r, c, _, _, h1, h2, h3, this⟩
  | hex =>
    rw [hq] at h
    obtain ⟨f, r, c, h1, h2, h3, h4⟩ := h
    unfold CInv at h4
    rw [hq] at h4
    obtain ⟨g1, g2, g3, g4⟩ := h4
    have g3' : ∀ x ∈ p.tok, HexDigit x := fun x hx => (hexDigit_iff x).2 (g3 x hx)
    simp only [setMtrMask]
    rcases parseMask_spec p.spec.chs p.tok g3 with ⟨hv, s', e, u⟩ | ⟨hv, e⟩
    · obtain ⟨p'', e', hm⟩ := mtr (p.setChs s') f r c h1 h2 h3 (by
        show Channels c .multitrack .none s'.chans
        have := u.chans
        unfold hexChans at this
        rw [g4, Finset.empty_union] at this
        rw [this, g1]
        exact .mask p.tok g2 g3' hv)
      rw [e]
      simp only [Out.bind]
      rw [e']
      exact hm
    · rw [e]
      refine ⟨f, r, c, _, _, h1, h2, h3, ?_⟩
      rw [g1]
      exact .mask p.tok g2 g3' hv

end Verif.SpecParse
