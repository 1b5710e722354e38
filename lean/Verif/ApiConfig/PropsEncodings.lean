import Verif.ApiConfig.Model
import Verif.SpecParse.Lemmas

/-! # Properties of the table of encodings -/

namespace Verif.ApiConfig

open Verif.ChannelSet Verif.SpecParse

/-! ## Statement -/

/-- What the documentation of `roc_media_encoding` asks for: a rate, a format from the list, and either tracks (1 to 1024 of them), or mono
or stereo without tracks. -/
def Media.Valid (m : Media) : Prop :=
  m.rate ≠ 0 ∧ m.format = 1 ∧ ((m.channels = 1 ∧ 1 ≤ m.tracks ∧ m.tracks ≤ 1024) ∨ ((m.channels = 2 ∨ m.channels = 3) ∧ m.tracks = 0))

/-- The spec has the rate and the channels of the description: tracks numbered from zero; center; left and right. -/
structure Describes (m : Media) (s : SSpec) : Prop where
  rate : s.rate = m.rate
  multitrack : m.channels = 1 → s.chs.layout = .multitrack ∧ s.chs.chans = Finset.range m.tracks
  mono : m.channels = 2 → s.chs.layout = .surround ∧ s.chs.order = .smpte ∧ s.chs.chans = {2}
  stereo : m.channels = 3 → s.chs.layout = .surround ∧ s.chs.order = .smpte ∧ s.chs.chans = {0, 4}
  reach : Reach s.chs
  valid : specValid s = true

/-- Encodings of a context after any registrations. -/
inductive Ctx : List Enc → Prop
  | init {l} : initial true = .ok l → Ctx l
  | reg {l l'} (alloc : Bool) (id : Int) (m : Media) : Ctx l → register alloc l id m = .ok l' → Ctx l'

/-! ## Lemmas -/

theorem maskMono_chans : maskChans maskMono = {2} := by
  have h : ∀ n < 32, maskMono.getLsbD n = true ↔ n = 2 := by decide +kernel
  ext n
  simp only [maskChans, Finset.mem_filter, Finset.mem_range, Finset.mem_singleton]
  refine ⟨fun x => (h n x.1).1 x.2, fun x => ⟨by omega, (h n (by omega)).2 x⟩⟩

theorem maskStereo_chans : maskChans maskStereo = {0, 4} := by
  have h : ∀ n < 32, maskStereo.getLsbD n = true ↔ n = 0 ∨ n = 4 := by decide +kernel
  ext n
  simp only [maskChans, Finset.mem_filter, Finset.mem_range, Finset.mem_insert, Finset.mem_singleton]
  refine ⟨fun x => (h n x.1).1 x.2, fun x => ⟨by omega, (h n (by omega)).2 x⟩⟩

theorem num_of {s : CSet} (h : Reach s) (hne : s.chans.Nonempty) : s.num ≠ 0 ∧ ∀ b, (∀ n ∈ s.chans, n < b) → s.last < b := by
  have hc := C42_counting h
  have hnum : s.num ≠ 0 := by
    have := hc.1
    unfold CSet.numChannels at this
    rw [this]
    exact Finset.card_ne_zero.2 hne
  refine ⟨hnum, fun b hb => ?_⟩
  have hl := (hc.2.2.1 hne).2
  simp only [CSet.lastChannel, if_neg hnum, Option.some.injEq] at hl
  rw [hl]
  exact hb _ (Finset.max'_mem _ _)

theorem valid_surround {c : CSet} (hr : Reach c) (hl : c.layout = .surround) (ho : c.order = .smpte) {A : Finset Nat} (hc : c.chans = A)
    (hne : A.Nonempty) (hb : ∀ n ∈ A, n < 17) : c.isValid = true := by
  have hn := num_of hr (by rw [hc]; exact hne)
  have hl' := hn.2 17 (by rw [hc]; exact hb)
  unfold CSet.isValid
  rw [hl]
  simp [ho, hn.1, hl']

theorem valid_multitrack {c : CSet} (hr : Reach c) (hl : c.layout = .multitrack) (ho : c.order = .none) {A : Finset Nat} (hc : c.chans = A)
    (hne : A.Nonempty) : c.isValid = true := by
  have hn := num_of hr (by rw [hc]; exact hne)
  unfold CSet.isValid
  rw [hl]
  simp [ho, hn.1]

theorem setRange_some (s : CSet) (b : Nat) (h : b < 1024) :
    ∃ s', s.setRange 0 b = some s' ∧ Upd s s' (Finset.range (b + 1)) := by
  have h1 := C42_operations s (.setRange 0 b)
  simp only [specApply, if_pos (⟨Nat.zero_le b, h⟩ : 0 ≤ b ∧ b < 1024)] at h1
  cases hs : s.apply (.setRange 0 b) with
  | none => rw [hs] at h1; cases h1
  | some s' =>
    rw [hs] at h1
    refine ⟨s', hs, ?_, ?_, ?_, fun hr => .apply _ hr hs⟩
    · have := Option.some.inj h1
      rw [this]
      ext n
      simp only [Finset.mem_Icc, Finset.mem_range]
      omega
    all_goals
      simp only [CSet.apply, CSet.setRange] at hs
      split at hs
      · cases hs
      · split at hs
        · cases hs
        · rw [← Option.some.inj hs]
          rfl

theorem pred32_eq (n : Nat) (h1 : 1 ≤ n) (h2 : n < 4294967296) : pred32 n = n - 1 := by
  unfold pred32
  omega

theorem surround_ok (out : CSet) (hr : Reach out) (m : BitVec 32) (A : Finset Nat) (hA : maskChans m = A) (hne : A.Nonempty)
    (hb : ∀ n ∈ A, n < 17) :
    ∃ c, ((ofOption (out.setLayout .surround)).bind fun o => Out.ok ((o.setOrder .smpte).setMask m)) = .ok c ∧ Reach c ∧ c.isValid = true ∧
      c.layout = .surround ∧ c.order = .smpte ∧ c.chans = A := by
  obtain ⟨s', e1, -, e3, e4, e5⟩ := chans_setLayout out .surround .smpte (by decide)
  have u := setMask_upd (s'.setOrder .smpte) m
  rw [hA] at u
  generalize hc : (s'.setOrder .smpte).setMask m = c at u
  refine ⟨c, ?_, u.reach (e5 hr), ?_, by rw [u.layout, e3], by rw [u.order, e4], u.chans⟩
  · rw [e1]
    simp only [ofOption, Out.bind, hc]
  · exact valid_surround (u.reach (e5 hr)) (by rw [u.layout, e3]) (by rw [u.order, e4]) u.chans hne hb

theorem multitrack_ok (out : CSet) (hr : Reach out) (b : Nat) (hb : b < 1024) :
    ∃ c, ((ofOption (out.setLayout .multitrack)).bind fun o => ofOption ((o.setOrder .none).setRange 0 b)) = .ok c ∧ Reach c ∧
      c.isValid = true ∧ c.layout = .multitrack ∧ c.chans = Finset.range (b + 1) := by
  obtain ⟨s', e1, -, e3, e4, e5⟩ := chans_setLayout out .multitrack .none (by decide)
  obtain ⟨c, f1, f2⟩ := setRange_some (s'.setOrder .none) b hb
  refine ⟨c, ?_, f2.reach (e5 hr), ?_, by rw [f2.layout, e3], f2.chans⟩
  · rw [e1]
    simp only [ofOption, Out.bind, f1]
  · exact valid_multitrack (f2.reach (e5 hr)) (by rw [f2.layout, e3]) (by rw [f2.order, e4]) f2.chans ⟨0, by simp⟩

/-- The channel set of an accepted description. -/
theorem channels_ok (out : CSet) (hr : Reach out) (ch : Int) (tracks : Nat)
    (h : (ch = 1 ∧ 1 ≤ tracks ∧ tracks ≤ 1024) ∨ ((ch = 2 ∨ ch = 3) ∧ tracks = 0)) :
    ∃ c, channelsFromUser out ch tracks = .ok c ∧ Reach c ∧ c.isValid = true ∧
      (ch = 1 → c.layout = .multitrack ∧ c.chans = Finset.range tracks) ∧
      (ch = 2 → c.layout = .surround ∧ c.order = .smpte ∧ c.chans = {2}) ∧
      (ch = 3 → c.layout = .surround ∧ c.order = .smpte ∧ c.chans = {0, 4}) := by
  have hclear : Reach out.clear := .apply .clear hr rfl
  unfold channelsFromUser
  simp only
  generalize out.clear = o at hclear
  rcases h with ⟨h0, h1, h2⟩ | ⟨h0 | h0, -⟩
  · rw [if_pos h0, pred32_eq tracks h1 (by omega)]
    obtain ⟨c, e1, e2, e3, e4, e5⟩ := multitrack_ok o hclear (tracks - 1) (by omega)
    rw [Nat.sub_add_cancel h1] at e5
    exact ⟨c, e1, e2, e3, fun _ => ⟨e4, e5⟩, fun h => by omega, fun h => by omega⟩
  · rw [if_neg (by omega), if_pos h0]
    obtain ⟨c, e1, e2, e3, e4, e5, e6⟩ := surround_ok o hclear maskMono {2} maskMono_chans (by simp) (by simp)
    exact ⟨c, e1, e2, e3, fun h => by omega, fun _ => ⟨e4, e5, e6⟩, fun h => by omega⟩
  · rw [if_neg (by omega), if_neg (by omega), if_pos h0]
    obtain ⟨c, e1, e2, e3, e4, e5, e6⟩ := surround_ok o hclear maskStereo {0, 4} maskStereo_chans (by simp) (by simp)
    exact ⟨c, e1, e2, e3, fun h => by omega, fun h => by omega, fun _ => ⟨e4, e5, e6⟩⟩

/-- Conversion of a description: it succeeds exactly for valid ones. -/
theorem spec_cases (out : SSpec) (hr : Reach out.chs) (m : Media) (net : Bool) :
    (m.Valid ∧ ∃ s, specFromUser out m net = .ok s ∧ Describes m s ∧ s.fmt = if net then s16be else f32) ∨
      (¬ m.Valid ∧ specFromUser out m net = .no) := by
  unfold specFromUser Media.Valid formatFromUser
  by_cases h1 : m.rate = 0
  · right
    simp [h1]
  by_cases h2 : m.format = 1
  swap
  · right
    simp [h1, h2, Out.bind]
  by_cases h3 : (m.channels = 1 ∧ 1 ≤ m.tracks ∧ m.tracks ≤ 1024) ∨ ((m.channels = 2 ∨ m.channels = 3) ∧ m.tracks = 0)
  · left
    refine ⟨⟨h1, h2, h3⟩, ?_⟩
    obtain ⟨c, e1, e2, e3, e4, e5, e6⟩ := channels_ok out.chs hr m.channels m.tracks h3
    refine ⟨⟨if net then s16be else f32, m.rate, c⟩, ?_, ⟨rfl, e4, e5, e6, e2, ?_⟩, rfl⟩
    · have a1 : m.channels ≠ 0 := by omega
      have a2 : ¬ (m.channels = 1 ∧ m.tracks = 0) := by omega
      have a3 : ¬ (m.channels = 1 ∧ m.tracks > maxChannels) := by unfold maxChannels; omega
      have a4 : ¬ (m.channels ≠ 1 ∧ m.tracks ≠ 0) := by omega
      simp only [ne_eq, h1, not_false_eq_true, if_true, h2, Out.bind, a1, a2, a3, if_false]
      rw [if_neg a4, e1]
    · unfold specValid
      cases net <;> simp [h1, e3, s16be, f32]
  · right
    refine ⟨fun h => h3 h.2.2, ?_⟩
    simp only [ne_eq, h1, not_false_eq_true, if_true, h2, Out.bind]
    by_cases a1 : m.channels = 0
    · simp [a1]
    by_cases a2 : m.channels = 1 ∧ m.tracks = 0
    · simp [a1, a2]
    by_cases a3 : m.channels = 1 ∧ m.tracks > maxChannels
    · simp only [a1, not_false_eq_true, if_true, a2, if_false]
      rw [if_pos a3]
    by_cases a4 : ¬ m.channels = 1 ∧ ¬ m.tracks = 0
    · simp only [a1, not_false_eq_true, if_true, a2, a3, if_false]
      rw [if_pos a4]
    · simp only [a1, not_false_eq_true, if_true, a2, a3, if_false]
      rw [if_neg a4]
      unfold maxChannels at a3
      unfold channelsFromUser
      rw [if_neg (by omega), if_neg (by omega), if_neg (by omega)]

theorem findPt_append (l : List Enc) (e : Enc) (pt : Nat) :
    findPt (l ++ [e]) pt = (findPt l pt).or (if e.pt = pt then some e else none) := by
  unfold findPt
  rw [List.find?_append]
  congr 1
  by_cases h : e.pt = pt <;> simp [List.find?, h]

theorem emptySpec_reach : Reach emptySpec.chs := .empty

theorem register_cases (alloc : Bool) (l : List Enc) (id : Int) (m : Media) :
    ((1 ≤ id ∧ id ≤ 127) ∧ m.Valid ∧ findPt l id.toNat = none ∧ alloc = true ∧
      ∃ s, register alloc l id m = .ok (l ++ [⟨id.toNat, s⟩]) ∧ Describes m s ∧ s.fmt = s16be) ∨
    (¬ ((1 ≤ id ∧ id ≤ 127) ∧ m.Valid ∧ findPt l id.toNat = none ∧ alloc = true) ∧ register alloc l id m = .no) := by
  unfold register
  by_cases h1 : id < 1 ∨ id > 127
  · right
    rw [if_pos h1]
    exact ⟨fun h => by omega, rfl⟩
  rw [if_neg h1]
  rcases spec_cases emptySpec emptySpec_reach m true with ⟨hv, s, e1, e2, e3⟩ | ⟨hv, e1⟩
  swap
  · right
    rw [e1]
    exact ⟨fun h => hv h.2.1, rfl⟩
  rw [e1]
  simp only [Out.bind]
  have hp : ¬ id.toNat = 0 := by omega
  have hf : ¬ s.fmt = 0 := by rw [e3]; decide
  unfold addEncoding
  rw [if_neg hp, if_neg (by rw [e2.valid]; decide), if_neg hf]
  by_cases h2 : (findPt l id.toNat).isSome
  · right
    rw [if_pos h2]
    refine ⟨fun h => ?_, rfl⟩
    rw [h.2.2.1] at h2
    cases h2
  rw [if_neg h2]
  cases alloc with
  | false => exact .inr ⟨fun h => by simp at h, rfl⟩
  | true =>
    left
    refine ⟨by omega, hv, by simpa using h2, rfl, s, rfl, e2, by simpa using e3⟩

/-! ## Properties -/

/-- Two tracks at 48 kHz. -/
def exMedia : Media := ⟨48000, 1, 1, 2⟩

/-- **C101.** `roc_context_register_encoding` never aborts. It succeeds exactly if the identifier is in the range, the description is valid
as documented, the identifier is free, and there is memory; then the identifier stands for the given rate and channels, and no other
identifier changes. -/
theorem C101_register (alloc : Bool) (l : List Enc) (id : Int) (m : Media) :
    ((∃ l', register alloc l id m = .ok l') ↔ (1 ≤ id ∧ id ≤ 127) ∧ m.Valid ∧ (∀ e ∈ l, (e.pt : Int) ≠ id) ∧ alloc = true) ∧
    ((∀ l', register alloc l id m ≠ .ok l') → register alloc l id m = .no) ∧
    ∀ l', register alloc l id m = .ok l' →
      (∃ e, findPt l' id.toNat = some e ∧ Describes m e.spec) ∧ ∀ pt : Nat, (pt : Int) ≠ id → findPt l' pt = findPt l pt := by
  have hfree : ∀ h : 1 ≤ id, findPt l id.toNat = none ↔ ∀ e ∈ l, (e.pt : Int) ≠ id := by
    intro h
    unfold findPt
    rw [List.find?_eq_none]
    refine forall_congr' fun e => forall_congr' fun _ => ?_
    simp only [decide_eq_true_eq]
    omega
  rcases register_cases alloc l id m with ⟨h1, h2, h3, h4, s, e1, e2, -⟩ | ⟨h1, e1⟩
  · rw [e1]
    refine ⟨⟨fun _ => ⟨h1, h2, (hfree h1.1).1 h3, h4⟩, fun _ => ⟨_, rfl⟩⟩, fun h => absurd rfl (h _), ?_⟩
    intro l' hl
    cases hl
    refine ⟨⟨⟨id.toNat, s⟩, ?_, e2⟩, fun pt hpt => ?_⟩
    · rw [findPt_append, h3]
      simp
    · rw [findPt_append, if_neg (by simp only; omega), Option.or_none]
  · rw [e1]
    refine ⟨⟨fun ⟨_, h⟩ => (by cases h), fun h => ?_⟩, fun _ => rfl, fun l' h => by cases h⟩
    exact absurd ⟨h.1, h.2.1, (hfree h.1.1).2 h.2.2.1, h.2.2.2⟩ h1

example : exMedia.Valid ∧ ∃ l', register true [] 77 exMedia = .ok l' := by
  have hv : exMedia.Valid := ⟨by decide, rfl, .inl ⟨rfl, by decide, by decide⟩⟩
  exact ⟨hv, (C101_register true [] 77 exMedia).1.2 ⟨by decide, hv, by simp, rfl⟩⟩

theorem initial_eq : ∃ a b : CSet, initial true = .ok [⟨11, ⟨s16be, 44100, a⟩⟩, ⟨10, ⟨s16be, 44100, b⟩⟩] ∧ a.chans = {2} ∧ b.chans = {0, 4} ∧
    a.isValid = true ∧ b.isValid = true ∧ b.layout = .surround ∧ b.order = .smpte := by
  have mk : ∀ (m : BitVec 32) (A : Finset Nat), m ≠ 0 → maskChans m = A → A.Nonempty → (∀ n ∈ A, n < 17) →
      ∃ c, CSet.make .surround .smpte m = some c ∧ c.chans = A ∧ c.isValid = true ∧ c.layout = .surround ∧ c.order = .smpte := by
    intro m A h0 hA hne hb
    have he : CSet.make .surround .smpte m = some (CSet.index ⟨maskWords m, 0, 0, 0, .surround, .smpte⟩) := by
      unfold CSet.make
      rw [if_neg (by decide), if_neg (by decide), if_neg h0]
    have hr : Reach (CSet.index ⟨maskWords m, 0, 0, 0, .surround, .smpte⟩) := .make he
    have hc : (CSet.index ⟨maskWords m, 0, 0, 0, .surround, .smpte⟩).chans = A := by
      have := (setMask_upd ⟨clearWords, 0, 0, 0, .surround, .smpte⟩ m).chans
      rw [← hA, ← this]
      rfl
    exact ⟨_, he, hc, valid_surround hr rfl rfl hc hne hb, rfl, rfl⟩
  obtain ⟨a, a1, a2, a3, -, -⟩ := mk maskMono {2} (by decide) maskMono_chans (by simp) (by simp)
  obtain ⟨b, b1, b2, b3, b4, b5⟩ := mk maskStereo {0, 4} (by decide) maskStereo_chans (by simp) (by simp)
  refine ⟨a, b, ?_, a2, b2, a3, b3, b4, b5⟩
  simp [initial, addBuiltin, a1, b1, ofOption, Out.bind, addEncoding, specValid, a3, b3, s16be, findPt]

/-- **C101.** A new context knows exactly the two encodings of RFC 3551: 10 is stereo and 11 is mono, both 44100 Hz and signed 16-bit big
endian. -/
theorem C101_builtin : ∃ l, initial true = .ok l ∧ (∀ e ∈ l, e.spec.rate = 44100 ∧ e.spec.fmt = s16be ∧ specValid e.spec = true) ∧
    (∀ pt, (findPt l pt).isSome ↔ pt = 10 ∨ pt = 11) ∧
    (∀ e, findPt l 10 = some e → e.spec.chs.chans = {0, 4}) ∧ (∀ e, findPt l 11 = some e → e.spec.chs.chans = {2}) := by
  obtain ⟨a, b, e, a2, b2, a3, b3, -, -⟩ := initial_eq
  refine ⟨_, e, ?_, ?_, ?_, ?_⟩
  · simp [specValid, a3, b3, s16be]
  · intro pt
    simp only [findPt, List.find?_isSome, List.mem_cons, List.not_mem_nil, or_false, decide_eq_true_eq]
    constructor
    · rintro ⟨x, rfl | rfl, h⟩ <;> simp only at h <;> omega
    · rintro (h | h)
      · exact ⟨_, .inr rfl, h.symm⟩
      · exact ⟨_, .inl rfl, h.symm⟩
  · intro e he
    simp [findPt, List.find?] at he
    rw [← he]
    exact b2
  · intro e he
    simp [findPt, List.find?] at he
    rw [← he]
    exact a2

/-- Everything in the table of a context: valid, with an identifier from 1 to 127, and signed 16-bit big endian. -/
theorem ctx_inv {l : List Enc} (h : Ctx l) : ∀ e ∈ l, (1 ≤ e.pt ∧ e.pt ≤ 127) ∧ specValid e.spec = true ∧ e.spec.fmt = s16be := by
  induction h with
  | init h0 =>
    obtain ⟨l', e, h1, h2, -⟩ := C101_builtin
    rw [e] at h0
    injection h0 with h0
    subst h0
    intro x hx
    have hp : (findPt l' x.pt).isSome := by
      unfold findPt
      rw [List.find?_isSome]
      exact ⟨x, hx, by simp⟩
    have := (h2 x.pt).1 hp
    exact ⟨by omega, (h1 x hx).2.2, (h1 x hx).2.1⟩
  | reg alloc id m _ hr ih =>
    rcases register_cases alloc _ id m with ⟨h1, -, -, -, s, e1, e2, e3⟩ | ⟨-, e1⟩
    · rw [e1] at hr
      cases hr
      intro x hx
      rcases List.mem_append.1 hx with hx | hx
      · exact ih x hx
      · rw [List.mem_singleton] at hx
        subst hx
        exact ⟨by simp only; omega, e2.valid, e3⟩
    · rw [e1] at hr
      cases hr

/-- **C101.** Identifiers are unique: looking an encoding up by the identifier it is listed with gives that encoding. -/
theorem C101_unique {l : List Enc} (h : Ctx l) : ∀ e ∈ l, findPt l e.pt = some e := by
  induction h with
  | init h0 =>
    obtain ⟨a, b, e, -⟩ := initial_eq
    rw [e] at h0
    cases h0
    simp [findPt]
  | reg alloc id m _ hr ih =>
    rcases register_cases alloc _ id m with ⟨h1, -, h3, -, s, e1, -, -⟩ | ⟨-, e1⟩
    · rw [e1] at hr
      cases hr
      intro x hx
      rcases List.mem_append.1 hx with hx | hx
      · rw [findPt_append, ih x hx]
        rfl
      · rw [List.mem_singleton] at hx
        subst hx
        rw [findPt_append, h3]
        simp
    · rw [e1] at hr
      cases hr

/-- **C101.** An explicit `packet_encoding` is used as it is if it is built in or registered; anything else is rejected. -/
theorem C101_select {l : List Enc} (h : Ctx l) (spec : SSpec) (n : Int) (hn : n ≠ 0) (h1 : -2147483648 ≤ n) (h2 : n < 2147483648) :
    ((∃ e ∈ l, (e.pt : Int) = n) → selectPt l spec n = .ok n.toNat) ∧ ((∀ e ∈ l, (e.pt : Int) ≠ n) → selectPt l spec n = .no) := by
  have hp : ptFromUser n = (n % 4294967296).toNat := by
    unfold ptFromUser
    split
    · subst n; rfl
    · split
      · subst n; rfl
      · rfl
  have hs : (findPt l (ptFromUser n)).isSome ↔ ∃ e ∈ l, (e.pt : Int) = n := by
    unfold findPt
    rw [List.find?_isSome]
    refine exists_congr fun e => and_congr_right fun he => ?_
    have := (ctx_inv h e he).1
    rw [decide_eq_true_eq, hp]
    omega
  unfold selectPt
  rw [if_pos hn]
  constructor
  · intro hx
    rw [if_pos (hs.2 hx)]
    obtain ⟨e, he, hx⟩ := hx
    rw [hp]
    congr 2
    omega
  · intro hx
    rw [if_neg (fun h' => by obtain ⟨e, he, h'⟩ := hs.1 h'; exact hx e he h')]

/-- **C101** (partial: for an arbitrary table). If `packet_encoding` is zero and an encoding is selected, it is one from the table with the
rate and the channels of the frames. Missing: with the tables that exist it is never selected (`C101_auto_fails`). -/
theorem C101_auto_partial (l : List Enc) (spec : SSpec) (pt : Nat) (h : selectPt l spec 0 = .ok pt) :
    ∃ e ∈ l, e.pt = pt ∧ e.spec.rate = spec.rate ∧ e.spec.chs.layout = spec.chs.layout ∧ e.spec.chs.chans = spec.chs.chans := by
  simp only [selectPt, ne_eq, not_true_eq_false, if_false] at h
  cases hf : findSpec l spec with
  | none => simp [hf, need, Out.bind] at h
  | some e =>
    simp only [hf, need, Out.bind, Out.ok.injEq] at h
    have h1 := List.find?_some hf
    simp only [specEq, Bool.and_eq_true, decide_eq_true_eq] at h1
    obtain ⟨a, -, b⟩ := (C42_equality _ _).1 h1.2
    exact ⟨e, List.mem_of_find?_eq_some hf, h, h1.1.2, a, b⟩

/-- A sender config with stereo frames at 44100 Hz; everything else has its default. -/
def exSender (packetEncoding : Int) : SenderIn :=
  ⟨⟨44100, 1, 3, 0⟩, packetEncoding, 0, 0, 0, 0, 0, 0, 0, 0, 0, 0, 0, 0⟩

/-- The table of two built-in encodings without `Out`. -/
def builtin : List Enc := match initial true with | .ok l => l | _ => []

theorem builtin_ctx : Ctx builtin := by
  obtain ⟨a, b, e, -⟩ := initial_eq
  refine .init ?_
  rw [builtin, e]

/-- **C101** (negation). Automatic selection never works: whatever is registered, a sender whose `packet_encoding` is zero is rejected. All
encodings of a context are 16-bit integers, the format of frames is 32-bit floats, and the comparison of specs includes the format. With
stereo frames at 44100 Hz the config differs in nothing but that zero from one that is accepted and means a built-in encoding with the same
rate and channels. -/
theorem C101_auto_fails (spec0 : SSpec) (hr : Reach spec0.chs) :
    (∀ l, Ctx l → ∀ c : SenderIn, c.packetEncoding = 0 → senderFromUser l spec0 c = .no) ∧
    (∃ out, senderFromUser builtin spec0 (exSender 10) = .ok out ∧ out.pt = 10 ∧
      ∃ e ∈ builtin, e.pt = 10 ∧ e.spec.rate = out.spec.rate ∧ e.spec.chs.eq out.spec.chs = true) ∧
    senderFromUser builtin spec0 (exSender 0) = .no := by
  have key : ∀ l, Ctx l → ∀ c : SenderIn, c.packetEncoding = 0 → senderFromUser l spec0 c = .no := by
    intro l hl c hc
    unfold senderFromUser
    rcases spec_cases spec0 hr c.frame false with ⟨-, s, e1, -, e3⟩ | ⟨-, e1⟩
    · have hn : findSpec l s = none := by
        unfold findSpec
        rw [List.find?_eq_none]
        intro e he hx
        simp only [specEq, Bool.and_eq_true, Bool.or_eq_true, decide_eq_true_eq] at hx
        have hf := (ctx_inv hl e he).2.2
        have h2 := hx.1.1.2
        rw [hf, e3] at h2
        revert h2
        decide +kernel
      simp only [sinkDefault, e1, Out.bind, selectPt, hc, ne_eq, not_true_eq_false, if_false, hn, need]
    · simp only [sinkDefault, e1, Out.bind]
  refine ⟨key, ?_, key _ builtin_ctx _ rfl⟩
  rcases spec_cases spec0 hr (exSender 10).frame false with ⟨-, s, e1, e2, e3⟩ | ⟨hv, -⟩
  · obtain ⟨a, b, ei, -, b2, -, -, hlay⟩ := initial_eq
    have hb : builtin = [⟨11, ⟨s16be, 44100, a⟩⟩, ⟨10, ⟨s16be, 44100, b⟩⟩] := by rw [builtin, ei]
    have hsel := (C101_select builtin_ctx s 10 (by decide) (by decide) (by decide)).1
      ⟨⟨10, ⟨s16be, 44100, b⟩⟩, by rw [hb]; simp, rfl⟩
    have hst := e2.stereo rfl
    refine ⟨{ sinkDefault spec0 with spec := s, pt := 10, autoDuration := true, autoCts := true, fec := .rs8m }, ?_, rfl,
      ⟨10, ⟨s16be, 44100, b⟩⟩, by rw [hb]; simp, rfl, by rw [e2.rate]; rfl, ?_⟩
    · unfold senderFromUser
      simp only [sinkDefault, e1, Out.bind]
      rw [show (exSender 10).packetEncoding = 10 from rfl, hsel]
      rfl
    · rw [C42_equality]
      exact ⟨by rw [hlay.1, hst.1], by rw [hlay.2, hst.2.1], by rw [b2, hst.2.2]⟩
  · exact absurd ⟨by decide, rfl, .inr ⟨.inr rfl, rfl⟩⟩ hv

/-- **C101** (negation). An encoding registered with `ROC_FORMAT_PCM_FLOAT32`, the only format there is, is not an encoding with 32-bit
floats: packets carry 16-bit integers. -/
theorem C101_format_fails (alloc : Bool) (l l' : List Enc) (id : Int) (m : Media) (h : register alloc l id m = .ok l') :
    m.format = 1 ∧ ∃ e ∈ l', (e.pt : Int) = id ∧ e.spec.fmt = s16be := by
  rcases register_cases alloc l id m with ⟨h1, h2, -, -, s, e1, -, e3⟩ | ⟨-, e1⟩
  · rw [e1] at h
    injection h with h
    subst h
    exact ⟨h2.2.1, ⟨id.toNat, s⟩, by simp, by simp only; omega, e3⟩
  · rw [e1] at h
    cases h

end Verif.ApiConfig
