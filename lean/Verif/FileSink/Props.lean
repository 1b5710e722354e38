import Verif.FileSink.Model

/-!
# C125: what is written to files and devices with SoX and libsndfile
-/

namespace Verif.FileSink

variable {α β : Type}

/-- SoX and libsndfile take everything. -/
def All (take : Nat → Nat → Nat) : Prop := ∀ i n, n ≤ take i n

theorem fill_eq (conv : α → β) (cap : Nat) (xs : List α) (buf : List β) (h : buf.length ≤ cap) :
    fill conv cap buf xs = (buf ++ (xs.take (cap - buf.length)).map conv, xs.drop (cap - buf.length)) := by
  induction xs generalizing buf with
  | nil => simp [fill]
  | cons x xs ih =>
    rw [fill]
    by_cases hb : buf.length < cap
    · rw [if_pos hb, ih _ (by simp; omega)]
      obtain ⟨m, hm⟩ : ∃ m, cap - buf.length = m + 1 := ⟨cap - buf.length - 1, by omega⟩
      rw [hm]
      have : cap - (buf ++ [conv x]).length = m := by simp; omega
      rw [this]
      simp
    · rw [if_neg hb]
      have : cap - buf.length = 0 := by omega
      simp [this]

/-- What `put` leaves as it is. -/
theorem put_same (s : Sox β) (take : Nat → Nat → Nat) (xs : List β) :
    (s.put take xs).valid = s.valid ∧ (s.put take xs).bufCap = s.bufCap ∧
    (s.put take xs).bufLen = s.bufLen ∧ (s.put take xs).opened = s.opened := by
  unfold Sox.put; split <;> exact ⟨rfl, rfl, rfl, rfl⟩

/-- Lengths of the pieces a frame of `n` samples is divided into. -/
def pieces (cap : Nat) : Nat → Nat → List Nat
  | 0, _ => []
  | r + 1, n => if n = 0 then [] else if n < cap then [n] else cap :: pieces cap r (n - cap)

/-- The file after giving pieces with lengths `ps` of `xs`, the first of them with call number `i`. -/
def taken (take : Nat → Nat → Nat) : Nat → List Nat → List β → List β
  | _, [], _ => []
  | i, p :: ps, xs => (xs.take p).take (take i p) ++ taken take (i + 1) ps (xs.drop p)

theorem loop_eq (conv : α → β) (take : Nat → Nat → Nat) (n : Nat) (s : Sox β) (xs : List α)
    (hc : 0 < s.bufCap) (hn : xs.length ≤ n) :
    ∃ s' buf, Sox.loop conv take n s [] xs = some (s', buf) ∧
      (s'.put take buf).calls = s.calls ++ pieces s.bufCap n xs.length ∧
      (s'.put take buf).file = s.file ++ taken take s.calls.length (pieces s.bufCap n xs.length) (xs.map conv) ∧
      s'.valid = s.valid ∧ s'.bufCap = s.bufCap ∧ s'.bufLen = s.bufLen ∧ s'.opened = s.opened := by
  induction n generalizing s xs with
  | zero =>
    have : xs = [] := List.length_eq_zero_iff.mp (by omega)
    subst this
    exact ⟨s, [], by simp [Sox.loop], by simp [Sox.put, pieces], by simp [Sox.put, pieces, taken], rfl, rfl, rfl, rfl⟩
  | succ n ih =>
    cases xs with
    | nil =>
      exact ⟨s, [], by simp [Sox.loop], by simp [Sox.put, pieces], by simp [Sox.put, pieces, taken], rfl, rfl, rfl, rfl⟩
    | cons x xs =>
      have hf := fill_eq conv s.bufCap (x :: xs) ([] : List β) (by simp)
      simp only [List.length_nil, Nat.sub_zero, List.nil_append] at hf
      rw [Sox.loop, hf]
      simp only [List.length_map, List.length_take]
      by_cases hl : (x :: xs).length < s.bufCap
      · rw [if_neg (by omega)]
        have hd : (x :: xs).drop s.bufCap = [] := List.drop_eq_nil_of_le (by omega)
        have ht : (x :: xs).take s.bufCap = x :: xs := List.take_of_length_le (by omega)
        rw [hd, ht]
        have hp : pieces s.bufCap (n + 1) (x :: xs).length = [(x :: xs).length] := by
          rw [pieces, if_neg (by simp), if_pos hl]
        rw [hp]
        refine ⟨s, (x :: xs).map conv, by cases n <;> rfl, ?_, ?_, rfl, rfl, rfl, rfl⟩
        · rw [Sox.put, if_pos (by simp)]; simp
        · rw [Sox.put, if_pos (by simp)]
          simp only [taken, List.length_map, List.append_nil]
          rw [List.take_of_length_le (l := List.map conv (x :: xs)) (i := (x :: xs).length) (by simp)]
      · rw [if_pos (by omega)]
        set b := ((x :: xs).take s.bufCap).map conv with hb
        have hbl : b.length = s.bufCap := by rw [hb, List.length_map, List.length_take]; omega
        obtain ⟨p1, p2, p3, p4⟩ := put_same s take b
        obtain ⟨s', buf, e1, e2, e3, e4, e5, e6, e7⟩ := ih (s.put take b) ((x :: xs).drop s.bufCap)
          (by rw [p2]; exact hc) (by simp at hn ⊢; omega)
        have hput : (s.put take b).file = s.file ++ b.take (take s.calls.length s.bufCap) ∧
            (s.put take b).calls = s.calls ++ [s.bufCap] := by
          rw [Sox.put, if_pos (by omega), hbl]; exact ⟨rfl, rfl⟩
        have hp : pieces s.bufCap (n + 1) (x :: xs).length
            = s.bufCap :: pieces s.bufCap n ((x :: xs).length - s.bufCap) := by
          rw [pieces, if_neg (by simp), if_neg hl]
        have hdl : ((x :: xs).drop s.bufCap).length = (x :: xs).length - s.bufCap := List.length_drop
        refine ⟨s', buf, e1, ?_, ?_, e4.trans p1, e5.trans p2, e6.trans p3, e7.trans p4⟩
        · rw [e2, hput.2, p2, hdl, hp]; simp
        · rw [e3, hput.1, hput.2, p2, hdl, hp, taken]
          have : b = ((x :: xs).map conv).take s.bufCap := by rw [hb, List.map_take]
          rw [← this, List.map_drop]
          simp

theorem taken_all (take : Nat → Nat → Nat) (ht : All take) (i : Nat) (ps : List Nat) (xs : List β)
    (h : ps.sum = xs.length) : taken take i ps xs = xs := by
  induction ps generalizing i xs with
  | nil =>
    have : xs = [] := List.length_eq_zero_iff.mp (by simpa using h.symm)
    simp [taken, this]
  | cons p ps ih =>
    simp only [List.sum_cons] at h
    rw [taken, ih _ _ (by rw [List.length_drop]; omega), List.take_of_length_le (i := take i p)
      (by rw [List.length_take]; exact Nat.le_trans (Nat.min_le_left _ _) (ht i p)), List.take_append_drop]

theorem pieces_ok (cap n r : Nat) (hc : 0 < cap) (h : n ≤ r) :
    (pieces cap r n).sum = n ∧ (∀ p ∈ pieces cap r n, 0 < p ∧ p ≤ cap) ∧
    (pieces cap r n).length = (n + cap - 1) / cap := by
  induction r generalizing n with
  | zero =>
    have : n = 0 := by omega
    subst this
    refine ⟨rfl, by simp [pieces], ?_⟩
    rw [pieces, Nat.zero_add, Nat.div_eq_of_lt (by omega)]; rfl
  | succ r ih =>
    rw [pieces]
    by_cases h0 : n = 0
    · subst h0
      rw [if_pos rfl]
      refine ⟨rfl, by simp, ?_⟩
      rw [Nat.zero_add, Nat.div_eq_of_lt (by omega)]; rfl
    · rw [if_neg h0]
      by_cases h1 : n < cap
      · rw [if_pos h1]
        refine ⟨by simp, by simp; omega, ?_⟩
        have : n + cap - 1 = (n - 1) + cap := by omega
        rw [this, Nat.add_div_right _ hc, Nat.div_eq_of_lt (by omega)]; rfl
      · rw [if_neg h1]
        obtain ⟨i1, i2, i3⟩ := ih (n - cap) (by omega)
        refine ⟨by rw [List.sum_cons, i1]; omega, ?_, ?_⟩
        · intro p hp
          rcases List.mem_cons.mp hp with rfl | hp
          · exact ⟨hc, Nat.le_refl _⟩
          · exact i2 p hp
        · rw [List.length_cons, i3]
          have : n + cap - 1 = (n - cap + cap - 1) + cap := by omega
          rw [this, Nat.add_div_right _ hc]

/-- A sink that was opened. -/
structure Sox.Ready (s : Sox β) : Prop where
  valid : s.valid = true
  opened : s.opened = true
  cap : 0 < s.bufCap
  buf : s.bufLen = s.bufCap

theorem write_eq (conv : α → β) (take : Nat → Nat → Nat) (rounds : Nat) (s : Sox β) (hs : s.Ready)
    (xs : List α) (hr : xs.length ≤ rounds) :
    ∃ s', s.write conv take rounds xs = .done s' ∧ s'.Ready ∧
      s'.calls = s.calls ++ pieces s.bufCap rounds xs.length ∧
      s'.file = s.file ++ taken take s.calls.length (pieces s.bufCap rounds xs.length) (xs.map conv) ∧
      s'.bufCap = s.bufCap := by
  obtain ⟨s', buf, e1, e2, e3, e4, e5, e6, e7⟩ := loop_eq conv take rounds s xs hs.cap hr
  obtain ⟨p1, p2, p3, p4⟩ := put_same s' take buf
  refine ⟨s'.put take buf, ?_, ⟨?_, ?_, ?_, ?_⟩, e2, e3, p2.trans e5⟩
  · rw [Sox.write, hs.valid, e1]; rfl
  · rw [p1, e4, hs.valid]
  · rw [p4, e7, hs.opened]
  · rw [p2, e5]; exact hs.cap
  · rw [p3, p2, e6, e5, hs.buf]

/-- **C125 (SoX).** While SoX takes what it is given, frames of any sizes written to an opened sink are
in the output completely: the output is what was there before, followed by all samples of all frames
in order, each converted and present once. A frame is in the output as soon as its `write` returns.
Every call of `sox_write` is given at least one sample and at most as many as the buffer holds; for a
frame of `n` samples there are `⌈n / buffer⌉` calls, and the buffer is not accessed beyond its end. -/
theorem C125_sox (conv : α → β) (take : Nat → Nat → Nat) (ht : All take) (rounds : Nat) (s : Sox β)
    (hs : s.Ready) (fs : List (List α)) (hr : ∀ f ∈ fs, f.length ≤ rounds) :
    ∃ s', s.writes conv take rounds fs = .done s' ∧ s'.Ready ∧
      s'.file = s.file ++ (fs.flatten).map conv ∧
      (∃ cs, s'.calls = s.calls ++ cs ∧ (∀ p ∈ cs, 0 < p ∧ p ≤ s.bufLen) ∧
        cs.length = (fs.map (fun f => (f.length + s.bufCap - 1) / s.bufCap)).sum) := by
  induction fs generalizing s with
  | nil => exact ⟨s, rfl, hs, by simp, [], by simp, by simp, by simp⟩
  | cons f fs ih =>
    have hl := hr f List.mem_cons_self
    obtain ⟨s1, w1, w2, w3, w4, w5⟩ := write_eq conv take rounds s hs f hl
    obtain ⟨q1, q2, q3⟩ := pieces_ok s.bufCap f.length rounds hs.cap hl
    obtain ⟨s2, i1, i2, i3, cs, i4, i5, i6⟩ := ih s1 w2 (fun g hg => hr g (List.mem_cons_of_mem _ hg))
    refine ⟨s2, by rw [Sox.writes, w1]; exact i1, i2, ?_, pieces s.bufCap rounds f.length ++ cs, ?_, ?_, ?_⟩
    · rw [i3, w4, taken_all take ht _ _ _ (by rw [q1, List.length_map])]
      simp
    · rw [i4, w3, List.append_assoc]
    · intro p hp
      rcases List.mem_append.mp hp with hp | hp
      · rw [hs.buf]; exact q2 p hp
      · have := i5 p hp
        rw [w2.buf, w5, ← hs.buf] at this; exact this
    · rw [List.length_append, q3, i6, w5]; simp

/-- **C125 (SoX, what fails).** A sample that SoX does not take (a full disk) is lost without notice:
`write` returns as usual, and the next frame follows directly after the part that was taken. -/
theorem C125_sox_short_fails (conv : α → β) (take : Nat → Nat → Nat) (rounds : Nat) (s : Sox β)
    (hs : s.Ready) (f g : List α) (hf : 0 < f.length) (hf' : f.length < s.bufCap)
    (hg : 0 < g.length) (hg' : g.length < s.bufCap) (hr : f.length ≤ rounds ∧ g.length ≤ rounds)
    (k : Nat) (hk : take s.calls.length f.length = k) (hk' : k < f.length)
    (h2 : take (s.calls.length + 1) g.length = g.length) :
    ∃ s', s.writes conv take rounds [f, g] = .done s' ∧
      s'.file = s.file ++ (f.take k ++ g).map conv ∧
      ∀ fs : List α, s'.file = s.file ++ fs.map conv → fs.length < (f ++ g).length := by
  have one : ∀ n, 0 < n → n < s.bufCap → n ≤ rounds → pieces s.bufCap rounds n = [n] := by
    intro n h0 h1 h2
    obtain ⟨r, rfl⟩ : ∃ r, rounds = r + 1 := ⟨rounds - 1, by omega⟩
    rw [pieces, if_neg (by omega), if_pos h1]
  obtain ⟨s1, w1, w2, w3, w4, w5⟩ := write_eq conv take rounds s hs f hr.1
  obtain ⟨s2, v1, v2, v3, v4, v5⟩ := write_eq conv take rounds s1 w2 g hr.2
  rw [one _ hf hf' hr.1] at w3 w4
  rw [w5, one _ hg hg' hr.2] at v3 v4
  have hfile : s2.file = s.file ++ (f.take k ++ g).map conv := by
    have hlen : s1.calls.length = s.calls.length + 1 := by rw [w3]; simp
    rw [v4, w4, hlen]
    simp only [taken, List.append_nil]
    rw [hk, h2, List.take_of_length_le (l := f.map conv) (by simp),
      List.take_of_length_le (l := g.map conv) (by simp), List.take_of_length_le (l := g.map conv) (by simp),
      List.map_append, List.map_take, List.append_assoc]
  refine ⟨s2, by rw [Sox.writes, w1]; simp only; rw [Sox.writes, v1]; rfl, hfile, ?_⟩
  intro fs h
  rw [hfile] at h
  have := congrArg List.length h
  simp only [List.length_append, List.length_map, List.length_take] at this
  simp only [List.length_append]
  omega

/-- **C125 (SoX, open).** For a configuration with no latency, a format that is raw or not given, and a
frame length that is not zero: opening succeeds iff the output opens, has the rate and channels asked for (44100 Hz for files and two channels if they were
not asked for), has less than 1024 channels, and one frame has at least one sample, for which there is
memory. Then the sink is ready, reports rate and channels of the output, and its buffer holds one
frame. -/
theorem C125_sox_open (c : Config) (file : Bool) (o : Output) (alloc : Nat → Bool) (n : Int)
    (hv : c.latency = 0 ∧ c.raw = true ∧ c.frameLen ≠ 0) (hc : o.chans < 1024)
    (hn : SampleTime.nsToSamplesOverall o.rate o.chans c.frameLen = some n) :
    ∃ s' : Sox β, ∃ ok, (Sox.new (β := β) c file).open (some o) alloc = .done (s', ok) ∧
      (ok = true ↔ ((c.rate ≠ 0 → o.rate = c.rate) ∧ (c.rate = 0 → file = true → o.rate = 44100) ∧
        o.chans = (if c.chans = 0 then 2 else c.chans) ∧ 0 < n ∧ alloc n.toNat = true)) ∧
      (ok = true → s'.Ready ∧ s'.rate = o.rate ∧ s'.chans = o.chans ∧ (s'.bufCap : Int) = n ∧
        s'.isFile = !o.device ∧ s'.file = []) := by
  obtain ⟨h1, h2, h3⟩ := hv
  have hcn : (if c.chans = 0 then 2 else c.chans) ≠ 0 := by split <;> omega
  set ch := (if c.chans = 0 then 2 else c.chans) with hch
  set rt := (if c.rate = 0 ∧ file = true then 44100 else c.rate) with hrt
  have hrate : ((c.rate ≠ 0 → o.rate = c.rate) ∧ (c.rate = 0 → file = true → o.rate = 44100)) ↔
      ¬ (rt ≠ 0 ∧ rt ≠ o.rate) := by
    rw [hrt]
    by_cases h0 : c.rate = 0
    · cases file <;> simp [h0, eq_comm]
    · simp [h0, eq_comm]
  have hnew : Sox.new (β := β) c file = ⟨true, rt, ch, rt, ch, c.frameLen, false, false, 0, 0, [], []⟩ := by
    simp only [Sox.new, ← hch, ← hrt, h1, h2]
    simp [h3]
  rw [hnew, Sox.open, if_neg (by simp), if_neg (by simp), Sox.openOutput]
  simp only
  by_cases hr : rt ≠ 0 ∧ rt ≠ o.rate
  · rw [if_pos hr]
    refine ⟨_, false, rfl, ⟨fun h => (by cases h), fun h => absurd hr (hrate.mp ⟨h.1, h.2.1⟩)⟩, fun h => (by cases h)⟩
  · rw [if_neg hr]
    have hr' := hrate.mpr hr
    by_cases hk : ch ≠ 0 ∧ ch ≠ o.chans
    · rw [if_pos hk]
      exact ⟨_, false, rfl, ⟨fun h => (by cases h), fun h => absurd h.2.2.1.symm hk.2⟩, fun h => (by cases h)⟩
    · rw [if_neg hk, if_neg (by omega)]
      have hk' : o.chans = ch := by
        by_contra hne
        exact hk ⟨hcn, fun h => hne h.symm⟩
      simp only [Sox.setupBuffer, hn]
      by_cases hz : n.toNat = 0
      · rw [if_pos hz]
        exact ⟨_, false, rfl, ⟨fun h => (by cases h), fun h => absurd h.2.2.2.1 (by omega)⟩, fun h => (by cases h)⟩
      · rw [if_neg hz]
        cases ha : alloc n.toNat with
        | false =>
          rw [if_pos (by rfl)]
          exact ⟨_, false, rfl, ⟨fun h => (by cases h), fun h => (by simp at h)⟩, fun h => (by cases h)⟩
        | true =>
          rw [if_neg (by simp)]
          refine ⟨_, true, rfl, ⟨fun _ => ⟨hr'.1, hr'.2, hk', by omega, rfl⟩, fun _ => rfl⟩, fun _ =>
            ⟨⟨rfl, rfl, by simp only; omega, rfl⟩, rfl, rfl, by simp only; omega, rfl, rfl⟩⟩

/-- **C125 (SoX, what fails).** A sink whose output was opened but not accepted can not be opened again,
but aborts; and a sink that is not ready because its buffer is empty takes no frame: `write` never
returns, however long it runs. -/
theorem C125_sox_again_fails (s : Sox β) (o o' : Option Output) (alloc alloc' : Nat → Bool) (s' : Sox β)
    (b : Bool) (h : s.open o alloc = .done (s', b)) (ho : o ≠ none) :
    s'.open o' alloc' = .abort ∧
    (s'.bufCap = 0 → ∀ (conv : α → β) take rounds x xs, s'.write conv take rounds (x :: xs) = .hang) := by
  obtain ⟨o, rfl⟩ := Option.ne_none_iff_exists'.mp ho
  have hv : s.valid = true := by
    cases hv : s.valid with
    | true => rfl
    | false => rw [Sox.open, hv] at h; cases h
  have key : s'.opened = true ∧ s'.valid = true := by
    rw [Sox.open, hv, if_neg (by simp)] at h
    by_cases h1 : s.bufLen ≠ 0 ∨ s.opened = true
    · rw [if_pos h1] at h; cases h
    rw [if_neg h1, Sox.openOutput] at h
    simp only at h
    by_cases h2 : s.sigRate ≠ 0 ∧ s.sigRate ≠ o.rate
    · rw [if_pos h2] at h; cases h; exact ⟨rfl, hv⟩
    rw [if_neg h2] at h
    by_cases h3 : s.sigChans ≠ 0 ∧ s.sigChans ≠ o.chans
    · rw [if_pos h3] at h; cases h; exact ⟨rfl, hv⟩
    rw [if_neg h3] at h
    by_cases h4 : o.chans ≥ 1024
    · rw [if_pos h4] at h; cases h
    rw [if_neg h4] at h
    simp only [Sox.setupBuffer] at h
    cases hn : SampleTime.nsToSamplesOverall o.rate o.chans s.frameLen with
    | none => rw [hn] at h; cases h
    | some n =>
      rw [hn] at h
      simp only at h
      by_cases h5 : n.toNat = 0
      · rw [if_pos h5] at h; cases h; exact ⟨rfl, hv⟩
      rw [if_neg h5] at h
      by_cases h6 : (!alloc n.toNat) = true
      · rw [if_pos h6] at h; cases h; exact ⟨rfl, hv⟩
      rw [if_neg h6] at h; cases h; exact ⟨rfl, hv⟩
  constructor
  · rw [Sox.open, key.1, key.2]; simp
  · intro hc conv take rounds x xs
    have : Sox.loop conv take rounds s' [] (x :: xs) = none := by
      induction rounds with
      | zero => rfl
      | succ n ih =>
        rw [Sox.loop, hc]
        have : fill conv 0 ([] : List β) (x :: xs) = ([], x :: xs) := by simp [fill]
        rw [this]
        simp only [List.length_nil, if_true]
        rw [show s'.put take [] = s' from rfl]
        exact ih
    rw [Sox.write, key.2, this]; simp

/-- **C125 (libsndfile).** A new sink that is opened successfully writes the major format that belongs to
the driver or, if no driver is given, to the extension of the path, in the best sub-format that
libsndfile accepts with it: 32 bit, 24 bit, 16 bit, or 16-bit DPCM. It reports the rate of the file. -/
theorem C125_snd_open (c : Config) (e : SndEnv) (driver : Option (List Pct.Byte)) (path : List Pct.Byte)
    (s : Snd α) (h : (Snd.new (α := α) c).open e driver (some path) = .done (s, true)) :
    c.latency = 0 ∧ ∃ m sub, Backends.mapToSndfile e.majors driver path = some m ∧ s.format = m ||| sub ∧
      e.check (m ||| sub) = true ∧ e.opens (m ||| sub) = some s.rate ∧ s.opened = true ∧ s.file = [] ∧
      ((sub = pcm32) ∨ (sub = pcm24 ∧ e.check (m ||| pcm32) = false) ∨
       (sub = pcm16 ∧ e.check (m ||| pcm32) = false ∧ e.check (m ||| pcm24) = false) ∨
       (sub = dpcm16 ∧ e.check (m ||| pcm32) = false ∧ e.check (m ||| pcm24) = false ∧
         e.check (m ||| pcm16) = false)) := by
  by_cases hl : c.latency = 0
  · refine ⟨hl, ?_⟩
    simp only [Snd.new, hl, ne_eq, not_true_eq_false, if_false, Snd.open, Bool.not_true,
      Bool.false_eq_true] at h
    cases hm : Backends.mapToSndfile e.majors driver path with
    | none => rw [hm] at h; simp [mapFormat] at h
    | some m =>
      rw [hm] at h
      have fin : ∀ f : Nat, ∀ s0 : Snd α, s0.file = [] → (match e.opens f with
          | none => Ret.done ({ s0 with format := f }, false)
          | some rate =>
            if !e.header then .done ({ s0 with format := f, opened := true }, false)
            else .done ({ s0 with format := f, opened := true, rate := rate }, true)) = Ret.done (s, true) →
          s.format = f ∧ e.opens f = some s.rate ∧ s.opened = true ∧ s.file = [] := by
        intro f s0 h0 hx
        cases ho : e.opens f with
        | none => rw [ho] at hx; cases hx
        | some rate =>
          rw [ho] at hx
          simp only at hx
          cases hh : e.header with
          | false => rw [hh] at hx; cases hx
          | true => rw [hh] at hx; cases hx; exact ⟨rfl, rfl, rfl, h0⟩
      cases c1 : e.check (m ||| pcm32) with
      | true =>
        simp only [mapFormat, c1, if_true] at h
        obtain ⟨f1, f2, f3, f4⟩ := fin _ ⟨true, pcm32, if c.chans = 0 then 2 else c.chans, if c.rate = 0 then 44100 else c.rate, false, []⟩ rfl h
        exact ⟨m, pcm32, rfl, f1, c1, f2, f3, f4, Or.inl rfl⟩
      | false =>
        cases c2 : e.check (m ||| pcm24) with
        | true =>
          simp only [mapFormat, subFormat, c1, c2, if_true, Bool.false_eq_true, if_false] at h
          obtain ⟨f1, f2, f3, f4⟩ := fin _ ⟨true, pcm32, if c.chans = 0 then 2 else c.chans, if c.rate = 0 then 44100 else c.rate, false, []⟩ rfl h
          exact ⟨m, pcm24, rfl, f1, c2, f2, f3, f4, Or.inr (Or.inl ⟨rfl, c1⟩)⟩
        | false =>
          cases c3 : e.check (m ||| pcm16) with
          | true =>
            simp only [mapFormat, subFormat, c1, c2, c3, if_true, Bool.false_eq_true, if_false] at h
            obtain ⟨f1, f2, f3, f4⟩ := fin _ ⟨true, pcm32, if c.chans = 0 then 2 else c.chans, if c.rate = 0 then 44100 else c.rate, false, []⟩ rfl h
            exact ⟨m, pcm16, rfl, f1, c3, f2, f3, f4, Or.inr (Or.inr (Or.inl ⟨rfl, c1, c2⟩))⟩
          | false =>
            cases c4 : e.check (m ||| dpcm16) with
            | true =>
              simp only [mapFormat, subFormat, c1, c2, c3, c4, if_true, Bool.false_eq_true, if_false] at h
              obtain ⟨f1, f2, f3, f4⟩ := fin _ ⟨true, pcm32, if c.chans = 0 then 2 else c.chans, if c.rate = 0 then 44100 else c.rate, false, []⟩ rfl h
              exact ⟨m, dpcm16, rfl, f1, c4, f2, f3, f4, Or.inr (Or.inr (Or.inr ⟨rfl, c1, c2, c3⟩))⟩
            | false =>
              simp only [mapFormat, subFormat, c1, c2, c3, c4, Bool.false_eq_true, if_false] at h
              cases h
  · simp [Snd.new, hl, Snd.open] at h

/-- **C125 (libsndfile, converse).** If a major format is found, libsndfile accepts one of the
sub-formats, and opens the file, then the sink opens. -/
theorem C125_snd_opens (c : Config) (e : SndEnv) (driver : Option (List Pct.Byte)) (path : List Pct.Byte)
    (hl : c.latency = 0) (m : Nat) (hm : Backends.mapToSndfile e.majors driver path = some m)
    (hs : ∃ sub ∈ [pcm32, pcm24, pcm16, dpcm16], e.check (m ||| sub) = true)
    (ho : ∀ f, e.check f = true → e.opens f ≠ none) (hh : e.header = true) :
    ∃ s : Snd α, (Snd.new (α := α) c).open e driver (some path) = .done (s, true) := by
  have fin : ∃ f, mapFormat e.check pcm32 (some m) = (f, true) ∧ e.check f = true := by
    simp only [mapFormat, subFormat]
    by_cases c1 : e.check (m ||| pcm32) = true
    · exact ⟨_, by rw [if_pos c1], c1⟩
    by_cases c2 : e.check (m ||| pcm24) = true
    · exact ⟨_, by rw [if_neg c1, if_pos c2], c2⟩
    by_cases c3 : e.check (m ||| pcm16) = true
    · exact ⟨_, by rw [if_neg c1, if_neg c2, if_pos c3], c3⟩
    by_cases c4 : e.check (m ||| dpcm16) = true
    · exact ⟨_, by rw [if_neg c1, if_neg c2, if_neg c3, if_pos c4], c4⟩
    · obtain ⟨sub, hsub, hc⟩ := hs
      simp only [List.mem_cons, List.not_mem_nil, or_false] at hsub
      rcases hsub with rfl | rfl | rfl | rfl <;> contradiction
  obtain ⟨f, f1, f2⟩ := fin
  obtain ⟨rate, hr⟩ := Option.ne_none_iff_exists'.mp (ho f f2)
  simp [Snd.new, hl, Snd.open, hm, f1, hr, hh]

/-- **C125 (libsndfile, write).** A frame written to an opened sink is either in the file completely,
after everything written before, or the process aborts; nothing is lost without notice. -/
theorem C125_snd_write (s : Snd α) (hs : s.opened = true) (take : Nat → Nat) (err : Bool) (f : List α) :
    (take f.length = f.length ∧ err = false →
      ∃ s', s.write true take err f = .done s' ∧ s'.file = s.file ++ f ∧ s'.opened = true) ∧
    (¬ (take f.length = f.length ∧ err = false) → s.write true take err f = .abort) := by
  constructor
  · rintro ⟨h1, h2⟩
    exact ⟨{ s with file := s.file ++ f }, by simp [Snd.write, hs, h1, h2], rfl, hs⟩
  · intro h
    have : take f.length ≠ f.length ∨ err = true := by
      by_cases ht : take f.length = f.length
      · cases err with
        | true => exact Or.inr rfl
        | false => exact absurd ⟨ht, rfl⟩ h
      · exact Or.inl ht
    simp [Snd.write, hs, this]

/-- **C125 (libsndfile, what fails).** A sink can be created and opened although the user asked for a
format other than raw, but then the first frame in that format aborts. A path without an extension can
not be opened even if a driver is given that says all about the format. And if an attempt to open fails,
bits of the formats that were tried stay: the next attempt with the same object starts from them instead
of 32 bit. -/
theorem C125_snd_fails (c : Config) (e : SndEnv) (driver : Option (List Pct.Byte)) (path : List Pct.Byte)
    (hl : c.latency = 0) :
    (Snd.new (α := α) { c with raw := false }) = Snd.new { c with raw := true } ∧
    (∀ s : Snd α, ∀ take err f, s.write false take err f = .abort) ∧
    (Backends.extension path = none →
      ∃ s, (Snd.new (α := α) c).open e driver (some path) = .done (s, false)) ∧
    (∀ m, Backends.mapToSndfile e.majors driver path = some m →
      (∀ sub ∈ [pcm32, pcm24, pcm16, dpcm16], e.check (m ||| sub) = false) →
      ∃ s, (Snd.new (α := α) c).open e driver (some path) = .done (s, false) ∧
        s.format = m ||| dpcm16 ∧
        ∀ e' driver' path' m', Backends.mapToSndfile e'.majors driver' path' = some m' →
          e'.check (m' ||| (m ||| dpcm16)) = true → e'.opens (m' ||| (m ||| dpcm16)) ≠ none →
          e'.header = true → ∃ s', s.open e' driver' (some path') = .done (s', true) ∧
            s'.format = m' ||| (m ||| dpcm16)) := by
  refine ⟨rfl, fun s take err f => ?_, fun h => ?_, fun m hm hs => ?_⟩
  · unfold Snd.write; cases s.opened <;> rfl
  · have : Backends.mapToSndfile e.majors driver path = none := by simp [Backends.mapToSndfile, h]
    exact ⟨Snd.new c, by simp [Snd.new, hl, Snd.open, this, mapFormat]⟩
  · have c1 := hs pcm32 (by simp)
    have c2 := hs pcm24 (by simp)
    have c3 := hs pcm16 (by simp)
    have c4 := hs dpcm16 (by simp)
    refine ⟨{ (Snd.new c : Snd α) with format := m ||| dpcm16 }, ?_, rfl, ?_⟩
    · simp [Snd.new, hl, Snd.open, hm, mapFormat, subFormat, c1, c2, c3, c4]
    · intro e' d' p' m' hm' hc ho hh
      obtain ⟨rate, hr⟩ := Option.ne_none_iff_exists'.mp ho
      refine ⟨_, by simp [Snd.new, hl, Snd.open, hm', mapFormat, hc, hr, hh]; rfl, rfl⟩

/-! ### Concrete cases -/

/-- Frames of 7, 3 and 0 samples with a buffer of 3 samples. -/
def exSox : Sox Nat := ⟨true, 44100, 2, 44100, 2, 1, true, true, 3, 3, [], []⟩

example : (match exSox.writes (· + 100) (fun _ n => n) 10 [[1, 2, 3, 4, 5, 6, 7], [8, 9, 10], []] with
    | .done s => some (s.file, s.calls)
    | _ => none)
    = some ([101, 102, 103, 104, 105, 106, 107, 108, 109, 110], [3, 3, 1, 3]) := by decide

example : exSox.Ready ∧ All (fun _ n => n) ∧
    ∀ f ∈ [[1, 2, 3, 4, 5, 6, 7], [8, 9, 10], []], f.length ≤ 10 :=
  ⟨⟨rfl, rfl, by decide, rfl⟩, fun _ _ => Nat.le_refl _, by decide⟩

/-- The second of two samples of a frame is lost. -/
example : (match exSox.writes (· + 100) (fun i n => if i = 0 then 1 else n) 10 [[1, 2], [3, 4]] with
    | .done s => some s.file
    | _ => none) = some [101, 103, 104] := by decide

example : SampleTime.nsToSamplesOverall 44100 2 10000000 = some 882 := by decide +kernel

/-- A configuration with defaults opens a file of 44100 Hz and two channels, but not one of 48000 Hz. -/
example : (match (Sox.new (β := Nat) ⟨0, 10000000, 0, 0, true⟩ true).open (some ⟨44100, 2, false⟩) (fun _ => true),
      (Sox.new (β := Nat) ⟨0, 10000000, 0, 0, true⟩ true).open (some ⟨48000, 2, false⟩) (fun _ => true) with
    | .done (s, a), .done (_, b) => some (a, s.bufCap, b)
    | _, _ => none) = some (true, 882, false) := by decide +kernel

/-- Formats accepted by a library that knows 16 bit with the major format of "wav" only. -/
def exEnv : SndEnv := ⟨[], fun f => f == 0x010002, fun _ => some 48000, true⟩

example : (Snd.new (α := Nat) ⟨0, 1, 48000, 2, true⟩).open exEnv none (some (IoUri.str "a.wav"))
    = .done (⟨true, 0x010002, 2, 48000, true, []⟩, true) := by decide +kernel

/-- No extension, although the driver is given; and another driver that is tried and fails. -/
example : (Snd.new (α := Nat) ⟨0, 1, 48000, 2, true⟩).open exEnv (some (IoUri.str "wav"))
      (some (IoUri.str "out")) = .done (⟨true, pcm32, 2, 48000, false, []⟩, false) ∧
    (Snd.new (α := Nat) ⟨0, 1, 48000, 2, true⟩).open exEnv (some (IoUri.str "nist"))
      (some (IoUri.str "out.x")) = .done (⟨true, 0x070051, 2, 48000, false, []⟩, false) := by
  decide +kernel

end Verif.FileSink
