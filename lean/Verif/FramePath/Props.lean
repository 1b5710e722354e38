import Verif.FramePath.Lemmas
import Verif.SampleTime.Props

/-!
# C120: frames between the API and the pipeline

For all buffers, sample specifications, task scheduling settings, and pipelines below.
-/

namespace Verif.FramePath

/-- Configuration of a sender or receiver that was opened with the API (public_api/src/adapters.cpp:105-107): samples are floats,
there is at least one channel, duration and timestamps are set automatically; conversion to nanoseconds is that of C78. -/
structure Conf.Api (c : Conf) : Prop where
  width : c.width = 4
  chans : 1 ≤ c.chans
  ns : ∀ n, 0 ≤ c.ns n
  ns0 : c.ns 0 = 0
  autoDur : c.autoDur = true
  autoCts : c.autoCts = true

/-- The conversion of C78 is as required by `Conf.Api`. -/
theorem ns_fine (rate : Nat) (h1 : 1 ≤ rate) (h2 : rate ≤ 2 ^ 20) :
    (∀ n, 0 ≤ SampleTime.streamTsToNs rate n) ∧ SampleTime.streamTsToNs rate 0 = 0 := by
  have h0 : SampleTime.streamTsToNs rate 0 = 0 := by
    have := SampleTime.samplesToNs_zero rate h1 h2
    simpa [SampleTime.streamTsToNs] using this
  exact ⟨fun n => h0 ▸ SampleTime.C78_duration_monotone rate h1 0 n (Nat.zero_le n), h0⟩

/-- Durations of the frames that the pipeline below gets for a frame of `d` samples per channel. -/
def Conf.parts (c : Conf) (d : Nat) : List Nat := if c.precise then chunks d c.maxSub else [d]

/-- The pipeline below only looks at frames. -/
def Pipe.Sink {σ α : Type} (p : Pipe σ α) : Prop := ∀ s f, (p.imp s f).2 = (f, true)

theorem ticks_bytes {c : Conf} (hw : 1 ≤ c.width) (hc : 1 ≤ c.chans) (d : Nat) : c.ticks (c.bytes d) = d % 2 ^ 32 := by
  unfold Conf.ticks Conf.bytes
  rw [Nat.mul_assoc, Nat.mul_comm c.width, ← Nat.mul_assoc, Nat.mul_div_cancel _ hw, Nat.mul_div_cancel _ hc]

theorem orAll_zero : ∀ l : List Nat, (∀ x ∈ l, x = 0) → orAll 0 l = 0
  | [], _ => rfl
  | x :: l, h => by
    rw [orAll, h x List.mem_cons_self]
    exact orAll_zero l fun y hy => h y (List.mem_cons_of_mem _ hy)

theorem flagsBefore_self : ∀ (l : List Nat) (x : Nat), l = flagsBefore x l → ∀ y ∈ l, y = x
  | [], _, _ => by simp
  | z :: l, x, h => by
    rw [flagsBefore] at h
    simp only [List.cons.injEq] at h
    obtain ⟨rfl, h⟩ := h
    rw [Nat.or_self] at h
    intro y hy
    rcases List.mem_cons.1 hy with rfl | hy
    · rfl
    · exact flagsBefore_self l _ h y hy

/-- One write of `d` samples per channel: what the pipeline below gets. -/
theorem write_ran {σ α : Type} (c : Conf) (hc : c.Api) (p : Pipe σ α) (hp : p.Sink) (now : Int) (hn : 0 < now) (ticks : Nat) (s : σ)
    (b : List α) (d : Nat) (hd : 0 < d % 2 ^ 32) (hb : b.length = c.bytes d) (hm : c.precise = true ∨ d < 2 ^ 32) :
    ∃ o : Done σ α, write c p now ticks s (Frame.new b) = .ok o
      ∧ o.out.given.map (·.dur) = c.parts (d % 2 ^ 32)
      ∧ (o.out.given.map (·.bytes)).flatten = b.take (c.bytes (d % 2 ^ 32))
      ∧ o.out.given.map (·.cts) = (starts 0 (c.parts (d % 2 ^ 32))).map (fun q => now + c.ns q)
      ∧ (∀ g ∈ o.out.given, g.flags = 0 ∧ g.bytes.length = c.bytes g.dur)
      ∧ o.out.frame = ⟨b, 0, d % 2 ^ 32, now⟩
      ∧ o.wait = (if c.timing then some ticks else none) ∧ o.ticks = (if c.timing then ticks + d % 2 ^ 32 else ticks) := by
  have ht : c.ticks (Frame.new b).bytes.length = d % 2 ^ 32 := by
    rw [show (Frame.new b).bytes = b from rfl, hb]; exact ticks_bytes (by rw [hc.width]; omega) hc.chans d
  unfold write
  rw [ht]
  simp only [hc.autoDur, hc.autoCts, true_and, if_true]
  rw [if_neg (by simp [Frame.new]), if_neg (by omega), if_neg (by simp [Frame.new]), if_neg (by omega), if_neg (by simp; omega)]
  have hf : ({ bytes := (Frame.new b).bytes, flags := (Frame.new b).flags, dur := d % 2 ^ 32, cts := now } : Frame α)
      = ⟨b, 0, d % 2 ^ 32, now⟩ := rfl
  rw [hf]
  unfold process
  by_cases hpr : c.precise = true
  · rw [if_pos hpr]
    simp only
    rw [if_pos (by omega)]
    have hfine : p.Fine := ⟨fun s f => by rw [hp s f], fun s f h => by rw [hp s f]; exact h⟩
    have hle : c.bytes (d % 2 ^ 32) ≤ b.length := by rw [hb]; exact bytes_le c (Nat.mod_le _ _)
    obtain ⟨o, ho, hr⟩ := loop_ran c p hfine hc.ns (d % 2 ^ 32) (d % 2 ^ 32 + 1) s ⟨b, 0, d % 2 ^ 32, now⟩ 0 hd (by omega)
      hle (by simp only; omega) (fun _ => rfl)
    have hok : o.ok = true := hr.good fun s g => by rw [hp s g]
    have hsame : o.left = o.given := hr.same fun s g => by rw [hp s g]
    have hdur := hr.all hok
    rw [Nat.sub_zero] at hdur
    have hfl : ∀ y ∈ o.given.map (·.flags), y = 0 := by
      have := hr.gfl
      rw [hsame] at this
      exact flagsBefore_self _ _ this
    have hold := hr.old
    rw [hdur, chunks_sum] at hold
    have hb0 : c.bytes 0 = 0 := by simp [Conf.bytes]
    rw [hb0, List.drop_zero] at hold
    have hcts : o.frame.cts = now := by
      have h1 := hr.cts.2 rfl
      rw [hsame] at h1
      have h2 := hr.gcts
      cases hg : o.given with
      | nil => exact absurd hg hr.ne
      | cons g gs =>
        rw [hg] at h1 h2
        simp only [List.map_cons, List.head?_cons, Option.some.injEq] at h1
        simp only [List.map_cons, starts, List.map_cons, List.cons.injEq, if_true] at h2
        rw [h1, h2.1, if_pos (by omega), hc.ns0]; omega
    simp only [ho]
    refine ⟨_, rfl, ?_, hold, ?_, ?_, ?_, rfl, rfl⟩
    · simp only [Conf.parts, hpr, if_true]; exact hdur
    · simp only [Conf.parts, hpr, if_true]
      rw [hr.gcts, hdur]
      apply List.map_congr_left
      intro q _
      simp only [hcts]
      rw [if_pos]
      · split <;> rfl
      · split <;> omega
    · intro g hg
      refine ⟨hfl g.flags (List.mem_map.2 ⟨g, hg, rfl⟩), ?_⟩
      have := hr.lens
      rw [hsame] at this
      exact (List.map_inj_left.1 this) g hg
    · have h1 := hr.bytes
      rw [hsame] at h1
      simp only [hb0, List.take_zero, List.nil_append, Nat.zero_add, hdur, chunks_sum, hold, List.take_append_drop] at h1
      have h2 := hr.flags
      rw [hsame] at h2
      simp only at h2
      rw [orAll_zero _ hfl] at h2
      have h3 := hr.dur
      rw [hdur, chunks_sum, Nat.zero_add] at h3
      rcases hf' : o.frame with ⟨x1, x2, x3, x4⟩
      simp only [hf'] at h1 h2 h3 hcts
      rw [h1, h2, h3, hcts]
  · have hlt : d < 2 ^ 32 := by rcases hm with h | h; · exact absurd h hpr
                                · exact h
    rw [if_neg hpr]
    simp only [hp s]
    have hmod : d % 2 ^ 32 = d := Nat.mod_eq_of_lt hlt
    refine ⟨_, rfl, ?_, ?_, ?_, ?_, rfl, rfl, rfl⟩
    · simp [Conf.parts, hpr]
    · simp only [List.map_cons, List.map_nil, List.flatten_cons, List.flatten_nil, List.append_nil]
      rw [hmod, List.take_of_length_le (by rw [hb])]
    · simp [Conf.parts, hpr, starts, hc.ns0]
    · intro g hg
      simp only [List.mem_singleton] at hg
      subst hg
      simp only [hmod]
      exact ⟨trivial, hb⟩

/-- **C120 (refused)**: `roc_sender_write` and `roc_receiver_read` refuse NULL and sizes that are not whole samples for all
channels, without touching the pipeline; zero size does nothing; everything else goes to the pipeline. -/
theorem C120_refused {σ α : Type} (c : Conf) (p : Pipe σ α) (now : Int) (ticks : Nat) (s : σ) (frame : Option (Option (List α) × Nat)) :
    (apiWrite c p now ticks s frame = .ok .invalid ↔ apiRead c p ticks s frame = .ok .invalid)
    ∧ (apiWrite c p now ticks s frame = .ok .nothing ↔ apiRead c p ticks s frame = .ok .nothing)
    ∧ (apiWrite c p now ticks s frame = .ok .invalid ↔
      ∀ b n, frame = some (b, n) → n ≠ 0 ∧ (¬ c.chans * 4 ∣ n ∨ b = none))
    ∧ (apiWrite c p now ticks s frame = .ok .nothing ↔ ∃ b, frame = some (b, 0)) := by
  rcases frame with _ | ⟨b, n⟩
  · simp [apiWrite, apiRead]
  · have hne : ∀ {β : Type} (x : Except Err β) (y : Except Err β), (x.map Api.done ≠ .ok .invalid) ∧ x.map Api.done ≠ .ok .nothing := by
      intro β x y; cases x <;> simp [Except.map]
    simp only [apiWrite, apiRead, Nat.dvd_iff_mod_eq_zero, Option.some.injEq, Prod.mk.injEq]
    by_cases h0 : n = 0
    · simp [h0]
    · by_cases h1 : n % (c.chans * 4) = 0
      · cases b with
        | none => simp [h0, h1]
        | some b =>
          have w1 := hne (write c p now ticks s (Frame.new (b.take (n / 4 * 4)))) (.error .abort)
          have w2 := hne (read c p ticks s (Frame.new (b.take (n / 4 * 4)))) (.error .abort)
          simp [h0, h1, w1, w2]
      · simp [h0, h1]

/-- Buffers are written one after another, each at some time. -/
def writes {σ α : Type} (c : Conf) (p : Pipe σ α) : Nat → σ → List (Int × List α) → Option (List (Done σ α))
  | _, _, [] => some []
  | ticks, s, (now, b) :: l =>
    match apiWrite c p now ticks s (some (some b, b.length)) with
    | .ok (.done d) => (writes c p d.ticks d.out.st l).map (d :: ·)
    | _ => none

theorem bytes_div {c : Conf} (hc : c.Api) (d : Nat) : c.bytes d % (c.chans * 4) = 0 ∧ c.bytes d / 4 * 4 = c.bytes d := by
  unfold Conf.bytes
  rw [hc.width]
  constructor
  · rw [Nat.mul_assoc, Nat.mul_comm 4]; exact Nat.mul_mod_left _ _
  · rw [Nat.mul_right_comm, Nat.mul_div_cancel _ (by omega)]

theorem apiWrite_eq {σ α : Type} (c : Conf) (hc : c.Api) (p : Pipe σ α) (now : Int) (ticks : Nat) (s : σ)
    (b : List α) (d : Nat) (hd : 0 < d) (hb : b.length = c.bytes d) :
    apiWrite c p now ticks s (some (some b, b.length)) = (write c p now ticks s (Frame.new b)).map .done := by
  have h1 := bytes_div hc d
  have h2 : c.bytes d ≠ 0 := by
    unfold Conf.bytes; rw [hc.width]
    have := hc.chans
    exact Nat.ne_of_gt (Nat.mul_pos (by omega) this)
  unfold apiWrite
  simp only
  rw [hb, if_neg h2, if_neg (by rw [h1.1]; simp), h1.2, List.take_of_length_le (by omega)]

/-- **C120 (write)**: buffers of whole samples (fewer than 2^32 of them for each channel) are all accepted. The pipeline gets all samples in order, cut into
pieces that are not empty and, with precise scheduling, not longer than the limit; every piece has its duration, no flags, and the
time of its first sample, counted from the time of the call. With an internal clock, every buffer waits for as many ticks as there were
samples before. -/
theorem C120_write {σ α : Type} (c : Conf) (hc : c.Api) (p : Pipe σ α) (hp : p.Sink) (l : List (Int × List α × Nat))
    (hl : ∀ x ∈ l, 0 < x.1 ∧ x.2.1.length = x.2.2 * (c.chans * 4) ∧ 0 < x.2.2 ∧ x.2.2 < 2 ^ 32) (ticks : Nat) (s : σ) :
    ∃ ds, writes c p ticks s (l.map fun x => (x.1, x.2.1)) = some ds
      ∧ ds.map (fun d => (d.out.given.map (·.bytes)).flatten) = l.map (fun x => x.2.1)
      ∧ ds.map (fun d => d.out.given.map fun g => (g.dur, g.cts)) =
        l.map (fun x => (c.parts x.2.2).zip ((starts 0 (c.parts x.2.2)).map fun q => x.1 + c.ns q))
      ∧ (∀ d ∈ ds, ∀ g ∈ d.out.given, g.flags = 0 ∧ g.bytes.length = c.bytes g.dur ∧ 0 < g.dur
        ∧ (c.precise = true → c.maxSub ≠ 0 → g.dur ≤ c.maxSub))
      ∧ (c.timing = true → ds.map (·.wait) = (starts ticks (l.map (·.2.2))).map some)
      ∧ (c.timing = false → ∀ d ∈ ds, d.wait = none) := by
  induction l generalizing ticks s with
  | nil => exact ⟨[], rfl, rfl, rfl, by simp, by simp [starts], by simp⟩
  | cons x l ih =>
    obtain ⟨now, b, d⟩ := x
    obtain ⟨h1, h2, h3, h4⟩ := hl _ List.mem_cons_self
    simp only at h1 h2 h3 h4
    have hb : b.length = c.bytes d := by rw [h2, Conf.bytes, hc.width, Nat.mul_assoc, Nat.mul_comm 4]
    have hmod : d % 2 ^ 32 = d := Nat.mod_eq_of_lt h4
    obtain ⟨o, ho, o1, o2, o3, o4, o5, o6, o7⟩ := write_ran c hc p hp now h1 ticks s b d (by omega) hb (Or.inr h4)
    rw [hmod] at o1 o2 o3 o7
    obtain ⟨ds, hds, d1, d2, d3, d4, d5⟩ := ih (fun x hx => hl x (List.mem_cons_of_mem _ hx)) o.ticks o.out.st
    refine ⟨o :: ds, ?_, ?_, ?_, ?_, ?_, ?_⟩
    · simp only [List.map_cons, writes, apiWrite_eq c hc p now ticks s b d h3 hb, ho, Except.map, hds]
      rfl
    · simp only [List.map_cons, d1, o2]
      rw [List.take_of_length_le (by omega)]
    · simp only [List.map_cons, d2]
      rw [← o3, ← o1, List.zip_map', ]
    · intro e he g hg
      rcases List.mem_cons.1 he with rfl | he
      · obtain ⟨f1, f2⟩ := o4 g hg
        have hm : g.dur ∈ c.parts d := by rw [← o1]; exact List.mem_map.2 ⟨g, hg, rfl⟩
        unfold Conf.parts at hm
        by_cases hpr : c.precise = true
        · rw [if_pos hpr] at hm
          obtain ⟨m1, m2⟩ := chunks_mem h3 hm
          exact ⟨f1, f2, m1, fun _ => m2⟩
        · rw [if_neg hpr] at hm
          simp only [List.mem_singleton] at hm
          exact ⟨f1, f2, by omega, fun h => absurd h hpr⟩
      · exact d3 e he g hg
    · intro ht
      rw [ht] at o6 o7
      simp only [if_true] at o6 o7
      simp only [List.map_cons, d4 ht, starts, o6, o7]
    · intro ht e he
      rcases List.mem_cons.1 he with rfl | he
      · rw [o6, ht]; rfl
      · exact d5 ht e he

/-- **C120 is false for huge buffers**: the duration has 32 bits. A buffer of a multiple of 2^32 samples for each channel aborts the
process; with precise scheduling, of any other buffer only the first samples are sent, up to the remainder, though zero is returned. -/
theorem C120_huge_fails {σ α : Type} (c : Conf) (hc : c.Api) (p : Pipe σ α) (hp : p.Sink) (now : Int) (hn : 0 < now) (ticks : Nat) (s : σ)
    (b : List α) (d : Nat) (hd : 2 ^ 32 ≤ d) (hb : b.length = d * (c.chans * 4)) :
    (2 ^ 32 ∣ d → apiWrite c p now ticks s (some (some b, b.length)) = .error .abort)
    ∧ (¬ 2 ^ 32 ∣ d → c.precise = true → ∃ o, apiWrite c p now ticks s (some (some b, b.length)) = .ok (.done o)
      ∧ (o.out.given.map (·.bytes)).flatten = b.take (d % 2 ^ 32 * (c.chans * 4))
      ∧ (o.out.given.map (·.bytes)).flatten ≠ b) := by
  have hbytes : ∀ n, c.bytes n = n * (c.chans * 4) := by
    intro n; rw [Conf.bytes, hc.width, Nat.mul_assoc, Nat.mul_comm 4]
  have hb' : b.length = c.bytes d := by rw [hbytes, hb]
  constructor
  · intro h
    have hmod : d % 2 ^ 32 = 0 := Nat.mod_eq_zero_of_dvd h
    have ht : c.ticks (Frame.new b).bytes.length = 0 := by
      rw [show (Frame.new b).bytes = b from rfl, hb', ticks_bytes (by rw [hc.width]; omega) hc.chans, hmod]
    rw [apiWrite_eq c hc p now ticks s b d (by omega) hb']
    unfold write
    rw [ht, hc.autoDur]
    rfl
  · intro h hpr
    have hmod : 0 < d % 2 ^ 32 := Nat.pos_of_ne_zero fun h0 => h (Nat.dvd_of_mod_eq_zero h0)
    obtain ⟨o, ho, _, o2, _⟩ := write_ran c hc p hp now hn ticks s b d hmod hb' (Or.inl hpr)
    refine ⟨o, ?_, by rw [o2, hbytes], ?_⟩
    · rw [apiWrite_eq c hc p now ticks s b d (by omega) hb', ho]; rfl
    · intro he
      have h1 := congrArg List.length he
      rw [o2, List.length_take, hb, hbytes] at h1
      have h2 : d % 2 ^ 32 < d := Nat.lt_of_lt_of_le (Nat.mod_lt _ (by omega)) hd
      have h3 : d % 2 ^ 32 * (c.chans * 4) < d * (c.chans * 4) :=
        Nat.mul_lt_mul_of_pos_right h2 (by have := hc.chans; omega)
      omega

/-- **C120 (reuse)**: a frame object that was written once must not be written again with automatic duration: that aborts. -/
theorem C120_reuse {σ α : Type} (c : Conf) (hc : c.Api) (p : Pipe σ α) (hp : p.Sink) (now now' : Int) (hn : 0 < now) (ticks ticks' : Nat)
    (s s' : σ) (b : List α) (d : Nat) (hd : 0 < d) (hd' : d < 2 ^ 32) (hb : b.length = d * (c.chans * 4)) :
    ∃ o, write c p now ticks s (Frame.new b) = .ok o ∧ write c p now' ticks' s' o.out.frame = .error .abort := by
  have hb' : b.length = c.bytes d := by rw [Conf.bytes, hc.width, Nat.mul_assoc, Nat.mul_comm 4, hb]
  have hmod : d % 2 ^ 32 = d := Nat.mod_eq_of_lt hd'
  obtain ⟨o, ho, _, _, _, _, o5, _⟩ := write_ran c hc p hp now hn ticks s b d (by omega) hb' (Or.inr hd')
  refine ⟨o, ho, ?_⟩
  unfold write
  rw [if_pos ⟨hc.autoDur, by rw [o5]; simp only; omega⟩]

/-- **C120 (read)**: for every source that keeps the size of frames, a frame of fewer than 2^32 samples per channel is read with precise scheduling in
pieces as for writing, up to the first one that fails. The buffer holds what the pieces were filled with, and the rest as it was; flags are
those of all pieces; the timestamp is that of the first piece; the duration is that of all pieces. With an internal clock, the call waits
for as many ticks as there were samples in buffers read before. -/
theorem C120_read {σ α : Type} (c : Conf) (hc : c.Api) (hpr : c.precise = true) (p : Pipe σ α) (hp : p.Fine) (ticks : Nat) (s : σ)
    (b : List α) (d : Nat) (hd : 0 < d) (hd' : d < 2 ^ 32) (hb : b.length = d * (c.chans * 4)) :
    ∃ o, apiRead c p ticks s (some (some b, b.length)) = .ok (.done o)
      ∧ o.out.given.map (·.dur) <+: chunks d c.maxSub
      ∧ (o.out.ok = true → o.out.given.map (·.dur) = chunks d c.maxSub)
      ∧ o.out.left.map (·.bytes.length) = o.out.given.map (fun g => c.bytes g.dur)
      ∧ o.out.frame.bytes = (o.out.left.map (·.bytes)).flatten ++ b.drop (o.out.left.map (·.bytes)).flatten.length
      ∧ o.out.frame.flags = orAll 0 (o.out.left.map (·.flags))
      ∧ some o.out.frame.cts = (o.out.left.map (·.cts)).head?
      ∧ o.out.frame.dur = (o.out.given.map (·.dur)).sum
      ∧ (∃ s g, o.out.given.getLast? = some g ∧ (p.imp s g).2.2 = o.out.ok)
      ∧ ((∀ s g, (p.imp s g).2.2 = true) → o.out.ok = true)
      ∧ o.wait = (if c.timing then some ticks else none) ∧ o.ticks = (if o.out.ok then ticks + o.out.frame.dur else ticks) := by
  have hb' : b.length = c.bytes d := by rw [Conf.bytes, hc.width, Nat.mul_assoc, Nat.mul_comm 4, hb]
  have hmod : d % 2 ^ 32 = d := Nat.mod_eq_of_lt hd'
  have hb0 : c.bytes 0 = 0 := by simp [Conf.bytes]
  have h1 := bytes_div hc d
  have h2 : c.bytes d ≠ 0 := by
    unfold Conf.bytes; rw [hc.width]
    have := hc.chans
    exact Nat.ne_of_gt (Nat.mul_pos (by omega) this)
  obtain ⟨o, ho, hr⟩ := loop_ran c p hp hc.ns d (d + 1) s (Frame.new b) 0 hd (by omega)
    (by rw [show (Frame.new b).bytes = b from rfl, hb']) (Int.le_refl _) (fun _ => rfl)
  have hpos : 0 < o.frame.dur := by
    rw [hr.dur]
    have hne := hr.ne
    have hpre := hr.durs
    cases hg : o.given with
    | nil => exact absurd hg hne
    | cons g gs =>
      rw [hg] at hpre
      have := (chunks_mem (d := d - 0) (m := c.maxSub) (x := g.dur) (by omega) (hpre.subset (by simp))).1
      simp; omega
  have hproc : process c p s (Frame.new b) = .ok o := by
    unfold process
    rw [if_pos hpr]
    have : (if (Frame.new b).dur ≠ 0 then (Frame.new b).dur else c.ticks (Frame.new b).bytes.length) = d := by
      rw [if_neg (by simp [Frame.new]), show (Frame.new b).bytes = b from rfl, hb',
        ticks_bytes (by rw [hc.width]; omega) hc.chans, hmod]
    simp only [this]
    exact ho
  have hlen : (o.left.map (·.bytes)).flatten.length = c.bytes (o.given.map (·.dur)).sum := by
    rw [List.length_flatten, List.map_map]
    have := hr.lens
    rw [show (List.length ∘ fun x : Frame α => x.bytes) = fun x => x.bytes.length from rfl, this]
    generalize o.given = l
    induction l with
    | nil => simp [Conf.bytes]
    | cons g l ih => simp only [List.map_cons, List.sum_cons, ih, bytes_add]
  have hread : ∃ x : Done σ α, apiRead c p ticks s (some (some b, b.length)) = .ok (.done x) ∧ x.out = o ∧
      x.wait = (if c.timing then some ticks else none) ∧ x.ticks = (if x.out.ok then ticks + x.out.frame.dur else ticks) := by
    unfold apiRead
    simp only
    rw [hb', if_neg h2, if_neg (by rw [h1.1]; simp), h1.2, List.take_of_length_le (by omega)]
    unfold read
    rw [hproc]
    simp only
    by_cases hok : o.ok = false
    · rw [if_pos hok]; exact ⟨_, rfl, rfl, rfl, by simp [hok]⟩
    · rw [if_neg hok, if_neg (by omega)]; exact ⟨_, rfl, rfl, rfl, by simp [hok]⟩
  obtain ⟨x, hx, rfl, hx2, hx3⟩ := hread
  refine ⟨x, hx, by simpa using hr.durs, by simpa using hr.all, hr.lens, ?_, hr.flags, hr.cts.2 rfl, by simpa using hr.dur, hr.last,
    hr.good, hx2, hx3⟩
  have := hr.bytes
  rw [hb0, List.take_zero, List.nil_append, Nat.zero_add] at this
  rw [this, hlen]
  rfl

theorem apiRead_done {σ α : Type} (c : Conf) (hc : c.Api) (p : Pipe σ α) (ticks : Nat) (s : σ) (b : List α) (d : Nat) (hd : 0 < d)
    (hb : b.length = c.bytes d) (o : Out σ α) (ho : process c p s (Frame.new b) = .ok o) (hok : o.ok = true) (hd0 : o.frame.dur ≠ 0) :
    ∃ x : Done σ α, apiRead c p ticks s (some (some b, b.length)) = .ok (.done x) ∧ x.out = o := by
  have h1 := bytes_div hc d
  have h2 : c.bytes d ≠ 0 := by
    unfold Conf.bytes; rw [hc.width]
    have := hc.chans
    exact Nat.ne_of_gt (Nat.mul_pos (by omega) this)
  unfold apiRead
  simp only
  rw [hb, if_neg h2, if_neg (by rw [h1.1]; simp), h1.2, List.take_of_length_le (by omega)]
  unfold read
  rw [ho]
  simp only
  rw [if_neg (by rw [hok]; simp), if_neg hd0]
  exact ⟨_, rfl, rfl⟩

/-- Buffers are read one after another; nothing if one of the reads does not return zero. -/
def reads {σ α : Type} (c : Conf) (p : Pipe σ α) : Nat → σ → List (List α) → Option (σ × List (List α))
  | _, s, [] => some (s, [])
  | ticks, s, b :: l =>
    match apiRead c p ticks s (some (some b, b.length)) with
    | .ok (.done d) => if d.out.ok then (reads c p d.ticks d.out.st l).map fun x => (x.1, d.out.frame.bytes :: x.2) else none
    | _ => none

/-- **C120 (stream)**: if the pipeline below is a stream of samples, then whatever the sizes of the buffers and the settings of task scheduling are, the
buffers together hold the same samples of the stream, and the next samples are those that follow. -/
theorem C120_stream {σ α : Type} (c : Conf) (hc : c.Api) (p : Pipe σ α) (hp : p.Fine) (rd : σ → Nat → σ × List α) (hs : Stream c p rd)
    (l : List (List α × Nat)) (hl : ∀ x ∈ l, x.1.length = x.2 * (c.chans * 4) ∧ 0 < x.2 ∧ x.2 < 2 ^ 32) (ticks : Nat) (s : σ) :
    ∃ bs, reads c p ticks s (l.map (·.1)) = some ((rd s (l.map (·.2)).sum).1, bs)
      ∧ bs.flatten = (rd s (l.map (·.2)).sum).2 ∧ bs.map (·.length) = l.map (·.1.length) := by
  induction l generalizing ticks s with
  | nil => exact ⟨[], by simp [reads, hs.zero], by simp [hs.zero], rfl⟩
  | cons x l ih =>
    obtain ⟨b, d⟩ := x
    obtain ⟨h1, h2, h3⟩ := hl _ List.mem_cons_self
    simp only at h1 h2 h3
    -- one read
    have hone : ∃ o, apiRead c p ticks s (some (some b, b.length)) = .ok (.done o) ∧ o.out.ok = true ∧ o.out.st = (rd s d).1
        ∧ o.out.frame.bytes = (rd s d).2 := by
      have hb' : b.length = c.bytes d := by rw [Conf.bytes, hc.width, Nat.mul_assoc, Nat.mul_comm 4, h1]
      by_cases hpr : c.precise = true
      · have hle : c.bytes d ≤ (Frame.new b).bytes.length := by rw [show (Frame.new b).bytes = b from rfl, hb']
        obtain ⟨o, ho, hr⟩ := loop_ran c p hp hc.ns d (d + 1) s (Frame.new b) 0 h2 (by omega) hle (Int.le_refl _) (fun _ => rfl)
        obtain ⟨k1, k2, k3⟩ := loop_stream hs d (d + 1) s (Frame.new b) 0 o h2 (fun _ => rfl) hle ho
        rw [Nat.sub_zero] at k2 k3
        have hdur := hr.all k1
        rw [Nat.sub_zero] at hdur
        have hd0 : o.frame.dur ≠ 0 := by rw [hr.dur, hdur, chunks_sum]; omega
        have hproc : process c p s (Frame.new b) = .ok o := by
          unfold process
          rw [if_pos hpr]
          have : (if (Frame.new b).dur ≠ 0 then (Frame.new b).dur else c.ticks (Frame.new b).bytes.length) = d := by
            rw [if_neg (by simp [Frame.new]), show (Frame.new b).bytes = b from rfl, hb',
              ticks_bytes (by rw [hc.width]; omega) hc.chans, Nat.mod_eq_of_lt h3]
          simp only [this]
          exact ho
        obtain ⟨x, hx, rfl⟩ := apiRead_done c hc p ticks s b d h2 hb' _ hproc k1 hd0
        refine ⟨x, hx, k1, k2, ?_⟩
        have h := hr.bytes
        rw [hdur, chunks_sum, k3, show c.bytes 0 = 0 by simp [Conf.bytes], List.take_zero, List.nil_append, Nat.zero_add] at h
        rw [h, show (Frame.new b).bytes = b from rfl, ← hb', List.drop_length, List.append_nil]
      · obtain ⟨i1, i2, i3, i4⟩ := hs.imp s (Frame.new b) d hb'
        have hproc : process c p s (Frame.new b) = .ok ⟨(p.imp s (Frame.new b)).1, (p.imp s (Frame.new b)).2.1,
            (p.imp s (Frame.new b)).2.2, [Frame.new b], [(p.imp s (Frame.new b)).2.1]⟩ := by
          unfold process
          rw [if_neg hpr]
        obtain ⟨x, hx, hxo⟩ := apiRead_done c hc p ticks s b d h2 hb' _ hproc i3 i4
        exact ⟨x, hx, by rw [hxo]; exact i3, by rw [hxo]; exact i1, by rw [hxo]; exact i2⟩
    obtain ⟨o, ho, hok, o1, o2⟩ := hone
    obtain ⟨bs, e1, e2, e3⟩ := ih (fun x hx => hl x (List.mem_cons_of_mem _ hx)) o.ticks o.out.st
    have ha := hs.add s d (l.map (·.2)).sum
    rw [o1] at e1 e2
    refine ⟨o.out.frame.bytes :: bs, ?_, ?_, ?_⟩
    · simp only [List.map_cons, reads, ho, hok, if_true, e1, Option.map_some, List.sum_cons, ha, o1]
    · simp only [List.map_cons, List.sum_cons, List.flatten_cons, ha, e2, o1, o2]
    · simp only [List.map_cons, e3, o2, hs.len, h1, Conf.bytes, hc.width]
      rw [Nat.mul_assoc, Nat.mul_comm 4]

/-! ## Examples -/

/-- Two channels, 48000 Hz, pieces of at most three samples, internal clock. -/
def exConf : Conf := ⟨2, 4, fun n => n * 1000000000 / 48000, 3, true, true, true, true⟩

example : exConf.Api := ⟨rfl, by decide, fun n => Int.ediv_nonneg (by omega) (by omega), rfl, rfl, rfl⟩

/-- A sink that counts frames. -/
def exSink : Pipe Nat Nat := ⟨fun s f => (s + 1, f, true), fun s => s⟩

example : exSink.Sink := fun _ _ => rfl

/-- Eight samples for two channels: three pieces. -/
example : (writes exConf exSink 0 0 [(1000, List.range 64), (2000, List.range 8)]).map (fun l => l.map fun d =>
    (d.wait, d.out.given.map fun g => (g.dur, g.cts, g.bytes.head?))) =
      some [(some 0, [(3, 1000, some 0), (3, 63500, some 24), (2, 126000, some 48)]), (some 8, [(1, 2000, some 0)])] := by rfl

example : ∀ x ∈ [((1000 : Int), List.range 64, 8), (2000, List.range 8, 1)],
    0 < x.1 ∧ x.2.1.length = x.2.2 * (exConf.chans * 4) ∧ 0 < x.2.2 ∧ x.2.2 < 2 ^ 32 := by decide

/-- A source: the bytes are numbered. -/
def exSource : Pipe Nat Nat :=
  ⟨fun s f => (s + f.bytes.length, ⟨(List.range f.bytes.length).map (s + ·), f.flags ||| 2, f.bytes.length + 1, f.cts + 5⟩, true), fun s => s⟩

example : exSource.Fine := ⟨fun s f => by simp [exSource], fun s f h => by simp only [exSource]; omega⟩

example : Stream exConf exSource (fun s n => (s + exConf.bytes n, (List.range (exConf.bytes n)).map (s + ·))) := by
  refine ⟨?_, fun _ => rfl, fun s => rfl, fun s n => by simp, ?_⟩
  · intro s f n h
    simp only [exSource, h]
    exact ⟨trivial, trivial, trivial, by omega⟩
  · intro s n m
    simp only [bytes_add, Prod.mk.injEq]
    refine ⟨by omega, ?_⟩
    rw [List.range_add, List.map_append, List.map_map]
    congr 1
    apply List.map_congr_left
    intro x _
    simp only [Function.comp]
    omega

example : reads exConf exSource 0 0 [List.replicate 64 7, List.replicate 8 7] = some (72, [List.range 64, (List.range 8).map (64 + ·)]) := by
  decide +kernel

end Verif.FramePath
