import Verif.FileSource.Lemmas

/-!
# C111: file and device sources deliver the samples of their input
-/

namespace Verif.FileSource

variable {α : Type}

/-- C111. The WAV source, opened on a file and read in frames of a whole number of PCM frames:
for all sequences of reads, pauses, resumes and restarts, and whatever number of samples each
library read returns, the frames are those of the file from the first to the last, in order and
without gaps, the last one filled up with zeros, then the end of the stream; a restart begins
again from the first sample.  No call aborts. -/
theorem C111_wav_stream_partial (zero : α) (i : Input α) (hc : 0 < i.chans)
    (hd : i.chans ∣ i.data.length) (s : Wav α) (hs : (Wav.init α).opn (some i) = .ok (true, s))
    (ops : List (Op α)) (hops : ∀ o ∈ ops, Stable i o ∧ Aligned i.chans o) :
    results (Wav.step zero) s ops =
      some (refRun (Ref.step zero false) { data := i.data, off := 0, paused := false } ops) := by
  have hs : _ = s := congrArg Prod.snd (Except.ok.inj hs)
  refine results_of_sim _ _ (WavR i) _ (fun s r o h ho => wav_sim zero i hc hd s r o h ho) ops s _
    ?_ (along_of_all _ _ ops _ hops)
  rw [← hs]
  exact ⟨rfl, rfl, rfl, rfl, rfl, (by simp), fun h => (by cases h), fun _ => by simp⟩

/-- C111. The same for the sndfile source. -/
theorem C111_sndfile_stream_partial (zero : α) (i : Input α) (s : Snd α)
    (hs : Snd.open_ { file := none, pos := 0 } (some i) = .ok (true, s))
    (ops : List (Op α)) (hops : ∀ o ∈ ops, Stable i o ∧ Aligned i.chans o) :
    results (Snd.step zero) s ops =
      some (refRun (Ref.step zero false) { data := i.data, off := 0, paused := false } ops) := by
  have hs : _ = s := congrArg Prod.snd (Except.ok.inj hs)
  refine results_of_sim _ _ (SndR i) _ (fun s r o h ho => snd_sim zero i s r o h ho) ops s _
    ?_ (along_of_all _ _ ops _ hops)
  rw [← hs]
  exact ⟨rfl, rfl, rfl, by simp⟩

theorem opn_ok (rate chans buf : Nat) (i : Input α) (s : Sox α)
    (hs : (Sox.init α rate chans).opn (some i) buf = .ok (true, s)) :
    (rate = 0 ∨ rate = i.rate) ∧ (chans = 0 ∨ chans = i.chans) ∧ 0 < buf ∧
      s = { (Sox.init α rate chans).after i with buf := buf } := by
  by_cases h1 : rate ≠ 0 ∧ rate ≠ i.rate
  · simp [Sox.opn, Sox.init, Sox.open_, h1] at hs
  · by_cases h2 : chans ≠ 0 ∧ chans ≠ i.chans
    · simp only [Sox.opn, Sox.init, Sox.open_, h1] at hs
      have h2' : ¬chans = 0 ∧ ¬chans = i.chans := h2
      simp [h2'] at hs
    · have h := open_ok (Sox.init α rate chans) i rfl
        (by simp only [Sox.init]; omega) (by simp only [Sox.init]; omega)
      unfold Sox.opn at hs
      rw [if_neg (by simp [Sox.init]), h] at hs
      by_cases hb : buf = 0
      · simp [hb] at hs
      · simp only [if_neg hb, Except.ok.injEq, Prod.mk.injEq, true_and] at hs
        exact ⟨(by omega), (by omega), (by omega), hs.symm⟩

/-- C111. The sox source, opened on a file: the same, for frames of any size and any size of the
internal buffer; a pause suspends the stream and a resume continues it where it was. -/
theorem C111_sox_file_stream (zero : α) (i : Input α) (hf : i.isFile = true)
    (rate chans buf : Nat) (s : Sox α)
    (hs : (Sox.init α rate chans).opn (some i) buf = .ok (true, s))
    (ops : List (Op α)) (hops : ∀ o ∈ ops, Stable i o) :
    results (Sox.step zero) s ops =
      some (refRun (Ref.step zero true) { data := i.data, off := 0, paused := false } ops) := by
  obtain ⟨h1, h2, h3, h4⟩ := opn_ok rate chans buf i s hs
  refine results_of_sim _ _ (SoxR i) _ (fun s r o h ho => sox_sim zero i hf s r o h ho) ops s _
    ?_ (along_of_all _ _ ops _ hops)
  rw [h4]
  exact ⟨rfl, hf, h3, rfl, rfl, h1, h2, Nat.zero_le _, fun h => (by cases h), fun _ => rfl⟩

/-- C111. The sox source, opened on a device, where every open of the device gives an input with
the rate and channels asked for: each pause ends a recording and each resume or restart begins a
new one, which is delivered from its first sample, in order and without gaps, as long as no
recording is resumed whose end was reached. -/
theorem C111_sox_device_stream_partial (zero : α) (i : Input α) (hf : i.isFile = false)
    (rate chans buf : Nat) (s : Sox α)
    (hs : (Sox.init α rate chans).opn (some i) buf = .ok (true, s))
    (ops : List (Op α)) (hops : ∀ o ∈ ops, DevOk rate chans o ∧ NoQuery o)
    (hend : Along (Ref.stepDev zero) NotEnded { data := i.data, off := 0, paused := false } ops) :
    results (Sox.step zero) s ops =
      some (refRun (Ref.stepDev zero) { data := i.data, off := 0, paused := false } ops) := by
  obtain ⟨h1, h2, h3, h4⟩ := opn_ok rate chans buf i s hs
  refine results_of_sim _ _ (DevR rate chans)
    (fun r o => DevOk rate chans o ∧ NoQuery o ∧ NotEnded r o)
    (fun s r o h ho => dev_sim zero rate chans s r o h ho) ops s _ ?_ ?_
  · rw [h4]
    refine ⟨rfl, rfl, hf, h3, rfl, fun h => (by cases h), fun h => (by cases h), fun _ => ?_⟩
    exact ⟨i, rfl, rfl, Nat.zero_le _, fun _ => rfl⟩
  · revert hend
    generalize ({ data := i.data, off := 0, paused := false } : Ref α) = r
    intro hend
    clear hs h4
    induction ops generalizing r with
    | nil => trivial
    | cons o os ih =>
      have := hops o (List.mem_cons_self ..)
      exact ⟨⟨this.1, this.2, hend.1⟩,
        ih (fun x hx => hops x (List.mem_cons_of_mem _ hx)) _ hend.2⟩

/-- The calls of a sox source that can be made at any time; the results of `restart` tell whether
the source may be used further (`sox_source.cpp:122-296`). -/
def soxSafe : Res α → Op α → Bool
  | .flag false, .restart _ _ => false
  | _, .query => false
  | _, _ => true

/-- An input that is not open is a paused device (`sox_source.cpp:122-163`). -/
def SoxI (s : Sox α) : Prop :=
  (s.paused = false → s.input.isSome) ∧ (s.input = none → s.isFile = false)

/-- C111. For all outcomes of the library - inputs that cannot be opened again, of other rates,
files that turn into devices - no call of an opened sox source aborts, as long as no `restart`
has failed and the parameters are not queried. -/
theorem C111_sox_no_abort_partial (zero : α) (i : Input α) (rate chans buf : Nat) (s : Sox α)
    (hs : (Sox.init α rate chans).opn (some i) buf = .ok (true, s))
    (ops : List (Op α)) (o : Op α) (rs : List (Res α)) (s' : Sox α)
    (hrun : run (Sox.step zero) s ops = .ok (rs, s'))
    (hok : ∀ p ∈ rs.zip ops, soxSafe p.1 p.2 = true) (ho : NoQuery o) :
    ∃ r s'', s'.step zero o = .ok (r, s'') := by
  obtain ⟨-, -, -, h4⟩ := opn_ok rate chans buf i s hs
  have hopen : ∀ (s : Sox α) (o : Option (Input α)), s.input = none →
      ∃ b s', s.open_ o = .ok (b, s') ∧ s'.paused = s.paused ∧
        (b = true → s'.input.isSome) ∧ (s'.input = none → s'.isFile = s.isFile) := by
    intro s o h
    cases o with
    | none => exact ⟨false, s, by simp [Sox.open_, h], rfl, fun h => (by cases h), fun _ => rfl⟩
    | some i =>
      unfold Sox.open_
      rw [if_neg (by simp [h])]
      simp only
      split
      · exact ⟨false, _, rfl, rfl, fun h => (by cases h), fun h => (by cases h)⟩
      · split
        · exact ⟨false, _, rfl, rfl, fun h => (by cases h), fun h => (by cases h)⟩
        · exact ⟨true, _, rfl, rfl, fun _ => rfl, fun h => (by cases h)⟩
  -- every call returns and keeps this
  have hstep : ∀ (s : Sox α) (o : Op α), SoxI s → NoQuery o →
      ∃ r s', s.step zero o = .ok (r, s') ∧ (soxSafe r o = true → SoxI s') := by
    intro s o hI hq
    cases o with
    | read n cut =>
      by_cases hp : s.paused = true ∨ s.eof = true
      · exact ⟨.frame none, s, by simp [Sox.step, Sox.read, hp], fun _ => hI⟩
      · have hp' : s.paused = false := by
          cases h : s.paused with
          | false => rfl
          | true => exact absurd (Or.inl h) hp
        cases hin : s.input with
        | none => have := hI.1 hp'; rw [hin] at this; cases this
        | some i =>
          refine ⟨_, _, by simp only [Sox.step, Sox.read, if_neg hp, hin]; rfl, fun _ => ?_⟩
          exact ⟨fun _ => rfl, fun h => (by cases h)⟩
    | pause =>
      by_cases hp : s.paused = true
      · exact ⟨.done, s, by simp [Sox.step, Sox.pause, hp], fun _ => hI⟩
      · have hp' : s.paused = false := by simpa using hp
        have hn : s.input.isNone = false := by
          have := hI.1 hp'; cases h : s.input with
          | none => rw [h] at this; cases this
          | some i => rfl
        by_cases hF : s.isFile = false
        · exact ⟨.done, { s.close_ with paused := true },
            by simp [Sox.step, Sox.pause, hp, hn, hF],
            fun _ => ⟨fun h => (by cases h), fun _ => hF⟩⟩
        · exact ⟨.done, { s with paused := true },
            by simp [Sox.step, Sox.pause, hp, hn, hF],
            fun _ => ⟨fun h => (by cases h), fun h => hI.2 h⟩⟩
    | resume o =>
      by_cases hp : s.paused = false
      · exact ⟨.flag true, s, by simp [Sox.step, Sox.resume, hp], fun _ => hI⟩
      · cases hin : s.input with
        | some i =>
          refine ⟨.flag true, { s with paused := false }, by simp [Sox.step, Sox.resume, hp, hin],
            fun _ => ⟨fun _ => ?_, hI.2⟩⟩
          show s.input.isSome = true
          rw [hin]; rfl
        | none =>
          obtain ⟨b, s1, e1, e2, e3, e4⟩ := hopen s o hin
          cases b with
          | false =>
            refine ⟨.flag false, s1, by simp [Sox.step, Sox.resume, hp, hin, e1],
              fun _ => ⟨fun h => ?_, fun h => (e4 h).trans (hI.2 hin)⟩⟩
            rw [e2] at h; exact absurd h hp
          | true =>
            refine ⟨.flag true, { s1 with paused := false },
              by simp [Sox.step, Sox.resume, hp, hin, e1], fun _ => ⟨fun _ => e3 rfl, fun h => ?_⟩⟩
            exact (e4 h).trans (hI.2 hin)
    | restart k o =>
      by_cases hF : s.isFile = true ∧ s.eof = false
      · cases hin : s.input with
        | none => have := hI.2 hin; rw [hF.1] at this; cases this
        | some i =>
          cases k with
          | false =>
            exact ⟨.flag false, s, by simp [Sox.step, Sox.restart, hF, hin], fun _ => hI⟩
          | true =>
            refine ⟨.flag true, { s with pos := 0, paused := false, eof := false },
              by simp [Sox.step, Sox.restart, hF, hin], fun _ => ⟨fun _ => ?_, hI.2⟩⟩
            show s.input.isSome = true
            rw [hin]; rfl
      · generalize hs2 : (if s.isFile = true then { s with rate := 0, chans := 0 } else s) = s2
        obtain ⟨b, s1, e1, _, e3, e4⟩ := hopen s2.close_ o rfl
        have hne : s.step zero (.restart k o) = (match s2.close_.open_ o with
            | .error e => .error e
            | .ok (false, s) => .ok (.flag false, s)
            | .ok (true, s) => .ok (.flag true, { s with paused := false, eof := false })) := by
          simp only [Sox.step, Sox.restart, if_neg hF, hs2, e1]
          cases b <;> rfl
        rw [hne, e1]
        cases b with
        | false =>
          exact ⟨.flag false, s1, rfl, fun h => by simp [soxSafe] at h⟩
        | true =>
          refine ⟨.flag true, { s1 with paused := false, eof := false }, rfl,
            fun _ => ⟨fun _ => e3 rfl, fun h => ?_⟩⟩
          have := e3 rfl
          rw [show s1.input = none from h] at this
          cases this
    | query => exact absurd hq (fun h => h)
  have hall : ∀ (ops : List (Op α)) (s s' : Sox α) (rs : List (Res α)), SoxI s →
      run (Sox.step zero) s ops = .ok (rs, s') →
      (∀ p ∈ rs.zip ops, soxSafe p.1 p.2 = true) → SoxI s' := by
    intro ops
    induction ops with
    | nil =>
      intro s s' rs hI hr _
      simp only [run, Except.ok.injEq, Prod.mk.injEq] at hr
      rw [← hr.2]; exact hI
    | cons o os ih =>
      intro s s' rs hI hr hp
      simp only [run] at hr
      cases h1 : s.step zero o with
      | error e => rw [h1] at hr; cases hr
      | ok p =>
        obtain ⟨r, s1⟩ := p
        rw [h1] at hr
        simp only at hr
        cases h2 : run (Sox.step zero) s1 os with
        | error e => rw [h2] at hr; cases hr
        | ok q =>
          obtain ⟨rs', s2⟩ := q
          rw [h2] at hr
          simp only [Except.ok.injEq, Prod.mk.injEq] at hr
          obtain ⟨hr1, hr2⟩ := hr
          subst hr1 hr2
          have hp0 := hp (r, o) (by simp)
          have hq : NoQuery o := by
            cases o <;> first | trivial | (cases r <;> simp [soxSafe] at hp0)
          obtain ⟨r', s1', e1, e2⟩ := hstep s o hI hq
          rw [h1] at e1
          simp only [Except.ok.injEq, Prod.mk.injEq] at e1
          obtain ⟨e3, e4⟩ := e1
          subst e3 e4
          exact ih s1 s2 rs' (e2 hp0) h2 (fun p hp' => hp p (by simp; exact Or.inr hp'))
  have hI : SoxI s := by
    rw [h4]; exact ⟨fun _ => rfl, fun h => (by cases h)⟩
  obtain ⟨r, s'', h, _⟩ := hstep s' o (hall ops s s' rs hI hrun hok) ho
  exact ⟨r, s'', h⟩

/-! ### What does not hold -/

/-- C111 fails: a frame that is not a whole number of PCM frames makes the WAV source stop in the
middle of the file. A stereo file of eight samples read in frames of five: the first frame ends
with a zero that is not in the file, then the stream is reported as ended. -/
theorem C111_wav_odd_frame_fails :
    ∃ (i : Input Nat) (s : Wav Nat), 0 < i.chans ∧ i.chans ∣ i.data.length ∧
      (Wav.init Nat).opn (some i) = .ok (true, s) ∧
      i.data = [1, 2, 3, 4, 5, 6, 7, 8] ∧
      results (Wav.step 0) s [.read 5 (fun _ => 100), .read 5 (fun _ => 100)] =
        some [.frame (some [1, 2, 3, 4, 0]), .frame none] := by
  refine ⟨⟨[1, 2, 3, 4, 5, 6, 7, 8], 2, 44100, true, true⟩, _, by decide, by decide, rfl, rfl, ?_⟩
  decide +kernel

/-- C111 fails: with the sndfile source such a frame aborts the process. -/
theorem C111_sndfile_odd_frame_fails :
    ∃ (i : Input Nat) (s : Snd Nat), i.data.length = 8 ∧ i.chans = 2 ∧
      Snd.open_ { file := none, pos := 0 } (some i) = .ok (true, s) ∧
      results (Snd.step 0) s [.read 4 (fun _ => 0), .read 3 (fun _ => 0)] = none :=
  ⟨⟨[1, 2, 3, 4, 5, 6, 7, 8], 2, 44100, true, true⟩, _, rfl, rfl, rfl, by decide +kernel⟩

/-- C111 fails: a device whose recording has ended stays ended after a pause and a successful
resume, though the device was opened again and has samples: the flag of the end is reset by
`restart()` only. -/
theorem C111_sox_resume_eof_fails :
    ∃ (i : Input Nat) (s : Sox Nat), i.isFile = false ∧ i.data = [1, 2] ∧
      (Sox.init Nat 0 0).opn (some i) 16 = .ok (true, s) ∧
      results (Sox.step 0) s [.read 4 (fun _ => 100), .pause, .resume (some i),
        .read 2 (fun _ => 100)] =
        some [.frame (some [1, 2, 0, 0]), .done, .flag true, .frame none] :=
  ⟨⟨[1, 2], 1, 44100, false, true⟩, _, rfl, rfl, rfl, by decide +kernel⟩

/-- C111 fails: when a paused device can be opened again only with another sample rate, `resume()`
fails, but the next `resume()` succeeds, and samples of the wrong rate are delivered: the source
was asked for 44100, the samples are those of an input of rate 48000. -/
theorem C111_sox_resume_rate_fails :
    ∃ (i j : Input Nat) (s s' : Sox Nat), i.rate = 44100 ∧ j.rate = 48000 ∧ j.data = [7, 8] ∧
      (Sox.init Nat 44100 0).opn (some i) 16 = .ok (true, s) ∧
      (run (Sox.step 0) s
          [.pause, .resume (some j), .resume (some j), .read 2 (fun _ => 100)]).toOption =
        some ([.done, .flag false, .flag true, .frame (some [7, 8])], s') ∧ s'.rate = 44100 :=
  ⟨⟨[1, 2], 1, 44100, false, true⟩, ⟨[7, 8], 1, 48000, false, true⟩, _,
    ⟨some ⟨[7, 8], 1, 48000, false, true⟩, 2, false, false, false, 44100, 0, 44100, 1, 16⟩, rfl, rfl,
    rfl, rfl, by decide +kernel, rfl⟩

/-- C111 fails: after a restart of a device that fails, the next read aborts the process; after a
restart of a file that fails, the next pause does. -/
theorem C111_sox_restart_fails :
    ∃ (i j : Input Nat) (s t : Sox Nat), i.isFile = false ∧ j.isFile = true ∧
      (Sox.init Nat 0 0).opn (some i) 16 = .ok (true, s) ∧
      (Sox.init Nat 0 0).opn (some j) 16 = .ok (true, t) ∧
      results (Sox.step 0) s [.restart true none] = some [.flag false] ∧
      results (Sox.step 0) s [.restart true none, .read 2 (fun _ => 100)] = none ∧
      results (Sox.step 0) t [.read 4 (fun _ => 100), .restart true none] =
        some [.frame (some [1, 2, 0, 0]), .flag false] ∧
      results (Sox.step 0) t [.read 4 (fun _ => 100), .restart true none, .pause] = none :=
  ⟨⟨[1, 2], 1, 44100, false, true⟩, ⟨[1, 2], 1, 44100, true, true⟩, _, _, rfl, rfl, rfl, rfl,
    by decide +kernel, by decide +kernel, by decide +kernel, by decide +kernel⟩

/-- C111 fails: asking a paused device for its parameters aborts the process. -/
theorem C111_sox_query_fails :
    ∃ (i : Input Nat) (s : Sox Nat), i.isFile = false ∧
      (Sox.init Nat 0 0).opn (some i) 16 = .ok (true, s) ∧
      results (Sox.step 0) s [.query, .pause] = some [.done, .done] ∧
      results (Sox.step 0) s [.query, .pause, .query] = none :=
  ⟨⟨[1, 2], 1, 44100, false, true⟩, _, rfl, rfl, by decide +kernel, by decide +kernel⟩

/-! ### Examples: the hypotheses are met by non-trivial cases -/

/-- A stereo file of three PCM frames. -/
def exIn : Input Nat := ⟨[1, 2, 3, 4, 5, 6], 2, 44100, true, true⟩

/-- Reads, a pause, a restart, and reads again, with a library that returns one unit at a
time. -/
def exOps : List (Op Nat) :=
  [.read 4 (fun _ => 1), .pause, .resume (some exIn), .read 4 (fun _ => 1), .read 2 (fun _ => 1),
    .restart true (some exIn), .read 2 (fun _ => 1), .query]

example : ∀ o ∈ exOps, Stable exIn o ∧ Aligned exIn.chans o := by
  intro o ho
  simp only [exOps, List.mem_cons, List.not_mem_nil, or_false] at ho
  rcases ho with h | h | h | h | h | h | h | h <;> subst h <;>
    exact ⟨by simp [Stable], by simp [Aligned, exIn]⟩

example : refRun (Ref.step 0 false) { data := exIn.data, off := 0, paused := false } exOps =
    [.frame (some [1, 2, 3, 4]), .done, .flag true, .frame (some [5, 6, 0, 0]), .frame none,
      .flag true, .frame (some [1, 2]), .done] := by decide +kernel

example : refRun (Ref.step 0 true) { data := exIn.data, off := 0, paused := false }
    [.read 4 (fun _ => 1), .pause, .read 2 (fun _ => 1), .resume none, .read 2 (fun _ => 1)] =
    [.frame (some [1, 2, 3, 4]), .done, .frame none, .flag true, .frame (some [5, 6])] := by
  decide +kernel

/-- Two recordings of a device. -/
def exDev (d : List Nat) : Input Nat := ⟨d, 1, 48000, false, false⟩

/-- A recording, a pause, another recording. -/
def exDevOps : List (Op Nat) :=
  [.read 2 (fun _ => 1), .pause, .read 2 (fun _ => 1), .resume (some (exDev [7, 8, 9])),
    .read 2 (fun _ => 1), .read 2 (fun _ => 1), .restart false (some (exDev [10])),
    .read 1 (fun _ => 1)]

example : (∀ o ∈ exDevOps, DevOk 48000 0 o ∧ NoQuery o) ∧
    Along (Ref.stepDev 0) NotEnded { data := [1, 2, 3], off := 0, paused := false } exDevOps := by
  constructor
  · intro o ho
    simp only [exDevOps, List.mem_cons, List.not_mem_nil, or_false] at ho
    rcases ho with h | h | h | h | h | h | h | h <;> subst h <;>
      exact ⟨by simp [DevOk, exDev], by simp [NoQuery]⟩
  · simp [exDevOps, Along, NotEnded, Ref.stepDev, exDev]

example : refRun (Ref.stepDev 0) { data := [1, 2, 3], off := 0, paused := false } exDevOps =
    [.frame (some [1, 2]), .done, .frame none, .flag true, .frame (some [7, 8]),
      .frame (some [9, 0]), .flag true, .frame (some [10])] := by decide +kernel

end Verif.FileSource
