import Verif.FileSource.Spec

namespace Verif.FileSource

variable {α : Type}

theorem take_split (l : List α) (a k n : Nat) (h : k ≤ n) :
    (l.drop a).take k ++ ((l.drop (a + k)).take (n - k)) = (l.drop a).take n := by
  have : n = k + (n - k) := by omega
  conv => rhs; rw [this]
  rw [List.take_add, List.drop_drop]

/-- The loop of the WAV source reads the next samples of the file. -/
theorem wavLoop_eq (file : List α) (ch F : Nat) (hch : 0 < ch) (hF : file.length = F * ch)
    (cut : Nat → Nat) : ∀ (m i pos : Nat), pos ≤ F →
    wavLoop file ch cut i pos (m * ch) =
      ((file.drop (pos * ch)).take (m * ch), min F (pos + m), decide (F < pos + m)) := by
  intro m
  induction m using Nat.strongRecOn with
  | ind m ih =>
    intro i pos hp
    rw [wavLoop]
    have hd : file.length / ch = F := by rw [hF]; exact Nat.mul_div_cancel _ hch
    have hm : m * ch / ch = m := Nat.mul_div_cancel _ hch
    by_cases h0 : m = 0
    · subst h0
      have h1 : min F pos = pos := by omega
      have h2 : ¬ F < pos := by omega
      simp [h1, h2]
    · have hne : m * ch ≠ 0 := Nat.mul_ne_zero h0 (by omega)
      simp only [if_neg hne, hd, hm]
      by_cases hk : pull (F - pos) m (cut i) * ch = 0
      · have hk' : pull (F - pos) m (cut i) = 0 := by
          rcases Nat.mul_eq_zero.1 hk with h | h
          · exact h
          · omega
        have hpF : pos = F := by
          rcases pull_zero.1 hk' with h | h
          · omega
          · omega
        rw [dif_pos hk]
        subst hpF
        have hdrop : file.drop (pos * ch) = [] := by
          apply List.drop_eq_nil_of_le; rw [hF]; exact Nat.le_refl _
        have h1 : min pos (pos + m) = pos := by omega
        have h2 : pos < pos + m := by omega
        simp [hdrop, h1, h2]
      · rw [dif_neg hk]
        generalize hkk : pull (F - pos) m (cut i) = k at *
        have hkm : k ≤ m := by rw [← hkk]; exact pull_le_req _ _ _
        have hkF : k ≤ F - pos := by rw [← hkk]; exact pull_le_avail _ _ _
        have hk0 : 0 < k := by
          rcases Nat.eq_zero_or_pos k with h | h
          · exact absurd (by rw [h]; simp) hk
          · exact h
        have hs : m * ch - k * ch = (m - k) * ch := (Nat.sub_mul ..).symm
        simp only [hs]
        rw [ih (m - k) (by omega) (i + 1) (pos + k) (by omega)]
        have h1 : pos + k + (m - k) = pos + m := by omega
        have h2 := take_split file (pos * ch) (k * ch) (m * ch) (Nat.mul_le_mul_right _ hkm)
        rw [hs, ← Nat.add_mul] at h2
        simp only [h1, h2]

/-- The loop of the sox source reads the next samples of the input. -/
theorem soxLoop_eq (data : List α) (buf : Nat) (hb : 0 < buf) (cut : Nat → Nat) :
    ∀ (m i pos : Nat), pos ≤ data.length →
    soxLoop data buf cut i pos m =
      ((data.drop pos).take m, min data.length (pos + m), decide (data.length < pos + m)) := by
  intro m
  induction m using Nat.strongRecOn with
  | ind m ih =>
    intro i pos hp
    rw [soxLoop]
    by_cases h0 : m = 0
    · subst h0
      have h1 : min data.length pos = pos := by omega
      have h2 : ¬ data.length < pos := by omega
      simp [h1, h2]
    · simp only [if_neg h0]
      have hn0 : (if m > buf then buf else m) ≠ 0 := by split <;> omega
      have hnm : (if m > buf then buf else m) ≤ m := by split <;> omega
      generalize (if m > buf then buf else m) = n at *
      by_cases hk : pull (data.length - pos) n (cut i) = 0
      · rw [dif_pos hk]
        have hpF : pos = data.length := by
          rcases pull_zero.1 hk with h | h
          · omega
          · omega
        have hdrop : data.drop pos = [] := by
          apply List.drop_eq_nil_of_le; omega
        have h1 : min data.length (pos + m) = pos := by omega
        have h2 : data.length < pos + m := by omega
        simp [hdrop, h1, h2]
      · rw [dif_neg hk]
        generalize hkk : pull (data.length - pos) n (cut i) = k at *
        have hkm : k ≤ n := by rw [← hkk]; exact pull_le_req _ _ _
        have hkF : k ≤ data.length - pos := by rw [← hkk]; exact pull_le_avail _ _ _
        rw [ih (m - k) (by omega) (i + 1) (pos + k) (by omega)]
        have h1 : pos + k + (m - k) = pos + m := by omega
        have h2 := take_split data pos k m (by omega)
        simp only [h1, h2]

/-- The tail of `read` pads the samples with zeros. -/
theorem finish_eq (zero : α) (data : List α) (off n : Nat) :
    finish zero n ((data.drop off).take n) = expect zero data off n := by
  unfold finish expect
  simp only [List.length_take, List.length_drop]
  by_cases h : n = 0 ∨ data.length ≤ off
  · rw [if_pos h, if_pos (by omega)]
  · rw [if_neg h, if_neg (by omega)]
    congr 1
    rw [List.take_append, List.take_replicate, List.length_drop]
    congr 2
    omega

theorem expect_past (zero : α) (data : List α) (off n : Nat) (h : data.length ≤ off) :
    expect zero data off n = none := by
  unfold expect; rw [if_pos (Or.inr h)]

/-- A source whose steps follow the reference source follows it for all sequences. -/
theorem results_of_sim {σ : Type} (step : σ → Op α → Except Panic (Res α × σ))
    (rstep : Ref α → Op α → Res α × Ref α) (R : σ → Ref α → Prop)
    (ok : Ref α → Op α → Prop)
    (hsim : ∀ s r o, R s r → ok r o → ∃ s', step s o = .ok ((rstep r o).1, s') ∧
      R s' (rstep r o).2) :
    ∀ (ops : List (Op α)) (s : σ) (r : Ref α), R s r → Along rstep ok r ops →
      results step s ops = some (refRun rstep r ops) := by
  intro ops
  induction ops with
  | nil => intro s r _ _; rfl
  | cons o os ih =>
    intro s r hR hok
    obtain ⟨s', h1, h2⟩ := hsim s r o hR hok.1
    have h3 := ih s' _ h2 hok.2
    unfold results at h3 ⊢
    simp only [run, h1, refRun]
    cases h4 : run step s' os with
    | error e => rw [h4] at h3; cases h3
    | ok p => rw [h4] at h3; simp only [Option.some.injEq] at h3; simp [h3]

theorem along_of_all (rstep : Ref α → Op α → Res α × Ref α) (ok : Op α → Prop) :
    ∀ (ops : List (Op α)) (r : Ref α), (∀ o ∈ ops, ok o) → Along rstep (fun _ o => ok o) r ops := by
  intro ops
  induction ops with
  | nil => intro r _; trivial
  | cons o os ih =>
    intro r h
    exact ⟨h o (List.mem_cons_self ..), ih _ (fun x hx => h x (List.mem_cons_of_mem _ hx))⟩

/-- The WAV source and the reference source at the same place. -/
def WavR (i : Input α) (s : Wav α) (r : Ref α) : Prop :=
  s.file = i.data ∧ s.ch = i.chans ∧ s.opened = true ∧ r.data = i.data ∧ r.paused = false ∧
    s.pos * i.chans ≤ i.data.length ∧
    (s.eof = true → i.data.length ≤ r.off) ∧ (s.eof = false → s.pos * i.chans = r.off)

theorem wav_sim (zero : α) (i : Input α) (hc : 0 < i.chans) (hd : i.chans ∣ i.data.length)
    (s : Wav α) (r : Ref α) (o : Op α) (h : WavR i s r) (ho : Stable i o ∧ Aligned i.chans o) :
    ∃ s', s.step zero o = .ok ((r.step zero false o).1, s') ∧ WavR i s' (r.step zero false o).2 := by
  obtain ⟨h1, h2, h3, h4, h5, h6, h7, h8⟩ := h
  cases o with
  | read n cut =>
    obtain ⟨m, hm⟩ := ho.2
    obtain ⟨F, hF⟩ := hd
    rw [Nat.mul_comm] at hm hF
    have hch : i.chans ≠ 0 := by omega
    by_cases he : s.eof = true
    · refine ⟨s, ?_, h1, h2, h3, ?_, ?_, h6, ?_, ?_⟩
      · simp [Wav.step, Wav.read, h3, he, Ref.step, h5, h4, expect_past zero _ _ n (h7 he)]
      · simp [Ref.step, h5, h4]
      · simp [Ref.step, h5]
      · intro _; have := h7 he; simp [Ref.step, h5]; omega
      · intro h; rw [he] at h; cases h
    · have he : s.eof = false := by simpa using he
      have hpos := h8 he
      have hpF : s.pos ≤ F := by
        rw [hF] at h6; exact Nat.le_of_mul_le_mul_right h6 hc
      have hl := wavLoop_eq s.file s.ch F (by omega) (by rw [h1, h2, hF]) cut m 0 s.pos hpF
      rw [h2, ← hm, hpos, h1] at hl
      refine ⟨{ s with pos := min F (s.pos + m), eof := decide (F < s.pos + m) }, ?_, h1, h2, h3,
        ?_, ?_, ?_, ?_, ?_⟩
      · simp [Wav.step, Wav.read, h3, he, hch, Ref.step, h5, h4, h1, h2, hl, finish_eq]
      · simp [Ref.step, h5, h4]
      · simp [Ref.step, h5]
      · show min F (s.pos + m) * i.chans ≤ i.data.length
        rw [hF]; exact Nat.mul_le_mul_right _ (by omega)
      · intro hlt
        have hlt : F < s.pos + m := of_decide_eq_true hlt
        have := Nat.mul_le_mul_right i.chans (Nat.le_of_lt hlt)
        rw [Nat.add_mul, hpos] at this
        simp only [Ref.step, h5]
        show i.data.length ≤ r.off + n
        omega
      · intro hlt
        have hlt : ¬ F < s.pos + m := of_decide_eq_false hlt
        simp only [Ref.step, h5]
        show min F (s.pos + m) * i.chans = r.off + n
        have : min F (s.pos + m) = s.pos + m := by omega
        rw [this, Nat.add_mul, hpos, hm]
  | pause => exact ⟨s, rfl, h1, h2, h3, h4, rfl, h6, h7, h8⟩
  | resume o => exact ⟨s, rfl, h1, h2, h3, h4, rfl, h6, h7, h8⟩
  | restart k o =>
    have hk : k = true := ho.1.1
    subst hk
    refine ⟨{ s with pos := 0, eof := false }, ?_, h1, h2, h3, h4, rfl, ?_, ?_, ?_⟩
    · simp [Wav.step, Wav.restart, h3, Ref.step]
    · simp
    · intro h; cases h
    · intro _; simp [Ref.step]
  | query => exact ⟨s, by simp [Wav.step, h3, Ref.step], h1, h2, h3, h4, h5, h6, h7, h8⟩

/-- The sndfile source and the reference source at the same place. -/
def SndR (i : Input α) (s : Snd α) (r : Ref α) : Prop :=
  s.file = some i ∧ r.data = i.data ∧ r.paused = false ∧ s.pos = min i.data.length r.off

theorem snd_sim (zero : α) (i : Input α)
    (s : Snd α) (r : Ref α) (o : Op α) (h : SndR i s r) (ho : Stable i o ∧ Aligned i.chans o) :
    ∃ s', s.step zero o = .ok ((r.step zero false o).1, s') ∧ SndR i s' (r.step zero false o).2 := by
  obtain ⟨h1, h2, h3, h4⟩ := h
  cases o with
  | read n cut =>
    have hm : n % i.chans = 0 := Nat.mod_eq_zero_of_dvd ho.2
    have hdrop : i.data.drop s.pos = i.data.drop r.off := by
      by_cases hl : r.off ≤ i.data.length
      · rw [h4, Nat.min_eq_right hl]
      · rw [List.drop_eq_nil_of_le (by omega), List.drop_eq_nil_of_le (by omega)]
    have hread : (if ((i.data.drop r.off).take n).length = 0 then none
            else some ((i.data.drop r.off).take n ++
              List.replicate (n - ((i.data.drop r.off).take n).length) zero)) =
            expect zero i.data r.off n := by
      rw [← finish_eq]
      unfold finish
      simp only [List.length_take, List.length_drop]
      by_cases h0 : min n (i.data.length - r.off) = 0
      · rw [if_pos h0, if_pos (by omega)]
      · rw [if_neg h0, if_neg (by omega)]
    refine ⟨{ s with pos := s.pos + ((i.data.drop s.pos).take n).length }, ?_, h1, ?_, ?_, ?_⟩
    · simp only [Snd.step, Snd.read, h1, hm, Ref.step, h3, h2, hdrop, hread]
      simp
    · simp [Ref.step, h3, h2]
    · simp [Ref.step, h3]
    · simp only [Ref.step, h3, List.length_take, List.length_drop]
      simp
      omega
  | pause => exact ⟨s, rfl, h1, h2, rfl, h4⟩
  | resume o => exact ⟨s, rfl, h1, h2, rfl, h4⟩
  | restart k o =>
    obtain ⟨hk, ho'⟩ := ho.1
    subst hk ho'
    refine ⟨{ file := some i, pos := 0 }, ?_, rfl, h2, rfl, ?_⟩
    · cases hs : i.seekable with
      | true => simp [Snd.step, Snd.restart, h1, hs, Ref.step]
      | false => simp [Snd.step, Snd.restart, Snd.open_, h1, hs, Ref.step]
    · simp [Ref.step]
  | query => exact ⟨s, by simp [Snd.step, h1, Ref.step], h1, h2, h3, h4⟩

/-- A sox source that reads a file, and the reference source at the same place. -/
def SoxR (i : Input α) (s : Sox α) (r : Ref α) : Prop :=
  s.input = some i ∧ s.isFile = true ∧ 0 < s.buf ∧ r.data = i.data ∧ r.paused = s.paused ∧
    (s.reqRate = 0 ∨ s.reqRate = i.rate) ∧ (s.reqChans = 0 ∨ s.reqChans = i.chans) ∧
    s.pos ≤ i.data.length ∧
    (s.eof = true → i.data.length ≤ r.off) ∧ (s.eof = false → s.pos = r.off)

/-- The state after a successful open. -/
def Sox.after (s : Sox α) (i : Input α) : Sox α :=
  { s with input := some i, pos := 0, isFile := i.isFile, rate := i.rate, chans := i.chans }

theorem open_ok (s : Sox α) (i : Input α) (h : s.input = none)
    (h1 : s.reqRate = 0 ∨ s.reqRate = i.rate) (h2 : s.reqChans = 0 ∨ s.reqChans = i.chans) :
    s.open_ (some i) = .ok (true, s.after i) := by
  have a1 : ¬ (s.reqRate ≠ 0 ∧ s.reqRate ≠ i.rate) := by omega
  have a2 : ¬ (s.reqChans ≠ 0 ∧ s.reqChans ≠ i.chans) := by omega
  simp [Sox.open_, h, a1, a2, Sox.after]

theorem sox_sim (zero : α) (i : Input α) (hf : i.isFile = true)
    (s : Sox α) (r : Ref α) (o : Op α) (h : SoxR i s r) (ho : Stable i o) :
    ∃ s', s.step zero o = .ok ((r.step zero true o).1, s') ∧ SoxR i s' (r.step zero true o).2 := by
  obtain ⟨h1, h2, h3, h4, h5, h6, h7, h8, h9, h10⟩ := h
  cases o with
  | read n cut =>
    by_cases hp : s.paused = true
    · have hr : r.paused = true := by rw [h5, hp]
      have e : (r.step zero true (.read n cut)) = (.frame none, r) := by simp [Ref.step, hr]
      rw [e]
      exact ⟨s, by simp [Sox.step, Sox.read, hp], h1, h2, h3, h4, h5, h6, h7, h8, h9, h10⟩
    · have hp : s.paused = false := by simpa using hp
      have hr : r.paused = false := by rw [h5, hp]
      have e : (r.step zero true (.read n cut)) =
        (.frame (expect zero i.data r.off n), { r with off := r.off + n }) := by
        simp [Ref.step, hr, h4]
      rw [e]
      by_cases he : s.eof = true
      · refine ⟨s, ?_, h1, h2, h3, h4, h5, h6, h7, h8, ?_, ?_⟩
        · simp [Sox.step, Sox.read, he, expect_past zero _ _ n (h9 he)]
        · intro _; have := h9 he; show _ ≤ r.off + n; omega
        · intro h; rw [he] at h; cases h
      · have he : s.eof = false := by simpa using he
        have hpos := h10 he
        have hl := soxLoop_eq i.data s.buf h3 cut n 0 s.pos h8
        refine ⟨{ s with pos := min i.data.length (s.pos + n),
                         eof := decide (i.data.length < s.pos + n) }, ?_, h1, h2, h3, h4, h5, h6,
          h7, ?_, ?_, ?_⟩
        · rw [hpos] at hl
          simp [Sox.step, Sox.read, he, hp, h1, hl, finish_eq, hpos]
        · show min _ _ ≤ _; omega
        · intro hlt
          have hlt : i.data.length < s.pos + n := of_decide_eq_true hlt
          show _ ≤ r.off + n; omega
        · intro hlt
          have hlt : ¬ i.data.length < s.pos + n := of_decide_eq_false hlt
          show min _ _ = r.off + n; omega
  | pause =>
    refine ⟨{ s with paused := true }, ?_, h1, h2, h3, h4, rfl, h6, h7, h8, h9, h10⟩
    by_cases hp : s.paused = true
    · have : s = { s with paused := true } := by cases s; simp_all
      rw [← this]
      simp [Sox.step, Sox.pause, hp, Ref.step]
    · simp [Sox.step, Sox.pause, hp, h1, h2, Ref.step]
  | resume o =>
    refine ⟨{ s with paused := false }, ?_, h1, h2, h3, h4, rfl, h6, h7, h8, h9, h10⟩
    by_cases hp : s.paused = false
    · have : s = { s with paused := false } := by cases s; simp_all
      rw [← this]
      simp [Sox.step, Sox.resume, hp, Ref.step]
    · simp [Sox.step, Sox.resume, hp, h1, Ref.step]
  | restart k o =>
    obtain ⟨hk, ho'⟩ := ho
    subst hk ho'
    by_cases he : s.eof = true
    · have ho := open_ok { s with rate := 0, chans := 0, input := none } i rfl h6 h7
      simp only [h2, he] at ho
      refine ⟨{ s with input := some i, pos := 0, isFile := i.isFile, rate := i.rate,
                       chans := i.chans, paused := false, eof := false }, ?_, rfl, hf, h3, h4, rfl,
        h6, h7, Nat.zero_le _, ?_, ?_⟩
      · simp [Sox.step, Sox.restart, h2, he, Sox.close_, ho, Sox.after, Ref.step]
      · intro h; cases h
      · intro _; rfl
    · have he : s.eof = false := by simpa using he
      refine ⟨{ s with pos := 0, paused := false, eof := false }, ?_, h1, h2, h3, h4, rfl, h6, h7,
        Nat.zero_le _, ?_, ?_⟩
      · simp [Sox.step, Sox.restart, h2, he, h1, Ref.step]
      · intro h; cases h
      · intro _; rfl
  | query =>
    exact ⟨s, by simp [Sox.step, h1, Ref.step], h1, h2, h3, h4, h5, h6, h7, h8, h9, h10⟩

/-- A sox source that reads a device, and the reference source at the same place. -/
def DevR (rate chans : Nat) (s : Sox α) (r : Ref α) : Prop :=
  s.reqRate = rate ∧ s.reqChans = chans ∧ s.isFile = false ∧ 0 < s.buf ∧ r.paused = s.paused ∧
  (s.eof = true → r.data.length < r.off) ∧
  (s.paused = true → s.input = none) ∧
  (s.paused = false → ∃ i, s.input = some i ∧ r.data = i.data ∧
    s.pos ≤ i.data.length ∧ (s.eof = false → s.pos = r.off))

theorem dev_sim (zero : α) (rate chans : Nat)
    (s : Sox α) (r : Ref α) (o : Op α) (h : DevR rate chans s r)
    (ho : DevOk rate chans o ∧ NoQuery o ∧ NotEnded r o) :
    ∃ s', s.step zero o = .ok ((r.stepDev zero o).1, s') ∧
      DevR rate chans s' (r.stepDev zero o).2 := by
  obtain ⟨h1, h2, h3, h4, h5, h6, h7, h8⟩ := h
  obtain ⟨ho1, ho2, ho3⟩ := ho
  cases o with
  | read n cut =>
    by_cases hp : s.paused = true
    · have hr : r.paused = true := by rw [h5, hp]
      have e : (r.stepDev zero (.read n cut)) = (.frame none, r) := by simp [Ref.stepDev, hr]
      rw [e]
      exact ⟨s, by simp [Sox.step, Sox.read, hp], h1, h2, h3, h4, h5, h6, h7, h8⟩
    · have hp : s.paused = false := by simpa using hp
      have hr : r.paused = false := by rw [h5, hp]
      obtain ⟨i, a1, a2, a3, a4⟩ := h8 hp
      have e : (r.stepDev zero (.read n cut)) =
        (.frame (expect zero i.data r.off n), { r with off := r.off + n }) := by
        simp [Ref.stepDev, hr, a2]
      rw [e]
      by_cases he : s.eof = true
      · have h6' := h6 he
        rw [a2] at h6'
        refine ⟨s, ?_, h1, h2, h3, h4, h5, ?_, h7, ?_⟩
        · simp [Sox.step, Sox.read, he, expect_past zero _ _ n (Nat.le_of_lt h6')]
        · intro _; show r.data.length < r.off + n; rw [a2]; omega
        · intro _
          exact ⟨i, a1, a2, a3, fun h => by rw [he] at h; cases h⟩
      · have he : s.eof = false := by simpa using he
        have hpos := a4 he
        have hl := soxLoop_eq i.data s.buf h4 cut n 0 s.pos a3
        refine ⟨{ s with pos := min i.data.length (s.pos + n),
                         eof := decide (i.data.length < s.pos + n) }, ?_, h1, h2, h3, h4, h5, ?_,
          ?_, ?_⟩
        · rw [hpos] at hl
          simp [Sox.step, Sox.read, he, hp, a1, hl, finish_eq, hpos]
        · intro hlt
          have hlt : i.data.length < s.pos + n := of_decide_eq_true hlt
          show r.data.length < r.off + n
          rw [a2]; omega
        · intro h; exact absurd (hp.symm.trans h) (by decide)
        · intro _
          refine ⟨i, a1, a2, ?_, ?_⟩
          · show min _ _ ≤ _; omega
          · intro hlt
            have hlt : ¬ i.data.length < s.pos + n := of_decide_eq_false hlt
            show min _ _ = r.off + n; omega
  | pause =>
    refine ⟨{ s with paused := true, input := none }, ?_, h1, h2, h3, h4, rfl, h6,
      fun _ => rfl, fun h => by cases h⟩
    by_cases hp : s.paused = true
    · have : s = { s with paused := true, input := none } := by
        have := h7 hp
        cases s; simp_all
      rw [← this]
      simp [Sox.step, Sox.pause, hp, Ref.stepDev]
    · have hp : s.paused = false := by simpa using hp
      obtain ⟨i, a1, _⟩ := h8 hp
      simp [Sox.step, Sox.pause, hp, a1, h3, Ref.stepDev, Sox.close_]
  | resume o =>
    obtain ⟨i, b1, b2, b3, b4⟩ := ho1
    subst b1
    by_cases hp : s.paused = true
    · have hr : r.paused = true := by rw [h5, hp]
      have he : s.eof = false := by
        cases he : s.eof with
        | false => rfl
        | true =>
          have := h6 he
          have : r.off ≤ r.data.length := ho3
          omega
      have ho := open_ok s i (h7 hp) (by rw [h1]; exact b3) (by rw [h2]; exact b4)
      refine ⟨{ s.after i with paused := false }, ?_, h1, h2, b2, h4, ?_, ?_, ?_, ?_⟩
      · simp [Sox.step, Sox.resume, hp, h7 hp, ho, Ref.stepDev, hr]
      · simp [Ref.stepDev, hr]
      · intro h; exact absurd (he.symm.trans h) (by decide)
      · intro h; cases h
      · intro _
        refine ⟨i, rfl, ?_, Nat.zero_le _, ?_⟩
        · simp [Ref.stepDev, hr]
        · intro _; simp [Ref.stepDev, hr, Sox.after]
    · have hp : s.paused = false := by simpa using hp
      have hr : r.paused = false := by rw [h5, hp]
      have e : r.stepDev zero (.resume (some i)) = (.flag true, r) := by simp [Ref.stepDev, hr]
      rw [e]
      exact ⟨s, by simp [Sox.step, Sox.resume, hp], h1, h2, h3, h4, h5, h6, h7, h8⟩
  | restart k o =>
    obtain ⟨i, b1, b2, b3, b4⟩ := ho1
    subst b1
    have ho := open_ok { s with input := none } i rfl (by rw [h1]; exact b3) (by rw [h2]; exact b4)
    simp only [h3] at ho
    refine ⟨{ s.after i with paused := false, eof := false }, ?_, h1, h2, b2, h4, rfl, ?_, ?_, ?_⟩
    · simp [Sox.step, Sox.restart, h3, Sox.close_, ho, Ref.stepDev, Sox.after]
    · intro h; cases h
    · intro h; cases h
    · intro _
      exact ⟨i, rfl, rfl, Nat.zero_le _, fun _ => rfl⟩
  | query => exact absurd ho2 (fun h => h)

end Verif.FileSource
