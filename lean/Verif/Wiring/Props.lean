import Verif.Wiring.Model

/-
C121: pipelines are wired consistently.
-/

namespace Verif.Wiring

section
variable {C : Type}

/-- Frames of specification `s` that enter the stages `l` leave them with specification
`t`: every converting stage gets exactly what it was created for, and every stage which
does not convert was told the right rate and channels. -/
def Flows (s : Spec C) (l : List (Stage C)) (t : Spec C) : Prop :=
  match l with
  | [] => s = t
  | .conv _ i o :: l => s = i ∧ Flows o l t
  | .pass _ told :: l => told.rate = s.rate ∧ told.chans = s.chans ∧ Flows s l t

/-- Number of stages of a kind. -/
def Has (k : Kind) (l : List (Stage C)) : Nat := (l.filter fun s => s.kind == k).length

/-- The user gave a usable specification: a nonzero rate, valid channels, and a PCM format. -/
structure Spec.Good (vc : C → Bool) (s : Spec C) : Prop where
  rate : 0 < s.rate
  chans : vc s.chans = true
  fmt : s.fmt = .raw ∨ ∃ b, s.fmt = .pcm b

/-- All bits of samples fill bytes. -/
def Spec.Bytes (s : Spec C) : Prop := s.fmt = .raw ∨ ∃ n, s.fmt = .pcm (8 * n)

/-- The decimating backend is not used, or its inner resampler was created well. -/
def Env.InnerFine (e : Env) : Prop := e.dec = true → e.inner = true ∧ e.innerOk = true

/-- Nothing fails: memory is sufficient and numeric parameters are accepted. -/
def Env.AllFine (e : Env) : Prop :=
  e.packets = true ∧ e.pktz = true ∧ e.mixBuf = true ∧ e.pcmBuf = true ∧ e.profOk = true ∧
  e.watchOk = true ∧ e.chanBuf = true ∧ e.backend = true ∧ e.alloc = true ∧
  e.resampOk = true ∧ e.inner = true ∧ e.innerOk = true ∧ e.scale = true ∧
  e.resampBuf = true ∧ e.tuner = true

end

section
variable {C : Type} [DecidableEq C] {vc : C → Bool}

@[simp] theorem bind_ok {α β : Type} (a : α) (f : α → Res β) : (Res.ok a).bind f = f a := rfl
@[simp] theorem bind_abort {α β : Type} (f : α → Res β) : (Res.abort).bind f = .abort := rfl
@[simp] theorem bind_invalid {α β : Type} (f : α → Res β) :
    (Res.invalid).bind f = .invalid := rfl
@[simp] theorem need_true : need true = .ok () := rfl
@[simp] theorem need_false : need false = .abort := rfl
@[simp] theorem check_true : check true = .ok () := rfl
@[simp] theorem check_false : check false = .invalid := rfl

/-- A result that is not an abort, and whose object has the property `P`. -/
def Res.Fine {α : Type} (x : Res α) (P : α → Prop) : Prop :=
  match x with
  | .abort => False
  | .invalid => True
  | .ok a => P a

theorem fine_bind {α β : Type} {x : Res α} {P : α → Prop} {f : α → Res β} {Q : β → Prop}
    (h : x.Fine P) (hf : ∀ a, P a → (f a).Fine Q) : (x.bind f).Fine Q := by
  cases x with
  | abort => exact h.elim
  | invalid => trivial
  | ok a => exact hf a h

theorem fine_check {b : Bool} : (check b).Fine fun _ => b = true := by
  cases b <;> simp [Res.Fine]

theorem fine_need {b : Bool} (h : b = true) : (need b).Fine fun _ => True := by
  subst h; simp [Res.Fine]

theorem mkRaw_eq {r : Nat} {c : C} (hr : 0 < r) (hc : vc c = true) :
    mkRaw vc r c = .ok ⟨r, .raw, c⟩ := by
  have : (r != 0) = true := bne_iff_ne.mpr (by omega)
  simp [mkRaw, this, hc]

theorem valid_raw {r : Nat} {c : C} (hr : 0 < r) (hc : vc c = true) :
    (⟨r, .raw, c⟩ : Spec C).valid vc = true := by
  have : r ≠ 0 := by omega
  simp [Spec.valid, this, hc]

theorem Spec.eq_raw {s : Spec C} (h : s.fmt = .raw) : s = ⟨s.rate, .raw, s.chans⟩ := by
  cases s; cases h; rfl

theorem Spec.Good.valid {s : Spec C} (h : s.Good vc) : s.valid vc = true := by
  have := h.rate
  have : s.rate ≠ 0 := by omega
  rcases h.fmt with h1 | ⟨b, h1⟩ <;> simp [Spec.valid, this, h.chans, h1]

theorem fine_chanMapper {e : Env} {r : Nat} {c d : C} (hr : 0 < r) (hc : vc c = true)
    (hd : vc d = true) :
    (chanMapper vc e ⟨r, .raw, c⟩ ⟨r, .raw, d⟩).Fine fun s =>
      s = .conv .chanMapper ⟨r, .raw, c⟩ ⟨r, .raw, d⟩ ∧ e.chanBuf = true := by
  simp [chanMapper, valid_raw hr hc, valid_raw hr hd, Spec.isRaw]
  cases e.chanBuf <;> simp [Res.Fine]

theorem fine_scaling {e : Env} (hi : e.InnerFine) {q r : Nat} {c : C} (hq : 0 < q)
    (hr : 0 < r) (hc : vc c = true) :
    (setScaling vc e ⟨q, .raw, c⟩ ⟨r, .raw, c⟩).Fine fun _ => True := by
  have hs : resampSpecs vc (⟨q, .raw, c⟩ : Spec C) ⟨r, .raw, c⟩ = true := by
    simp [resampSpecs, valid_raw hq hc, valid_raw hr hc, Spec.isRaw]
  unfold setScaling
  rw [hs]
  cases hd : e.dec
  · cases e.scale <;> simp [Res.Fine]
  · obtain ⟨h1, h2⟩ := hi hd
    cases e.scale <;> simp [h1, h2, Res.Fine]

theorem fine_resampler {e : Env} (hi : e.InnerFine) {q r : Nat} {c : C} (hq : 0 < q)
    (hr : 0 < r) (hc : vc c = true) :
    (resampler vc e ⟨q, .raw, c⟩ ⟨r, .raw, c⟩).Fine fun s =>
      s = .conv .resampler ⟨q, .raw, c⟩ ⟨r, .raw, c⟩ := by
  unfold resampler
  refine fine_bind (P := fun _ => True) ?_ fun _ _ => ?_
  · unfold newResampler
    refine fine_bind fine_check fun _ _ => fine_bind fine_check fun _ _ => ?_
    cases resampSpecs vc (⟨q, .raw, c⟩ : Spec C) ⟨r, .raw, c⟩ && e.resampOk <;>
      simp [Res.Fine]
  refine fine_bind (fine_need (by simp [valid_raw hq hc, valid_raw hr hc, Spec.isRaw]))
    fun _ _ => fine_bind (fine_need (by simp)) fun _ _ => ?_
  refine fine_bind (fine_scaling hi hq hr hc) fun _ _ => fine_bind fine_check fun _ _ => ?_
  rfl

theorem fine_profiler {e : Env} {s : Spec C} (h : s.valid vc = true) :
    (profiler vc e s).Fine fun t => t = .pass .profiler s := by
  unfold profiler
  exact fine_bind (fine_need h) fun _ _ => fine_bind fine_check fun _ _ => rfl

theorem fine_monitor {e : Env} {rs : Option (Spec C × Spec C)} {s : Spec C}
    (h : s.valid vc = true)
    (hr : e.intact = false → ∃ i o, rs = some (i, o) ∧
      (setScaling vc e i o).Fine fun _ => True) :
    (monitor vc e rs s).Fine fun t => t = .pass .monitor s := by
  unfold monitor
  refine fine_bind (fine_need h) fun _ _ => fine_bind fine_check fun _ _ => ?_
  refine fine_bind (P := fun _ => True) ?_ fun _ _ => rfl
  cases hi : e.intact
  · obtain ⟨i, o, rfl, h2⟩ := hr hi
    simpa using h2
  · simp [Res.Fine]

theorem fine_pcm {e : Env} {r : Nat} {c : C} {f g : Fmt} (hr : 0 < r) (hc : vc c = true)
    (hf : (⟨r, f, c⟩ : Spec C).Bytes) (hg : (⟨r, g, c⟩ : Spec C).Bytes) :
    (pcmMapper vc e ⟨r, f, c⟩ ⟨r, g, c⟩).Fine fun s =>
      s = .conv .pcmMapper ⟨r, f, c⟩ ⟨r, g, c⟩ := by
  have h0 : r ≠ 0 := by omega
  have key : ∀ f : Fmt, (⟨r, f, c⟩ : Spec C).Bytes →
      (⟨r, f, c⟩ : Spec C).valid vc = true ∧ f.bits % 8 = 0 := by
    intro f hf
    rcases hf with h | ⟨n, h⟩ <;> simp only at h <;> subst h <;>
      simp [Spec.valid, h0, hc, Fmt.bits]
  obtain ⟨a1, a2⟩ := key f hf
  obtain ⟨b1, b2⟩ := key g hg
  unfold pcmMapper
  simp only [a1, b1, a2, b2, Bool.and_self, beq_self_eq_true, need_true, bind_ok]
  exact fine_bind fine_check fun _ _ => rfl

theorem has_app (k : Kind) (l m : List (Stage C)) : Has k (l ++ m) = Has k l + Has k m := by
  simp [Has]

theorem flows_app {s t u : Spec C} {l m : List (Stage C)} (h : Flows s l t)
    (h' : Flows t m u) : Flows s (l ++ m) u := by
  induction l generalizing s with
  | nil => obtain rfl := h; exact h'
  | cons a l ih =>
    cases a with
    | conv k i o => exact ⟨h.1, ih h.2⟩
    | pass k t => exact ⟨h.1, h.2.1, ih h.2.2⟩

/-- Above the fanout. -/
theorem fine_sink {e : Env} {input : Spec C} (hi : input.Good vc) (hb : input.Bytes) :
    (senderSink vc e input).Fine fun l =>
      Flows input l ⟨input.rate, .raw, input.chans⟩ ∧
      Has .pcmMapper l = (if input.fmt = .raw then 0 else 1) ∧
      Has .resampler l = 0 ∧ Has .chanMapper l = 0 ∧ Has .packetizer l = 0 := by
  unfold senderSink
  refine fine_bind (P := fun l => Flows input l ⟨input.rate, .raw, input.chans⟩ ∧
      Has .pcmMapper l = (if input.fmt = .raw then 0 else 1) ∧
      Has .resampler l = 0 ∧ Has .chanMapper l = 0 ∧ Has .packetizer l = 0) ?_ ?_
  · by_cases hf : input.fmt = .raw
    · simp only [Spec.isRaw, hf, beq_self_eq_true, if_true, Res.Fine]
      exact ⟨by cases input; simp_all [Flows], rfl, rfl, rfl, rfl⟩
    · rw [if_neg (by simpa [Spec.isRaw] using hf)]
      rw [mkRaw_eq hi.rate hi.chans, bind_ok]
      refine fine_bind (fine_pcm (f := input.fmt) hi.rate hi.chans hb (Or.inl rfl)) ?_
      rintro s rfl
      refine ⟨⟨rfl, rfl⟩, ?_, rfl, rfl, rfl⟩
      rw [if_neg hf]; rfl
  · rintro l ⟨h1, h2, h3, h4, h5⟩
    cases e.profiling
    · exact ⟨h1, h2, h3, h4, h5⟩
    · rw [if_pos rfl]
      refine fine_bind (fine_profiler hi.valid) ?_
      rintro s rfl
      exact ⟨⟨rfl, rfl, h1⟩, h2, h3, h4, h5⟩

/-- Below the fanout. -/
theorem fine_session {e : Env} (hn : e.InnerFine) {input pkt : Spec C} (hi : input.Good vc)
    (hp : pkt.Good vc) :
    (senderSession vc e input pkt).Fine fun l =>
      Flows ⟨input.rate, .raw, input.chans⟩ l pkt ∧
      Has .pcmMapper l = 0 ∧
      Has .resampler l = (if e.intact = true ∧ pkt.rate = input.rate then 0 else 1) ∧
      Has .chanMapper l = (if pkt.chans = input.chans then 0 else 1) ∧
      Has .packetizer l = 1 := by
  unfold senderSession
  refine fine_bind fine_check fun _ _ => ?_
  rw [mkRaw_eq hp.rate hp.chans, bind_ok]
  refine fine_bind (fine_need (by simp [valid_raw hp.rate hp.chans, Spec.isRaw]))
    fun _ _ => fine_bind fine_check fun _ _ => ?_
  refine fine_bind (P := fun l => Flows ⟨pkt.rate, .raw, input.chans⟩ l pkt ∧
      Has .pcmMapper l = 0 ∧ Has .resampler l = 0 ∧
      Has .chanMapper l = (if pkt.chans = input.chans then 0 else 1) ∧
      Has .packetizer l = 1) ?_ ?_
  · by_cases hc : pkt.chans = input.chans
    · rw [if_neg (by simpa using hc)]
      refine ⟨⟨by rw [hc], rfl⟩, rfl, rfl, ?_, rfl⟩
      rw [if_pos hc]; rfl
    · rw [if_pos (by simpa using hc), mkRaw_eq hp.rate hi.chans, bind_ok, bind_ok]
      refine fine_bind (fine_chanMapper hp.rate hi.chans hp.chans) ?_
      rintro s ⟨rfl, -⟩
      refine ⟨⟨rfl, rfl, rfl⟩, rfl, rfl, ?_, rfl⟩
      rw [if_neg hc]; rfl
  rintro l ⟨h1, h2, h3, h4, h5⟩
  refine fine_bind (P := fun (l, rs) => (Flows ⟨input.rate, .raw, input.chans⟩ l pkt ∧
      Has .pcmMapper l = 0 ∧
      Has .resampler l = (if e.intact = true ∧ pkt.rate = input.rate then 0 else 1) ∧
      Has .chanMapper l = (if pkt.chans = input.chans then 0 else 1) ∧
      Has .packetizer l = 1) ∧ (e.intact = false → ∃ i o, rs = some (i, o) ∧
      (setScaling vc e i o).Fine fun _ => True)) ?_ ?_
  · by_cases hr : e.intact = true ∧ pkt.rate = input.rate
    · rw [if_neg (by simp [hr.1, hr.2])]
      refine ⟨⟨by rw [← hr.2]; exact h1, h2, ?_, h4, h5⟩, fun h => ?_⟩
      · rw [if_pos hr]; exact h3
      · rw [hr.1] at h; cases h
    · rw [if_pos (by
        cases h : e.intact
        · simp
        · simp only [Bool.not_true, Bool.false_or, bne_iff_ne]
          exact fun h' => hr ⟨h, h'⟩), mkRaw_eq hi.rate hi.chans, bind_ok,
        mkRaw_eq hp.rate hi.chans, bind_ok]
      refine fine_bind (fine_resampler hn hi.rate hp.rate hi.chans) ?_
      rintro s rfl
      refine ⟨⟨⟨rfl, h1⟩, h2, ?_, h4, h5⟩, fun _ => ⟨_, _, rfl, ?_⟩⟩
      · rw [if_neg hr]
        show Has .resampler (_ :: l) = 1
        simp only [Has, List.filter_cons, Stage.kind, beq_self_eq_true, if_true,
          List.length_cons] at h3 ⊢
        omega
      · exact fine_scaling hn hi.rate hp.rate hi.chans
  · rintro ⟨m, rs⟩ ⟨⟨g1, g2, g3, g4, g5⟩, g6⟩
    refine fine_bind (fine_monitor hi.valid g6) ?_
    rintro s rfl
    exact ⟨⟨rfl, rfl, g1⟩, g2, g3, g4, g5⟩

/-- **C121 (sender).** For every usable specification of user frames (raw, or another PCM
format that fills bytes), every usable encoding of packets, every configuration and all
failures of memory and checks (except inside the decimating resampler), creating a sender
does not abort: it fails or gives a chain that takes frames of exactly the user's
specification to exactly the encoding of packets, each stage getting what it was made for.
A PCM mapper is present iff the user's format is not raw, a channel mapper iff channels
differ, a resampler iff rates differ or latency is tuned, each once. -/
theorem C121_sender (e : Env) (input pkt : Spec C) (hn : e.InnerFine)
    (hi : input.Good vc) (hb : input.Bytes) (hp : pkt.Good vc) :
    sender vc e input pkt ≠ .abort ∧ ∀ l, sender vc e input pkt = .ok l →
      Flows input l pkt ∧ Flows (senderSinkSpec input) l pkt ∧
      Has .pcmMapper l = (if input.fmt = .raw then 0 else 1) ∧
      Has .resampler l = (if e.intact = true ∧ pkt.rate = input.rate then 0 else 1) ∧
      Has .chanMapper l = (if pkt.chans = input.chans then 0 else 1) ∧
      Has .packetizer l = 1 := by
  have h : (sender vc e input pkt).Fine fun l => Flows input l pkt ∧
      Flows (senderSinkSpec input) l pkt ∧
      Has .pcmMapper l = (if input.fmt = .raw then 0 else 1) ∧
      Has .resampler l = (if e.intact = true ∧ pkt.rate = input.rate then 0 else 1) ∧
      Has .chanMapper l = (if pkt.chans = input.chans then 0 else 1) ∧
      Has .packetizer l = 1 := by
    refine fine_bind (fine_sink hi hb) ?_
    rintro l ⟨h1, h2, h3, h4, h5⟩
    refine fine_bind (fine_session hn hi hp) ?_
    rintro m ⟨g1, g2, g3, g4, g5⟩
    have hf := flows_app h1 g1
    refine ⟨hf, hf, ?_, ?_, ?_, ?_⟩ <;> rw [has_app]
    · rw [h2, g2]; simp
    · rw [h3, g3]; simp
    · rw [h4, g4]; simp
    · rw [h5, g5]
  cases hs : sender vc e input pkt with
  | abort => rw [hs] at h; exact h.elim
  | invalid => exact ⟨fun h => (by cases h), fun l h => (by cases h)⟩
  | ok l =>
    rw [hs] at h
    refine ⟨fun h => (by cases h), fun m hm => ?_⟩
    cases hm; exact h

theorem flows_to {s t u : Spec C} {l : List (Stage C)} (h : t = u) (hf : Flows s l t) :
    Flows s l u := h ▸ hf

theorem flows_snoc_conv {s i o : Spec C} {k : Kind} {l : List (Stage C)} (h : Flows s l i) :
    Flows s (l ++ [.conv k i o]) o := flows_app h ⟨rfl, rfl⟩

theorem flows_snoc_pass {s t u : Spec C} {k : Kind} {l : List (Stage C)} (h : Flows s l t)
    (hr : u.rate = t.rate) (hc : u.chans = t.chans) : Flows s (l ++ [.pass k u]) t :=
  flows_app h ⟨hr, hc, rfl⟩

/-- **C121 (receiver).** For every raw specification of user frames, every usable encoding
of packets, every configuration and all failures (except inside the decimating
resampler), creating a receiver and a session does not abort: it fails or gives a chain
that takes packets of exactly that encoding to frames of exactly the user's specification.
A channel mapper is present iff channels differ, a resampler iff rates differ or latency
is tuned, a watchdog iff one of its timeouts is enabled, each once. -/
theorem C121_receiver_partial (e : Env) (pkt output : Spec C) (hn : e.InnerFine)
    (ho : output.Good vc) (hraw : output.fmt = .raw) (hp : pkt.Good vc) :
    receiver vc e pkt output ≠ .abort ∧ ∀ l, receiver vc e pkt output = .ok l →
      Flows pkt l output ∧ Has .depacketizer l = 1 ∧ Has .mixer l = 1 ∧
      Has .resampler l = (if e.intact = true ∧ pkt.rate = output.rate then 0 else 1) ∧
      Has .chanMapper l = (if pkt.chans = output.chans then 0 else 1) ∧
      Has .watchdog l = (if e.watch = true then 1 else 0) := by
  have hv := ho.valid
  have hout : output = ⟨output.rate, .raw, output.chans⟩ := by
    cases output; simp_all
  have h : (receiver vc e pkt output).Fine fun l => Flows pkt l output ∧
      Has .depacketizer l = 1 ∧ Has .mixer l = 1 ∧
      Has .resampler l = (if e.intact = true ∧ pkt.rate = output.rate then 0 else 1) ∧
      Has .chanMapper l = (if pkt.chans = output.chans then 0 else 1) ∧
      Has .watchdog l = (if e.watch = true then 1 else 0) := by
    unfold receiver
    refine fine_bind (P := fun l => Flows output l output ∧ Has .depacketizer l = 0 ∧
      Has .mixer l = 1 ∧ Has .resampler l = 0 ∧ Has .chanMapper l = 0 ∧
      Has .watchdog l = 0) ?_ ?_
    · unfold receiverSource
      refine fine_bind (fine_need (by simp [hv, Spec.isRaw, hraw])) fun _ _ =>
        fine_bind fine_check fun _ _ => ?_
      rw [if_pos (by simp [Spec.isRaw, hraw]), bind_ok]
      cases e.profiling
      · exact ⟨⟨rfl, rfl, rfl⟩, rfl, rfl, rfl, rfl, rfl⟩
      · rw [if_pos rfl]
        refine fine_bind (fine_profiler hv) ?_
        rintro s rfl
        exact ⟨⟨rfl, rfl, rfl, rfl, rfl⟩, rfl, rfl, rfl, rfl, rfl⟩
    rintro t ⟨t1, t2, t3, t4, t5, t6⟩
    refine fine_bind (P := fun l => Flows pkt l output ∧ Has .depacketizer l = 1 ∧
      Has .mixer l = 0 ∧
      Has .resampler l = (if e.intact = true ∧ pkt.rate = output.rate then 0 else 1) ∧
      Has .chanMapper l = (if pkt.chans = output.chans then 0 else 1) ∧
      Has .watchdog l = (if e.watch = true then 1 else 0)) ?_ ?_
    · unfold receiverSession
      refine fine_bind fine_check fun _ _ => ?_
      rw [mkRaw_eq hp.rate hp.chans, bind_ok]
      refine fine_bind (fine_need (by simp [valid_raw hp.rate hp.chans, Spec.isRaw]))
        fun _ _ => ?_
      refine fine_bind (P := fun l => Flows pkt l ⟨pkt.rate, .raw, pkt.chans⟩ ∧
        Has .depacketizer l = 1 ∧ Has .mixer l = 0 ∧ Has .resampler l = 0 ∧
        Has .chanMapper l = 0 ∧ Has .watchdog l = (if e.watch = true then 1 else 0)) ?_ ?_
      · cases e.watch
        · exact ⟨⟨rfl, rfl⟩, rfl, rfl, rfl, rfl, rfl⟩
        · rw [if_pos rfl]
          refine fine_bind fine_check fun _ _ => ?_
          exact ⟨⟨rfl, rfl, rfl, rfl⟩, rfl, rfl, rfl, rfl, rfl⟩
      rintro l ⟨h1, h2, h3, h4, h5, h6⟩
      refine fine_bind (P := fun l => Flows pkt l ⟨pkt.rate, .raw, output.chans⟩ ∧
        Has .depacketizer l = 1 ∧ Has .mixer l = 0 ∧ Has .resampler l = 0 ∧
        Has .chanMapper l = (if pkt.chans = output.chans then 0 else 1) ∧
        Has .watchdog l = (if e.watch = true then 1 else 0)) ?_ ?_
      · by_cases hc : pkt.chans = output.chans
        · rw [if_neg (by simpa using hc)]
          refine ⟨by rw [← hc]; exact h1, h2, h3, h4, ?_, h6⟩
          rw [if_pos hc]; exact h5
        · rw [if_pos (by simpa using hc), mkRaw_eq hp.rate ho.chans,
            bind_ok, bind_ok]
          refine fine_bind (fine_chanMapper hp.rate hp.chans ho.chans) ?_
          rintro s ⟨rfl, -⟩
          refine ⟨flows_snoc_conv h1, ?_, ?_, ?_, ?_, ?_⟩ <;> rw [has_app]
          · rw [h2]; rfl
          · rw [h3]; rfl
          · rw [h4]; rfl
          · rw [h5, if_neg hc]; rfl
          · rw [h6]; rfl
      rintro l ⟨h1, h2, h3, h4, h5, h6⟩
      refine fine_bind (P := fun (l, rs) => (Flows pkt l output ∧
        Has .depacketizer l = 1 ∧ Has .mixer l = 0 ∧
        Has .resampler l = (if e.intact = true ∧ pkt.rate = output.rate then 0 else 1) ∧
        Has .chanMapper l = (if pkt.chans = output.chans then 0 else 1) ∧
        Has .watchdog l = (if e.watch = true then 1 else 0)) ∧
        (e.intact = false → ∃ i o, rs = some (i, o) ∧
        (setScaling vc e i o).Fine fun _ => True)) ?_ ?_
      · by_cases hr : e.intact = true ∧ pkt.rate = output.rate
        · rw [if_neg (by simp [hr.1, hr.2])]
          refine ⟨⟨?_, h2, h3, ?_, h5, h6⟩, fun h => ?_⟩
          · rw [hout, ← hr.2]; exact h1
          · rw [if_pos hr]; exact h4
          · rw [hr.1] at h; cases h
        · rw [if_pos (by
            cases h : e.intact
            · simp
            · simp only [Bool.not_true, Bool.false_or, bne_iff_ne]
              exact fun h' => hr ⟨h, h'⟩), mkRaw_eq hp.rate ho.chans, bind_ok,
            mkRaw_eq ho.rate ho.chans, bind_ok]
          refine fine_bind (fine_resampler hn hp.rate ho.rate ho.chans) ?_
          rintro s rfl
          refine ⟨⟨?_, ?_, ?_, ?_, ?_, ?_⟩, fun _ => ⟨_, _, rfl, ?_⟩⟩
          · have := flows_snoc_conv (k := .resampler)
              (o := ⟨output.rate, .raw, output.chans⟩) h1
            exact flows_to hout.symm this
          · rw [has_app, h2]; rfl
          · rw [has_app, h3]; rfl
          · rw [has_app, h4, if_neg hr]; rfl
          · rw [has_app, h5]; rfl
          · rw [has_app, h6]; rfl
          · exact fine_scaling hn hp.rate ho.rate ho.chans
      · rintro ⟨m, rs⟩ ⟨⟨g1, g2, g3, g4, g5, g6⟩, g7⟩
        refine fine_bind (fine_monitor hv g7) ?_
        rintro s rfl
        refine ⟨flows_snoc_pass g1 rfl rfl, ?_, ?_, ?_, ?_, ?_⟩ <;> rw [has_app]
        · rw [g2]; rfl
        · rw [g3]; rfl
        · rw [g4]; rfl
        · rw [g5]; rfl
        · rw [g6]; rfl
    · rintro m ⟨g1, g2, g3, g4, g5, g6⟩
      refine ⟨flows_app g1 t1, ?_, ?_, ?_, ?_, ?_⟩ <;> rw [has_app]
      · rw [g2, t2]
      · rw [g3, t3]
      · rw [g4, t4]; simp
      · rw [g5, t5]; simp
      · rw [g6, t6]; simp
  cases hs : receiver vc e pkt output with
  | abort => rw [hs] at h; exact h.elim
  | invalid => exact ⟨fun h => (by cases h), fun l h => (by cases h)⟩
  | ok l =>
    rw [hs] at h
    refine ⟨fun h => (by cases h), fun m hm => ?_⟩
    cases hm; exact h

/-- **C121 (sender, what fails).** A sender whose user asked for a format with a number of
bits that is not a multiple of 8 (18-bit and 20-bit formats) aborts when created. -/
theorem C121_bits_fails (e : Env) (input pkt : Spec C) (hi : input.Good vc) (b : Nat)
    (hf : input.fmt = .pcm b) (hb : b % 8 ≠ 0) : sender vc e input pkt = .abort := by
  have hr : input.isRaw = false := by simp [Spec.isRaw, hf]
  have hv := hi.valid
  have h1 : input.rate ≠ 0 ∧ vc input.chans = true := by
    simp only [Spec.valid, Bool.and_eq_true, bne_iff_ne, ne_eq] at hv
    exact ⟨hv.1.2, hv.2⟩
  have hm : mkRaw vc input.rate input.chans = .ok ⟨input.rate, .raw, input.chans⟩ := by
    simp [mkRaw, need, h1.1, h1.2, Res.bind]
  have hp : pcmMapper vc e input ⟨input.rate, .raw, input.chans⟩ = .abort := by
    simp [pcmMapper, need, hv, Spec.valid, h1.1, h1.2, Fmt.bits, hf, hb, Res.bind]
  simp [sender, senderSink, hr, hm, hp, Res.bind]

/-- **C121 (receiver, what fails).** A receiver whose user asked for any format other than
raw aborts when created, whatever the rest of the configuration: the mixer is given the
format of the user instead of the raw format, so the PCM mapper is never created. -/
theorem C121_receiver_fails (e : Env) (output : Spec C) (h : output.fmt ≠ .raw) :
    receiverSource vc e output = .abort := by
  have : output.isRaw = false := by simpa [Spec.isRaw] using h
  simp [receiverSource, this]

/-- **C121 (transcoder).** For raw specifications a transcoder does not abort (except
inside the decimating resampler), and both kinds take frames of the input specification to
frames of the output specification. A channel mapper is present iff channels differ, a
resampler iff rates differ. -/
theorem C121_transcoder_partial (e : Env) (input output : Spec C) (hn : e.InnerFine)
    (hi : input.Good vc) (ho : output.Good vc) (hir : input.fmt = .raw)
    (hor : output.fmt = .raw) :
    (transcoderSink vc e input output).Fine (fun l => Flows input l output ∧
      Has .resampler l = (if input.rate = output.rate then 0 else 1) ∧
      Has .chanMapper l = (if input.chans = output.chans then 0 else 1)) ∧
    (transcoderSource vc e input output).Fine (fun l => Flows input l output ∧
      Has .resampler l = (if input.rate = output.rate then 0 else 1) ∧
      Has .chanMapper l = (if input.chans = output.chans then 0 else 1)) := by
  have hin : input = ⟨input.rate, .raw, input.chans⟩ := Spec.eq_raw hir
  have hout : output = ⟨output.rate, .raw, output.chans⟩ := Spec.eq_raw hor
  constructor
  · unfold transcoderSink
    refine fine_bind (P := fun l => Flows ⟨output.rate, .raw, input.chans⟩ l output ∧
      Has .resampler l = 0 ∧
      Has .chanMapper l = (if input.chans = output.chans then 0 else 1)) ?_ ?_
    · by_cases hc : input.chans = output.chans
      · rw [if_neg (by simpa using hc)]
        refine ⟨by rw [hc]; exact hout.symm, rfl, ?_⟩
        rw [if_pos hc]; rfl
      · rw [if_pos (by simpa using hc), mkRaw_eq ho.rate hi.chans, bind_ok,
          mkRaw_eq ho.rate ho.chans, bind_ok]
        refine fine_bind (fine_chanMapper ho.rate hi.chans ho.chans) ?_
        rintro s ⟨rfl, -⟩
        refine ⟨⟨rfl, hout.symm⟩, rfl, ?_⟩
        rw [if_neg hc]; rfl
    rintro l ⟨h1, h2, h3⟩
    refine fine_bind (P := fun l => Flows input l output ∧
      Has .resampler l = (if input.rate = output.rate then 0 else 1) ∧
      Has .chanMapper l = (if input.chans = output.chans then 0 else 1)) ?_ ?_
    · by_cases hr : input.rate = output.rate
      · rw [if_neg (by simpa using hr)]
        refine ⟨by rw [hin, hr]; exact h1, ?_, h3⟩
        rw [if_pos hr]; exact h2
      · rw [if_pos (by simpa using hr), mkRaw_eq hi.rate hi.chans, bind_ok,
          mkRaw_eq ho.rate hi.chans, bind_ok]
        refine fine_bind (fine_resampler hn hi.rate ho.rate hi.chans) ?_
        rintro s rfl
        refine ⟨⟨hin, h1⟩, ?_, h3⟩
        rw [if_neg hr]
        have := has_app .resampler [Stage.conv .resampler
          (⟨input.rate, .raw, input.chans⟩ : Spec C) ⟨output.rate, .raw, input.chans⟩] l
        rw [h2] at this; exact this
    rintro l ⟨h1, h2, h3⟩
    cases e.profiling
    · exact ⟨h1, h2, h3⟩
    · rw [if_pos rfl]
      refine fine_bind (fine_profiler hi.valid) ?_
      rintro s rfl
      exact ⟨⟨rfl, rfl, h1⟩, h2, h3⟩
  · unfold transcoderSource
    refine fine_bind (P := fun l => Flows input l ⟨input.rate, .raw, output.chans⟩ ∧
      Has .resampler l = 0 ∧
      Has .chanMapper l = (if input.chans = output.chans then 0 else 1)) ?_ ?_
    · by_cases hc : input.chans = output.chans
      · rw [if_neg (by simpa using hc)]
        refine ⟨by rw [← hc]; exact hin, rfl, ?_⟩
        rw [if_pos hc]; rfl
      · rw [if_pos (by simpa using hc), mkRaw_eq hi.rate hi.chans, bind_ok,
          mkRaw_eq hi.rate ho.chans, bind_ok]
        refine fine_bind (fine_chanMapper hi.rate hi.chans ho.chans) ?_
        rintro s ⟨rfl, -⟩
        refine ⟨⟨hin, rfl⟩, rfl, ?_⟩
        rw [if_neg hc]; rfl
    rintro l ⟨h1, h2, h3⟩
    refine fine_bind (P := fun l => Flows input l output ∧
      Has .resampler l = (if input.rate = output.rate then 0 else 1) ∧
      Has .chanMapper l = (if input.chans = output.chans then 0 else 1)) ?_ ?_
    · by_cases hr : input.rate = output.rate
      · rw [if_neg (by simpa using hr)]
        refine ⟨by rw [hout, ← hr]; exact h1, ?_, h3⟩
        rw [if_pos hr]; exact h2
      · rw [if_pos (by simpa using hr), mkRaw_eq hi.rate ho.chans, bind_ok,
          mkRaw_eq ho.rate ho.chans, bind_ok]
        refine fine_bind (fine_resampler hn hi.rate ho.rate ho.chans) ?_
        rintro s rfl
        refine ⟨?_, ?_, ?_⟩
        · have := flows_snoc_conv (k := .resampler)
            (o := ⟨output.rate, .raw, output.chans⟩) h1
          exact flows_to hout.symm this
        · rw [has_app, h2, if_neg hr]; rfl
        · rw [has_app, h3]; rfl
    rintro l ⟨h1, h2, h3⟩
    cases e.profiling
    · exact ⟨h1, h2, h3⟩
    · rw [if_pos rfl]
      refine fine_bind (fine_profiler ho.valid) ?_
      rintro s rfl
      exact ⟨flows_snoc_pass h1 rfl rfl, by rw [has_app, h2]; rfl, by rw [has_app, h3]; rfl⟩

theorem flows_fun {s t : Spec C} {l : List (Stage C)} (h : Flows s l t) {s' t' : Spec C}
    (h' : Flows s' l t') (hne : s.rate ≠ t.rate ∨ s.chans ≠ t.chans) :
    s'.rate = s.rate ∧ s'.chans = s.chans := by
  induction l generalizing s s' with
  | nil => obtain rfl := h; rcases hne with h | h <;> exact absurd rfl h
  | cons a l ih =>
    cases a with
    | conv k i o => rw [h.1, h'.1]; exact ⟨rfl, rfl⟩
    | pass k u => exact ⟨h'.1.symm.trans h.1, h'.2.1.symm.trans h.2.1⟩

/-- **C121 (transcoder sink, what fails).** Whenever input and output differ in rate or
channels, a transcoder sink reports a specification whose frames it cannot process: no
frames of the specification that `sample_spec()` returns flow through it. -/
theorem C121_sink_spec_fails (e : Env) (input output : Spec C) (hn : e.InnerFine)
    (hi : input.Good vc) (ho : output.Good vc) (hir : input.fmt = .raw)
    (hor : output.fmt = .raw) (hne : input.rate ≠ output.rate ∨ input.chans ≠ output.chans)
    (l : List (Stage C)) (h : transcoderSink vc e input output = .ok l) (t : Spec C) :
    ¬ Flows (transcoderSinkSpec input output) l t := by
  have h1 := (C121_transcoder_partial e input output hn hi ho hir hor).1
  rw [h] at h1
  intro h2
  obtain ⟨a, b⟩ := flows_fun h1.1 h2 hne
  rcases hne with h3 | h3
  · exact h3 a.symm
  · exact h3 b.symm

/-- **C121 (transcoder, what fails).** A transcoder never converts formats: if input and
output differ only in format it is a valid object which hands over samples unconverted. -/
theorem C121_transcoder_fails (e : Env) (r : Nat) (c : C) (f g : Fmt) (hfg : f ≠ g)
    (hp : e.profiling = false) :
    ∃ l, transcoderSink vc e ⟨r, f, c⟩ ⟨r, g, c⟩ = .ok l ∧
      transcoderSource vc e ⟨r, f, c⟩ ⟨r, g, c⟩ = .ok l ∧
      ¬ Flows ⟨r, f, c⟩ l ⟨r, g, c⟩ := by
  refine ⟨[], by simp [transcoderSink, hp], by simp [transcoderSource, hp], ?_⟩
  intro h
  have h : (⟨r, f, c⟩ : Spec C) = ⟨r, g, c⟩ := h
  injection h with _ h _
  exact hfg h

/-- **C121 (decimation, what fails).** If the inner resampler of the decimating backend
could not be allocated or is not valid, and rates differ, creation of a sender, receiver or
transcoder aborts instead of failing: the outer resampler does not check the inner one. -/
theorem C121_inner_fails (e : Env) (input output : Spec C) (hi : input.Good vc)
    (ho : output.Good vc) (hir : input.fmt = .raw) (hor : output.fmt = .raw)
    (hne : input.rate ≠ output.rate)
    (hall : ({ e with inner := true, innerOk := true } : Env).AllFine) (hd : e.dec = true)
    (hin : e.inner = false ∨ e.innerOk = false) :
    sender vc e input output = .abort ∧ receiver vc e input output = .abort ∧
    transcoderSink vc e input output = .abort ∧
    transcoderSource vc e input output = .abort := by
  obtain ⟨a1, a2, a3, a4, a5, a6, a7, a8, a9, a10, -, -, a13, a14, a15⟩ := hall
  dsimp only at a1 a2 a3 a4 a5 a6 a7 a8 a9 a10 a13 a14 a15
  have key : ∀ (q r : Nat) (c : C), 0 < q → 0 < r → q ≠ r → vc c = true →
      resampler vc e ⟨q, .raw, c⟩ ⟨r, .raw, c⟩ = .abort := by
    intro q r c hq hr hqr hc
    have hs : resampSpecs vc (⟨q, .raw, c⟩ : Spec C) ⟨r, .raw, c⟩ = true := by
      simp [resampSpecs, valid_raw hq hc, valid_raw hr hc, Spec.isRaw]
    have hqr : (q != r) = true := bne_iff_ne.mpr hqr
    rcases hin with h | h
    · simp [resampler, newResampler, a8, a9, a10, hs, valid_raw hq hc, valid_raw hr hc,
        Spec.isRaw, setScaling, hd, hqr, h]
    · cases hx : e.inner <;>
      simp [resampler, newResampler, a8, a9, a10, hs, valid_raw hq hc, valid_raw hr hc,
        Spec.isRaw, setScaling, hd, hqr, h, hx]
  have hin' : input = ⟨input.rate, .raw, input.chans⟩ := Spec.eq_raw hir
  have hout : output = ⟨output.rate, .raw, output.chans⟩ := Spec.eq_raw hor
  have chm : ∀ (r : Nat) (c d : C), 0 < r → vc c = true → vc d = true →
      chanMapper vc e ⟨r, .raw, c⟩ ⟨r, .raw, d⟩
        = .ok (.conv .chanMapper ⟨r, .raw, c⟩ ⟨r, .raw, d⟩) := by
    intro r c d hr hc hd'
    simp [chanMapper, valid_raw hr hc, valid_raw hr hd', Spec.isRaw, a7]
  have prof : ∀ s : Spec C, s.valid vc = true → profiler vc e s = .ok (.pass .profiler s) := by
    intro s h; simp [profiler, h, a5]
  have hne' : output.rate ≠ input.rate := fun h => hne h.symm
  have raws : input.isRaw = true ∧ output.isRaw = true := by simp [Spec.isRaw, hir, hor]
  have vraw : ∀ (r : Nat) (c : C), 0 < r → vc c = true →
      (⟨r, .raw, c⟩ : Spec C).isRaw = true := fun _ _ _ _ => rfl
  refine ⟨?_, ?_, ?_, ?_⟩
  · have h1 : ∃ l, senderSink vc e input = .ok l := by
      cases hp : e.profiling <;>
        simp [senderSink, raws.1, hp, prof _ hi.valid]
    obtain ⟨l, h1⟩ := h1
    simp only [sender, h1, bind_ok, senderSession, a1, a2, check_true,
      mkRaw_eq ho.rate ho.chans, mkRaw_eq ho.rate hi.chans, mkRaw_eq hi.rate hi.chans,
      valid_raw ho.rate ho.chans, vraw _ _ ho.rate ho.chans, Bool.and_self, need_true]
    by_cases hc : output.chans = input.chans
    · simp [hc, hne', key _ _ _ hi.rate ho.rate hne hi.chans]
    · simp [hc, hne', key _ _ _ hi.rate ho.rate hne hi.chans,
        chm _ _ _ ho.rate hi.chans ho.chans]
  · have h1 : ∃ l, receiverSource vc e output = .ok l := by
      cases hp : e.profiling <;>
        simp [receiverSource, raws.2, hp, prof _ ho.valid, ho.valid, a3]
    obtain ⟨l, h1⟩ := h1
    simp only [receiver, h1, bind_ok, receiverSession, a1, a6, check_true,
      mkRaw_eq hi.rate ho.chans, mkRaw_eq ho.rate ho.chans, mkRaw_eq hi.rate hi.chans,
      valid_raw hi.rate hi.chans, vraw _ _ hi.rate hi.chans, Bool.and_self, need_true]
    have k := key _ _ _ hi.rate ho.rate hne ho.chans
    by_cases hc : input.chans = output.chans
    · cases e.watch <;> simp [hc, hne, k]
    · cases e.watch <;>
      simp [hc, hne, k, chm _ _ _ hi.rate hi.chans ho.chans]
  · simp only [transcoderSink, mkRaw_eq ho.rate ho.chans, mkRaw_eq ho.rate hi.chans,
      mkRaw_eq hi.rate hi.chans, bind_ok]
    have k := key _ _ _ hi.rate ho.rate hne hi.chans
    by_cases hc : input.chans = output.chans
    · simp [hc] at k
      simp [hc, hne, k]
    · simp [hc, hne, k, chm _ _ _ ho.rate hi.chans ho.chans]
  · simp only [transcoderSource, mkRaw_eq hi.rate ho.chans, mkRaw_eq ho.rate ho.chans,
      mkRaw_eq hi.rate hi.chans, bind_ok]
    have k := key _ _ _ hi.rate ho.rate hne ho.chans
    by_cases hc : input.chans = output.chans
    · simp [hc, hne, k]
    · simp [hc, hne, k, chm _ _ _ hi.rate hi.chans ho.chans]

/-- **C121 (creation).** If memory is sufficient and numeric parameters are accepted, then
sender, receiver and transcoder are created for all usable specifications (raw ones for
receiver; for the transcoder formats do not matter). -/
theorem C121_created (e : Env) (input output : Spec C) (hi : input.Good vc)
    (ho : output.Good vc) (hall : e.AllFine) :
    (input.Bytes → ∃ l, sender vc e input output = .ok l) ∧
    (output.fmt = .raw → ∃ l, receiver vc e input output = .ok l) ∧
    (∃ l, transcoderSink vc e input output = .ok l) ∧
    (∃ l, transcoderSource vc e input output = .ok l) := by
  obtain ⟨a1, a2, a3, a4, a5, a6, a7, a8, a9, a10, a11, a12, a13, a14, a15⟩ := hall
  have scal : ∀ (q r : Nat) (c : C), 0 < q → 0 < r → vc c = true →
      setScaling vc e (⟨q, .raw, c⟩ : Spec C) ⟨r, .raw, c⟩ = .ok () := by
    intro q r c hq hr hc
    have hs : resampSpecs vc (⟨q, .raw, c⟩ : Spec C) ⟨r, .raw, c⟩ = true := by
      simp [resampSpecs, valid_raw hq hc, valid_raw hr hc, Spec.isRaw]
    simp [setScaling, hs, a11, a12, a13]
  have key : ∀ (q r : Nat) (c : C), 0 < q → 0 < r → vc c = true →
      resampler vc e ⟨q, .raw, c⟩ ⟨r, .raw, c⟩
        = .ok (.conv .resampler ⟨q, .raw, c⟩ ⟨r, .raw, c⟩) := by
    intro q r c hq hr hc
    have hs : resampSpecs vc (⟨q, .raw, c⟩ : Spec C) ⟨r, .raw, c⟩ = true := by
      simp [resampSpecs, valid_raw hq hc, valid_raw hr hc, Spec.isRaw]
    have e1 : (⟨q, .raw, c⟩ : Spec C).isRaw = true := rfl
    have e2 : (⟨r, .raw, c⟩ : Spec C).isRaw = true := rfl
    simp [resampler, newResampler, a8, a9, a10, hs, valid_raw hq hc, valid_raw hr hc,
      e1, e2, scal q r c hq hr hc, a14]
  have chm : ∀ (r : Nat) (c d : C), 0 < r → vc c = true → vc d = true →
      chanMapper vc e ⟨r, .raw, c⟩ ⟨r, .raw, d⟩
        = .ok (.conv .chanMapper ⟨r, .raw, c⟩ ⟨r, .raw, d⟩) := by
    intro r c d hr hc hd'
    simp [chanMapper, valid_raw hr hc, valid_raw hr hd', Spec.isRaw, a7]
  have prof : ∀ s : Spec C, s.valid vc = true → profiler vc e s = .ok (.pass .profiler s) := by
    intro s h; simp [profiler, h, a5]
  have mon : ∀ (q r : Nat) (c : C) (s : Spec C), 0 < q → 0 < r → vc c = true →
      s.valid vc = true → monitor vc e (some (⟨q, .raw, c⟩, ⟨r, .raw, c⟩)) s
        = .ok (.pass .monitor s) := by
    intro q r c s hq hr hc h
    cases hx : e.intact <;> simp [monitor, h, a15, hx, scal q r c hq hr hc]
  have mon0 : ∀ s : Spec C, e.intact = true → s.valid vc = true →
      monitor vc e none s = .ok (.pass .monitor s) := by
    intro s hx h
    simp [monitor, h, a15, hx]
  refine ⟨fun hb => ?_, fun hor => ?_, ?_, ?_⟩
  · have h1 : ∃ l, senderSink vc e input = .ok l := by
      by_cases hf : input.fmt = .raw
      · have : input.isRaw = true := by simp [Spec.isRaw, hf]
        cases hp : e.profiling <;> simp [senderSink, this, hp, prof _ hi.valid]
      · have h2 : input.isRaw = false := by simpa [Spec.isRaw] using hf
        have h3 : pcmMapper vc e input ⟨input.rate, .raw, input.chans⟩
            = .ok (.conv .pcmMapper input ⟨input.rate, .raw, input.chans⟩) := by
          have h4 : input.fmt.bits % 8 = 0 := by
            rcases hb with h | ⟨n, h⟩
            · exact absurd h hf
            · rw [h]; simp [Fmt.bits]
          have h5 : Fmt.raw.bits % 8 = 0 := rfl
          simp [pcmMapper, hi.valid, valid_raw hi.rate hi.chans, h4, h5, a4]
        cases hp : e.profiling <;>
          simp [senderSink, h2, hp, prof _ hi.valid, mkRaw_eq hi.rate hi.chans, h3]
    obtain ⟨l, h1⟩ := h1
    have vr : (⟨output.rate, .raw, output.chans⟩ : Spec C).isRaw = true := rfl
    simp only [sender, h1, bind_ok, senderSession, a1, a2, check_true,
      mkRaw_eq ho.rate ho.chans, mkRaw_eq ho.rate hi.chans, mkRaw_eq hi.rate hi.chans,
      valid_raw ho.rate ho.chans, vr, Bool.and_self, need_true,
      chm _ _ _ ho.rate hi.chans ho.chans, key _ _ _ hi.rate ho.rate hi.chans]
    have m1 := mon _ _ _ _ hi.rate ho.rate hi.chans hi.valid
    have hx : ¬ (!e.intact || output.rate != input.rate) = true → e.intact = true := by
      cases h : e.intact
      · simp
      · exact fun _ => rfl
    by_cases hc : (output.chans != input.chans) = true <;>
      by_cases hr : (!e.intact || output.rate != input.rate) = true <;>
      simp only [hc, hr, if_true, bind_ok, m1, Bool.false_eq_true, if_false]
    all_goals first
      | exact ⟨_, rfl⟩
      | (rw [mon0 _ (hx hr) hi.valid]; exact ⟨_, rfl⟩)
  · have hor' : output.isRaw = true := by simp [Spec.isRaw, hor]
    have h1 : ∃ l, receiverSource vc e output = .ok l := by
      cases hp : e.profiling <;>
        simp [receiverSource, hor', hp, prof _ ho.valid, ho.valid, a3]
    obtain ⟨l, h1⟩ := h1
    have vr : (⟨input.rate, .raw, input.chans⟩ : Spec C).isRaw = true := rfl
    simp only [receiver, h1, bind_ok, receiverSession, a1, a6, check_true,
      mkRaw_eq hi.rate ho.chans, mkRaw_eq ho.rate ho.chans, mkRaw_eq hi.rate hi.chans,
      valid_raw hi.rate hi.chans, vr, Bool.and_self, need_true,
      chm _ _ _ hi.rate hi.chans ho.chans, key _ _ _ hi.rate ho.rate ho.chans]
    have m1 := mon _ _ _ _ hi.rate ho.rate ho.chans ho.valid
    have hx : ¬ (!e.intact || input.rate != output.rate) = true → e.intact = true := by
      cases h : e.intact
      · simp
      · exact fun _ => rfl
    by_cases hw : e.watch = true <;> by_cases hc : (input.chans != output.chans) = true <;>
      by_cases hr : (!e.intact || input.rate != output.rate) = true <;>
      simp only [hw, hc, hr, if_true, bind_ok, m1, Bool.false_eq_true, if_false]
    all_goals first
      | exact ⟨_, rfl⟩
      | (rw [mon0 _ (hx hr) ho.valid]; exact ⟨_, rfl⟩)
  · simp only [transcoderSink, mkRaw_eq ho.rate ho.chans, mkRaw_eq ho.rate hi.chans,
      mkRaw_eq hi.rate hi.chans, bind_ok, key _ _ _ hi.rate ho.rate hi.chans,
      chm _ _ _ ho.rate hi.chans ho.chans, prof _ hi.valid]
    by_cases hc : (input.chans != output.chans) = true <;>
      by_cases hr : (input.rate != output.rate) = true <;>
      by_cases hp : e.profiling = true <;>
      simp only [hp, hc, hr, if_true, bind_ok, Bool.false_eq_true, if_false] <;>
      exact ⟨_, rfl⟩
  · simp only [transcoderSource, mkRaw_eq hi.rate ho.chans, mkRaw_eq ho.rate ho.chans,
      mkRaw_eq hi.rate hi.chans, bind_ok, key _ _ _ hi.rate ho.rate ho.chans,
      chm _ _ _ hi.rate hi.chans ho.chans, prof _ ho.valid]
    by_cases hc : (input.chans != output.chans) = true <;>
      by_cases hr : (input.rate != output.rate) = true <;>
      by_cases hp : e.profiling = true <;>
      simp only [hp, hc, hr, if_true, bind_ok, Bool.false_eq_true, if_false] <;>
      exact ⟨_, rfl⟩

end

/-! ## Concrete cases -/

/-- Channels as a number; at least one. -/
def exV : Nat → Bool := fun n => n != 0

/-- Everything works; latency is tuned and profiled. -/
def exE : Env :=
  ⟨false, true, true, false, true, true, true, true, true, true, true, true, true, true,
   true, true, true, true, true⟩

/-- A sender of 16-bit stereo at 44100 for mono packets at 48000 has all stages. -/
example : (match sender exV exE ⟨44100, .pcm 16, 2⟩ ⟨48000, .pcm 16, 1⟩ with
    | .ok l => some (l.map Stage.kind)
    | _ => none) = some [.profiler, .pcmMapper, .monitor, .resampler, .chanMapper,
      .packetizer] := by decide

/-- A receiver with the same encodings. -/
example : (match receiver exV exE ⟨48000, .pcm 16, 1⟩ ⟨44100, .raw, 2⟩ with
    | .ok l => some (l.map Stage.kind)
    | _ => none) = some [.depacketizer, .watchdog, .chanMapper, .resampler, .monitor,
      .mixer, .profiler] := by decide

example : exE.InnerFine ∧ (⟨44100, .pcm 16, 2⟩ : Spec Nat).Good exV ∧
    (⟨44100, .pcm 16, 2⟩ : Spec Nat).Bytes ∧ (⟨48000, .pcm 16, 1⟩ : Spec Nat).Good exV ∧
    (⟨44100, .raw, 2⟩ : Spec Nat).Good exV :=
  ⟨fun h => (by cases h), ⟨by decide, rfl, Or.inr ⟨16, rfl⟩⟩, Or.inr ⟨2, rfl⟩,
    ⟨by decide, rfl, Or.inr ⟨16, rfl⟩⟩, ⟨by decide, rfl, Or.inl rfl⟩⟩

example : exE.AllFine :=
  ⟨rfl, rfl, rfl, rfl, rfl, rfl, rfl, rfl, rfl, rfl, rfl, rfl, rfl, rfl, rfl⟩

/-- A transcoder. -/
example : (match transcoderSink exV exE ⟨44100, .raw, 2⟩ ⟨48000, .raw, 1⟩ with
    | .ok l => some (l.map Stage.kind)
    | _ => none) = some [.profiler, .resampler, .chanMapper] := by decide

example : transcoderSinkSpec (⟨44100, .raw, 2⟩ : Spec Nat) ⟨48000, .raw, 1⟩
    = ⟨48000, .raw, 1⟩ := rfl

/-- Hypotheses of `C121_inner_fails` are met if memory ends at the inner resampler. -/
example : ({ ({ exE with dec := true, inner := false } : Env) with
      inner := true, innerOk := true } : Env).AllFine ∧
    ({ exE with dec := true, inner := false } : Env).dec = true :=
  ⟨⟨rfl, rfl, rfl, rfl, rfl, rfl, rfl, rfl, rfl, rfl, rfl, rfl, rfl, rfl, rfl⟩, rfl⟩

/-- A receiver of 16-bit samples aborts. -/
example : receiverSource exV exE ⟨44100, .pcm 16, 2⟩ = .abort := rfl

/-- Hypotheses of `C121_bits_fails` are met by a 20-bit format. -/
example : sender exV exE ⟨44100, .pcm 20, 2⟩ ⟨48000, .pcm 16, 1⟩ = .abort :=
  C121_bits_fails exE _ _ ⟨by decide, rfl, Or.inr ⟨20, rfl⟩⟩ 20 rfl (by decide)

end Verif.Wiring
