import Verif.Backends.Spec
import Verif.StringList.Props

/-!
# C113: Choice of the audio driver
-/

namespace Verif.Backends

open Verif.Pct (Byte ch)
open Verif.IoUri (str Uri)

/-! ### Matching -/

theorem and_two_pow_zero (f i : Nat) : (f &&& 2 ^ i = 0) ↔ f.testBit i = false := by
  constructor
  · intro h
    have := congrArg (fun x => Nat.testBit x i) h
    simpa only [Nat.testBit_and, Nat.testBit_two_pow_self, Bool.and_true, Nat.zero_testBit] using this
  · intro h
    apply Nat.eq_of_testBit_eq
    intro j
    rw [Nat.testBit_and, Nat.testBit_two_pow, Nat.zero_testBit]
    by_cases hj : i = j
    · subst hj; rw [h]; rfl
    · simp [hj]

theorem and_flag (f : Nat) (dir : Dir) : (f &&& dir.flag = 0) ↔ f.testBit dir.bit = false := by
  cases dir
  · exact and_two_pow_zero f 2
  · exact and_two_pow_zero f 1

theorem and_default (f : Nat) (dir : Dir) :
    (f &&& (flagDefault ||| dir.flag) = 0) ↔ f.testBit 0 = false ∧ f.testBit dir.bit = false := by
  rw [Nat.and_or_distrib_left, Nat.or_eq_zero_iff, and_flag]
  exact and_congr (and_two_pow_zero f 0) Iff.rfl

theorem match_named (d : Driver) (nm : List Byte) (kind : Kind) (dir : Dir) :
    matchDriver d (some nm) kind dir.flag = true ↔ d.name = nm ∧ Usable dir kind d := by
  unfold matchDriver Usable
  have h := and_flag d.flags dir
  by_cases h1 : d.name = nm
  · by_cases h2 : d.kind = kind
    · by_cases h3 : d.flags &&& dir.flag = 0
      · simp [h1, h2, h3, h.mp h3]
      · have : d.flags.testBit dir.bit = true := by
          cases hb : d.flags.testBit dir.bit with
          | true => rfl
          | false => exact absurd (h.mpr hb) h3
        simp [h1, h2, h3, this]
    · simp [h1, h2]
  · simp [h1, Ne.symm h1]

theorem match_default (d : Driver) (dir : Dir) :
    matchDriver d none .device (flagDefault ||| dir.flag) = true ↔
      d.kind = .device ∧ (d.flags.testBit 0 = true ∨ d.flags.testBit dir.bit = true) := by
  unfold matchDriver
  have h := and_default d.flags dir
  by_cases h2 : d.kind = .device
  · by_cases h3 : d.flags &&& (flagDefault ||| dir.flag) = 0
    · have := h.mp h3
      simp [h2, h3, this]
    · have : d.flags.testBit 0 = true ∨ d.flags.testBit dir.bit = true := by
        cases hb : d.flags.testBit dir.bit with
        | true => exact .inr rfl
        | false =>
          cases hc : d.flags.testBit 0 with
          | true => exact .inl rfl
          | false => exact absurd (h.mpr ⟨hc, hb⟩) h3
      simp only [h2, h3, Option.isSome_none, Bool.false_and, Bool.false_eq_true, if_false, ne_eq,
        not_true_eq_false, true_and, true_iff]
      exact this
  · simp [h2]

/-! ### Trying -/

theorem First.cons_none {α δ : Type} {f : α → Option δ} {a : α} {l : List α} {x : δ}
    (h : f a = none) : First f (a :: l) x ↔ First f l x := by
  constructor
  · rintro ⟨pre, b, post, e, hb, hp⟩
    cases pre with
    | nil =>
      simp only [List.nil_append, List.cons.injEq] at e
      rw [← e.1, h] at hb; cases hb
    | cons c pre =>
      simp only [List.cons_append, List.cons.injEq] at e
      exact ⟨pre, b, post, e.2, hb, fun y hy => hp y (by simp [hy])⟩
  · rintro ⟨pre, b, post, e, hb, hp⟩
    exact ⟨a :: pre, b, post, by rw [e]; rfl, hb, by
      intro y hy
      rcases List.mem_cons.mp hy with rfl | hy
      · exact h
      · exact hp y hy⟩

theorem First.cons_some {α δ : Type} {f : α → Option δ} {a : α} {l : List α} {x y : δ}
    (h : f a = some y) : First f (a :: l) x ↔ x = y := by
  constructor
  · rintro ⟨pre, b, post, e, hb, hp⟩
    cases pre with
    | nil =>
      simp only [List.nil_append, List.cons.injEq] at e
      rw [← e.1, h] at hb; exact (Option.some.inj hb).symm
    | cons c pre =>
      simp only [List.cons_append, List.cons.injEq] at e
      have := hp c (by simp)
      rw [← e.1, h] at this; cases this
  · rintro rfl
    exact ⟨[], a, l, rfl, h, by simp⟩

theorem tryDrivers_some {δ : Type} (opn : Attempt → Option δ) (ok : Driver → Bool)
    (att : Driver → Attempt) (x : δ) : ∀ ds : List Driver,
    (tryDrivers opn ok att ds).2 = some x ↔
      First (fun d => if ok d = true then opn (att d) else none) ds x
  | [] => by simp [tryDrivers, First]
  | d :: ds => by
    have ih := tryDrivers_some opn ok att x ds
    unfold tryDrivers
    cases ho : ok d with
    | false => rw [if_pos rfl, ih, First.cons_none (by simp [ho])]
    | true =>
      rw [if_neg (by simp)]
      cases hx : opn (att d) with
      | some y =>
        rw [First.cons_some (y := y) (by simp [ho, hx])]
        simp [eq_comm]
      | none => rw [First.cons_none (by simp [ho, hx])]; exact ih

theorem tryDrivers_log {δ : Type} (opn : Attempt → Option δ) (ok : Driver → Bool)
    (att : Driver → Attempt) : ∀ (ds : List Driver), ∀ a ∈ (tryDrivers opn ok att ds).1,
    ∃ d ∈ ds, ok d = true ∧ a = att d
  | [], a, h => by simp [tryDrivers] at h
  | d :: ds, a, h => by
    have ih := tryDrivers_log opn ok att ds a
    unfold tryDrivers at h
    cases ho : ok d with
    | false =>
      rw [if_pos ho] at h
      obtain ⟨e, he, h'⟩ := ih h
      exact ⟨e, by simp [he], h'⟩
    | true =>
      rw [if_neg (by simp [ho])] at h
      cases hx : opn (att d) with
      | some y => simp only [hx, List.mem_singleton] at h; exact ⟨d, by simp, ho, h⟩
      | none =>
        simp only [hx, List.mem_cons] at h
        rcases h with h | h
        · exact ⟨d, by simp, ho, h⟩
        · obtain ⟨e, he, h'⟩ := ih h
          exact ⟨e, by simp [he], h'⟩

theorem tryBackends_some {δ : Type} (opn : Attempt → Option δ) (att : Nat → Attempt) (x : δ) :
    ∀ bs : List Nat, (tryBackends opn att bs).2 = some x ↔ First (fun b => opn (att b)) bs x
  | [] => by simp [tryBackends, First]
  | b :: bs => by
    have ih := tryBackends_some opn att x bs
    unfold tryBackends
    cases hx : opn (att b) with
    | some y =>
      rw [First.cons_some (f := fun b => opn (att b)) (y := y) hx]
      simp [eq_comm]
    | none => rw [First.cons_none (f := fun b => opn (att b)) hx]; exact ih

theorem tryBackends_log {δ : Type} (opn : Attempt → Option δ) (att : Nat → Attempt) :
    ∀ (bs : List Nat), ∀ a ∈ (tryBackends opn att bs).1, ∃ b ∈ bs, a = att b
  | [], a, h => by simp [tryBackends] at h
  | b :: bs, a, h => by
    unfold tryBackends at h
    cases hx : opn (att b) with
    | some y => simp only [hx, List.mem_singleton] at h; exact ⟨b, by simp, h⟩
    | none =>
      simp only [hx, List.mem_cons] at h
      rcases h with h | h
      · exact ⟨b, by simp, h⟩
      · obtain ⟨c, hc, h'⟩ := tryBackends_log opn att bs a h
        exact ⟨c, by simp [hc], h'⟩

/-- **C113** (device URI). For a valid URI that is not a file, the result is that of the first driver
named as the scheme, meant for devices and supporting the direction, whose backend opens the path of the
URI; there is none iff every one of these fails. No other call is made. -/
theorem C113_device {δ : Type} (opn : Attempt → Option δ) (n : Nat) (drivers : List Driver) (dir : Dir)
    (u : Uri) (force : Option (List Byte)) (hv : u.scheme ≠ [] ∧ u.path ≠ [])
    (hf : u.scheme ≠ str "file") :
    ∃ log res, openUri opn n drivers dir u force = some (log, res) ∧
      (∀ x, res = some x ↔
        First (fun d => if d.name = u.scheme ∧ Usable dir .device d
          then opn ⟨d.backend, dir, .device, some u.scheme, u.path⟩ else none) drivers x) ∧
      ∀ a ∈ log, ∃ d ∈ drivers, d.name = u.scheme ∧ Usable dir .device d ∧
        a = ⟨d.backend, dir, .device, some u.scheme, u.path⟩ := by
  have hval : u.isValid = true := by simp [Uri.isValid, hv.1, hv.2]
  have hnf : u.isFile = false := by simp [Uri.isFile, hf]
  refine ⟨(openDevice opn n drivers dir .device (some u.scheme) u.path).1,
    (openDevice opn n drivers dir .device (some u.scheme) u.path).2, ?_, ?_, ?_⟩
  · simp [openUri, hval, selectKind, selectName, hnf]
  · intro x
    have := tryDrivers_some opn (fun d => matchDriver d (some u.scheme) .device dir.flag)
      (fun d => ⟨d.backend, dir, .device, some u.scheme, u.path⟩) x drivers
    simp only [match_named] at this
    exact this
  · intro a ha
    obtain ⟨d, hd, ho, e⟩ := tryDrivers_log _ _ _ drivers a ha
    obtain ⟨h1, h2⟩ := (match_named _ _ _ _).mp ho
    exact ⟨d, hd, h1, h2, e⟩

/-- **C113** (file of a given format). For a file and a non-empty format, the result is that of the first
driver named as the format, meant for files and supporting the direction, whose backend opens the path;
no other call is made. -/
theorem C113_file_format {δ : Type} (opn : Attempt → Option δ) (n : Nat) (drivers : List Driver)
    (dir : Dir) (path : List Byte) (fmt : List Byte) (hp : path ≠ []) (hf : fmt ≠ []) :
    ∃ log res, openUri opn n drivers dir ⟨str "file", path⟩ (some fmt) = some (log, res) ∧
      (∀ x, res = some x ↔
        First (fun d => if d.name = fmt ∧ Usable dir .file d
          then opn ⟨d.backend, dir, .file, some fmt, path⟩ else none) drivers x) ∧
      ∀ a ∈ log, ∃ d ∈ drivers, d.name = fmt ∧ Usable dir .file d ∧
        a = ⟨d.backend, dir, .file, some fmt, path⟩ := by
  have hs : str "file" ≠ [] := by decide
  have hval : (⟨str "file", path⟩ : Uri).isValid = true := by simp [Uri.isValid, hs, hp]
  have hnf : (⟨str "file", path⟩ : Uri).isFile = true := by simp [Uri.isFile, hval]
  refine ⟨(openDevice opn n drivers dir .file (some fmt) path).1,
    (openDevice opn n drivers dir .file (some fmt) path).2, ?_, ?_, ?_⟩
  · obtain ⟨c, f, rfl⟩ := List.exists_cons_of_ne_nil hf
    simp [openUri, hval, selectKind, selectName, hnf]
  · intro x
    have := tryDrivers_some opn (fun d => matchDriver d (some fmt) .file dir.flag)
      (fun d => ⟨d.backend, dir, .file, some fmt, path⟩) x drivers
    simp only [match_named] at this
    exact this
  · intro a ha
    obtain ⟨d, hd, ho, e⟩ := tryDrivers_log _ _ _ drivers a ha
    obtain ⟨h1, h2⟩ := (match_named _ _ _ _).mp ho
    exact ⟨d, hd, h1, h2, e⟩

/-- **C113** (file without a format). The backends are asked in their order, without a name of the driver;
the result is that of the first that opens the path. -/
theorem C113_file_auto {δ : Type} (opn : Attempt → Option δ) (n : Nat) (drivers : List Driver)
    (dir : Dir) (path : List Byte) (hp : path ≠ []) (force : Option (List Byte))
    (hf : force = none ∨ force = some []) :
    ∃ log res, openUri opn n drivers dir ⟨str "file", path⟩ force = some (log, res) ∧
      (∀ x, res = some x ↔ ∃ b < n, opn ⟨b, dir, .file, none, path⟩ = some x ∧
        ∀ c < b, opn ⟨c, dir, .file, none, path⟩ = none) ∧
      ∀ a ∈ log, ∃ b < n, a = ⟨b, dir, .file, none, path⟩ := by
  have hs : str "file" ≠ [] := by decide
  have hval : (⟨str "file", path⟩ : Uri).isValid = true := by simp [Uri.isValid, hs, hp]
  have hnf : (⟨str "file", path⟩ : Uri).isFile = true := by simp [Uri.isFile, hval]
  refine ⟨(openDevice opn n drivers dir .file none path).1,
    (openDevice opn n drivers dir .file none path).2, ?_, ?_, ?_⟩
  · rcases hf with rfl | rfl <;> simp [openUri, hval, selectKind, selectName, hnf]
  · intro x
    show (tryBackends opn (fun b => ⟨b, dir, .file, none, path⟩) (List.range n)).2 = some x ↔ _
    rw [tryBackends_some]
    constructor
    · rintro ⟨pre, b, post, e, hb, hpre⟩
      have hpl : pre = List.range pre.length := by
        have h1 := congrArg (List.take pre.length) e
        rw [List.take_left, List.take_range] at h1
        have h2 := congrArg List.length e
        simp only [List.length_range, List.length_append, List.length_cons] at h2
        rw [Nat.min_eq_left (by omega)] at h1
        exact h1.symm
      have hbl : b = pre.length := by
        have h1 := congrArg (fun l => l[pre.length]?) e
        have h2 := congrArg List.length e
        simp only [List.length_range, List.length_append, List.length_cons] at h2
        simp only [List.getElem?_append_right (Nat.le_refl _), Nat.sub_self,
          List.getElem?_cons_zero, List.getElem?_range (show pre.length < n by omega)] at h1
        exact (Option.some.inj h1).symm
      have h2 := congrArg List.length e
      simp only [List.length_range, List.length_append, List.length_cons] at h2
      refine ⟨b, by omega, hb, fun c hc => hpre c ?_⟩
      rw [hpl, List.mem_range]; omega
    · rintro ⟨b, hb, hx, hpre⟩
      refine ⟨List.range b, b, (List.range (n - b - 1)).map (fun i => b + 1 + i), ?_, hx,
        fun c hc => hpre c (List.mem_range.mp hc)⟩
      have : n = b + (1 + (n - b - 1)) := by omega
      conv => lhs; rw [this, List.range_add, List.range_add]
      simp [List.map_map, Function.comp_def, Nat.add_assoc]
  · intro a ha
    obtain ⟨b, hb, e⟩ := tryBackends_log _ _ _ a ha
    exact ⟨b, List.mem_range.mp hb, e⟩

/-- **C113** (invalid URI). A URI without a scheme or a path aborts the process; every other one gives a
result. -/
theorem C113_abort_iff {δ : Type} (opn : Attempt → Option δ) (n : Nat) (drivers : List Driver) (dir : Dir)
    (u : Uri) (force : Option (List Byte)) :
    openUri opn n drivers dir u force = none ↔ u.scheme = [] ∨ u.path = [] := by
  unfold openUri Uri.isValid
  by_cases h1 : u.scheme = [] <;> by_cases h2 : u.path = [] <;> simp [h1, h2]

/-- **C113** (default device; partial). What is opened comes from a default driver that supports the
direction, when in the map all of these come before the drivers for devices that are either not default or
do not support the direction, and one of these can be opened. Missing: the general case, see
`C113_default_fails`. -/
theorem C113_default_partial {δ : Type} (opn : Attempt → Option δ) (drivers : List Driver) (dir : Dir)
    (x : δ) (good bad : List Driver) (hsplit : drivers = good ++ bad)
    (hgood : ∀ d ∈ good, d.kind = .device → Usable dir .device d ∧ IsDefault d)
    (hx : First (fun d => if Usable dir .device d ∧ IsDefault d
      then opn ⟨d.backend, dir, .device, some d.name, str "default"⟩ else none) good x) :
    (openDefault opn drivers dir).2 = some x := by
  unfold openDefault
  rw [tryDrivers_some]
  obtain ⟨pre, d, post, e, hd, hpre⟩ := hx
  have hag : ∀ d ∈ good,
      (if matchDriver d none .device (flagDefault ||| dir.flag) = true
        then opn ⟨d.backend, dir, .device, some d.name, str "default"⟩ else none) =
      (if Usable dir .device d ∧ IsDefault d
        then opn ⟨d.backend, dir, .device, some d.name, str "default"⟩ else none) := by
    intro d hd
    by_cases hk : d.kind = .device
    · have := hgood d hd hk
      rw [if_pos this, if_pos ((match_default d dir).mpr ⟨hk, .inl this.2⟩)]
    · rw [if_neg (fun h => hk ((match_default d dir).mp h).1), if_neg (fun h => hk h.1.1)]
  refine ⟨pre, d, post ++ bad, by rw [hsplit, e]; simp, ?_, ?_⟩
  · exact (hag d (by rw [e]; simp)).trans hd
  · intro b hb
    exact (hag b (by rw [e]; simp [hb])).trans (hpre b hb)

/-- **C113** (default device; partial). Only drivers for devices are asked, each for "default" under its
own name, and each is default or supports the direction. Missing: "and". -/
theorem C113_default_calls_partial {δ : Type} (opn : Attempt → Option δ) (drivers : List Driver)
    (dir : Dir) : ∀ a ∈ (openDefault opn drivers dir).1, ∃ d ∈ drivers, d.kind = .device ∧
      (IsDefault d ∨ Usable dir .device d) ∧
      a = ⟨d.backend, dir, .device, some d.name, str "default"⟩ := by
  intro a ha
  obtain ⟨d, hd, ho, e⟩ := tryDrivers_log _ _ _ drivers a ha
  obtain ⟨h1, h2⟩ := (match_default _ _).mp ho
  exact ⟨d, hd, h1, by
    rcases h2 with h2 | h2
    · exact .inl h2
    · exact .inr ⟨h1, h2⟩, e⟩

/-- **C113 fails** (default device): a driver that is not a default one is opened although a default one is
there and works; and a default driver that supports sources only is asked for a sink. -/
theorem C113_default_fails :
    let opn : Attempt → Option Nat := fun a => some a.backend
    let d1 : Driver := ⟨str "sunau", .device, 6, 0⟩
    let d2 : Driver := ⟨str "alsa", .device, 7, 1⟩
    let d3 : Driver := ⟨str "mic", .device, 3, 2⟩
    (¬ IsDefault d1 ∧ IsDefault d2 ∧ Usable .sink .device d2 ∧
      (openDefault opn [d1, d2] .sink).2 = some 0) ∧
    (¬ Usable .sink .device d3 ∧
      (openDefault opn [d3] .sink).1 = [⟨2, .sink, .device, some (str "mic"), str "default"⟩]) := by
  refine ⟨⟨by decide, by decide, by decide, by decide +kernel⟩, by decide, by decide +kernel⟩

/-- The drivers of a build with PulseAudio and sox; "alsa://hw:0" and the default sink. -/
example : let opn : Attempt → Option Nat := fun a => if a.backend = 0 then none else some a.backend
    let ds : List Driver := [⟨str "pulse", .device, 7, 0⟩, ⟨str "wav", .file, 6, 1⟩,
      ⟨str "alsa", .device, 7, 2⟩, ⟨str "au", .file, 6, 2⟩]
    openUri opn 3 ds .sink ⟨str "alsa", str "hw:0"⟩ none =
      some ([⟨2, .sink, .device, some (str "alsa"), str "hw:0"⟩], some 2) ∧
    openUri opn 3 ds .sink ⟨str "file", str "a.wav"⟩ none =
      some ([⟨0, .sink, .file, none, str "a.wav"⟩, ⟨1, .sink, .file, none, str "a.wav"⟩], some 1) ∧
    (openDefault opn ds .source).2 = some 2 := by decide +kernel
example := C113_default_partial (fun a => if a.backend = 0 then none else some a.backend)
  [⟨str "pulse", .device, 7, 0⟩, ⟨str "wav", .file, 6, 1⟩, ⟨str "alsa", .device, 7, 2⟩,
    ⟨str "sunau", .device, 6, 2⟩] .sink 2
  [⟨str "pulse", .device, 7, 0⟩, ⟨str "wav", .file, 6, 1⟩, ⟨str "alsa", .device, 7, 2⟩]
  [⟨str "sunau", .device, 6, 2⟩] rfl (by decide)
  ⟨[⟨str "pulse", .device, 7, 0⟩, ⟨str "wav", .file, 6, 1⟩], ⟨str "alsa", .device, 7, 2⟩, [], rfl,
    by decide +kernel, by decide +kernel⟩

end Verif.Backends
