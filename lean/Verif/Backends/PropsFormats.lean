import Verif.Backends.Spec

/-!
# C113: Names and formats of the backends
-/

namespace Verif.Backends

open Verif.Pct (Byte ch)
open Verif.IoUri (str)

/-! ### WAV -/

theorem hasSuffix_iff (s suf : List Byte) : hasSuffix s suf = true ↔ suf <:+ s := by
  unfold hasSuffix
  by_cases h : suf.length > s.length
  · rw [if_pos h]
    simp only [Bool.false_eq_true, false_iff]
    exact fun hs => absurd hs.length_le (by omega)
  · rw [if_neg h, decide_eq_true_eq, List.take_of_length_le (by rw [List.length_drop]; omega)]
    constructor
    · intro e
      rw [← e]; exact List.drop_suffix _ _
    · rintro ⟨p, rfl⟩
      simp

/-- **C113** (WAV). The WAV backend takes files only: those for which "wav" is asked by name, and, when no
driver is named, those whose path ends with ".wav". -/
theorem C113_wav (kind : Kind) (driver : Option (List Byte)) (path : List Byte) :
    wavTakes kind driver path = true ↔
      kind = .file ∧ (driver = some (str "wav") ∨ driver = none ∧ str ".wav" <:+ path) := by
  unfold wavTakes
  cases kind with
  | device => simp
  | file =>
    cases driver with
    | none => simp [hasSuffix_iff]
    | some d => simp

/-! ### Sndfile -/

theorem extension_iff (p e : List Byte) :
    extension p = some e ↔ ∃ q, q ≠ [] ∧ p = q ++ ch '.' :: e ∧ ch '.' ∉ e := by
  have hsp := List.takeWhile_append_dropWhile (p := fun c => decide (c ≠ ch '.')) (l := p.reverse)
  generalize ht : p.reverse.takeWhile (fun c => decide (c ≠ ch '.')) = t at hsp
  generalize hd : p.reverse.dropWhile (fun c => decide (c ≠ ch '.')) = d at hsp
  have htn : ch '.' ∉ t := by
    intro hm
    rw [← ht] at hm
    have := List.all_takeWhile (p := fun c => decide (c ≠ ch '.')) (l := p.reverse)
    rw [List.all_eq_true] at this
    simpa using this _ hm
  have hp : p = d.reverse ++ t.reverse := by
    have := congrArg List.reverse hsp
    simpa using this.symm
  have hext : extension p = if t.length = p.length then none
      else if t.length + 1 = p.length then none else some t.reverse := by
    simp only [extension, ht, List.length_reverse]
  rw [hext]
  cases d with
  | nil =>
    have hl : t.length = p.length := by rw [hp]; simp
    rw [if_pos hl]
    simp only [reduceCtorEq, false_iff]
    rintro ⟨q, _, e1, _⟩
    apply htn
    have : ch '.' ∈ p := by rw [e1]; simp
    rw [hp] at this
    simpa using this
  | cons c d =>
    have hc : c = ch '.' := by
      have h1 : p.reverse.dropWhile (fun c => decide (c ≠ ch '.')) ≠ [] := by rw [hd]; simp
      have := List.head_dropWhile_not (fun c => decide (c ≠ ch '.')) h1
      simp only [hd, List.head_cons] at this
      simpa using this
    subst hc
    have hp2 : p = d.reverse ++ ch '.' :: t.reverse := by rw [hp]; simp
    have hl : p.length = d.length + 1 + t.length := by rw [hp2]; simp; omega
    rw [if_neg (by omega)]
    constructor
    · intro h
      split at h
      · cases h
      · rename_i hne
        have e1 : t.reverse = e := Option.some.inj h
        subst e1
        refine ⟨d.reverse, ?_, hp2, by simpa using htn⟩
        intro e1
        have : d = [] := by simpa using e1
        subst this
        simp at hl; omega
    · rintro ⟨q, hq, e1, hn⟩
      have h1 : t.reverse = e ∧ d.reverse = q := by
        have e2 : t ++ ch '.' :: d = e.reverse ++ ch '.' :: q.reverse := by
          have h1 := congrArg List.reverse (hp2.symm.trans e1)
          simpa using h1
        have key : ∀ (a b x y : List Byte), ch '.' ∉ a → ch '.' ∉ b →
            a ++ ch '.' :: x = b ++ ch '.' :: y → a = b ∧ x = y := by
          intro a
          induction a with
          | nil =>
            intro b x y _ hb h
            cases b with
            | nil => simpa using h
            | cons c b => simp only [List.nil_append, List.cons_append, List.cons.injEq] at h
                          exact absurd (by rw [← h.1]; simp) hb
          | cons c a ih =>
            intro b x y ha hb h
            cases b with
            | nil => simp only [List.nil_append, List.cons_append, List.cons.injEq] at h
                     exact absurd (by rw [h.1]; simp) ha
            | cons c' b =>
              simp only [List.cons_append, List.cons.injEq] at h
              obtain ⟨h1, h2⟩ := ih b x y (fun hm => ha (by simp [hm])) (fun hm => hb (by simp [hm])) h.2
              exact ⟨by rw [h.1, h1], h2⟩
        obtain ⟨h1, h2⟩ := key t e.reverse d q.reverse htn (by simpa using hn) e2
        exact ⟨by rw [h1]; simp, by rw [h2]; simp⟩
      rw [if_neg, h1.1]
      intro h2
      have : d.length = 0 := by omega
      rw [List.length_eq_zero_iff.mp this] at h1
      exact hq h1.2.symm

theorem ext_rows (e : List Byte) :
    (fileTypeMap.find? fun r : Row => decide (r.ext = some e)).map Row.format =
      if e = str "wav" then some 0x010000 else none := by
  by_cases h : e = str "wav"
  · subst h; decide
  · have : ¬ str "wav" = e := fun h' => h h'.symm
    simp [fileTypeMap, h, this]

/-- **C113** (sndfile, automatic). Without a driver, the format of a path is that of its extension: what
follows the last dot, not at the beginning of the path. "wav" is WAV, the others are looked up in
libsndfile. -/
theorem C113_sndfile_auto (majors : List Major) (q e : List Byte) (hq : q ≠ []) (he : ch '.' ∉ e) :
    mapToSndfile majors none (q ++ ch '.' :: e) =
      if e = str "wav" then some 0x010000
      else (majors.find? fun m : Major => decide (m.ext = e)).map Major.format := by
  have hx : extension (q ++ ch '.' :: e) = some e := (extension_iff _ _).mpr ⟨q, hq, rfl, he⟩
  have hr := ext_rows e
  unfold mapToSndfile
  simp only [hx, hr]
  by_cases h : e = str "wav" <;> simp [h]

/-- **C113** (sndfile, no extension). A path without a dot, or with one at its beginning only, is not
taken, whatever the driver. -/
theorem C113_sndfile_refuses (majors : List Major) (driver : Option (List Byte)) (path : List Byte)
    (h : ch '.' ∉ path ∨ ∃ e, path = ch '.' :: e ∧ ch '.' ∉ e) : mapToSndfile majors driver path = none := by
  have hx : extension path = none := by
    cases hx : extension path with
    | none => rfl
    | some e =>
      obtain ⟨q, hq, h1, h2⟩ := (extension_iff _ _).mp hx
      rcases h with h | ⟨e', h3, h4⟩
      · exact absurd (by rw [h1]; simp) h
      · rw [h3] at h1
        cases q with
        | nil => exact absurd rfl hq
        | cons c q =>
          simp only [List.cons_append, List.cons.injEq] at h1
          exact absurd (by rw [h1.2]; simp) h4
  unfold mapToSndfile
  rw [hx]

/-- **C113** (sndfile, by name; partial). Every driver registered by the sndfile backend, when it is asked by
its name for a path with an extension, leads to the format it was registered for. It is assumed that in
libsndfile an extension is shared only by formats of the table, and the other extensions are not names of
the table. Missing: paths without an extension, see `C113_sndfile_name_fails`. -/
theorem C113_sndfile_name_partial (majors : List Major) (m : Major) (hm : m ∈ majors)
    (q e : List Byte) (hq : q ≠ []) (he : ch '.' ∉ e)
    (h1 : ∀ a ∈ majors, ∀ b ∈ majors, a.ext = b.ext → a.format = b.format ∨
      (∃ r ∈ fileTypeMap, r.format = a.format) ∧ ∃ r ∈ fileTypeMap, r.format = b.format)
    (h2 : ∀ a ∈ majors, (∀ r ∈ fileTypeMap, r.format ≠ a.format) → ∀ r ∈ fileTypeMap, r.driver ≠ a.ext) :
    mapToSndfile majors (some (sndName m)) (q ++ ch '.' :: e) = some m.format := by
  have hx : extension (q ++ ch '.' :: e) = some e := (extension_iff _ _).mpr ⟨q, hq, rfl, he⟩
  unfold mapToSndfile
  simp only [hx]
  by_cases ht : ∃ r ∈ fileTypeMap, r.format = m.format
  · have key : ∀ r ∈ fileTypeMap, r.format = m.format →
        (fileTypeMap.find? fun r : Row => decide (r.driver = sndName m)).map Row.format = some m.format := by
      have : ∀ r ∈ fileTypeMap, ∀ f x, r.format = f →
          (fileTypeMap.find? fun r : Row => decide (r.driver = sndName ⟨f, x⟩)).map Row.format =
            some f := by
        intro r hr f x hf
        subst hf
        simp only [fileTypeMap, List.mem_cons, List.not_mem_nil, or_false] at hr
        rcases hr with rfl | rfl | rfl | rfl | rfl <;> rfl
      intro r hr hf
      exact this r hr m.format m.ext hf
    obtain ⟨r, hr, hf⟩ := ht
    rw [key r hr hf]
  · have hne : ∀ r ∈ fileTypeMap, r.format ≠ m.format := fun r hr h => ht ⟨r, hr, h⟩
    have hn : sndName m = m.ext := by
      unfold sndName
      have : ∀ (l : List Row) (x : List Byte), (∀ r ∈ l, r.format ≠ m.format) →
          l.foldl (fun name r => if r.format = m.format then r.driver else name) x = x := by
        intro l
        induction l with
        | nil => intro x _; rfl
        | cons r l ih =>
          intro x h
          rw [List.foldl_cons, if_neg (h r (by simp))]
          exact ih x (fun r hr => h r (by simp [hr]))
      exact this _ _ hne
    rw [hn]
    have hnone : fileTypeMap.find? (fun r : Row => decide (r.driver = m.ext)) = none := by
      rw [List.find?_eq_none]
      intro r hr
      simpa using h2 m hm hne r hr
    rw [hnone]
    simp only [Option.map_none]
    cases hf : majors.find? (fun a : Major => decide (a.ext = m.ext)) with
    | none =>
      have := List.find?_eq_none.mp hf m hm
      simp at this
    | some a =>
      have ha := List.mem_of_find?_eq_some hf
      have hae : a.ext = m.ext := by simpa using List.find?_some hf
      rcases h1 a ha m hm hae with h | ⟨_, h⟩
      · simp [h]
      · exact absurd h ht

/-- Some formats of libsndfile (`sndfile.h`, `SFC_GET_FORMAT_MAJOR`). -/
def someMajors : List Major :=
  [⟨0x020000, str "aiff"⟩, ⟨0x170000, str "flac"⟩, ⟨0x0C0000, str "mat"⟩, ⟨0x0D0000, str "mat"⟩,
    ⟨0x010000, str "wav"⟩, ⟨0x070000, str "wav"⟩, ⟨0x130000, str "wav"⟩]

/-- **C113 fails** (sndfile, by name): FLAC asked by name is refused for the path "/tmp/out", and accepted
for "/tmp.d/out". -/
theorem C113_sndfile_name_fails :
    mapToSndfile someMajors (some (str "flac")) (str "/tmp/out") = none ∧
    mapToSndfile someMajors (some (str "flac")) (str "/tmp.d/out") = some 0x170000 := by
  constructor <;> decide +kernel

example : mapToSndfile someMajors (some (sndName ⟨0x130000, str "wav"⟩)) (str "a.raw") =
    some 0x130000 :=
  C113_sndfile_name_partial someMajors ⟨0x130000, str "wav"⟩ (by decide +kernel) (str "a") (str "raw")
    (by decide) (by decide) (by decide +kernel) (by decide +kernel)
example : mapToSndfile someMajors none (str "a.tar.flac") = some 0x170000 ∧
    mapToSndfile someMajors none (str "a.mat4") = none := by constructor <;> decide +kernel

/-! ### Sox -/

theorem sox_from (n : List Byte) : mapFromSox n =
    if n = str "waveaudio" then str "wave" else if n = str "coreaudio" then str "core" else n := by
  by_cases h1 : n = str "waveaudio"
  · subst h1; decide
  · by_cases h2 : n = str "coreaudio"
    · subst h2; decide
    · have h1' : ¬ str "waveaudio" = n := fun h => h1 h.symm
      have h2' : ¬ str "coreaudio" = n := fun h => h2 h.symm
      simp [mapFromSox, soxRenames, h1, h2, h1', h2']

theorem sox_to (n : List Byte) : mapToSox n =
    if n = str "wave" then str "waveaudio" else if n = str "core" then str "coreaudio" else n := by
  by_cases h1 : n = str "wave"
  · subst h1; decide
  · by_cases h2 : n = str "core"
    · subst h2; decide
    · have h1' : ¬ str "wave" = n := fun h => h1 h.symm
      have h2' : ¬ str "core" = n := fun h => h2 h.symm
      simp [mapToSox, soxRenames, h1, h2, h1', h2']

theorem sox_round (n : List Byte) (h1 : n ≠ str "wave") (h2 : n ≠ str "core") :
    mapToSox (mapFromSox n) = n := by
  rw [sox_from]
  by_cases e1 : n = str "waveaudio"
  · subst e1; decide
  · by_cases e2 : n = str "coreaudio"
    · subst e2; decide
    · rw [if_neg e1, if_neg e2, sox_to, if_neg h1, if_neg h2]

theorem hidden_from (n : List Byte) : isHidden (mapFromSox n) = isHidden n := by
  rw [sox_from]
  by_cases e1 : n = str "waveaudio"
  · subst e1; decide
  · by_cases e2 : n = str "coreaudio"
    · subst e2; decide
    · rw [if_neg e1, if_neg e2]

/-- No handler of sox uses one of the names that roc gives to renamed drivers. -/
def NoClash (hs : List Handler) : Prop := ∀ h ∈ hs, ∀ n ∈ h.names, n ≠ str "wave" ∧ n ≠ str "core"

/-- **C113** (sox, names lead back). Every driver registered by the sox backend is accepted when asked by
its name, and sox is given the name of the handler for which the driver was registered; hidden names are
never registered. -/
theorem C113_sox_names (b : Nat) (hs : List Handler) (hc : NoClash hs) (d : Driver)
    (hd : d ∈ soxDrivers b hs) :
    ∃ h ∈ hs, ∃ n ∈ h.names, soxAccepts d.name = some n ∧ isHidden n = false ∧ d.name = mapFromSox n ∧
      (¬ IsDefault d → d.kind = if h.device then .device else .file) := by
  unfold soxDrivers at hd
  rcases List.mem_append.mp hd with hd | hd
  · obtain ⟨n, hn, rfl⟩ := List.mem_map.mp hd
    obtain ⟨hn1, hn2⟩ := List.mem_filter.mp hn
    obtain ⟨h, hh, hhn⟩ := List.any_eq_true.mp hn2
    have hhid : isHidden n = false := by
      simp only [soxDefaults, List.mem_cons, List.not_mem_nil, or_false] at hn1
      rcases hn1 with rfl | rfl | rfl | rfl | rfl <;> decide
    have hhn' : n ∈ h.names := by simpa using hhn
    have hr := sox_round n (hc h hh n hhn').1 (hc h hh n hhn').2
    refine ⟨h, hh, n, hhn', by simp only [soxAccepts, hr, hhid]; rfl, hhid, rfl, ?_⟩
    intro hnd
    exact absurd (show IsDefault ⟨mapFromSox n, .device, flagDefault ||| flagSource ||| flagSink, b⟩ from by
      show (7 : Nat).testBit 0 = true; decide) hnd
  · obtain ⟨h, hh, hd⟩ := List.mem_flatMap.mp hd
    obtain ⟨n, hn, rfl⟩ := List.mem_map.mp hd
    obtain ⟨hn1, hn2⟩ := List.mem_filter.mp hn
    have hr := sox_round n (hc h hh n hn1).1 (hc h hh n hn1).2
    have hhid : isHidden n = false := by
      rw [hidden_from] at hn2
      cases hx : isHidden n with
      | false => rfl
      | true => rw [hx] at hn2; simp at hn2
    exact ⟨h, hh, n, hn1, by simp only [soxAccepts, hr, hhid]; rfl, hhid, rfl, fun _ => rfl⟩

/-- **C113** (sox, complete). Every name of every handler of sox that is not hidden is registered, under the
name that roc gives to it. -/
theorem C113_sox_complete (b : Nat) (hs : List Handler) (h : Handler) (hh : h ∈ hs) (n : List Byte)
    (hn : n ∈ h.names) (hhid : isHidden n = false) :
    ∃ d ∈ soxDrivers b hs, d.name = mapFromSox n ∧ d.backend = b ∧
      d.flags.testBit Dir.sink.bit = true ∧ d.flags.testBit Dir.source.bit = true ∧
      (n ∈ soxDefaults → IsDefault d ∧ d.kind = .device) := by
  by_cases hdf : n ∈ soxDefaults
  · refine ⟨⟨mapFromSox n, .device, flagDefault ||| flagSource ||| flagSink, b⟩, ?_, rfl, rfl, by
      show (7 : Nat).testBit 2 = true; decide, by show (7 : Nat).testBit 1 = true; decide, fun _ => ⟨by show (7 : Nat).testBit 0 = true; decide, rfl⟩⟩
    unfold soxDrivers
    apply List.mem_append_left
    apply List.mem_map.mpr
    exact ⟨n, List.mem_filter.mpr ⟨hdf, List.any_eq_true.mpr ⟨h, hh, by simpa using hn⟩⟩, rfl⟩
  · refine ⟨⟨mapFromSox n, if h.device then .device else .file, flagSource ||| flagSink, b⟩, ?_, rfl, rfl, by
      show (6 : Nat).testBit 2 = true; decide, by show (6 : Nat).testBit 1 = true; decide,
      fun h => absurd h hdf⟩
    unfold soxDrivers
    apply List.mem_append_right
    apply List.mem_flatMap.mpr
    refine ⟨h, hh, List.mem_map.mpr ⟨n, List.mem_filter.mpr ⟨hn, ?_⟩, rfl⟩⟩
    have hm : mapFromSox n = n := by
      rw [sox_from, if_neg, if_neg]
      · intro e; subst e; exact hdf (by decide)
      · intro e; subst e; exact hdf (by decide)
    rw [hidden_from, hhid, hm]
    simpa using hdf

/-- **C113** (sox, hidden names). The sox backend registers no driver whose name has a slash in it, nor the raw formats, `sndfile`, `null`, `ao`, `ossdsp` and
`pulseaudio` of sox, and it does not open a driver of such a name. -/
theorem C113_sox_hidden (b : Nat) (hs : List Handler) (n : List Byte)
    (hn : ch '/' ∈ n ∨ n ∈ ["raw", "f4", "f8", "s1", "s2", "s3", "s4", "u1", "u2", "u3", "u4", "sb", "sw", "sl", "ub", "uw", "sndfile", "null", "ao", "ossdsp",
      "pulseaudio"].map str) : (∀ d ∈ soxDrivers b hs, d.name ≠ n) ∧ soxAccepts n = none := by
  have hh : isHidden n = true := by
    unfold isHidden
    rcases hn with h | h
    · simp [h]
    · have : n ∈ soxHidden := h
      simp [this]
  have hw : n ≠ str "wave" := fun e => by subst e; revert hh; decide
  have hc : n ≠ str "core" := fun e => by subst e; revert hh; decide
  have ht : mapToSox n = n := by rw [sox_to, if_neg hw, if_neg hc]
  refine ⟨?_, by simp only [soxAccepts, ht, hh]; rfl⟩
  intro d hd e
  unfold soxDrivers at hd
  rcases List.mem_append.mp hd with hd | hd
  · obtain ⟨x, hx, rfl⟩ := List.mem_map.mp hd
    have hx1 := (List.mem_filter.mp hx).1
    have e : mapFromSox x = n := e
    have : isHidden x = true := by rw [← hidden_from, e]; exact hh
    simp only [soxDefaults, List.mem_cons, List.not_mem_nil, or_false] at hx1
    rcases hx1 with rfl | rfl | rfl | rfl | rfl <;> revert this <;> decide
  · obtain ⟨h, _, hd⟩ := List.mem_flatMap.mp hd
    obtain ⟨x, hx, rfl⟩ := List.mem_map.mp hd
    have e : mapFromSox x = n := e
    have hx2 := (List.mem_filter.mp hx).2
    rw [e, hh] at hx2
    simp at hx2

example : ch '/' ∈ str "a/b" ∧ soxAccepts (str "a/b") = none ∧ (soxDrivers 0 [⟨[str "a/b", str "wav"], false⟩]).map Driver.name = [str "wav"] := by
  decide +kernel

/-- **C113 fails** (sox, registered once): a default driver that is renamed is registered a second time, as
one that is not default. -/
theorem C113_sox_once_fails :
    soxDrivers 0 [⟨[str "coreaudio"], true⟩] =
      [⟨str "core", .device, 7, 0⟩, ⟨str "core", .device, 6, 0⟩] := by decide +kernel

example : let hs := [⟨[str "aifc", str "aiffc"], false⟩, ⟨[str "alsa"], true⟩,
      ⟨[str "coreaudio"], true⟩, ⟨[str "raw"], false⟩]
    NoClash hs ∧ (soxDrivers 3 hs).map Driver.name =
      [str "core", str "alsa", str "aifc", str "aiffc", str "core"] := by
  constructor
  · unfold NoClash; decide +kernel
  · decide +kernel

end Verif.Backends
