import Verif.IoUri.Lemmas
import Verif.EndpointUri.Lemmas

/-!
# C112: URIs of audio files and devices
-/

namespace Verif.IoUri

open Verif.Pct (Byte ch isAlnum)

/-- C112. A string is accepted exactly when it has one of the documented forms and its path is a
valid percent-encoding; the scheme and the decoded path are then those of the form. -/
theorem C112_parse_iff (s : List Byte) (u : Uri) : parse s = some u ↔
    ∃ p, Form s u.scheme p ∧ Pct.Escaped (fun c => c ≠ 0 ∧ c ≠ ch '%') p u.path := by
  simp only [← Pct.C20_decode_iff, form_iff]
  constructor
  · intro h
    unfold parse at h
    cases h1 : after (str "file:") s with
    | some r =>
      rw [h1] at h
      simp only at h
      cases h2 : fileHier r with
      | none => rw [h2] at h; cases h
      | some p =>
        rw [h2] at h
        simp only at h
        cases h3 : setEncodedPath p with
        | none => rw [h3] at h; cases h
        | some d =>
          rw [h3] at h
          simp only [Option.some.injEq] at h
          subst h
          exact ⟨p, Or.inl ⟨r, after_some h1, rfl, hier_sound h2⟩, ((setEncodedPath_iff _ _).1 h3).2⟩
    | none =>
      rw [h1] at h
      simp only at h
      cases h2 : device s with
      | none => rw [h2] at h; cases h
      | some q =>
        obtain ⟨sc, p⟩ := q
        rw [h2] at h
        simp only at h
        cases h3 : setEncodedPath p with
        | none => rw [h3] at h; cases h
        | some d =>
          rw [h3] at h
          simp only [Option.some.injEq] at h
          subst h
          exact ⟨p, Or.inr rfl, ((setEncodedPath_iff _ _).1 h3).2⟩
  · rintro ⟨p, ⟨r, rfl, h2, h3⟩ | h, hd⟩
    · unfold parse
      rw [after_append]
      simp only [hier_complete h3, (setEncodedPath_iff _ _).2 ⟨hier_ne h3, hd⟩]
      rw [← h2]
    · have h' := (device_iff _ _ _).1 h
      obtain ⟨h1, h2, h3, h4, h5, h6⟩ := h'
      unfold parse
      have h7 : after (str "file:") s = none := by rw [h6]; exact after_file_device h2 h3
      rw [h7]
      simp only [h, (setEncodedPath_iff _ _).2 ⟨h4, hd⟩]

theorem escaped_ne_nil {l : Byte → Prop} {s out : List Byte} (h : Pct.Escaped l s out) (hs : s ≠ []) :
    out ≠ [] := by
  cases h with
  | nil => exact absurd rfl hs
  | plain _ _ => simp
  | escape v _ _ _ _ _ => simp

theorem escaped_no_nul {s out : List Byte}
    (h : Pct.Escaped (fun c => c ≠ 0 ∧ c ≠ ch '%') s out) : (0 : Byte) ∉ out := by
  induction h with
  | nil => simp
  | plain hc _ ih =>
    simp only [List.mem_cons, not_or]; exact ⟨fun e => hc.1 e.symm, ih⟩
  | escape v _ _ _ hv _ ih =>
    simp only [List.mem_cons, not_or]; exact ⟨fun e => hv e.symm, ih⟩

theorem form_ne {s sc p : List Byte} (h : Form s sc p) : sc ≠ [] ∧ p ≠ [] := by
  cases h with
  | device h1 _ _ h4 _ => exact ⟨h1, h4⟩
  | abs3 h => obtain ⟨c, cs, rfl, _⟩ := h; exact ⟨by decide, by simp⟩
  | host h => obtain ⟨c, cs, rfl, _⟩ := h; exact ⟨by decide, by simp⟩
  | abs1 h => obtain ⟨c, cs, rfl, _⟩ := h; exact ⟨by decide, by simp⟩
  | rel h => obtain ⟨c, cs, rfl, _⟩ := h; exact ⟨by decide, by simp⟩
  | std2 => exact ⟨by decide, by decide⟩

/-- C112. A URI that was accepted has a scheme of letters and digits and a path without NUL, both
not empty, so it can be formatted. -/
theorem C112_valid (s : List Byte) (u : Uri) (h : parse s = some u) :
    u.isValid = true ∧ (∀ c ∈ u.scheme, isAlnum c = true) ∧ (0 : Byte) ∉ u.path ∧
      ∃ t, format u = some t := by
  obtain ⟨p, hf, he⟩ := (C112_parse_iff s u).1 h
  have hne := form_ne hf
  have hv : u.isValid = true := by
    simp [Uri.isValid, hne.1, escaped_ne_nil he hne.2]
  have h0 := escaped_no_nul he
  refine ⟨hv, ?_, h0, ?_⟩
  · generalize hsc : u.scheme = sc at hf ⊢
    cases hf with
    | device _ hal _ _ _ => exact hal
    | _ => decide +kernel
  · have := (Pct.C20_encode .nonPath u.path h0).1
    unfold format
    rw [if_neg (by simp [hv])]
    cases h1 : Pct.encode .nonPath u.path with
    | mk b e => rw [h1] at this; simp only at this; subst this; exact ⟨_, rfl⟩

/-- C112. The three ways to write an absolute path and the two ways to write standard input or
output are equivalent. -/
theorem C112_equivalent (p : List Byte) (h : Abs p) :
    parse (str "file:" ++ p) = parse (str "file://" ++ p) ∧
    parse (str "file:" ++ p) = parse (str "file://localhost" ++ p) ∧
    parse (str "file:-") = parse (str "file://-") := by
  have key : ∀ s : List Byte, Form s (str "file") p → ∀ r, s = str "file:" ++ r → Hier r p →
      parse s = (setEncodedPath p).map fun d => { scheme := str "file", path := d } := by
    intro s _ r hr hh
    rw [hr]
    unfold parse
    rw [after_append]
    simp only [hier_complete hh]
    cases setEncodedPath p <;> rfl
  refine ⟨?_, ?_, by decide +kernel⟩
  · rw [key _ (.abs1 h) p rfl (.abs h), key _ (.abs3 h) _ (file_split p).symm (.abs3 h)]
  · rw [key _ (.abs1 h) p rfl (.abs h),
      key _ (.host h) (str "//localhost" ++ p) (by simp [str]) (.host h)]

theorem encode_head_ne (c : Byte) (cs : List Byte) (h0 : c ≠ 0) (hc : c ≠ ch '/') :
    ∃ x xs, (Pct.encode .nonPath (c :: cs)).2 = x :: xs ∧ x ≠ ch '/' := by
  unfold Pct.encode
  rw [if_neg h0]
  simp only
  split
  · exact ⟨c, _, rfl, hc⟩
  · exact ⟨ch '%', _, rfl, by decide⟩

theorem encode_cons_slash (cs : List Byte) :
    ∃ e, Pct.encode .nonPath (ch '/' :: cs) = ((Pct.encode .nonPath cs).1, e) ∧
      e = ch '/' :: (Pct.encode .nonPath cs).2 := by
  refine ⟨_, ?_, rfl⟩
  conv => lhs; unfold Pct.encode
  rw [if_neg (by decide)]
  simp only
  rw [if_pos (by decide +kernel)]

/-- Which URIs the formatter can write: for files, paths other than `/` and those that begin with two
slashes (`io_uri.h:121-124`). -/
def Writable (u : Uri) : Prop :=
  u.scheme = str "file" → u.path ≠ str "/" ∧ ¬ str "//" <+: u.path

/-- C112. Formatting a URI and parsing the text gives the URI back: all schemes of letters and digits,
all paths without NUL, with any characters that need to be escaped. -/
theorem C112_roundtrip_partial (u : Uri) (t : List Byte) (hf : format u = some t)
    (hs : ∀ c ∈ u.scheme, isAlnum c = true) (hw : Writable u) : parse t = some u := by
  unfold format at hf
  split at hf
  · cases hf
  · rename_i hv
    have hv : u.isValid = true := by simpa using hv
    cases he : Pct.encode .nonPath u.path with
    | mk b e =>
      rw [he] at hf
      cases b with
      | false => cases hf
      | true =>
        simp only [Option.some.injEq] at hf
        have h0 : (0 : Byte) ∉ u.path := by
          intro h
          have := Pct.C20_encode_nul .nonPath u.path h
          rw [he] at this; cases this
        have hdec := Pct.C20_roundtrip .nonPath u.path h0
        rw [he] at hdec
        have hplain : Plain e := by
          rw [← all_pchar, List.all_eq_true]
          have := EndpointUri.encode_pchar u.path
          rw [he] at this
          exact this
        have hv2 : u.scheme ≠ [] ∧ u.path ≠ [] := by
          simpa [Uri.isValid] using hv
        have hen : e ≠ [] := by
          intro h; rw [h] at hdec
          simp only [Pct.decode, Prod.mk.injEq, true_and] at hdec
          exact hv2.2 hdec.symm
        rw [C112_parse_iff]
        refine ⟨e, ?_, (Pct.C20_decode_iff _ _).1 hdec⟩
        by_cases hfile : u.scheme = str "file"
        · have hisf : u.isFile = true := by simp [Uri.isFile, hv, hfile]
          rw [hisf] at hf
          have ht : t = str "file:" ++ e := by
            rw [← hf, hfile]; simp [str]
          rw [ht, hfile]
          obtain ⟨hw1, hw2⟩ := hw hfile
          cases hp : u.path with
          | nil => exact absurd hp hv2.2
          | cons c cs =>
            rw [hp] at he h0 hw1 hw2
            have hc0 : c ≠ 0 := fun h => h0 (by simp [h])
            by_cases hc : c = ch '/'
            · subst hc
              cases cs with
              | nil => exact absurd rfl hw1
              | cons d ds =>
                have hd : d ≠ ch '/' := by
                  rintro rfl
                  exact hw2 ⟨ds, by simp [str]⟩
                have hd0 : d ≠ 0 := fun h => h0 (by simp [h])
                obtain ⟨e1, a1, a2⟩ := encode_cons_slash (d :: ds)
                rw [a1] at he
                obtain ⟨x, xs, b1, b2⟩ := encode_head_ne d ds hd0 hd
                rw [b1] at a2
                simp only [Prod.mk.injEq] at he
                rw [← he.2, a2] at hplain ⊢
                exact .abs1 ⟨x, xs, rfl, b2, ((plain_cons _ _).1 hplain).2⟩
            · obtain ⟨x, xs, b1, b2⟩ := encode_head_ne c cs hc0 hc
              rw [he] at b1
              simp only at b1
              rw [b1] at hplain ⊢
              exact .rel ⟨x, xs, rfl, b2, ((plain_cons _ _).1 hplain).2⟩
        · have hisf : u.isFile = false := by simp [Uri.isFile, hfile]
          rw [hisf] at hf
          rw [← hf]
          exact .device hv2.1 hs hfile hen hplain

/-- C112 fails for the other paths: the URI of the file system root, and of a path with two leading
slashes, are accepted and formatted, but the text is rejected. -/
theorem C112_roundtrip_fails :
    (∃ u t, parse (str "file:%2F") = some u ∧ format u = some t ∧ parse t = none) ∧
    (∃ u t, parse (str "file:%2F/a") = some u ∧ format u = some t ∧ parse t = none) :=
  ⟨⟨⟨str "file", str "/"⟩, str "file:/", by decide +kernel⟩,
    ⟨⟨str "file", str "//a"⟩, str "file://a", by decide +kernel⟩⟩

/-- C112. An accepted string has no `?` and no `#`, except as the first character of a relative path.
(The query and the fragment of a URI are not taken for a part of the path.) -/
theorem C112_plain_partial (s : List Byte) (u : Uri) (h : parse s = some u)
    (h1 : ¬ str "file:?" <+: s) (h2 : ¬ str "file:#" <+: s) : Plain s := by
  obtain ⟨p, hf, -⟩ := (C112_parse_iff s u).1 h
  have habs : ∀ q, Abs q → Plain q := by
    rintro q ⟨c, cs, rfl, -, hp⟩
    exact (plain_cons _ _).2 ⟨by decide, hp⟩
  have happ : ∀ a b : List Byte, Plain a → Plain b → Plain (a ++ b) := by
    intro a b ha hb
    exact ⟨by simp [ha.1, hb.1], by simp [ha.2, hb.2]⟩
  have hal : ∀ a : List Byte, (∀ c ∈ a, isAlnum c = true) → Plain a := by
    intro a ha
    constructor
    · intro hm; have := ha _ hm; exact absurd this (by decide)
    · intro hm; have := ha _ hm; exact absurd this (by decide)
  generalize u.scheme = sc at hf
  cases hf with
  | device _ g2 _ _ g5 => exact happ _ _ (happ _ _ (hal _ g2) (by unfold Plain; decide +kernel)) g5
  | abs3 g => exact happ _ _ (by unfold Plain; decide +kernel) (habs _ g)
  | host g => exact happ _ _ (by unfold Plain; decide +kernel) (habs _ g)
  | abs1 g => exact happ _ _ (by unfold Plain; decide +kernel) (habs _ g)
  | rel g =>
    obtain ⟨c, cs, rfl, -, hp⟩ := g
    refine happ _ _ (by unfold Plain; decide +kernel) ((plain_cons _ _).2 ⟨(isPchar_iff c).2 ⟨?_, ?_⟩, hp⟩)
    · rintro rfl; exact h1 ⟨cs, by simp [str]⟩
    · rintro rfl; exact h2 ⟨cs, by simp [str]⟩
  | std2 => unfold Plain; decide +kernel

/-- C112 fails for a relative path: `file:?a` and `file:#a` are accepted. -/
theorem C112_plain_fails : parse (str "file:?a") = some ⟨str "file", str "?a"⟩ ∧
    parse (str "file:#a") = some ⟨str "file", str "#a"⟩ := by decide +kernel

/-! ### Examples: the hypotheses are met by non-trivial cases -/

example : Form (str "alsa://card0") (str "alsa") (str "card0") := by
  have e : str "alsa://card0" = str "alsa" ++ str "://" ++ str "card0" := by decide +kernel
  rw [e]
  exact .device (by decide) (by decide +kernel) (by decide +kernel) (by decide)
    (by unfold Plain; decide +kernel)

example : parse (str "file:///home/my%20file.wav") = some ⟨str "file", str "/home/my file.wav"⟩ := by
  decide +kernel

example : parse (str "file://home/x") = none ∧ parse (str "file:////x") = none ∧
    parse (str "file://") = none ∧ parse (str "alsa:card0") = none ∧
    parse (str "file:a%2") = none ∧ parse (str "file:/a?b") = none := by decide +kernel

example : Abs (str "/home/my%20file.wav") := (absPath_iff _).1 (by decide +kernel)

example : Writable ⟨str "file", str "/a b?c%"⟩ ∧
    format ⟨str "file", str "/a b?c%"⟩ = some (str "file:/a%20b%3Fc%25") := by
  constructor
  · intro _
    constructor
    · decide
    · rw [← List.isPrefixOf_iff_prefix]; decide +kernel
  · decide +kernel

example : format ⟨str "pulse", str "//x y"⟩ = some (str "pulse:////x%20y") ∧
    parse (str "pulse:////x%20y") = some ⟨str "pulse", str "//x y"⟩ := by decide +kernel

end Verif.IoUri
