import Verif.Pct.Lemmas

/-! # C20: percent-encoding -/

namespace Verif.Pct

/-- **C20** (output of the encoder). Every NUL-free string is encoded to a text of characters that
are legal in the URI component and of `%XX` escapes, the value of which is the string. -/
theorem C20_encode (m : Mode) : ∀ s : List Byte, (0 : Byte) ∉ s →
    (encode m s).1 = true ∧ Escaped (· ∈ rfcLegal m) (encode m s).2 s
  | [], _ => ⟨rfl, .nil⟩
  | c :: cs, h => by
    simp only [List.mem_cons, not_or] at h
    have hc : c ≠ 0 := fun e => h.1 e.symm
    have ih := C20_encode m cs h.2
    unfold encode
    rw [if_neg hc]
    simp only
    split
    · rename_i hs
      exact ⟨ih.1, .plain ((skip_legal m c).mp hs) ih.2⟩
    · have hx := split16 c
      exact ⟨ih.1, .escape c hx.1 hx.2 (by omega) hc ih.2⟩

/-- **C20** (round trip). Decoding the encoded text gives the original string, in every mode. -/
theorem C20_roundtrip (m : Mode) (s : List Byte) (h : (0 : Byte) ∉ s) :
    decode (encode m s).2 = (true, s) := by
  apply decode_of_escaped
  refine Escaped.mono ?_ (C20_encode m s h).2
  intro c hc
  have hs := (skip_legal m c).mpr hc
  have := skip_percent m
  constructor
  · rintro rfl; rw [this.2] at hs; exact absurd hs (by simp)
  · rintro rfl; rw [this.1] at hs; exact absurd hs (by simp)

/-- **C20** (strictness). Decoding succeeds exactly on well-formed texts: no NUL, every `%` followed by
two hexadecimal digits that do not encode NUL; and then the result is their value. -/
theorem C20_decode_iff (s out : List Byte) :
    decode s = (true, out) ↔ Escaped (fun c => c ≠ 0 ∧ c ≠ ch '%') s out :=
  ⟨escaped_of_decode s.length s (Nat.le_refl _) out, decode_of_escaped⟩

/-- **C20** (NUL is rejected). A string with a NUL byte cannot be encoded. -/
theorem C20_encode_nul (m : Mode) : ∀ s : List Byte, (0 : Byte) ∈ s → (encode m s).1 = false
  | c :: cs, h => by
    unfold encode
    by_cases hc : c = 0
    · simp [hc]
    · rw [if_neg hc]
      have : (0 : Byte) ∈ cs := by
        rcases List.mem_cons.mp h with e | h
        · exact absurd e.symm hc
        · exact h
      have ih := C20_encode_nul m cs this
      simp only
      split <;> exact ih

example : encode .nonPath (bytes "/a b%") = (true, bytes "/a%20b%25") := by decide +kernel
example : decode (bytes "/a%20b%2") = (false, bytes "/a b") := by decide +kernel
example : decode (bytes "%c3%A9") = (true, [0xC3, 0xA9]) := by decide +kernel
example : decode (bytes "a%00") = (false, bytes "a") := by decide +kernel
example : (0 : Byte) ∉ bytes "/a b%" := by decide +kernel
example := C20_roundtrip .nonHost (bytes "host name.ü") (by decide +kernel)

end Verif.Pct
