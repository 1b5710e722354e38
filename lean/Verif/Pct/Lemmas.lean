import Verif.Pct.Spec

namespace Verif.Pct

theorem skip_legal (m : Mode) : ∀ c : Byte, skipEncoding m c = true ↔ c ∈ rfcLegal m := by
  cases m <;> decide +kernel

theorem skip_percent (m : Mode) : skipEncoding m (ch '%') = false ∧ skipEncoding m 0 = false := by
  cases m <;> decide +kernel

theorem xdigit_iff : ∀ c : Byte, isXDigit c = true ↔ (rfcHexValue c).isSome = true := by decide +kernel

theorem hexVal_eq : ∀ c : Byte, isXDigit c = true →
    rfcHexValue c = some (hexVal c).toNat ∧ (hexVal c).toNat < 16 := by decide +kernel

/-- `h << 4 | l` for hexadecimal digits. -/
theorem hex_disjoint (h l : Nat) (hl : l < 16) : (h <<< 4) ||| l = 16 * h + l := by
  rw [Nat.shiftLeft_eq, Nat.mul_comm, ← Nat.two_pow_add_eq_or_of_lt (i := 4) (by simpa using hl)]

theorem toHex_value : ∀ n : Fin 16, rfcHexValue (toHex n.val) = some n.val := by decide +kernel

theorem toHex_value' (n : Nat) (h : n < 16) : rfcHexValue (toHex n) = some n := toHex_value ⟨n, h⟩

theorem fromHex_value {a b : Byte} {x y : Nat} (ha : rfcHexValue a = some x)
    (hb : rfcHexValue b = some y) :
    isXDigit a = true ∧ isXDigit b = true ∧ x < 16 ∧ y < 16 ∧ (fromHex a b).val = 16 * x + y := by
  have ia : isXDigit a = true := (xdigit_iff a).mpr (by rw [ha]; rfl)
  have ib : isXDigit b = true := (xdigit_iff b).mpr (by rw [hb]; rfl)
  obtain ⟨ea, la⟩ := hexVal_eq a ia
  obtain ⟨eb, lb⟩ := hexVal_eq b ib
  rw [ha] at ea; rw [hb] at eb
  simp only [Option.some.injEq] at ea eb
  refine ⟨ia, ib, by omega, by omega, ?_⟩
  unfold fromHex
  rw [hex_disjoint _ _ lb, ← ea, ← eb]
  simp only [Fin.val_ofNat]
  omega

theorem split16 (c : Byte) :
    rfcHexValue (toHex (c.val >>> 4)) = some (c.val / 16) ∧
    rfcHexValue (toHex (c.val &&& 0xf)) = some (c.val % 16) := by
  have h1 : c.val >>> 4 = c.val / 16 := by rw [Nat.shiftRight_eq_div_pow]
  have h2 : c.val &&& 0xf = c.val % 16 := Nat.and_two_pow_sub_one_eq_mod c.val 4
  rw [h1, h2]
  exact ⟨toHex_value' _ (by omega), toHex_value' _ (by omega)⟩

theorem ch_percent : ch '%' = Fin.ofNat 256 ('%').toNat := rfl

theorem ch_percent_ne : ch '%' ≠ 0 := by decide

/-- Decoding accepts exactly the escaped texts. -/
theorem decode_of_escaped {s out : List Byte}
    (h : Escaped (fun c => c ≠ 0 ∧ c ≠ ch '%') s out) : decode s = (true, out) := by
  induction h with
  | nil => rfl
  | plain hc _ ih =>
    unfold decode
    rw [if_neg hc.1, if_neg hc.2, ih]
  | @escape a b s out x y v ha hb hv hv0 _ ih =>
    obtain ⟨ia, ib, _, _, hval⟩ := fromHex_value ha hb
    have e : fromHex a b = v := Fin.ext (by omega)
    rw [← ch_percent]
    unfold decode
    simp [ch_percent_ne, ia, ib, e, hv0, ih]

theorem escaped_of_decode : ∀ (n : Nat) (s : List Byte), s.length ≤ n → ∀ out, decode s = (true, out) →
    Escaped (fun c => c ≠ 0 ∧ c ≠ ch '%') s out
  | 0, s, hn, out, h => by
    have : s = [] := List.length_eq_zero_iff.mp (by omega)
    subst this
    simp [decode] at h
    subst h
    exact .nil
  | n + 1, [], _, out, h => by
    simp [decode] at h
    subst h
    exact .nil
  | n + 1, c :: cs, hn, out, h => by
    unfold decode at h
    by_cases hc0 : c = 0
    · simp [hc0] at h
    · rw [if_neg hc0] at h
      by_cases hp : c = ch '%'
      · rw [if_pos hp] at h
        match cs, h, hn with
        | [], h, _ => simp at h
        | [_], h, _ => simp at h
        | hi :: lo :: cs, h, hn =>
          simp only at h
          by_cases hx : (!isXDigit hi || !isXDigit lo) = true
          · rw [if_pos hx] at h; simp at h
          · rw [if_neg hx] at h
            simp only [Bool.or_eq_true, Bool.not_eq_true', not_or, Bool.not_eq_false] at hx
            by_cases hv : fromHex hi lo = 0
            · rw [if_pos hv] at h; simp at h
            · rw [if_neg hv] at h
              simp only [Prod.mk.injEq] at h
              obtain ⟨h1, rfl⟩ := h
              obtain ⟨ea, _⟩ := hexVal_eq hi hx.1
              obtain ⟨eb, _⟩ := hexVal_eq lo hx.2
              rw [hp, ch_percent]
              exact .escape _ ea eb (fromHex_value ea eb).2.2.2.2 hv
                (escaped_of_decode n cs (by simp at hn; omega) _ (by rw [← h1]))
      · rw [if_neg hp] at h
        simp only [Prod.mk.injEq] at h
        obtain ⟨h1, rfl⟩ := h
        exact .plain ⟨hc0, hp⟩ (escaped_of_decode n cs (by simp at hn; omega) _ (by rw [← h1]))

theorem Escaped.mono {l1 l2 : Byte → Prop} (h : ∀ c, l1 c → l2 c) {s out : List Byte}
    (he : Escaped l1 s out) : Escaped l2 s out := by
  induction he with
  | nil => exact .nil
  | plain hc _ ih => exact .plain (h _ hc) ih
  | escape v ha hb hv hv0 _ ih => exact .escape v ha hb hv hv0 ih

end Verif.Pct
