import Verif.ParseUnits.Lemmas

/-!
# Parsing of durations and sizes: numbers
-/

namespace Verif.ParseUnits

open Verif.PcmFormat Verif.SampleTime Spec

/-- Result of `unsigned` that comes from a decimal number. -/
def decOf (s : List Char) : Option (Flt × List Char) :=
  (float 10 10 isDec isE s).map fun x => (Flt.num (rnd 53 x.1), x.2)

theorem unsigned_hex (c : Char) (t : List Char) (hc : c.toLower = 'x') (x : ℚ × List Char)
    (h : float 16 2 isHex isP t = some x) : unsigned ('0' :: c :: t) = some (.num (rnd 53 x.1), x.2) := by
  unfold unsigned
  simp only [hc, if_true, h]

theorem word_head (w : Char) (ws s : List Char) (h : ∀ c, s.head? = some c → c.toLower ≠ w) : word (w :: ws) s = none := by
  cases s with
  | nil => rfl
  | cons c t =>
    unfold word
    rw [if_neg (h c rfl)]

theorem unsigned_dec (s : List Char) (h1 : ∀ c, s.head? = some c → c.toLower ≠ 'i' ∧ c.toLower ≠ 'n')
    (h2 : ∀ c, s[1]? = some c → c.toLower ≠ 'x') : unsigned s = decOf s := by
  unfold unsigned decOf
  split
  · rename_i c t
    rw [if_neg (h2 c rfl)]
  · rw [show "infinity".toList = 'i' :: "nfinity".toList from rfl, word_head _ _ _ fun c hc => (h1 c hc).1,
      show "inf".toList = 'i' :: "nf".toList from rfl, word_head _ _ _ fun c hc => (h1 c hc).1,
      show "nan".toList = 'n' :: "an".toList from rfl, word_head _ _ _ fun c hc => (h1 c hc).2]

/-- Characters of a decimal number. -/
def decChars : List Char := "0123456789.eE+-".toList

theorem mantissa_chars {m i f : List Char} (h : Mantissa decDigits m i f) : m ≠ [] ∧
    ∀ c ∈ m, c ∈ "0123456789.".toList := by
  have hd : ∀ c ∈ decDigits, c ∈ "0123456789.".toList := by decide +kernel
  cases h with
  | whole _ hne hi => exact ⟨hne, fun c hc => hd c (hi c hc)⟩
  | point _ _ hne hi hf =>
    refine ⟨by simp, fun c hc => ?_⟩
    rcases List.mem_append.1 hc with hc | hc
    · exact hd c (hi c hc)
    · rcases List.mem_cons.1 hc with hc | hc
      · rw [hc]; decide
      · exact hd c (hf c hc)

theorem exponent_chars {x : List Char} {e : Int} (h : Exponent ['e', 'E'] x e) : ∀ c ∈ x, c ∈ decChars := by
  have hd : ∀ c ∈ decDigits, c ∈ decChars := by decide +kernel
  have he : ∀ c ∈ ['e', 'E'], c ∈ decChars := by decide +kernel
  have h1 : '+' ∈ decChars := by decide
  have h2 : '-' ∈ decChars := by decide
  intro c hc
  cases h with
  | none => cases hc
  | plain a d ha _ hd' =>
    rcases List.mem_cons.1 hc with hc | hc
    · rw [hc]; exact he _ ha
    · exact hd c (hd' c hc)
  | plus a d ha _ hd' =>
    rcases List.mem_cons.1 hc with hc | hc
    · rw [hc]; exact he _ ha
    · rcases List.mem_cons.1 hc with hc | hc
      · rw [hc]; exact h1
      · exact hd c (hd' c hc)
  | minus a d ha _ hd' =>
    rcases List.mem_cons.1 hc with hc | hc
    · rw [hc]; exact he _ ha
    · rcases List.mem_cons.1 hc with hc | hc
      · rw [hc]; exact h2
      · exact hd c (hd' c hc)

/-- A number followed by something else is read as this number. -/
theorem unsigned_forward {t u : List Char} {q : ℚ} (h : Unsigned t q) (hu : Stop u) :
    unsigned (t ++ u) = some (.num (rnd 53 q), u) := by
  cases h with
  | dec m x i f e hm hx =>
    obtain ⟨hne, hc⟩ := mantissa_chars hm
    have hx' := exponent_chars hx
    have hin : ∀ c ∈ "0123456789.".toList, c.toLower ≠ 'i' ∧ c.toLower ≠ 'n' ∧ c.toLower ≠ 'x' := by decide +kernel
    have hx2 : ∀ c ∈ decChars, c.toLower ≠ 'x' := by decide +kernel
    have := float_dec hm hx hu
    rw [unsigned_dec]
    · unfold decOf
      rw [this]
      rfl
    · intro c h
      cases m with
      | nil => exact absurd rfl hne
      | cons a m =>
        have ha := hc c (by rw [← Option.some.inj h]; exact List.mem_cons_self ..)
        exact ⟨(hin c ha).1, (hin c ha).2.1⟩
    · intro c h
      cases m with
      | nil => exact absurd rfl hne
      | cons a m =>
        rw [List.cons_append, List.cons_append, List.getElem?_cons_succ, List.append_assoc] at h
        cases m with
        | cons b m =>
          have hb := hc c (by rw [← Option.some.inj h]; simp)
          exact (hin c hb).2.2
        | nil =>
          rw [List.nil_append] at h
          cases x with
          | cons b x =>
            exact hx2 c (hx' c (by rw [← Option.some.inj h]; simp))
          | nil =>
            rw [List.nil_append, ← List.head?_eq_getElem?] at h
            exact (hu c h).2.2.2.1
  | hex c m x i f e hc hm hx =>
    have := float_hex hm hx hu
    rw [List.cons_append, List.cons_append]
    have hl : ∀ c ∈ ['x', 'X'], c.toLower = 'x' := by decide
    rw [unsigned_hex c _ (hl c hc) _ this]

theorem toLower_x (c : Char) (h : c.toLower = 'x') : c ∈ ['x', 'X'] := by
  have hb : c.toNat < 128 := by
    by_contra hc
    have : c.toLower = c := by
      unfold Char.toLower
      split
      · rename_i h'
        exfalso
        apply hc
        have := h'.2
        change c.toNat ≤ 90 at this
        omega
      · rfl
    rw [this] at h
    rw [h] at hc
    exact hc (by decide)
  revert h
  exact char_bound 128 (le_refl _) c hb (P := fun c => c.toLower = 'x' → c ∈ ['x', 'X']) (by decide +kernel)

theorem word_spec : ∀ (w s r : List Char), word w s = some r → ∃ x, s = x ++ r ∧ x.map Char.toLower = w := by
  intro w
  induction w with
  | nil =>
    intro s r h
    exact ⟨[], by rw [List.nil_append]; exact Option.some.inj h, rfl⟩
  | cons a w ih =>
    intro s r h
    cases s with
    | nil => cases h
    | cons c t =>
      unfold word at h
      split at h
      · rename_i hc
        obtain ⟨x, e1, e2⟩ := ih t r h
        exact ⟨c :: x, by rw [e1]; rfl, by rw [List.map_cons, hc, e2]⟩
      · cases h

theorem word_forward : ∀ (w x r : List Char), x.map Char.toLower = w → word w (x ++ r) = some r := by
  intro w x r h
  subst h
  induction x with
  | nil => rfl
  | cons c t ih =>
    rw [List.map_cons, List.cons_append]
    unfold word
    rw [if_pos rfl, ih]

theorem wordChar_iff (c : Char) : isWordChar c = true ↔ c = '_' ∨ c.isAlphanum = true := by
  constructor
  · intro h
    have hb : c.toNat < 128 := by
      unfold isWordChar isDec at h
      simp only [Bool.or_eq_true, Bool.and_eq_true, decide_eq_true_eq, le_iff, beq_iff_eq] at h
      have h1 : '9'.toNat = 57 := rfl
      have h2 : 'z'.toNat = 122 := rfl
      have h3 : 'Z'.toNat = 90 := rfl
      rcases h with h | h
      · omega
      · rw [h]; decide
    revert h
    exact char_bound 128 (le_refl _) c hb (P := fun c => isWordChar c = true → c = '_' ∨ c.isAlphanum = true)
      (by decide +kernel)
  · intro h
    have hb : c.toNat < 128 := by
      rcases h with h | h
      · rw [h]; decide
      · unfold Char.isAlphanum Char.isAlpha Char.isUpper Char.isLower Char.isDigit at h
        simp only [Bool.or_eq_true, Bool.and_eq_true, decide_eq_true_eq] at h
        rcases h with (⟨_, h⟩ | ⟨_, h⟩) | ⟨_, h⟩
        · change c.toNat ≤ 90 at h; omega
        · change c.toNat ≤ 122 at h; omega
        · change c.toNat ≤ 57 at h; omega
    revert h
    exact char_bound 128 (le_refl _) c hb (P := fun c => (c = '_' ∨ c.isAlphanum = true) → isWordChar c = true)
      (by decide +kernel)

theorem nanText_spec (s : List Char) : ∃ p, s = p ++ nanText s ∧
    (p = [] ∨ ∃ x, p = '(' :: (x ++ [')']) ∧ ∀ c ∈ x, c = '_' ∨ c.isAlphanum = true) := by
  unfold nanText
  split
  · rename_i t
    split
    · rename_i r e
      obtain ⟨a, b, _⟩ := span_eq isWordChar t
      refine ⟨'(' :: (t.takeWhile isWordChar ++ [')']), ?_, Or.inr ⟨_, rfl, fun c hc => (wordChar_iff c).1 (b c hc)⟩⟩
      rw [List.cons_append, List.append_assoc, List.singleton_append, ← e, ← a]
    · exact ⟨[], rfl, Or.inl rfl⟩
  · exact ⟨[], rfl, Or.inl rfl⟩

theorem word_letter (ws x : List Char) (h : x.map Char.toLower = 'i' :: ws) : ∃ c w, x = c :: w ∧ isDec c = false := by
  cases x with
  | nil => cases h
  | cons c w =>
    refine ⟨c, w, rfl, ?_⟩
    rw [List.map_cons, List.cons.injEq] at h
    by_contra hc
    have hd := (isDec_iff c).1 (by simpa using hc)
    have : ∀ c ∈ decDigits, c.toLower ≠ 'i' := by decide +kernel
    exact this c hd h.1

/-- What is read is a number, an infinity or a NaN. -/
theorem unsigned_backward {s r : List Char} {v : Flt} (h : unsigned s = some (v, r)) : ∃ t, s = t ++ r ∧
    ((∃ q, v = .num (rnd 53 q) ∧ Unsigned t q) ∨ (v = .inf false ∧ ∃ c w, t = c :: w ∧ isDec c = false) ∨ (v = .nan ∧ Nan t)) := by
  have hdec : ∀ s, decOf s = some (v, r) → ∃ t, s = t ++ r ∧
      ((∃ q, v = .num (rnd 53 q) ∧ Unsigned t q) ∨ (v = .inf false ∧ ∃ c w, t = c :: w ∧ isDec c = false) ∨ (v = .nan ∧ Nan t)) := by
    intro s h
    unfold decOf at h
    cases e : float 10 10 isDec isE s with
    | none => rw [e] at h; cases h
    | some x =>
      rw [e] at h
      simp only [Option.map_some, Option.some.injEq, Prod.mk.injEq] at h
      obtain ⟨m, y, i, f, ex, e1, e2, e3, e4⟩ := float_dec_back (q := x.1) (r := x.2) e
      refine ⟨m ++ y, by rw [← h.2]; exact e1, Or.inl ⟨x.1, h.1.symm, ?_⟩⟩
      rw [e4]
      exact .dec m y i f ex e2 e3
  unfold unsigned at h
  simp only at h
  split at h
  · rename_i c t
    split at h
    · rename_i hc
      split at h
      · rename_i x e
        simp only [Option.some.injEq, Prod.mk.injEq] at h
        obtain ⟨m, y, i, f, ex, e1, e2, e3, e4⟩ := float_hex_back (q := x.1) (r := x.2) e
        refine ⟨'0' :: c :: (m ++ y), by rw [← h.2, List.cons_append, List.cons_append, ← e1],
          Or.inl ⟨x.1, h.1.symm, ?_⟩⟩
        rw [e4]
        exact .hex c m y i f ex (toLower_x c hc) e2 e3
      · exact hdec _ h
    · exact hdec _ h
  · split at h
    · rename_i w e
      obtain ⟨x, e1, e2⟩ := word_spec _ _ _ e
      simp only [Option.some.injEq, Prod.mk.injEq] at h
      exact ⟨x, by rw [← h.2]; exact e1, Or.inr (Or.inl ⟨h.1.symm, word_letter _ x e2⟩)⟩
    · split at h
      · rename_i w e
        obtain ⟨x, e1, e2⟩ := word_spec _ _ _ e
        simp only [Option.some.injEq, Prod.mk.injEq] at h
        exact ⟨x, by rw [← h.2]; exact e1, Or.inr (Or.inl ⟨h.1.symm, word_letter _ x e2⟩)⟩
      · split at h
        · rename_i w e
          obtain ⟨x, e1, e2⟩ := word_spec _ _ _ e
          simp only [Option.some.injEq, Prod.mk.injEq] at h
          obtain ⟨p, e3, e4⟩ := nanText_spec w
          refine ⟨x ++ p, ?_, Or.inr (Or.inr ⟨h.1.symm, x, p, rfl, e2, e4⟩)⟩
          rw [List.append_assoc, ← h.2, ← e3]
          exact e1
        · exact hdec _ h

theorem nan_forward {t u : List Char} (h : Nan t) (hu : Stop u) : unsigned (t ++ u) = some (.nan, u) := by
  obtain ⟨w, p, e1, e2, e3⟩ := h
  have hlen : w.length = 3 := by
    have := congrArg List.length e2
    rw [List.length_map] at this
    exact this
  obtain ⟨a, b, c, rfl⟩ : ∃ a b c, w = [a, b, c] := by
    match w, hlen with
    | [a, b, c], _ => exact ⟨a, b, c, rfl⟩
  have ha : a.toLower = 'n' := by
    have := congrArg List.head? e2
    exact Option.some.inj this
  have hn0 : a ≠ '0' := by
    intro h0
    rw [h0] at ha
    exact absurd ha (by decide)
  have hni : a.toLower ≠ 'i' := by rw [ha]; decide
  have htext : nanText (p ++ u) = u := by
    rcases e3 with e3 | ⟨x, e3, e4⟩
    · rw [e3, List.nil_append]
      unfold nanText
      split
      · exact absurd rfl (hu '(' rfl).2.2.2.2
      · rfl
    · rw [e3, List.cons_append, List.append_assoc, List.singleton_append]
      unfold nanText
      have hcl : Clean isWordChar (')' :: u) := by
        intro c hc
        rw [← Option.some.inj hc]
        decide
      obtain ⟨_, g⟩ := takeWhile_clean isWordChar x (')' :: u) (fun c hc => (wordChar_iff c).2 (e4 c hc)) hcl
      simp only [g]
  have hword : word "nan".toList (([a, b, c] ++ p) ++ u) = some (p ++ u) := by
    rw [List.append_assoc]
    exact word_forward _ _ _ e2
  have hinf : ∀ ws, word ('i' :: ws) (([a, b, c] ++ p) ++ u) = none := by
    intro ws
    apply word_head
    intro d hd
    rw [← Option.some.inj hd]
    exact hni
  rw [e1]
  unfold unsigned
  split
  · rename_i x y e
    exact absurd (congrArg List.head? e) (fun h => hn0 (Option.some.inj h))
  · rw [show "infinity".toList = 'i' :: "nfinity".toList from rfl, hinf,
      show "inf".toList = 'i' :: "nf".toList from rfl, hinf, hword]
    simp only [htext]

end Verif.ParseUnits
