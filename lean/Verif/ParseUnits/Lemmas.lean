import Verif.ParseUnits.Model
import Verif.ParseUnits.Spec
import Verif.SampleTime.Props

/-!
# Parsing of durations and sizes: lemmas
-/

namespace Verif.ParseUnits

open Verif.PcmFormat Verif.SampleTime Spec

/-! ## Digits -/

theorem char_bound {P : Char → Prop} (n : Nat) (hn : n ≤ 128) (c : Char) (h : c.toNat < n)
    (hall : ∀ m < 128, P (Char.ofNat m)) : P c := by
  have := hall c.toNat (by omega)
  rwa [Char.ofNat_toNat] at this

theorem le_iff (a b : Char) : a ≤ b ↔ a.toNat ≤ b.toNat := Iff.rfl

theorem isDec_iff (c : Char) : isDec c = true ↔ c ∈ decDigits := by
  constructor
  · intro h
    have hb : c.toNat < 128 := by
      unfold isDec at h
      simp only [Bool.and_eq_true, decide_eq_true_eq, le_iff] at h
      have : '9'.toNat = 57 := rfl
      omega
    revert h
    exact char_bound 128 (le_refl _) c hb (P := fun c => isDec c = true → c ∈ decDigits) (by decide +kernel)
  · intro h
    have : ∀ c ∈ decDigits, isDec c = true := by decide +kernel
    exact this c h

theorem isHex_iff (c : Char) : isHex c = true ↔ c ∈ hexDigits := by
  constructor
  · intro h
    have hb : c.toNat < 128 := by
      unfold isHex isDec at h
      simp only [Bool.or_eq_true, Bool.and_eq_true, decide_eq_true_eq, le_iff] at h
      have h1 : '9'.toNat = 57 := rfl
      have h2 : 'f'.toNat = 102 := rfl
      have h3 : 'F'.toNat = 70 := rfl
      omega
    revert h
    exact char_bound 128 (le_refl _) c hb (P := fun c => isHex c = true → c ∈ hexDigits) (by decide +kernel)
  · intro h
    have : ∀ c ∈ hexDigits, isHex c = true := by decide +kernel
    exact this c h

theorem digit_eq (c : Char) (h : c ∈ hexDigits) : digit c = digitValue c := by
  have : ∀ c ∈ hexDigits, digit c = digitValue c := by decide +kernel
  exact this c h

theorem dec_hex (c : Char) (h : c ∈ decDigits) : c ∈ hexDigits := by
  have : ∀ c ∈ decDigits, c ∈ hexDigits := by decide +kernel
  exact this c h

theorem number_eq (b : Nat) (l : List Char) (h : ∀ c ∈ l, c ∈ hexDigits) : number b l = value b l := by
  have key : ∀ (l : List Char), (∀ c ∈ l, c ∈ hexDigits) → ∀ a,
      l.foldl (fun a c => a * b + digit c) a = a * b ^ l.length + value b l := by
    intro l
    induction l with
    | nil => intro _ a; simp [value]
    | cons c t ih =>
      intro h a
      rw [List.foldl_cons, ih (fun c hc => h c (List.mem_cons_of_mem _ hc)), digit_eq c (h c (List.mem_cons_self ..))]
      simp only [value, List.length_cons, pow_succ]
      ring
  unfold number
  rw [key l h]
  simp

/-! ## Scanning -/

/-- The first character, if any, is not one of those. -/
def Clean (p : Char → Bool) (r : List Char) : Prop := ∀ c, r.head? = some c → p c = false

theorem takeWhile_clean (p : Char → Bool) (d r : List Char) (hd : ∀ c ∈ d, p c = true) (hr : Clean p r) :
    (d ++ r).takeWhile p = d ∧ (d ++ r).dropWhile p = r := by
  rw [List.takeWhile_append_of_pos hd, List.dropWhile_append_of_pos hd]
  cases r with
  | nil => simp
  | cons c t =>
    have := hr c rfl
    simp [this]

theorem span_eq (p : Char → Bool) (s : List Char) : s = s.takeWhile p ++ s.dropWhile p ∧
    (∀ c ∈ s.takeWhile p, p c = true) ∧ Clean p (s.dropWhile p) := by
  refine ⟨List.takeWhile_append_dropWhile.symm, fun c hc => List.all_eq_true.1 List.all_takeWhile c hc, fun c hc => ?_⟩
  have := List.head?_dropWhile_not p s
  rw [hc] at this
  simpa using this

theorem sign_dec (s : List Char) (h : ∀ c, s.head? = some c → c ≠ '+' ∧ c ≠ '-') : sign s = (false, s) := by
  unfold sign
  split
  · exact absurd rfl (h '-' rfl).2
  · exact absurd rfl (h '+' rfl).1
  · rfl

theorem sign_split (s : List Char) : (sign s = (true, s.drop 1) ∧ ∃ t, s = '-' :: t) ∨
    (sign s = (false, s.drop 1) ∧ ∃ t, s = '+' :: t) ∨ (sign s = (false, s) ∧ ∀ c, s.head? = some c → c ≠ '+' ∧ c ≠ '-') := by
  cases s with
  | nil => exact Or.inr (Or.inr ⟨rfl, by simp⟩)
  | cons c t =>
    by_cases h1 : c = '-'
    · subst h1
      exact Or.inl ⟨rfl, t, rfl⟩
    · by_cases h2 : c = '+'
      · subst h2
        exact Or.inr (Or.inl ⟨rfl, t, rfl⟩)
      · have : ∀ d, (c :: t).head? = some d → d ≠ '+' ∧ d ≠ '-' := by
          intro d hd
          rw [List.head?_cons] at hd
          rw [← Option.some.inj hd]
          exact ⟨h2, h1⟩
        exact Or.inr (Or.inr ⟨sign_dec _ this, this⟩)

theorem dec_not_sign (d u : List Char) (hd : ∀ c ∈ d, c ∈ decDigits) (hne : d ≠ []) :
    ∀ c, (d ++ u).head? = some c → c ≠ '+' ∧ c ≠ '-' := by
  intro c hc
  cases d with
  | nil => exact absurd rfl hne
  | cons e t =>
    rw [List.cons_append, List.head?_cons] at hc
    have := hd c (by rw [Option.some.inj hc]; exact List.mem_cons_self ..)
    have h2 : ∀ c ∈ decDigits, c ≠ '+' ∧ c ≠ '-' := by decide +kernel
    exact h2 c this

theorem exponent_forward (M : List Char) (mark : Char → Bool) (hM : ∀ c, mark c = true ↔ c ∈ M) (x u : List Char) (e : Int)
    (hx : Exponent M x e) (h1 : Clean mark u) (h2 : Clean isDec u) : exponent mark (x ++ u) = (e, u) := by
  have key : ∀ (d : List Char), d ≠ [] → (∀ c ∈ d, c ∈ decDigits) →
      (d ++ u).takeWhile isDec = d ∧ (d ++ u).dropWhile isDec = u ∧ number 10 d = value 10 d := by
    intro d _ hd
    obtain ⟨a, b⟩ := takeWhile_clean isDec d u (fun c hc => (isDec_iff c).2 (hd c hc)) h2
    exact ⟨a, b, number_eq 10 d fun c hc => dec_hex c (hd c hc)⟩
  cases hx with
  | none =>
    cases u with
    | nil => rfl
    | cons c t =>
      have := h1 c rfl
      simp only [List.nil_append, exponent]
      rw [if_neg (by simp [this])]
  | plain c d hc hne hd =>
    obtain ⟨a, b, n⟩ := key d hne hd
    simp only [List.cons_append, exponent]
    rw [sign_dec _ (dec_not_sign d u hd hne)]
    simp only [a, b, n]
    rw [if_pos ⟨(hM c).2 hc, hne⟩]
    simp
  | plus c d hc hne hd =>
    obtain ⟨a, b, n⟩ := key d hne hd
    simp only [List.cons_append, exponent, sign]
    rw [a, b, n, if_pos ⟨(hM c).2 hc, hne⟩]
    simp
  | minus c d hc hne hd =>
    obtain ⟨a, b, n⟩ := key d hne hd
    simp only [List.cons_append, exponent, sign]
    rw [a, b, n, if_pos ⟨(hM c).2 hc, hne⟩]
    simp

theorem exponent_backward (M : List Char) (mark : Char → Bool) (hM : ∀ c, mark c = true ↔ c ∈ M) (s : List Char) :
    ∃ x, s = x ++ (exponent mark s).2 ∧ Exponent M x (exponent mark s).1 := by
  cases s with
  | nil => exact ⟨[], rfl, .none⟩
  | cons c t =>
    unfold exponent
    by_cases h : mark c = true ∧ (sign t).2.takeWhile isDec ≠ []
    · simp only [h, ne_eq, not_false_iff, and_self, if_true]
      obtain ⟨a, b, _⟩ := span_eq isDec (sign t).2
      have hd : ∀ c ∈ (sign t).2.takeWhile isDec, c ∈ decDigits := fun c hc => (isDec_iff c).1 (b c hc)
      have hn := number_eq 10 _ fun c hc => dec_hex c (hd c hc)
      have hc := (hM c).1 h.1
      rw [hn]
      rcases sign_split t with ⟨e, w, rfl⟩ | ⟨e, w, rfl⟩ | ⟨e, _⟩
      · refine ⟨c :: '-' :: (sign ('-' :: w)).2.takeWhile isDec, ?_, ?_⟩
        · rw [List.cons_append, List.cons_append, ← a]
          rfl
        · exact .minus c _ hc h.2 hd
      · refine ⟨c :: '+' :: (sign ('+' :: w)).2.takeWhile isDec, ?_, ?_⟩
        · rw [List.cons_append, List.cons_append, ← a]
          rfl
        · exact .plus c _ hc h.2 hd
      · rw [e] at hd h ⊢
        refine ⟨c :: t.takeWhile isDec, ?_, ?_⟩
        · simp
        · exact .plain c _ hc h.2 hd
    · simp only
      rw [if_neg h]
      exact ⟨[], rfl, .none⟩

theorem mantissa_forward (D : List Char) (p : Char → Bool) (hD : ∀ c, p c = true ↔ c ∈ D) (hdot : p '.' = false)
    (m i f r : List Char) (hm : Mantissa D m i f) (h1 : Clean p r) (h2 : Clean (· == '.') r) :
    mantissa p (m ++ r) = some (i, f, r) := by
  cases hm with
  | whole _ hne hi =>
    obtain ⟨a, b⟩ := takeWhile_clean p m r (fun c hc => (hD c).2 (hi c hc)) h1
    unfold mantissa
    rw [a, b]
    simp only
    split
    · have := h2 '.' rfl
      simp at this
    · rw [if_neg hne]
  | point _ _ hne hi hf =>
    have hc : Clean p ('.' :: (f ++ r)) := by
      intro c hc
      rw [List.head?_cons] at hc
      rw [← Option.some.inj hc]
      exact hdot
    obtain ⟨a, b⟩ := takeWhile_clean p i ('.' :: (f ++ r)) (fun c hc => (hD c).2 (hi c hc)) hc
    obtain ⟨a', b'⟩ := takeWhile_clean p f r (fun c hc => (hD c).2 (hf c hc)) h1
    unfold mantissa
    rw [List.append_assoc, List.cons_append, a, b]
    simp only [a', b']
    rw [if_neg]
    rintro ⟨x, y⟩
    rcases hne with h | h
    · exact h x
    · exact h y

theorem mantissa_backward (D : List Char) (p : Char → Bool) (hD : ∀ c, p c = true ↔ c ∈ D) (s i f r : List Char)
    (h : mantissa p s = some (i, f, r)) : ∃ m, s = m ++ r ∧ Mantissa D m i f := by
  unfold mantissa at h
  obtain ⟨a, b, _⟩ := span_eq p s
  have hi : ∀ c ∈ s.takeWhile p, c ∈ D := fun c hc => (hD c).1 (b c hc)
  simp only at h
  split at h
  · rename_i t e
    split at h
    · cases h
    · rename_i hne
      have h' := Option.some.inj h
      rw [Prod.mk.injEq, Prod.mk.injEq] at h'
      obtain ⟨e1, e2, e3⟩ := h'
      obtain ⟨a', b', _⟩ := span_eq p t
      refine ⟨i ++ '.' :: f, ?_, .point i f ?_ ?_ ?_⟩
      · rw [List.append_assoc, List.cons_append, ← e2, ← e3, ← a', ← e, ← e1, ← a]
      · rw [e1, e2] at hne
        by_cases hh : i = []
        · exact Or.inr fun hf => hne ⟨hh, hf⟩
        · exact Or.inl hh
      · rw [← e1]; exact hi
      · rw [← e2]; exact fun c hc => (hD c).1 (b' c hc)
  · split at h
    · cases h
    · rename_i hne
      have h' := Option.some.inj h
      rw [Prod.mk.injEq, Prod.mk.injEq] at h'
      obtain ⟨e1, e2, e3⟩ := h'
      refine ⟨i, ?_, ?_⟩
      · rw [← e1, ← e3]; exact a
      · rw [← e2]
        rw [e1] at hne hi
        exact .whole i hne hi

theorem mantissa_digits {D m i f : List Char} (h : Mantissa D m i f) : ∀ c ∈ i ++ f, c ∈ D := by
  intro c hc
  cases h with
  | whole _ _ hi => exact hi c (by rwa [List.append_nil] at hc)
  | point _ _ _ hi hf =>
    rcases List.mem_append.1 hc with hc | hc
    · exact hi c hc
    · exact hf c hc

theorem clean_append (p : Char → Bool) (x u : List Char) (M : List Char) (e : Int) (hx : Exponent M x e)
    (hM : ∀ c ∈ M, p c = false) (hu : Clean p u) : Clean p (x ++ u) := by
  intro c hc
  cases hx with
  | none => exact hu c hc
  | plain d _ hd _ _ => exact hM c (by rw [← Option.some.inj hc]; exact hd)
  | plus d _ hd _ _ => exact hM c (by rw [← Option.some.inj hc]; exact hd)
  | minus d _ hd _ _ => exact hM c (by rw [← Option.some.inj hc]; exact hd)

theorem isE_iff (c : Char) : isE c = true ↔ c ∈ ['e', 'E'] := by simp [isE]

theorem isP_iff (c : Char) : isP c = true ↔ c ∈ ['p', 'P'] := by simp [isP]

/-- What may follow a number: a character that cannot belong to one. -/
def Stop (u : List Char) : Prop :=
  ∀ c, u.head? = some c → isHex c = false ∧ c ≠ '.' ∧ isP c = false ∧ c.toLower ≠ 'x' ∧ c ≠ '('

theorem Stop.hex {u : List Char} (h : Stop u) : Clean isHex u := fun c hc => (h c hc).1

theorem Stop.dec {u : List Char} (h : Stop u) : Clean isDec u := fun c hc => by
  have := (h c hc).1
  unfold isHex at this
  simp only [Bool.or_eq_false_iff] at this
  exact this.1.1

theorem Stop.e {u : List Char} (h : Stop u) : Clean isE u := fun c hc => by
  have := (h c hc).1
  by_contra hcon
  have h2 := (isE_iff c).1 (by simpa using hcon)
  have h3 : ∀ c ∈ ['e', 'E'], isHex c = true := by decide
  rw [h3 c h2] at this
  cases this

theorem Stop.p {u : List Char} (h : Stop u) : Clean isP u := fun c hc => (h c hc).2.2.1

theorem Stop.dot {u : List Char} (h : Stop u) : Clean (· == '.') u := fun c hc => by
  have := (h c hc).2.1
  simpa using this

theorem float_dec {m x i f : List Char} {e : Int} (hm : Mantissa decDigits m i f) (hx : Exponent ['e', 'E'] x e)
    {u : List Char} (hu : Stop u) :
    float 10 10 isDec isE (m ++ x ++ u) = some ((value 10 (i ++ f) : ℚ) / 10 ^ f.length * 10 ^ e, u) := by
  have hme : ∀ c ∈ ['e', 'E'], isDec c = false := by decide
  have hmd : ∀ c ∈ ['e', 'E'], (c == '.') = false := by decide
  unfold float
  rw [List.append_assoc, mantissa_forward decDigits isDec isDec_iff (by decide) m i f (x ++ u) hm
    (clean_append _ _ _ _ _ hx hme hu.dec) (clean_append _ _ _ _ _ hx hmd hu.dot)]
  simp only [Option.map_some]
  rw [exponent_forward ['e', 'E'] isE isE_iff x u e hx hu.e hu.dec,
    number_eq 10 _ fun c hc => dec_hex c (mantissa_digits hm c hc)]
  simp

theorem float_hex {m x i f : List Char} {e : Int} (hm : Mantissa hexDigits m i f) (hx : Exponent ['p', 'P'] x e)
    {u : List Char} (hu : Stop u) :
    float 16 2 isHex isP (m ++ x ++ u) = some ((value 16 (i ++ f) : ℚ) / 16 ^ f.length * 2 ^ e, u) := by
  have hme : ∀ c ∈ ['p', 'P'], isHex c = false := by decide
  have hmd : ∀ c ∈ ['p', 'P'], (c == '.') = false := by decide
  unfold float
  rw [List.append_assoc, mantissa_forward hexDigits isHex isHex_iff (by decide) m i f (x ++ u) hm
    (clean_append _ _ _ _ _ hx hme hu.hex) (clean_append _ _ _ _ _ hx hmd hu.dot)]
  simp only [Option.map_some]
  rw [exponent_forward ['p', 'P'] isP isP_iff x u e hx hu.p hu.dec, number_eq 16 _ (mantissa_digits hm)]
  simp

theorem float_dec_back {s r : List Char} {q : ℚ} (h : float 10 10 isDec isE s = some (q, r)) :
    ∃ m x i f e, s = m ++ x ++ r ∧ Mantissa decDigits m i f ∧ Exponent ['e', 'E'] x e ∧
      q = (value 10 (i ++ f) : ℚ) / 10 ^ f.length * 10 ^ e := by
  unfold float at h
  cases hm : mantissa isDec s with
  | none => rw [hm] at h; cases h
  | some y =>
    obtain ⟨i, f, w⟩ := y
    rw [hm] at h
    simp only [Option.map_some, Option.some.injEq, Prod.mk.injEq] at h
    obtain ⟨m, e1, hm'⟩ := mantissa_backward decDigits isDec isDec_iff s i f w hm
    obtain ⟨x, e2, hx⟩ := exponent_backward ['e', 'E'] isE isE_iff w
    refine ⟨m, x, i, f, _, ?_, hm', hx, ?_⟩
    · rw [List.append_assoc, ← h.2, ← e2, e1]
    · rw [← h.1, number_eq 10 _ fun c hc => dec_hex c (mantissa_digits hm' c hc)]
      simp

theorem float_hex_back {s r : List Char} {q : ℚ} (h : float 16 2 isHex isP s = some (q, r)) :
    ∃ m x i f e, s = m ++ x ++ r ∧ Mantissa hexDigits m i f ∧ Exponent ['p', 'P'] x e ∧
      q = (value 16 (i ++ f) : ℚ) / 16 ^ f.length * 2 ^ e := by
  unfold float at h
  cases hm : mantissa isHex s with
  | none => rw [hm] at h; cases h
  | some y =>
    obtain ⟨i, f, w⟩ := y
    rw [hm] at h
    simp only [Option.map_some, Option.some.injEq, Prod.mk.injEq] at h
    obtain ⟨m, e1, hm'⟩ := mantissa_backward hexDigits isHex isHex_iff s i f w hm
    obtain ⟨x, e2, hx⟩ := exponent_backward ['p', 'P'] isP isP_iff w
    refine ⟨m, x, i, f, _, ?_, hm', hx, ?_⟩
    · rw [List.append_assoc, ← h.2, ← e2, e1]
    · rw [← h.1, number_eq 16 _ (mantissa_digits hm')]
      simp

end Verif.ParseUnits
