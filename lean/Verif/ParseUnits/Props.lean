import Verif.ParseUnits.Strtod

/-!
# Parsing of durations and sizes: properties

C96: durations and sizes are numbers with a unit, and are converted to whole nanoseconds or bytes.
-/

namespace Verif.ParseUnits

open Verif.PcmFormat Verif.SampleTime Spec

/-! ## Numbers with a sign -/

/-- NaN with an optional sign. -/
inductive SignedNan : List Char → Prop where
  | plain (t : List Char) : Nan t → SignedNan t
  | signed (c : Char) (t : List Char) : c = '+' ∨ c = '-' → Nan t → SignedNan (c :: t)

theorem unsigned_head {t : List Char} {q : ℚ} (h : Unsigned t q) : ∃ c w, t = c :: w ∧ (isDec c = true ∨ c = '.') := by
  cases h with
  | dec m x i f e hm hx =>
    obtain ⟨hne, hc⟩ := mantissa_chars hm
    cases m with
    | nil => exact absurd rfl hne
    | cons a m =>
      refine ⟨a, m ++ x, rfl, ?_⟩
      have : ∀ c ∈ "0123456789.".toList, isDec c = true ∨ c = '.' := by decide +kernel
      exact this a (hc a (List.mem_cons_self ..))
  | hex c m x i f e hc hm hx => exact ⟨'0', _, rfl, Or.inl (by decide)⟩

theorem dec_plain {c : Char} (h : isDec c = true ∨ c = '.') : c ≠ '+' ∧ c ≠ '-' := by
  constructor <;> (intro e; rw [e] at h; revert h; decide)

theorem nan_head {t : List Char} (h : Nan t) : ∃ c w, t = c :: w ∧ c.toLower = 'n' := by
  obtain ⟨w, p, e1, e2, _⟩ := h
  cases w with
  | nil => cases e2
  | cons a w =>
    refine ⟨a, w ++ p, e1, ?_⟩
    have := congrArg List.head? e2
    exact Option.some.inj this

theorem strtod_number {t u : List Char} {q : ℚ} (h : Number t q) (hu : Stop u) :
    strtod (t ++ u) = (.num (rnd 53 q), u) := by
  cases h with
  | plain _ _ h =>
    obtain ⟨c, w, e, hc⟩ := unsigned_head h
    have hs : sign (t ++ u) = (false, t ++ u) := by
      apply sign_dec
      intro d hd
      rw [e] at hd
      rw [← Option.some.inj hd]
      exact dec_plain hc
    unfold strtod
    rw [hs]
    simp only
    rw [unsigned_forward h hu]
    rfl
  | plus t _ h =>
    unfold strtod
    rw [List.cons_append]
    simp only [sign]
    rw [unsigned_forward h hu]
    rfl
  | minus t q h =>
    unfold strtod
    rw [List.cons_append]
    simp only [sign]
    rw [unsigned_forward h hu, rnd_neg]
    rfl

theorem strtod_nan {t u : List Char} (h : SignedNan t) (hu : Stop u) : strtod (t ++ u) = (.nan, u) := by
  cases h with
  | plain _ h =>
    obtain ⟨c, w, e, hc⟩ := nan_head h
    have hs : sign (t ++ u) = (false, t ++ u) := by
      apply sign_dec
      intro d hd
      rw [e] at hd
      rw [← Option.some.inj hd]
      constructor <;> (intro e; rw [e] at hc; revert hc; decide)
    unfold strtod
    rw [hs]
    simp only
    rw [nan_forward h hu]
    rfl
  | signed c t hc h =>
    unfold strtod
    rw [List.cons_append]
    rcases hc with hc | hc
    · rw [hc]
      simp only [sign]
      rw [nan_forward h hu]
      rfl
    · rw [hc]
      simp only [sign]
      rw [nan_forward h hu]
      rfl

theorem strtod_back (s : List Char) (h : (strtod s).2 ≠ s) : ∃ t, s = t ++ (strtod s).2 ∧
    ((∃ q, (strtod s).1 = .num (rnd 53 q) ∧ Number t q) ∨ (∃ b, (strtod s).1 = .inf b ∧ ∃ c w, t = c :: w ∧ isDec c = false) ∨
      ((strtod s).1 = .nan ∧ SignedNan t)) := by
  unfold strtod at h ⊢
  cases e : unsigned (sign s).2 with
  | none => rw [e] at h; exact absurd rfl h
  | some x =>
    obtain ⟨v, r⟩ := x
    obtain ⟨t, e1, e2⟩ := unsigned_backward e
    simp only
    rcases sign_split s with ⟨es, w, rfl⟩ | ⟨es, w, rfl⟩ | ⟨es, _⟩
    · rw [es] at e1 ⊢
      refine ⟨'-' :: t, ?_, ?_⟩
      · rw [List.cons_append, ← e1]
        rfl
      · simp only [if_true]
        rcases e2 with ⟨q, e2, e3⟩ | ⟨e2, e3⟩ | ⟨e2, e3⟩
        · refine Or.inl ⟨-q, ?_, .minus t q e3⟩
          rw [e2, rnd_neg]
          rfl
        · rw [e2]
          exact Or.inr (Or.inl ⟨_, rfl, '-', t, rfl, by decide⟩)
        · rw [e2]
          exact Or.inr (Or.inr ⟨rfl, .signed '-' t (Or.inr rfl) e3⟩)
    · rw [es] at e1 ⊢
      refine ⟨'+' :: t, ?_, ?_⟩
      · rw [List.cons_append, ← e1]
        rfl
      · simp only [Bool.false_eq_true, if_false]
        rcases e2 with ⟨q, e2, e3⟩ | ⟨e2, e3⟩ | ⟨e2, e3⟩
        · exact Or.inl ⟨q, e2, .plus t q e3⟩
        · exact Or.inr (Or.inl ⟨_, e2, '+', t, rfl, by decide⟩)
        · exact Or.inr (Or.inr ⟨e2, .signed '+' t (Or.inl rfl) e3⟩)
    · rw [es] at e1 ⊢
      refine ⟨t, e1, ?_⟩
      simp only [Bool.false_eq_true, if_false]
      rcases e2 with ⟨q, e2, e3⟩ | ⟨e2, e3⟩ | ⟨e2, e3⟩
      · exact Or.inl ⟨q, e2, .plain t q e3⟩
      · exact Or.inr (Or.inl ⟨_, e2, e3⟩)
      · exact Or.inr (Or.inr ⟨e2, .plain t e3⟩)

/-! ## Suffixes -/

theorem findSuffix_iff (s u : List Char) : findSuffix s u = true ↔ ∃ t, s = t ++ u := by
  unfold findSuffix
  simp only [Bool.and_eq_true, decide_eq_true_eq]
  constructor
  · rintro ⟨h1, h2⟩
    refine ⟨s.take (s.length - u.length), ?_⟩
    conv_lhs => rw [← List.take_append_drop (s.length - u.length) s, h2]
  · rintro ⟨t, rfl⟩
    refine ⟨by simp, ?_⟩
    rw [List.length_append, Nat.add_sub_cancel, List.drop_left]

theorem findSuffix_same (w a b : List Char) (h : a.length = b.length) : findSuffix (w ++ a) b = decide (a = b) := by
  rw [Bool.eq_iff_iff, findSuffix_iff, decide_eq_true_iff]
  constructor
  · rintro ⟨t, e⟩
    exact (List.append_inj' e h).2
  · intro e
    exact ⟨w, by rw [e]⟩

theorem find_duration (w : List Char) (c : Char) (u : List Char) (m : Nat) (hu : Duration u m)
    (hc : u = ['s'] → c ≠ 'n' ∧ c ≠ 'u' ∧ c ≠ 'm') :
    durationUnits.find? (fun x => findSuffix (w ++ [c] ++ u) x.1) = some (u, m) := by
  have two : ∀ a b d e : Char, findSuffix (w ++ [c] ++ [a, b]) [d, e] = decide ([a, b] = [d, e]) :=
    fun a b d e => findSuffix_same _ _ _ rfl
  have one : ∀ a d e : Char, findSuffix (w ++ [c] ++ [a]) [d, e] = decide ([c, a] = [d, e]) := by
    intro a d e
    rw [List.append_assoc]
    exact findSuffix_same _ _ _ rfl
  have one' : ∀ a d : Char, findSuffix (w ++ [c] ++ [a]) [d] = decide ([a] = [d]) :=
    fun a d => findSuffix_same _ _ _ rfl
  unfold durationUnits
  cases hu with
  | ns =>
    change List.find? (fun x : List Char × Nat => findSuffix (w ++ [c] ++ ['n', 's']) x.1) _ = _
    simp only [List.find?, two]
    simp
  | us =>
    change List.find? (fun x : List Char × Nat => findSuffix (w ++ [c] ++ ['u', 's']) x.1) _ = _
    simp only [List.find?, two]
    simp
  | ms =>
    change List.find? (fun x : List Char × Nat => findSuffix (w ++ [c] ++ ['m', 's']) x.1) _ = _
    simp only [List.find?, two]
    simp
  | s =>
    obtain ⟨h1, h2, h3⟩ := hc rfl
    change List.find? (fun x : List Char × Nat => findSuffix (w ++ [c] ++ ['s']) x.1) _ = _
    simp only [List.find?, one, one']
    simp [h1, h2, h3]
  | m =>
    change List.find? (fun x : List Char × Nat => findSuffix (w ++ [c] ++ ['m']) x.1) _ = _
    simp only [List.find?, one, one']
    simp
  | h =>
    change List.find? (fun x : List Char × Nat => findSuffix (w ++ [c] ++ ['h']) x.1) _ = _
    simp only [List.find?, one, one']
    simp

theorem find_size (w : List Char) (c : Char) (u : List Char) (m : Nat) (hu : Size u m)
    (hc : u = [] → c ≠ 'G' ∧ c ≠ 'M' ∧ c ≠ 'K') :
    (sizeUnits.find? (fun x => findSuffix (w ++ [c] ++ u) x.1)).getD ([], 1) = (u, m) := by
  have one' : ∀ a d : Char, findSuffix (w ++ [c] ++ [a]) [d] = decide ([a] = [d]) :=
    fun a d => findSuffix_same _ _ _ rfl
  have zero : ∀ d : Char, findSuffix (w ++ [c] ++ []) [d] = decide ([c] = [d]) := by
    intro d
    rw [List.append_nil]
    exact findSuffix_same _ _ _ rfl
  unfold sizeUnits
  cases hu with
  | G =>
    change (List.find? (fun x : List Char × Nat => findSuffix (w ++ [c] ++ ['G']) x.1) _).getD _ = _
    simp only [List.find?, one']
    simp
  | M =>
    change (List.find? (fun x : List Char × Nat => findSuffix (w ++ [c] ++ ['M']) x.1) _).getD _ = _
    simp only [List.find?, one']
    simp
  | K =>
    change (List.find? (fun x : List Char × Nat => findSuffix (w ++ [c] ++ ['K']) x.1) _).getD _ = _
    simp only [List.find?, one']
    simp
  | none =>
    obtain ⟨h1, h2, h3⟩ := hc rfl
    simp only [List.find?, zero]
    simp [h1, h2, h3]

theorem duration_mem {u : List Char} {m : Nat} (h : (u, m) ∈ durationUnits) : Duration u m := by
  unfold durationUnits at h
  simp only [List.mem_cons, Prod.mk.injEq, List.not_mem_nil, or_false] at h
  rcases h with ⟨rfl, rfl⟩ | ⟨rfl, rfl⟩ | ⟨rfl, rfl⟩ | ⟨rfl, rfl⟩ | ⟨rfl, rfl⟩ | ⟨rfl, rfl⟩
  · exact .ns
  · exact .us
  · exact .ms
  · exact .s
  · exact .m
  · exact .h

theorem size_getD (s : List Char) : ∃ u m, (sizeUnits.find? (fun x => findSuffix s x.1)).getD ([], 1) = (u, m) ∧ Size u m := by
  cases e : sizeUnits.find? (fun x => findSuffix s x.1) with
  | none => exact ⟨[], 1, rfl, .none⟩
  | some x =>
    have h := List.mem_of_find?_eq_some e
    obtain ⟨u, m⟩ := x
    refine ⟨u, m, rfl, ?_⟩
    unfold sizeUnits at h
    simp only [List.mem_cons, Prod.mk.injEq, List.not_mem_nil, or_false] at h
    rcases h with ⟨rfl, rfl⟩ | ⟨rfl, rfl⟩ | ⟨rfl, rfl⟩
    · exact .G
    · exact .M
    · exact .K

theorem duration_stop {u : List Char} {m : Nat} (h : Duration u m) : Stop u := by
  intro c hc
  cases h <;> (rw [← Option.some.inj hc]; decide)

theorem size_stop {u : List Char} {m : Nat} (h : Size u m) : Stop u := by
  intro c hc
  cases h with
  | none => cases hc
  | _ => rw [← Option.some.inj hc]; decide

/-! ## Last characters -/

/-- The last character is one of those. -/
def Ends (D : List Char) (t : List Char) : Prop := ∃ w c, t = w ++ [c] ∧ c ∈ D

theorem ends_all {D t : List Char} (hne : t ≠ []) (h : ∀ c ∈ t, c ∈ D) : Ends D t :=
  ⟨t.dropLast, t.getLast hne, (List.dropLast_append_getLast hne).symm, h _ (List.getLast_mem hne)⟩

theorem ends_append {D t : List Char} (a : List Char) (h : Ends D t) : Ends D (a ++ t) := by
  obtain ⟨w, c, e, hc⟩ := h
  exact ⟨a ++ w, c, by rw [e, List.append_assoc], hc⟩

/-- Last characters of a number. -/
def lastChars : List Char := "0123456789abcdefABCDEF.".toList

theorem ends_mantissa {D m i f : List Char} (hD : ∀ c ∈ D, c ∈ lastChars) (h : Mantissa D m i f) : Ends lastChars m := by
  cases h with
  | whole _ hne hi => exact ends_all hne fun c hc => hD c (hi c hc)
  | point _ _ _ _ hf =>
    apply ends_append
    apply ends_all (by simp)
    intro c hc
    rcases List.mem_cons.1 hc with hc | hc
    · rw [hc]; decide
    · exact hD c (hf c hc)

theorem ends_exponent {M x : List Char} {e : Int} (h : Exponent M x e) : x = [] ∨ Ends lastChars x := by
  have hd : ∀ c ∈ decDigits, c ∈ lastChars := by decide +kernel
  cases h with
  | none => exact Or.inl rfl
  | plain c d _ hne hd' => exact Or.inr (ends_append [c] (ends_all hne fun c hc => hd c (hd' c hc)))
  | plus c d _ hne hd' => exact Or.inr (ends_append [c, '+'] (ends_all hne fun c hc => hd c (hd' c hc)))
  | minus c d _ hne hd' => exact Or.inr (ends_append [c, '-'] (ends_all hne fun c hc => hd c (hd' c hc)))

theorem ends_number {t : List Char} {q : ℚ} (h : Number t q) : Ends lastChars t := by
  have hd : ∀ c ∈ decDigits, c ∈ lastChars := by decide +kernel
  have hh : ∀ c ∈ hexDigits, c ∈ lastChars := by decide +kernel
  have key : ∀ {t q}, Unsigned t q → Ends lastChars t := by
    intro t q h
    cases h with
    | dec m x i f e hm hx =>
      rcases ends_exponent hx with hx | hx
      · rw [hx, List.append_nil]
        exact ends_mantissa hd hm
      · exact ends_append m hx
    | hex c m x i f e hc hm hx =>
      rcases ends_exponent hx with hx | hx
      · rw [hx, List.append_nil]
        exact ends_append ['0', c] (ends_mantissa hh hm)
      · have := ends_append ('0' :: c :: m) hx
        exact this
  cases h with
  | plain _ _ h => exact key h
  | plus t _ h => exact ends_append ['+'] (key h)
  | minus t _ h => exact ends_append ['-'] (key h)

theorem toLower_n (c : Char) (h : c.toLower = 'n') : c ∈ ['n', 'N'] := by
  have hb : c.toNat < 128 := by
    by_contra hc
    have : c.toLower = c := by
      unfold Char.toLower
      split
      · rename_i h'
        exfalso
        apply hc
        have := h'.2
        change c.toNat ≤ 90 at this
        omega
      · rfl
    rw [this] at h
    rw [h] at hc
    exact hc (by decide)
  revert h
  exact char_bound 128 (le_refl _) c hb (P := fun c => c.toLower = 'n' → c ∈ ['n', 'N']) (by decide +kernel)

theorem ends_nan {t : List Char} (h : SignedNan t) : Ends ['n', 'N', ')'] t := by
  have key : ∀ t, Nan t → Ends ['n', 'N', ')'] t := by
    rintro t ⟨w, p, rfl, e2, e3⟩
    rcases e3 with rfl | ⟨x, rfl, _⟩
    · have hlen : w.length = 3 := by
        have := congrArg List.length e2
        rw [List.length_map] at this
        exact this
      match w, hlen with
      | [a, b, c], _ =>
        refine ⟨[a, b], c, by simp, ?_⟩
        have hc : c.toLower = 'n' := by
          have := congrArg (fun l : List Char => l[2]?) e2
          exact Option.some.inj this
        have := toLower_n c hc
        simp only [List.mem_cons, List.not_mem_nil, or_false] at this ⊢
        tauto
    · exact ⟨w ++ '(' :: x, ')', by simp, by decide⟩
  cases h with
  | plain _ h => exact key t h
  | signed c t _ h => exact ends_append [c] (key t h)

/-! ## Conversion -/

theorem rnd_int64 : rnd 53 ((2 ^ 63 - 1 : Int) : ℚ) = 2 ^ 63 := by
  have := rnd_int64_max
  rw [← this]
  congr 1

theorem rnd_uint64 : rnd 53 ((2 ^ 64 - 1 : Int) : ℚ) = 2 ^ 64 := by
  have e : ((2 ^ 64 - 1 : Int) : ℚ) = ((2 ^ 64 - 1 : Nat) : ℚ) := by norm_num
  rw [e, rnd_nat 53 (2 ^ 64 - 1) 63 (by norm_num) (by norm_num)]
  have h1 : ((2 ^ 64 - 1 : Nat) : ℚ) / 2 ^ (((63 : Nat) : Int) - ((53 : Nat) - 1))
      = 18446744073709551615 / 2048 := by norm_num
  have h2 : ⌊(18446744073709551615 / 2048 : ℚ)⌋ = 9007199254740991 := by
    rw [Int.floor_eq_iff]
    norm_num
  rw [h1]
  unfold roundEven
  rw [h2]
  norm_num

theorem durationOf_num (q : ℚ) (m : Nat) : durationOf (.num (rnd 53 q)) m =
    if nearest q m > 2 ^ 63 ∨ nearest q m < -2 ^ 63 then .reject
    else if nearest q m < 2 ^ 63 then .ok (nearest q m) else .undefined := by
  unfold durationOf multiplied nearest
  have h2 : rnd 53 ((-2 ^ 63 : Int) : ℚ) = -2 ^ 63 := by
    push_cast
    rw [rnd_neg]
    have := rnd_pow 53 (by norm_num) 63
    norm_num at this ⊢
    exact this
  simp only [rnd_int64, h2]
  generalize roundAway (rnd 53 (rnd 53 q * (m : ℚ))) = x
  have e1 : ((x : ℚ) > 2 ^ 63) ↔ x > 2 ^ 63 := by
    constructor
    · intro h; exact_mod_cast h
    · intro h; exact_mod_cast h
  have e2 : ((x : ℚ) < -2 ^ 63) ↔ x < -2 ^ 63 := by
    constructor
    · intro h; exact_mod_cast h
    · intro h; exact_mod_cast h
  simp only [e1, e2]
  by_cases h : x > 2 ^ 63 ∨ x < -2 ^ 63
  · rw [if_pos h, if_pos h]
  · rw [if_neg h, if_neg h]
    by_cases h' : x < 2 ^ 63
    · rw [if_pos (by omega), if_pos h']
    · rw [if_neg (by omega), if_neg h']

theorem unsigned_nonneg {t : List Char} {q : ℚ} (h : Unsigned t q) : 0 ≤ q := by
  cases h <;>
    exact mul_nonneg (div_nonneg (Nat.cast_nonneg _) (pow_nonneg (by norm_num) _)) (zpow_nonneg (by norm_num) _)

theorem nearest_nonneg (q : ℚ) (m : Nat) (hq : 0 ≤ q) : 0 ≤ nearest q m := by
  have h1 := rnd_nonneg 53 q hq
  have h2 := rnd_nonneg 53 (rnd 53 q * m) (by positivity)
  unfold nearest roundAway
  rw [if_pos h2]
  exact Int.floor_nonneg.2 (by linarith)

theorem sizeOf_num (q : ℚ) (m : Nat) (hq : 0 ≤ q) : sizeOf (.num (rnd 53 q)) m =
    if nearest q m > 2 ^ 64 then .reject
    else if nearest q m < 2 ^ 64 then .ok (nearest q m).toNat else .undefined := by
  have hn := nearest_nonneg q m hq
  unfold sizeOf multiplied
  unfold nearest at hn ⊢
  simp only [rnd_uint64]
  generalize roundAway (rnd 53 (rnd 53 q * (m : ℚ))) = x at hn ⊢
  have e1 : ((x : ℚ) > 2 ^ 64) ↔ x > 2 ^ 64 := by
    constructor
    · intro h; exact_mod_cast h
    · intro h; exact_mod_cast h
  simp only [e1]
  by_cases h : x > 2 ^ 64
  · rw [if_pos h, if_pos h]
  · rw [if_neg h, if_neg h]
    by_cases h' : x < 2 ^ 64
    · rw [if_pos (by omega), if_pos h']
    · rw [if_neg (by omega), if_neg h']

/-! ## Durations -/

/-- What `parse_duration` does with a number and a unit, or with a NaN and a unit. -/
theorem parseDuration_of {w : List Char} {c : Char} {u : List Char} {m : Nat} {v : Flt} (hu : Duration u m)
    (hc : u = ['s'] → c ≠ 'n' ∧ c ≠ 'u' ∧ c ≠ 'm') (hv : strtod (w ++ [c] ++ u) = (v, u))
    (hh : ∀ d, (w ++ [c]).head? = some d → isDec d = true ∨ d = '+' ∨ d = '-') :
    parseDuration (w ++ [c] ++ u) = durationOf v m := by
  have hne : w ++ [c] ++ u ≠ u := by
    intro e
    have := congrArg List.length e
    simp at this
    omega
  obtain ⟨d, t, e⟩ : ∃ d t, w ++ [c] = d :: t := by
    cases w with
    | nil => exact ⟨c, [], rfl⟩
    | cons d w => exact ⟨d, w ++ [c], rfl⟩
  unfold parseDuration
  rw [find_duration w c u m hu hc]
  simp only
  rw [if_neg hne, hv]
  have hd := hh d (by rw [e]; rfl)
  rw [e, List.cons_append]
  rw [e, List.cons_append] at hne
  simp only
  rw [if_neg (by rcases hd with h | h | h <;> simp [h]), if_neg]
  rintro (⟨_, h⟩ | h)
  · exact hne h.symm
  · exact h rfl

/-- What is taken by `parse_duration` up to the conversion. -/
theorem parseDuration_cases (s : List Char) : parseDuration s = .reject ∨ ∃ t u m, s = t ++ u ∧ Duration u m ∧
    (durationUnits.find? fun x => findSuffix s x.1) = some (u, m) ∧
    (∃ d r, t = d :: r ∧ (isDec d = true ∨ d = '+' ∨ d = '-')) ∧
    ((∃ q, Number t q ∧ parseDuration s = durationOf (.num (rnd 53 q)) m) ∨
      (SignedNan t ∧ parseDuration s = .undefined)) := by
  have hdef : parseDuration s = parseDuration s := rfl
  conv at hdef => rhs; unfold parseDuration
  cases e : durationUnits.find? fun x => findSuffix s x.1 with
  | none => rw [e] at hdef; exact Or.inl hdef
  | some x =>
    obtain ⟨u, m⟩ := x
    rw [e] at hdef
    simp only at hdef
    have hu := duration_mem (List.mem_of_find?_eq_some e)
    by_cases h1 : s = u
    · rw [if_pos h1] at hdef; exact Or.inl hdef
    · rw [if_neg h1] at hdef
      cases s with
      | nil => exact Or.inl hdef
      | cons c r =>
        simp only at hdef
        by_cases h2 : ¬ (isDec c = true) ∧ c ≠ '+' ∧ c ≠ '-'
        · rw [if_pos h2] at hdef; exact Or.inl hdef
        · rw [if_neg h2] at hdef
          by_cases h3 : ((strtod (c :: r)).1 = .num 0 ∧ (strtod (c :: r)).2 = c :: r) ∨ (strtod (c :: r)).2 ≠ u
          · rw [if_pos h3] at hdef; exact Or.inl hdef
          · rw [if_neg h3] at hdef
            rw [not_or, not_not] at h3
            obtain ⟨t, e1, e2⟩ := strtod_back (c :: r) (by rw [h3.2]; exact fun h => h1 h.symm)
            rw [h3.2] at e1
            have hhead : ∃ d r, t = d :: r ∧ (isDec d = true ∨ d = '+' ∨ d = '-') := by
              cases t with
              | nil => exact absurd e1 h1
              | cons d r' =>
                refine ⟨d, r', rfl, ?_⟩
                rw [List.cons_append, List.cons.injEq] at e1
                rw [← e1.1]
                tauto
            rcases e2 with ⟨q, e2, e3⟩ | ⟨b, e2⟩ | ⟨e2, e3⟩
            · exact Or.inr ⟨t, u, m, e1, hu, rfl, hhead, Or.inl ⟨q, e3, by rw [hdef, e2]⟩⟩
            · rw [e2.1] at hdef
              exact Or.inl hdef
            · exact Or.inr ⟨t, u, m, e1, hu, rfl, hhead, Or.inr ⟨e3, by rw [hdef, e2]; rfl⟩⟩

theorem head_ok {t : List Char} {q : ℚ} (h : Number t q) (hd : t.head? ≠ some '.') :
    ∀ d, t.head? = some d → isDec d = true ∨ d = '+' ∨ d = '-' := by
  intro d hd'
  cases h with
  | plain _ _ h =>
    obtain ⟨c, w, e, hc⟩ := unsigned_head h
    rw [e] at hd hd'
    rw [← Option.some.inj hd']
    rcases hc with hc | hc
    · exact Or.inl hc
    · rw [hc] at hd; exact absurd rfl hd
  | plus t _ h => exact Or.inr (Or.inl (Option.some.inj hd').symm)
  | minus t _ h => exact Or.inr (Or.inr (Option.some.inj hd').symm)

/-- Outcome for a number and a unit. -/
theorem parseDuration_number {t u : List Char} {q : ℚ} {m : Nat} (h : Number t q) (hd : t.head? ≠ some '.')
    (hu : Duration u m) : parseDuration (t ++ u) = durationOf (.num (rnd 53 q)) m := by
  obtain ⟨w, c, rfl, hc⟩ := ends_number h
  have hl : ∀ c ∈ lastChars, c ≠ 'n' ∧ c ≠ 'u' ∧ c ≠ 'm' := by decide +kernel
  exact parseDuration_of hu (fun _ => hl c hc) (strtod_number h (duration_stop hu)) (head_ok h hd)

/-- **C96**: a duration is accepted with a result if and only if it is a number, not beginning with a point,
followed by a unit, and the product is in the range of the type. -/
theorem C96_duration (s : List Char) (x : Int) : parseDuration s = .ok x ↔ ∃ t u m q, s = t ++ u ∧ Duration u m ∧
    Number t q ∧ t.head? ≠ some '.' ∧ x = nearest q m ∧ -2 ^ 63 ≤ x ∧ x < 2 ^ 63 := by
  constructor
  · intro h
    rcases parseDuration_cases s with h' | ⟨t, u, m, e, hu, _, ⟨d, r, hd, hd'⟩, hc⟩
    · rw [h] at h'; cases h'
    · rcases hc with ⟨q, hq, hc⟩ | ⟨_, hc⟩
      · rw [h, durationOf_num] at hc
        split at hc
        · cases hc
        · rename_i h1
          split at hc
          · rename_i h2
            rw [not_or, not_lt, not_lt] at h1
            have := Res.ok.inj hc
            refine ⟨t, u, m, q, e, hu, hq, ?_, this, by omega, by omega⟩
            rw [hd, List.head?_cons]
            intro h3
            rw [Option.some.inj h3] at hd'
            revert hd'
            decide
          · cases hc
      · rw [h] at hc; cases hc
  · rintro ⟨t, u, m, q, rfl, hu, hq, hd, rfl, h1, h2⟩
    rw [parseDuration_number hq hd hu, durationOf_num, if_neg (by omega), if_pos h2]

/-- **C96**: the conversion is undefined behaviour exactly for numbers whose product is 2⁶³ in `double`, and for
a NaN with a sign. -/
theorem C96_undefined_iff (s : List Char) : parseDuration s = .undefined ↔ ∃ t u m, s = t ++ u ∧ Duration u m ∧
    ((∃ q, Number t q ∧ t.head? ≠ some '.' ∧ nearest q m = 2 ^ 63) ∨
      (∃ c n, (c = '+' ∨ c = '-') ∧ t = c :: n ∧ Nan n ∧ ¬ (u = ['s'] ∧ t.getLast? = some 'n'))) := by
  constructor
  · intro h
    rcases parseDuration_cases s with h' | ⟨t, u, m, e, hu, hfind, ⟨d, r, hd, hd'⟩, hc⟩
    · rw [h] at h'; cases h'
    · refine ⟨t, u, m, e, hu, ?_⟩
      rcases hc with ⟨q, hq, hc⟩ | ⟨hn, _⟩
      · rw [h, durationOf_num] at hc
        split at hc
        · cases hc
        · rename_i h1
          split at hc
          · cases hc
          · rename_i h2
            rw [not_or, not_lt, not_lt] at h1
            refine Or.inl ⟨q, hq, ?_, by omega⟩
            rw [hd, List.head?_cons]
            intro h3
            rw [Option.some.inj h3] at hd'
            revert hd'
            decide
      · right
        have hno : ¬ (u = ['s'] ∧ t.getLast? = some 'n') := by
          rintro ⟨h1, h2⟩
          obtain ⟨w, rfl⟩ := List.getLast?_eq_some_iff.1 h2
          rw [e, h1] at hfind
          have : findSuffix (w ++ ['n'] ++ ['s']) ['n', 's'] = true := by
            rw [List.append_assoc]
            exact findSuffix_same w ['n', 's'] ['n', 's'] rfl
          unfold durationUnits at hfind
          simp only [List.find?, this, Option.some.injEq, Prod.mk.injEq] at hfind
          exact absurd hfind.1 (by decide)
        cases hn with
        | plain _ hn =>
          obtain ⟨c, w, e1, e2⟩ := nan_head hn
          rw [hd, List.cons.injEq] at e1
          rw [← e1.1] at e2
          exfalso
          rcases toLower_n d e2 with _ | ⟨_, _ | ⟨_, hm⟩⟩
          · revert hd'; decide
          · revert hd'; decide
          · cases hm
        | signed c n hcs hn => exact ⟨c, n, hcs, rfl, hn, hno⟩
  · rintro ⟨t, u, m, rfl, hu, ⟨q, hq, hd, hx⟩ | ⟨c, n, hc, rfl, hn, hno⟩⟩
    · rw [parseDuration_number hq hd hu, durationOf_num, hx]
      norm_num
    · have hsn : SignedNan (c :: n) := .signed c n hc hn
      obtain ⟨w, d, e, hd⟩ := ends_nan hsn
      have hs := strtod_nan hsn (duration_stop hu)
      have hh : ∀ x, (c :: n).head? = some x → isDec x = true ∨ x = '+' ∨ x = '-' := by
        intro x hx
        rw [← Option.some.inj hx]
        exact Or.inr hc
      rw [e] at hs hno hh ⊢
      rw [parseDuration_of hu ?_ hs hh]
      · rfl
      · intro hus
        have hn : d ≠ 'n' := by
          intro hdn
          exact hno ⟨hus, by rw [hdn]; simp⟩
        refine ⟨hn, ?_, ?_⟩ <;> (intro e; rw [e] at hd; revert hd; decide)

theorem nearest_error (q : ℚ) (m : Nat) : |(nearest q m : ℚ) - q * m| ≤ 1 / 2 + |q * m| / 2 ^ 51 := by
  obtain ⟨e₁, g1, q1⟩ := rnd_rel 53 q
  obtain ⟨e₂, g2, q2⟩ := rnd_rel 53 (q * (1 + e₁) * m)
  have hr := roundAway_err (q * (1 + e₁) * m * (1 + e₂))
  unfold nearest
  rw [q1, q2]
  have hmul : |e₁ * e₂| ≤ 1 / 2 ^ 53 * (1 / 2 ^ 53) := by
    rw [abs_mul]
    exact mul_le_mul g1 g2 (abs_nonneg _) (by positivity)
  have hs : |e₁ + e₂ + e₁ * e₂| ≤ 1 / 2 ^ 51 := by
    have h1 := abs_add_le (e₁ + e₂) (e₁ * e₂)
    have h2 := abs_add_le e₁ e₂
    have : (1 : ℚ) / 2 ^ 53 + 1 / 2 ^ 53 + 1 / 2 ^ 53 * (1 / 2 ^ 53) ≤ 1 / 2 ^ 51 := by norm_num
    linarith
  have hd : |q * (1 + e₁) * m * (1 + e₂) - q * m| ≤ |q * m| / 2 ^ 51 := by
    rw [show q * (1 + e₁) * m * (1 + e₂) - q * m = q * m * (e₁ + e₂ + e₁ * e₂) by ring, abs_mul]
    calc |q * m| * |e₁ + e₂ + e₁ * e₂| ≤ |q * m| * (1 / 2 ^ 51) := mul_le_mul_of_nonneg_left hs (abs_nonneg _)
      _ = |q * m| / 2 ^ 51 := by ring
  have := abs_sub_le ((roundAway (q * (1 + e₁) * m * (1 + e₂)) : Int) : ℚ) (q * (1 + e₁) * m * (1 + e₂)) (q * m)
  linarith

theorem nearest_exact (q : ℚ) (m : Nat) (N : Int) (h : q * m = N) (hN : |N| < 2 ^ 50) : nearest q m = N := by
  have h1 := nearest_error q m
  rw [h] at h1
  have h2 : |((nearest q m : Int) : ℚ) - N| < 1 := by
    have : |(N : ℚ)| < 2 ^ 50 := by exact_mod_cast hN
    have h3 : |(N : ℚ)| / 2 ^ 51 < 1 / 2 := by
      rw [div_lt_iff₀ (by positivity)]
      norm_num at this ⊢
      linarith
    linarith
  have h3 : |nearest q m - N| < 1 := by exact_mod_cast h2
  rw [abs_lt] at h3
  omega

/-- **C96**: a duration of a whole number of nanoseconds, below 13 days, is parsed without error, in whatever unit
and notation it is written. -/
theorem C96_exact (t u : List Char) (q : ℚ) (m : Nat) (N : Int) (hq : Number t q) (hd : t.head? ≠ some '.')
    (hu : Duration u m) (h : q * m = N) (hN : |N| < 2 ^ 50) : parseDuration (t ++ u) = .ok N := by
  rw [abs_lt] at hN
  refine (C96_duration _ _).2 ⟨t, u, m, q, rfl, hu, hq, hd, (nearest_exact q m N h (abs_lt.2 hN)).symm, by omega, by omega⟩

/-- **C96**: error of the result in general: half a nanosecond, and two units in the last place. -/
theorem C96_error (t u : List Char) (q : ℚ) (m : Nat) (x : Int) (hq : Number t q) (hd : t.head? ≠ some '.')
    (hu : Duration u m) (h : parseDuration (t ++ u) = .ok x) : |(x : ℚ) - q * m| ≤ 1 / 2 + |q * m| / 2 ^ 51 := by
  rw [parseDuration_number hq hd hu, durationOf_num] at h
  split at h
  · cases h
  · split at h
    · rw [← Res.ok.inj h]
      exact nearest_error q m
    · cases h

/-! ## Sizes -/

theorem parseSize_number {t u : List Char} {q : ℚ} {m : Nat} (h : Unsigned t q) (hd : t.head? ≠ some '.')
    (hu : Size u m) : parseSize (t ++ u) = sizeOf (.num (rnd 53 q)) m := by
  have hn : Number t q := .plain t q h
  have hs := strtod_number hn (size_stop hu)
  obtain ⟨w, c, e, hc⟩ := ends_number hn
  have hl : ∀ c ∈ lastChars, c ≠ 'G' ∧ c ≠ 'M' ∧ c ≠ 'K' := by decide +kernel
  have hf := find_size w c u m hu (fun _ => hl c hc)
  rw [← e] at hf
  obtain ⟨d, r, e', hd'⟩ := unsigned_head h
  have hdec : isDec d = true := by
    rcases hd' with h | h
    · exact h
    · rw [e', h] at hd; exact absurd rfl hd
  unfold parseSize
  rw [hf]
  simp only [hs]
  rw [e', List.cons_append]
  simp only
  rw [if_neg (by simp [hdec]), if_neg]
  rintro (⟨_, h⟩ | h)
  · have := congrArg List.length h
    simp at this
    omega
  · exact h rfl

theorem parseSize_cases (s : List Char) : parseSize s = .reject ∨ ∃ t u m q, s = t ++ u ∧ Size u m ∧
    t.head? ≠ some '.' ∧ Unsigned t q ∧ parseSize s = sizeOf (.num (rnd 53 q)) m := by
  have hdef : parseSize s = parseSize s := rfl
  conv at hdef => rhs; unfold parseSize
  obtain ⟨u, m, e, hu⟩ := size_getD s
  rw [e] at hdef
  simp only at hdef
  cases s with
  | nil => exact Or.inl hdef
  | cons c r =>
    simp only at hdef
    by_cases h2 : ¬ (isDec c = true)
    · rw [if_pos h2] at hdef; exact Or.inl hdef
    · rw [if_neg h2] at hdef
      by_cases h3 : ((strtod (c :: r)).1 = .num 0 ∧ (strtod (c :: r)).2 = c :: r) ∨ (strtod (c :: r)).2 ≠ u
      · rw [if_pos h3] at hdef; exact Or.inl hdef
      · rw [if_neg h3] at hdef
        rw [not_or, not_not] at h3
        rw [not_not] at h2
        have hne : (strtod (c :: r)).2 ≠ c :: r := by
          intro h
          rw [h3.2] at h
          have hst := size_stop hu
          have := (hst c (by rw [h]; rfl)).1
          unfold isHex at this
          rw [h2] at this
          cases this
        obtain ⟨t, e1, e2⟩ := strtod_back (c :: r) hne
        have hcons : ∃ r', t = c :: r' := by
          cases t with
          | nil =>
            rw [List.nil_append] at e1
            exact absurd e1.symm hne
          | cons d r' =>
            rw [List.cons_append, List.cons.injEq] at e1
            exact ⟨r', by rw [e1.1]⟩
        obtain ⟨r', rfl⟩ := hcons
        rw [h3.2] at e1
        have hplain := dec_plain (Or.inl h2)
        have hnn : c.toLower ≠ 'n' := by
          intro h
          rcases toLower_n c h with _ | ⟨_, _ | ⟨_, hm⟩⟩
          · revert h2; decide
          · revert h2; decide
          · cases hm
        rcases e2 with ⟨q, e2, e3⟩ | ⟨b, e2⟩ | ⟨e2, e3⟩
        · refine Or.inr ⟨c :: r', u, m, q, e1, hu, ?_, ?_, by rw [hdef, e2]⟩
          · rw [List.head?_cons]
            intro h
            rw [Option.some.inj h] at h2
            revert h2
            decide
          · cases e3 with
            | plain _ _ h => exact h
            | plus => exact absurd rfl hplain.1
            | minus => exact absurd rfl hplain.2
        · obtain ⟨_, c', w, e4, e5⟩ := e2
          rw [List.cons.injEq] at e4
          rw [← e4.1, h2] at e5
          cases e5
        · exfalso
          cases e3 with
          | plain _ h =>
            obtain ⟨c', w, e4, e5⟩ := nan_head h
            rw [List.cons.injEq] at e4
            rw [← e4.1] at e5
            exact hnn e5
          | signed _ _ h _ =>
            rcases h with h | h
            · exact hplain.1 h
            · exact hplain.2 h

/-- **C96**: a size is accepted with a result if and only if it is a number without a sign, not beginning with
a point, followed by an optional unit, and the product is in the range of the type. -/
theorem C96_size (s : List Char) (x : Nat) : parseSize s = .ok x ↔ ∃ t u m q, s = t ++ u ∧ Size u m ∧
    Unsigned t q ∧ t.head? ≠ some '.' ∧ (x : Int) = nearest q m ∧ x < 2 ^ 64 := by
  constructor
  · intro h
    rcases parseSize_cases s with h' | ⟨t, u, m, q, e, hu, hd, hq, hc⟩
    · rw [h] at h'; cases h'
    · have hn := nearest_nonneg q m (unsigned_nonneg hq)
      rw [h, sizeOf_num q m (unsigned_nonneg hq)] at hc
      split at hc
      · cases hc
      · split at hc
        · have := Res.ok.inj hc
          exact ⟨t, u, m, q, e, hu, hq, hd, by omega, by omega⟩
        · cases hc
  · rintro ⟨t, u, m, q, rfl, hu, hq, hd, h1, h2⟩
    rw [parseSize_number hq hd hu, sizeOf_num q m (unsigned_nonneg hq), ← h1, if_neg (by omega), if_pos (by omega)]
    rfl

/-- **C96**: the conversion is undefined behaviour exactly for numbers whose product is 2⁶⁴ in `double`. -/
theorem C96_size_undefined_iff (s : List Char) : parseSize s = .undefined ↔ ∃ t u m q, s = t ++ u ∧ Size u m ∧
    Unsigned t q ∧ t.head? ≠ some '.' ∧ nearest q m = 2 ^ 64 := by
  constructor
  · intro h
    rcases parseSize_cases s with h' | ⟨t, u, m, q, e, hu, hd, hq, hc⟩
    · rw [h] at h'; cases h'
    · rw [h, sizeOf_num q m (unsigned_nonneg hq)] at hc
      split at hc
      · cases hc
      · split at hc
        · cases hc
        · exact ⟨t, u, m, q, e, hu, hq, hd, by omega⟩
  · rintro ⟨t, u, m, q, rfl, hu, hq, hd, h1⟩
    rw [parseSize_number hq hd hu, sizeOf_num q m (unsigned_nonneg hq), h1]
    rfl

/-- **C96**: a whole number of bytes below 2⁵⁰ is parsed without error. -/
theorem C96_size_exact (t u : List Char) (q : ℚ) (m N : Nat) (hq : Unsigned t q) (hd : t.head? ≠ some '.')
    (hu : Size u m) (h : q * m = N) (hN : N < 2 ^ 50) : parseSize (t ++ u) = .ok N := by
  have := nearest_exact q m N (by rw [h]; simp) (by rw [abs_of_nonneg (by omega)]; omega)
  exact (C96_size _ _).2 ⟨t, u, m, q, rfl, hu, hq, hd, this.symm, by omega⟩

/-! ## Failures -/

/-- Digits are a number. -/
theorem number_of_digits (t : List Char) (hne : t ≠ []) (h : ∀ c ∈ t, c ∈ decDigits) : Unsigned t (value 10 t) := by
  have := Unsigned.dec t [] t [] 0 (.whole t hne h) .none
  rw [List.append_nil] at this
  simpa using this

theorem head_digits (t : List Char) (h : ∀ c ∈ t, c ∈ decDigits) : t.head? ≠ some '.' := by
  intro hd
  have := h '.' (List.mem_of_mem_head? (by rw [hd]; rfl))
  revert this
  decide

/-- **C96 fails** for the largest duration: converting it is undefined behaviour. -/
theorem C96_max_fails : parseDuration "9223372036854775807ns".toList = .undefined := by
  apply (C96_undefined_iff _).2
  have hd : ∀ c ∈ "9223372036854775807".toList, c ∈ decDigits := by decide +kernel
  refine ⟨"9223372036854775807".toList, "ns".toList, 1, rfl, .ns, Or.inl ⟨_, .plain _ _
    (number_of_digits _ (by decide) hd), head_digits _ hd, ?_⟩⟩
  have hv : value 10 "9223372036854775807".toList = 2 ^ 63 - 1 := by decide +kernel
  have hp : rnd 53 ((2 : ℚ) ^ 63) = 2 ^ 63 := by
    have := rnd_pow 53 (by norm_num) 63
    exact_mod_cast this
  unfold nearest
  rw [hv, rnd_int64_max, Nat.cast_one, mul_one, hp]
  apply roundAway_eq
  norm_num

/-- **C96 fails** for the largest size: converting it is undefined behaviour. -/
theorem C96_size_max_fails : parseSize "18446744073709551615".toList = .undefined := by
  apply (C96_size_undefined_iff _).2
  have hd : ∀ c ∈ "18446744073709551615".toList, c ∈ decDigits := by decide +kernel
  refine ⟨"18446744073709551615".toList, [], 1, _, rfl, .none,
    number_of_digits _ (by decide) hd, head_digits _ hd, ?_⟩
  have hv : value 10 "18446744073709551615".toList = 2 ^ 64 - 1 := by decide +kernel
  have hp : rnd 53 ((2 : ℚ) ^ 64) = 2 ^ 64 := by
    have := rnd_pow 53 (by norm_num) 64
    exact_mod_cast this
  have hr : rnd 53 ((2 ^ 64 - 1 : Nat) : ℚ) = 2 ^ 64 := by
    rw [← rnd_uint64]
    norm_num
  unfold nearest
  rw [hv, hr, Nat.cast_one, mul_one, hp]
  apply roundAway_eq
  norm_num

/-- **C96 fails** for a NaN: it passes all checks, and converting it is undefined behaviour. -/
theorem C96_nan_fails : parseDuration "+nanms".toList = .undefined := by
  apply (C96_undefined_iff _).2
  refine ⟨"+nan".toList, "ms".toList, _, rfl, .ms, Or.inr ⟨'+', "nan".toList, Or.inl rfl, rfl,
    ⟨"nan".toList, [], rfl, by decide, Or.inl rfl⟩, by decide⟩⟩

/-- The theorems apply: a duration with a point. -/
example : parseDuration "-1.5ms".toList = .ok (-1500000) := by
  refine C96_exact "-1.5".toList "ms".toList (-((value 10 ("1".toList ++ "5".toList) : ℚ) / 10 ^ 1 * 10 ^ (0 : Int))) _ _
    (.minus "1.5".toList _ (.dec "1.5".toList [] "1".toList "5".toList 0 (.point "1".toList "5".toList (Or.inl (by decide))
      (by decide +kernel) (by decide +kernel)) .none)) (by decide) .ms ?_ (by norm_num)
  have : value 10 ("1".toList ++ "5".toList) = 15 := by decide +kernel
  rw [this]
  norm_num

example : parseSize "64K".toList = .ok 65536 := by
  have hd : ∀ c ∈ "64".toList, c ∈ decDigits := by decide +kernel
  refine C96_size_exact "64".toList "K".toList _ _ _ (number_of_digits _ (by decide) hd) (head_digits _ hd) .K ?_ (by norm_num)
  have : value 10 "64".toList = 64 := by decide +kernel
  rw [this]
  norm_num

end Verif.ParseUnits
