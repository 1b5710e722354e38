import Verif.CsvDumper.Spec

/-!
# C115: Lines of a CSV file
-/

namespace Verif.CsvDumper

/-! ### The array -/

/-- The array after `t` was printed into it. -/
def image (t : List Char) : List Char :=
  t.take 254 ++ List.replicate (256 - min 254 t.length) '\x00'

theorem room_le {off : Nat} (h : off ≤ 255) : room off = 255 - off := by
  unfold room maxLine; omega

theorem snprintf_image (t s : List Char) (h : t.length ≤ 255) :
    snprintf (image t) t.length (room t.length) s = some (image (t ++ s)) := by
  rw [room_le h]
  unfold snprintf maxLine
  rw [if_neg (by omega)]
  by_cases h0 : 255 - t.length = 0
  · rw [if_pos h0]
    have hl : t.length = 255 := by omega
    unfold image
    rw [List.take_append_of_le_length (by omega), List.length_append]
    congr 3
    omega
  · rw [if_neg h0]
    have hle : t.length ≤ 254 := by omega
    have hw : (s.take (255 - t.length - 1) ++ ['\x00']).length = min (254 - t.length) s.length + 1 := by
      simp; omega
    simp only [hw]
    rw [if_pos (by omega)]
    congr 1
    unfold image
    have htake : t.take 254 = t := List.take_of_length_le hle
    rw [htake, List.take_left' rfl, List.take_append, htake, List.length_append, List.append_assoc,
      List.append_assoc, List.append_assoc]
    congr 1
    rw [show 255 - t.length - 1 = 254 - t.length by omega, List.drop_append,
      List.drop_eq_nil_of_le (by omega), List.nil_append, List.drop_replicate]
    congr 1
    rw [show (['\x00'] : List Char) = List.replicate 1 '\x00' from rfl, List.replicate_append_replicate]
    congr 1
    omega

theorem snprintf_outside (line s : List Char) {off : Nat} (h : 255 < off) (hb : off < 2 ^ 64) :
    snprintf line off (room off) s = none := by
  unfold snprintf maxLine
  by_cases h1 : 256 < off
  · rw [if_pos h1]
  · have : off = 256 := by omega
    subst this
    rw [if_neg h1, if_neg (by decide)]
    simp only [List.length_append, List.length_singleton]
    rw [if_neg (by omega)]

/-- `s` printed for each field. -/
def tail (fs : List Field) : List Char := fs.flatMap fun f => ',' :: f.fmt

theorem tail_cons (f : Field) (fs : List Field) : tail (f :: fs) = (',' :: f.fmt) ++ tail fs := rfl

theorem fieldLoop_image (fs : List Field) : ∀ (t : List Char), (t ++ tail fs.dropLast).length ≤ 255 →
    fieldLoop (image t) t.length fs = some (image (t ++ tail fs)) := by
  induction fs with
  | nil => intro t _; simp [fieldLoop, tail]
  | cons f fs ih =>
    intro t h
    simp only [fieldLoop]
    rw [snprintf_image t _ (by rw [List.length_append] at h; omega)]
    simp only
    rw [← List.length_append]
    cases fs with
    | nil => simp [fieldLoop, tail]
    | cons g gs =>
      rw [ih (t ++ (',' :: f.fmt)) (by
        rw [List.dropLast_cons_of_ne_nil (by simp), tail_cons, ← List.append_assoc] at h
        exact h)]
      rw [tail_cons f, ← List.append_assoc]

theorem fieldLoop_outside (fs : List Field) : ∀ (t : List Char), fs ≠ [] →
    255 < (t ++ tail fs.dropLast).length → (t ++ tail fs).length < 2 ^ 64 →
    fieldLoop (image t) t.length fs = none := by
  induction fs with
  | nil => intro t h; exact absurd rfl h
  | cons f fs ih =>
    intro t _ h hb
    simp only [fieldLoop]
    by_cases ht : t.length ≤ 255
    · rw [snprintf_image t _ ht]
      simp only
      rw [← List.length_append]
      cases fs with
      | nil => simp [tail] at h; omega
      | cons g gs =>
        apply ih _ (by simp)
        · rw [List.dropLast_cons_of_ne_nil (by simp), tail_cons, ← List.append_assoc] at h
          exact h
        · rw [tail_cons, ← List.append_assoc] at hb
          exact hb
    · rw [snprintf_outside _ _ (by omega) (by rw [List.length_append] at hb; omega)]

theorem takeWhile_image (t : List Char) (h : ∀ c ∈ t, c ≠ '\x00') : cstr (image t) = t.take 254 := by
  unfold cstr image
  rw [List.takeWhile_append_of_pos (by
    intro c hc
    simpa using h c (List.mem_of_mem_take hc))]
  have hpos : 256 - min 254 t.length = (256 - min 254 t.length - 1) + 1 := by omega
  rw [hpos, List.replicate_succ]
  simp

/-! ### The characters of a line -/

theorem digit_ne {c : Char} (h : c.isDigit = true) {d : Char} (hd : d.isDigit = false) : c ≠ d := by
  intro e; subst e; rw [h] at hd; cases hd

theorem digitChar_isDigit (n : Nat) : (Nat.digitChar (n % 10)).isDigit = true := by
  have : n % 10 < 10 := Nat.mod_lt _ (by decide)
  generalize n % 10 = k at this
  revert k
  decide

theorem frac6_isDigit (n : Nat) : ∀ c ∈ frac6 n, c.isDigit = true := by
  intro c hc
  unfold frac6 at hc
  rw [List.mem_map] at hc
  obtain ⟨k, _, rfl⟩ := hc
  exact digitChar_isDigit k

theorem frac6_length (n : Nat) : (frac6 n).length = 6 := rfl

/-- Characters that may occur in a field. -/
theorem fmt_chars (f : Field) : ∀ c ∈ f.fmt, c.isDigit = true ∨ c ∈ ['-', '.', 'i', 'n', 'f', 'a'] := by
  have hs : ∀ b, ∀ c ∈ sign b, c = '-' := by
    intro b c; cases b <;> simp [sign]
  intro c hc
  cases f with
  | fin neg m =>
    simp only [Field.fmt, List.mem_append] at hc
    rcases hc with ((h | h) | h) | h
    · right; rw [hs _ _ h]; simp
    · exact Or.inl (Nat.isDigit_of_mem_toDigits (by decide) (by decide) h)
    · right; rw [List.mem_singleton.mp h]; simp
    · exact Or.inl (frac6_isDigit _ _ h)
  | inf neg =>
    simp only [Field.fmt, List.mem_append] at hc
    right
    rcases hc with h | h
    · rw [hs _ _ h]; simp
    · simp at h ⊢; rcases h with h | h | h <;> simp [h]
  | nan neg =>
    simp only [Field.fmt, List.mem_append] at hc
    right
    rcases hc with h | h
    · rw [hs _ _ h]; simp
    · simp at h ⊢; rcases h with h | h | h <;> simp [h]

theorem fmt_no (f : Field) {d : Char} (hd : d.isDigit = false)
    (hm : d ∉ ['-', '.', 'i', 'n', 'f', 'a']) : ∀ c ∈ f.fmt, c ≠ d := by
  intro c hc e
  subst e
  rcases fmt_chars f c hc with h | h
  · rw [h] at hd; cases hd
  · exact hm h

theorem tail_chars (fs : List Field) : ∀ c ∈ tail fs, c ≠ '\x00' := by
  intro c hc
  unfold tail at hc
  rw [List.mem_flatMap] at hc
  obtain ⟨f, _, hf⟩ := hc
  rcases List.mem_cons.mp hf with rfl | hf
  · decide
  · exact fmt_no f (by decide) (by decide) c hf

theorem sign_length (b : Bool) : (sign b).length ≤ 1 := by cases b <;> decide

theorem fmt_length {d : Nat} (hd : 0 < d) {f : Field} (h : Below d f) : f.fmt.length ≤ d + 8 := by
  cases f with
  | fin neg m =>
    simp only [Below] at h
    have h1 : m / 1000000 < 10 ^ d := Nat.div_lt_of_lt_mul (by rw [Nat.mul_comm]; exact h)
    have h2 := (Nat.length_toDigits_le_iff (b := 10) (n := m / 1000000) (by decide) hd).mpr h1
    have h3 := sign_length neg
    simp only [Field.fmt, List.length_append, frac6_length, List.length_singleton]
    omega
  | inf neg => have := sign_length neg; simp only [Field.fmt, List.length_append, List.length_cons, List.length_nil]; omega
  | nan neg => have := sign_length neg; simp only [Field.fmt, List.length_append, List.length_cons, List.length_nil]; omega

theorem tail_length {d : Nat} (hd : 0 < d) (fs : List Field) (h : ∀ f ∈ fs, Below d f) :
    (tail fs).length ≤ fs.length * (d + 9) := by
  induction fs with
  | nil => simp [tail]
  | cons f fs ih =>
    have h1 := fmt_length hd (h f (by simp))
    have h2 := ih fun g hg => h g (by simp [hg])
    rw [tail_cons, List.length_append, List.length_cons, List.length_cons, Nat.add_mul]
    omega

/-! ### Reading a line back -/

theorem split_unique {p : Char → Bool} {a b r s : List Char} (ha : ∀ c ∈ a, p c = true)
    (hb : ∀ c ∈ b, p c = true) (hr : ∀ c, r.head? = some c → p c = false)
    (hs : ∀ c, s.head? = some c → p c = false) (h : a ++ r = b ++ s) : a = b ∧ r = s := by
  have tw : ∀ r : List Char, (∀ c, r.head? = some c → p c = false) → r.takeWhile p = [] := by
    intro r hr
    cases r with
    | nil => rfl
    | cons c r => rw [List.takeWhile_cons, hr c rfl]; rfl
  have e := congrArg (List.takeWhile p) h
  rw [List.takeWhile_append_of_pos ha, List.takeWhile_append_of_pos hb, tw r hr, tw s hs,
    List.append_nil, List.append_nil] at e
  subst e
  exact ⟨rfl, List.append_cancel_left h⟩

theorem digitChar_inj {a b : Nat} (h : Nat.digitChar (a % 10) = Nat.digitChar (b % 10)) :
    a % 10 = b % 10 := by
  have ha : a % 10 < 10 := Nat.mod_lt _ (by decide)
  have hb : b % 10 < 10 := Nat.mod_lt _ (by decide)
  generalize a % 10 = k at *
  generalize b % 10 = l at *
  have : ∀ k < 10, ∀ l < 10, Nat.digitChar k = Nat.digitChar l → k = l := by decide
  exact this k ha l hb h

theorem frac6_inj {a b : Nat} (ha : a < 1000000) (hb : b < 1000000) (h : frac6 a = frac6 b) :
    a = b := by
  simp only [frac6, List.map_cons, List.map_nil, List.cons.injEq] at h
  obtain ⟨h1, h2, h3, h4, h5, h6, -⟩ := h
  have h1 := digitChar_inj h1
  have h2 := digitChar_inj h2
  have h3 := digitChar_inj h3
  have h4 := digitChar_inj h4
  have h5 := digitChar_inj h5
  have h6 := digitChar_inj h6
  omega

/-- What follows the sign. -/
def body : Field → List Char
  | .fin _ m => Nat.toDigits 10 (m / 1000000) ++ '.' :: frac6 (m % 1000000)
  | .inf _ => ['i', 'n', 'f']
  | .nan _ => ['n', 'a', 'n']

def negative : Field → Bool
  | .fin b _ => b
  | .inf b => b
  | .nan b => b

theorem fmt_body (f : Field) : f.fmt = sign (negative f) ++ body f := by
  cases f <;> simp [Field.fmt, body, negative]

theorem toDigits_cons (n : Nat) : ∃ c r, Nat.toDigits 10 n = c :: r ∧ c.isDigit = true := by
  cases h : Nat.toDigits 10 n with
  | nil =>
    have := Nat.length_toDigits_pos (b := 10) (n := n)
    rw [h] at this
    cases this
  | cons c r =>
    exact ⟨c, r, rfl, Nat.isDigit_of_mem_toDigits (b := 10) (n := n) (by decide) (by decide)
      (by rw [h]; simp)⟩

theorem body_head (f : Field) : ∃ c r, body f = c :: r ∧ c ≠ '-' := by
  cases f with
  | fin b m =>
    obtain ⟨c, r, h, hc⟩ := toDigits_cons (m / 1000000)
    exact ⟨c, r ++ '.' :: frac6 (m % 1000000), by simp [body, h], digit_ne hc (by decide)⟩
  | inf b => exact ⟨'i', ['n', 'f'], rfl, by decide⟩
  | nan b => exact ⟨'n', ['a', 'n'], rfl, by decide⟩

theorem body_inj {f g : Field} (h : body f = body g) (hn : negative f = negative g) : f = g := by
  have dig : ∀ n : Nat, ∀ c ∈ Nat.toDigits 10 n, c.isDigit = true := fun n c hc =>
    Nat.isDigit_of_mem_toDigits (by decide) (by decide) hc
  have no : ∀ (m : Nat) (c : Char) (r : List Char), c.isDigit = false →
      Nat.toDigits 10 (m / 1000000) ++ '.' :: frac6 (m % 1000000) ≠ c :: r := by
    intro m c r hc e
    obtain ⟨d, r', h, hd⟩ := toDigits_cons (m / 1000000)
    rw [h, List.cons_append, List.cons.injEq] at e
    exact digit_ne hd hc e.1
  cases f with
  | fin b m =>
    cases g with
    | fin b' m' =>
      have hb : b = b' := hn
      subst hb
      obtain ⟨h1, h2⟩ := split_unique (p := Char.isDigit) (dig _) (dig _)
        (by intro c hc; cases hc; decide) (by intro c hc; cases hc; decide) h
      have h3 : m / 1000000 = m' / 1000000 := by
        have := congrArg (fun l => Nat.ofDigitChars 10 l 0) h1
        simpa [Nat.ofDigitChars_toDigits] using this
      have h4 : m % 1000000 = m' % 1000000 :=
        frac6_inj (Nat.mod_lt _ (by decide)) (Nat.mod_lt _ (by decide)) (List.cons.inj h2).2
      have : m = m' := by omega
      rw [this]
    | inf b' => exact absurd h (no m _ _ (by decide))
    | nan b' => exact absurd h (no m _ _ (by decide))
  | inf b =>
    cases g with
    | fin b' m' => exact absurd h.symm (no m' _ _ (by decide))
    | inf b' => exact congrArg Field.inf hn
    | nan b' => exact absurd h (by simp [body])
  | nan b =>
    cases g with
    | fin b' m' => exact absurd h.symm (no m' _ _ (by decide))
    | inf b' => exact absurd h (by simp [body])
    | nan b' => exact congrArg Field.nan hn

theorem fmt_inj {f g : Field} (h : f.fmt = g.fmt) : f = g := by
  rw [fmt_body, fmt_body] at h
  obtain ⟨c, r, hf, hc⟩ := body_head f
  obtain ⟨d, s, hg, hd⟩ := body_head g
  have key : sign (negative f) = sign (negative g) ∧ body f = body g := by
    apply split_unique (p := fun c => c == '-') _ _ _ _ h
    · intro x; cases negative f <;> simp [sign]
    · intro x; cases negative g <;> simp [sign]
    · rw [hf]; intro x hx; cases hx; simpa using hc
    · rw [hg]; intro x hx; cases hx; simpa using hd
  refine body_inj key.2 ?_
  have := key.1
  revert this
  cases negative f <;> cases negative g <;> simp [sign]

theorem tail_inj (fs : List Field) : ∀ gs, tail fs = tail gs → fs = gs := by
  induction fs with
  | nil =>
    intro gs h
    cases gs with
    | nil => rfl
    | cons g gs => rw [tail_cons] at h; cases h
  | cons f fs ih =>
    intro gs h
    cases gs with
    | nil => rw [tail_cons] at h; cases h
    | cons g gs =>
      rw [tail_cons, tail_cons, List.cons_append, List.cons_append, List.cons.injEq] at h
      have hd : ∀ l : List Field, ∀ c, (tail l).head? = some c → (c != ',') = false := by
        intro l c hc
        cases l with
        | nil => cases hc
        | cons x l => rw [tail_cons] at hc; cases hc; rfl
      obtain ⟨h1, h2⟩ := split_unique (p := fun c => c != ',')
        (by intro c hc; simpa using fmt_no f (by decide) (by decide) c hc)
        (by intro c hc; simpa using fmt_no g (by decide) (by decide) c hc) (hd fs) (hd gs) h.2
      rw [fmt_inj h1, ih gs h2]

/-! ### Properties -/

theorem text_tail (e : Entry) : text e = e.type :: tail e.fields := rfl

theorem textButLast_tail (e : Entry) : textButLast e = e.type :: tail e.fields.dropLast := rfl

theorem first_image (c : Char) :
    snprintf (List.replicate maxLine '\x00') 0 (room 0) [c] = some (image [c]) :=
  snprintf_image [] [c] (by decide)

/-- The text of the longest line that fits: a line of at most 254 characters is written whole, and
then it determines the type and every field (up to the six digits of `%f`). -/
theorem C115_line {e e' : Entry} (h0 : e.type ≠ '\x00') (h0' : e'.type ≠ '\x00')
    (h : (text e).length ≤ 254) (h' : (text e').length ≤ 254) :
    dumpLine e = some (text e ++ ['\n']) ∧ (dumpLine e = dumpLine e' → e = e') := by
  have whole : ∀ e : Entry, e.type ≠ '\x00' → (text e).length ≤ 254 →
      dumpLine e = some (text e ++ ['\n']) := by
    intro e h0 h
    unfold dumpLine
    rw [first_image]
    simp only
    have hl : ([e.type] ++ tail e.fields.dropLast).length ≤ 255 := by
      have hd : (tail e.fields.dropLast).length ≤ (tail e.fields).length := by
        have : e.fields.dropLast <+: e.fields := List.dropLast_prefix _
        obtain ⟨x, hx⟩ := this
        have ha : tail (e.fields.dropLast ++ x) = tail e.fields.dropLast ++ tail x := by
          simp [tail]
        rw [hx] at ha
        rw [ha, List.length_append]; omega
      rw [text_tail] at h
      simp only [List.length_cons, List.length_append, List.length_nil] at h ⊢
      omega
    rw [show 1 = [e.type].length from rfl, fieldLoop_image e.fields [e.type] hl]
    simp only
    rw [takeWhile_image _ (by
      intro c hc
      rcases List.mem_append.mp hc with hc | hc
      · rw [List.mem_singleton.mp hc]; exact h0
      · exact tail_chars _ _ hc)]
    rw [show [e.type] ++ tail e.fields = text e from rfl, List.take_of_length_le h]
  refine ⟨whole e h0 h, fun he => ?_⟩
  rw [whole e h0 h, whole e' h0' h', Option.some.injEq] at he
  have he := List.append_cancel_right he
  rw [text_tail, text_tail, List.cons.injEq] at he
  cases e; cases e'
  simp only [Entry.mk.injEq]
  exact ⟨he.1, tail_inj _ _ he.2⟩

/-- Ten fields below `10^16` in magnitude are always written whole. -/
theorem C115_ten_fields {e : Entry} (h0 : e.type ≠ '\x00') (hn : e.fields.length ≤ 10)
    (h : ∀ f ∈ e.fields, Below 16 f) : dumpLine e = some (text e ++ ['\n']) := by
  have hl : (text e).length ≤ 254 := by
    have := tail_length (d := 16) (by decide) e.fields h
    have h2 : e.fields.length * (16 + 9) ≤ 10 * 25 := Nat.mul_le_mul hn (by decide)
    rw [text_tail, List.length_cons]
    omega
  exact (C115_line h0 h0 hl hl).1

/-- What is written in any case: the first 254 characters, as long as the line without its last
field has at most 255; otherwise memory behind the array is written. -/
theorem C115_outcome_partial {e : Entry} (h0 : e.type ≠ '\x00') (hb : (text e).length < 2 ^ 64) :
    dumpLine e = if (textButLast e).length ≤ 255 then some ((text e).take 254 ++ ['\n']) else none := by
  unfold dumpLine
  rw [first_image]
  simp only
  by_cases h : (textButLast e).length ≤ 255
  · rw [if_pos h, show 1 = [e.type].length from rfl, fieldLoop_image e.fields [e.type] h]
    simp only
    rw [takeWhile_image _ (by
      intro c hc
      rcases List.mem_append.mp hc with hc | hc
      · rw [List.mem_singleton.mp hc]; exact h0
      · exact tail_chars _ _ hc)]
    rfl
  · rw [if_neg h, show 1 = [e.type].length from rfl, fieldLoop_outside e.fields [e.type] (by
      intro hn
      rw [textButLast_tail, hn] at h
      exact h (by simp [tail])) (Nat.lt_of_not_le h) hb]

/-- Two integer points in time (nanoseconds since 1970). -/
def sampleEntry : Entry :=
  ⟨'m', [.fin false (1700000000000000000 * 1000000), .fin true 1500000, .nan false]⟩

/-- Hypotheses of `C115_line`, `C115_ten_fields`, `C115_outcome_partial`. -/
example : (text sampleEntry).length ≤ 254 ∧
    dumpLine sampleEntry = some "m,1700000000000000000.000000,-1.500000,nan\n".toList ∧
    dumpLine ⟨'m', List.replicate 10 (.fin true (10 ^ 22 - 1))⟩ ≠ none := by
  refine ⟨by decide +kernel, by decide +kernel, by decide +kernel⟩

/-- An entry of ten points in time is cut: the last of them does not fit. -/
theorem C115_cut_fails : ∃ e : Entry, e.fields.length = 10 ∧
    (∀ f ∈ e.fields, f = .fin false (1700000000000000000 * 1000000)) ∧
    dumpLine e = some ((text e).take 254 ++ ['\n']) ∧ (text e).length = 271 ∧
    dumpLine e = dumpLine { e with fields := e.fields.dropLast ++ [.fin false (1700000000999999999 * 1000000)] } := by
  refine ⟨⟨'m', List.replicate 10 (.fin false (1700000000000000000 * 1000000))⟩, rfl,
    fun f hf => List.eq_of_mem_replicate hf, by decide +kernel, by decide +kernel, by decide +kernel⟩

/-- An entry of two fields writes behind the array: a single field of the type `double` may take
more than 255 characters. -/
theorem C115_overflow_fails : ∃ e : Entry, e.fields.length = 2 ∧ (∀ f ∈ e.fields, Below 300 f) ∧
    dumpLine e = none := by
  refine ⟨⟨'m', [.fin false (10 ^ 299 * 1000000), .fin false 0]⟩, rfl, ?_, by decide +kernel⟩
  intro f hf
  rcases List.mem_cons.mp hf with rfl | hf
  · show 10 ^ 299 * 1000000 < 10 ^ 300 * 1000000
    decide +kernel
  · rw [List.mem_singleton.mp hf]
    show 0 < 10 ^ 300 * 1000000
    decide +kernel

end Verif.CsvDumper
