import Verif.StringBuilder.Model

/-! # C50: string builder -/

namespace Verif.StringBuilder

/-! ## Specification -/

/-- The whole text requested by a history of calls: what follows the last assignment. -/
def text : List Op → List Byte → List Byte
  | [], acc => acc
  | .assign t :: ops, _ => text ops t
  | .append t :: ops, acc => text ops (acc ++ t)

/-- The memory holds a C string: the bytes of `s` and a terminating NUL. -/
def HoldsCString (b s : List Byte) : Prop := b.take (s.length + 1) = s ++ [0]

/-! ## Invariants -/

/-- Writing into a real buffer of `n > 0` bytes: relation between state and requested text. -/
structure Real (n : Nat) (s : St) (t : List Byte) : Prop where
  pos : 0 < n
  max : s.maxSize = n
  mem : ∃ b, s.buf = some b ∧ b.length = n ∧ HoldsCString b (t.take (n - 1))
  cur : s.curSize = min t.length (n - 1) + 1
  processed : s.nProcessed = t.length
  written : s.nWritten = min t.length (n - 1)
  trunc : s.truncErr = decide (n - 1 < t.length)
  werr : s.writeErr = false

theorem take_store (b s : List Byte) (off k : Nat) (h : off + s.length ≤ b.length) (hk : k ≤ off) :
    (b.take off ++ s ++ b.drop (off + s.length)).take k = b.take k := by
  rw [List.append_assoc, List.take_append_of_le_length (by simp; omega), List.take_take]
  congr 1; omega

theorem real_append (n : Nat) (s : St) (t str : List Byte) (h : Real n s t) :
    ∃ s', append s str = some s' ∧ Real n s' (t ++ str) := by
  obtain ⟨hn, hmax, ⟨b, hb, hlen, hc⟩, hcur, hpr, hwr, htr, hwe⟩ := h
  obtain ⟨sb, sm, sc, sw, sp, sn, st, se⟩ := s
  simp only at hmax hb hcur hpr hwr htr hwe
  subst hmax hb hcur hpr hwr htr hwe
  unfold append
  simp only [Bool.false_eq_true, if_false]
  by_cases h0 : str.length = 0
  · have : str = [] := List.length_eq_zero_iff.mp h0
    subst this
    simp only [List.length_nil, ne_eq, not_true, if_false, List.append_nil, Nat.add_zero]
    exact ⟨_, rfl, ⟨hn, rfl, ⟨b, rfl, hlen, hc⟩, rfl, rfl, rfl, rfl, rfl⟩⟩
  · rw [if_pos h0]
    have h1 : ¬ (((some b).isSome = true) ∧ sm = 0) := by omega
    have h2 : ¬ (((some b).isNone = true) ∧ sm = 0) := by simp
    unfold extendBy
    simp only [h1, h2, if_false]
    obtain ⟨k, hk⟩ : ∃ k, k = min t.length (sm - 1) := ⟨_, rfl⟩
    obtain ⟨w, hw⟩ : ∃ w, w = if str.length > sm - (k + 1) then sm - (k + 1) else str.length := ⟨_, rfl⟩
    rw [← hk]
    rw [← hw]
    have hwle : w ≤ str.length ∧ k + w ≤ sm - 1 ∧ (w < str.length → k + w = sm - 1) := by
      rw [hw]; split <;> omega
    have hst : store b (k + 1 + w - 1) [0] = some (b.take (k + w) ++ [0] ++ b.drop (k + w + 1)) := by
      unfold store
      rw [if_pos (by simp; omega)]
      have e : k + 1 + w - 1 = k + w := by omega
      rw [e]; rfl
    rw [hst]
    simp only
    -- the text that ends up in the buffer
    have hkt : t.take (sm - 1) = t.take k := by
      rw [hk]
      by_cases hle : t.length ≤ sm - 1
      · rw [List.take_of_length_le hle, Nat.min_eq_left hle, List.take_length]
      · rw [Nat.min_eq_right (by omega)]
    have hklen : (t.take k).length = k := by rw [List.length_take]; omega
    have hbk : b.take k = t.take k := by
      unfold HoldsCString at hc
      rw [hkt, hklen] at hc
      have := congrArg (List.take k) hc
      rw [List.take_take, Nat.min_eq_left (by omega), List.take_append_of_le_length (by omega),
        List.take_take, Nat.min_self] at this
      exact this
    have htxt : (t ++ str).take (sm - 1) = t.take k ++ str.take w := by
      rw [List.take_append, hkt]
      congr 1
      by_cases hle : t.length ≤ sm - 1
      · have : k = t.length := by omega
        by_cases hws : w < str.length
        · congr 1; have := hwle.2.2 hws; omega
        · have : w = str.length := by omega
          rw [this, List.take_length, List.take_of_length_le (by omega)]
      · have : w = 0 := by omega
        rw [this]
        have : sm - 1 - t.length = 0 := by omega
        rw [this]
    have hmin : k + w = min (t ++ str).length (sm - 1) := by
      rw [List.length_append]
      by_cases hws : w < str.length
      · have := hwle.2.2 hws; omega
      · omega
    have htr : (if w < str.length then true else decide (sm - 1 < t.length)) =
        decide (sm - 1 < (t ++ str).length) := by
      rw [List.length_append]
      by_cases hws : w < str.length
      · rw [if_pos hws]
        have := hwle.2.2 hws
        simp; omega
      · rw [if_neg hws]
        by_cases hle : sm - 1 < t.length
        · exfalso; omega
        · simp; omega
    obtain ⟨b1, hb1⟩ : ∃ b1, b1 = b.take (k + w) ++ [0] ++ b.drop (k + w + 1) := ⟨_, rfl⟩
    rw [← hb1]
    have hb1len : b1.length = sm := by rw [hb1]; simp; omega
    unfold copyOut
    simp only
    by_cases hw0 : w > 0
    · rw [if_pos hw0]
      have hl : (str.take w).length = w := by rw [List.length_take]; omega
      have hst2 : store b1 (k + 1 - 1) (str.take w) =
          some (b1.take k ++ str.take w ++ b1.drop (k + w)) := by
        unfold store
        rw [hl, if_pos (by omega)]
        have e : k + 1 - 1 = k := by omega
        rw [e]
      rw [hst2]
      refine ⟨_, rfl, ⟨hn, rfl, ⟨_, rfl, ?_, ?_⟩, ?_, ?_, ?_, htr, rfl⟩⟩
      · simp only [List.length_append, List.length_take, List.length_drop]; omega
      · unfold HoldsCString
        rw [htxt]
        have hlen2 : (t.take k ++ str.take w).length = k + w := by rw [List.length_append, hklen, hl]
        rw [hlen2]
        have hb1k : b1.take k = t.take k := by
          rw [hb1, List.append_assoc, List.take_append_of_le_length (by simp; omega), List.take_take,
            Nat.min_eq_left (by omega), hbk]
        have hb1d : (b1.drop (k + w)).take 1 = [0] := by
          have hl3 : (b.take (k + w)).length = k + w := by simp; omega
          rw [hb1, List.append_assoc, List.drop_append_of_le_length (by omega)]
          rw [List.drop_of_length_le (by omega)]
          rfl
        rw [hb1k, List.take_append, List.take_of_length_le (by omega), hlen2]
        have : k + w + 1 - (k + w) = 1 := by omega
        rw [this, hb1d]
      · simp only; omega
      · simp only [List.length_append]
      · simp only; omega
    · rw [if_neg hw0]
      have hw00 : w = 0 := by omega
      refine ⟨_, rfl, ⟨hn, rfl, ⟨_, rfl, hb1len, ?_⟩, ?_, ?_, ?_, htr, rfl⟩⟩
      · unfold HoldsCString
        rw [htxt, hw00]
        simp only [List.take_zero, List.append_nil, hklen]
        rw [hb1, hw00]
        simp only [Nat.add_zero]
        have hl3 : (b.take k).length = k := by simp; omega
        rw [List.append_assoc, List.take_append, hl3, List.take_of_length_le (by omega), hbk]
        have : k + 1 - k = 1 := by omega
        rw [this]; rfl
      · simp only; omega
      · simp only [List.length_append]
      · simp only; omega

theorem real_reset (n : Nat) (s : St) (b : List Byte) (hn : 0 < n) (hm : s.maxSize = n)
    (hb : s.buf = some b) (hl : b.length = n) (hw : s.writeErr = false) :
    ∃ s', reset s = some s' ∧ Real n s' [] := by
  obtain ⟨sb, sm, sc, sw, sp, sn, st, se⟩ := s
  simp only at hm hb hw
  subst hm hb hw
  unfold reset writerReset
  simp only [Bool.false_eq_true, if_false]
  rw [if_neg (by omega)]
  have hs : store b 0 [0] = some ([0] ++ b.drop 1) := by
    unfold store; rw [if_pos (by simp; omega)]; simp
  simp only [hs]
  refine ⟨_, rfl, ⟨hn, rfl, ⟨_, rfl, by simp; omega, ?_⟩, by simp, rfl, by simp, by simp, rfl⟩⟩
  unfold HoldsCString
  simp

theorem real_run (n : Nat) (ops : List Op) : ∀ (s : St) (t : List Byte), Real n s t →
    ∃ s', run s ops = some s' ∧ Real n s' (text ops t) := by
  induction ops with
  | nil => intro s t h; exact ⟨s, rfl, h⟩
  | cons op ops ih =>
    intro s t h
    cases op with
    | append str =>
      obtain ⟨s1, e, h1⟩ := real_append n s t str h
      obtain ⟨s2, e2, h2⟩ := ih s1 _ h1
      exact ⟨s2, by simp only [run, step, e]; exact e2, h2⟩
    | assign str =>
      obtain ⟨b, hb, hl, _⟩ := h.mem
      obtain ⟨s0, e0, h0⟩ := real_reset n s b h.pos h.max hb hl h.werr
      obtain ⟨s1, e1, h1⟩ := real_append n s0 [] str h0
      obtain ⟨s2, e2, h2⟩ := ih s1 _ h1
      refine ⟨s2, ?_, h2⟩
      simp only [run, step, assign, e0, e1]
      exact e2

/-! ## Properties -/

/-- **C50**. For every non-empty buffer with any initial content and every history of calls: no store
leaves the buffer; the buffer keeps its size and holds, NUL-terminated, the longest prefix of
the requested text that fits; success is reported exactly when the whole text fits;
`needed_size` is the size of the whole text and `actual_size` the size of what is stored. -/
theorem C50_builder (b : List Byte) (hb : 0 < b.length) (ops : List Op) :
    ∃ s s', init (some b) b.length = some s ∧ run s ops = some s' ∧
      (∃ b', s'.buf = some b' ∧ b'.length = b.length ∧
        HoldsCString b' ((text ops []).take (b.length - 1))) ∧
      (isOk s' = true ↔ (text ops []).length + 1 ≤ b.length) ∧
      neededSize s' = (text ops []).length + 1 ∧
      actualSize s' = ((text ops []).take (b.length - 1)).length + 1 := by
  obtain ⟨s, e, h⟩ := real_reset b.length ⟨some b, b.length, 1, none, 0, 0, false, false⟩ b hb rfl rfl rfl rfl
  obtain ⟨s', e', h'⟩ := real_run b.length ops s [] h
  refine ⟨s, s', e, e', h'.mem, ?_, ?_, ?_⟩
  · unfold isOk
    rw [h'.trunc, h'.werr]
    simp only [Bool.not_false, Bool.and_true, Bool.not_eq_true', decide_eq_false_iff_not]
    omega
  · unfold neededSize; rw [h'.processed]
  · unfold actualSize
    obtain ⟨b', hb', _⟩ := h'.mem
    rw [hb', h'.werr]
    simp only [Option.isNone_some, Bool.or_self, Bool.false_eq_true, if_false]
    rw [h'.written, List.length_take]
    omega

/-- Buffer of 5 bytes: "abc" + "def" is cut to "abcd"; a later assignment recovers. -/
example : (init (some [9, 9, 9, 9, 9]) 5).bind
      (run · [.append [97, 98, 99], .append [100, 101, 102]]) =
    some ⟨some [97, 98, 99, 100, 0], 5, 5, some 3, 6, 4, true, false⟩ := by decide
example : ((init (some [9, 9, 9, 9, 9]) 5).bind
      (run · [.append [97, 98, 99, 100, 101], .append [1], .assign [65]])).map isOk = some true := by decide
example := C50_builder [9, 9, 9] (by decide) [.append [97, 98, 99], .assign [65], .append []]

/-- State of a dry run (no buffer). -/
structure Dry (n : Nat) (s : St) (t : List Byte) : Prop where
  max : s.maxSize = n
  mem : s.buf = none
  ptr : s.wrPtr = none
  cur : n ≠ 0 → s.curSize = min t.length (n - 1) + 1
  processed : s.nProcessed = t.length
  trunc : s.truncErr = decide (n ≠ 0 ∧ n - 1 < t.length)
  werr : s.writeErr = false

theorem dry_append (n : Nat) (s : St) (t str : List Byte) (h : Dry n s t) :
    ∃ s', append s str = some s' ∧ Dry n s' (t ++ str) := by
  obtain ⟨hmax, hb, hp, hcur, hpr, htr, hwe⟩ := h
  obtain ⟨sb, sm, sc, sw, sp, sn, st, se⟩ := s
  simp only at hmax hb hp hcur hpr htr hwe
  subst hmax hb hp hpr htr hwe
  unfold append
  simp only [Bool.false_eq_true, if_false]
  by_cases h0 : str.length = 0
  · have : str = [] := List.length_eq_zero_iff.mp h0
    subst this
    simp only [List.length_nil, ne_eq, not_true, if_false, List.append_nil, Nat.add_zero]
    exact ⟨_, rfl, ⟨rfl, rfl, rfl, hcur, rfl, rfl, rfl⟩⟩
  · rw [if_pos h0]
    unfold extendBy
    simp only [Option.isSome_none, Bool.false_eq_true, false_and, if_false, Option.isNone_none, true_and]
    by_cases hm : sm = 0
    · subst hm
      simp only [if_true, copyOut, Nat.lt_irrefl, if_false]
      rw [if_pos (by omega)]
      exact ⟨_, rfl, ⟨rfl, rfl, rfl, by simp, by simp, by simp, rfl⟩⟩
    · simp only [hm, if_false]
      have hc := hcur hm
      obtain ⟨w, hw⟩ : ∃ w, w = if str.length > sm - sc then sm - sc else str.length := ⟨_, rfl⟩
      rw [← hw]
      have hwle : w ≤ str.length ∧ sc + w ≤ sm ∧ (w < str.length → sc + w = sm) := by
        rw [hw]; split <;> omega
      have htr : (if w < str.length then true else decide (sm ≠ 0 ∧ sm - 1 < t.length)) =
          decide (sm ≠ 0 ∧ sm - 1 < (t ++ str).length) := by
        rw [List.length_append]
        by_cases hws : w < str.length
        · rw [if_pos hws]
          have := hwle.2.2 hws
          simp; omega
        · rw [if_neg hws]
          by_cases hle : sm - 1 < t.length
          · simp [hm, hle]; omega
          · simp [hm, hle]; omega
      have hcur' : sm ≠ 0 → sc + w = min (t ++ str).length (sm - 1) + 1 := by
        intro _
        rw [List.length_append]
        by_cases hws : w < str.length
        · have := hwle.2.2 hws; omega
        · omega
      unfold copyOut
      simp only
      split <;> exact ⟨_, rfl, ⟨rfl, rfl, rfl, hcur', by simp, htr, rfl⟩⟩

theorem dry_reset (n : Nat) (s : St) (hm : s.maxSize = n) (hb : s.buf = none) (hw : s.writeErr = false) :
    ∃ s', reset s = some s' ∧ Dry n s' [] := by
  obtain ⟨sb, sm, sc, sw, sp, sn, st, se⟩ := s
  simp only at hm hb hw
  subst hm hb hw
  unfold reset writerReset
  simp only [Bool.false_eq_true, if_false, Option.isSome_none, false_and]
  exact ⟨_, rfl, ⟨rfl, rfl, rfl, fun _ => by simp, rfl, by simp, rfl⟩⟩

/-- **C50** (dry run). With a null buffer nothing is stored, the needed size is still exact, and
the size limit is checked exactly as for a real buffer; a zero size means no limit. -/
theorem C50_dry_run (n : Nat) (ops : List Op) :
    ∃ s s', init none n = some s ∧ run s ops = some s' ∧ s'.buf = none ∧
      (isOk s' = true ↔ n = 0 ∨ (text ops []).length + 1 ≤ n) ∧
      neededSize s' = (text ops []).length + 1 ∧ actualSize s' = 0 := by
  obtain ⟨s, e, h⟩ := dry_reset n ⟨none, n, 1, none, 0, 0, false, false⟩ rfl rfl rfl
  have hrun : ∀ (ops : List Op) (s : St) (t : List Byte), Dry n s t →
      ∃ s', run s ops = some s' ∧ Dry n s' (text ops t) := by
    intro ops
    induction ops with
    | nil => intro s t h; exact ⟨s, rfl, h⟩
    | cons op ops ih =>
      intro s t h
      cases op with
      | append str =>
        obtain ⟨s1, e, h1⟩ := dry_append n s t str h
        obtain ⟨s2, e2, h2⟩ := ih s1 _ h1
        exact ⟨s2, by simp only [run, step, e]; exact e2, h2⟩
      | assign str =>
        obtain ⟨s0, e0, h0⟩ := dry_reset n s h.max h.mem h.werr
        obtain ⟨s1, e1, h1⟩ := dry_append n s0 [] str h0
        obtain ⟨s2, e2, h2⟩ := ih s1 _ h1
        refine ⟨s2, ?_, h2⟩
        simp only [run, step, assign, e0, e1]
        exact e2
  obtain ⟨s', e', h'⟩ := hrun ops s [] h
  refine ⟨s, s', e, e', h'.mem, ?_, ?_, ?_⟩
  · unfold isOk
    rw [h'.trunc, h'.werr]
    simp only [Bool.not_false, Bool.and_true, Bool.not_eq_true', decide_eq_false_iff_not]
    omega
  · unfold neededSize; rw [h'.processed]
  · unfold actualSize; rw [h'.mem]; simp

example := C50_dry_run 4 [.append [97, 98, 99], .append [100]]

/-- **C50** (no room for the terminator). A non-null buffer of size zero is never written, and every
operation reports an error. -/
theorem C50_no_room (ops : List Op) :
    ∃ s s', init (some []) 0 = some s ∧ run s ops = some s' ∧ s'.buf = some [] ∧ isOk s' = false := by
  refine ⟨⟨some [], 0, 1, none, 0, 0, false, true⟩, ?_⟩
  suffices h : ∀ s : St, s.buf = some [] → s.writeErr = true →
      ∃ s', run s ops = some s' ∧ s'.buf = some [] ∧ isOk s' = false by
    obtain ⟨s', h1, h2, h3⟩ := h ⟨some [], 0, 1, none, 0, 0, false, true⟩ rfl rfl
    exact ⟨s', by decide, h1, h2, h3⟩
  induction ops with
  | nil => intro s hb hw; exact ⟨s, rfl, hb, by simp [isOk, hw]⟩
  | cons op ops ih =>
    intro s hb hw
    cases op with
    | append t =>
      simp only [run, step, append, hw, if_true]
      exact ih _ hb rfl
    | assign t =>
      simp only [run, step, assign, reset, append, hw, if_true]
      exact ih _ hb rfl

/-! ## Numbers -/

/-- Value of a digit character, upper case hexadecimal. -/
def digitValue (c : Byte) : Nat := if c.val < 65 then c.val - 48 else c.val - 55

/-- Value of a text of digits, most significant first. -/
def value (base : Nat) (s : List Byte) : Nat := s.foldl (fun acc c => acc * base + digitValue c) 0

theorem digit_ok : ∀ d : Fin 16, digitValue (digitTable.getD d.val 0) = d.val := by decide

theorem foldl_value (base : Nat) (s : List Byte) : ∀ a : Nat,
    s.foldl (fun acc c => acc * base + digitValue c) a = a * base ^ s.length + value base s := by
  induction s with
  | nil => intro a; simp [value]
  | cons c s ih =>
    intro a
    simp only [List.foldl_cons, value]
    rw [ih, ih (0 * base + digitValue c)]
    rw [List.length_cons, Nat.pow_succ, Nat.zero_mul, Nat.zero_add, Nat.add_mul, Nat.mul_assoc,
      Nat.mul_comm base (base ^ s.length)]
    omega

theorem digitLoop_spec (base : Nat) (hb : 2 ≤ base) (hb2 : base ≤ 16) :
    ∀ (room n : Nat) (acc : List Byte), n < 2 ^ room → 0 < room →
      ∃ ds, digitLoop base room n acc = some (ds ++ acc) ∧ ds ≠ [] ∧ value base ds = n ∧
        (n ≠ 0 → ds.head? ≠ some 48) ∧ (n = 0 → ds = [48])
  | 0, _, _, _, h0 => absurd h0 (by simp)
  | room + 1, n, acc, hn, _ => by
    unfold digitLoop
    simp only
    have hd : digitValue (digitTable.getD (n % base) 0) = n % base :=
      digit_ok ⟨n % base, by have := Nat.mod_lt n (show base > 0 by omega); omega⟩
    by_cases hq : n / base > 0
    · rw [if_pos hq]
      have hlt : n / base < 2 ^ room := by
        rw [Nat.div_lt_iff_lt_mul (by omega)]
        rw [Nat.pow_succ] at hn
        calc n < 2 ^ room * 2 := hn
          _ ≤ 2 ^ room * base := Nat.mul_le_mul_left _ hb
      have hr : 0 < room := by
        rcases room with _ | r
        · have : n / base = 0 := by simpa using hlt
          omega
        · omega
      obtain ⟨ds, e, hne, hv, hh, _⟩ := digitLoop_spec base hb hb2 room (n / base) _ hlt hr
      refine ⟨ds ++ [digitTable.getD (n % base) 0], ?_, by simp, ?_, ?_, ?_⟩
      · rw [e]; simp
      · unfold value at *
        rw [List.foldl_append, hv]
        simp only [List.foldl_cons, List.foldl_nil, hd]
        rw [Nat.mul_comm]; exact Nat.div_add_mod n base
      · intro _
        rw [List.head?_append]
        cases ds with
        | nil => exact absurd rfl hne
        | cons d ds => simpa using hh (by omega)
      · intro h0; rw [h0] at hq; simp at hq
    · rw [if_neg hq]
      have hlt : n < base := by
        rcases Nat.lt_or_ge n base with h | h
        · exact h
        · exact absurd (Nat.div_pos h (by omega)) hq
      have hmod : n % base = n := Nat.mod_eq_of_lt hlt
      rw [hmod] at hd ⊢
      refine ⟨[digitTable.getD n 0], rfl, by simp, ?_, ?_, ?_⟩
      · unfold value
        simp only [List.foldl_cons, List.foldl_nil, hd]
        omega
      · intro h0 hx
        simp only [List.head?_cons, Option.some.injEq] at hx
        rw [hx] at hd
        exact h0 (by rw [← hd]; decide)
      · intro h0; subst h0; rfl

/-- **C55**. For every 64-bit number and every base from 2 to 16, the temporary buffer is big
enough and the appended digits denote the number, without leading zeroes. -/
theorem C55_number (n base : Nat) (hn : n < 2 ^ 64) (hb : 2 ≤ base) (hb2 : base ≤ 16) :
    ∃ ds, uintChars n base = some ds ∧ value base ds = n ∧ (n ≠ 0 → ds.head? ≠ some 48) ∧
      (n = 0 → ds = [48]) := by
  obtain ⟨ds, e, _, h1, h2, h3⟩ := digitLoop_spec base hb hb2 127 n []
    (Nat.lt_of_lt_of_le hn (by decide)) (by decide)
  refine ⟨ds, ?_, h1, h2, h3⟩
  unfold uintChars
  rw [if_pos ⟨hb, hb2⟩, e]; simp

example : uintChars 1234 10 = some [49, 50, 51, 52] ∧ uintChars 255 16 = some [70, 70] := by decide
example := C55_number (2 ^ 64 - 1) 2 (by decide) (by decide) (by decide)

end Verif.StringBuilder
