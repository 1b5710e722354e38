import Verif.PcmNames.Model
import Verif.PcmFormat.Model
import Mathlib.Tactic.SplitIfs

/-!
# Names and traits of PCM formats: property C77
-/

namespace Verif.PcmNames

/-! ## Specification of names -/

/-- The name of a format without its byte order: `s`, `u` or `f`; the number of significant
bits (of stored bits for floating point); the number of bytes if it is not the least possible. -/
def baseName (t : Traits) : String :=
  (if t.isInteger then (if t.isSigned then "s" else "u") else "f")
    ++ toString (if t.isInteger then t.depth else t.width)
    ++ (if t.isInteger ∧ t.depth < t.width then "_" ++ toString (t.width / 8) else "")

/-- The name of a format with its byte order. -/
def fullName (t : Traits) : String :=
  baseName t ++ (if t.isInteger ∧ t.depth < t.width then "" else "_")
    ++ (if t.isLittle then "le" else "be")

/-! ## Names -/

/-- Every format has a name, and the name leads back to the format. (All 78 formats are
checked.) In particular no two formats share a name. -/
theorem C77_roundtrip (f : Nat) (h : 1 ≤ f ∧ f ≤ 78) :
    ∃ s, toStr f = some s ∧ fromStr s = f := by
  have key : ∀ k, k < 78 → ((toStr (k + 1)).any fun s => fromStr s == k + 1) = true := by
    decide +kernel
  have := key (f - 1) (by omega)
  rw [show f - 1 + 1 = f by omega] at this
  cases hs : toStr f with
  | none =>
    rw [hs] at this
    simp at this
  | some s =>
    rw [hs] at this
    exact ⟨s, rfl, by simpa using this⟩

theorem firstEq_mem (s : List Char) : ∀ l : List (String × Nat), firstEq s l ≠ 0 →
    ∃ n, (n, firstEq s l) ∈ l ∧ n.toList = s := by
  intro l
  induction l with
  | nil =>
    intro h
    exact absurd rfl h
  | cons x l ih =>
    obtain ⟨n, f⟩ := x
    intro h
    unfold firstEq at h ⊢
    by_cases hs : s = n.toList
    · rw [if_pos hs]
      exact ⟨n, by simp, hs.symm⟩
    · rw [if_neg hs] at h ⊢
      obtain ⟨n', h1, h2⟩ := ih h
      exact ⟨n', List.mem_cons_of_mem _ h1, h2⟩

mutual
/-- All names in a tree. -/
def leaves : Node → List (String × Nat)
  | .names l => l
  | .chars l => leavesList l
/-- All names in a list of branches. -/
def leavesList : List (Char × Node) → List (String × Nat)
  | [] => []
  | (_, n) :: l => leaves n ++ leavesList l
end

mutual
theorem walk_mem (s rest : List Char) : ∀ n : Node, walk s rest n ≠ 0 →
    ∃ m, (m, walk s rest n) ∈ leaves n ∧ m.toList = s
  | .names l => by
    intro h
    unfold walk at h ⊢
    unfold leaves
    exact firstEq_mem s l h
  | .chars l => by
    intro h
    unfold walk at h ⊢
    unfold leaves
    exact walkChars_mem s rest l h
theorem walkChars_mem (s rest : List Char) : ∀ l : List (Char × Node), walkChars s rest l ≠ 0 →
    ∃ m, (m, walkChars s rest l) ∈ leavesList l ∧ m.toList = s
  | [] => by
    intro h
    unfold walkChars at h
    exact absurd rfl h
  | (c, n) :: l => by
    intro h
    unfold walkChars at h ⊢
    unfold leavesList
    by_cases hc : rest.head? = some c
    · rw [if_pos hc] at h ⊢
      obtain ⟨m, h1, h2⟩ := walk_mem s rest.tail n h
      exact ⟨m, List.mem_append_left _ h1, h2⟩
    · rw [if_neg hc] at h ⊢
      obtain ⟨m, h1, h2⟩ := walkChars_mem s rest l h
      exact ⟨m, List.mem_append_right _ h1, h2⟩
end

/-- No other string is accepted: if any string at all gives a format, then it is the name of
this format. -/
theorem C77_only_names (s : String) (h : fromStr s ≠ 0) : toStr (fromStr s) = some s := by
  obtain ⟨m, h1, h2⟩ := walk_mem s.toList s.toList tree h
  have hm : m = s := String.toList_inj.1 h2
  have key : (leaves tree).all (fun x => toStr x.2 == some x.1) = true := by decide +kernel
  have := List.all_eq_true.1 key _ h1
  rw [hm] at this
  simpa [fromStr] using this

example : fromStr "s18_3le" = 21 ∧ fromStr "s18_" = 0 ∧ fromStr "s" = 0 ∧ fromStr "" = 0
    ∧ fromStr "s16_beX" = 0 := by decide +kernel

/-- The name says what the format is: signed, unsigned or floating point, the number of bits,
the size of the container, and, if it is in the name, the byte order. (All 78 formats are
checked.) -/
theorem C77_describes (f : Nat) (h : 1 ≤ f ∧ f ≤ 78) :
    ∃ s t, toStr f = some s ∧ traits f = some t ∧ (s = baseName t ∨ s = fullName t) := by
  have key : ∀ k, k < 78 → (((toStr (k + 1)).bind fun s => (traits (k + 1)).map fun t =>
      (s == baseName t || s == fullName t)) == some true) = true := by
    decide +kernel
  have := key (f - 1) (by omega)
  rw [show f - 1 + 1 = f by omega] at this
  cases hs : toStr f with
  | none =>
    rw [hs] at this
    simp at this
  | some s =>
    cases ht : traits f with
    | none =>
      rw [hs, ht] at this
      simp at this
    | some t =>
      rw [hs, ht] at this
      exact ⟨s, t, rfl, rfl, by simpa using this⟩

example : (traits 21).map fullName = some "s18_3le" := by decide +kernel

/-- Traits are valid for the formats and for nothing else, not for `PcmFormat_Invalid` and not
for numbers behind the last format; and so are names. -/
theorem C77_valid_iff (f : Nat) :
    ((traits f).isSome ↔ 1 ≤ f ∧ f ≤ 78) ∧ ((toStr f).isSome ↔ 1 ≤ f ∧ f ≤ 78) := by
  have l1 : names.length = 78 := by decide +kernel
  have l2 : traitsTable.length = 78 := by decide +kernel
  unfold traits toStr
  cases f with
  | zero => simp
  | succ k =>
    simp only [Option.isSome_iff_exists, ← List.mem_iff_getElem?] at *
    constructor
    · constructor
      · rintro ⟨a, ha⟩
        have := (List.getElem?_eq_some_iff.1 ha).1
        omega
      · intro h
        exact ⟨_, List.getElem?_eq_getElem (by omega)⟩
    · constructor
      · rintro ⟨a, ha⟩
        have := (List.getElem?_eq_some_iff.1 ha).1
        omega
      · intro h
        exact ⟨_, List.getElem?_eq_getElem (by omega)⟩

/-- The canonical format has the same traits, byte order included, so it is its own canonical
format, and its name says the byte order. Hence formats are the same, up to the choice of the
identifier, exactly if their canonical formats are equal. -/
theorem C77_canon (f : Nat) (t : Traits) (h : traits f = some t) :
    traits t.canon = some t ∧ toStr t.canon = some (fullName t) := by
  have hf : 1 ≤ f ∧ f ≤ 78 := (C77_valid_iff f).1.1 (by rw [h]; rfl)
  have key : ∀ k, k < 78 → ((traits (k + 1)).all fun t =>
      traits t.canon == some t && toStr t.canon == some (fullName t)) = true := by
    decide +kernel
  have := key (f - 1) (by omega)
  rw [show f - 1 + 1 = f by omega, h] at this
  simpa using this

/-- The traits of the integer formats are the parameters that the conversions of
`Verif.PcmFormat` work with, and there are no others. -/
theorem C77_codes (f : Nat) (t : Traits) (h : traits f = some t) (hi : t.isInteger = true) :
    ∃ c ∈ PcmFormat.codes, c.signed = t.isSigned ∧ c.width = t.depth ∧ c.packed = t.width := by
  have hf : 1 ≤ f ∧ f ≤ 78 := (C77_valid_iff f).1.1 (by rw [h]; rfl)
  have key : ∀ k, k < 78 → ((traits (k + 1)).all fun t =>
      !t.isInteger || PcmFormat.codes.any fun c =>
        c.signed == t.isSigned && c.width == t.depth && c.packed == t.width) = true := by
    decide +kernel
  have := key (f - 1) (by omega)
  rw [show f - 1 + 1 = f by omega, h] at this
  simp only [Option.all_some, hi, Bool.not_true, Bool.false_or, List.any_eq_true,
    Bool.and_eq_true, beq_iff_eq] at this
  obtain ⟨c, h1, ⟨h2, h3⟩, h4⟩ := this
  exact ⟨c, h1, h2, h3, h4⟩

end Verif.PcmNames
