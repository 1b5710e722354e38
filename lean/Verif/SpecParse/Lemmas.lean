import Verif.SpecParse.Spec
import Verif.ChannelSet.Props
import Verif.PcmNames.Props
import Mathlib.Tactic.Ring
import Mathlib.Tactic.Linarith
import Mathlib.Data.Nat.Bitwise

/-! # Parsing of sample specs: lemmas on tokens -/

namespace Verif.SpecParse

open Verif.ChannelSet Spec

/-! ## Channel sets -/

/-- `s'` differs from `s` in its channels only. -/
structure Upd (s s' : CSet) (A : Finset Nat) : Prop where
  chans : s'.chans = A
  layout : s'.layout = s.layout
  order : s'.order = s.order
  reach : Reach s → Reach s'

theorem toggle_some (s : CSet) (n : Nat) (h : n < 1024) :
    ∃ s', s.toggle n true = some s' ∧ Upd s s' (insert n s.chans) := by
  have h1 := C42_operations s (.toggle n true)
  simp only [specApply, if_pos h, if_true] at h1
  cases hs : s.apply (.toggle n true) with
  | none => rw [hs] at h1; cases h1
  | some s' =>
    rw [hs] at h1
    refine ⟨s', hs, Option.some.inj h1, ?_, ?_, fun hr => .apply _ hr hs⟩ <;>
    · simp only [CSet.apply, CSet.toggle] at hs
      split at hs
      · cases hs
      · rw [← Option.some.inj hs]
        rfl

theorem toggle_none (s : CSet) (n : Nat) (h : ¬ n < 1024) : s.toggle n true = none := by
  unfold CSet.toggle
  rw [if_pos (Nat.not_lt.1 h)]

theorem toggleRange_some (s : CSet) (a b : Nat) (h : a ≤ b ∧ b < 1024) :
    ∃ s', s.toggleRange a b true = some s' ∧ Upd s s' (s.chans ∪ Finset.Icc a b) := by
  have h1 := C42_operations s (.toggleRange a b true)
  simp only [specApply, if_pos h, if_true] at h1
  cases hs : s.apply (.toggleRange a b true) with
  | none => rw [hs] at h1; cases h1
  | some s' =>
    rw [hs] at h1
    refine ⟨s', hs, Option.some.inj h1, ?_, ?_, fun hr => .apply _ hr hs⟩ <;>
    · simp only [CSet.apply, CSet.toggleRange] at hs
      split at hs
      · cases hs
      · split at hs
        · cases hs
        · rw [← Option.some.inj hs]
          rfl

theorem toggleRange_none (s : CSet) (a b : Nat) (h : ¬ (a ≤ b ∧ b < 1024)) : s.toggleRange a b true = none := by
  have hm : maxChannels = 1024 := rfl
  unfold CSet.toggleRange
  split
  · rfl
  · rw [if_pos (by omega)]

theorem setMask_upd (s : CSet) (m : BitVec 32) : Upd s (s.setMask m) (maskChans m) := by
  have h1 := C42_operations s (.setMask m)
  exact ⟨Option.some.inj h1, rfl, rfl, fun hr => .apply (.setMask m) hr rfl⟩

theorem chans_setLayout (s : CSet) (l : Layout) (o : Order) (hl : l ≠ .none) :
    ∃ s', s.setLayout l = some s' ∧ (s'.setOrder o).chans = s.chans ∧ (s'.setOrder o).layout = l ∧
      (s'.setOrder o).order = o ∧ (Reach s → Reach (s'.setOrder o)) := by
  have h : s.setLayout l = some { s with layout := l } := by
    unfold CSet.setLayout
    rw [if_neg hl]
  exact ⟨_, h, rfl, rfl, rfl, fun hr => .setOrder o (.setLayout l hr h)⟩

theorem clear_fresh (s : CSet) : s.clear.chans = ∅ ∧ s.clear.layout = .none ∧ s.clear.order = .none := by
  have h1 := C42_operations s .clear
  exact ⟨Option.some.inj h1, rfl, rfl⟩

/-! ## Numbers -/

/-- Value of a digit as in `Spec.value`. -/
def dig (c : Char) : Nat := if c.isDigit then c.toNat - '0'.toNat
      else if c.isLower then 10 + (c.toNat - 'a'.toNat) else 10 + (c.toNat - 'A'.toNat)

theorem value_append (b : Nat) (l : List Char) (c : Char) : value b (l ++ [c]) = value b l * b + dig c := by
  induction l with
  | nil => simp [value, dig]
  | cons x t ih =>
    rw [List.cons_append]
    simp only [value]
    rw [ih, List.length_append, List.length_singleton, pow_succ]
    ring

theorem isDigit_iff (c : Char) : c.isDigit = true ↔ 48 ≤ c.toNat ∧ c.toNat ≤ 57 := by
  unfold Char.isDigit Char.toNat
  simp only [Bool.and_eq_true, decide_eq_true_eq, UInt32.le_iff_toNat_le, ge_iff_le]
  rfl

theorem strtol_eq (l : List Char) (h : ∀ c ∈ l, c.isDigit = true) :
    strtol10 l = min (2 ^ 63 - 1) (value 10 l) := by
  induction l using List.reverseRecOn with
  | nil => simp [strtol10, value]
  | append_singleton t c ih =>
    have h1 := ih (fun x hx => h x (List.mem_append_left _ hx))
    have h2 := h c (List.mem_append_right _ (List.mem_singleton.2 rfl))
    rw [value_append]
    unfold strtol10 at h1 ⊢
    rw [List.foldl_append, h1]
    simp only [List.foldl_cons, List.foldl_nil]
    unfold dig
    rw [if_pos h2]
    have := (isDigit_iff c).1 h2
    have e : '0'.toNat = 48 := rfl
    rw [e]
    omega

theorem strtoul_eq (l : List Char) (h : ∀ c ∈ l, c.isDigit = true) :
    strtoul10 l = min (2 ^ 64 - 1) (value 10 l) := by
  induction l using List.reverseRecOn with
  | nil => simp [strtoul10, value]
  | append_singleton t c ih =>
    have h1 := ih (fun x hx => h x (List.mem_append_left _ hx))
    have h2 := h c (List.mem_append_right _ (List.mem_singleton.2 rfl))
    rw [value_append]
    unfold strtoul10 at h1 ⊢
    rw [List.foldl_append, h1]
    simp only [List.foldl_cons, List.foldl_nil]
    unfold dig
    rw [if_pos h2]
    have := (isDigit_iff c).1 h2
    have e : '0'.toNat = 48 := rfl
    rw [e]
    omega

theorem parseSize_eq (l : List Char) (h : ∀ c ∈ l, c.isDigit = true) :
    parseSize l = if value 10 l < 2 ^ 63 - 1 then some (value 10 l) else none := by
  unfold parseSize
  rw [strtol_eq l h]
  split <;> split
  · omega
  · rfl
  · congr 1
    omega
  · omega

theorem parseTrack_eq (l : List Char) (h : ∀ c ∈ l, c.isDigit = true) :
    parseTrack l = if value 10 l < 1024 then some (value 10 l) else none := by
  unfold parseTrack
  rw [parseSize_eq l h]
  have hm : maxChannels = 1024 := rfl
  by_cases h1 : value 10 l < 1024
  · rw [if_pos (by omega), if_pos h1]
    simp only
    rw [if_neg (by omega)]
  · rw [if_neg h1]
    split
    · rfl
    · rename_i n hn
      split at hn
      · rw [← Option.some.inj hn, if_pos (by omega)]
      · cases hn

/-! ## Tables -/

theorem lookup_mem {α : Type} (l : List Char) (a : α) : ∀ t : List (String × α), lookup l t = some a →
    ∃ s, (s, a) ∈ t ∧ s.toList = l := by
  intro t
  induction t with
  | nil => intro h; cases h
  | cons x t ih =>
    obtain ⟨n, b⟩ := x
    intro h
    unfold lookup at h
    split at h
    · rename_i hn
      rw [Option.some.inj h]
      exact ⟨n, List.mem_cons_self, hn⟩
    · obtain ⟨s, h1, h2⟩ := ih h
      exact ⟨s, List.mem_cons_of_mem _ h1, h2⟩

theorem pos_mem (s : String) (n : Nat) (h : (s, n) ∈ posNames) : positions[n]? = some s ∧ n < 17 := by
  have : ∀ x ∈ posNames, positions[x.2]? = some x.1 ∧ x.2 < 17 := by decide +kernel
  exact this _ h

theorem pos_lt (s : String) (n : Nat) (h : positions[n]? = some s) : n < 17 := by
  rcases Nat.lt_or_ge n 17 with hc | hc
  · exact hc
  · rw [List.getElem?_eq_none (by exact hc)] at h
    cases h

theorem pos_lookup (s : String) (n : Nat) (h : positions[n]? = some s) : lookup s.toList posNames = some n := by
  have key : (List.range 17).all (fun n => (positions[n]?).all fun s => lookup s.toList posNames == some n)
      = true := by decide +kernel
  have := List.all_eq_true.1 key n (List.mem_range.2 (pos_lt s n h))
  rw [h] at this
  simpa using this

theorem table_zip : (maskNames.zip presets).all (fun z => (z.1.1 == z.2.1 && (List.range 32).all fun n =>
    (z.1.2.getLsbD n == (decide (n < 17) && z.2.2.contains positions[n]!)))) = true := by decide +kernel

theorem zip_chans (x : String × BitVec 32) (y : String × List String) (h : (x, y) ∈ maskNames.zip presets) :
    x.1 = y.1 ∧ maskChans x.2 = channelsOf y.2 := by
  have := List.all_eq_true.1 table_zip _ h
  simp only [Bool.and_eq_true, beq_iff_eq] at this
  refine ⟨this.1, ?_⟩
  ext n
  unfold maskChans channelsOf
  rw [Finset.mem_filter, Finset.mem_filter, Finset.mem_range, Finset.mem_range]
  have h2 := fun hn => List.all_eq_true.1 this.2 n (List.mem_range.2 hn)
  constructor
  · rintro ⟨h3, h4⟩
    have h5 := h2 h3
    rw [h4] at h5
    simpa using h5
  · rintro ⟨h3, h4⟩
    have h5 := h2 (by omega)
    refine ⟨by omega, ?_⟩
    have : (decide (n < 17) && y.2.contains positions[n]!) = true := by
      rw [Bool.and_eq_true]
      exact ⟨decide_eq_true h3, List.contains_iff_mem.2 h4⟩
    rw [this] at h5
    simpa using h5

theorem mask_table (x : String × BitVec 32) (h : x ∈ maskNames) :
    ∃ l, (x.1, l) ∈ presets ∧ maskChans x.2 = channelsOf l := by
  obtain ⟨i, hi, e⟩ := List.mem_iff_getElem.1 h
  have hi' : i < presets.length := hi
  have hz : i < (maskNames.zip presets).length := by rw [List.length_zip]; omega
  have hm : (maskNames.zip presets)[i] ∈ maskNames.zip presets := List.getElem_mem hz
  rw [List.getElem_zip, e] at hm
  obtain ⟨h1, h2⟩ := zip_chans _ _ hm
  exact ⟨_, by rw [h1]; exact List.getElem_mem hi', h2⟩

theorem preset_table (s : String) (l : List String) (h : (s, l) ∈ presets) :
    ∃ m, lookup s.toList maskNames = some m ∧ maskChans m = channelsOf l := by
  obtain ⟨i, hi, e⟩ := List.mem_iff_getElem.1 h
  have hi' : i < maskNames.length := hi
  have hz : i < (maskNames.zip presets).length := by rw [List.length_zip]; omega
  have hm : (maskNames.zip presets)[i] ∈ maskNames.zip presets := List.getElem_mem hz
  rw [List.getElem_zip, e] at hm
  obtain ⟨h1, h2⟩ := zip_chans _ _ hm
  refine ⟨_, ?_, h2⟩
  have key : maskNames.all (fun z => lookup z.1.toList maskNames == some z.2) = true := by decide +kernel
  have := List.all_eq_true.1 key _ (List.getElem_mem hi')
  simp only [beq_iff_eq] at this
  rw [← this, h1]

/-! ## Hexadecimal masks -/

theorem isHex_iff (c : Char) : isHex c = true ↔
    (48 ≤ c.toNat ∧ c.toNat ≤ 57) ∨ (97 ≤ c.toNat ∧ c.toNat ≤ 102) ∨ (65 ≤ c.toNat ∧ c.toNat ≤ 70) := by
  unfold isHex
  rw [Bool.or_eq_true, Bool.or_eq_true, Bool.and_eq_true, Bool.and_eq_true, isDigit_iff]
  simp only [decide_eq_true_eq, Char.le_def, UInt32.le_iff_toNat_le]
  rw [or_assoc]
  rfl

theorem toNat_inj {c d : Char} (h : c.toNat = d.toNat) : c = d := Char.ext (UInt32.toNat_inj.1 h)

theorem hexDigit_iff (c : Char) : HexDigit c ↔ isHex c = true := by
  constructor
  · intro h
    have : ∀ c ∈ "0123456789abcdefABCDEF".toList, isHex c = true := by decide
    exact this c h
  · intro h
    rw [isHex_iff] at h
    have key : ∀ k < 128, ((48 ≤ k ∧ k ≤ 57) ∨ (97 ≤ k ∧ k ≤ 102) ∨ (65 ≤ k ∧ k ≤ 70)) →
        Char.ofNat k ∈ "0123456789abcdefABCDEF".toList := by decide +kernel
    have := key c.toNat (by omega) h
    rw [Char.ofNat_toNat] at this
    exact this

theorem hexVal_eq (c : Char) (h : isHex c = true) : hexVal c = dig c ∧ dig c < 16 := by
  rw [isHex_iff] at h
  have key : ∀ k < 128, ((48 ≤ k ∧ k ≤ 57) ∨ (97 ≤ k ∧ k ≤ 102) ∨ (65 ≤ k ∧ k ≤ 70)) →
      hexVal (Char.ofNat k) = dig (Char.ofNat k) ∧ dig (Char.ofNat k) < 16 := by decide +kernel
  have := key c.toNat (by omega) h
  rw [Char.ofNat_toNat] at this
  exact this

theorem bit_iff (n b : Nat) : (n &&& (1 <<< b) ≠ 0) ↔ n.testBit b = true := by
  rw [Nat.one_shiftLeft, Nat.and_two_pow]
  cases n.testBit b <;> simp

/-- The channels that bits of a number select. -/
def hexChans (A : Finset Nat) (m : Nat) : Finset Nat :=
  A ∪ (Finset.range 1024).filter fun n => m.testBit n = true

/-- What a loop over bits does. -/
theorem hexBits_spec (num pos : Nat) : ∀ (bs : List Nat) (s : CSet),
    (∃ s', hexBits s num pos bs = .ok s' ∧ (∀ b ∈ bs, num.testBit b = true → pos + b < 1024) ∧
      ∃ A, Upd s s' A ∧ ∀ n, n ∈ A ↔ n ∈ s.chans ∨ ∃ b ∈ bs, num.testBit b = true ∧ n = pos + b) ∨
    (hexBits s num pos bs = .panic ∧ ∃ b ∈ bs, num.testBit b = true ∧ 1024 ≤ pos + b) := by
  intro bs
  induction bs with
  | nil =>
    intro s
    exact Or.inl ⟨s, rfl, by simp, s.chans, ⟨rfl, rfl, rfl, id⟩, by simp⟩
  | cons b t ih =>
    intro s
    unfold hexBits
    by_cases hb : num &&& (1 <<< b) ≠ 0
    · rw [if_pos hb]
      have hb' := (bit_iff num b).1 hb
      by_cases hlt : pos + b < 1024
      · obtain ⟨s1, h1, u1⟩ := toggle_some s (pos + b) hlt
        rw [h1]
        simp only [ofOption, Out.bind]
        rcases ih s1 with ⟨s', e, hl, A, u, hA⟩ | ⟨e, x, hx, h2⟩
        · refine Or.inl ⟨s', e, ?_, A, ⟨u.chans, u.layout.trans u1.layout, u.order.trans u1.order,
            fun hr => u.reach (u1.reach hr)⟩, ?_⟩
          · intro x hx hxb
            rcases List.mem_cons.1 hx with hx | hx
            · rw [hx]; exact hlt
            · exact hl x hx hxb
          · intro n
            rw [hA, u1.chans, Finset.mem_insert]
            constructor
            · rintro ((h | h) | ⟨x, hx, h⟩)
              · exact Or.inr ⟨b, List.mem_cons_self, hb', h⟩
              · exact Or.inl h
              · exact Or.inr ⟨x, List.mem_cons_of_mem _ hx, h⟩
            · rintro (h | ⟨x, hx, h⟩)
              · exact Or.inl (Or.inr h)
              · rcases List.mem_cons.1 hx with hx | hx
                · rw [hx] at h; exact Or.inl (Or.inl h.2)
                · exact Or.inr ⟨x, hx, h⟩
        · exact Or.inr ⟨e, x, List.mem_cons_of_mem _ hx, h2⟩
      · rw [toggle_none s _ hlt]
        exact Or.inr ⟨rfl, b, List.mem_cons_self, hb', by omega⟩
    · rw [if_neg hb]
      have hb' : ¬ num.testBit b = true := fun h => hb ((bit_iff num b).2 h)
      simp only [Out.bind]
      rcases ih s with ⟨s', e, hl, A, u, hA⟩ | ⟨e, x, hx, h2⟩
      · refine Or.inl ⟨s', e, ?_, A, u, ?_⟩
        · intro x hx hxb
          rcases List.mem_cons.1 hx with hx | hx
          · rw [hx] at hxb; exact absurd hxb hb'
          · exact hl x hx hxb
        · intro n
          rw [hA]
          constructor
          · rintro (h | ⟨x, hx, h⟩)
            · exact Or.inl h
            · exact Or.inr ⟨x, List.mem_cons_of_mem _ hx, h⟩
          · rintro (h | ⟨x, hx, h⟩)
            · exact Or.inl h
            · rcases List.mem_cons.1 hx with hx | hx
              · rw [hx] at h; exact absurd h.1 hb'
              · exact Or.inr ⟨x, hx, h⟩
      · exact Or.inr ⟨e, x, List.mem_cons_of_mem _ hx, h2⟩

/-- Value of digits, the last one first. -/
def valueR : List Char → Nat
  | [] => 0
  | c :: t => dig c + 16 * valueR t

theorem valueR_reverse (l : List Char) : valueR l.reverse = value 16 l := by
  induction l using List.reverseRecOn with
  | nil => rfl
  | append_singleton t c ih =>
    rw [value_append, List.reverse_append]
    simp only [List.reverse_singleton, List.singleton_append, valueR]
    rw [ih]
    ring

theorem testBit_digit (d m k : Nat) (hd : d < 16) :
    (d + 16 * m).testBit k = if k < 4 then d.testBit k else m.testBit (k - 4) := by
  rw [show d + 16 * m = 2 ^ 4 * m + d by omega, Nat.testBit_two_pow_mul_add m (by exact hd)]

theorem hexLoop_spec : ∀ (r : List Char) (s : CSet) (pos : Nat), (∀ c ∈ r, isHex c = true) →
    (∃ s', hexLoop s pos r = .ok s' ∧ (∀ b, (valueR r).testBit b = true → pos + b < 1024) ∧
      ∃ A, Upd s s' A ∧ ∀ n, n ∈ A ↔ n ∈ s.chans ∨ ∃ b, (valueR r).testBit b = true ∧ n = pos + b) ∨
    (hexLoop s pos r = .panic ∧ ∃ b, (valueR r).testBit b = true ∧ 1024 ≤ pos + b) := by
  intro r
  induction r with
  | nil =>
    intro s pos _
    exact Or.inl ⟨s, rfl, by simp [valueR], s.chans, ⟨rfl, rfl, rfl, id⟩, by simp [valueR]⟩
  | cons c t ih =>
    intro s pos h
    obtain ⟨hv, hd⟩ := hexVal_eq c (h c List.mem_cons_self)
    have hmem : ∀ b, b < 4 → b ∈ [0, 1, 2, 3] := by decide
    have hmem' : ∀ b, b ∈ [0, 1, 2, 3] → b < 4 := by decide
    have tb : ∀ k, (valueR (c :: t)).testBit k = if k < 4 then (dig c).testBit k else (valueR t).testBit (k - 4) :=
      fun k => testBit_digit _ _ _ hd
    unfold hexLoop
    rw [hv]
    rcases hexBits_spec (dig c) pos [0, 1, 2, 3] s with ⟨s1, e1, l1, A1, u1, hA1⟩ | ⟨e1, b, hb, h1, h2⟩
    · rw [e1]
      simp only [Out.bind]
      rcases ih s1 (pos + 4) (fun x hx => h x (List.mem_cons_of_mem _ hx)) with ⟨s', e, hl, A, u, hA⟩ | ⟨e, x, hx, h2⟩
      · refine Or.inl ⟨s', e, ?_, A, ⟨u.chans, u.layout.trans u1.layout, u.order.trans u1.order,
            fun hr => u.reach (u1.reach hr)⟩, ?_⟩
        · intro b hb
          rw [tb] at hb
          split at hb
          · rename_i h4
            exact l1 b (hmem b h4) hb
          · have := hl _ hb
            omega
        · intro n
          rw [hA, u1.chans, hA1]
          constructor
          · rintro ((h | ⟨b, hb, h1, h2⟩) | ⟨b, h1, h2⟩)
            · exact Or.inl h
            · refine Or.inr ⟨b, ?_, h2⟩
              rw [tb, if_pos (hmem' b hb)]
              exact h1
            · refine Or.inr ⟨b + 4, ?_, by omega⟩
              rw [tb, if_neg (by omega)]
              exact h1
          · rintro (h | ⟨b, h1, h2⟩)
            · exact Or.inl (Or.inl h)
            · rw [tb] at h1
              split at h1
              · rename_i h4
                exact Or.inl (Or.inr ⟨b, hmem b h4, h1, h2⟩)
              · exact Or.inr ⟨b - 4, h1, by omega⟩
      · refine Or.inr ⟨e, x + 4, ?_, by omega⟩
        rw [tb, if_neg (by omega)]
        exact hx
    · rw [e1]
      refine Or.inr ⟨rfl, b, ?_, h2⟩
      rw [tb, if_pos (hmem' b hb)]
      exact h1

theorem parseMask_spec (s : CSet) (l : List Char) (h : ∀ c ∈ l, isHex c = true) :
    (value 16 l < 2 ^ 1024 ∧ ∃ s', parseMask s l = .ok s' ∧ Upd s s' (hexChans s.chans (value 16 l))) ∨
    (2 ^ 1024 ≤ value 16 l ∧ parseMask s l = .panic) := by
  unfold parseMask
  rcases hexLoop_spec l.reverse s 0 (fun c hc => h c (List.mem_reverse.1 hc)) with ⟨s', e, hl, A, u, hA⟩ | ⟨e, b, hb, h2⟩
  · rw [valueR_reverse] at hl hA
    refine Or.inl ⟨?_, s', e, ?_⟩
    · apply Nat.lt_of_testBit 1024
      · by_contra hc
        rw [Bool.not_eq_false] at hc
        have := hl _ hc
        omega
      · exact Nat.testBit_two_pow_self
      · intro j hj
        rw [Nat.testBit_two_pow_of_ne (by omega)]
        by_contra hc
        rw [Bool.not_eq_false] at hc
        have := hl _ hc
        omega
    · have : A = hexChans s.chans (value 16 l) := by
        ext n
        unfold hexChans
        rw [hA, Finset.mem_union, Finset.mem_filter, Finset.mem_range]
        constructor
        · rintro (h | ⟨b, h1, h2⟩)
          · exact Or.inl h
          · have := hl b h1
            rw [h2, Nat.zero_add]
            exact Or.inr ⟨by omega, h1⟩
        · rintro (h | ⟨h1, h2⟩)
          · exact Or.inl h
          · exact Or.inr ⟨n, h2, by omega⟩
      rw [← this]
      exact u
  · rw [valueR_reverse] at hb
    rw [Nat.zero_add] at h2
    refine Or.inr ⟨?_, e⟩
    have := Nat.ge_two_pow_of_testBit hb
    exact (Nat.pow_le_pow_right (by omega) h2).trans this

end Verif.SpecParse
