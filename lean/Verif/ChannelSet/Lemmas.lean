import Verif.ChannelSet.Spec
import Mathlib.Tactic.Tauto
import Mathlib.Tactic.SplitIfs

/-! # Lemmas on channel set words and the channel index -/

namespace Verif.ChannelSet

theorem bitSet_eq (w : BitVec 64) (b : Nat) (hb : b < 64) : bitSet w b = w.getLsbD b := by
  unfold bitSet
  by_cases h : w.getLsbD b = true
  · rw [h]
    simp only [bne_iff_ne, ne_eq]
    intro h0
    have := congrArg (fun x => BitVec.getLsbD x b) h0
    simp [hb] at this
    rw [BitVec.getLsbD_eq_getElem hb, this] at h
    exact absurd h (by simp)
  · have hf : w.getLsbD b = false := by simpa using h
    rw [hf]
    simp only [bne_eq_false_iff_eq]
    apply BitVec.eq_of_getLsbD_eq
    intro i hi
    simp only [BitVec.getLsbD_and, BitVec.getLsbD_shiftLeft, BitVec.getLsbD_one]
    by_cases hib : i = b
    · subst hib; simp [hf]
    · by_cases hlt : i < b
      · simp [hlt]
      · have : i - b ≠ 0 := by omega
        simp [this]

/-- Membership at the level of words. -/
def has (ws : Words) (n : Nat) : Bool := (ws (n / 64)).getLsbD (n % 64)

theorem has_setBit (ws : Words) (n k : Nat) :
    has (setBit ws n) k = (has ws k || decide (k = n)) := by
  unfold has setBit wordBits
  have hk : k % 64 < 64 := Nat.mod_lt _ (by decide)
  have hn : n % 64 < 64 := Nat.mod_lt _ (by decide)
  by_cases h : k / 64 = n / 64
  · rw [if_pos h]
    simp only [BitVec.getLsbD_or, BitVec.getLsbD_shiftLeft, BitVec.getLsbD_one]
    by_cases hm : k % 64 = n % 64
    · have : k = n := by omega
      subst this
      simp [hk]
    · have hkn : ¬ k = n := by rintro rfl; exact hm rfl
      by_cases hlt : k % 64 < n % 64
      · simp [hlt, hkn]
      · have : k % 64 - n % 64 ≠ 0 := by omega
        simp [this, hkn]
  · rw [if_neg h]
    have hkn : ¬ k = n := by rintro rfl; exact h rfl
    simp [hkn]

theorem has_clearBit (ws : Words) (n k : Nat) :
    has (clearBit ws n) k = (has ws k && !decide (k = n)) := by
  unfold has clearBit wordBits
  have hk : k % 64 < 64 := Nat.mod_lt _ (by decide)
  by_cases h : k / 64 = n / 64
  · rw [if_pos h]
    simp only [BitVec.getLsbD_and, BitVec.getLsbD_not, BitVec.getLsbD_shiftLeft, BitVec.getLsbD_one]
    by_cases hm : k % 64 = n % 64
    · have : k = n := by omega
      subst this
      simp [hk]
    · have hkn : ¬ k = n := by rintro rfl; exact hm rfl
      by_cases hlt : k % 64 < n % 64
      · simp [hlt, hkn, hk]
      · have : k % 64 - n % 64 ≠ 0 := by omega
        simp [this, hkn, hk]
  · rw [if_neg h]
    have hkn : ¬ k = n := by rintro rfl; exact h rfl
    simp [hkn]

theorem has_foldl_setBit (l : List Nat) (ws : Words) (k : Nat) :
    has (l.foldl setBit ws) k = (has ws k || decide (k ∈ l)) := by
  induction l generalizing ws with
  | nil => simp
  | cons a l ih =>
    rw [List.foldl_cons, ih, has_setBit]
    by_cases h : k = a <;> simp [h]

theorem has_foldl_clearBit (l : List Nat) (ws : Words) (k : Nat) :
    has (l.foldl clearBit ws) k = (has ws k && !decide (k ∈ l)) := by
  induction l generalizing ws with
  | nil => simp
  | cons a l ih =>
    rw [List.foldl_cons, ih, has_clearBit]
    by_cases h : k = a <;> simp [h]

theorem has_mask (m : BitVec 32) (k : Nat) :
    has (maskWords m) k = (decide (k < 32) && m.getLsbD k) := by
  unfold has maskWords
  by_cases h : k / 64 = 0
  · rw [if_pos h]
    have h1 : k % 64 = k := by omega
    have h2 : k < 64 := by omega
    rw [h1]
    by_cases h3 : k < 32
    · simp [h2, h3]
    · simp [BitVec.getLsbD_setWidth, h3, BitVec.getLsbD_of_ge m k (by omega)]
  · rw [if_neg h]
    have : ¬ k < 32 := by omega
    simp [this]

/-! ## The index -/

/-- What `index_chans_` has established after looking at the first `k` channels. -/
structure IdxInv (P : Nat → Bool) (k : Nat) (i : Idx) : Prop where
  nch : i.nch = k
  num : i.num = ((Finset.range k).filter fun n => P n = true).card
  hf : i.hasFirst = true ↔ ∃ n, n < k ∧ P n = true
  first : i.hasFirst = true → P i.first = true ∧ i.first < k ∧ ∀ n, n < k → P n = true → i.first ≤ n
  last : i.hasFirst = true → P i.last = true ∧ i.last < k ∧ ∀ n, n < k → P n = true → n ≤ i.last
  zero : i.hasFirst = false → i.first = 0 ∧ i.last = 0

theorem IdxInv.step_bit {P : Nat → Bool} {k : Nat} {i : Idx} (h : IdxInv P k i) (w : BitVec 64) (b : Nat)
    (hP : bitSet w b = P k) : IdxInv P (k + 1) (idxBit w i b) := by
  unfold idxBit
  rw [hP]
  have hr : (Finset.range (k + 1)).filter (fun n => P n = true)
      = if P k = true then insert k ((Finset.range k).filter fun n => P n = true)
        else (Finset.range k).filter fun n => P n = true := by
    rw [Finset.range_add_one, Finset.filter_insert]
  have hnot : k ∉ (Finset.range k).filter fun n => P n = true := by simp
  cases hk : P k with
  | true =>
    rw [hk, if_pos rfl] at hr
    simp only [if_true]
    refine ⟨by simp [h.nch], ?_, ?_, ?_, ?_, ?_⟩
    · rw [hr, Finset.card_insert_of_notMem hnot, h.num]
    · simp only [true_iff]
      exact ⟨k, by omega, hk⟩
    · intro _
      cases hf : i.hasFirst with
      | true =>
        simp only [if_true]
        obtain ⟨h1, h2, h3⟩ := h.first hf
        refine ⟨h1, by omega, ?_⟩
        intro n hn hPn
        rcases Nat.lt_succ_iff_lt_or_eq.1 hn with hlt | heq
        · exact h3 n hlt hPn
        · omega
      | false =>
        have hnone : ¬ ∃ n, n < k ∧ P n = true := by
          rw [← h.hf, hf]; simp
        simp only [Bool.false_eq_true, if_false]
        rw [h.nch]
        refine ⟨hk, by omega, ?_⟩
        intro n hn hPn
        by_contra hlt
        exact hnone ⟨n, by omega, hPn⟩
    · intro _
      simp only [h.nch]
      exact ⟨hk, by omega, fun n hn _ => by omega⟩
    · intro hc; simp at hc
  | false =>
    rw [hk] at hr
    simp only [Bool.false_eq_true, if_false] at hr ⊢
    have hlt : ∀ n, n < k + 1 → P n = true → n < k := by
      intro n hn hPn
      by_contra hc
      have : n = k := by omega
      rw [this, hk] at hPn
      exact absurd hPn (by simp)
    refine ⟨by simp [h.nch], by rw [hr]; exact h.num, ?_, ?_, ?_, h.zero⟩
    · rw [h.hf]
      constructor
      · rintro ⟨n, hn, hp⟩; exact ⟨n, by omega, hp⟩
      · rintro ⟨n, hn, hp⟩; exact ⟨n, hlt n hn hp, hp⟩
    · intro hf
      obtain ⟨h1, h2, h3⟩ := h.first hf
      exact ⟨h1, by simp only; omega, fun n hn hp => h3 n (hlt n hn hp) hp⟩
    · intro hf
      obtain ⟨h1, h2, h3⟩ := h.last hf
      exact ⟨h1, by simp only; omega, fun n hn hp => h3 n (hlt n hn hp) hp⟩

theorem IdxInv.skip {P : Nat → Bool} {k : Nat} {i : Idx} (h : IdxInv P k i) (m : Nat)
    (hP : ∀ n, k ≤ n → n < k + m → P n = false) : IdxInv P (k + m) { i with nch := i.nch + m } := by
  have hlt : ∀ n, n < k + m → P n = true → n < k := by
    intro n hn hp
    by_contra hc
    rw [hP n (by omega) hn] at hp
    exact absurd hp (by simp)
  have hs : (Finset.range (k + m)).filter (fun n => P n = true) = (Finset.range k).filter fun n => P n = true := by
    ext n
    simp only [Finset.mem_filter, Finset.mem_range]
    constructor
    · rintro ⟨a, b⟩; exact ⟨hlt n a b, b⟩
    · rintro ⟨a, b⟩; exact ⟨by omega, b⟩
  refine ⟨by simp [h.nch], by rw [hs]; exact h.num, ?_, ?_, ?_, h.zero⟩
  · rw [h.hf]
    constructor
    · rintro ⟨n, hn, hp⟩; exact ⟨n, by omega, hp⟩
    · rintro ⟨n, hn, hp⟩; exact ⟨n, hlt n hn hp, hp⟩
  · intro hf
    obtain ⟨h1, h2, h3⟩ := h.first hf
    exact ⟨h1, by simp only; omega, fun n hn hp => h3 n (hlt n hn hp) hp⟩
  · intro hf
    obtain ⟨h1, h2, h3⟩ := h.last hf
    exact ⟨h1, by simp only; omega, fun n hn hp => h3 n (hlt n hn hp) hp⟩

theorem idxWord_inv (ws : Words) (w : Nat) {i : Idx} (h : IdxInv (has ws) (64 * w) i) :
    IdxInv (has ws) (64 * (w + 1)) (idxWord ws i w) := by
  unfold idxWord wordBits
  by_cases h0 : ws w ≠ 0
  · rw [if_pos h0]
    have : ∀ b, b ≤ 64 → IdxInv (has ws) (64 * w + b) ((List.range b).foldl (idxBit (ws w)) i) := by
      intro b
      induction b with
      | zero => intro _; simpa using h
      | succ b ih =>
        intro hb
        rw [List.range_succ, List.foldl_append]
        refine (ih (by omega)).step_bit (ws w) b ?_
        rw [bitSet_eq _ _ (by omega)]
        unfold has
        rw [show (64 * w + b) / 64 = w by omega, show (64 * w + b) % 64 = b by omega]
    have := this 64 (by omega)
    rwa [show 64 * (w + 1) = 64 * w + 64 by omega]
  · rw [if_neg h0]
    rw [show 64 * (w + 1) = 64 * w + 64 by omega]
    refine h.skip 64 ?_
    intro n h1 h2
    unfold has
    rw [show n / 64 = w by omega]
    have : ws w = 0 := by simpa using h0
    rw [this]; simp

theorem indexWords_inv (ws : Words) : IdxInv (has ws) 1024 (indexWords ws) := by
  unfold indexWords numWords
  have : ∀ w, IdxInv (has ws) (64 * w) ((List.range w).foldl (idxWord ws) ⟨0, 0, 0, false, 0⟩) := by
    intro w
    induction w with
    | zero =>
      exact ⟨rfl, by simp, by simp, fun h => by simp at h, fun h => by simp at h, fun _ => ⟨rfl, rfl⟩⟩
    | succ w ih =>
      rw [List.range_succ, List.foldl_append]
      exact idxWord_inv ws w ih
  exact this 16

/-- The object is indexed: its counters were computed from its current words. -/
def Indexed (s : CSet) : Prop :=
  s.num = (indexWords s.words).num ∧ s.first = (indexWords s.words).first ∧
    s.last = (indexWords s.words).last

theorem indexed_index (s : CSet) : Indexed s.index := ⟨rfl, rfl, rfl⟩

theorem hasChannel_eq (s : CSet) (n : Nat) (h : n < 1024) : s.hasChannel n = some (has s.words n) := by
  unfold CSet.hasChannel maxChannels wordBits has
  rw [if_neg (by omega), bitSet_eq _ _ (Nat.mod_lt _ (by decide))]

theorem mem_chans (s : CSet) (n : Nat) : n ∈ s.chans ↔ n < 1024 ∧ has s.words n = true := by
  unfold CSet.chans
  simp only [Finset.mem_filter, Finset.mem_range]
  constructor
  · rintro ⟨a, b⟩; rw [hasChannel_eq s n a] at b; exact ⟨a, by simpa using b⟩
  · rintro ⟨a, b⟩; rw [hasChannel_eq s n a, b]; exact ⟨a, rfl⟩

theorem chans_eq (s : CSet) : s.chans = (Finset.range 1024).filter fun n => has s.words n = true := by
  ext n; rw [mem_chans]; simp

theorem chans_index (s : CSet) : s.index.chans = s.chans := by
  rw [chans_eq, chans_eq]; rfl

theorem reach_indexed {s : CSet} (h : Reach s) : Indexed s := by
  induction h with
  | empty => exact indexed_index _
  | @make l o m s hm =>
    unfold CSet.make at hm
    split_ifs at hm
    all_goals (simp only [Option.some.injEq] at hm; subst hm; exact indexed_index _)
  | @apply s s' op _ ha ih =>
    cases op with
    | setMask m => simp only [CSet.apply, Option.some.injEq] at ha; subst ha; exact indexed_index _
    | setRange a b =>
      simp only [CSet.apply, CSet.setRange] at ha
      split_ifs at ha
      simp only [Option.some.injEq] at ha; subst ha; exact indexed_index _
    | setCount n =>
      simp only [CSet.apply, CSet.setCount] at ha
      split_ifs at ha
      split at ha
      all_goals first
        | (simp only [Option.some.injEq] at ha; subst ha; exact indexed_index _)
        | (simp only [CSet.setRange] at ha
           split_ifs at ha
           simp only [Option.some.injEq] at ha; subst ha; exact indexed_index _)
    | toggle n e =>
      simp only [CSet.apply, CSet.toggle] at ha
      split_ifs at ha
      all_goals (simp only [Option.some.injEq] at ha; subst ha; exact indexed_index _)
    | toggleRange a b e =>
      simp only [CSet.apply, CSet.toggleRange] at ha
      split_ifs at ha
      all_goals (simp only [Option.some.injEq] at ha; subst ha; exact indexed_index _)
    | and o => simp only [CSet.apply, Option.some.injEq] at ha; subst ha; exact indexed_index _
    | or o => simp only [CSet.apply, Option.some.injEq] at ha; subst ha; exact indexed_index _
    | xor o => simp only [CSet.apply, Option.some.injEq] at ha; subst ha; exact indexed_index _
    | clear => simp only [CSet.apply, Option.some.injEq] at ha; subst ha; exact indexed_index _
  | @setLayout s s' l _ ha ih =>
    unfold CSet.setLayout at ha
    split_ifs at ha
    simp only [Option.some.injEq] at ha; subst ha; exact ih
  | setOrder o _ ih => exact ih

end Verif.ChannelSet
