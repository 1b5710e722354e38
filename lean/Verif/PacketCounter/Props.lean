import Verif.PacketCounter.Spec
import Verif.Units.Lemmas

/-! # C11: RTCP packet counter -/

namespace Verif.PacketCounter

open Verif.Units

theorem toNat32 (x : Int) : ((BitVec.ofInt 32 x).toNat : Int) = x % 4294967296 := by
  rw [BitVec.toNat_ofInt]
  have := Int.emod_nonneg x (by decide : (4294967296 : Int) ≠ 0)
  simp only [Nat.reducePow, Int.cast_ofNat_Int]
  omega

/-- The state after at least one report with beginning `b`, when the newest end is `m`. -/
structure Tracks (s : State) (b m : Int) : Prop where
  notFirst : s.first = false
  begin_ : (s.begin64.toNat : Int) = b
  lo : s.lo = BitVec.ofInt 32 m
  hi : (s.hi.toNat : Int) = 4294967295 * (m / 4294967296)

/-- Reported ends are far from overflowing the 64-bit arithmetic. -/
def bound : Int := 2 ^ 62

theorem update_tracks {s : State} {b m : Int} (h : Tracks s b m) (hb : 0 ≤ b ∧ b < 2 ^ 32)
    (hbm : b ≤ m) (e : Int) (hw : -(2 ^ 31) < e - m ∧ e - m < 2 ^ 31) (he : e < bound) (hm : m < bound)
    (hcnt : b ≤ max m e - max m e / 4294967296) :
    let s' := s.update (BitVec.ofInt 32 b) (BitVec.ofInt 32 e)
    Tracks s' b (max m e) ∧
      (s'.counter.toNat : Int) = max m e - max m e / 4294967296 - b := by
  unfold bound at *
  intro s'
  have hs' : s' = s.update (BitVec.ofInt 32 b) (BitVec.ofInt 32 e) := rfl
  have hbn := toNat32 b
  have hreset : s.reset (BitVec.ofInt 32 b) (BitVec.ofInt 32 e) = s := by
    unfold State.reset
    rw [if_neg]
    rw [h.notFirst]
    simp only [Bool.false_eq_true, ne_eq, false_or, Decidable.not_not]
    apply BitVec.eq_of_toNat_eq
    rw [BitVec.toNat_setWidth]
    have := h.begin_
    omega
  have hd : (BitVec.ofInt 32 e - s.lo).toInt = e - m := by
    rw [h.lo]; exact diff32 e m (by omega)
  have hhi := h.hi
  have hadv : Tracks (s.advance (BitVec.ofInt 32 e)) b (max m e) := by
    unfold State.advance
    rw [hd]
    by_cases hgt : e - m > 0
    · have hmax : max m e = e := by omega
      rw [if_pos hgt, hmax]
      refine ⟨h.notFirst, h.begin_, rfl, ?_⟩
      have hlt : BitVec.ofInt 32 e < s.lo ↔ e % 4294967296 < m % 4294967296 := by
        rw [BitVec.lt_def, h.lo]
        have := toNat32 e
        have := toNat32 m
        omega
      dsimp only
      by_cases hwrap : e % 4294967296 < m % 4294967296
      · rw [if_pos (hlt.mpr hwrap), BitVec.toNat_add]
        have hc : (4294967295#64).toNat = 4294967295 := by decide
        rw [hc]
        omega
      · rw [if_neg (fun hc => hwrap (hlt.mp hc))]
        omega
    · have hmax : max m e = m := by omega
      rw [if_neg hgt, hmax]
      exact h
  rw [hs']
  unfold State.update
  rw [hreset]
  generalize s.advance (BitVec.ofInt 32 e) = t at *
  have hM : max m e < 2 ^ 62 := by omega
  have hbM : b ≤ max m e := by omega
  generalize max m e = M at *
  have hsum : ((t.hi + t.lo.setWidth 64).toNat : Int) = M - M / 4294967296 := by
    rw [BitVec.toNat_add, BitVec.toNat_setWidth, hadv.lo]
    have h1 := toNat32 M
    have h2 := hadv.hi
    omega
  have hle : t.begin64 ≤ t.hi + t.lo.setWidth 64 := by
    rw [BitVec.le_def]
    have := hadv.begin_
    omega
  simp only
  rw [if_pos hle]
  refine ⟨⟨hadv.notFirst, hadv.begin_, hadv.lo, hadv.hi⟩, ?_⟩
  dsimp only
  rw [BitVec.toNat_sub_of_le hle]
  have := hadv.begin_
  rw [BitVec.le_def] at hle
  omega

theorem first_tracks {s : State} {b e : Int} (hs : s.first = true ∨ (s.begin64.toNat : Int) ≠ b)
    (hb : 0 ≤ b ∧ b ≤ e ∧ e < 2 ^ 32) :
    let s' := s.update (BitVec.ofInt 32 b) (BitVec.ofInt 32 e)
    Tracks s' b e ∧ (s'.counter.toNat : Int) = e - b := by
  intro s'
  have hs' : s' = s.update (BitVec.ofInt 32 b) (BitVec.ofInt 32 e) := rfl
  have hbn := toNat32 b
  have hen := toNat32 e
  have hreset : s.reset (BitVec.ofInt 32 b) (BitVec.ofInt 32 e) =
      { s with begin64 := (BitVec.ofInt 32 b).setWidth 64, hi := 0, lo := BitVec.ofInt 32 e,
               first := false } := by
    unfold State.reset
    rw [if_pos]
    rcases hs with hs | hs
    · exact Or.inl hs
    · right
      intro hc
      apply hs
      rw [← hc, BitVec.toNat_setWidth]
      omega
  rw [hs']
  unfold State.update
  rw [hreset]
  have hadv : ∀ t : State, t.lo = BitVec.ofInt 32 e → t.advance (BitVec.ofInt 32 e) = t := by
    intro t ht
    unfold State.advance
    rw [if_neg]
    simp [ht]
  rw [hadv _ rfl]
  have h00 : ∀ x : BitVec 64, (0 : BitVec 64) + x = x := fun x => BitVec.zero_add x
  have hle : (BitVec.ofInt 32 b).setWidth 64 ≤ (0 : BitVec 64) + (BitVec.ofInt 32 e).setWidth 64 := by
    rw [BitVec.le_def, h00, BitVec.toNat_setWidth, BitVec.toNat_setWidth]
    omega
  simp only
  rw [if_pos hle]
  refine ⟨⟨rfl, ?_, rfl, ?_⟩, ?_⟩
  · dsimp only; rw [BitVec.toNat_setWidth]; omega
  · dsimp only
    have : e / 4294967296 = 0 := by omega
    rw [this]; rfl
  · dsimp only
    rw [BitVec.toNat_sub_of_le hle, h00, BitVec.toNat_setWidth, BitVec.toNat_setWidth]
    omega

theorem report_tracks (es : List Int) : ∀ (s : State) (b m : Int), Tracks s b m →
    (s.counter.toNat : Int) = m - m / 4294967296 - b →
    0 ≤ b ∧ b < 2 ^ 32 → b ≤ m → b ≤ m - m / 4294967296 → m < bound → InWindow m es → (∀ e ∈ es, e < bound) →
    ((report s b es).counter.toNat : Int) = highest m es - highest m es / 4294967296 - b := by
  induction es with
  | nil => intro s b m _ hc _ _ _ _ _ _; exact hc
  | cons e es ih =>
    intro s b m h hc hb hbm' hbm hm hw he
    have hmono : m - m / 4294967296 ≤ max m e - max m e / 4294967296 := by
      have : m ≤ max m e := by omega
      generalize max m e = M at *
      omega
    have hu := update_tracks h hb hbm' e hw.1 (he e (by simp)) hm (by omega)
    exact ih _ b (max m e) hu.1 hu.2 hb (by omega) (by omega)
      (by have := he e (by simp); omega) hw.2 (fun x hx => he x (by simp [hx]))

/-- **C11** (partial: exact description). For every series of reports with one beginning, ends
within half of the 32-bit range of the newest one, any number of wraps, the count is the true
number of packets *minus the number of wraps* (each wrap counted as 2^32 - 1).
Missing from the property: the exact count after a wrap (`C11_wrap_fails`), and the case when the
counter wrapped between begin and the first reported end (`C11_wrapped_begin_fails`). -/
theorem C11_count_partial (b e0 : Int) (es : List Int) (hb : 0 ≤ b ∧ b ≤ e0 ∧ e0 < 2 ^ 32)
    (hw : InWindow e0 es) (he : ∀ e ∈ es, e < bound) :
    ((report State.init b (e0 :: es)).counter.toNat : Int) =
      (highest e0 es - b) - highest e0 es / 2 ^ 32 := by
  have h1 := first_tracks (s := State.init) (b := b) (e := e0) (Or.inl rfl) hb
  have h0 : e0 / 4294967296 = 0 := by omega
  have h2 := report_tracks es _ b e0 h1.1 (by rw [h0]; rw [h1.2]; omega) (by omega) (by omega) (by omega)
    (by unfold bound; omega) hw he
  have hr : report State.init b (e0 :: es) =
      report (State.init.update (BitVec.ofInt 32 b) (BitVec.ofInt 32 e0)) b es := rfl
  rw [hr, h2]
  simp only [Int.reducePow]
  omega

/-- **C11** (partial: series without a wrap of the 32-bit number). The count is exact. -/
theorem C11_count_no_wrap_partial (b e0 : Int) (es : List Int) (hb : 0 ≤ b ∧ b ≤ e0 ∧ e0 < 2 ^ 32)
    (hw : InWindow e0 es) (he : ∀ e ∈ es, e < bound) (hm : 0 ≤ highest e0 es ∧ highest e0 es < 2 ^ 32) :
    ((report State.init b (e0 :: es)).counter.toNat : Int) = highest e0 es - b := by
  rw [C11_count_partial b e0 es hb hw he]
  have : highest e0 es / 2 ^ 32 = 0 := by omega
  omega

/-- A change of the beginning restarts counting from the new range, whatever was counted
before. -/
theorem C11_new_begin (s : State) (b e : Int) (hs : (s.begin64.toNat : Int) ≠ b)
    (hb : 0 ≤ b ∧ b ≤ e ∧ e < 2 ^ 32) :
    ((s.update (BitVec.ofInt 32 b) (BitVec.ofInt 32 e)).counter.toNat : Int) = e - b :=
  (first_tracks (Or.inr hs) hb).2

/-- **C11 fails** at the first wrap: the range grows from 2^32-1..2^32-1 to 2^32-1..2^32, i.e. by
one packet, but the count stays 0. -/
theorem C11_wrap_fails :
    (report State.init (2 ^ 32 - 1) [2 ^ 32 - 1, 2 ^ 32]).counter = 0#64 := by decide

/-- **C11 fails** when the number wrapped before the first report: 15 packets, count 0. -/
theorem C11_wrapped_begin_fails :
    (report State.init (2 ^ 32 - 10) [2 ^ 32 + 5]).counter = 0#64 := by decide

example : InWindow 4294967290 [4294967295, 4294967293, 4294967310] := by decide
example := C11_count_partial 4294967000 4294967290 [4294967295, 4294967293, 4294967310]
  (by decide) (by decide) (by decide)
example := C11_count_no_wrap_partial 10 20 [30, 25, 70] (by decide) (by decide) (by decide) (by decide)
example := C11_new_begin (report State.init 10 [20]) 15 40 (by decide) (by decide)

end Verif.PacketCounter
