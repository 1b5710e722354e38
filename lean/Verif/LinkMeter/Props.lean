import Verif.LinkMeter.Spec
import Verif.Units.Lemmas

/-! # C10: extended sequence numbers -/

namespace Verif.LinkMeter

open Verif.Units

theorem sn_toNat (x : Int) : ((BitVec.ofInt 16 x).toNat : Int) = x % 65536 := by
  rw [BitVec.toNat_ofInt]
  have := Int.emod_nonneg x (by decide : (65536 : Int) ≠ 0)
  simp only [Nat.reducePow, Int.cast_ofNat_Int]
  omega

/-- State invariant: the low part is the newest position, and the high part is 65535 for each
wrap. -/
structure Tracks (s : State) (m : Int) : Prop where
  notFirst : s.firstPacket = false
  lo : s.lastLo = BitVec.ofInt 16 m
  hi : s.lastHi = BitVec.ofInt 32 (65535 * (m / 65536))

theorem tracks_update {s : State} {m : Int} (h : Tracks s m) (x : Int)
    (hw : -(2 ^ 15) < x - m ∧ x - m < 2 ^ 15) :
    Tracks (s.update (BitVec.ofInt 16 x)) (max m x) := by
  have hd : snDiff (BitVec.ofInt 16 x) s.lastLo = x - m := by
    unfold snDiff; rw [h.lo]; exact diff16 x m (by omega)
  unfold State.update
  rw [h.notFirst, hd]
  by_cases hgt : x - m > 0
  · have hmax : max m x = x := by omega
    rw [if_pos (Or.inr hgt), hmax]
    refine ⟨rfl, rfl, ?_⟩
    have hlt : BitVec.ofInt 16 x < s.lastLo ↔ x % 65536 < m % 65536 := by
      rw [BitVec.lt_def, h.lo]
      have := sn_toNat x
      have := sn_toNat m
      omega
    dsimp only
    by_cases hwrap : x % 65536 < m % 65536
    · rw [if_pos (hlt.mpr hwrap), h.hi]
      have : x / 65536 = m / 65536 + 1 := by omega
      rw [this, Int.mul_add, BitVec.ofInt_add]
      rfl
    · rw [if_neg (fun hc => hwrap (hlt.mp hc)), h.hi]
      have : x / 65536 = m / 65536 := by omega
      rw [this]
  · have hmax : max m x = m := by omega
    rw [if_neg (by simp; omega), hmax]
    exact ⟨rfl, h.lo, h.hi⟩

theorem tracks_first (x0 : Int) (h0 : 0 ≤ x0 ∧ x0 < 2 ^ 16) :
    Tracks (State.init.update (BitVec.ofInt 16 x0)) x0 := by
  unfold State.update
  have hfp : State.init.firstPacket = true := rfl
  rw [if_pos (Or.inl hfp)]
  refine ⟨rfl, rfl, ?_⟩
  have h1 : ¬ (BitVec.ofInt 16 x0 < State.init.lastLo) := by
    simp [State.init]
  dsimp only
  rw [if_neg h1]
  have h2 : x0 / 65536 = 0 := by omega
  rw [h2]; rfl

theorem tracks_fold (xs : List Int) : ∀ (s : State) (m : Int), Tracks s m → InWindow m xs →
    Tracks (xs.foldl (fun s x => s.update (BitVec.ofInt 16 x)) s) (highest m xs) := by
  induction xs with
  | nil => intro s m h _; exact h
  | cons x xs ih =>
    intro s m h hw
    exact ih _ _ (tracks_update h x hw.1) hw.2

/-- **C10** (partial, exact description of what is reported). For every arrival order inside the
half-range window and any number of wraps, the reported extended highest sequence number is
the true one *minus the number of wraps* (each wrap is counted as 65535 instead of 65536).
Missing from the property: the value is not the true one after a wrap
(`C10_wrap_fails`), and cumulative loss is not computed at all (link_meter.cpp:122-125). -/
theorem C10_ext_last_partial (x0 : Int) (xs : List Int) (h0 : 0 ≤ x0 ∧ x0 < 2 ^ 16)
    (hw : InWindow x0 xs) :
    (receive x0 xs).extLast =
      BitVec.ofInt 32 (highest x0 xs - highest x0 xs / 2 ^ 16) := by
  have ht : Tracks (receive x0 xs) (highest x0 xs) := tracks_fold xs _ _ (tracks_first x0 h0) hw
  generalize highest x0 xs = m at *
  unfold State.extLast
  rw [ht.lo, ht.hi]
  apply BitVec.eq_of_toNat_eq
  have := sn_toNat m
  rw [BitVec.toNat_add, BitVec.toNat_setWidth]
  generalize (BitVec.ofInt 16 m).toNat = l at *
  simp only [BitVec.toNat_ofInt, Nat.reducePow, Int.cast_ofNat_Int, Int.reducePow] at *
  omega

/-- **C10** (partial: before the first wrap). Then the reported extended highest sequence number
is the true one. -/
theorem C10_ext_last_no_wrap_partial (x0 : Int) (xs : List Int) (h0 : 0 ≤ x0 ∧ x0 < 2 ^ 16)
    (hw : InWindow x0 xs) (hm : highest x0 xs < 2 ^ 16) :
    ((receive x0 xs).extLast.toNat : Int) = highest x0 xs := by
  rw [C10_ext_last_partial x0 xs h0 hw]
  have hge : ∀ (l : List Int) (m : Int), m ≤ highest m l := by
    intro l
    induction l with
    | nil => intro m; exact Int.le_refl m
    | cons y l ih => intro m; have := ih (max m y); simp only [highest, List.foldl_cons] at *; omega
  have hx := hge xs x0
  generalize highest x0 xs = m at *
  have : m / 2 ^ 16 = 0 := by omega
  rw [this, BitVec.toNat_ofInt]
  simp only [Nat.reducePow, Int.cast_ofNat_Int]
  omega

/-- **C10 fails**: packets 65535 and 65536 in order, one wrap; the reported number is 65535
although the newest packet is 65536. -/
theorem C10_wrap_fails : (receive 65535 [65536]).extLast = 65535#32 := by decide

/-- Invariant for the lowest number: before any wrap it is tracked exactly. -/
theorem first_fold (xs : List Int) : ∀ (s : State) (m lo : Int), Tracks s m →
    s.firstSn = BitVec.ofInt 16 lo → lo ≤ m → 0 ≤ lo →
    (∀ x ∈ xs, 0 ≤ x ∧ x < 2 ^ 16 ∧ -(2 ^ 15) < x - m ∧ x - m < 2 ^ 15 ∧
      -(2 ^ 15) < x - lo ∧ x - lo < 2 ^ 15 ∧ ∀ y ∈ xs, -(2 ^ 15) < x - y ∧ x - y < 2 ^ 15) →
    m < 2 ^ 16 →
    (xs.foldl (fun s x => s.update (BitVec.ofInt 16 x)) s).firstSn =
      BitVec.ofInt 16 (lowest lo xs) := by
  induction xs with
  | nil => intro s m lo _ h _ _ _ _; exact h
  | cons x xs ih =>
    intro s m lo ht hf hle hpos hx hm
    have hx0 := hx x (by simp)
    have htu := tracks_update ht x ⟨hx0.2.2.1, hx0.2.2.2.1⟩
    have hhi : s.lastHi = 0 := by
      rw [ht.hi]
      have : m / 65536 = 0 := by omega
      rw [this]; rfl
    have hd : snDiff (BitVec.ofInt 16 x) s.firstSn = x - lo := by
      unfold snDiff; rw [hf]; exact diff16 x lo (by omega)
    have hfirst : (s.update (BitVec.ofInt 16 x)).firstSn = BitVec.ofInt 16 (min lo x) := by
      have : (s.update (BitVec.ofInt 16 x)).firstSn =
          if (s.firstPacket ∨ snDiff (BitVec.ofInt 16 x) s.firstSn < 0) ∧ s.lastHi = 0
          then BitVec.ofInt 16 x else s.firstSn := by
        unfold State.update; dsimp only; split <;> rfl
      rw [this, hd, hhi, ht.notFirst]
      by_cases hlt : x < lo
      · rw [if_pos ⟨Or.inr (by omega), rfl⟩]; congr 1; omega
      · rw [if_neg (by simp; omega), hf]; congr 1; omega
    have := ih (s.update (BitVec.ofInt 16 x)) (max m x) (min lo x) htu hfirst (by omega) (by omega)
      (by
        intro y hy
        have h1 := hx y (by simp [hy])
        have h2 := h1.2.2.2.2.2.2 x (by simp)
        refine ⟨h1.1, h1.2.1, by omega, by omega, by omega, by omega, ?_⟩
        intro z hz; exact h1.2.2.2.2.2.2 z (by simp [hz])) (by omega)
    simpa [lowest] using this

/-- **C10** (first sequence number; partial: streams that have not wrapped). With all positions
in one half-range window below the first wrap, the reported first sequence number is the
lowest position received. -/
theorem C10_ext_first_partial (x0 : Int) (xs : List Int) (h0 : 0 ≤ x0 ∧ x0 < 2 ^ 16)
    (hx : ∀ x ∈ x0 :: xs, 0 ≤ x ∧ x < 2 ^ 16 ∧ ∀ y ∈ x0 :: xs, -(2 ^ 15) < x - y ∧ x - y < 2 ^ 15) :
    ((receive x0 xs).extFirst.toNat : Int) = lowest x0 xs := by
  have hfirst : (State.init.update (BitVec.ofInt 16 x0)).firstSn = BitVec.ofInt 16 x0 := by
    unfold State.update; simp [State.init]
  have hf := first_fold xs (State.init.update (BitVec.ofInt 16 x0)) x0 x0 (tracks_first x0 h0)
    hfirst (Int.le_refl _) h0.1 (by
      intro x hxm
      have h1 := hx x (by simp [hxm])
      have h2 := h1.2.2 x0 (by simp)
      exact ⟨h1.1, h1.2.1, h2.1, h2.2, h2.1, h2.2, fun y hy => h1.2.2 y (by simp [hy])⟩) h0.2
  have hr : (receive x0 xs).firstSn = BitVec.ofInt 16 (lowest x0 xs) := hf
  have hlow : ∀ (l : List Int) (m : Int), 0 ≤ m ∧ m < 2 ^ 16 → (∀ x ∈ l, 0 ≤ x ∧ x < 2 ^ 16) →
      0 ≤ lowest m l ∧ lowest m l < 2 ^ 16 := by
    intro l
    induction l with
    | nil => intro m h _; exact h
    | cons y l ih =>
      intro m h hl
      have hy := hl y (by simp)
      exact ih (min m y) (by omega) (fun z hz => hl z (by simp [hz]))
  have hb := hlow xs x0 h0 (fun x hxm => ⟨(hx x (by simp [hxm])).1, (hx x (by simp [hxm])).2.1⟩)
  unfold State.extFirst
  rw [BitVec.toNat_setWidth, hr]
  have := sn_toNat (lowest x0 xs)
  have hlt := (BitVec.ofInt 16 (lowest x0 xs)).isLt
  omega

/-- **C10 fails** for the first number as well: after packet 5, the reordered packet that is
really 8 positions earlier (number -3, on the wire 65533) makes the reported first number
larger than the reported last number. -/
theorem C10_first_after_last_fails :
    let s := receive 5 [-3]
    s.extFirst = 65533#32 ∧ s.extLast = 5#32 := by decide

example : InWindow 65530 [65533, 65531, 65540, 65600] := by decide
example : highest 65530 [65533, 65531, 65540, 65600] = 65600 := by decide
example := C10_ext_last_partial 65530 [65533, 65531, 65540, 65600] (by decide) (by decide)
example := C10_ext_last_no_wrap_partial 100 [103, 101, 110] (by decide) (by decide) (by decide)
example := C10_ext_first_partial 100 [103, 97, 110] (by decide) (by decide)

end Verif.LinkMeter
