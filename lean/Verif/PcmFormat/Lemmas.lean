import Mathlib.Tactic.SplitIfs
import Mathlib.Tactic.Ring
import Mathlib.Tactic.Linarith
import Mathlib.Data.Int.ModEq
import Mathlib.Tactic.NormNum
import Verif.PcmFormat.Model
import Verif.PcmFormat.Spec

/-!
# PCM formats: lemmas
-/

namespace Verif.PcmFormat

open Spec

/-- The formats that take whole bytes. -/
def aligned : List Code :=
  [⟨true, 8, 8, 8⟩, ⟨false, 8, 8, 8⟩, ⟨true, 16, 16, 16⟩, ⟨false, 16, 16, 16⟩,
   ⟨true, 18, 24, 32⟩, ⟨false, 18, 24, 32⟩,
   ⟨true, 18, 32, 32⟩, ⟨false, 18, 32, 32⟩,
   ⟨true, 20, 24, 32⟩, ⟨false, 20, 24, 32⟩, ⟨true, 20, 32, 32⟩, ⟨false, 20, 32, 32⟩,
   ⟨true, 24, 24, 32⟩, ⟨false, 24, 24, 32⟩, ⟨true, 24, 32, 32⟩, ⟨false, 24, 32, 32⟩,
   ⟨true, 32, 32, 32⟩, ⟨false, 32, 32, 32⟩, ⟨true, 64, 64, 64⟩, ⟨false, 64, 64, 64⟩]

theorem mem_aligned (c : Code) : c ∈ aligned ↔ c ∈ codes ∧ c.packed % 8 = 0 := by
  constructor
  · intro h
    simp only [aligned, List.mem_cons, List.not_mem_nil, or_false] at h
    rcases h with h | h | h | h | h | h | h | h | h | h | h | h | h | h | h | h | h | h | h | h <;>
      subst h <;> decide
  · intro h
    obtain ⟨h, h1⟩ := h
    simp only [codes, List.mem_cons, List.not_mem_nil, or_false] at h
    rcases h with h | h | h | h | h | h | h | h | h | h | h | h | h | h | h | h | h | h | h | h |
      h | h | h | h <;> subst h <;> first | decide | (exact absurd h1 (by decide))

/-- Signed value in its range, or unsigned value in its range. -/
def InRange (c : Code) (v : Int) : Prop :=
  if c.signed then -2 ^ (c.width - 1) ≤ v ∧ v < 2 ^ (c.width - 1)
  else 0 ≤ v ∧ v < 2 ^ c.width

/-- The level of a value. -/
def lvl (c : Code) (v : Int) : Int := if c.signed then v else v - 2 ^ (c.width - 1)

theorem codes_wf (c : Code) (h : c ∈ codes) :
    1 ≤ c.width ∧ c.width ≤ c.packed ∧ c.packed ≤ c.unpacked := by
  simp only [codes, List.mem_cons, List.not_mem_nil, or_false] at h
  rcases h with h | h | h | h | h | h | h | h | h | h | h | h | h | h | h | h | h | h | h | h |
    h | h | h | h <;> subst h <;> decide

theorem pow_split {a b : Nat} (h : a ≤ b) : (2 : Int) ^ b = 2 ^ (b - a) * 2 ^ a := by
  rw [← pow_add]
  congr 1
  omega

theorem asU_mod {m n : Nat} (h : m ≤ n) (x : Int) : asU n x ≡ x [ZMOD 2 ^ m] := by
  unfold asU Int.ModEq
  exact Int.emod_emod_of_dvd x (pow_dvd_pow 2 h)

theorem asS_mod {m n : Nat} (h : m ≤ n) (x : Int) : asS n x ≡ x [ZMOD 2 ^ m] := by
  have h1 := asU_mod h x
  unfold asU at h1
  unfold asS
  split_ifs
  · exact h1
  · refine Int.ModEq.trans ?_ h1
    have : ((2 : Int) ^ m) ∣ 2 ^ n := pow_dvd_pow 2 h
    exact (Int.modEq_iff_dvd.mpr (by simpa using this))

theorem asS_exact {n : Nat} (hn : 1 ≤ n) (x : Int) (h1 : -2 ^ (n - 1) ≤ x)
    (h2 : x < 2 ^ (n - 1)) : asS n x = x := by
  have hp : (2 : Int) ^ n = 2 ^ (n - 1) * 2 := by
    rw [← pow_succ]
    congr 1
    omega
  have hpos : (0 : Int) < 2 ^ (n - 1) := by positivity
  unfold asS
  rw [hp]
  by_cases h : 0 ≤ x
  · rw [Int.emod_eq_of_lt h (by linarith), if_pos h2]
  · have : x % (2 ^ (n - 1) * 2) = x + 2 ^ (n - 1) * 2 := by
      rw [← Int.add_emod_right]
      exact Int.emod_eq_of_lt (by linarith) (by linarith)
    rw [this, if_neg (by linarith)]
    ring

theorem fromSigned_mod (c : Code) (h : 1 ≤ c.width) (h2 : c.width ≤ c.unpacked) (x : Int) :
    fromSigned c x ≡ x + 2 ^ (c.width - 1) [ZMOD 2 ^ c.width] := by
  unfold fromSigned smax
  split_ifs
  · refine (asU_mod h2 _).trans ?_
    have : asU c.unpacked x + (2 ^ (c.width - 1) - 1) + 1
        = asU c.unpacked x + 2 ^ (c.width - 1) := by ring
    rw [this]
    exact (asU_mod h2 x).add_right _
  · refine (asU_mod h2 _).trans ?_
    have : x + (2 ^ (c.width - 1) - 1) + 1 = x + 2 ^ (c.width - 1) := by ring
    rw [this]

theorem toSigned_exact (c : Code) (h : 1 ≤ c.width) (h2 : c.width ≤ c.unpacked) (x : Int)
    (hx : 0 ≤ x) (hx2 : x < 2 ^ c.width) : toSigned c x = x - 2 ^ (c.width - 1) := by
  have hp : (2 : Int) ^ c.width = 2 ^ (c.width - 1) * 2 := by
    rw [← pow_succ]
    congr 1
    omega
  have hpos : (0 : Int) < 2 ^ (c.width - 1) := by positivity
  have hle : (2 : Int) ^ (c.width - 1) ≤ 2 ^ (c.unpacked - 1) :=
    pow_le_pow_right₀ (by norm_num) (by omega)
  unfold toSigned smax
  have : x - (2 ^ (c.width - 1) - 1) - 1 = x - 2 ^ (c.width - 1) := by ring
  rw [this]
  exact asS_exact (by omega) _ (by linarith) (by linarith)

/-- The arithmetic of a conversion on a value that is in the middle of a conversion: the
signed level, or the unsigned value if both formats are unsigned. -/
theorem arith_signed (i o : Code) (hi : 1 ≤ i.width) (hi2 : i.width ≤ i.unpacked)
    (ho : 1 ≤ o.width) (ho2 : o.width ≤ o.unpacked) (hb : (!i.signed && !o.signed) = false)
    (x : Int) (hx : -2 ^ (i.width - 1) ≤ x) (hx2 : x < 2 ^ (i.width - 1)) :
    convertArith i o x ≡ rescale false i.width o.width x [ZMOD 2 ^ o.width] := by
  unfold convertArith rescale
  rw [hb]
  simp only [Bool.false_eq_true, if_false]
  by_cases h1 : o.width = i.width
  · rw [if_pos h1, if_pos (by omega)]
    have : o.width - i.width = 0 := by omega
    rw [this]
    simp
  rw [if_neg h1]
  by_cases h2 : o.width < i.width
  · have h4 : ¬ i.width ≤ o.width := by omega
    rw [if_pos h2, if_neg h4]
    obtain ⟨k, hk⟩ : ∃ k, i.width = o.width + (k + 1) := ⟨i.width - o.width - 1, by omega⟩
    have e1 : i.width - o.width = k + 1 := by omega
    have e2 : i.width - o.width - 1 = k := by omega
    have e3 : i.width - 1 = (o.width - 1) + (k + 1) := by omega
    rw [e1, show k + 1 - 1 = k by omega]
    unfold smax
    rw [e3] at hx hx2 ⊢
    have hK : (0 : Int) < 2 ^ k := by positivity
    have hK1 : (2 : Int) ^ (k + 1) = 2 * 2 ^ k := by ring
    have hO : (0 : Int) < 2 ^ (o.width - 1) := by positivity
    have hM : (2 : Int) ^ (o.width - 1 + (k + 1)) = 2 ^ (o.width - 1) * 2 ^ (k + 1) := by
      rw [pow_add]
    by_cases h3 : x > 2 ^ (o.width - 1 + (k + 1)) - 1 - 2 ^ k
    · rw [if_pos h3]
      have : 2 ^ (o.width - 1) ≤ (x + 2 ^ k) / 2 ^ (k + 1) := by
        rw [Int.le_ediv_iff_mul_le (by positivity)]
        rw [hM] at h3
        linarith
      rw [min_eq_left (by linarith)]
    · rw [if_neg h3]
      have : (x + 2 ^ k) / 2 ^ (k + 1) < 2 ^ (o.width - 1) := by
        rw [Int.ediv_lt_iff_lt_mul (by positivity)]
        rw [hM] at h3
        linarith
      rw [min_eq_right (by linarith)]
      refine (asS_mod ho2 _).trans ?_
      obtain ⟨t, ht⟩ : ∃ t, asU i.unpacked (x + 2 ^ k) = (x + 2 ^ k) + t * 2 ^ i.unpacked := by
        unfold asU
        refine ⟨-((x + 2 ^ k) / 2 ^ i.unpacked), ?_⟩
        have := Int.emod_add_mul_ediv (x + 2 ^ k) (2 ^ i.unpacked)
        linarith
      rw [ht]
      have hsp : (2 : Int) ^ i.unpacked = 2 ^ (i.unpacked - (k + 1)) * 2 ^ (k + 1) :=
        pow_split (by omega)
      rw [hsp, ← mul_assoc, Int.add_mul_ediv_right _ _ (by positivity)]
      rw [Int.ModEq, Int.add_emod]
      have hd : t * 2 ^ (i.unpacked - (k + 1)) % 2 ^ o.width = 0 :=
        Int.emod_eq_zero_of_dvd (Dvd.dvd.mul_left (pow_dvd_pow 2 (by omega)) t)
      rw [hd]
      simp
  · rw [if_neg h2, if_pos (by omega)]
    exact (asS_mod ho2 _).trans ((asU_mod ho2 x).mul_right _)

theorem arith_unsigned (i o : Code) (hi : 1 ≤ i.width)
    (ho : 1 ≤ o.width) (ho2 : o.width ≤ o.unpacked) (hb : (!i.signed && !o.signed) = true)
    (x : Int) :
    convertArith i o x
      ≡ rescale true i.width o.width (x - 2 ^ (i.width - 1)) + 2 ^ (o.width - 1)
        [ZMOD 2 ^ o.width] := by
  unfold convertArith rescale
  rw [hb]
  simp only [if_true]
  by_cases h1 : o.width = i.width
  · rw [if_pos h1, if_pos (by omega)]
    have : o.width - i.width = 0 := by omega
    rw [this, h1]
    simp
  rw [if_neg h1]
  by_cases h2 : o.width < i.width
  · rw [if_pos h2, if_neg (by omega)]
    refine (asU_mod ho2 _).trans ?_
    have hs : (2 : Int) ^ (i.width - 1) = 2 ^ (o.width - 1) * 2 ^ (i.width - o.width) := by
      rw [← pow_add]
      congr 1
      omega
    rw [hs, sub_eq_add_neg, ← neg_mul, Int.add_mul_ediv_right _ _ (by positivity)]
    have : x / 2 ^ (i.width - o.width) + -2 ^ (o.width - 1) + 2 ^ (o.width - 1)
        = x / 2 ^ (i.width - o.width) := by ring
    rw [this]
  · rw [if_neg h2, if_pos (by omega)]
    refine (asU_mod ho2 _).trans (((asU_mod ho2 x).mul_right _).trans ?_)
    have hs : (2 : Int) ^ (o.width - 1) = 2 ^ (i.width - 1) * 2 ^ (o.width - i.width) := by
      rw [← pow_add]
      congr 1
      omega
    have : (x - 2 ^ (i.width - 1)) * 2 ^ (o.width - i.width) + 2 ^ (o.width - 1)
        = x * 2 ^ (o.width - i.width) := by rw [hs]; ring
    rw [this]

/-- The value for a level. -/
def ofLvl (c : Code) (l : Int) : Int := if c.signed then l else l + 2 ^ (c.width - 1)

theorem rescale_same (cut : Bool) (w : Nat) (l : Int) : rescale cut w w l = l := by
  unfold rescale
  simp

theorem convert_spec (i o : Code) (hi : i ∈ codes) (ho : o ∈ codes) (v : Int)
    (hv : InRange i v) :
    convert i o v
      ≡ ofLvl o (rescale (!i.signed && !o.signed) i.width o.width (lvl i v))
        [ZMOD 2 ^ o.width] := by
  obtain ⟨a1, a2, a3⟩ := codes_wf i hi
  obtain ⟨b1, b2, b3⟩ := codes_wf o ho
  have a4 : i.width ≤ i.unpacked := by omega
  have b4 : o.width ≤ o.unpacked := by omega
  unfold convert
  by_cases hio : i = o
  · rw [if_pos hio, hio, rescale_same]
    unfold ofLvl lvl
    cases o.signed <;> simp
  rw [if_neg hio]
  have hp : (2 : Int) ^ i.width = 2 ^ (i.width - 1) * 2 := by
    rw [← pow_succ]
    congr 1
    omega
  unfold InRange at hv
  cases h1 : i.signed <;> cases h2 : o.signed
  · have hb : (!i.signed && !o.signed) = true := by rw [h1, h2]; rfl
    have := arith_unsigned i o a1 b1 b4 hb v
    simpa [convertIn, ofLvl, lvl, h1, h2] using this
  · have hb : (!i.signed && !o.signed) = false := by rw [h1, h2]; rfl
    simp only [h1, Bool.false_eq_true, if_false] at hv
    have ht := toSigned_exact i a1 a4 v hv.1 hv.2
    have := arith_signed i o a1 a4 b1 b4 hb (v - 2 ^ (i.width - 1)) (by linarith) (by linarith)
    simpa [convertIn, ofLvl, lvl, h1, h2, ht] using this
  · have hb : (!i.signed && !o.signed) = false := by rw [h1, h2]; rfl
    simp only [h1, if_true] at hv
    have := arith_signed i o a1 a4 b1 b4 hb v hv.1 hv.2
    have hf := (fromSigned_mod o b1 b4 (convertArith i o v)).trans (this.add_right _)
    simpa [convertIn, ofLvl, lvl, h1, h2] using hf
  · have hb : (!i.signed && !o.signed) = false := by rw [h1, h2]; rfl
    simp only [h1, if_true] at hv
    have := arith_signed i o a1 a4 b1 b4 hb v hv.1 hv.2
    simpa [convertIn, ofLvl, lvl, h1, h2] using this

end Verif.PcmFormat
