import Verif.PcmFormat.Bytes

/-!
# PCM formats: the mapping loop on whole bytes
-/

namespace Verif.PcmFormat

open Spec

theorem two_pow_half {w : Nat} (h : 1 ≤ w) : (2 : Int) ^ w = 2 ^ (w - 1) * 2 := by
  rw [← pow_succ]
  congr 1
  omega

theorem level_range (s : Bool) (w : Nat) (hw : 1 ≤ w) (x : Nat) :
    -2 ^ (w - 1) ≤ level s w x ∧ level s w x < 2 ^ (w - 1) := by
  have hp : (2 : Nat) ^ w = 2 ^ (w - 1) * 2 := by
    rw [← pow_succ]
    congr 1
    omega
  obtain ⟨H, hH⟩ : ∃ H : Nat, H = 2 ^ (w - 1) := ⟨_, rfl⟩
  have hHi : (2 : Int) ^ (w - 1) = H := by rw [hH]; push_cast; rfl
  have hHpos : 0 < H := by rw [hH]; positivity
  unfold level
  rw [two_pow_half hw, hHi, hp, ← hH]
  have := Nat.mod_lt x (by omega : 0 < H * 2)
  split_ifs <;> omega

theorem rescale_range (cut : Bool) (w w' : Nat) (hw : 1 ≤ w) (hw' : 1 ≤ w') (l : Int)
    (h1 : -2 ^ (w - 1) ≤ l) (h2 : l < 2 ^ (w - 1)) :
    -2 ^ (w' - 1) ≤ rescale cut w w' l ∧ rescale cut w w' l < 2 ^ (w' - 1) := by
  unfold rescale
  by_cases h : w ≤ w'
  · rw [if_pos h]
    have e : (2 : Int) ^ (w' - 1) = 2 ^ (w - 1) * 2 ^ (w' - w) := by
      rw [← pow_add]
      congr 1
      omega
    have hp : (0 : Int) < 2 ^ (w' - w) := by positivity
    rw [e]
    constructor <;> nlinarith
  · rw [if_neg h]
    have e : (2 : Int) ^ (w - 1) = 2 ^ (w' - 1) * 2 ^ (w - w') := by
      rw [← pow_add]
      congr 1
      omega
    have hp : (0 : Int) < 2 ^ (w - w') := by positivity
    have hp' : (0 : Int) < 2 ^ (w' - 1) := by positivity
    have hq : (0 : Int) < 2 ^ (w - w' - 1) := by positivity
    rw [e] at h1 h2
    cases cut
    · simp only [Bool.false_eq_true, if_false]
      constructor
      · apply le_min (by linarith)
        rw [Int.le_ediv_iff_mul_le hp]
        linarith
      · exact lt_of_le_of_lt (min_le_left _ _) (by linarith)
    · simp only [if_true]
      constructor
      · rw [Int.le_ediv_iff_mul_le hp]
        linarith
      · rw [Int.ediv_lt_iff_lt_mul hp]
        linarith

/-- The level of a container that holds the value of a level. -/
theorem level_ofLvl (c : Code) (hw : 1 ≤ c.width) (l : Int) (h1 : -2 ^ (c.width - 1) ≤ l)
    (h2 : l < 2 ^ (c.width - 1)) (x : Nat) (hx : (x : Int) = ofLvl c l % 2 ^ c.width) :
    level c.signed c.width x = l ∧ x < 2 ^ c.width := by
  have hp : (2 : Nat) ^ c.width = 2 ^ (c.width - 1) * 2 := by
    rw [← pow_succ]
    congr 1
    omega
  obtain ⟨H, hH⟩ : ∃ H : Nat, H = 2 ^ (c.width - 1) := ⟨_, rfl⟩
  have hHi : (2 : Int) ^ (c.width - 1) = H := by rw [hH]; push_cast; rfl
  have hHpos : 0 < H := by rw [hH]; positivity
  rw [two_pow_half hw, hHi] at hx
  rw [hHi] at h1 h2
  unfold ofLvl at hx
  rw [hHi] at hx
  unfold level
  rw [two_pow_half hw, hHi, hp, ← hH]
  have hlt : x < H * 2 := by
    have := Int.emod_lt_of_pos (if c.signed = true then l else l + (H : Int))
      (by omega : (0 : Int) < H * 2)
    omega
  refine ⟨?_, hlt⟩
  rw [Nat.mod_eq_of_lt hlt]
  cases hs : c.signed
  · rw [hs] at hx
    simp only [Bool.false_eq_true, if_false] at hx ⊢
    rw [Int.emod_eq_of_lt (by omega) (by omega)] at hx
    omega
  · rw [hs] at hx
    simp only [if_true] at hx ⊢
    by_cases h0 : 0 ≤ l
    · rw [Int.emod_eq_of_lt h0 (by omega)] at hx
      rw [if_pos (by omega), hx]
    · rw [← Int.add_emod_right, Int.emod_eq_of_lt (by omega) (by omega)] at hx
      rw [if_neg (by omega), hx]
      omega

/-- The level that the mapping should give for the container `x`. -/
def target (i o : Code) (x : Nat) : Int :=
  rescale (!i.signed && !o.signed) i.width o.width (level i.signed i.width x)

theorem pow256 (c : Code) (ha : c.packed % 8 = 0) : 256 ^ packedOctets c = 2 ^ c.packed := by
  have : 256 = 2 ^ 8 := by norm_num
  rw [this, ← pow_mul]
  congr 1
  unfold packedOctets
  omega

/-- The loop, if the samples can be read: `offs j` is the offset of sample `j`, `t j` is the
level that it should have in the output. -/
theorem mapLoop_gen (i o : Fmt) (ho : o.code ∈ codes) (ao : o.code.packed % 8 = 0)
    (inb : List Nat) (offs : Nat → Nat) (t : Nat → Int) : ∀ (n s : Nat) (outb : List Nat) (po : Nat),
    (∀ j, s ≤ j → j < s + n → ∃ v, unpack i.code i.big inb (offs j) = some (v, offs (j + 1)) ∧
      convert i.code o.code v ≡ ofLvl o.code (t j) [ZMOD 2 ^ o.code.width] ∧
      -2 ^ (o.code.width - 1) ≤ t j ∧ t j < 2 ^ (o.code.width - 1)) →
    po + n * packedOctets o.code ≤ outb.length →
    ∃ outb', mapLoop i o inb n (offs s) outb (8 * po)
        = some (outb', offs (s + n), 8 * (po + n * packedOctets o.code)) ∧
      outb'.length = outb.length ∧
      (∀ q, q < po ∨ po + n * packedOctets o.code ≤ q → outb'[q]? = outb[q]?) ∧
      (∀ q x, po ≤ q → q < po + n * packedOctets o.code → outb'[q]? = some x → x < 256) ∧
      ∀ j, j < n →
        level o.code.signed o.code.width
          (container o.big (packedOctets o.code) outb' (po + j * packedOctets o.code))
          = t (s + j) ∧
        container o.big (packedOctets o.code) outb' (po + j * packedOctets o.code)
          < 2 ^ o.code.width := by
  obtain ⟨b1, b2, b3⟩ := codes_wf _ ho
  intro n
  induction n with
  | zero =>
    intro s outb po _ _
    refine ⟨outb, by simp [mapLoop], rfl, fun _ _ => rfl, ?_, by omega⟩
    intro q x h1 h2
    omega
  | succ n ih =>
    intro s outb po h1 h2
    have e2 : (n + 1) * packedOctets o.code = n * packedOctets o.code + packedOctets o.code := by ring
    rw [e2] at h2
    rw [e2]
    obtain ⟨w, hu, hcv, r1, r2⟩ := h1 s (by omega) (by omega)
    obtain ⟨v, hv⟩ : ∃ v, v = convert i.code o.code w := ⟨_, rfl⟩
    rw [← hv] at hcv
    have hpk := pack_aligned o.code ao o.big outb po v (by omega)
    obtain ⟨l, hl⟩ : ∃ l, l = bytesOf o.code o.big v := ⟨_, rfl⟩
    have hlen : l.length = packedOctets o.code := by rw [hl]; exact bytesOf_length _ _ _
    rw [← hl] at hpk
    have hsl := splice_length outb po l (by omega)
    obtain ⟨outb', g1, g2, g3, g5, g4⟩ := ih (s + 1) (splice outb po l)
      (po + packedOctets o.code) (fun j q1 q2 => h1 j (by omega) (by omega)) (by rw [hsl]; omega)
    refine ⟨outb', ?_, by rw [g2, hsl], ?_, ?_, ?_⟩
    · unfold mapLoop
      rw [hu]
      simp only [Option.bind_some]
      rw [← hv, hpk]
      simp only [Option.bind_some]
      rw [g1]
      congr 1
      refine Prod.ext rfl (Prod.ext ?_ ?_)
      · show offs _ = offs _
        congr 1
        omega
      · show 8 * _ = 8 * _
        ring
    · intro q hq
      rw [g3 q (by omega)]
      exact splice_out outb po l (by omega) q (by omega)
    · intro q y q1 q2 q3
      by_cases hq : q < po + packedOctets o.code
      · rw [g3 q (by omega)] at q3
        have hm : (splice outb po l)[q]? = l[q - po]? := by
          have := congrArg (fun (z : List Nat) => z[q - po]?) (splice_mid outb po l (by omega))
          simp only [List.getElem?_take, List.getElem?_drop] at this
          rw [if_pos (by omega)] at this
          rw [← this]
          congr 1
          omega
        rw [hm] at q3
        have := List.mem_of_getElem? q3
        rw [hl] at this
        exact bytesOf_lt _ _ _ _ this
      · exact g5 q y (by omega) (by omega) q3
    · intro j hj
      cases j with
      | zero =>
        simp only [Nat.zero_mul, Nat.add_zero]
        have hc : container o.big (packedOctets o.code) outb' po
            = container o.big (packedOctets o.code) (splice outb po l) po := by
          apply container_congr
          intro q _ hq
          exact g3 q (by omega)
        have hcs := container_splice o.big outb po l (by omega)
        rw [hlen] at hcs
        have hb := container_bytesOf o.code ho ao o.big v
        rw [← hl, ← hcs, ← hc] at hb
        refine level_ofLvl o.code b1 (t s) r1 r2 _ ?_
        rw [hb]
        exact hcv
      | succ j =>
        have := g4 j (by omega)
        have e3 : po + (j + 1) * packedOctets o.code
            = po + packedOctets o.code + j * packedOctets o.code := by ring
        have e4 : s + (j + 1) = s + 1 + j := by ring
        rw [e3, e4]
        exact this

theorem target_range (i o : Code) (hi : i ∈ codes) (ho : o ∈ codes) (x : Nat) :
    -2 ^ (o.width - 1) ≤ target i o x ∧ target i o x < 2 ^ (o.width - 1) := by
  obtain ⟨a1, a2, a3⟩ := codes_wf _ hi
  obtain ⟨b1, b2, b3⟩ := codes_wf _ ho
  exact rescale_range _ i.width o.width a1 b1 _ (level_range _ _ a1 _).1 (level_range _ _ a1 _).2

/-- What the loop does to buffers of whole bytes. -/
theorem mapLoop_spec (i o : Fmt) (hi : i.code ∈ codes) (ho : o.code ∈ codes)
    (ai : i.code.packed % 8 = 0) (ao : o.code.packed % 8 = 0) (inb : List Nat)
    (hin : ∀ x ∈ inb, x < 256) (n pi : Nat) (outb : List Nat) (po : Nat)
    (h1 : pi + n * packedOctets i.code ≤ inb.length)
    (h2 : po + n * packedOctets o.code ≤ outb.length) :
    ∃ outb', mapLoop i o inb n (8 * pi) outb (8 * po)
        = some (outb', 8 * (pi + n * packedOctets i.code), 8 * (po + n * packedOctets o.code)) ∧
      outb'.length = outb.length ∧
      (∀ q, q < po ∨ po + n * packedOctets o.code ≤ q → outb'[q]? = outb[q]?) ∧
      (∀ q x, po ≤ q → q < po + n * packedOctets o.code → outb'[q]? = some x → x < 256) ∧
      ∀ j, j < n →
        level o.code.signed o.code.width
          (container o.big (packedOctets o.code) outb' (po + j * packedOctets o.code))
          = target i.code o.code
            (container i.big (packedOctets i.code) inb (pi + j * packedOctets i.code)) ∧
        container o.big (packedOctets o.code) outb' (po + j * packedOctets o.code)
          < 2 ^ o.code.width := by
  obtain ⟨a1, a2, a3⟩ := codes_wf _ hi
  have := mapLoop_gen i o ho ao inb (fun j => 8 * (pi + j * packedOctets i.code))
    (fun j => target i.code o.code
      (container i.big (packedOctets i.code) inb (pi + j * packedOctets i.code))) n 0 outb po ?_ h2
  · simp only [Nat.zero_mul, Nat.add_zero, Nat.zero_add] at this
    exact this
  · intro j _ hj
    have hle : (j + 1) * packedOctets i.code ≤ n * packedOctets i.code :=
      Nat.mul_le_mul_right _ (by omega)
    have e1 : (j + 1) * packedOctets i.code = j * packedOctets i.code + packedOctets i.code := by ring
    have hu := unpack_aligned i.code ai a3 i.big inb (pi + j * packedOctets i.code) (by omega)
    obtain ⟨x, hx⟩ : ∃ x, x = container i.big (packedOctets i.code) inb
      (pi + j * packedOctets i.code) := ⟨_, rfl⟩
    rw [← hx] at hu
    have hxlt : x < 2 ^ i.code.packed := by
      rw [← pow256 _ ai, hx]
      exact container_lt _ _ _ _ hin
    obtain ⟨f1, f2⟩ := finish_spec i.code hi x hxlt
    refine ⟨finish i.code x, ?_, ?_, ?_⟩
    · rw [hu, e1, Nat.add_assoc]
    · have hcv := convert_spec i.code o.code hi ho _ f1
      rw [f2] at hcv
      rw [← hx]
      exact hcv
    · rw [← hx]
      exact target_range _ _ hi ho x

end Verif.PcmFormat
