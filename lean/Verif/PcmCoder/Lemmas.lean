import Verif.PcmCoder.Spec
import Verif.PcmFormat.PropsFloat
import Verif.PcmFormat.MapLemmas
import Verif.SampleTime.Props

/-!
# PCM encoder and decoder: lemmas
-/

namespace Verif.PcmCoder

open Verif.PcmFormat Spec

theorem packed_octets (c : Code) (ha : c.packed % 8 = 0) : packedOctets c = c.packed / 8 := by
  unfold packedOctets
  omega

theorem room (c : Code) (hc : c ∈ codes) (ha : c.packed % 8 = 0) (sz p : Nat) :
    (sz * 8 - 8 * p) / c.packed = (sz - p) / packedOctets c := by
  obtain ⟨a1, a2, a3⟩ := codes_wf c hc
  obtain ⟨k, hk⟩ : ∃ k, k = packedOctets c := ⟨_, rfl⟩
  have : c.packed = 8 * k := by rw [hk, packed_octets c ha]; omega
  rw [this, ← hk, show sz * 8 - 8 * p = 8 * (sz - p) by omega,
    Nat.mul_div_mul_left _ _ (by norm_num)]

theorem octets_pos (c : Code) (hc : c ∈ codes) (ha : c.packed % 8 = 0) : 0 < packedOctets c := by
  obtain ⟨a1, a2, a3⟩ := codes_wf c hc
  rw [packed_octets c ha]
  omega

/-- A number of a `float` is a number of a `double`. -/
theorem rnd24_53 (q : ℚ) (h : rnd 24 q = q) : rnd 53 q = q := by
  have := rnd_le (p := 24) (p' := 53) (by norm_num) (by norm_num) q
  rw [h] at this
  exact this

/-- The value for a sample. -/
theorem fromFloat_sample (o : Code) (ho : o ∈ codes) (x : Flt) (hx : IsSample x) :
    ∃ v, fromFloat o x = some v ∧ InRange o v ∧ lvl o v = quantize o.width x := by
  cases x with
  | nan => exact absurd hx (by simp [IsSample])
  | inf neg =>
    obtain ⟨r, h1, h2, h3⟩ := C76_infinite o ho neg
    exact ⟨r, h1, h2, h3⟩
  | num q =>
    obtain ⟨r, h1, h2, h3, h4, h5⟩ := fromFloat_num o ho q (rnd24_53 q hx)
    refine ⟨r, h1, h2, ?_⟩
    simp only [quantize]
    split_ifs with g1 g2 g3
    · exact h3 g1
    · exact h4 g2
    · rw [h5 (by linarith) (by linarith)]
      unfold trunc
      rw [if_pos (by positivity)]
    · rw [h5 (by linarith) (by linarith)]
      unfold trunc
      rw [if_neg]
      have : (0 : ℚ) < 2 ^ (o.width - 1) := by positivity
      nlinarith

theorem ofLvl_lvl (c : Code) (v : Int) : ofLvl c (lvl c v) = v := by
  unfold ofLvl lvl
  split_ifs <;> ring

theorem encLoop_spec (o : Fmt) (ho : o.code ∈ codes) (ao : o.code.packed % 8 = 0) :
    ∀ (xs : List Flt) (b : List Nat) (po : Nat), (∀ x ∈ xs, IsSample x) →
    po + xs.length * packedOctets o.code ≤ b.length →
    ∃ b', encLoop o xs b (8 * po) = some (b', 8 * (po + xs.length * packedOctets o.code)) ∧
      b'.length = b.length ∧
      (∀ q, q < po ∨ po + xs.length * packedOctets o.code ≤ q → b'[q]? = b[q]?) ∧
      (∀ q x, po ≤ q → q < po + xs.length * packedOctets o.code → b'[q]? = some x → x < 256) ∧
      ∀ j x, xs[j]? = some x →
        PcmFormat.Spec.level o.code.signed o.code.width
          (PcmFormat.Spec.container o.big (packedOctets o.code) b' (po + j * packedOctets o.code))
          = quantize o.code.width x ∧
        PcmFormat.Spec.container o.big (packedOctets o.code) b' (po + j * packedOctets o.code)
          < 2 ^ o.code.width := by
  obtain ⟨b1, b2, b3⟩ := codes_wf _ ho
  intro xs
  induction xs with
  | nil =>
    intro b po _ _
    refine ⟨b, by simp [encLoop], rfl, fun _ _ => rfl, ?_, by simp⟩
    intro q x h1 h2
    simp at h2
    omega
  | cons x xs ih =>
    intro b po hx h2
    have e2 : (x :: xs).length * packedOctets o.code
        = xs.length * packedOctets o.code + packedOctets o.code := by
      rw [List.length_cons]; ring
    rw [e2] at h2
    rw [e2]
    obtain ⟨v, hv, hr, hl0⟩ := fromFloat_sample o.code ho x (hx x (List.mem_cons_self))
    have hpk := pack_aligned o.code ao o.big b po v (by omega)
    obtain ⟨l, hl⟩ : ∃ l, l = bytesOf o.code o.big v := ⟨_, rfl⟩
    have hlen : l.length = packedOctets o.code := by rw [hl]; exact bytesOf_length _ _ _
    rw [← hl] at hpk
    have hsl := splice_length b po l (by omega)
    obtain ⟨b', g1, g2, g3, g5, g4⟩ := ih (splice b po l)
      (po + packedOctets o.code) (fun y hy => hx y (List.mem_cons_of_mem _ hy)) (by rw [hsl]; omega)
    refine ⟨b', ?_, by rw [g2, hsl], ?_, ?_, ?_⟩
    · unfold encLoop
      rw [hv]
      simp only [Option.bind_some]
      rw [hpk]
      simp only [Option.bind_some]
      rw [g1]
      congr 1
      refine Prod.ext rfl ?_
      show 8 * _ = 8 * _
      ring
    · intro q hq
      rw [g3 q (by omega)]
      exact splice_out b po l (by omega) q (by omega)
    · intro q y q1 q2 q3
      by_cases hq : q < po + packedOctets o.code
      · rw [g3 q (by omega)] at q3
        have hm : (splice b po l)[q]? = l[q - po]? := by
          have := congrArg (fun (z : List Nat) => z[q - po]?) (splice_mid b po l (by omega))
          simp only [List.getElem?_take, List.getElem?_drop] at this
          rw [if_pos (by omega)] at this
          rw [← this]
          congr 1
          omega
        rw [hm] at q3
        have := List.mem_of_getElem? q3
        rw [hl] at this
        exact bytesOf_lt _ _ _ _ this
      · exact g5 q y (by omega) (by omega) q3
    · intro j y hj
      cases j with
      | zero =>
        simp only [List.getElem?_cons_zero, Option.some.injEq] at hj
        subst hj
        simp only [Nat.zero_mul, Nat.add_zero]
        have hc : PcmFormat.Spec.container o.big (packedOctets o.code) b' po
            = PcmFormat.Spec.container o.big (packedOctets o.code) (splice b po l) po := by
          apply container_congr
          intro q _ hq
          exact g3 q (by omega)
        have hcs := container_splice o.big b po l (by omega)
        rw [hlen] at hcs
        have hb := container_bytesOf o.code ho ao o.big v
        rw [← hl, ← hcs, ← hc] at hb
        rw [← hl0]
        obtain ⟨r1, r2⟩ := lvl_range o.code ho v hr
        refine level_ofLvl o.code b1 _ r1 r2 _ ?_
        rw [hb, ofLvl_lvl]
      | succ j =>
        simp only [List.getElem?_cons_succ] at hj
        have := g4 j y hj
        have e3 : po + (j + 1) * packedOctets o.code
            = po + packedOctets o.code + j * packedOctets o.code := by ring
        rw [e3]
        exact this

theorem encMap_spec (o : Fmt) (ho : o.code ∈ codes) (ao : o.code.packed % 8 = 0)
    (xs : List Flt) (b : List Nat) (po : Nat) (hx : ∀ x ∈ xs, IsSample x) (hpo : po ≤ b.length) :
    ∃ k b', encMap o xs b (8 * po) = .ok (k, b', 8 * (po + k * packedOctets o.code)) ∧
      k = min xs.length ((b.length - po) / packedOctets o.code) ∧
      b'.length = b.length ∧
      (∀ q, q < po ∨ po + k * packedOctets o.code ≤ q → b'[q]? = b[q]?) ∧
      (∀ q x, po ≤ q → q < po + k * packedOctets o.code → b'[q]? = some x → x < 256) ∧
      ∀ j x, j < k → xs[j]? = some x →
        PcmFormat.Spec.level o.code.signed o.code.width
          (PcmFormat.Spec.container o.big (packedOctets o.code) b' (po + j * packedOctets o.code))
          = quantize o.code.width x ∧
        PcmFormat.Spec.container o.big (packedOctets o.code) b' (po + j * packedOctets o.code)
          < 2 ^ o.code.width := by
  have hk0 := octets_pos o.code ho ao
  obtain ⟨k, hk⟩ : ∃ k, k = min xs.length ((b.length * 8 - 8 * po) / o.code.packed) := ⟨_, rfl⟩
  have hk' := hk
  rw [room o.code ho ao] at hk'
  have f2 : po + k * packedOctets o.code ≤ b.length := by
    have h1 : k ≤ (b.length - po) / packedOctets o.code := by omega
    have := (Nat.le_div_iff_mul_le hk0).1 h1
    omega
  have hp : ¬ 8 * po > b.length * 8 := by omega
  have hl : (xs.take k).length = k := by rw [List.length_take]; omega
  by_cases h0 : k = 0
  · refine ⟨k, b, ?_, hk', rfl, fun _ _ => rfl, ?_, by omega⟩
    · unfold encMap
      rw [if_neg hp]
      simp only
      rw [← hk, h0]
      simp
    · intro q x h1 h2
      rw [h0] at h2
      omega
  · obtain ⟨b', g1, g2, g3, g4, g5⟩ := encLoop_spec o ho ao (xs.take k) b po
      (fun x h => hx x (List.mem_of_mem_take h)) (by rw [hl]; exact f2)
    rw [hl] at g1 g3 g4
    refine ⟨k, b', ?_, hk', g2, g3, g4, ?_⟩
    · unfold encMap
      rw [if_neg hp]
      simp only
      rw [← hk, if_pos h0, g1]
      rfl
    · intro j x hj hjx
      refine g5 j x ?_
      rw [List.getElem?_take, if_pos hj]
      exact hjx

theorem toFloat_finish (c : Code) (hc : c ∈ codes) (x : Nat) (hx : x < 2 ^ c.packed) :
    toFloat 24 c (finish c x) = rawOf c.width (PcmFormat.Spec.level c.signed c.width x) := by
  obtain ⟨h1, h2⟩ := finish_spec c hc x hx
  rw [toFloat_eq 24 c hc _ h1, h2]
  unfold rawOf
  rw [zpow_neg, zpow_natCast, div_eq_mul_inv]

theorem decLoop_spec (i : Fmt) (hi : i.code ∈ codes) (ai : i.code.packed % 8 = 0) (b : List Nat)
    (hb : ∀ x ∈ b, x < 256) : ∀ (n s : Nat), (s + n) * packedOctets i.code ≤ b.length →
    decLoop i b n (8 * (s * packedOctets i.code))
      = some (samples i b s n, 8 * ((s + n) * packedOctets i.code)) := by
  obtain ⟨a1, a2, a3⟩ := codes_wf _ hi
  intro n
  induction n with
  | zero => intro s _; simp [decLoop, samples]
  | succ n ih =>
    intro s hs
    have e : (s + (n + 1)) * packedOctets i.code = (s + 1 + n) * packedOctets i.code := by ring
    have e1 : s * packedOctets i.code + packedOctets i.code = (s + 1) * packedOctets i.code := by ring
    have hle : (s + 1) * packedOctets i.code ≤ (s + 1 + n) * packedOctets i.code :=
      Nat.mul_le_mul_right _ (by omega)
    unfold decLoop
    rw [unpack_aligned i.code ai a3 i.big b _ (by omega)]
    simp only [Option.bind_some]
    rw [e1, ih (s + 1) (by omega), ← e]
    simp only [Option.map_some, Option.some.injEq]
    refine Prod.ext ?_ rfl
    show _ :: _ = _
    rw [toFloat_finish i.code hi _ (by
      rw [← pow256 _ ai]
      exact container_lt _ _ _ _ hb)]
    unfold samples
    rw [List.range_succ_eq_map, List.map_cons, List.map_map]
    congr 1
    · unfold levelAt
      rw [packed_octets i.code ai, Nat.add_zero]
    · apply List.map_congr_left
      intro j _
      simp only [Function.comp]
      congr 2
      omega

theorem decMap_spec (i : Fmt) (hi : i.code ∈ codes) (ai : i.code.packed % 8 = 0) (b : List Nat)
    (hb : ∀ x ∈ b, x < 256) (s n : Nat) (h : (s + n) * packedOctets i.code ≤ b.length) :
    decMap i b (8 * (s * packedOctets i.code)) n
      = .ok (samples i b s n, 8 * ((s + n) * packedOctets i.code)) := by
  have hk0 := octets_pos i.code hi ai
  have hle : s * packedOctets i.code ≤ (s + n) * packedOctets i.code :=
    Nat.mul_le_mul_right _ (by omega)
  unfold decMap
  rw [if_neg (by omega)]
  simp only
  rw [room i.code hi ai]
  have hm : min n ((b.length - s * packedOctets i.code) / packedOctets i.code) = n := by
    rw [min_eq_left]
    rw [Nat.le_div_iff_mul_le hk0]
    have : (s + n) * packedOctets i.code = s * packedOctets i.code + n * packedOctets i.code := by ring
    omega
  rw [hm]
  by_cases h0 : n = 0
  · subst h0
    simp [samples]
  · rw [if_pos h0, decLoop_spec i hi ai b hb n s h]
    rfl

end Verif.PcmCoder
