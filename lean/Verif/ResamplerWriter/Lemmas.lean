import Verif.ResamplerWriter.Spec
import Verif.BuiltinResampler.RunLemmas
import Verif.BuiltinResampler.Lemmas

/-!
# Resampler writer: lemmas
-/

namespace Verif.ResamplerWriter

open Verif.BuiltinResampler Verif.BuiltinResampler.Spec Spec

variable {β : Type}

theorem count_eq (q dt p k m : Nat) (hdt : 0 < dt) (h1 : (k - 2) * q ≤ p + m * dt)
    (h2 : 0 < m → p + (m - 1) * dt < (k - 2) * q) : count q dt p k = m := by
  unfold count
  obtain ⟨x, hx⟩ : ∃ x, x = (k - 2) * q := ⟨_, rfl⟩
  rw [← hx] at h1 h2 ⊢
  by_cases hm : m = 0
  · subst hm
    rw [show x - p = 0 by omega, Nat.zero_add, Nat.div_eq_of_lt (by omega)]
  · have h3 := h2 (by omega)
    obtain ⟨m, rfl⟩ : ∃ m', m = m' + 1 := ⟨m - 1, by omega⟩
    rw [show m + 1 - 1 = m by omega] at h3
    apply Nat.div_eq_of_lt_le
    · have e : (m + 1) * dt = m * dt + dt := by ring
      omega
    · have e : (m + 1) * dt = m * dt + dt := by ring
      have e2 : (m + 1 + 1) * dt = m * dt + 2 * dt := by ring
      show _ < (m + 1 + 1) * dt
      omega

theorem count_shift (q dt p k m : Nat) (hdt : 0 < dt)
    (h2 : 0 < m → p + (m - 1) * dt < (k - 2) * q) :
    count q dt p k = m + count q dt (p + m * dt) k := by
  by_cases h : (k - 2) * q ≤ p + m * dt
  · rw [count_eq q dt p k m hdt h h2, count_eq q dt (p + m * dt) k 0 hdt (by omega) (by omega)]
    rfl
  · unfold count
    obtain ⟨x, hx⟩ : ∃ x, x = (k - 2) * q := ⟨_, rfl⟩
    rw [← hx] at h ⊢
    rw [show x - p + (dt - 1) = x - (p + m * dt) + (dt - 1) + m * dt by omega,
      Nat.add_mul_div_right _ _ hdt]
    omega

/-- State after `n` elements of the stream were written, when the next output sample is at position `p`. -/
def WRel (c : Cfg) (xs : List β) (n p : Nat) (w : W β) : Prop :=
  ∃ base, Rel c (block xs c.frame) (n / c.frame) p base ∧ base.s < m32
    ∧ (∀ b y, base.content b = some y → y.length ≤ c.frame)
    ∧ w.inPos = n % c.frame
    ∧ (n % c.frame = 0 → w.st = base)
    ∧ (n % c.frame ≠ 0 → (n / c.frame - 2) * c.q ≤ p ∧ w.buf = base.begin.1
      ∧ ∃ rest, (((xs.drop (n / c.frame * c.frame)).take (n % c.frame)) ++ rest).length ≤ c.frame
        ∧ w.st = base.begin.2.fill base.begin.1
            (((xs.drop (n / c.frame * c.frame)).take (n % c.frame)) ++ rest))

theorem fill_fill (st : St (List β)) (b : Nat) (x y : List β) : (st.fill b x).fill b y = st.fill b y := by
  unfold St.fill
  simp only [St.mk.injEq, true_and, and_true]
  funext k
  split_ifs <;> rfl

theorem begin_content (st : St (List β)) : st.begin.2.content = st.content := by
  unfold St.begin
  split <;> rfl

theorem begin_s (st : St (List β)) : st.begin.2.s = st.s := by
  unfold St.begin
  split <;> rfl

theorem begin_ready (st : St (List β)) : st.begin.2.ready = st.ready := by
  unfold St.begin
  split <;> rfl

theorem wrel_init (c : Cfg) (xs : List β) : WRel c xs 0 0 W.init := by
  refine ⟨St.init, ?_, ?_, ?_, ?_, ?_, ?_⟩
  · rw [Nat.zero_div]
    exact rel_init c _
  · show 0 < m32
    unfold m32
    omega
  · intro b y h
    cases h
  · rw [Nat.zero_mod]
    rfl
  · intro _
    rfl
  · intro h
    rw [Nat.zero_mod] at h
    omega

theorem rel_ready (c : Cfg) (blk : Nat → List β) (k p : Nat) (st : St (List β)) (h : Rel c blk k p st) :
    (k < 3 ∧ st.ready = k) ∨ (3 ≤ k ∧ st.ready = 3 ∧ p = (k - 3) * c.q + st.s) := by
  rcases h with ⟨h1, _, _, h4, _⟩ | ⟨h1, h2, h3, _⟩
  · exact Or.inl ⟨h1, h4⟩
  · exact Or.inr ⟨h1, h3, h2⟩

theorem content_finish (c : Cfg) (st : St (List β)) : (st.finish c).content = st.content := rfl

/-- Part of a stream. -/
theorem drop_take_add (xs : List β) (a m n : Nat) :
    (xs.drop a).take m ++ (xs.drop (a + m)).take n = (xs.drop a).take (m + n) := by
  rw [List.take_add, List.drop_drop]

theorem push_spec (c : Cfg) (xs ys : List β) (n p : Nat) (w : W β) (hF : 0 < c.frame) (hR : WRel c xs n p w)
    (hp : (n / c.frame - 2) * c.q ≤ p) (hys : ys = (xs.drop n).take ys.length)
    (hlen : n + ys.length ≤ xs.length) (hne : ys ≠ []) :
    ∃ w', pushInput c ys w = (min ys.length (c.frame - n % c.frame), w')
      ∧ WRel c xs (n + min ys.length (c.frame - n % c.frame)) p w' ∧ w'.acc = w.acc := by
  obtain ⟨base, h1, h2, h3, h4, h5, h6⟩ := hR
  obtain ⟨k, hk⟩ : ∃ k, k = n / c.frame := ⟨_, rfl⟩
  obtain ⟨r, hr⟩ : ∃ r, r = n % c.frame := ⟨_, rfl⟩
  have hn : k * c.frame + r = n := by rw [hk, hr, Nat.mul_comm]; exact Nat.div_add_mod _ _
  have hrF : r < c.frame := by rw [hr]; exact Nat.mod_lt _ hF
  obtain ⟨m, hm⟩ : ∃ m, m = min ys.length (c.frame - r) := ⟨_, rfl⟩
  rw [← hk] at h1 h6 hp
  rw [← hr] at h4 h5 h6 ⊢
  rw [← hm]
  -- the buffer and the state before copying
  have hb : (if w.inPos = 0 then w.st.begin else (w.buf, w.st)).1 = base.begin.1
      ∧ ∀ y, ((if w.inPos = 0 then w.st.begin else (w.buf, w.st)).2).fill base.begin.1 y
        = base.begin.2.fill base.begin.1 y := by
    by_cases h0 : r = 0
    · rw [if_pos (by omega), h5 h0]
      exact ⟨rfl, fun _ => rfl⟩
    · obtain ⟨_, g2, rest, g3, g4⟩ := h6 h0
      rw [if_neg (by omega)]
      refine ⟨g2, fun y => ?_⟩
      simp only
      rw [g4, fill_fill]
  -- what is in the buffer after copying
  have hcopy : ∃ rest, copyAt (((if w.inPos = 0 then w.st.begin else (w.buf, w.st)).2).content base.begin.1)
        w.inPos (ys.take m) = (xs.drop (k * c.frame)).take (r + m) ++ rest
      ∧ ((xs.drop (k * c.frame)).take (r + m) ++ rest).length ≤ c.frame := by
    have hysm : ys.take m = (xs.drop (k * c.frame + r)).take m := by
      rw [hn]
      conv_lhs => rw [hys]
      rw [List.take_take, Nat.min_eq_left (by omega)]
    have hl : ((xs.drop (k * c.frame)).take (r + m)).length = r + m := by
      rw [List.length_take, List.length_drop]
      omega
    have hlr : ((xs.drop (k * c.frame)).take r).length = r := by
      rw [List.length_take, List.length_drop]
      omega
    have hlm : (ys.take m).length = m := by
      rw [List.length_take]
      omega
    by_cases h0 : r = 0
    · rw [if_pos (by omega), h5 h0, begin_content, h4]
      unfold copyAt
      rw [hlm, hysm, h0, List.take_zero, List.nil_append, Nat.zero_add, Nat.add_zero]
      refine ⟨_, rfl, ?_⟩
      rw [h0, Nat.zero_add] at hl
      rw [List.length_append, hl, List.length_drop]
      cases hc : base.content base.begin.1 with
      | none => simp; omega
      | some y =>
        have := h3 _ _ hc
        simp only [Option.getD_some]
        omega
    · obtain ⟨_, g2, rest, g3, g4⟩ := h6 h0
      rw [if_neg (by omega)]
      simp only
      rw [g4, h4]
      have hcont : (base.begin.2.fill base.begin.1 ((xs.drop (k * c.frame)).take r ++ rest)).content
          base.begin.1 = some ((xs.drop (k * c.frame)).take r ++ rest) := by
        unfold St.fill
        simp
      rw [hcont]
      unfold copyAt
      rw [hlm, Option.getD_some, List.take_append_of_le_length (by omega), List.take_of_length_le (by omega),
        hysm, drop_take_add]
      refine ⟨_, rfl, ?_⟩
      rw [List.length_append, hlr] at g3
      rw [List.length_append, hl, List.length_drop, List.length_append, hlr]
      omega
  obtain ⟨rest, hc1, hc2⟩ := hcopy
  have hnm : n + m = k * c.frame + (r + m) := by omega
  unfold pushInput
  simp only
  rw [h4] at hc1 hb
  rw [h4, ← hm, hb.1, hc1, hb.2]
  by_cases hfull : r + m = c.frame
  · rw [if_pos hfull]
    refine ⟨_, rfl, ?_, rfl⟩
    have hdiv : (n + m) / c.frame = k + 1 := by
      rw [hnm, hfull, show k * c.frame + c.frame = (k + 1) * c.frame by ring, Nat.mul_div_left _ hF]
    have hmod : (n + m) % c.frame = 0 := by
      rw [hnm, hfull, show k * c.frame + c.frame = (k + 1) * c.frame by ring, Nat.mul_mod_left]
    have hrest : rest = [] := by
      rw [List.length_append, List.length_take, List.length_drop] at hc2
      exact List.length_eq_zero_iff.1 (by omega)
    have hblock : (xs.drop (k * c.frame)).take (r + m) ++ rest = block xs c.frame k := by
      rw [hrest, List.append_nil, hfull]
      rfl
    obtain ⟨st', g1, g2, g3⟩ := rel_push c (block xs c.frame) k p base h2 (Or.inl hp) h1
    have hst' : st' = (base.begin.2.fill base.begin.1 (block xs c.frame k)).finish c := by
      unfold BuiltinResampler.pushInput at g1
      simp only [if_true, Prod.mk.injEq, true_and] at g1
      exact g1.symm
    rw [hblock, ← hst']
    refine ⟨st', by rw [hdiv]; exact g3, by omega, ?_, by rw [hmod], fun _ => rfl, fun h => by omega⟩
    intro b y hy
    rw [hst', content_finish] at hy
    unfold St.fill at hy
    simp only at hy
    split_ifs at hy with hbb
    · simp only [Option.some.injEq] at hy
      rw [← hy, ← hblock]
      exact hc2
    · rw [begin_content] at hy
      exact h3 b y hy
  · rw [if_neg hfull]
    refine ⟨_, rfl, ?_, rfl⟩
    have hlt : r + m < c.frame := by omega
    have hdiv : (n + m) / c.frame = k := by
      rw [hnm, Nat.add_comm, Nat.add_mul_div_right _ _ hF, Nat.div_eq_of_lt hlt, Nat.zero_add]
    have hmod : (n + m) % c.frame = r + m := by
      rw [hnm, Nat.add_comm, Nat.add_mul_mod_self_right, Nat.mod_eq_of_lt hlt]
    refine ⟨base, by rw [hdiv]; exact h1, h2, h3, by rw [hmod], ?_, ?_⟩
    · intro h
      rw [hmod] at h
      have := List.length_pos_iff.2 hne
      omega
    · intro _
      rw [hdiv, hmod]
      exact ⟨hp, rfl, rest, hc2, rfl⟩

/-- Samples at the positions from `p`. -/
def outs (c : Cfg) (xs : List β) (dt p m : Nat) : List (Obs (List β)) :=
  (List.range m).map fun j => observe (block xs c.frame) c.q (p + j * dt)

theorem outs_add (c : Cfg) (xs : List β) (dt p m n : Nat) :
    outs c xs dt p (m + n) = outs c xs dt p m ++ outs c xs dt (p + m * dt) n := by
  unfold outs
  rw [List.range_add, List.map_append, List.map_map]
  refine congrArg _ ?_
  apply List.map_congr_left
  intro j _
  show observe _ _ (p + (m + j) * dt) = observe _ _ (p + m * dt + j * dt)
  rw [show p + (m + j) * dt = p + m * dt + j * dt by ring]

theorem outs_length (c : Cfg) (xs : List β) (dt p m : Nat) : (outs c xs dt p m).length = m := by
  unfold outs
  rw [List.length_map, List.length_range]

theorem pop_spec (c : Cfg) (xs : List β) (dt n p rr : Nat) (w : W β) (hq : 0 < c.q) (hdt : c.q + dt ≤ m32)
    (hR : WRel c xs n p w) :
    ∃ m st', m ≤ rr ∧ pop c dt rr w.st = (outs c xs dt p m, st')
      ∧ WRel c xs n (p + m * dt) { w with st := st' }
      ∧ (m < rr → (n / c.frame - 2) * c.q ≤ p + m * dt)
      ∧ (0 < m → p + (m - 1) * dt < (n / c.frame - 2) * c.q) := by
  have hR0 := hR
  obtain ⟨base, h1, h2, h3, h4, h5, h6⟩ := hR
  obtain ⟨k, hk⟩ : ∃ k, k = n / c.frame := ⟨_, rfl⟩
  by_cases h0 : n % c.frame = 0
  · have hst := h5 h0
    rcases rel_ready c _ _ p base h1 with ⟨g1, g2⟩ | ⟨g1, g2, g3⟩
    · refine ⟨0, w.st, by omega, ?_, ?_, ?_, by omega⟩
      · unfold pop
        rw [if_pos (by rw [hst]; omega)]
        rfl
      · rw [Nat.zero_mul, Nat.add_zero]
        exact hR0
      · intro _
        rw [show n / c.frame - 2 = 0 by omega, Nat.zero_mul]
        exact Nat.zero_le _
    · obtain ⟨m, st', i1, i2, i3, i4, i5, i6, i7, i8⟩ :=
        popLoop_spec c (block xs c.frame) dt hq hdt (n / c.frame) g1 rr p base h1
      refine ⟨m, st', i1, ?_, ?_, i4, ?_⟩
      · unfold pop
        rw [if_neg (by rw [hst]; omega), hst, i2]
        rfl
      · refine ⟨st', i3, i6 h2, ?_, h4, fun _ => rfl, fun h => absurd h0 h⟩
        have hcont : ∀ (r : Nat) (s : St (List β)), (popLoop c dt r s).2.content = s.content := by
          intro r
          induction r with
          | zero => intro s; rfl
          | succ r ih =>
            intro s
            simp only [popLoop]
            split_ifs
            · rfl
            · exact ih _
        have := hcont rr base
        rw [i2] at this
        simp only at this
        rw [this]
        exact h3
      · intro hm
        have := i5 hm
        obtain ⟨z, hz⟩ : ∃ z, z = p + (m - 1) * dt := ⟨_, rfl⟩
        rw [← hz] at this ⊢
        have h7 := Nat.lt_mul_div_succ z hq
        rw [Nat.mul_comm] at h7
        rw [show n / c.frame - 2 = z / c.q + 1 by omega]
        exact h7
  · obtain ⟨g1, g2, rest, g3, g4⟩ := h6 h0
    refine ⟨0, w.st, by omega, ?_, ?_, ?_, by omega⟩
    · have hready : w.st.ready = base.ready := by
        rw [g4]
        show base.begin.2.ready = _
        exact begin_ready _
      have hs : w.st.s = base.s := by
        rw [g4]
        show base.begin.2.s = _
        exact begin_s _
      unfold pop
      rcases rel_ready c _ _ p base h1 with ⟨e1, e2⟩ | ⟨e1, e2, e3⟩
      · rw [if_pos (by omega)]
        rfl
      · rw [if_neg (by omega)]
        have hsq : w.st.s ≥ c.q := by
          rw [hs]
          have e : (n / c.frame - 2) * c.q = (n / c.frame - 3) * c.q + c.q := by
            obtain ⟨j, hj⟩ : ∃ j, n / c.frame = j + 3 := ⟨n / c.frame - 3, by omega⟩
            rw [hj, show j + 3 - 2 = j + 1 by omega, show j + 3 - 3 = j by omega]
            ring
          omega
        cases rr with
        | zero => rfl
        | succ r =>
          simp only [popLoop]
          rw [if_pos hsq]
          rfl
    · rw [Nat.zero_mul, Nat.add_zero]
      exact hR0
    · intro _
      omega

theorem wrel_acc (c : Cfg) (xs : List β) (n p : Nat) (w : W β) (a : List (Obs (List β)))
    (h : WRel c xs n p w) : WRel c xs n p { w with acc := a } := h

/-- How many samples come out while `ys` is written. -/
def due (c : Cfg) (dt n p : Nat) (ys : List β) : Nat :=
  if ys = [] then 0 else count c.q dt p ((n + ys.length - 1) / c.frame)

/-- What is known of the samples in the output buffer. -/
def AccOk (c : Cfg) (xs : List β) (dt n p : Nat) (acc : List (Obs (List β))) : Prop :=
  acc ≠ [] → ∃ pa, acc = outs c xs dt pa acc.length ∧ p = pa + acc.length * dt
    ∧ p ≤ (n / c.frame - 1) * c.q ∧ 3 ≤ n / c.frame

/-- A frame, when `n0` elements were written before a frame of `len` elements: it has the samples from a
position `p0` on, and the numbers for the timestamp tell this position. -/
def OutOk (c : Cfg) (xs : List β) (dt n0 len : Nat) (f : Out β) : Prop :=
  f.bufPos ≤ c.frame ∧ f.inPos ≤ len ∧ f.left ≤ 2 * c.q ∧ ∃ p0, f.samples = outs c xs dt p0 f.samples.length
    ∧ (n0 + f.inPos) * one = f.bufPos * one + f.left + c.q + (p0 + f.samples.length * dt)

theorem left_spec (c : Cfg) (xs : List β) (n p : Nat) (w : W β) (hq : c.q = c.frame * one)
    (hqb : c.q + c.q < m32) (hR : WRel c xs n p w) (h3 : 3 ≤ n / c.frame)
    (hp : p ≤ (n / c.frame - 1) * c.q) :
    n * one = w.inPos * one + nLeft c w.st + c.q + p ∧ nLeft c w.st ≤ 2 * c.q := by
  obtain ⟨base, h1, h2, _, h4, h5, h6⟩ := hR
  have hs : w.st.s = base.s := by
    by_cases h0 : n % c.frame = 0
    · rw [h5 h0]
    · obtain ⟨_, _, rest, _, g4⟩ := h6 h0
      rw [g4]
      show base.begin.2.s = _
      exact begin_s _
  rcases rel_ready c _ _ p base h1 with ⟨g1, _⟩ | ⟨_, _, g3⟩
  · omega
  · have hn := Nat.div_add_mod n c.frame
    obtain ⟨k, hk⟩ : ∃ k, n / c.frame = k + 3 := ⟨n / c.frame - 3, by omega⟩
    rw [hk] at g3 hp hn
    rw [show k + 3 - 3 = k by omega] at g3
    rw [show k + 3 - 1 = k + 2 by omega] at hp
    have e1 : (k + 2) * c.q = k * c.q + 2 * c.q := by ring
    have e2 : n * one = k * c.q + 3 * c.q + w.inPos * one := by
      rw [h4, hq]
      conv_lhs => rw [← hn]
      ring
    unfold nLeft
    rw [Nat.mod_eq_of_lt (by omega), sub32_eq _ _ (by omega) (by omega), hs]
    omega

theorem out_ok (c : Cfg) (xs : List β) (dt n0 len pos p : Nat) (w : W β) (hF : 0 < c.frame) (hlen : pos ≤ len) (acc : List (Obs (List β))) (hq : c.q = c.frame * one)
    (hqb : c.q + c.q < m32) (hR : WRel c xs (n0 + pos) p w) (hne : acc ≠ []) (ha : AccOk c xs dt (n0 + pos) p acc) :
    OutOk c xs dt n0 len ⟨acc, pos, w.inPos, nLeft c w.st⟩ := by
  obtain ⟨pa, g1, g2, g3, g4⟩ := ha hne
  obtain ⟨e1, e2⟩ := left_spec c xs _ _ w hq hqb hR g4 g3
  refine ⟨?_, hlen, e2, pa, g1, ?_⟩
  · obtain ⟨_, _, _, _, h4, _⟩ := hR
    show w.inPos ≤ c.frame
    rw [h4]
    exact le_of_lt (Nat.mod_lt _ hF)
  · simp only
    rw [e1, g2]

theorem acc_mono (c : Cfg) (xs : List β) (dt n m p : Nat) (acc : List (Obs (List β))) (h : n ≤ m)
    (ha : AccOk c xs dt n p acc) : AccOk c xs dt m p acc := by
  intro hne
  obtain ⟨pa, g1, g2, g3, g4⟩ := ha hne
  have := Nat.div_le_div_right (c := c.frame) h
  refine ⟨pa, g1, g2, g3.trans (Nat.mul_le_mul_right _ (by omega)), by omega⟩

theorem acc_pop (c : Cfg) (xs : List β) (dt n p m : Nat) (acc : List (Obs (List β)))
    (hdt : dt ≤ c.q) (ha : AccOk c xs dt n p acc)
    (hm : 0 < m → p + (m - 1) * dt < (n / c.frame - 2) * c.q) :
    AccOk c xs dt n (p + m * dt) (acc ++ outs c xs dt p m) := by
  intro hne
  by_cases h0 : m = 0
  · subst h0
    have e : outs c xs dt p 0 = [] := rfl
    rw [e, List.append_nil] at hne ⊢
    obtain ⟨pa, g1, g2, g3, g4⟩ := ha hne
    exact ⟨pa, g1, by rw [Nat.zero_mul, Nat.add_zero]; exact g2, by rw [Nat.zero_mul, Nat.add_zero]; exact g3, g4⟩
  · have h1 := hm (by omega)
    have hk : 3 ≤ n / c.frame := by
      by_contra h
      rw [show n / c.frame - 2 = 0 by omega, Nat.zero_mul] at h1
      omega
    obtain ⟨k, hkk⟩ : ∃ k, n / c.frame = k + 3 := ⟨n / c.frame - 3, by omega⟩
    have h2 : p + m * dt ≤ (n / c.frame - 1) * c.q := by
      obtain ⟨j, rfl⟩ : ∃ j, m = j + 1 := ⟨m - 1, by omega⟩
      rw [hkk] at h1 ⊢
      rw [show k + 3 - 2 = k + 1 by omega, show j + 1 - 1 = j by omega] at h1
      rw [show k + 3 - 1 = k + 2 by omega]
      have e1 : (j + 1) * dt = j * dt + dt := by ring
      have e2 : (k + 2) * c.q = (k + 1) * c.q + c.q := by ring
      omega
    by_cases hacc : acc = []
    · subst hacc
      refine ⟨p, ?_, ?_, h2, hk⟩
      · rw [List.nil_append, outs_length]
      · rw [List.nil_append, outs_length]
    · obtain ⟨pa, g1, g2, _, _⟩ := ha hacc
      refine ⟨pa, ?_, ?_, h2, hk⟩
      · rw [List.length_append, outs_length, outs_add, ← g1, ← g2]
      · rw [List.length_append, outs_length, g2]
        ring

theorem loop_spec (c : Cfg) (xs : List β) (dt size full : Nat) (hF : 0 < c.frame) (hn : 0 < c.nch)
    (hq : 0 < c.q) (hqe : c.q = c.frame * one) (hqb : c.q + c.q < m32) (hdt : dt ≤ c.q) (hdt0 : 0 < dt) (hfull : size = full * c.nch) (hf0 : 0 < full)
    (n0 len : Nat) :
    ∀ (fuel : Nat) (pos : Nat) (ys : List β) (n p : Nat) (w : W β), n = n0 + pos → pos + ys.length ≤ len → WRel c xs n p w →
    AccOk c xs dt n p w.acc →
    ys = (xs.drop n).take ys.length → n + ys.length ≤ xs.length → w.acc.length < full →
    ys.length + due c dt n p ys ≤ fuel →
    ∃ frames w', writeLoop c dt size fuel pos ys w = .ok (frames, w')
      ∧ (frames.map Out.samples).flatten ++ w'.acc = w.acc ++ outs c xs dt p (due c dt n p ys)
      ∧ WRel c xs (n + ys.length) (p + due c dt n p ys * dt) w' ∧ w'.acc.length < full
      ∧ AccOk c xs dt (n + ys.length) (p + due c dt n p ys * dt) w'.acc
      ∧ ∀ f ∈ frames, f.samples.length = full ∧ OutOk c xs dt n0 len f := by
  intro fuel
  induction fuel with
  | zero =>
    intro pos ys n p w hpos hpl hR hA hys hlen hacc hfuel
    have : ys = [] := List.length_eq_zero_iff.1 (by omega)
    subst this
    refine ⟨[], w, ?_, ?_, ?_, hacc, ?_, fun f h => by cases h⟩
    · unfold writeLoop
      rw [if_pos rfl]
    · simp [due, outs]
    · simpa [due] using hR
    · simpa [due] using hA
  | succ fuel ih =>
    intro pos ys n p w hpos hpl hR hA hys hlen hacc hfuel
    by_cases hne : ys = []
    · subst hne
      refine ⟨[], w, ?_, ?_, ?_, hacc, ?_, fun f h => by cases h⟩
      · unfold writeLoop
        rw [if_pos rfl]
      · simp [due, outs]
      · simpa [due] using hR
      · simpa [due] using hA
    · obtain ⟨rr, hrr⟩ : ∃ rr, rr = full - w.acc.length := ⟨_, rfl⟩
      have hroom : size - w.acc.length * c.nch = rr * c.nch := by
        rw [hfull, hrr, Nat.sub_mul]
      have hceil : (rr * c.nch + (c.nch - 1)) / c.nch = rr := by
        rw [Nat.add_comm, Nat.add_mul_div_right _ _ hn, Nat.div_eq_of_lt (by omega), Nat.zero_add]
      obtain ⟨m, st', i1, i2, i3, i4, i5⟩ := pop_spec c xs dt n p rr w hq (by omega) hR
      have hA' := acc_pop c xs dt n p m w.acc hdt hA i5
      have hpop : popRoom c dt (size - w.acc.length * c.nch) w.st = .ok (outs c xs dt p m, st') := by
        unfold popRoom
        simp only
        rw [hroom, hceil, i2, outs_length, if_neg]
        exact not_lt.2 (Nat.mul_le_mul_right _ i1)
      have hypos := List.length_pos_iff.2 hne
      obtain ⟨kk, hkk⟩ : ∃ kk, kk = (n + ys.length - 1) / c.frame := ⟨_, rfl⟩
      have hdue : due c dt n p ys = count c.q dt p kk := by
        unfold due
        rw [if_neg hne, hkk]
      have hkle : n / c.frame ≤ kk := by
        rw [hkk]
        exact Nat.div_le_div_right (by omega)
      have hbelow : 0 < m → p + (m - 1) * dt < (kk - 2) * c.q := by
        intro hm
        exact lt_of_lt_of_le (i5 hm) (Nat.mul_le_mul_right _ (by omega))
      have hshift := count_shift c.q dt p kk m hdt0 hbelow
      unfold writeLoop
      rw [if_neg hne]
      simp only
      rw [hpop]
      simp only [Except.bind]
      rw [outs_length, hroom]
      by_cases hmr : m < rr
      · rw [if_pos (Nat.mul_lt_mul_of_pos_right hmr hn)]
        obtain ⟨w1, j1, j2, j3⟩ := push_spec c xs ys n (p + m * dt) { w with st := st' } hF i3 (i4 hmr) hys
          hlen hne
        rw [j1]
        simp only
        obtain ⟨t, ht⟩ : ∃ t, t = min ys.length (c.frame - n % c.frame) := ⟨_, rfl⟩
        have hmodlt := Nat.mod_lt n hF
        rw [← ht] at j2 ⊢
        rw [if_neg (by
          rw [List.length_append, outs_length, hfull]
          intro h
          have := Nat.eq_of_mul_eq_mul_right hn h
          omega)]
        have hdue2 : due c dt (n + t) (p + m * dt) (ys.drop t) + m = due c dt n p ys := by
          unfold due
          by_cases hall : ys.drop t = []
          · rw [if_pos hall, if_neg hne, ← hkk]
            have hte : t = ys.length := by
              have := List.drop_eq_nil_iff.1 hall
              omega
            have hkn : kk = n / c.frame := by
              apply le_antisymm _ hkle
              rw [hkk]
              have h8 : n + ys.length - 1 < (n / c.frame + 1) * c.frame := by
                have := Nat.div_add_mod n c.frame
                rw [Nat.mul_comm] at this
                have e : (n / c.frame + 1) * c.frame = n / c.frame * c.frame + c.frame := by ring
                omega
              have := (Nat.div_lt_iff_lt_mul hF).2 h8
              omega
            rw [count_eq c.q dt p kk m hdt0 (by rw [hkn]; exact i4 hmr) hbelow]
            omega
          · rw [if_neg hall, if_neg hne, ← hkk, hshift, List.length_drop,
              show n + t + (ys.length - t) - 1 = n + ys.length - 1 by omega, ← hkk]
            omega
        obtain ⟨frames, w', g1, g2, g3, g4, g6, g5⟩ := ih (pos + t) (ys.drop t) (n + t) (p + m * dt)
          { w1 with acc := w.acc ++ outs c xs dt p m } (by omega) (by rw [List.length_drop]; omega)
          (wrel_acc c xs _ _ w1 _ j2)
          (acc_mono c xs dt n (n + t) _ _ (by omega) hA')
          (by
            rw [List.length_drop]
            conv_lhs => rw [hys]
            rw [List.drop_take, List.drop_drop])
          (by rw [List.length_drop]; omega)
          (by
            show (w.acc ++ outs c xs dt p m).length < full
            rw [List.length_append, outs_length]
            omega)
          (by rw [List.length_drop]; omega)
        have ep : p + due c dt n p ys * dt
            = p + m * dt + due c dt (n + t) (p + m * dt) (ys.drop t) * dt := by
          rw [← hdue2]
          ring
        rw [List.length_drop, show n + t + (ys.length - t) = n + ys.length by omega] at g3 g6
        refine ⟨frames, w', g1, ?_, by rw [ep]; exact g3, g4, by rw [ep]; exact g6, g5⟩
        · rw [g2, show due c dt n p ys = m + due c dt (n + t) (p + m * dt) (ys.drop t) by omega, outs_add]
          simp only [List.append_assoc]
      · have hmr' : m = rr := by omega
        rw [if_neg (show ¬ m * c.nch < rr * c.nch by rw [hmr']; exact lt_irrefl _)]
        simp only [List.drop_zero]
        rw [if_pos (by
          rw [List.length_append, outs_length, hfull]
          exact congrArg (· * c.nch) (by omega))]
        have hdue2 : due c dt n (p + m * dt) ys + m = due c dt n p ys := by
          rw [hdue, hshift]
          unfold due
          rw [if_neg hne, ← hkk]
          omega
        obtain ⟨frames, w', g1, g2, g3, g4, g6, g5⟩ := ih pos ys n (p + m * dt)
          { w with st := st', acc := [] } hpos hpl (wrel_acc c xs _ _ _ _ i3) (fun h => absurd rfl h) hys hlen
          hf0 (by omega)
        have ep : p + due c dt n p ys * dt = p + m * dt + due c dt n (p + m * dt) ys * dt := by
          rw [← hdue2]
          ring
        rw [Nat.add_zero, g1]
        refine ⟨_, w', rfl, ?_, by rw [ep]; exact g3, g4, by rw [ep]; exact g6, ?_⟩
        · rw [List.map_cons, List.flatten_cons, List.append_assoc, g2,
            show due c dt n p ys = m + due c dt n (p + m * dt) ys by omega, outs_add]
          simp only [List.append_assoc, List.nil_append]
        · intro f hf
          rcases List.mem_cons.1 hf with rfl | hf
          · have hl : (w.acc ++ outs c xs dt p m).length = full := by
              rw [List.length_append, outs_length]
              omega
            refine ⟨hl, ?_⟩
            rw [hpos] at i3 hA'
            refine out_ok c xs dt n0 len pos (p + m * dt) { w with st := st' } hF (by omega) _ hqe hqb i3 ?_ hA'
            intro h
            rw [h] at hl
            simp at hl
            omega
          · exact g5 f hf

theorem write_spec (c : Cfg) (xs : List β) (dt size full : Nat) (hF : 0 < c.frame) (hn : 0 < c.nch)
    (hq : 0 < c.q) (hqe : c.q = c.frame * one) (hqb : c.q + c.q < m32) (hdt : dt ≤ c.q) (hdt0 : 0 < dt) (hfull : size = full * c.nch) (hf0 : 0 < full)
    (fuel : Nat) (ys : List β) (n p : Nat) (w : W β) (hR : WRel c xs n p w)
    (hys : ys = (xs.drop n).take ys.length) (hlen : n + ys.length ≤ xs.length) (hacc : w.acc = [])
    (hfuel : ys.length + due c dt n p ys ≤ fuel) :
    ∃ frames w', write c dt size fuel ys w = .ok (frames, w')
      ∧ (frames.map Out.samples).flatten = outs c xs dt p (due c dt n p ys)
      ∧ WRel c xs (n + ys.length) (p + due c dt n p ys * dt) w' ∧ w'.acc = []
      ∧ ∀ f ∈ frames, (0 < f.samples.length ∧ f.samples.length ≤ full) ∧ OutOk c xs dt n ys.length f := by
  obtain ⟨frames, w', g1, g2, g3, g4, g6, g5⟩ := loop_spec c xs dt size full hF hn hq hqe hqb hdt hdt0 hfull hf0
    n ys.length fuel 0 ys n p w rfl (by omega) hR (by rw [hacc]; exact fun h => absurd rfl h) hys hlen (by rw [hacc]; exact hf0) hfuel
  unfold write
  rw [g1]
  simp only [Except.map]
  rw [hacc, List.nil_append] at g2
  by_cases h : w'.acc.length = 0
  · rw [if_neg (not_not.2 h)]
    have h' := List.length_eq_zero_iff.1 h
    refine ⟨frames, w', rfl, by rw [← g2, h', List.append_nil], g3, h', ?_⟩
    intro f hf
    have := g5 f hf
    exact ⟨by omega, this.2⟩
  · rw [if_pos h]
    refine ⟨_, _, rfl, by rw [List.map_append, List.flatten_append]; simpa using g2, g3, rfl, ?_⟩
    intro f hf
    rcases List.mem_append.1 hf with hf | hf
    · have := g5 f hf
      exact ⟨by omega, this.2⟩
    · rw [List.mem_singleton.1 hf]
      refine ⟨by simp only; omega, ?_⟩
      exact out_ok c xs dt n ys.length ys.length _ w' hF le_rfl _ hqe hqb g3 (fun h0 => h (by rw [h0]; rfl)) g6

theorem loop_fuel (c : Cfg) (dt size : Nat) : ∀ (fuel k pos : Nat) (ys : List β) (w : W β) (x),
    writeLoop c dt size fuel pos ys w = .ok x → writeLoop c dt size (fuel + k) pos ys w = .ok x := by
  intro fuel
  induction fuel with
  | zero =>
    intro k pos ys w x h
    unfold writeLoop at h ⊢
    by_cases hy : ys = []
    · rw [if_pos hy] at h ⊢
      exact h
    · rw [if_neg hy] at h
      cases h
  | succ fuel ih =>
    intro k pos ys w x h
    rw [show fuel + 1 + k = fuel + k + 1 by omega]
    unfold writeLoop at h ⊢
    by_cases hy : ys = []
    · rw [if_pos hy] at h ⊢
      exact h
    · rw [if_neg hy] at h ⊢
      simp only at h ⊢
      cases hp : popRoom c dt (size - w.acc.length * c.nch) w.st with
      | error e =>
        rw [hp] at h
        cases h
      | ok r =>
        rw [hp] at h
        simp only [Except.bind] at h ⊢
        by_cases hs : (w.acc ++ r.1).length * c.nch = size
        · rw [if_pos hs] at h ⊢
          generalize hL : writeLoop c dt size fuel _ _ _ = L at h
          cases L with
          | error e => cases h
          | ok z =>
            rw [ih k _ _ _ _ hL]
            exact h
        · rw [if_neg hs] at h ⊢
          exact ih k _ _ _ _ h

theorem write_fuel (c : Cfg) (dt size fuel k : Nat) (ys : List β) (w : W β) (x)
    (h : write c dt size fuel ys w = .ok x) : write c dt size (fuel + k) ys w = .ok x := by
  unfold write at h ⊢
  generalize hL : writeLoop c dt size fuel 0 ys w = L at h
  cases L with
  | error e => cases h
  | ok z =>
    rw [loop_fuel c dt size fuel k 0 ys w z hL]
    exact h

/-- All steps set in a history, and the one in the beginning. -/
def AllSteps (b : Nat) (ops : List (Op β)) (dt : Nat) : Prop :=
  (0 < dt ∧ dt ≤ b) ∧ ∀ d, Op.set d ∈ ops → 0 < d ∧ d ≤ b

theorem run_spec (c : Cfg) (xs : List β) (size full : Nat) (hF : 0 < c.frame) (hn : 0 < c.nch)
    (hq : 0 < c.q) (hqe : c.q = c.frame * one) (hqb : c.q + c.q < m32) (hfull : size = full * c.nch)
    (hf0 : 0 < full) (fuel : Nat) :
    ∀ (ops : List (Op β)) (dt n p : Nat) (w : W β), WRel c xs n p w → w.acc = [] →
    input ops = (xs.drop n).take (input ops).length → n + (input ops).length ≤ xs.length →
    AllSteps c.q ops dt →
    (input ops).length + (positions c.frame c.q ops dt n p).length ≤ fuel →
    ∃ frames w', run c size fuel ops dt w = .ok (frames, w')
      ∧ (frames.map Out.samples).flatten
        = (positions c.frame c.q ops dt n p).map (observe (block xs c.frame) c.q)
      ∧ (∀ f ∈ frames, 0 < f.samples.length ∧ f.samples.length ≤ full)
      ∧ w'.acc = [] ∧ ∃ p', WRel c xs (n + (input ops).length) p' w' := by
  intro ops
  induction ops with
  | nil =>
    intro dt n p w hR hacc _ _ _ _
    exact ⟨[], w, rfl, rfl, (fun f h => by cases h), hacc, p, hR⟩
  | cons op ops ih =>
    intro dt n p w hR hacc hin hnl hok hfuel
    cases op with
    | set d =>
      exact ih d n p w hR hacc hin hnl ⟨hok.2 d (by simp), fun d' hd' => hok.2 d' (by simp [hd'])⟩ hfuel
    | write ys =>
      have hinl : (input (.write ys :: ops)).length = ys.length + (input ops).length := by
        show (ys ++ input ops).length = _
        rw [List.length_append]
      rw [hinl] at hin hnl
      have hin' : ys ++ input ops = (xs.drop n).take (ys.length + (input ops).length) := hin
      rw [List.take_add] at hin'
      obtain ⟨hys, hrest⟩ := List.append_inj hin' (by
        rw [List.length_take, List.length_drop]
        omega)
      rw [List.drop_drop] at hrest
      have hpos : positions c.frame c.q (.write ys :: ops) dt n p
          = (List.range (due c dt n p ys)).map (fun j => p + j * dt)
            ++ positions c.frame c.q ops dt (n + ys.length) (p + due c dt n p ys * dt) := rfl
      rw [hpos, hinl, List.length_append, List.length_map, List.length_range] at hfuel
      obtain ⟨f1, w1, g1, g2, g3, g4, g5⟩ := write_spec c xs dt size full hF hn hq hqe hqb
        hok.1.2 hok.1.1 hfull hf0 fuel ys n p w hR hys (by omega) hacc (by omega)
      obtain ⟨f2, w2, e1, e2, e3, e4, p', e5⟩ := ih dt (n + ys.length) (p + due c dt n p ys * dt) w1 g3 g4 hrest
        (by omega) ⟨hok.1, fun d' hd' => hok.2 d' (by simp [hd'])⟩ (by omega)
      refine ⟨f1 ++ f2, w2, ?_, ?_, ?_, e4, p', ?_⟩
      · simp only [run, g1, Except.bind, e1, Except.map]
      · rw [hpos, List.map_append, List.flatten_append, g2, e2, List.map_append, List.map_map]
        rfl
      · intro f hf
        rcases List.mem_append.1 hf with hf | hf
        · exact (g5 f hf).1
        · exact e3 f hf
      · rw [hinl, ← Nat.add_assoc]
        exact e5

end Verif.ResamplerWriter
