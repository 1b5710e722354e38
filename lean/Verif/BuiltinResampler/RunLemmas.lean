import Verif.BuiltinResampler.Spec
import Verif.SampleTime.Props
import Mathlib.Tactic.Ring
import Mathlib.Tactic.Linarith

/-!
# Built-in resampler: lemmas about histories
-/

namespace Verif.BuiltinResampler

open Spec Verif.PcmFormat

variable {α : Type}

theorem eps_zero : eps = 0 := by
  obtain ⟨e1, g1, q1⟩ := SampleTime.rnd_rel 24 (1 / 20000000)
  obtain ⟨e2, g2, q2⟩ := SampleTime.rnd_rel 24 (rnd 24 (1 / 20000000) * one)
  rw [abs_le] at g1 g2
  unfold eps
  have h0 : ⌊rnd 24 (rnd 24 (1 / 20000000) * one)⌋ = 0 := by
    rw [Int.floor_eq_iff, q2, q1]
    unfold one
    push_cast
    norm_num at g1 g2 ⊢
    constructor
    · have h1 : (0 : ℚ) ≤ 1 + e1 := by linarith
      have h2 : (0 : ℚ) ≤ 1 + e2 := by linarith
      positivity
    · have h1 : (0 : ℚ) ≤ 1 + e1 := by linarith
      have h2 : (0 : ℚ) ≤ 1 + e2 := by linarith
      have h3 : 1 + e1 ≤ 2 := by linarith
      have h4 : 1 + e2 ≤ 2 := by linarith
      nlinarith [mul_le_mul h3 h4 h2 (by norm_num : (0 : ℚ) ≤ 2)]
  rw [h0]
  rfl

theorem snap_id (s : Nat) : snap s = s := by
  unfold snap
  rw [eps_zero, if_neg (by omega), if_neg (by omega)]

/-- State after `k` blocks were taken, when the next output sample is at position `p`. -/
def Rel (c : Cfg) (blk : Nat → α) (k p : Nat) (st : St α) : Prop :=
  (k < 3 ∧ p = 0 ∧ st.s = 0 ∧ st.ready = k ∧ st.order = (0, 1, 2)
    ∧ ∀ i, i < k → st.content i = some (blk i))
  ∨ (3 ≤ k ∧ p = (k - 3) * c.q + st.s ∧ st.ready = 3 ∧ st.ptr = st.order
    ∧ st.order.1 ≠ st.order.2.1 ∧ st.order.1 ≠ st.order.2.2 ∧ st.order.2.1 ≠ st.order.2.2
    ∧ st.content st.order.1 = some (blk (k - 3)) ∧ st.content st.order.2.1 = some (blk (k - 2))
    ∧ st.content st.order.2.2 = some (blk (k - 1)))

theorem rel_init (c : Cfg) (blk : Nat → α) : Rel c blk 0 0 St.init := by
  left
  exact ⟨by omega, rfl, rfl, rfl, rfl, fun i h => by omega⟩

theorem rel_push (c : Cfg) (blk : Nat → α) (k p : Nat) (st : St α) (hs : st.s < m32)
    (hp : (k - 2) * c.q ≤ p ∨ k < 3) (h : Rel c blk k p st) :
    ∃ st', pushInput c (true, blk k) st = (true, st') ∧ st'.s ≤ st.s ∧ Rel c blk (k + 1) p st' := by
  unfold pushInput
  simp only [if_true]
  refine ⟨_, rfl, ?_, ?_⟩
  · have e : (st.begin.2.fill st.begin.1 (blk k)).s = st.s := by
      unfold St.fill St.begin
      split <;> rfl
    show (if _ ≥ c.q then _ else _) ≤ _
    rw [e]
    split_ifs with hq
    · unfold sub32
      rw [show st.s + m32 - c.q = st.s - c.q + m32 by omega, Nat.add_mod_right]
      exact (Nat.mod_le _ _).trans (by omega)
    · exact le_rfl
  · rcases h with ⟨h1, h2, h3, h4, h5, h6⟩ | ⟨h1, h2, h3, h4, h5, h6, h7, h8, h9, h10⟩
    · have hk : k = 0 ∨ k = 1 ∨ k = 2 := by omega
      have hfs : (if st.s ≥ c.q then sub32 st.s c.q else st.s) = 0 := by
        rw [h3]
        split_ifs with hq
        · unfold sub32
          rw [show 0 + m32 - c.q = m32 by omega, Nat.mod_self]
        · rfl
      rcases hk with rfl | rfl | rfl
      · left
        refine ⟨by omega, h2, ?_, ?_, ?_, ?_⟩
        · unfold St.finish St.fill St.begin
          rw [h4]
          exact hfs
        · unfold St.finish St.fill St.begin
          simp only [h4]
          rfl
        · unfold St.finish St.fill St.begin
          simp only [h4, h5]
        · intro i hi
          have : i = 0 := by omega
          subst this
          unfold St.finish St.fill St.begin
          simp only [h4, h5, if_true]
      · left
        refine ⟨by omega, h2, ?_, ?_, ?_, ?_⟩
        · unfold St.finish St.fill St.begin
          rw [h4]
          exact hfs
        · unfold St.finish St.fill St.begin
          simp only [h4]
          rfl
        · unfold St.finish St.fill St.begin
          simp only [h4, h5]
        · intro i hi
          unfold St.finish St.fill St.begin
          simp only [h4, h5]
          split_ifs with h
          · rw [h]
          · exact h6 i (by omega)
      · right
        refine ⟨by omega, ?_, ?_, ?_, ?_, ?_, ?_, ?_, ?_, ?_⟩
        · have : (St.finish c (st.begin.2.fill st.begin.1 (blk 2))).s = 0 := by
            unfold St.finish St.fill St.begin
            rw [h4]
            exact hfs
          rw [this, h2]
          simp
        all_goals
          unfold St.finish St.fill St.begin
          simp only [h4, h5]
        · rfl
        · decide
        · decide
        · decide
        · rw [if_neg (by decide)]
          exact h6 0 (by omega)
        · rw [if_neg (by decide)]
          exact h6 1 (by omega)
        · rfl
    · right
      have hp' : (k - 2) * c.q ≤ p := by
        rcases hp with h | h
        · exact h
        · omega
      obtain ⟨m, rfl⟩ : ∃ m, k = m + 3 := ⟨k - 3, by omega⟩
      rw [show m + 3 - 2 = m + 1 by omega, h2, show m + 3 - 3 = m by omega,
        show (m + 1) * c.q = m * c.q + c.q by ring] at hp'
      refine ⟨by omega, ?_, ?_, ?_, ?_, ?_, ?_, ?_, ?_, ?_⟩
      · have : (St.finish c (st.begin.2.fill st.begin.1 (blk (m + 3)))).s = st.s - c.q := by
          unfold St.finish St.fill St.begin
          simp only [h3]
          rw [if_pos (by omega)]
          unfold sub32
          rw [show st.s + m32 - c.q = st.s - c.q + m32 by omega, Nat.add_mod_right,
            Nat.mod_eq_of_lt (by omega)]
        rw [this, h2, show m + 3 - 3 = m by omega, show m + 3 + 1 - 3 = m + 1 by omega,
          show (m + 1) * c.q = m * c.q + c.q by ring]
        omega
      all_goals
        unfold St.finish St.fill St.begin
        simp only [h3]
      · rfl
      · exact h7
      · exact Ne.symm h5
      · exact Ne.symm h6
      · rw [if_neg (Ne.symm h5), h9]
        rfl
      · rw [if_neg (Ne.symm h6), h10]
        rfl
      · rw [if_true]
        rfl

/-- Taking output: as many samples as the current block allows. -/
theorem popLoop_spec (c : Cfg) (blk : Nat → α) (dt : Nat) (hq : 0 < c.q) (hdt : c.q + dt ≤ m32) (k : Nat)
    (hk : 3 ≤ k) : ∀ (n p : Nat) (st : St α), Rel c blk k p st →
    ∃ m st', m ≤ n
      ∧ popLoop c dt n st = ((List.range m).map (fun j => observe blk c.q (p + j * dt)), st')
      ∧ Rel c blk k (p + m * dt) st'
      ∧ (m < n → (k - 2) * c.q ≤ p + m * dt)
      ∧ (0 < m → (p + (m - 1) * dt) / c.q + 3 = k)
      ∧ (st.s < m32 → st'.s < m32) ∧ (0 < m → st'.s < c.q + dt) ∧ (m = 0 → st' = st) := by
  intro n
  induction n with
  | zero =>
    intro p st h
    exact ⟨0, st, le_rfl, rfl, by simpa using h, by omega, by omega, id, by omega, fun _ => rfl⟩
  | succ n ih =>
    intro p st h
    have hR := h
    rcases h with h | ⟨h1, h2, h3, h4, h5, h6, h7, h8, h9, h10⟩
    · omega
    · obtain ⟨w, rfl⟩ : ∃ w, k = w + 3 := ⟨k - 3, by omega⟩
      rw [show w + 3 - 3 = w by omega] at h2
      by_cases hs : st.s ≥ c.q
      · refine ⟨0, st, by omega, ?_, by simpa using hR, ?_, by omega, id, by omega, fun _ => rfl⟩
        · simp only [popLoop]
          rw [if_pos hs]
          rfl
        · intro _
          rw [h2, show w + 3 - 2 = w + 1 by omega, show (w + 1) * c.q = w * c.q + c.q by ring]
          omega
      · have hadd : add32 (snap st.s) dt = st.s + dt := by
          rw [snap_id]
          exact Nat.mod_eq_of_lt (by omega)
        have hdiv : p / c.q = w := by
          rw [h2, Nat.add_comm, Nat.add_mul_div_right _ _ hq, Nat.div_eq_of_lt (by omega)]
          omega
        have hmod : p % c.q = st.s := by
          rw [h2, Nat.add_comm, Nat.add_mul_mod_self_right, Nat.mod_eq_of_lt (by omega)]
        obtain ⟨m, st', i1, i2, i3, i4, i5, i6, i7, i8⟩ := ih (p + dt) { st with s := st.s + dt } (by
          right
          refine ⟨h1, ?_, h3, h4, h5, h6, h7, h8, h9, h10⟩
          show p + dt = (w + 3 - 3) * c.q + (st.s + dt)
          rw [h2, show w + 3 - 3 = w by omega]
          omega)
        refine ⟨m + 1, st', by omega, ?_, ?_, ?_, ?_, ?_, ?_, by omega⟩
        · simp only [popLoop]
          rw [if_neg hs, hadd, i2, List.range_succ_eq_map, List.map_cons, List.map_map, snap_id]
          refine congrArg₂ Prod.mk ?_ rfl
          refine congrArg₂ List.cons ?_ ?_
          · unfold observe
            rw [Nat.zero_mul, Nat.add_zero, hdiv, hmod, h4, h8, h9, h10]
            rfl
          · apply List.map_congr_left
            intro j _
            show observe blk c.q (p + dt + j * dt) = observe blk c.q (p + (j + 1) * dt)
            rw [show p + dt + j * dt = p + (j + 1) * dt by ring]
        · rw [show p + (m + 1) * dt = p + dt + m * dt by ring]
          exact i3
        · intro hmn
          rw [show p + (m + 1) * dt = p + dt + m * dt by ring]
          exact i4 (by omega)
        · intro _
          by_cases hm : m = 0
          · subst hm
            rw [show p + (0 + 1 - 1) * dt = p by ring, hdiv]
          · rw [show p + (m + 1 - 1) * dt = p + dt + (m - 1) * dt by
              obtain ⟨m', rfl⟩ : ∃ m', m = m' + 1 := ⟨m - 1, by omega⟩
              rw [show m' + 1 + 1 - 1 = m' + 1 by omega, show m' + 1 - 1 = m' by omega]
              ring]
            exact i5 (by omega)
        · intro _
          by_cases hm : m = 0
          · rw [i8 hm]
            show st.s + dt < m32
            omega
          · have := i7 (by omega)
            omega
        · intro _
          by_cases hm : m = 0
          · rw [i8 hm]
            show st.s + dt < c.q + dt
            omega
          · exact i7 (by omega)

theorem readLoop_spec (c : Cfg) (blk : Nat → α) (dt : Nat) (hq : 0 < c.q) (hdt : c.q + dt ≤ m32) :
    ∀ (fuel n k p : Nat) (st : St α), Rel c blk k p st → st.s < m32 → 0 < n →
    (p + (n - 1) * dt) / c.q + 3 + 1 ≤ fuel + k →
    0 < fuel →
    ∃ st', readLoop c dt (fun i => (true, blk i)) fuel n k st
        = .ok (some ((List.range n).map fun j => observe blk c.q (p + j * dt)),
            max k ((p + (n - 1) * dt) / c.q + 3), st')
      ∧ Rel c blk (max k ((p + (n - 1) * dt) / c.q + 3)) (p + n * dt) st' ∧ st'.s < m32 := by
  intro fuel
  induction fuel with
  | zero => intro n k p st h hs hn hf h0; omega
  | succ fuel ih =>
    intro n k p st h hs hn hf _
    obtain ⟨t, ht⟩ : ∃ t, t = (p + (n - 1) * dt) / c.q := ⟨_, rfl⟩
    by_cases hk : k < 3
    · have hp0 : pop c dt n st = ([], st) := by
        unfold pop
        rw [if_pos]
        rcases h with ⟨_, _, _, h4, _⟩ | h
        · omega
        · omega
      obtain ⟨st1, hpush, hs1, hR1⟩ := rel_push c blk k p st hs (Or.inr hk) h
      obtain ⟨st2, hr, hR2, hs2⟩ := ih n (k + 1) p st1 hR1 (by omega) hn (by omega) (by omega)
      rw [← ht] at hr hR2
      refine ⟨st2, ?_, ?_, hs2⟩
      · simp only [readLoop]
        rw [if_neg (by omega), hp0]
        simp only [List.length_nil]
        rw [if_pos hn, hpush]
        simp only [if_true, Nat.sub_zero]
        rw [hr]
        simp only [Except.map, Option.map, List.nil_append]
        rw [← ht, show max (k + 1) (t + 3) = max k (t + 3) by omega]
      · rw [← ht, show max k (t + 3) = max (k + 1) (t + 3) by omega]
        exact hR2
    · obtain ⟨m, st1, i1, i2, i3, i4, i5, i6, i7, i8⟩ :=
        popLoop_spec c blk dt hq hdt k (by omega) n p st h
      have hp0 : pop c dt n st
          = ((List.range m).map (fun j => observe blk c.q (p + j * dt)), st1) := by
        unfold pop
        rw [if_neg, i2]
        rcases h with h | ⟨_, _, h3, _⟩
        · omega
        · omega
      have hs1 := i6 hs
      by_cases hm : m = n
      · subst hm
        have hT := i5 hn
        refine ⟨st1, ?_, ?_, hs1⟩
        · simp only [readLoop]
          rw [if_neg (by omega), hp0]
          simp only [List.length_map, List.length_range]
          rw [if_neg (by omega), hT, Nat.max_self]
        · rw [hT, Nat.max_self]
          exact i3
      · have hge := i4 (by omega)
        obtain ⟨st2, hpush, hs2, hR2⟩ := rel_push c blk k (p + m * dt) st1 hs1 (Or.inl hge) i3
        have hlast : p + m * dt + (n - m - 1) * dt = p + (n - 1) * dt := by
          obtain ⟨d, rfl⟩ : ∃ d, n = m + d + 1 := ⟨n - m - 1, by omega⟩
          rw [show m + d + 1 - m - 1 = d by omega, show m + d + 1 - 1 = m + d by omega]
          ring
        have hT : k ≤ t + 2 := by
          have : (k - 2) * c.q ≤ p + (n - 1) * dt := by
            rw [← hlast]
            omega
          have := (Nat.le_div_iff_mul_le hq).2 this
          omega
        obtain ⟨st3, hr, hR3, hs3⟩ := ih (n - m) (k + 1) (p + m * dt) st2 hR2 (by omega) (by omega)
          (by rw [hlast]; omega) (by omega)
        rw [hlast, ← ht] at hr hR3
        refine ⟨st3, ?_, ?_, hs3⟩
        · simp only [readLoop]
          rw [if_neg (by omega), hp0]
          simp only [List.length_map, List.length_range]
          rw [if_pos (by omega), hpush]
          simp only [if_true]
          rw [hr]
          simp only [Except.map, Option.map]
          rw [← ht, show max (k + 1) (t + 3) = max k (t + 3) by omega]
          refine congrArg Except.ok (congrArg₂ Prod.mk (congrArg some ?_) rfl)
          obtain ⟨d, rfl⟩ : ∃ d, n = m + d := ⟨n - m, by omega⟩
          rw [show m + d - m = d by omega, List.range_add, List.map_append, List.map_map]
          refine congrArg _ ?_
          apply List.map_congr_left
          intro j _
          show observe blk c.q (p + m * dt + j * dt) = observe blk c.q (p + (m + j) * dt)
          rw [show p + m * dt + j * dt = p + (m + j) * dt by ring]
        · rw [← ht, show max k (t + 3) = max (k + 1) (t + 3) by omega,
            show p + n * dt = p + m * dt + (n - m) * dt by
              obtain ⟨d, rfl⟩ : ∃ d, n = m + d := ⟨n - m, by omega⟩
              rw [show m + d - m = d by omega]
              ring]
          exact hR3

/-- All steps of a history are bounded. -/
def StepsOk (c : Cfg) (ops : List Op) (dt : Nat) : Prop := ∀ d ∈ steps ops dt, c.q + d ≤ m32

theorem sum_rep (n d : Nat) : (List.replicate n d).sum = n * d := by
  induction n with
  | zero => simp
  | succ n ih =>
    rw [List.replicate_succ, List.sum_cons, ih]
    ring

theorem position_replicate (n dt j : Nat) (ds : List Nat) (h : j ≤ n) :
    position (List.replicate n dt ++ ds) j = j * dt := by
  unfold position
  rw [List.take_append_of_le_length (by simpa using h), List.take_replicate, sum_rep,
    Nat.min_eq_left h]

theorem position_add (n dt j : Nat) (ds : List Nat) :
    position (List.replicate n dt ++ ds) (n + j) = n * dt + position ds j := by
  unfold position
  have := List.take_length_add_append (l₁ := List.replicate n dt) (l₂ := ds) j
  rw [List.length_replicate] at this
  rw [this, List.sum_append, sum_rep]

/-- Blocks taken after a history that starts at position `p` with `k` blocks. -/
def taken (q : Nat) (ds : List Nat) (k p : Nat) : Nat :=
  if ds.length = 0 then k else max k ((p + position ds (ds.length - 1)) / q + 3)

theorem run_spec (c : Cfg) (blk : Nat → α) (hq : 0 < c.q) (fuel : Nat) (hfuel : 0 < fuel) :
    ∀ (ops : List Op) (dt k p : Nat) (st : St α), StepsOk c ops dt → Rel c blk k p st → st.s < m32 →
    taken c.q (steps ops dt) k p + 1 ≤ fuel →
    ∃ st', run c blk fuel ops dt k st
        = .ok ((List.range (steps ops dt).length).map
              (fun j => observe blk c.q (p + position (steps ops dt) j)),
            taken c.q (steps ops dt) k p, st')
      ∧ Rel c blk (taken c.q (steps ops dt) k p) (p + (steps ops dt).sum) st' ∧ st'.s < m32 := by
  intro ops
  induction ops with
  | nil =>
    intro dt k p st _ hR hs _
    exact ⟨st, rfl, by simpa [taken, steps] using hR, hs⟩
  | cons op ops ih =>
    intro dt k p st hok hR hs hf
    cases op with
    | set d =>
      obtain ⟨st', h1, h2, h3⟩ := ih d k p st hok hR hs hf
      exact ⟨st', h1, h2, h3⟩
    | read n =>
      obtain ⟨ds, hds⟩ : ∃ ds, ds = steps ops dt := ⟨_, rfl⟩
      have hst : steps (.read n :: ops) dt = List.replicate n dt ++ ds := by rw [hds]; rfl
      rw [hst] at hf ⊢
      have hok' : StepsOk c ops dt := by
        intro d hd
        apply hok
        rw [hst, List.mem_append, hds]
        exact Or.inr hd
      by_cases hn : n = 0
      · subst hn
        obtain ⟨st', h1, h2, h3⟩ := ih dt k p st hok' hR hs (by
          rw [← hds]
          simpa using hf)
        rw [← hds] at h1 h2
        refine ⟨st', ?_, by simpa using h2, h3⟩
        have : readLoop c dt (fun i => (true, blk i)) fuel 0 k st = .ok (some [], k, st) := by
          unfold readLoop
          rw [if_pos rfl]
        simp only [run, this, Except.bind, h1, Except.map, List.replicate_zero, List.nil_append]
      · have hdt : c.q + dt ≤ m32 := by
          apply hok
          rw [hst, List.mem_append, List.mem_replicate]
          exact Or.inl ⟨hn, rfl⟩
        obtain ⟨k', hk'⟩ : ∃ k', k' = max k ((p + (n - 1) * dt) / c.q + 3) := ⟨_, rfl⟩
        have htaken : taken c.q (List.replicate n dt ++ ds) k p = taken c.q ds k' (p + n * dt) := by
          unfold taken
          rw [if_neg (by rw [List.length_append, List.length_replicate]; omega), List.length_append,
            List.length_replicate]
          by_cases hl : ds.length = 0
          · rw [if_pos hl, hl, show n + 0 - 1 = n - 1 from rfl, position_replicate _ _ _ _ (by omega), hk']
          · rw [if_neg hl, show n + ds.length - 1 = n + (ds.length - 1) by omega, position_add, hk']
            have : (p + (n - 1) * dt) / c.q ≤ (p + (n * dt + position ds (ds.length - 1))) / c.q := by
              refine Nat.div_le_div_right ?_
              have : (n - 1) * dt ≤ n * dt := Nat.mul_le_mul_right _ (by omega)
              omega
            rw [show p + n * dt + position ds (ds.length - 1) = p + (n * dt + position ds (ds.length - 1)) by
              ring]
            omega
        rw [htaken] at hf ⊢
        have hk'le : k' ≤ taken c.q ds k' (p + n * dt) := by
          unfold taken
          split_ifs
          · exact le_rfl
          · exact le_max_left _ _
        obtain ⟨st1, h1, h2, h3⟩ := readLoop_spec c blk dt hq hdt fuel n k p st hR hs (by omega)
          (by omega) hfuel
        rw [← hk'] at h1 h2
        obtain ⟨st', g1, g2, g3⟩ := ih dt k' (p + n * dt) st1 hok' h2 h3 (by rw [← hds]; exact hf)
        rw [← hds] at g1 g2
        refine ⟨st', ?_, ?_, g3⟩
        · simp only [run, h1, Except.bind, g1, Except.map]
          refine congrArg Except.ok (congrArg₂ Prod.mk ?_ rfl)
          rw [List.length_append, List.length_replicate, List.range_add, List.map_append, List.map_map]
          refine congrArg₂ (· ++ ·) ?_ ?_
          · apply List.map_congr_left
            intro j hj
            rw [List.mem_range] at hj
            rw [position_replicate _ _ _ _ (by omega)]
          · apply List.map_congr_left
            intro j _
            show observe blk c.q (p + n * dt + position ds j)
              = observe blk c.q (p + position (List.replicate n dt ++ ds) (n + j))
            rw [position_add, Nat.add_assoc]
        · rw [List.sum_append, sum_rep, ← Nat.add_assoc]
          exact g2

end Verif.BuiltinResampler
