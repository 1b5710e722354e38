import Verif.Spsc.Model
import Mathlib.Tactic.SplitIfs

/-! # C14: the single producer, single consumer buffer is a FIFO -/

namespace Verif.Spsc

variable {β : Type}

/-- Memory cell of the `k`-th chunk ever written. -/
def slot (n k : Nat) : Nat := ((k + 1) % 2 ^ 32) % n

/-- Cells cannot collide: either their number divides 2^32, or fewer than 2^32 - 1 chunks have been
written so that positions have not wrapped. -/
def NoWrap (n w : Nat) : Prop := n ∣ 2 ^ 32 ∨ w + 1 < 2 ^ 32

theorem NoWrap.mono {n w w' : Nat} (h : NoWrap n w') (hw : w ≤ w') : NoWrap n w := by
  rcases h with h | h
  · exact .inl h
  · exact .inr (by omega)

theorem mod_ne {n a b : Nat} (hab : a < b) (hb : b < a + n) : a % n ≠ b % n := by
  intro h
  have h1 := Nat.div_add_mod a n
  have h2 := Nat.div_add_mod b n
  rw [h] at h1
  have hle : a / n ≤ b / n := Nat.div_le_div_right (by omega)
  rcases Nat.eq_or_lt_of_le hle with he | hlt
  · rw [he] at h1; omega
  · have : n * (a / n) + n ≤ n * (b / n) := by
      rw [← Nat.mul_succ]; exact Nat.mul_le_mul_left n hlt
    omega

theorem slot_ne {n k k' : Nat} (hw : NoWrap n k') (hlt : k < k') (hk : k' < k + n) : slot n k ≠ slot n k' := by
  unfold slot
  rcases hw with h | h
  · rw [Nat.mod_mod_of_dvd _ h, Nat.mod_mod_of_dvd _ h]
    exact mod_ne (by omega) (by omega)
  · rw [Nat.mod_eq_of_lt (show k + 1 < 2 ^ 32 by omega), Nat.mod_eq_of_lt h]
    exact mod_ne (by omega) (by omega)

structure Inv (cap : Nat) (s : State β) : Prop where
  count : s.count = cap + 1
  le : s.popped.length ≤ s.written.length
  full : s.written.length ≤ s.popped.length + cap
  rpos : s.rpos = BitVec.ofNat 32 s.popped.length
  wpos : s.wpos = BitVec.ofNat 32 (s.written.length + 1)
  mem : ∀ k (hk : k < s.written.length), s.popped.length ≤ k → s.mem (slot (cap + 1) k) = s.written[k]
  popped : s.popped = s.written.take s.popped.length
  wl : ∀ wr, s.w = .loaded wr → wr = s.wpos
  ww : ∀ sl c, s.w = .writing sl c → sl = slot (cap + 1) s.written.length ∧
    s.written.length < s.popped.length + cap ∧ s.mem sl = c
  rl : ∀ rd, s.r = .loaded rd → rd = s.rpos
  rr : ∀ sl, s.r = .reading sl → sl = slot (cap + 1) s.popped.length ∧ s.popped.length < s.written.length

theorem toNat_ofNat32 (x : Nat) : (BitVec.ofNat 32 x).toNat = x % 4294967296 := by
  rw [BitVec.toNat_ofNat]

theorem wdiff {cap : Nat} {s : State β} (h : Inv cap s) (hcap : cap + 1 < 2 ^ 32) :
    (s.wpos - s.rpos).toNat = s.written.length + 1 - s.popped.length := by
  have h1 := h.le
  have h2 := h.full
  rw [h.wpos, h.rpos, BitVec.toNat_sub, toNat_ofNat32, toNat_ofNat32]
  omega

theorem empty_iff {cap : Nat} {s : State β} (h : Inv cap s) (hcap : cap + 1 < 2 ^ 32) :
    s.rpos + 1 = s.wpos ↔ s.popped.length = s.written.length := by
  have h1 := h.le
  have h2 := h.full
  rw [← BitVec.toNat_inj, BitVec.toNat_add, h.wpos, h.rpos, toNat_ofNat32, toNat_ofNat32]
  simp only [BitVec.toNat_one, show (1 : BitVec 32).toNat = 1 from rfl]
  omega

theorem inv_init (cap : Nat) (fill : Nat → β) : Inv cap (State.init cap fill) where
  count := rfl
  le := Nat.le_refl _
  full := by simp [State.init]
  rpos := rfl
  wpos := rfl
  mem := by intro k hk; simp [State.init] at hk
  popped := rfl
  wl := by intro wr h; simp [State.init] at h
  ww := by intro sl c h; simp [State.init] at h
  rl := by intro rd h; simp [State.init] at h
  rr := by intro sl h; simp [State.init] at h

theorem written_mono (s : State β) (st : Step β) : s.written.length ≤ (s.step st).written.length := by
  cases st <;> simp only [State.step] <;> split <;> try split
  all_goals simp

theorem inv_step {cap : Nat} (hcap : cap + 1 < 2 ^ 32) {s : State β} (h : Inv cap s) (st : Step β)
    (hw : NoWrap (cap + 1) (s.step st).written.length) : Inv cap (s.step st) := by
  have hw0 : NoWrap (cap + 1) s.written.length := hw.mono (written_mono s st)
  have hle := h.le
  have hfull := h.full
  cases st with
  | wBegin =>
    simp only [State.step]
    split
    · rename_i hp
      exact { h with
        wl := by intro wr he; simp only [WPc.loaded.injEq] at he; exact he.symm
        ww := by intro sl c he; simp at he }
    · exact h
  | wLoad =>
    simp only [State.step]
    split
    · rename_i wr hp
      have hwr := h.wl wr hp
      subst hwr
      rw [wdiff h hcap]
      have hcount := h.count
      split
      · exact { h with
          wl := by intro wr he; simp at he
          ww := by intro sl c he; simp at he }
      · rename_i hlt
        exact { h with
          wl := by intro wr he; simp at he
          ww := by
            intro sl c he
            simp only [WPc.writing.injEq] at he
            obtain ⟨rfl, rfl⟩ := he
            refine ⟨?_, by simp only; omega, rfl⟩
            simp only [slot]
            rw [h.wpos, toNat_ofNat32, hcount] }
    · exact h
  | wStore v =>
    simp only [State.step]
    split
    · rename_i sl c hp
      obtain ⟨e1, e2, e3⟩ := h.ww sl c hp
      exact { h with
        mem := by
          intro k hk hk2
          simp only at hk hk2 ⊢
          rw [if_neg]
          · exact h.mem k hk hk2
          · rw [e1]; exact slot_ne hw0 hk (by omega)
        wl := by intro wr he; simp at he
        ww := by
          intro sl' c' he
          simp only [WPc.writing.injEq] at he
          obtain ⟨rfl, rfl⟩ := he
          exact ⟨e1, e2, by simp⟩ }
    · exact h
  | wEnd =>
    simp only [State.step]
    split
    · rename_i sl c hp
      obtain ⟨e1, e2, e3⟩ := h.ww sl c hp
      refine ⟨h.count, by simp; omega, by simp; omega, h.rpos, ?_, ?_, ?_, ?_, ?_, h.rl, ?_⟩
      · simp only [List.length_append, List.length_cons, List.length_nil]
        rw [h.wpos, BitVec.ofNat_add (s.written.length + (0 + 1)) 1]; rfl
      · intro k hk hk2
        simp only [List.length_append, List.length_cons, List.length_nil] at hk
        simp only at hk2 ⊢
        by_cases hlt : k < s.written.length
        · rw [h.mem k hlt hk2, List.getElem_append_left hlt]
        · have hke : k = s.written.length := by omega
          subst hke
          rw [← e1, e3]
          simp
      · simp only
        rw [List.take_append_of_le_length hle]
        exact h.popped
      · intro wr he; simp at he
      · intro sl' c' he; simp at he
      · intro sl' he
        have := h.rr sl' he
        exact ⟨this.1, by simp; omega⟩
    · exact h
  | rBegin =>
    simp only [State.step]
    split
    · rename_i hp
      exact { h with
        rl := by intro wr he; simp only [RPc.loaded.injEq] at he; exact he.symm
        rr := by intro sl he; simp at he }
    · exact h
  | rLoad =>
    simp only [State.step]
    split
    · rename_i rd hp
      have hrd := h.rl rd hp
      subst hrd
      split
      · exact { h with
          rl := by intro wr he; simp at he
          rr := by intro sl he; simp at he }
      · rename_i hne
        rw [empty_iff h hcap] at hne
        exact { h with
          rl := by intro wr he; simp at he
          rr := by
            intro sl he
            simp only [RPc.reading.injEq] at he
            subst he
            refine ⟨?_, by simp only; omega⟩
            simp only [slot, h.count]
            rw [h.rpos, BitVec.toNat_add, toNat_ofNat32, show (1 : BitVec 32).toNat = 1 from rfl]
            congr 1
            omega }
    · exact h
  | rEnd =>
    simp only [State.step]
    split
    · rename_i sl hp
      obtain ⟨e1, e2⟩ := h.rr sl hp
      refine ⟨h.count, by simp; omega, by simp; omega, ?_, h.wpos, ?_, ?_, h.wl, ?_, ?_, ?_⟩
      · simp only [List.length_append, List.length_cons, List.length_nil]
        rw [h.rpos, BitVec.ofNat_add]; rfl
      · intro k hk hk2
        simp only [List.length_append, List.length_cons, List.length_nil] at hk2
        exact h.mem k hk (by omega)
      · simp only [List.length_append, List.length_cons, List.length_nil]
        rw [List.take_succ_eq_append_getElem e2, ← h.popped, e1, h.mem _ e2 (Nat.le_refl _)]
      · intro sl' c' he
        have := h.ww sl' c' he
        exact ⟨this.1, by simp; omega, this.2.2⟩
      · intro rd he; simp at he
      · intro sl' he; simp at he
    · exact h

theorem reach_inv {cap : Nat} (hcap : cap + 1 < 2 ^ 32) {fill : Nat → β} {s : State β} (h : Reach cap fill s)
    (hw : NoWrap (cap + 1) s.written.length) : Inv cap s := by
  induction h with
  | init => exact inv_init cap fill
  | step st _ ih => exact inv_step hcap (ih (hw.mono (written_mono _ st))) st hw

/-- **C14, order and content.** In every interleaving, as long as cells cannot collide (see
`C14_wrap_fails` for what is missing): the chunks consumed so far are exactly the first chunks
committed, in order and with the content committed; a chunk being read holds, throughout, the
content that was committed for it; at most `cap` chunks are unread. -/
theorem C14_fifo_partial {cap : Nat} (hcap : cap + 1 < 2 ^ 32) {fill : Nat → β} {s : State β}
    (h : Reach cap fill s) (hw : cap + 1 ∣ 2 ^ 32 ∨ s.written.length + 1 < 2 ^ 32) :
    s.popped <+: s.written ∧ s.written.length ≤ s.popped.length + cap ∧
    ∀ sl, s.r = .reading sl → s.written[s.popped.length]? = some (s.mem sl) := by
  have hi := reach_inv hcap h hw
  refine ⟨?_, hi.full, ?_⟩
  · rw [hi.popped]; exact List.take_prefix _ _
  · intro sl he
    obtain ⟨e1, e2⟩ := hi.rr sl he
    rw [e1, hi.mem _ e2 (Nat.le_refl _), List.getElem?_eq_getElem e2]

/-- **C14, exclusion.** The chunk being written is never the chunk being read, nor any other chunk
that is committed and not yet consumed. -/
theorem C14_exclusive_partial {cap : Nat} (hcap : cap + 1 < 2 ^ 32) {fill : Nat → β} {s : State β}
    (h : Reach cap fill s) (hw : cap + 1 ∣ 2 ^ 32 ∨ s.written.length + 1 < 2 ^ 32)
    {ws rs : Nat} {c : β} (h1 : s.w = .writing ws c) (h2 : s.r = .reading rs) :
    ws ≠ rs ∧ ws < cap + 1 ∧ rs < cap + 1 := by
  have hi := reach_inv hcap h hw
  obtain ⟨e1, e2, _⟩ := hi.ww ws c h1
  obtain ⟨e3, e4⟩ := hi.rr rs h2
  have hn : 0 < cap + 1 := by omega
  refine ⟨?_, ?_, ?_⟩
  · rw [e1, e3]
    exact (slot_ne hw e4 (by omega)).symm
  · rw [e1]; exact Nat.mod_lt _ hn
  · rw [e3]; exact Nat.mod_lt _ hn

/-- **C14, capacity.** `begin_write` fails exactly when, at the moment it looks at the read
position, all `cap` chunks are unread; `begin_read` fails exactly when there is no unread chunk at
the moment it looks at the write position. -/
theorem C14_capacity_partial {cap : Nat} (hcap : cap + 1 < 2 ^ 32) {fill : Nat → β} {s : State β}
    (h : Reach cap fill s) (hw : cap + 1 ∣ 2 ^ 32 ∨ s.written.length + 1 < 2 ^ 32) :
    (∀ wr, s.w = .loaded wr →
      ((s.step .wLoad).w = .idle ↔ s.written.length = s.popped.length + cap)) ∧
    (∀ rd, s.r = .loaded rd →
      ((s.step .rLoad).r = .idle ↔ s.written.length = s.popped.length)) ∧
    (s.isEmpty = true ↔ s.written.length = s.popped.length) := by
  have hi := reach_inv hcap h hw
  have hle := hi.le
  have hfull := hi.full
  refine ⟨?_, ?_, ?_⟩
  · intro wr he
    have := hi.wl wr he
    subst this
    simp only [State.step, he]
    rw [wdiff hi hcap, hi.count]
    split
    · simp only [true_iff]; omega
    · simp only [reduceCtorEq, false_iff]; omega
  · intro rd he
    have := hi.rl rd he
    subst this
    simp only [State.step, he, empty_iff hi hcap]
    split
    · simp only [true_iff]; omega
    · simp only [reduceCtorEq, false_iff]; omega
  · simp only [State.isEmpty, beq_iff_eq, empty_iff hi hcap]; omega

/-- Runs a schedule. -/
def State.run (s : State β) : List (Step β) → State β
  | [] => s
  | st :: l => (s.step st).run l

theorem reach_run {n : Nat} {fill : Nat → β} {s : State β} (h : Reach n fill s) (l : List (Step β)) :
    Reach n fill (s.run l) := by
  induction l generalizing s with
  | nil => exact h
  | cons st l ih => exact ih (.step st h)

/-- Non-vacuity: capacity three, which divides evenly; one chunk read while another is written. -/
example : ∃ s : State Nat, Reach 3 (fun _ => 0) s ∧ (3 + 1 ∣ 2 ^ 32) ∧ (∃ c ws, s.w = .writing ws c) ∧
    (∃ rs, s.r = .reading rs) ∧ s.written = [5, 6] ∧ s.popped = [] := by
  refine ⟨_, reach_run .init [.wBegin, .wLoad, .wStore 5, .wEnd, .wBegin, .wLoad, .wStore 6, .wEnd, .rBegin, .rLoad,
    .wBegin, .wLoad, .wStore 7], by decide, ⟨7, 3, rfl⟩, ⟨1, rfl⟩, rfl, rfl⟩

/-- Write one chunk and read it. -/
def pair (v : Nat) : List (Step Nat) := [.wBegin, .wLoad, .wStore v, .wEnd, .rBegin, .rLoad, .rEnd]

/-- **Finding.** With two chunks (three cells) the FIFO breaks when the 32-bit positions wrap: after
2^32 - 2 chunks were written and read, writing 5 and 6 and then reading gives 6. Any chunk count
that does not divide 2^32 is affected. -/
theorem C14_wrap_fails :
    ∃ s : State Nat, Reach 2 (fun _ => 0) s ∧ s.popped.length = 2 ^ 32 - 2 ∧
      s.written.length = 2 ^ 32 ∧ s.written[2 ^ 32 - 2]? = some 5 ∧ s.written[2 ^ 32 - 1]? = some 6 ∧
      ∃ sl, s.r = .reading sl ∧ s.mem sl = 6 := by
  -- balanced states with `k` chunks written and read
  have hbal : ∀ k, k ≤ 2 ^ 32 - 2 → ∃ s : State Nat, Reach 2 (fun _ => 0) s ∧ s.count = 3 ∧
      s.rpos = BitVec.ofNat 32 k ∧ s.wpos = BitVec.ofNat 32 (k + 1) ∧ s.w = .idle ∧ s.r = .idle ∧
      s.written.length = k ∧ s.popped.length = k := by
    intro k
    induction k with
    | zero => intro _; exact ⟨_, .init, rfl, rfl, rfl, rfl, rfl, rfl, rfl⟩
    | succ k ih =>
      intro hk
      obtain ⟨s, hr, hc, h1, h2, h3, h4, h5, h6⟩ := ih (by omega)
      refine ⟨s.run (pair 0), reach_run hr _, ?_⟩
      have d1 : ¬ (s.wpos - s.rpos).toNat ≥ 3 := by
        rw [h1, h2, BitVec.toNat_sub, toNat_ofNat32, toNat_ofNat32]; omega
      have d2 : ¬ s.rpos + 1 = s.wpos + 1 := by
        rw [← BitVec.toNat_inj, BitVec.toNat_add, BitVec.toNat_add, h1, h2, toNat_ofNat32, toNat_ofNat32,
          show (1 : BitVec 32).toNat = 1 from rfl]
        omega
      have e : ∀ a : Nat, BitVec.ofNat 32 a + 1 = BitVec.ofNat 32 (a + 1) := by
        intro a; rw [BitVec.ofNat_add]; rfl
      simp only [pair, State.run, State.step, h3, h4, hc, d1, if_false, d2]
      refine ⟨trivial, ?_, ?_, trivial, trivial, ?_, ?_⟩
      · rw [h1, e]
      · rw [h2, e]
      · simp [h5]
      · simp [h6]
  obtain ⟨s, hr, hc, h1, h2, h3, h4, h5, h6⟩ := hbal (2 ^ 32 - 2) (Nat.le_refl _)
  have w0 : s.wpos = 4294967295#32 := h2
  have r0 : s.rpos = 4294967294#32 := h1
  refine ⟨s.run [.wBegin, .wLoad, .wStore 5, .wEnd, .wBegin, .wLoad, .wStore 6, .wEnd, .rBegin, .rLoad],
    reach_run hr _, ?_⟩
  have d1 : ¬ (4294967295#32 - 4294967294#32).toNat ≥ 3 := by decide
  have d2 : ¬ (4294967295#32 + 1 - 4294967294#32).toNat ≥ 3 := by decide
  have d3 : ¬ (4294967294#32 + 1 = 4294967295#32 + 1 + 1) := by decide
  have m1 : (4294967295#32).toNat % 3 = 0 := by decide
  have m2 : (4294967295#32 + 1).toNat % 3 = 0 := by decide
  have m3 : (4294967294#32 + 1).toNat % 3 = 0 := by decide
  simp only [State.run, State.step, h3, h4, hc, w0, r0, d1, d2, d3, if_false, m1, m2, m3]
  refine ⟨h6, ?_, ?_, ?_, 0, rfl, rfl⟩
  · rw [List.length_append, List.length_append, h5]; rfl
  · rw [List.append_assoc, List.getElem?_append_right (by rw [h5]; exact Nat.le_refl _), h5, Nat.sub_self]; rfl
  · rw [List.append_assoc, List.getElem?_append_right (by rw [h5]; omega), h5]
    rfl

end Verif.Spsc
