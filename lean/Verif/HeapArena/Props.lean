import Verif.HeapArena.Spec

/-!
# C116: Heap arena
-/

namespace Verif.HeapArena

/-! ### Auxiliary facts -/

theorem checkCanary_iff (mem : Nat → Nat) (n : Nat) : ∀ lo, checkCanary mem lo n = true ↔
    ∀ k < n, mem (lo + k) = canary := by
  induction n with
  | zero => intro lo; simp [checkCanary]
  | succ n ih =>
    intro lo
    unfold checkCanary
    by_cases h : mem lo = canary
    · rw [if_neg (by simp [h]), ih]
      constructor
      · intro hk k hlt
        cases k with
        | zero => exact h
        | succ k => have := hk k (by omega); rw [show lo + (k + 1) = lo + 1 + k by omega]; exact this
      · intro hk k hlt
        have := hk (k + 1) (by omega)
        rw [show lo + (k + 1) = lo + 1 + k by omega] at this
        exact this
    · rw [if_pos h]
      constructor
      · intro h'; cases h'
      · intro hk; exact absurd (hk 0 (by omega)) h

theorem fill_in {mem : Nat → Nat} {lo len v x : Nat} (h1 : lo ≤ x) (h2 : x < lo + len) :
    fill mem lo len v x = v := if_pos ⟨h1, h2⟩

theorem fill_out {mem : Nat → Nat} {lo len v x : Nat} (h : x < lo ∨ lo + len ≤ x) :
    fill mem lo len v x = mem x := if_neg (by omega)

theorem upd_same {α : Type} (f : Nat → α) (a : Nat) (v : α) : upd f a v a = v := if_pos rfl

theorem upd_other {α : Type} (f : Nat → α) {a i : Nat} (v : α) (h : i ≠ a) : upd f a v i = f i := if_neg h

theorem count_remove (P : Nat → Bool) (c : Nat) (l : List (Nat × Nat)) : (l.map Prod.fst).Nodup →
    c ∈ l.map Prod.fst →
    ((l.filter fun b => b.1 != c).filter fun b => P b.1).length + (if P c then 1 else 0) =
      (l.filter fun b => P b.1).length := by
  induction l with
  | nil => intro _ h; cases h
  | cons b l ih =>
    intro hn hc
    rw [List.map_cons, List.nodup_cons] at hn
    by_cases e : b.1 = c
    · have hno : l.filter (fun b => b.1 != c) = l := by
        rw [List.filter_eq_self]
        intro x hx
        have : x.1 ≠ c := fun h => hn.1 (by rw [e, ← h]; exact List.mem_map.mpr ⟨x, hx, rfl⟩)
        simpa using this
      rw [List.filter_cons_of_neg (by simp [e]), hno]
      by_cases hp : P c = true
      · rw [if_pos hp, List.filter_cons_of_pos (by rw [e]; exact hp), List.length_cons]
      · rw [if_neg hp, List.filter_cons_of_neg (by rw [e]; exact hp)]; rfl
    · have hc' : c ∈ l.map Prod.fst := by
        rcases List.mem_cons.mp hc with h | h
        · exact absurd h.symm e
        · exact h
      have := ih hn.2 hc'
      rw [List.filter_cons_of_pos (by simpa using e)]
      by_cases hp : P b.1 = true
      · rw [List.filter_cons_of_pos (by exact hp), List.filter_cons_of_pos (by exact hp), List.length_cons,
          List.length_cons]
        omega
      · rw [List.filter_cons_of_neg (by exact hp), List.filter_cons_of_neg (by exact hp)]
        exact this

/-! ### Invariant -/

structure Inv (w : World) : Prop where
  size : ∀ b ∈ w.blocks, 0 < b.1 ∧ b.2 = (w.hdr b.1).2 + 32 ∧ b.2 < 2 ^ 64
  disj : w.blocks.Pairwise fun a b => a.1 + a.2 ≤ b.1 ∨ b.1 + b.2 ≤ a.1
  cnt : ∀ a, w.cnt a = ((w.blocks.filter fun b => (w.hdr b.1).1 == a).length : Nat)

theorem Inv.nodup {w : World} (h : Inv w) : (w.blocks.map Prod.fst).Nodup := by
  unfold List.Nodup
  rw [List.pairwise_map]
  apply List.Pairwise.imp_of_mem _ h.disj
  intro a b ha hb hd e
  have := (h.size a ha).2.1
  have := (h.size b hb).2.1
  omega

theorem Inv.apart {w : World} (h : Inv w) {b b' : Nat × Nat} (hb : b ∈ w.blocks) (hb' : b' ∈ w.blocks)
    (hne : b.1 ≠ b'.1) : b.1 + b.2 ≤ b'.1 ∨ b'.1 + b'.2 ≤ b.1 := by
  have hd := h.disj
  revert hb hb'
  generalize w.blocks = l at hd
  intro hb hb'
  induction hd with
  | nil => cases hb
  | cons h1 _ ih =>
    rcases List.mem_cons.mp hb with e | hb1
    · subst e
      rcases List.mem_cons.mp hb' with e | hb2
      · exact absurd (congrArg Prod.fst e.symm) hne
      · exact h1 _ hb2
    · rcases List.mem_cons.mp hb' with e | hb2
      · subst e; exact (h1 _ hb1).symm
      · exact ih hb1 hb2

theorem Inv.block {w : World} (h : Inv w) {a p size : Nat} (hl : w.Live a p size) :
    (p - 24, size + 32) ∈ w.blocks ∧ size + 32 < 2 ^ 64 ∧ 24 < p := by
  obtain ⟨h1, ⟨n, hn⟩, h2⟩ := hl
  have := h.size _ hn
  simp only [h2] at this
  rw [this.2.1] at hn
  exact ⟨hn, by omega, by omega⟩

theorem alloc_some {w w' : World} {a size c : Nat} {q : Option Nat}
    (h : w.alloc a size (some c) = some (.ok (w', q))) :
    size + 32 < 2 ^ 64 ∧ 0 < c ∧ (∀ b ∈ w.blocks, c + (size + 32) ≤ b.1 ∨ b.1 + b.2 ≤ c) ∧ q = some (c + 24) ∧
    w' = { w with
      mem := fill (fill (fill w.mem (c + 16) 8 canary) (c + 24) size beforeUse) (c + 24 + size) 8 canary,
      hdr := upd w.hdr c (a, size), blocks := (c, size + 32) :: w.blocks,
      cnt := upd w.cnt a (w.cnt a + 1) } := by
  unfold World.alloc at h
  simp only at h
  split at h
  · cases h
  · rename_i hf
    split at h
    · cases h
    · rename_i hs
      have hcs : chunkSize size = size + 32 := by unfold chunkSize at hs ⊢; omega
      simp only [Option.some.injEq, Except.ok.injEq, Prod.mk.injEq] at h
      obtain ⟨rfl, rfl⟩ := h
      have hlt : size + 32 < 2 ^ 64 := by
        rw [← hcs]; unfold chunkSize; exact Nat.mod_lt _ (by decide)
      rw [hcs] at hf
      simp only [World.fresh, Bool.not_eq_false, Bool.and_eq_true, decide_eq_true_eq, List.all_eq_true] at hf
      exact ⟨hlt, hf.1, hf.2, rfl, by rw [hcs]⟩

theorem alloc_inv {w w' : World} {a size : Nat} {m q : Option Nat} (hi : Inv w)
    (h : w.alloc a size m = some (.ok (w', q))) : Inv w' := by
  cases m with
  | none =>
    simp only [World.alloc, Option.some.injEq, Except.ok.injEq, Prod.mk.injEq] at h
    rw [← h.1]; exact hi
  | some c =>
    obtain ⟨hlt, hc, hf, -, rfl⟩ := alloc_some h
    have hne : ∀ b ∈ w.blocks, b.1 ≠ c := by
      intro b hb e
      have h1 := hf b hb
      have h2 := (hi.size b hb).2.1
      omega
    refine ⟨?_, ?_, ?_⟩
    · intro b hb
      rcases List.mem_cons.mp hb with rfl | hb
      · refine ⟨hc, ?_, hlt⟩
        show size + 32 = (upd w.hdr c (a, size) c).2 + 32
        rw [upd_same]
      · show 0 < b.1 ∧ b.2 = (upd w.hdr c (a, size) b.1).2 + 32 ∧ _
        rw [upd_other _ _ (hne b hb)]
        exact hi.size b hb
    · exact List.pairwise_cons.mpr ⟨fun b hb => hf b hb, hi.disj⟩
    · intro i
      show upd w.cnt a (w.cnt a + 1) i =
        ((((c, size + 32) :: w.blocks).filter fun b => (upd w.hdr c (a, size) b.1).1 == i).length : Nat)
      have hrest : (w.blocks.filter fun b => (upd w.hdr c (a, size) b.1).1 == i) =
          w.blocks.filter fun b => (w.hdr b.1).1 == i := by
        apply List.filter_congr
        intro b hb
        rw [upd_other _ _ (hne b hb)]
      by_cases e : i = a
      · subst e
        rw [upd_same, List.filter_cons_of_pos (by simp [upd_same]), List.length_cons, hrest, hi.cnt]
        rfl
      · rw [upd_other _ _ e, List.filter_cons_of_neg (by simp [upd_same, Ne.symm e]), hrest, hi.cnt]

theorem inv_other {w w' : World} (hi : Inv w) (h1 : w'.hdr = w.hdr) (h2 : w'.blocks = w.blocks)
    (h3 : w'.cnt = w.cnt) : Inv w' :=
  ⟨by rw [h1, h2]; exact hi.size, by rw [h2]; exact hi.disj, by rw [h1, h2, h3]; exact hi.cnt⟩

/-- The state after a chunk is released. -/
def World.released (w : World) (a c size : Nat) : World :=
  { w with cnt := upd w.cnt a (w.cnt a - 1), mem := fill w.mem (c + 24) size afterUse,
           blocks := w.blocks.filter fun b => b.1 != c }

theorem release_live {w : World} (hi : Inv w) {a p size : Nat} (hl : w.Live a p size) (w0 : World)
    (h1 : w0.blocks = w.blocks) (h2 : w0.cnt = w.cnt) :
    w0.release a (p - 24) size = .ok (w0.released a (p - 24) size) := by
  obtain ⟨hb, -, -⟩ := hi.block hl
  have hown := hl.2.2
  have hpos : w.cnt a ≠ 0 := by
    rw [hi.cnt]
    have : (p - 24, size + 32) ∈ w.blocks.filter fun b => (w.hdr b.1).1 == a :=
      List.mem_filter.mpr ⟨hb, by simp [hown]⟩
    have := List.length_pos_of_mem this
    omega
  unfold World.release
  simp only
  rw [if_neg (by rw [h2]; exact hpos)]
  unfold World.free
  simp only
  rw [if_pos (by
    rw [List.any_eq_true]
    exact ⟨_, by rw [h1]; exact hb, by simp⟩)]
  rfl

theorem released_inv {w : World} (hi : Inv w) {a p size : Nat} (hl : w.Live a p size) (w0 : World)
    (h1 : w0.blocks = w.blocks) (h2 : w0.cnt = w.cnt) (h3 : w0.hdr = w.hdr) :
    Inv (w0.released a (p - 24) size) := by
  obtain ⟨hb, -, -⟩ := hi.block hl
  have hown := hl.2.2
  refine ⟨?_, ?_, ?_⟩
  · intro b hb
    have hb := (List.mem_filter.mp hb).1
    rw [h1] at hb
    show 0 < b.1 ∧ b.2 = (w0.hdr b.1).2 + 32 ∧ _
    rw [h3]
    exact hi.size b hb
  · show (w0.blocks.filter _).Pairwise _
    rw [h1]
    exact hi.disj.filter _
  · intro i
    show upd w0.cnt a (w0.cnt a - 1) i =
      (((w0.blocks.filter fun b => b.1 != p - 24).filter fun b => (w0.hdr b.1).1 == i).length : Nat)
    rw [h1, h2, h3]
    have := count_remove (fun c => (w.hdr c).1 == i) (p - 24) w.blocks hi.nodup
      (List.mem_map.mpr ⟨_, hb, rfl⟩)
    rw [hown] at this
    simp only [beq_iff_eq] at this
    by_cases e : i = a
    · subst e
      rw [upd_same, hi.cnt, ← this, if_pos rfl]
      simp
    · rw [upd_other _ _ e, hi.cnt, ← this, if_neg (Ne.symm e)]
      rfl

theorem live_unique {w : World} {a b p s s' : Nat} (h : w.Live a p s) (h' : w.Live b p s') :
    a = b ∧ s = s' := by
  have h1 := h.2.2
  rw [h'.2.2, Prod.mk.injEq] at h1
  exact ⟨h1.1.symm, h1.2.symm⟩

theorem canaries_iff {w : World} {a p size : Nat} (hl : w.Live a p size) :
    (checkCanary w.mem (p - 24 + 16) 8 && checkCanary w.mem (p - 24 + 24 + size) 8) = true ↔
    w.Intact p size := by
  have := hl.1
  rw [Bool.and_eq_true, checkCanary_iff, checkCanary_iff, show p - 24 + 16 = p - 8 by omega,
    show p - 24 + 24 + size = p + size by omega]
  exact ⟨fun h k hk => ⟨h.1 k hk, h.2 k hk⟩, fun h => ⟨fun k hk => (h k hk).1, fun k hk => (h k hk).2⟩⟩

/-- All cases of `deallocate` for memory in use. -/
theorem dealloc_live {w : World} (hi : Inv w) {a b p size : Nat} (hl : w.Live b p size) :
    (a ≠ b → w.dealloc a p = if w.guards &&& 4 != 0 then .error .panic
      else .ok { w with fails := upd w.fails a (w.fails a + 1) }) ∧
    (a = b → w.Intact p size → w.dealloc a p = .ok (w.released a (p - 24) size)) ∧
    (a = b → ¬ w.Intact p size → w.dealloc a p = if w.guards &&& 2 != 0 then .error .panic
      else .ok ({ w with fails := upd w.fails a (w.fails a + 1) }.released a (p - 24) size)) := by
  have h24 := (hi.block hl).2.2
  have hown := hl.2.2
  unfold World.dealloc
  rw [if_neg (by omega)]
  simp only [hown]
  refine ⟨fun hne => ?_, fun he hint => ?_, fun he hint => ?_⟩
  · rw [if_pos (Ne.symm hne)]
    rfl
  · subst he
    rw [if_neg (by simp), if_pos ((canaries_iff hl).mpr hint)]
    exact release_live hi hl w rfl rfl
  · subst he
    rw [if_neg (by simp), if_neg (by rw [canaries_iff hl]; exact hint)]
    by_cases hg : (w.guards &&& 2 != 0) = true
    · exact (if_pos (by exact hg)).trans (if_pos hg).symm
    · refine (if_neg (by exact hg)).trans (Eq.trans ?_ (if_neg hg).symm)
      exact release_live hi hl { w with fails := upd w.fails a (w.fails a + 1) } rfl rfl

theorem dealloc_inv {w w' : World} (hi : Inv w) {a b p size : Nat} (hl : w.Live b p size)
    (h : w.dealloc a p = .ok w') : Inv w' := by
  obtain ⟨h1, h2, h3⟩ := dealloc_live (a := a) hi hl
  by_cases e : a = b
  · subst e
    by_cases hint : w.Intact p size
    · rw [h2 rfl hint, Except.ok.injEq] at h
      subst h
      exact released_inv hi hl w rfl rfl rfl
    · rw [h3 rfl hint] at h
      split at h
      · cases h
      · rw [Except.ok.injEq] at h
        subst h
        exact released_inv hi hl _ rfl rfl rfl
  · rw [h1 e] at h
    split at h
    · cases h
    · rw [Except.ok.injEq] at h
      subst h
      exact inv_other hi rfl rfl rfl

theorem size_live {w : World} (hi : Inv w) {a b p size : Nat} (hl : w.Live b p size) :
    (a = b → w.allocatedSize a p = .ok (w, size + 32)) ∧
    (a ≠ b → w.allocatedSize a p = if w.guards &&& 4 != 0 then .error .panic
      else .ok ({ w with fails := upd w.fails a (w.fails a + 1) }, 0)) := by
  have hb := hi.block hl
  have hown := hl.2.2
  unfold World.allocatedSize
  rw [if_neg (by omega)]
  simp only [hown]
  refine ⟨fun e => ?_, fun e => ?_⟩
  · subst e
    rw [if_neg (by simp)]
    unfold chunkSize
    rw [Nat.mod_eq_of_lt (by omega), show 16 + 8 + size + 8 = size + 32 by omega]
  · rw [if_pos (Ne.symm e)]
    rfl

theorem size_inv {w w' : World} (hi : Inv w) {a b p size n : Nat} (hl : w.Live b p size)
    (h : w.allocatedSize a p = .ok (w', n)) : Inv w' := by
  obtain ⟨h1, h2⟩ := size_live (a := a) hi hl
  by_cases e : a = b
  · rw [h1 e, Except.ok.injEq, Prod.mk.injEq] at h
    rw [← h.1]; exact hi
  · rw [h2 e] at h
    split at h
    · cases h
    · rw [Except.ok.injEq, Prod.mk.injEq] at h
      rw [← h.1]; exact inv_other hi rfl rfl rfl

theorem destroy_inv {w w' : World} (hi : Inv w) {a : Nat} (h : w.destroy a = .ok w') : Inv w' := by
  unfold World.destroy World.report at h
  simp only at h
  split at h
  · split at h
    · cases h
    · rw [Except.ok.injEq] at h
      rw [← h]; exact inv_other hi rfl rfl rfl
  · rw [Except.ok.injEq] at h
    rw [← h]; exact hi

theorem reach_inv {w : World} (h : Reach w) : Inv w := by
  induction h with
  | start mem hdr g =>
    refine ⟨?_, List.Pairwise.nil, fun a => rfl⟩
    intro b hb; cases hb
  | step _ hs ih =>
    cases hs with
    | alloc h => exact alloc_inv ih h
    | dealloc hl h => exact dealloc_inv ih hl h
    | poke v _ _ _ => exact inv_other ih rfl rfl rfl
    | guards g => exact inv_other ih rfl rfl rfl
    | size hl h => exact size_inv ih hl h
    | destroy h => exact destroy_inv ih h

theorem clean_reach {w : World} (h : CleanReach w) : Reach w := by
  induction h with
  | start mem hdr g => exact .start mem hdr g
  | step _ hs ih =>
    refine ih.step ?_
    cases hs with
    | alloc h => exact .alloc h
    | dealloc hl h => exact .dealloc hl h
    | poke v hl h1 h2 => exact .poke v hl (by omega) (by omega)
    | guards g => exact .guards g
    | size hl h => exact .size hl h
    | destroy _ h => exact .destroy h

/-- Two pieces of memory in use do not touch: there are at least 32 bytes between them. -/
theorem live_apart {w : World} (hi : Inv w) {a b p q s t : Nat} (hp : w.Live a p s) (hq : w.Live b q t)
    (hne : p ≠ q) : p + s + 32 ≤ q ∨ q + t + 32 ≤ p := by
  have h1 := hi.block hp
  have h2 := hi.block hq
  have := hi.apart h1.1 h2.1 (by show p - 24 ≠ q - 24; omega)
  simp only at this
  omega

theorem released_live {w : World} {a b p q size t : Nat} (hp : 24 ≤ p) :
    (w.released a (p - 24) size).Live b q t ↔ w.Live b q t ∧ q ≠ p := by
  unfold World.Live World.released
  simp only [List.mem_filter]
  constructor
  · rintro ⟨h1, ⟨n, h2, h3⟩, h4⟩
    refine ⟨⟨h1, ⟨n, h2⟩, h4⟩, fun e => ?_⟩
    subst e
    simp at h3
  · rintro ⟨⟨h1, ⟨n, h2⟩, h4⟩, hne⟩
    refine ⟨h1, ⟨n, h2, ?_⟩, h4⟩
    have : q - 24 ≠ p - 24 := by omega
    simpa using this

theorem guard_bit (g i : Nat) : (g &&& 2 ^ i != 0) = g.testBit i := by
  have key : (g &&& 2 ^ i = 0) ↔ g.testBit i = false := by
    constructor
    · intro h
      have := congrArg (fun x => Nat.testBit x i) h
      simpa only [Nat.testBit_and, Nat.testBit_two_pow_self, Bool.and_true, Nat.zero_testBit] using this
    · intro h
      apply Nat.eq_of_testBit_eq
      intro j
      rw [Nat.testBit_and, Nat.testBit_two_pow, Nat.zero_testBit]
      by_cases hj : i = j
      · subst hj; rw [h]; rfl
      · simp [hj]
  cases h : g.testBit i with
  | false => rw [key.mpr h]; rfl
  | true =>
    rw [bne_iff_ne]
    intro e
    rw [key.mp e] at h
    cases h

/-! ### Properties -/

/-- Memory that is given out is filled with the pattern for uninitialised data and surrounded by canaries;
no byte of it, nor of its canaries, belongs to memory in use, whose bytes and canaries stay as they are. -/
theorem C116_alloc {w w' : World} (R : Reach w) {a size p : Nat} {m : Option Nat}
    (h : w.alloc a size m = some (.ok (w', some p))) :
    w'.Live a p size ∧ w'.Intact p size ∧ (∀ k < size, w'.mem (p + k) = 0x7a) ∧
    ∀ b q t, w.Live b q t → w'.Live b q t ∧ (q + t + 8 ≤ p - 8 ∨ p + size + 8 ≤ q - 8) ∧
      ∀ x, q ≤ x + 8 → x < q + t + 8 → w'.mem x = w.mem x := by
  have hi := reach_inv R
  have hi' := alloc_inv hi h
  cases m with
  | none => simp [World.alloc] at h
  | some c =>
    obtain ⟨hlt, hc, hf, hq, hw⟩ := alloc_some h
    have hpc : p = c + 24 := Option.some.inj hq
    subst hpc
    have hlive : w'.Live a (c + 24) size := by
      refine ⟨by omega, ⟨size + 32, ?_⟩, ?_⟩
      · rw [hw]; simp
      · rw [hw]
        show upd w.hdr c (a, size) (c + 24 - 24) = _
        rw [show c + 24 - 24 = c by omega, upd_same]
    have hmem : ∀ x, w'.mem x =
        fill (fill (fill w.mem (c + 16) 8 canary) (c + 24) size beforeUse) (c + 24 + size) 8 canary x := by
      intro x; rw [hw]
    refine ⟨hlive, ?_, ?_, ?_⟩
    · intro k hk
      constructor
      · rw [hmem, fill_out (by omega), fill_out (by omega), fill_in (by omega) (by omega)]; rfl
      · rw [hmem, fill_in (by omega) (by omega)]; rfl
    · intro k hk
      rw [hmem, fill_out (by omega), fill_in (by omega) (by omega)]; rfl
    · intro b q t hl
      have hb := hi.block hl
      have hd := hf _ hb.1
      simp only at hd
      have hne : q - 24 ≠ c := by omega
      have hl' : w'.Live b q t := by
        refine ⟨hl.1, ⟨t + 32, ?_⟩, ?_⟩
        · rw [hw]; exact List.mem_cons_of_mem _ hb.1
        · rw [hw]
          show upd w.hdr c (a, size) (q - 24) = _
          rw [upd_other _ _ hne]; exact hl.2.2
      refine ⟨hl', by omega, fun x h1 h2 => ?_⟩
      rw [hmem, fill_out (by omega), fill_out (by omega), fill_out (by omega)]

/-- What becomes of the rest when a chunk is released. -/
theorem released_frame {w : World} (hi : Inv w) {a p size : Nat} (hl : w.Live a p size) :
    (∀ k < size, (w.released a (p - 24) size).mem (p + k) = 0x7d) ∧
    (∀ b t, ¬ (w.released a (p - 24) size).Live b p t) ∧
    ∀ b q t, w.Live b q t → q ≠ p → (w.released a (p - 24) size).Live b q t ∧
      ∀ x, q ≤ x + 8 → x < q + t + 8 → (w.released a (p - 24) size).mem x = w.mem x := by
  have h24 := hl.1
  refine ⟨fun k hk => ?_, fun b t h => ((released_live h24).mp h).2 rfl, fun b q t hq hne => ⟨(released_live h24).mpr ⟨hq, hne⟩, fun x h1 h2 => ?_⟩⟩
  · show fill w.mem (p - 24 + 24) size afterUse (p + k) = _
    rw [fill_in (by omega) (by omega)]; rfl
  · have := live_apart hi hl hq (Ne.symm hne)
    show fill w.mem (p - 24 + 24) size afterUse x = _
    rw [fill_out (by omega)]

/-- Memory that is returned with its canaries intact is accepted, without a guard failure, and filled with
the pattern for dead data; other memory in use is not touched. -/
theorem C116_free {w : World} (R : Reach w) {a p size : Nat} (hl : w.Live a p size) (hc : w.Intact p size) :
    ∃ w', w.dealloc a p = .ok w' ∧ w'.fails = w.fails ∧ (∀ k < size, w'.mem (p + k) = 0x7d) ∧
      (∀ b t, ¬ w'.Live b p t) ∧
      ∀ b q t, w.Live b q t → q ≠ p → w'.Live b q t ∧
        ∀ x, q ≤ x + 8 → x < q + t + 8 → w'.mem x = w.mem x :=
  ⟨w.released a (p - 24) size, (dealloc_live (reach_inv R) hl).2.1 rfl hc, rfl, released_frame (reach_inv R) hl⟩

/-- If any of the 8 bytes before or the 8 bytes behind the memory has changed, this is found when the memory
is returned: an abort when the guard is on; otherwise the failure is counted and the memory is freed. -/
theorem C116_overflow {w : World} (R : Reach w) {a p size k : Nat} (hl : w.Live a p size) (hk : k < 8)
    (hb : w.mem (p - 8 + k) ≠ 0x7b ∨ w.mem (p + size + k) ≠ 0x7b) :
    (w.guards.testBit 1 = true → w.dealloc a p = .error .panic) ∧
    (w.guards.testBit 1 = false → ∃ w', w.dealloc a p = .ok w' ∧ w'.fails a = w.fails a + 1 ∧
      ∀ b t, ¬ w'.Live b p t) := by
  have hn : ¬ w.Intact p size := by
    intro h
    rcases hb with hb | hb
    · exact hb (h k hk).1
    · exact hb (h k hk).2
  have := (dealloc_live (a := a) (reach_inv R) hl).2.2 rfl hn
  have hbit : (w.guards &&& 2 != 0) = w.guards.testBit 1 := guard_bit w.guards 1
  rw [this, hbit]
  refine ⟨fun hg => by rw [hg]; rfl, fun hg => ?_⟩
  rw [hg]
  refine ⟨_, rfl, ?_, fun b t h => ((released_live hl.1).mp h).2 rfl⟩
  show upd w.fails a (w.fails a + 1) a = _
  rw [upd_same]

/-- Memory that is returned to an arena it is not from: an abort when the guard is on; otherwise the failure is
counted by this arena, and nothing else happens. -/
theorem C116_foreign {w : World} (R : Reach w) {a b p size : Nat} (hl : w.Live b p size) (hne : a ≠ b) :
    (w.guards.testBit 2 = true → w.dealloc a p = .error .panic) ∧
    (w.guards.testBit 2 = false →
      w.dealloc a p = .ok { w with fails := fun i => if i = a then w.fails a + 1 else w.fails i }) := by
  have := (dealloc_live (a := a) (reach_inv R) hl).1 hne
  have hbit : (w.guards &&& 4 != 0) = w.guards.testBit 2 := guard_bit w.guards 2
  rw [this, hbit]
  exact ⟨fun hg => by rw [hg]; rfl, fun hg => by rw [hg]; rfl⟩

/-- `num_allocations` is the number of pieces of memory in use, and the destructor reports a leak exactly if
there are some. -/
theorem C116_count {w : World} (R : Reach w) (a : Nat) :
    ∃ ps : List Nat, ps.Nodup ∧ (∀ p, p ∈ ps ↔ ∃ size, w.Live a p size) ∧ w.cnt a = (ps.length : Nat) ∧
      (ps = [] → w.destroy a = .ok w) ∧
      (ps ≠ [] → w.destroy a = if w.guards.testBit 0 then .error .panic
        else .ok { w with fails := fun i => if i = a then w.fails a + 1 else w.fails i }) := by
  have hi := reach_inv R
  have hcnt := hi.cnt a
  refine ⟨(w.blocks.filter fun b => (w.hdr b.1).1 == a).map fun b => b.1 + 24, ?_, ?_, ?_, ?_, ?_⟩
  · have h1 := (List.filter_sublist (p := fun b : Nat × Nat => (w.hdr b.1).1 == a) (l := w.blocks)).map Prod.fst
    have h2 := hi.nodup.sublist h1
    unfold List.Nodup at h2 ⊢
    rw [List.pairwise_map] at h2 ⊢
    exact h2.imp fun h e => h (by omega)
  · intro p
    simp only [List.mem_map, List.mem_filter, beq_iff_eq]
    constructor
    · rintro ⟨b, ⟨hb, ho⟩, rfl⟩
      refine ⟨(w.hdr b.1).2, by omega, ⟨b.2, ?_⟩, ?_⟩
      · rw [show b.1 + 24 - 24 = b.1 by omega]; exact hb
      · rw [show b.1 + 24 - 24 = b.1 by omega, ← ho]
    · rintro ⟨size, h1, ⟨n, h2⟩, h3⟩
      exact ⟨(p - 24, n), ⟨h2, by rw [h3]⟩, by show p - 24 + 24 = p; omega⟩
  · rw [hcnt, List.length_map]
  · intro he
    rw [List.map_eq_nil_iff] at he
    rw [he] at hcnt
    unfold World.destroy
    rw [if_neg (by rw [hcnt]; simp)]
  · intro he
    have : w.cnt a ≠ 0 := by
      rw [hcnt]
      intro h
      apply he
      rw [List.map_eq_nil_iff]
      exact List.length_eq_zero_iff.mp (by omega)
    unfold World.destroy
    rw [if_pos this]
    have hbit : (w.guards &&& 1 != 0) = w.guards.testBit 0 := guard_bit w.guards 0
    rw [← hbit]
    rfl

/-- The size that is reported for memory in use is the size of the block, which was computed beforehand by
`compute_allocated_size`; another arena reports a guard failure. -/
theorem C116_size {w : World} (R : Reach w) {a b p size : Nat} (hl : w.Live b p size) :
    (a = b → w.allocatedSize a p = .ok (w, chunkSize size) ∧ (p - 24, chunkSize size) ∈ w.blocks) ∧
    (a ≠ b → w.guards.testBit 2 = true → w.allocatedSize a p = .error .panic) := by
  have hi := reach_inv R
  have hb := hi.block hl
  have hc : chunkSize size = size + 32 := by unfold chunkSize; omega
  refine ⟨fun e => ⟨by rw [hc]; exact (size_live hi hl).1 e, by rw [hc]; exact hb.1⟩, fun e hg => ?_⟩
  have hbit : (w.guards &&& 4 != 0) = w.guards.testBit 2 := guard_bit w.guards 2
  rw [(size_live hi hl).2 e, hbit, hg]
  rfl

theorem clean_inv {w : World} (h : CleanReach w) :
    (∀ a p size, w.Live a p size → w.Intact p size) ∧ ∀ a, w.fails a = 0 := by
  induction h with
  | start mem hdr g =>
    refine ⟨fun a p size hl => ?_, fun _ => rfl⟩
    obtain ⟨n, hn⟩ := hl.2.1
    cases hn
  | @step w w' hw hs ih =>
    have R := clean_reach hw
    have hi := reach_inv R
    cases hs with
    | @alloc a size m _ p h =>
      cases m with
      | none =>
        simp only [World.alloc, Option.some.injEq, Except.ok.injEq, Prod.mk.injEq] at h
        rw [← h.1]; exact ih
      | some c =>
        obtain ⟨hlt, hc, hf, hq, hw⟩ := alloc_some h
        subst hq
        have hal := C116_alloc R h
        refine ⟨fun b q t hl => ?_, fun b => by rw [hw]; exact ih.2 b⟩
        by_cases e : q = c + 24
        · subst e
          have := (live_unique hl hal.1).2
          rw [this]; exact hal.2.1
        · have hl0 : w.Live b q t := by
            obtain ⟨h1, ⟨n, h2⟩, h3⟩ := hl
            have hqc : q - 24 ≠ c := by omega
            rw [hw] at h2 h3
            refine ⟨h1, ⟨n, ?_⟩, ?_⟩
            · rcases List.mem_cons.mp h2 with h2 | h2
              · exact absurd (congrArg Prod.fst h2) hqc
              · exact h2
            · have h3 : upd w.hdr c (a, size) (q - 24) = (b, t) := h3
              rw [upd_other _ _ hqc] at h3
              exact h3
          obtain ⟨-, -, hfr⟩ := hal.2.2.2 b q t hl0
          have h8 := hl0.1
          intro k hk
          have := ih.1 b q t hl0 k hk
          rw [hfr _ (by omega) (by omega), hfr _ (by omega) (by omega)]
          exact this
    | @dealloc a p size _ hl h =>
      rw [(dealloc_live hi hl).2.1 rfl (ih.1 _ _ _ hl), Except.ok.injEq] at h
      subst h
      refine ⟨fun b q t hq => ?_, ih.2⟩
      obtain ⟨hq0, hne⟩ := (released_live hl.1).mp hq
      have hfr := ((released_frame hi hl).2.2 b q t hq0 hne).2
      have h8 := hq0.1
      intro k hk
      rw [hfr _ (by omega) (by omega), hfr _ (by omega) (by omega)]
      exact ih.1 b q t hq0 k hk
    | @poke a p size x v hl h1 h2 =>
      refine ⟨fun b q t hq => ?_, ih.2⟩
      have hq0 : w.Live b q t := hq
      have h8 := hq0.1
      intro k hk
      have hne1 : q - 8 + k ≠ x := by
        by_cases e : p = q
        · subst e; omega
        · have := live_apart hi hl hq0 e; omega
      have hne2 : q + t + k ≠ x := by
        by_cases e : p = q
        · subst e
          have := (live_unique hl hq0).2
          omega
        · have := live_apart hi hl hq0 e; omega
      show upd w.mem x v _ = _ ∧ upd w.mem x v _ = _
      rw [upd_other _ _ hne1, upd_other _ _ hne2]
      exact ih.1 b q t hq0 k hk
    | guards g => exact ih
    | size hl h =>
      rw [(size_live hi hl).1 rfl, Except.ok.injEq, Prod.mk.injEq] at h
      rw [← h.1]; exact ih
    | @destroy a _ hn h =>
      obtain ⟨ps, -, hps, -, hd, -⟩ := C116_count R a
      have : ps = [] := by
        cases ps with
        | nil => rfl
        | cons p ps =>
          obtain ⟨size, hl⟩ := (hps p).mp (by simp)
          exact absurd hl (hn p size)
      rw [hd this, Except.ok.injEq] at h
      rw [← h]; exact ih

/-- No false alarms: a program that writes inside of its memory, returns it to the right arena and returns
everything before an arena is destroyed never aborts, and no guard failure is counted. -/
theorem C116_clean {w : World} (R : CleanReach w) :
    (∀ a, w.fails a = 0) ∧ (∀ a p size, w.Live a p size → ∃ w', w.dealloc a p = .ok w') ∧
    ∀ a, (∀ p size, ¬ w.Live a p size) → w.destroy a = .ok w := by
  have hR := clean_reach R
  obtain ⟨h1, h2⟩ := clean_inv R
  refine ⟨h2, fun a p size hl => ?_, fun a hn => ?_⟩
  · obtain ⟨w', hw, -⟩ := C116_free hR hl (h1 a p size hl)
    exact ⟨w', hw⟩
  · obtain ⟨ps, -, hps, -, hd, -⟩ := C116_count hR a
    apply hd
    cases ps with
    | nil => rfl
    | cons p ps =>
      obtain ⟨size, hl⟩ := (hps p).mp (by simp)
      exact absurd hl (hn p size)

/-! ### What does not hold -/

/-- The header comment says that the link to the owner catches a double free. It is not cleared: as long as
the arena has other memory in use, a second `deallocate` passes all checks and reaches `free`. -/
theorem C116_double_free_fails {w : World} (R : Reach w) {a p q s t : Nat} (hp : w.Live a p s)
    (hq : w.Live a q t) (hne : p ≠ q) (hc : w.Intact p s) :
    ∃ w', w.dealloc a p = .ok w' ∧ w'.dealloc a p = .error .badFree := by
  have hi := reach_inv R
  have hb := hi.block hp
  refine ⟨_, (dealloc_live hi hp).2.1 rfl hc, ?_⟩
  have hi' := released_inv hi hp w rfl rfl rfl
  have hcnt : (w.released a (p - 24) s).cnt a ≠ 0 := by
    rw [hi'.cnt]
    have hq' := (released_live (a := a) (size := s) hp.1).mpr ⟨hq, Ne.symm hne⟩
    have hbq := hi'.block hq'
    have : (q - 24, t + 32) ∈ (w.released a (p - 24) s).blocks.filter
        fun b => ((w.released a (p - 24) s).hdr b.1).1 == a :=
      List.mem_filter.mpr ⟨hbq.1, by simp [hq'.2.2]⟩
    have := List.length_pos_of_mem this
    omega
  have hhdr : (w.released a (p - 24) s).hdr (p - 24) = (a, s) := hp.2.2
  have hmem : ∀ x, x < p ∨ p + s ≤ x → (w.released a (p - 24) s).mem x = w.mem x := by
    intro x hx
    show fill w.mem (p - 24 + 24) s afterUse x = _
    rw [fill_out (by omega)]
  have hcan : (checkCanary (w.released a (p - 24) s).mem (p - 24 + 16) 8 &&
      checkCanary (w.released a (p - 24) s).mem (p - 24 + 24 + s) 8) = true := by
    rw [Bool.and_eq_true, checkCanary_iff, checkCanary_iff]
    constructor
    · intro k hk
      rw [hmem _ (by omega), show p - 24 + 16 + k = p - 8 + k by omega]
      exact (hc k hk).1
    · intro k hk
      rw [hmem _ (by omega), show p - 24 + 24 + s + k = p + s + k by omega]
      exact (hc k hk).2
  generalize hw : w.released a (p - 24) s = w1 at *
  unfold World.dealloc
  rw [if_neg (by omega)]
  simp only [hhdr]
  rw [if_neg (by simp), if_pos hcan]
  unfold World.release
  simp only
  rw [if_neg hcnt]
  unfold World.free
  simp only
  rw [if_neg]
  rw [List.any_eq_true]
  rintro ⟨b, h1, h2⟩
  rw [← hw] at h1
  have := (List.mem_filter.mp h1).2
  simp at this h2
  exact this h2

/-- A size close to the maximum wraps around: a small block is allocated, and filled beyond its end. -/
theorem C116_huge_fails (w : World) (a c size : Nat) (h1 : 2 ^ 64 ≤ size + 32) (h2 : size < 2 ^ 64)
    (hf : w.fresh c (size + 32 - 2 ^ 64) = true) :
    chunkSize size = size + 32 - 2 ^ 64 ∧ chunkSize size < 32 ∧
    w.alloc a size (some c) = some (.error .outside) := by
  have hc : chunkSize size = size + 32 - 2 ^ 64 := by unfold chunkSize; omega
  refine ⟨hc, by omega, ?_⟩
  unfold World.alloc
  simp only [hc]
  rw [if_neg (by rw [hf]; simp), if_pos (by omega)]

/-! ### Examples -/

def w0 : World := ⟨fun _ => 0, fun _ => (0, 0), [], fun _ => 0, fun _ => 0, defaultGuards⟩

/-- Two chunks of arena 1. -/
def w1 : World := { w0 with
  mem := fill (fill (fill w0.mem (1000 + 16) 8 canary) (1000 + 24) 3 beforeUse) (1000 + 24 + 3) 8 canary,
  hdr := upd w0.hdr 1000 (1, 3), blocks := [(1000, 35)], cnt := upd w0.cnt 1 1 }

def w2 : World := { w1 with
  mem := fill (fill (fill w1.mem (2000 + 16) 8 canary) (2000 + 24) 5 beforeUse) (2000 + 24 + 5) 8 canary,
  hdr := upd w1.hdr 2000 (1, 5), blocks := [(2000, 37), (1000, 35)], cnt := upd w1.cnt 1 2 }

theorem ex_w1 : w0.alloc 1 3 (some 1000) = some (.ok (w1, some 1024)) := rfl

theorem ex_w2 : w1.alloc 1 5 (some 2000) = some (.ok (w2, some 2024)) := rfl

theorem ex_reach : CleanReach w2 := ((CleanReach.start _ _ _).step (.alloc ex_w1)).step (.alloc ex_w2)

theorem ex_live1 : w2.Live 1 1024 3 := ⟨by omega, ⟨35, by simp [w2]⟩, rfl⟩

theorem ex_live2 : w2.Live 1 2024 5 := ⟨by omega, ⟨37, by simp [w2]⟩, rfl⟩

/-- Hypotheses of `C116_alloc`, `C116_free`, `C116_foreign`, `C116_count`, `C116_size`, `C116_clean`,
`C116_double_free_fails`. -/
example : Reach w2 ∧ w2.Live 1 1024 3 ∧ w2.Live 1 2024 5 ∧ w2.Intact 1024 3 :=
  ⟨clean_reach ex_reach, ex_live1, ex_live2, (clean_inv ex_reach).1 _ _ _ ex_live1⟩

/-- Hypotheses of `C116_overflow`: one byte is written behind the memory. -/
example : Reach { w2 with mem := upd w2.mem 1027 0 } ∧ { w2 with mem := upd w2.mem 1027 0 }.Live 1 1024 3 ∧
    (upd w2.mem 1027 0) (1024 + 3 + 0) ≠ 0x7b :=
  ⟨(clean_reach ex_reach).step (.poke 0 ex_live1 (by omega) (by omega)), ex_live1, by decide⟩

/-- Hypotheses of `C116_huge_fails`. -/
example : w0.fresh 1000 (2 ^ 64 - 16 + 32 - 2 ^ 64) = true := rfl

end Verif.HeapArena
