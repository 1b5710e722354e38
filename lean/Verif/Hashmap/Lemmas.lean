import Verif.Hashmap.Model
import Mathlib.Data.List.Nodup
import Mathlib.Data.List.Perm.Basic

/-! Auxiliary lemmas for the hash map. -/

namespace Verif.Hashmap

variable {κ : Type} [DecidableEq κ]

theorem flatten_modify {α : Type} (bs : List (List α)) {i : Nat} (hi : i < bs.length) (n : α) :
    (bs.modify i (· ++ [n])).flatten.Perm (n :: bs.flatten) := by
  induction bs generalizing i with
  | nil => simp at hi
  | cons b bs ih =>
    cases i with
    | zero =>
      simp only [List.modify_zero_cons, List.flatten_cons, List.append_assoc, List.singleton_append]
      exact List.perm_middle
    | succ i =>
      simp only [List.modify_succ_cons, List.flatten_cons]
      have := ih (i := i) (by simpa using hi)
      exact (List.Perm.append_left b this).trans List.perm_middle

theorem flatten_set {α : Type} (bs : List (List α)) {i : Nat} {n : α} {rest : List α} (h : bs[i]? = some (n :: rest)) :
    bs.flatten.Perm (n :: (bs.set i rest).flatten) := by
  induction bs generalizing i with
  | nil => simp at h
  | cons b bs ih =>
    cases i with
    | zero =>
      simp only [List.getElem?_cons_zero, Option.some.injEq] at h
      subst h
      simp
    | succ i =>
      simp only [List.getElem?_cons_succ] at h
      simp only [List.set_cons_succ, List.flatten_cons]
      exact (List.Perm.append_left b (ih h)).trans List.perm_middle

theorem embeddedCount_gt {prealloc cur p : Nat} (l : List Nat) (h : embeddedCount prealloc cur l = some p) : p > cur := by
  induction l with
  | nil => simp [embeddedCount] at h
  | cons a l ih =>
    cases l with
    | nil => simp [embeddedCount] at h
    | cons b l =>
      simp only [embeddedCount] at h
      split at h
      · cases h
      · split at h
        · simp only [Option.some.injEq] at h; omega
        · exact ih h

theorem arenaCount_gt {cur p : Nat} (l : List Nat) (h : arenaCount cur l = some p) : p > cur := by
  induction l with
  | nil => simp [arenaCount] at h
  | cons a l ih =>
    simp only [arenaCount] at h
    split at h
    · exact ih h
    · split at h
      · simp only [Option.some.injEq] at h; omega
      · exact ih h

theorem nextCount_gt (prealloc cur : Nat) : nextCount prealloc cur > cur := by
  unfold nextCount
  split
  · rename_i p hp
    split at hp
    · exact embeddedCount_gt _ hp
    · cases hp
  · split
    · rename_i p hp; exact arenaCount_gt _ hp
    · rename_i hp
      have : cur ≠ 0 := by
        rintro rfl
        simp [arenaCount, primeCounts] at hp
      omega

theorem capacity_lt {n m : Nat} (h : n < m) : capacity n < capacity m := by
  unfold capacity; omega

theorem growCount_eq (prealloc cur fuel : Nat) :
    growCount prealloc (capacity cur) (fuel + 1) cur = some (nextCount prealloc cur) := by
  have := capacity_lt (nextCount_gt prealloc cur)
  simp only [growCount]
  rw [if_neg (by omega)]

/-- What holds between operations, apart from `full` below. -/
structure Core (hf : κ → Nat) (s : State κ) : Prop where
  size : s.size = s.all.length
  perm : (s.curr.flatten ++ s.prev.flatten).Perm s.all
  hash : ∀ n ∈ s.all, n.hash = hf n.key
  keys : (s.all.map (·.key)).Nodup
  ids : (s.all.map (·.id)).Nodup
  currIdx : ∀ i b, s.curr[i]? = some b → ∀ n ∈ b, n.hash % s.curr.length = i
  prevIdx : ∀ i b, s.prev[i]? = some b → ∀ n ∈ b, n.hash % s.prev.length = i
  remain : s.remain = s.prev.flatten.length
  posEmpty : ∀ j, j < s.pos → ∀ b, s.prev[j]? = some b → b = []
  posLt : s.prev ≠ [] → s.pos < s.prev.length
  posZero : s.prev = [] → s.pos = 0
  cap : s.size ≤ capacity s.curr.length

/-- Between operations: a full table has nothing left to migrate. -/
structure Inv (hf : κ → Nat) (s : State κ) : Prop extends Core hf s where
  full : s.size = capacity s.curr.length → s.remain = 0

theorem core_init (hf : κ → Nat) (p : Nat) : Inv hf (State.init p : State κ) := by
  refine ⟨⟨rfl, by simp [State.init], ?_, by simp [State.init], by simp [State.init], ?_, ?_, rfl, ?_, ?_, fun _ => rfl, ?_⟩,
    fun _ => rfl⟩
  all_goals simp [State.init]

/-- The array a node is in finds it. -/
theorem findIn_of_mem {hf : κ → Nat} {bs : Buckets κ} (hidx : ∀ i b, bs[i]? = some b → ∀ n ∈ b, n.hash % bs.length = i)
    (hk : ∀ n ∈ bs.flatten, ∀ m ∈ bs.flatten, n.key = m.key → n = m) (hh : ∀ n ∈ bs.flatten, n.hash = hf n.key)
    {n : Node κ} (hn : n ∈ bs.flatten) : findIn bs (hf n.key) n.key = some n := by
  rw [List.mem_flatten] at hn
  obtain ⟨b, hb, hnb⟩ := hn
  obtain ⟨i, hi, hib⟩ := List.mem_iff_getElem.1 hb
  have hb' : bs[i]? = some b := by rw [List.getElem?_eq_getElem hi, hib]
  have hlen : bs.length ≠ 0 := by omega
  have hnf : n ∈ bs.flatten := List.mem_flatten.2 ⟨b, hb, hnb⟩
  have hix := hidx i b hb' n hnb
  rw [hh n hnf] at hix
  unfold findIn
  rw [if_pos hlen, hix, List.getD_eq_getElem?_getD, hb']
  simp only [Option.getD_some]
  unfold findInBucket
  cases hf2 : b.find? (fun x => decide (x.hash = hf n.key) && decide (x.key = n.key)) with
  | none =>
    rw [List.find?_eq_none] at hf2
    have := hf2 n hnb
    simp [hh n hnf] at this
  | some m =>
    have h1 := List.find?_some hf2
    have h2 := List.mem_of_find?_eq_some hf2
    simp only [Bool.and_eq_true, decide_eq_true_eq] at h1
    rw [hk m (List.mem_flatten.2 ⟨b, hb, h2⟩) n hnf h1.2]

theorem findIn_mem {bs : Buckets κ} {h : Nat} {k : κ} {n : Node κ} (hn : findIn bs h k = some n) :
    n ∈ bs.flatten ∧ n.key = k := by
  unfold findIn at hn
  split at hn
  · rename_i hl
    unfold findInBucket at hn
    have h1 := List.find?_some hn
    have h2 := List.mem_of_find?_eq_some hn
    simp only [Bool.and_eq_true, decide_eq_true_eq] at h1
    refine ⟨?_, h1.2⟩
    rw [List.getD_eq_getElem?_getD] at h2
    cases hb : bs[h % bs.length]? with
    | none => rw [hb] at h2; simp at h2
    | some b =>
      rw [hb] at h2
      exact List.mem_flatten.2 ⟨b, List.mem_of_getElem? hb, h2⟩
  · cases hn

theorem mem_all {hf : κ → Nat} {s : State κ} (h : Core hf s) (n : Node κ) :
    n ∈ s.all ↔ n ∈ s.curr.flatten ∨ n ∈ s.prev.flatten := by
  rw [← h.perm.mem_iff, List.mem_append]

theorem key_inj {l : List (Node κ)} (h : (l.map (·.key)).Nodup) {n m : Node κ} (hn : n ∈ l) (hm : m ∈ l)
    (e : n.key = m.key) : n = m := List.inj_on_of_nodup_map h hn hm e

theorem find_spec {hf : κ → Nat} {s : State κ} (h : Core hf s) (k : κ) :
    s.find (hf k) k = s.all.find? (fun n => n.key = k) := by
  have hk : ∀ bs : Buckets κ, (∀ n ∈ bs.flatten, n ∈ s.all) → ∀ n ∈ bs.flatten, ∀ m ∈ bs.flatten, n.key = m.key → n = m :=
    fun bs hs n hn m hm e => key_inj h.keys (hs n hn) (hs m hm) e
  have hc : ∀ n ∈ s.curr.flatten, n ∈ s.all := fun n hn => (mem_all h n).2 (.inl hn)
  have hp : ∀ n ∈ s.prev.flatten, n ∈ s.all := fun n hn => (mem_all h n).2 (.inr hn)
  -- any answer is the node of `all` with that key
  have huniq : ∀ n, n ∈ s.all → n.key = k → s.all.find? (fun n => n.key = k) = some n := by
    intro n hn hnk
    cases hf2 : s.all.find? (fun n => decide (n.key = k)) with
    | none =>
      rw [List.find?_eq_none] at hf2
      have := hf2 n hn
      simp [hnk] at this
    | some m =>
      have h1 := List.find?_some hf2
      simp only [decide_eq_true_eq] at h1
      rw [key_inj h.keys (List.mem_of_find?_eq_some hf2) hn (h1.trans hnk.symm)]
  unfold State.find
  cases hfc : findIn s.curr (hf k) k with
  | some n =>
    have := findIn_mem hfc
    exact (huniq n (hc n this.1) this.2).symm
  | none =>
    cases hfp : findIn s.prev (hf k) k with
    | some n =>
      have := findIn_mem hfp
      exact (huniq n (hp n this.1) this.2).symm
    | none =>
      symm
      rw [List.find?_eq_none]
      intro n hn hnk
      simp only [decide_eq_true_eq] at hnk
      subst hnk
      rcases (mem_all h n).1 hn with e | e
      · rw [findIn_of_mem h.currIdx (hk _ hc) (fun m hm => h.hash m (hc m hm)) e] at hfc
        cases hfc
      · rw [findIn_of_mem h.prevIdx (hk _ hp) (fun m hm => h.hash m (hp m hm)) e] at hfp
        cases hfp

theorem contains_iff {hf : κ → Nat} {s : State κ} (h : Core hf s) (id : Nat) :
    s.contains id = true ↔ ∃ n ∈ s.all, n.id = id := by
  simp only [State.contains, Bool.or_eq_true, List.any_eq_true, decide_eq_true_eq]
  constructor
  · rintro (⟨n, hn, e⟩ | ⟨n, hn, e⟩)
    · exact ⟨n, (mem_all h n).2 (.inl hn), e⟩
    · exact ⟨n, (mem_all h n).2 (.inr hn), e⟩
  · rintro ⟨n, hn, e⟩
    rcases (mem_all h n).1 hn with e2 | e2
    · exact .inl ⟨n, e2, e⟩
    · exact .inr ⟨n, e2, e⟩

theorem modify_idx {bs : Buckets κ} (hidx : ∀ i b, bs[i]? = some b → ∀ n ∈ b, n.hash % bs.length = i) (n : Node κ) :
    ∀ i b, (bs.modify (n.hash % bs.length) (· ++ [n]))[i]? = some b → ∀ m ∈ b, m.hash % bs.length = i := by
  intro i b hb m hm
  rw [List.getElem?_modify] at hb
  cases hbi : bs[i]? with
  | none => rw [hbi] at hb; simp at hb
  | some b0 =>
    rw [hbi] at hb
    simp only [Option.map_eq_map, Option.map_some, Option.some.injEq] at hb
    by_cases e : n.hash % bs.length = i
    · rw [if_pos e] at hb
      subst hb
      rw [List.mem_append, List.mem_singleton] at hm
      rcases hm with hm | rfl
      · exact hidx i b0 hbi m hm
      · exact e
    · rw [if_neg e] at hb
      subst hb
      exact hidx i b0 hbi m hm

/-- `proceed_rehash_`'s loop ends, loses nothing, and leaves no half-done position behind. -/
theorem rehashLoop_spec {hf : κ → Nat} (fuel mig : Nat) {s : State κ} (h : Core hf s) (hp : s.pos < s.prev.length)
    (hf2 : s.prev.length - s.pos + s.remain < fuel) (hcl : 0 < s.curr.length) :
    ∃ s', s.rehashLoop mig fuel = some s' ∧ Core hf s' ∧ s'.all = s.all ∧ s'.size = s.size ∧
      s'.curr.length = s.curr.length ∧ s'.prealloc = s.prealloc ∧ (s'.remain = 0 → s'.pos = 0) ∧
      (s.remain ≤ mig → s'.remain = 0) ∧ s'.remain ≤ s.remain := by
  induction fuel generalizing s mig with
  | zero => omega
  | succ fuel ih =>
    simp only [State.rehashLoop]
    rw [if_neg (by omega)]
    have hbk : s.prev[s.pos]? = some (s.prev.getD s.pos []) := by
      rw [List.getD_eq_getElem?_getD, List.getElem?_eq_getElem hp]; rfl
    cases hb : s.prev.getD s.pos [] with
    | nil =>
      rw [hb] at hbk
      simp only
      -- all buckets up to and including this one are empty
      have hempty : ∀ j, j < s.pos + 1 → ∀ b, s.prev[j]? = some b → b = [] := by
        intro j hj b hjb
        rcases Nat.lt_succ_iff_lt_or_eq.1 hj with e | e
        · exact h.posEmpty j e b hjb
        · subst e; rw [hbk] at hjb; simpa using hjb.symm
      split
      · rename_i hend
        have hflat : s.prev.flatten = [] := by
          rw [List.flatten_eq_nil_iff]
          intro b hb2
          obtain ⟨i, hi, hib⟩ := List.mem_iff_getElem.1 hb2
          exact hempty i (by omega) b (by rw [List.getElem?_eq_getElem hi, hib])
        have hr : s.remain = 0 := by rw [h.remain, hflat]; rfl
        rw [if_neg (by omega)]
        refine ⟨_, rfl, ?_, rfl, rfl, rfl, rfl, fun _ => rfl, fun _ => hr, Nat.le_refl _⟩
        exact { size := h.size, perm := by simpa [hflat] using h.perm, hash := h.hash, keys := h.keys, ids := h.ids,
                currIdx := h.currIdx, prevIdx := by simp, remain := by simpa using hr, posEmpty := by simp,
                posLt := by simp, posZero := by simp, cap := h.cap }
      · rename_i hend
        have hcore : Core hf { s with pos := s.pos + 1 } :=
          { h with posEmpty := hempty, posLt := fun _ => by show s.pos + 1 < s.prev.length; omega
                   posZero := fun e => by have : s.prev.length = 0 := by rw [e]; rfl
                                          omega }
        exact ih mig hcore (by show s.pos + 1 < s.prev.length; omega)
          (by show s.prev.length - (s.pos + 1) + s.remain < fuel; omega) hcl
    | cons n rest =>
      rw [hb] at hbk
      simp only
      have hperm := flatten_set s.prev hbk
      have hlen := hperm.length_eq
      simp only [List.length_cons] at hlen
      have hr : s.remain ≠ 0 := by rw [h.remain]; omega
      split
      · rename_i hm
        exact ⟨s, rfl, h, rfl, rfl, rfl, rfl, fun e => absurd e hr, fun e => absurd (by omega) hr, Nat.le_refl _⟩
      · rename_i hm
        unfold bucketInsert
        rw [if_neg (by omega)]
        simp only
        have hmod := flatten_modify s.curr (i := n.hash % s.curr.length) (Nat.mod_lt _ hcl) n
        have hcore : Core hf { s with prev := s.prev.set s.pos rest, remain := s.remain - 1,
                                      curr := s.curr.modify (n.hash % s.curr.length) (· ++ [n]) } := by
          refine { size := h.size, perm := ?_, hash := h.hash, keys := h.keys, ids := h.ids, currIdx := ?_, prevIdx := ?_,
                   remain := ?_, posEmpty := ?_, posLt := ?_, posZero := ?_, cap := ?_ }
          · refine List.Perm.trans ?_ h.perm
            refine (List.Perm.append_right _ hmod).trans ?_
            refine List.Perm.trans ?_ (List.Perm.append_left _ hperm.symm)
            simp only [List.cons_append]
            exact List.perm_middle.symm
          · simp only [List.length_modify]
            exact modify_idx h.currIdx n
          · intro i b hib m hm2
            simp only [List.length_set]
            rw [List.getElem?_set] at hib
            split at hib
            · rename_i e
              subst e
              simp only [Option.some.injEq] at hib
              subst hib
              exact h.prevIdx s.pos _ hbk m (List.mem_cons_of_mem _ hm2)
            · exact h.prevIdx i b hib m hm2
          · simp only; rw [h.remain]; omega
          · intro j hj b hjb
            rw [List.getElem?_set_ne (by show s.pos ≠ j; have : j < s.pos := hj; omega)] at hjb
            exact h.posEmpty j hj b hjb
          · intro _; simpa using hp
          · intro e
            have := congrArg List.length e
            simp at this
            rw [this] at hp; simp at hp
          · simpa using h.cap
        obtain ⟨s', h1, h2, h3, h4, h5, h6, h7, h8, h9⟩ := ih (mig - 1) hcore (by simpa using hp)
          (by simp only [List.length_set]; omega) (by simpa using hcl)
        refine ⟨s', h1, h2, h3, h4, by simpa using h5, h6, h7, fun e => h8 (by simp only; omega), ?_⟩
        simp only at h9; omega

/-- `proceed_rehash_`. -/
theorem proceed_spec {hf : κ → Nat} {s : State κ} (h : Core hf s) (ins : Bool) (hcl : 0 < s.curr.length) :
    ∃ s', s.proceed ins = some s' ∧ Core hf s' ∧ s'.all = s.all ∧ s'.size = s.size ∧
      s'.curr.length = s.curr.length ∧ s'.prealloc = s.prealloc ∧
      (s.remain ≠ 0 → s'.remain = 0 → s'.pos = 0) ∧ (s.remain = 0 → s' = s) ∧
      (ins = true → s.size = capacity s.curr.length → s'.remain = 0) ∧ s'.remain ≤ s.remain := by
  unfold State.proceed
  by_cases hr : s.remain = 0
  · rw [if_pos hr]
    exact ⟨s, rfl, h, rfl, rfl, rfl, rfl, fun e => absurd hr e, fun _ => rfl, fun _ _ => hr, Nat.le_refl _⟩
  · rw [if_neg hr]
    have hprev : s.prev ≠ [] := by
      rintro e
      have := h.remain
      rw [e] at this
      exact hr (by simpa using this)
    simp only
    obtain ⟨mig, hm⟩ : ∃ mig, mig = (if ins = true then
        (if capacity s.curr.length - s.size = 0 then s.remain
         else (s.remain + (capacity s.curr.length - s.size) - 1) / (capacity s.curr.length - s.size)) else 1) := ⟨_, rfl⟩
    rw [← hm]
    obtain ⟨s', h1, h2, h3, h4, h5, h6, h7, h8, h9⟩ := rehashLoop_spec (s.prev.length + s.remain + 1) mig h (h.posLt hprev)
      (by omega) hcl
    refine ⟨s', h1, h2, h3, h4, h5, h6, fun _ => h7, fun e => absurd e hr, ?_, h9⟩
    intro hi he
    apply h8
    rw [hm, if_pos hi, if_pos (by omega)]
    exact Nat.le_refl _

end Verif.Hashmap
