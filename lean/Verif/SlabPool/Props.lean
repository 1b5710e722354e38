import Verif.SlabPool.Lemmas

/-! Properties C17 and C58. -/

namespace Verif.SlabPool

/-- States after any history of calls by a user that frees only what it got and did not free yet and
does not write outside its objects; `L` is the list of pointers returned and not freed yet. -/
inductive Reach (c : Cfg) (arena : Arena) : State → List Nat → Prop where
  | init {s : State} : c.init = some s → Reach c arena s []
  | allocNull {s s' : State} {L : List Nat} : Reach c arena s L → s.allocate c arena = (s', none) → Reach c arena s' L
  | alloc {s s' : State} {L : List Nat} {p : Nat} : Reach c arena s L → s.allocate c arena = (s', some p) →
      Reach c arena s' (p :: L)
  | free {s s' : State} {L : List Nat} {p : Nat} : Reach c arena s L → p ∈ L → s.deallocate c p true = some s' →
      Reach c arena s' (L.erase p)
  | reserve {s s' : State} {L : List Nat} {n : Nat} {r : Bool} : Reach c arena s L → s.reserve c arena n = (s', r) →
      Reach c arena s' L

variable {c : Cfg} {arena : Arena}

theorem allocate_used (hp : PlatOk c.plat) (ha : ArenaOk c arena) {s : State} (h : Inv c s) :
    (∀ s', s.allocate c arena = (s', none) → s'.used = s.used) ∧
      ∀ s' p, s.allocate c arena = (s', some p) → ∃ slot, p = slot + c.userOff ∧ s'.used = slot :: s.used := by
  have hn := (newSlab_inv hp ha h).2.1
  have key : ∀ t : State, t.used = s.used → ∀ x, (match t.free with
      | [] => (t, none)
      | slot :: rest => ({ t with free := rest, used := slot :: t.used, nUsed := t.nUsed + 1 }, some (slot + c.userOff))) = x →
      (x.2 = none → x.1.used = s.used) ∧ ∀ p, x.2 = some p → ∃ slot, p = slot + c.userOff ∧ x.1.used = slot :: s.used := by
    intro t ht x hx
    cases hf : t.free with
    | nil => rw [hf] at hx; subst hx; exact ⟨fun _ => ht, by simp⟩
    | cons a l =>
      rw [hf] at hx; subst hx
      refine ⟨by simp, ?_⟩
      intro p e
      simp only [Option.some.injEq] at e
      exact ⟨a, e.symm, by simp [ht]⟩
  have hall : (s.allocate c arena).2 = none → (s.allocate c arena).1.used = s.used := by
    unfold State.allocate
    simp only
    split_ifs
    · exact (key _ hn _ rfl).1
    · exact (key s rfl _ rfl).1
  have hsome : ∀ p, (s.allocate c arena).2 = some p → ∃ slot, p = slot + c.userOff ∧
      (s.allocate c arena).1.used = slot :: s.used := by
    unfold State.allocate
    simp only
    split_ifs
    · exact (key _ hn _ rfl).2
    · exact (key s rfl _ rfl).2
  exact ⟨fun s' e => by rw [e] at hall; exact hall rfl, fun s' p e => by rw [e] at hsome; exact hsome p rfl⟩

theorem erase_map_add (l : List Nat) (k a : Nat) : (l.map (· + k)).erase (a + k) = (l.erase a).map (· + k) := by
  induction l with
  | nil => rfl
  | cons x l ih =>
    simp only [List.map_cons, List.erase_cons]
    by_cases hx : x = a
    · simp [hx]
    · rw [if_neg (by simpa using fun e => hx (by omega)), if_neg (by simpa using hx), List.map_cons, ih]

theorem reach_inv (hp : PlatOk c.plat) (hpre : PreOk c) (ha : ArenaOk c arena) {s : State} {L : List Nat}
    (h : Reach c arena s L) : Inv c s ∧ L = s.used.map (· + c.userOff) := by
  induction h with
  | init hi =>
    obtain ⟨h1, h2⟩ := inv_init hp hpre hi
    exact ⟨h1, by rw [h2]; rfl⟩
  | @allocNull s s' L _ hc ih =>
    obtain ⟨i, rfl⟩ := ih
    have h1 := allocate_inv hp ha i
    rw [hc] at h1
    exact ⟨h1, by rw [(allocate_used hp ha i).1 _ hc]⟩
  | @alloc s s' L p _ hc ih =>
    obtain ⟨i, rfl⟩ := ih
    have h1 := allocate_inv hp ha i
    rw [hc] at h1
    obtain ⟨slot, rfl, e⟩ := (allocate_used hp ha i).2 _ _ hc
    exact ⟨h1, by rw [e]; rfl⟩
  | @free s s' L p _ hm hc ih =>
    obtain ⟨i, rfl⟩ := ih
    refine ⟨deallocate_inv i hc, ?_⟩
    obtain ⟨slot, hs, rfl⟩ := List.mem_map.1 hm
    rw [erase_map_add]
    unfold State.deallocate at hc
    rw [Nat.add_sub_cancel] at hc
    split_ifs at hc with h1 h2
    · simp only [Option.some.injEq] at hc; subst hc; rfl
  | @reserve s s' L n r _ hc ih =>
    obtain ⟨i, rfl⟩ := ih
    obtain ⟨h1, h2, -⟩ := reserve_inv hp ha i n
    rw [hc] at h1 h2
    exact ⟨h1, by rw [← h2]⟩

/-- At any time the objects given out are maximum-aligned, lie inside the memory owned by the pool and
outside of the slab headers, and do not overlap each other. -/
theorem C17_disjoint (hp : PlatOk c.plat) (hpre : PreOk c) (ha : ArenaOk c arena) {s : State} {L : List Nat}
    (h : Reach c arena s L) : L.Pairwise (fun p q => Apart p c.objectSize q c.objectSize) ∧
      ∀ p ∈ L, c.plat.align ∣ p ∧ ∃ b ∈ s.blocks, b.base + b.hdr ≤ p ∧ p + c.objectSize ≤ b.base + b.size := by
  obtain ⟨i, rfl⟩ := reach_inv hp hpre ha h
  have hu := unaligned_le c
  unfold Cfg.unaligned at hu
  constructor
  · rw [List.pairwise_map]
    refine List.Pairwise.imp ?_ (List.pairwise_append.1 i.apart).2.1
    intro a b hab
    unfold SlotApart Apart at hab
    unfold Apart Cfg.userOff
    omega
  · intro p hpm
    obtain ⟨a, hm, rfl⟩ := List.mem_map.1 hpm
    obtain ⟨h1, b, hb, h2, h3⟩ := i.placed a (List.mem_append_right _ hm)
    refine ⟨Nat.dvd_add h1 (Nat.dvd_add hp.hdr hp.canary), b, hb, ?_, ?_⟩
    · omega
    · unfold Cfg.userOff; omega

/-- Every object given out has room for both canaries: objects together with the canaries before and after them do not overlap, and lie
inside the memory owned by the pool, so that writing or checking a canary never touches another object. -/
theorem C17_canaries (hp : PlatOk c.plat) (hpre : PreOk c) (ha : ArenaOk c arena) {s : State} {L : List Nat}
    (h : Reach c arena s L) :
    L.Pairwise (fun p q => Apart (p - c.plat.canary) (c.plat.canary + c.objectSize + c.plat.canary)
      (q - c.plat.canary) (c.plat.canary + c.objectSize + c.plat.canary)) ∧
      ∀ p ∈ L, c.plat.canary ≤ p ∧ ∃ b ∈ s.blocks, b.base + b.hdr ≤ p - c.plat.canary ∧ p + c.objectSize + c.plat.canary ≤ b.base + b.size := by
  obtain ⟨i, rfl⟩ := reach_inv hp hpre ha h
  have hu := unaligned_le c
  unfold Cfg.unaligned at hu
  constructor
  · rw [List.pairwise_map]
    refine List.Pairwise.imp ?_ (List.pairwise_append.1 i.apart).2.1
    intro a b hab
    unfold SlotApart Apart at hab
    unfold Apart Cfg.userOff
    omega
  · intro p hpm
    obtain ⟨a, hm, rfl⟩ := List.mem_map.1 hpm
    obtain ⟨h1, b, hb, h2, h3⟩ := i.placed a (List.mem_append_right _ hm)
    unfold Cfg.userOff
    exact ⟨by omega, b, hb, by omega, by omega⟩

/-- Nothing the pool itself writes (owner field, canaries of a slot being given out or taken back, the
list links of free slots, slab headers) is inside an object given out: the whole slots are disjoint. -/
theorem C17_metadata (hp : PlatOk c.plat) (hpre : PreOk c) (ha : ArenaOk c arena) {s : State} {L : List Nat}
    (h : Reach c arena s L) {p : Nat} (hpL : p ∈ L) :
    (∀ q ∈ L, q ≠ p → Apart p c.objectSize (q - c.userOff) c.slotSize) ∧
      (∀ a ∈ s.free, Apart p c.objectSize a c.slotSize) ∧ c.plat.slot ≤ c.slotSize := by
  obtain ⟨i, rfl⟩ := reach_inv hp hpre ha h
  have hu := unaligned_le c
  unfold Cfg.unaligned at hu
  obtain ⟨a, hma, rfl⟩ := List.mem_map.1 hpL
  have happ := List.pairwise_append.1 i.apart
  refine ⟨?_, ?_, Nat.le_trans (Nat.le_max_left _ _) (le_alignAs _ _)⟩
  · intro q hq hne
    obtain ⟨b, hmb, rfl⟩ := List.mem_map.1 hq
    have hab : SlotApart c a b :=
      pairwise_mem happ.2.1 hma hmb (by rintro rfl; exact hne rfl)
    unfold SlotApart Apart at hab
    unfold Apart Cfg.userOff
    omega
  · intro b hb
    have hab := happ.2.2 b hb a hma
    unfold SlotApart Apart at hab
    unfold Apart Cfg.userOff
    omega

/-- Freed memory is reused: freeing an object works, and the next allocation returns the same memory
without asking the arena. -/
theorem C17_reuse (hp : PlatOk c.plat) (hpre : PreOk c) (ha : ArenaOk c arena) {s : State} {L : List Nat}
    (h : Reach c arena s L) {p : Nat} (hpL : p ∈ L) : ∃ s' s'', s.deallocate c p true = some s' ∧
      s'.allocate c arena = (s'', some p) ∧ s''.reqs = s.reqs := by
  obtain ⟨i, rfl⟩ := reach_inv hp hpre ha h
  obtain ⟨a, hma, rfl⟩ := List.mem_map.1 hpL
  have hpos := hp.canaryPos
  have hlen : 0 < s.used.length := List.length_pos_of_mem hma
  have hn := i.hnused
  have hd : s.deallocate c (a + c.userOff) true =
      some { s with free := a :: s.free, used := s.used.erase a, nUsed := s.nUsed - 1 } := by
    unfold State.deallocate
    rw [Nat.add_sub_cancel, if_neg (by unfold Cfg.userOff; omega), if_neg (by simpa using hma), if_neg (by simp),
      if_neg (by omega)]
  exact ⟨_, { s with used := a :: s.used.erase a, nUsed := s.nUsed - 1 + 1 }, hd,
    by simp only [State.allocate, reduceCtorEq, if_false], rfl⟩

/-- An allocation gives NULL exactly if all memory is in use and the arena gives no more. The arena is
asked only then. -/
theorem C17_null (hp : PlatOk c.plat) (hpre : PreOk c) (ha : ArenaOk c arena) {s : State} {L : List Nat}
    (h : Reach c arena s L) :
    ((s.allocate c arena).2 = none ↔ s.free = [] ∧ arena s.reqs s.blocks (c.slotOffset s.cur) = none) ∧
      (s.free ≠ [] → (s.allocate c arena).1.reqs = s.reqs) := by
  obtain ⟨i, rfl⟩ := reach_inv hp hpre ha h
  obtain ⟨-, -, -, -, n5, n6, n7⟩ := newSlab_inv hp ha i
  unfold State.allocate
  simp only
  cases hf : s.free with
  | cons a l =>
    simp only [reduceCtorEq, if_false, false_and]
    rw [hf]
    simp
  | nil =>
    simp only [if_true, true_and, ne_eq, not_true_eq_false, false_implies, and_true]
    rw [← n6]
    cases hb : (s.newSlab c arena).2 with
    | false =>
      rw [n7 hb]
      simp [hf]
    | true =>
      have := n5 hb
      cases hl : (s.newSlab c arena).1.free with
      | nil => rw [hl] at this; simp at this
      | cons a l => simp

/-- Successive allocations that return the pointers `P`. -/
inductive Allocs (c : Cfg) (arena : Arena) : State → List Nat → State → Prop where
  | nil (s : State) : Allocs c arena s [] s
  | cons {s s' s'' : State} {p : Nat} {P : List Nat} : s.allocate c arena = (s', some p) → Allocs c arena s' P s'' →
      Allocs c arena s (p :: P) s''

/-- After a successful `reserve` that many allocations succeed without the arena; `reserve` fails only
if the arena does. -/
theorem C17_reserve (hp : PlatOk c.plat) (hpre : PreOk c) (ha : ArenaOk c arena) {s s' : State} {L : List Nat}
    (h : Reach c arena s L) {n : Nat} {r : Bool} (hr : s.reserve c arena n = (s', r)) :
    (r = true → ∃ P s'', P.length = n ∧ Allocs c arena s' P s'' ∧ s''.reqs = s'.reqs) ∧
      (r = false → ∃ k bs m, arena k bs m = none) := by
  obtain ⟨i, rfl⟩ := reach_inv hp hpre ha h
  obtain ⟨-, -, g3, g4⟩ := reserve_inv hp ha i n
  rw [hr] at g3 g4
  refine ⟨fun e => ?_, g4⟩
  have hlen : n ≤ s'.free.length := g3 e
  clear g3 g4 hr i h
  induction n generalizing s' with
  | zero => exact ⟨[], s', rfl, .nil _, rfl⟩
  | succ n ih =>
    cases hf : s'.free with
    | nil => rw [hf] at hlen; simp at hlen
    | cons a l =>
      rw [hf] at hlen
      have hal : s'.allocate c arena = ({ s' with free := l, used := a :: s'.used, nUsed := s'.nUsed + 1 }, some (a + c.userOff)) := by
        unfold State.allocate
        simp only [hf, reduceCtorEq, if_false]
      obtain ⟨P, s'', h1, h2, h3⟩ := @ih { s' with free := l, used := a :: s'.used, nUsed := s'.nUsed + 1 } (by simpa using hlen)
      exact ⟨_ :: P, s'', by simp [h1], .cons hal h2, h3⟩

theorem newSlab_congr {a b : Arena} {s : State} (h : ∀ k bs, a k bs (c.slotOffset s.cur) = b k bs (c.slotOffset s.cur)) :
    s.newSlab c a = s.newSlab c b := by
  unfold State.newSlab
  rw [h]

theorem reserveLoop_congr (hp : PlatOk c.plat) {a b : Arena} (ha : ArenaOk c a) (hab : ∀ k bs n, 0 < n → c.initSlots ≤ n →
      (n ≤ c.maxSlots ∨ c.maxSlots = 0) → a k bs (c.slotOffset n) = b k bs (c.slotOffset n)) (desired : Nat) :
    ∀ fuel (s : State), Inv c s → s.reserveLoop c a desired fuel = s.reserveLoop c b desired fuel := by
  intro fuel
  induction fuel with
  | zero => intro s _; rfl
  | succ fuel ih =>
    intro s i
    unfold State.reserveLoop
    rw [newSlab_congr (b := b) (fun k bs => hab k bs _ i.hcur i.hmin i.hmax)]
    have hi := (newSlab_inv hp ha i).1
    rw [newSlab_congr (b := b) (fun k bs => hab k bs _ i.hcur i.hmin i.hmax)] at hi
    rcases hn : s.newSlab c b with ⟨s1, _ | _⟩
    · rfl
    · rw [hn] at hi
      simp only
      split_ifs
      · exact ih s1 hi
      · rfl

/-- The pool asks the arena only for sizes within the configured limits: an arena that answers other
requests differently makes no difference. The upper limit must leave room for one slot. -/
theorem C58_limits_partial (hp : PlatOk c.plat) (hpre : PreOk c) (ha : ArenaOk c arena) {s : State} {L : List Nat}
    (h : Reach c arena s L) (hle : c.minBytes ≤ c.maxBytes ∨ c.maxBytes = 0)
    (hroom : c.maxBytes ≠ 0 → c.slabHdr + c.slotSize ≤ c.maxBytes) (other : Arena)
    (hother : ∀ k bs n, c.minBytes ≤ n → (n ≤ c.maxBytes ∨ c.maxBytes = 0) → other k bs n = arena k bs n) :
    s.allocate c arena = s.allocate c other ∧ ∀ n, s.reserve c arena n = s.reserve c other n := by
  obtain ⟨i, rfl⟩ := reach_inv hp hpre ha h
  have hab : ∀ k bs n, 0 < n → c.initSlots ≤ n → (n ≤ c.maxSlots ∨ c.maxSlots = 0) →
      arena k bs (c.slotOffset n) = other k bs (c.slotOffset n) := by
    intro k bs n h0 h1 h2
    refine (hother k bs _ (minBytes_le hp h1 hle) ?_).symm
    by_cases hz : c.maxBytes = 0
    · exact Or.inr hz
    · exact Or.inl (maxBytes_ge h2 (hroom hz) (slotSize_pos hp))
  constructor
  · unfold State.allocate
    rw [newSlab_congr (fun k bs => hab k bs _ i.hcur i.hmin i.hmax)]
  · intro n
    unfold State.reserve
    split_ifs with hd
    · obtain ⟨i1, i2, i3⟩ := increase_ok (c := c) (n - s.free.length) i.hcur i.hmax
      exact reserveLoop_congr hp ha hab n n _ ⟨i.apart, i.placed, i1, i2, i.hnused, Nat.le_trans i.hmin i3⟩
    · rfl

/-- A pool of 100-byte objects limited to `max` bytes per request. -/
def small (min max : Nat) : Cfg := ⟨amd64, 100, min, max, none, true, true⟩

/-- A limit below the size of one slot is exceeded. -/
theorem C58_small_max_fails : ∃ s, (small 0 64).init = some s ∧ (small 0 64).slotOffset s.cur > 64 := by
  decide +kernel

/-- Equal limits that are no multiple of the slot size make the constructor abort. -/
theorem C58_equal_limits_fails : (small 1000 1000).init = none := by decide +kernel

/-- An arena that hands out consecutive blocks. -/
def bump : Arena := fun _ bs _ => some (bs.foldl (fun m b => max m (b.base + alignAs b.size 8)) 4096)

theorem foldl_max_ge (bs : List Block) : ∀ m, m ≤ bs.foldl (fun m b => max m (b.base + alignAs b.size 8)) m ∧
    (8 ∣ m → (∀ b ∈ bs, 8 ∣ b.base) → 8 ∣ bs.foldl (fun m b => max m (b.base + alignAs b.size 8)) m) ∧
    ∀ b ∈ bs, b.base + b.size ≤ bs.foldl (fun m b => max m (b.base + alignAs b.size 8)) m := by
  induction bs with
  | nil => intro m; exact ⟨Nat.le_refl _, fun h _ => h, by simp⟩
  | cons x bs ih =>
    intro m
    simp only [List.foldl_cons]
    obtain ⟨h1, h2, h3⟩ := ih (max m (x.base + alignAs x.size 8))
    have hx := le_alignAs x.size 8
    refine ⟨by omega, ?_, ?_⟩
    · intro hm hb
      refine h2 ?_ (fun b hb' => hb b (List.mem_cons_of_mem _ hb'))
      have h8 : 8 ∣ x.base + alignAs x.size 8 := Nat.dvd_add (hb x (List.mem_cons_self ..)) (dvd_alignAs (by decide))
      rcases Nat.le_total m (x.base + alignAs x.size 8) with e | e
      · rw [Nat.max_eq_right e]; exact h8
      · rw [Nat.max_eq_left e]; exact hm
    · intro b hb
      rcases List.mem_cons.1 hb with rfl | hb
      · omega
      · exact h3 b hb

/-- The bump arena, refusing when given unaligned blocks. -/
def bump' : Arena := fun k bs n => if bs.all (fun b => b.base % 8 == 0) then bump k bs n else none

/-- The hypotheses are met: an arena, a pool with room for two slots in embedded memory, a history of
three allocations (the third from a slab), a release. -/
example : PlatOk amd64 ∧ PreOk ⟨amd64, 100, 0, 0, some (64, 256), true, true⟩ ∧
    ArenaOk ⟨amd64, 100, 0, 0, some (64, 256), true, true⟩ bump' ∧
    ∃ s, Reach ⟨amd64, 100, 0, 0, some (64, 256), true, true⟩ bump' s [4136, 208] ∧ s.blocks.length = 2 := by
  refine ⟨⟨by decide, by decide, by decide, by decide⟩, ?_, ?_, ?_⟩
  · intro p hp
    simp only [Option.some.injEq] at hp
    subst hp
    decide
  · intro k bs size b hb
    unfold bump' bump at hb
    split_ifs at hb with hall
    simp only [Option.some.injEq] at hb
    subst hb
    obtain ⟨-, h2, h3⟩ := foldl_max_ge bs 4096
    rw [List.all_eq_true] at hall
    refine ⟨h2 (by decide) (fun b hb => Nat.dvd_of_mod_eq_zero (by simpa using hall b hb)), fun b hb => Or.inr (h3 b hb)⟩
  · have h0 : Reach ⟨amd64, 100, 0, 0, some (64, 256), true, true⟩ bump' ⟨[⟨64, 256, 0⟩], [64, 192], [], 0, 2, 0⟩ [] :=
      .init (by decide +kernel)
    have h1 : Reach ⟨amd64, 100, 0, 0, some (64, 256), true, true⟩ bump' ⟨[⟨64, 256, 0⟩], [192], [64], 1, 2, 0⟩ [80] :=
      .alloc h0 (by decide +kernel)
    have h2 : Reach ⟨amd64, 100, 0, 0, some (64, 256), true, true⟩ bump' ⟨[⟨64, 256, 0⟩], [], [192, 64], 2, 2, 0⟩ [208, 80] :=
      .alloc h1 (by decide +kernel)
    have h3 : Reach ⟨amd64, 100, 0, 0, some (64, 256), true, true⟩ bump'
        ⟨[⟨64, 256, 0⟩, ⟨4096, 280, 24⟩], [4248], [4120, 192, 64], 3, 4, 1⟩ [4136, 208, 80] := .alloc h2 (by decide +kernel)
    have h4 : Reach ⟨amd64, 100, 0, 0, some (64, 256), true, true⟩ bump'
        ⟨[⟨64, 256, 0⟩, ⟨4096, 280, 24⟩], [64, 4248], [4120, 192], 2, 4, 1⟩ [4136, 208] :=
      .free (p := 80) h3 (by decide) (by decide +kernel)
    exact ⟨_, h4, rfl⟩

end Verif.SlabPool
