import Verif.FecWriter.Spec
import Mathlib.Data.List.Induction
import Mathlib.Tactic.SplitIfs

/-!
# FEC writer: invariant
-/

namespace Verif.FecWriter

theorem run_append (h1 h2 : List Op) : ∀ (s : St), run s (h1 ++ h2) = ((run (run s h1).1 h2).1, (run s h1).2 ++ (run (run s h1).1 h2).2) := by
  induction h1 with
  | nil => intro s; rfl
  | cons op h1 ih =>
    intro s
    cases op with
    | write t n e o =>
      simp only [List.cons_append, run]
      rw [ih]
      simp [List.append_assoc]
    | resize a b =>
      simp only [List.cons_append, run]
      rw [ih]

theorem inForce_append (m : Nat) (h1 h2 : List Op) : ∀ (k : Nat × Nat), inForce m k (h1 ++ h2) = inForce m (inForce m k h1) h2 := by
  induction h1 with
  | nil => intro k; rfl
  | cons op h1 ih =>
    intro k
    cases op with
    | write t n e o => simp only [List.cons_append, inForce]; rw [ih]
    | resize a b => simp only [List.cons_append, inForce]; rw [ih]

theorem written_write (h : List Op) (t n : Nat) (e : Bool) (o : Nat → Bool) : written (h ++ [.write t n e o]) = written h ++ [(h.length, t)] := by
  unfold written
  rw [List.zipIdx_append, List.filterMap_append]
  simp

theorem written_resize (h : List Op) (a b : Nat) : written (h ++ [.resize a b]) = written h := by
  unfold written
  rw [List.zipIdx_append, List.filterMap_append]
  simp

theorem written_pos (h : List Op) : ∀ x ∈ written h, x.1 < h.length := by
  intro x hx
  obtain ⟨y, hy, e⟩ := List.mem_filterMap.mp hx
  have h1 := List.mem_zipIdx hy
  obtain ⟨op, i⟩ := y
  cases op with
  | write t n e' o =>
    simp at e
    rw [← e]
    simp at h1
    omega
  | resize a b => simp at e

theorem sized_append {m : Nat} {k : Nat × Nat} {h : List Op} {b : Blk} (h2 : List Op) (hs : b.Sized m k h) (hp : ∀ x ∈ b.items, x.1 < h.length) :
    b.Sized m k (h ++ h2) := by
  obtain ⟨x, hx, e⟩ := hs
  refine ⟨x, hx, ?_⟩
  have := hp x (List.mem_of_mem_head? hx)
  rw [List.take_append_of_le_length (by omega)]
  exact e

/-- Resize arguments are not astronomically large. -/
def Tame (h : List Op) : Prop :=
  ∀ op ∈ h, match op with
    | .write _ _ _ _ => True
    | .resize a b => a + b < m64

/-- All repair packets could be created. -/
def AllOk (h : List Op) : Prop :=
  ∀ op ∈ h, match op with
    | .write _ _ _ o => ∀ i, o i = true
    | .resize _ _ => True

theorem AllOk.left {h1 h2 : List Op} (h : AllOk (h1 ++ h2)) : AllOk h1 := fun x hx => h x (List.mem_append_left _ hx)

/-- State of the writer and output after a history. -/
structure Inv (init : Nat × Nat) (first : Nat) (h : List Op) (s : St) (out : List Pkt) (bs : List Blk) (last : Blk) : Prop where
  out : out = stream first bs last
  next : (s.nextS, s.nextR) = inForce s.maxLen init h
  nextOk : Valid s.maxLen (s.nextS, s.nextR)
  sbn : s.sbn = (first + bs.length) % m16
  full : ∀ b ∈ bs, b.Full
  sized : ∀ b ∈ bs, b.Sized s.maxLen init h
  items : bs.flatMap (·.items) ++ last.items <+: written h
  alive : s.alive = true → bs.flatMap (·.items) ++ last.items = written h
  cur : s.alive = true → last.items.length = s.cur
  last : last.items ≠ [] → (s.alive = true → last.k = s.curS ∧ last.r = s.curR ∧ s.cur < s.curS) ∧ last.Sized s.maxLen init h
  curOk : s.alive = true → s.cur ≠ 0 → s.curS + s.curR ≤ s.maxLen
  reps : AllOk h → ∀ b ∈ bs, b.reps = List.range b.r

theorem inForce_write (m : Nat) (k : Nat × Nat) (h : List Op) (t n : Nat) (e : Bool) (o : Nat → Bool) :
    inForce m k (h ++ [.write t n e o]) = inForce m k h := by
  rw [inForce_append]; rfl

theorem sources_snoc (b : Blk) (x : Nat × Nat) (n : Nat) :
    ({ b with items := b.items ++ [x] } : Blk).sources n = b.sources n ++ [.source x.2 b.items.length n b.k (b.k + b.r)] := by
  simp [Blk.sources, List.mapIdx_append]

theorem prefix_pos {l : List (Nat × Nat)} {h : List Op} (hp : l <+: written h) : ∀ x ∈ l, x.1 < h.length :=
  fun x hx => written_pos h x (hp.subset hx)

theorem inv_resize {init : Nat × Nat} {first : Nat} {h : List Op} {s : St} {out : List Pkt} {bs : List Blk} {last : Blk}
    (hi : Inv init first h s out bs last) (a b : Nat) (hab : a + b < m64) :
    Inv init first (h ++ [.resize a b]) (s.resize a b).1 out bs last := by
  have hpos := prefix_pos hi.items
  have hmax : (s.resize a b).1.maxLen = s.maxLen := by unfold St.resize; split_ifs <;> rfl
  have hnx : ((s.resize a b).1.nextS, (s.resize a b).1.nextR) = (if Valid s.maxLen (a, b) then (a, b) else (s.nextS, s.nextR)) := by
    unfold St.resize
    rw [Nat.mod_eq_of_lt hab]
    by_cases h1 : s.nextS = a ∧ s.nextR = b
    · rw [if_pos h1, h1.1, h1.2]
      split_ifs <;> rfl
    rw [if_neg h1]
    by_cases h2 : a = 0
    · rw [if_pos h2, if_neg (by intro c; exact c.1 h2)]
    rw [if_neg h2]
    by_cases h3 : a + b > s.maxLen
    · rw [if_pos h3, if_neg (by intro c; have := c.2; simp at this; omega)]
    · rw [if_neg h3, if_pos ⟨h2, by simpa using h3⟩]
  have hfl : (s.resize a b).1.sbn = s.sbn ∧ (s.resize a b).1.alive = s.alive ∧ (s.resize a b).1.cur = s.cur ∧
      (s.resize a b).1.curS = s.curS ∧ (s.resize a b).1.curR = s.curR := by
    unfold St.resize; split_ifs <;> exact ⟨rfl, rfl, rfl, rfl, rfl⟩
  obtain ⟨f1, f2, f3, f4, f5⟩ := hfl
  refine ⟨hi.out, ?_, ?_, f1.trans hi.sbn, hi.full, ?_, ?_, ?_, ?_, ?_, ?_, fun c => hi.reps c.left⟩
  · rw [hmax, hnx, inForce_append, ← hi.next]; rfl
  · rw [hmax, hnx]
    split_ifs with hv
    · exact hv
    · exact hi.nextOk
  · intro c hc
    rw [hmax]
    refine sized_append _ (hi.sized c hc) ?_
    intro x hx
    exact hpos x (List.mem_append_left _ (List.mem_flatMap.mpr ⟨c, hc, hx⟩))
  · rw [written_resize]; exact hi.items
  · rw [written_resize, f2]; exact hi.alive
  · rw [f2, f3]; exact hi.cur
  · rw [f2, f3, f4, f5, hmax]
    intro hne
    obtain ⟨k1, k2⟩ := hi.last hne
    exact ⟨k1, sized_append _ k2 (fun x hx => hpos x (List.mem_append_right _ hx))⟩
  · rw [f2, f3, f4, f5, hmax]; exact hi.curOk

/-- Nothing is emitted and the writer is not alive any more. -/
theorem inv_dead {init : Nat × Nat} {first : Nat} {h : List Op} {s s' : St} {out : List Pkt} {bs : List Blk} {last : Blk}
    (hi : Inv init first h s out bs last) (t n : Nat) (e : Bool) (o : Nat → Bool) (hd : s'.alive = false) (hm : s'.maxLen = s.maxLen)
    (hns : s'.nextS = s.nextS) (hnr : s'.nextR = s.nextR) (hsb : s'.sbn = s.sbn) :
    Inv init first (h ++ [.write t n e o]) s' (out ++ []) bs last := by
  have hpos := prefix_pos hi.items
  rw [List.append_nil]
  refine ⟨hi.out, ?_, ?_, hsb.trans hi.sbn, hi.full, ?_, ?_, ?_, ?_, ?_, ?_, fun c => hi.reps c.left⟩
  · rw [inForce_write, hm, hns, hnr]; exact hi.next
  · rw [hm, hns, hnr]; exact hi.nextOk
  · intro c hc
    rw [hm]
    exact sized_append _ (hi.sized c hc) (fun x hx => hpos x (List.mem_append_left _ (List.mem_flatMap.mpr ⟨c, hc, hx⟩)))
  · rw [written_write]
    exact hi.items.trans (List.prefix_append _ _)
  · rw [hd]; intro c; cases c
  · rw [hd]; intro c; cases c
  · rw [hd, hm]
    intro hne
    exact ⟨(fun c => by cases c), sized_append _ (hi.last hne).2 (fun x hx => hpos x (List.mem_append_right _ hx))⟩
  · rw [hd]; intro c; cases c

/-- The packet is written to the current block. -/
theorem inv_writeIn {init : Nat × Nat} {first : Nat} {h : List Op} {s : St} {out : List Pkt} {bs : List Blk} {last : Blk}
    (hi : Inv init first h s out bs last) (ha : s.alive = true) (hlt : s.cur < s.curS) (hmx : s.curS + s.curR ≤ s.maxLen) (hm16 : s.maxLen ≤ m16)
    (hk : last.k = s.curS ∧ last.r = s.curR) (hs : last.items = [] → (s.curS, s.curR) = inForce s.maxLen init h)
    (t n : Nat) (e : Bool) (o : Nat → Bool) :
    ∃ bs' last', Inv init first (h ++ [.write t n e o]) (writeIn s t n o).1 (out ++ (writeIn s t n o).2) bs' last' := by
  have hpos := prefix_pos hi.items
  unfold writeIn
  by_cases hn : n ≠ s.size
  · rw [if_pos hn]
    exact ⟨bs, last, inv_dead hi t n e o rfl rfl rfl rfl rfl⟩
  rw [if_neg hn]
  have hcur : s.cur % m16 = s.cur := Nat.mod_eq_of_lt (by omega)
  have hlen := hi.cur ha
  have hsized : ({ last with items := last.items ++ [(h.length, t)] } : Blk).Sized s.maxLen init (h ++ [.write t n e o]) := by
    cases hl : last.items with
    | nil =>
      refine ⟨(h.length, t), rfl, ?_⟩
      show (last.k, last.r) = _
      rw [hk.1, hk.2, hs hl]
      simp
    | cons y ys =>
      obtain ⟨x, hx, ex⟩ := (hi.last (by rw [hl]; simp)).2
      refine ⟨x, ?_, ?_⟩
      · rw [hl] at hx
        exact hx
      · show (last.k, last.r) = _
        have := hpos x (List.mem_append_right _ (List.mem_of_mem_head? hx))
        rw [List.take_append_of_le_length (by omega)]
        exact ex
  have hwr : bs.flatMap (·.items) ++ (last.items ++ [(h.length, t)]) = written (h ++ [.write t n e o]) := by
    rw [written_write, ← hi.alive ha, List.append_assoc]
  have hsz : ∀ b ∈ bs, b.Sized s.maxLen init (h ++ [.write t n e o]) := fun c hc =>
    sized_append _ (hi.sized c hc) (fun x hx => hpos x (List.mem_append_left _ (List.mem_flatMap.mpr ⟨c, hc, hx⟩)))
  by_cases hend : s.cur + 1 = s.curS
  · rw [if_pos hend]
    obtain ⟨nb, hnb⟩ : ∃ nb : Blk, nb = ⟨last.k, last.r, last.items ++ [(h.length, t)], (List.range s.curR).filter o⟩ := ⟨_, rfl⟩
    refine ⟨bs ++ [nb], ⟨0, 0, [], []⟩, ?_, ?_, ?_, ?_, ?_, ?_, ?_, ?_, ?_, ?_, ?_, ?_⟩
    · rw [hi.out]
      have hrep : repairs s o = nb.reps.map (fun j => .repair (nb.k + j) s.sbn nb.k (nb.k + nb.r)) := by
        rw [hnb]
        unfold repairs
        simp only []
        rw [hk.1, hk.2]
        apply List.map_congr_left
        intro i hi'
        have : i < s.curR := List.mem_range.mp (List.mem_filter.mp hi').1
        have e1 : s.curS % m16 + i % m16 = s.curS + i := by
          by_cases hs16 : s.curS < m16
          · rw [Nat.mod_eq_of_lt hs16, Nat.mod_eq_of_lt (by omega)]
          · omega
        rw [e1, Nat.mod_eq_of_lt (by omega)]
      have hsrc : nb.sources s.sbn = last.sources s.sbn ++ [.source t (s.cur % m16) s.sbn s.curS (s.curS + s.curR)] := by
        rw [hnb]
        have := sources_snoc last (h.length, t) s.sbn
        rw [hcur, ← hlen, ← hk.1, ← hk.2]
        exact this
      unfold stream
      rw [List.mapIdx_append, List.flatten_append]
      simp only [List.mapIdx_cons, List.mapIdx_nil, List.flatten_cons, List.flatten_nil, List.append_nil, Nat.zero_add]
      rw [← hi.sbn, hrep]
      unfold Blk.emit
      rw [hsrc]
      simp [Blk.sources]
    · rw [inForce_write]; exact hi.next
    · exact hi.nextOk
    · show (s.sbn + 1) % m16 = _
      rw [hi.sbn, List.length_append]
      simp only [List.length_cons, List.length_nil, m16]
      omega
    · intro b hb
      rcases List.mem_append.mp hb with hb | hb
      · exact hi.full b hb
      · rw [List.mem_singleton.mp hb, hnb]
        refine ⟨?_, ?_⟩
        · simp only [List.length_append, List.length_cons, List.length_nil]
          rw [hlen, hk.1]; omega
        · simp only []
          rw [hk.2]
          exact List.filter_sublist
    · intro b hb
      rcases List.mem_append.mp hb with hb | hb
      · exact hsz b hb
      · rw [List.mem_singleton.mp hb, hnb]
        exact hsized
    · rw [List.flatMap_append, List.append_nil, ← hwr, hnb]
      simp
    · intro _
      rw [List.flatMap_append, List.append_nil, ← hwr, hnb]
      simp
    · intro _; rfl
    · intro c; exact absurd rfl c
    · intro _ c; exact absurd rfl c
    · intro hall b hb
      rcases List.mem_append.mp hb with hb | hb
      · exact hi.reps hall.left b hb
      · have ho := hall (.write t n e o) (List.mem_append_right _ (List.mem_singleton.mpr rfl))
        have ho : ∀ i, o i = true := ho
        rw [List.mem_singleton.mp hb, hnb]
        simp only []
        rw [hk.2]
        exact List.filter_eq_self.mpr (fun i _ => ho i)
  · rw [if_neg hend]
    refine ⟨bs, ⟨last.k, last.r, last.items ++ [(h.length, t)], []⟩, ?_, ?_, ?_, ?_, ?_, ?_, ?_, ?_, ?_, ?_, ?_, fun c => hi.reps c.left⟩
    · rw [hi.out]
      unfold stream
      have := sources_snoc last (h.length, t) ((first + bs.length) % m16)
      have e2 : (⟨last.k, last.r, last.items ++ [(h.length, t)], []⟩ : Blk).sources ((first + bs.length) % m16) =
        last.sources ((first + bs.length) % m16) ++ [.source t last.items.length ((first + bs.length) % m16) last.k (last.k + last.r)] := this
      rw [e2, hcur, hlen, hk.1, hk.2, hi.sbn, List.append_assoc]
    · rw [inForce_write]; exact hi.next
    · exact hi.nextOk
    · exact hi.sbn
    · exact hi.full
    · exact hsz
    · exact (congrArg (fun l => l <+: written (h ++ [.write t n e o])) hwr).mpr (List.prefix_refl _)
    · intro _; exact hwr
    · intro _
      simp only [List.length_append, List.length_cons, List.length_nil]
      rw [hlen]
    · intro _
      exact ⟨fun _ => ⟨hk.1, hk.2, by show s.cur + 1 < s.curS; omega⟩, hsized⟩
    · intro _ _; exact hmx

theorem inv_write {init : Nat × Nat} {first : Nat} {h : List Op} {s : St} {out : List Pkt} {bs : List Blk} {last : Blk}
    (hi : Inv init first h s out bs last) (hm16 : s.maxLen ≤ m16) (t n : Nat) (e : Bool) (o : Nat → Bool) :
    ∃ bs' last', Inv init first (h ++ [.write t n e o]) (s.write t n e o).1 (out ++ (s.write t n e o).2) bs' last' := by
  unfold St.write
  by_cases ha : s.alive = true
  · rw [if_neg (by rw [ha]; decide)]
    by_cases hc : s.cur ≠ 0
    · rw [if_pos hc]
      have hne : last.items ≠ [] := by
        intro c
        have := hi.cur ha
        rw [c] at this
        exact hc this.symm
      obtain ⟨k1, _⟩ := hi.last hne
      obtain ⟨a1, a2, a3⟩ := k1 ha
      exact inv_writeIn hi ha a3 (hi.curOk ha hc) hm16 ⟨a1, a2⟩ (fun c => absurd c hne) t n e o
    · rw [if_neg hc]
      have hc0 : s.cur = 0 := by omega
      have hl0 : last.items = [] := by
        have := hi.cur ha
        rw [hc0] at this
        exact List.length_eq_zero_iff.mp this
      unfold beginBlock
      by_cases h1 : n = 0
      · rw [if_pos h1, if_neg (by intro c; cases c)]
        exact ⟨bs, last, inv_dead hi t n e o rfl rfl rfl rfl rfl⟩
      rw [if_neg h1]
      cases e with
      | false =>
        exact ⟨bs, last, inv_dead hi t n false o rfl rfl rfl rfl rfl⟩
      | true =>
        rw [if_neg (c := (!true) = true) (by decide), if_pos (by exact ha)]
        have hi2 : Inv init first h { s with curS := s.nextS, curR := s.nextR, size := n } out bs ⟨s.nextS, s.nextR, [], []⟩ := by
          refine ⟨?_, hi.next, hi.nextOk, hi.sbn, hi.full, hi.sized, ?_, ?_, ?_, ?_, ?_, hi.reps⟩
          · rw [hi.out]
            unfold stream
            congr 1
            simp [Blk.sources, hl0]
          · have := hi.items
            rw [hl0] at this
            exact this
          · intro _
            have := hi.alive ha
            rw [hl0] at this
            exact this
          · intro _; exact hc0.symm
          · intro c; exact absurd rfl c
          · intro _ c; exact absurd hc0 c
        obtain ⟨v1, v2⟩ := hi.nextOk
        exact inv_writeIn hi2 ha (by show s.cur < s.nextS; simp at v1; omega) v2 hm16 ⟨rfl, rfl⟩ (fun _ => hi.next) t n true o
  · rw [if_pos (by simp only [Bool.not_eq_true] at ha; rw [ha]; rfl)]
    simp only [Bool.not_eq_true] at ha
    exact ⟨bs, last, inv_dead hi t n e o ha rfl rfl rfl rfl⟩

theorem maxLen_run (h : List Op) : ∀ (s : St), (run s h).1.maxLen = s.maxLen := by
  induction h with
  | nil => intro s; rfl
  | cons op h ih =>
    intro s
    cases op with
    | write t n e o =>
      simp only [run]
      rw [ih]
      unfold St.write writeIn beginBlock
      split_ifs <;> rfl
    | resize a b =>
      simp only [run]
      rw [ih]
      unfold St.resize
      split_ifs <;> rfl

theorem run_inv {s0 : St} {init : Nat × Nat} {first : Nat} (hm : s0.maxLen ≤ m16)
    (h0 : Inv init first [] s0 [] [] ⟨0, 0, [], []⟩) (h : List Op) (ht : Tame h) :
    ∃ bs last, Inv init first h (run s0 h).1 (run s0 h).2 bs last := by
  induction h using List.reverseRecOn with
  | nil => exact ⟨_, _, h0⟩
  | append_singleton h op ih =>
    obtain ⟨bs, last, hi⟩ := ih (fun x hx => ht x (List.mem_append_left _ hx))
    have hmm : (run s0 h).1.maxLen ≤ m16 := by rw [maxLen_run]; exact hm
    rw [run_append]
    cases op with
    | write t n e o =>
      simp only [run, List.append_nil]
      exact inv_write hi hmm t n e o
    | resize a b =>
      simp only [run, List.append_nil]
      have := ht (.resize a b) (List.mem_append_right _ (List.mem_singleton.mpr rfl))
      exact ⟨bs, last, inv_resize hi a b this⟩

/-- Nothing fails: the writer stays alive. -/
theorem run_alive {size : Nat} (hz : size ≠ 0) (h : List Op) (hs : Smooth size h) :
    ∀ s : St, s.alive = true → (s.cur ≠ 0 → s.size = size) → (run s h).1.alive = true := by
  induction h with
  | nil => intro s ha _; exact ha
  | cons op h ih =>
    intro s ha hc
    have hs' : Smooth size h := fun x hx => hs x (List.mem_cons_of_mem _ hx)
    cases op with
    | write t n e o =>
      have hop := hs (.write t n e o) List.mem_cons_self
      obtain ⟨h1, h2, _⟩ : n = size ∧ e = true ∧ ∀ i, o i = true := hop
      simp only [run]
      rw [h1, h2]
      have key : (s.write t size true o).1.alive = true ∧ ((s.write t size true o).1.cur ≠ 0 → (s.write t size true o).1.size = size) := by
        unfold St.write
        rw [if_neg (by rw [ha]; decide)]
        by_cases hc0 : s.cur ≠ 0
        · rw [if_pos hc0]
          unfold writeIn
          rw [if_neg (by rw [hc hc0]; simp)]
          split_ifs
          · exact ⟨ha, fun _ => hc hc0⟩
          · exact ⟨ha, fun _ => hc hc0⟩
        · rw [if_neg hc0]
          unfold beginBlock
          rw [if_neg hz, if_neg (c := (!true) = true) (by decide), if_pos (by exact ha)]
          unfold writeIn
          rw [if_neg (by simp)]
          split_ifs
          · exact ⟨ha, fun _ => rfl⟩
          · exact ⟨ha, fun _ => rfl⟩
      exact ih hs' _ key.1 key.2
    | resize a b =>
      simp only [run]
      apply ih hs'
      · unfold St.resize; split_ifs <;> exact ha
      · unfold St.resize; split_ifs <;> exact hc

/-- A new writer with valid sizes. -/
theorem new_inv {maxLen first k r : Nat} (hv : Valid maxLen (k, r)) (hkr : k + r < m64) {s0 : St} (h0 : St.new maxLen first k r = some s0) :
    s0.maxLen = maxLen ∧ s0.alive = true ∧ s0.cur = 0 ∧ Inv (k, r) first [] s0 [] [] ⟨0, 0, [], []⟩ := by
  obtain ⟨v1, v2⟩ := hv
  simp only at v1 v2
  have he : St.resize ⟨maxLen, first % m16, 0, 0, 0, 0, 0, 0, true⟩ k r = (⟨maxLen, first % m16, 0, k, 0, r, 0, 0, true⟩, true) := by
    unfold St.resize
    rw [if_neg (by simp only []; omega), if_neg v1, Nat.mod_eq_of_lt hkr, if_neg (by simp only []; omega)]
  unfold St.new at h0
  rw [he, if_pos rfl] at h0
  have := Option.some.inj h0
  rw [← this]
  refine ⟨rfl, rfl, rfl, ?_⟩
  refine ⟨rfl, rfl, ⟨v1, v2⟩, rfl, ?_, ?_, ?_, ?_, ?_, ?_, ?_, ?_⟩
  · intro b hb; cases hb
  · intro b hb; cases hb
  · exact List.prefix_refl _
  · intro _; rfl
  · intro _; rfl
  · intro c; exact absurd rfl c
  · intro _ c; exact absurd rfl c
  · intro _ b hb; cases hb

end Verif.FecWriter
