import Verif.FecReader.Recover
import Mathlib.Data.List.Perm.Subperm

/-!
# FEC reader: calls which restore blocks
-/

namespace Verif.FecReader

/-- What `Hom2` says about repair packets. -/
structure RepInv (k r n : Nat) (s : St) : Prop where
  repQ : ∀ f ∈ s.repQ, Reg2 k r n f
  res : s.repRes = true → s.rep.length = r
  res0 : s.repRes = false → ∀ x ∈ s.rep, x = none

theorem Hom2.inv {k r n : Nat} {s : St} (h : Hom2 k r n s) : RepInv k r n s := ⟨h.repQ, h.res, h.res0⟩

theorem RepInv.hom {k r n : Nat} {s : St} (h : RepInv k r n s) (hh : Hom k n s) : Hom2 k r n s := ⟨hh, h.repQ, h.res, h.res0⟩

theorem tryRepair_2 {k r n : Nat} {s : St} (h : Hom2 k r n s) (e : Env) :
    Sat (fun _ => True) (fun t => Hom2 k r n t ∧ Ext s t ∧ (∀ i, Has k s i → Has k t i) ∧ t.srcQ = s.srcQ ∧ t.repQ = s.repQ ∧
      (s.src[s.nxt]? = some none → ∀ p, t.src[s.nxt]? = some (some p) → ∃ g b i, p = .rest g b i)) (tryRepair e s) := by
  refine ((tryRepair_hom h.hom e).and (Q := fun t => t.rep = s.rep ∧ t.repRes = s.repRes ∧ t.repQ = s.repQ ∧
    (s.src[s.nxt]? = some none → ∀ p, t.src[s.nxt]? = some (some p) → ∃ g b i, p = .rest g b i)) ?_).mono (fun t ht => ?_)
  · unfold tryRepair
    split_ifs
    · exact ⟨rfl, rfl, rfl, fun h1 p h2 => by rw [h1] at h2; cases h2⟩
    · exact ⟨rfl, rfl, rfl, fun h1 p h2 => by rw [h1] at h2; cases h2⟩
    cases hd : e.dec s.blk with
    | none => exact ⟨rfl, rfl, rfl, fun h1 p h2 => by have h2 : s.src[s.nxt]? = some (some p) := h2; rw [h1] at h2; cases h2⟩
    | some g =>
      show Sat _ _ (repairBlock e s g)
      unfold repairBlock
      split_ifs
      · trivial
      · trivial
      · trivial
      · refine ⟨rfl, rfl, rfl, fun h1 p h2 => ?_⟩
        have h2 : (s.src.mapIdx (restore g s.blk))[s.nxt]? = some (some p) := h2
        rw [List.getElem?_mapIdx, h1] at h2
        have h2 : some ((g s.nxt).map (fun t => Pkt.rest t s.blk s.nxt)) = some (some p) := h2
        injection h2 with h2
        cases hg : g s.nxt with
        | none => rw [hg] at h2; cases h2
        | some t =>
          rw [hg] at h2
          injection h2 with h2
          exact ⟨_, _, _, h2.symm⟩
  · obtain ⟨⟨t1, t2, t3⟩, t4, t5, t6, t7⟩ := ht
    refine ⟨⟨t1, by rw [t6]; exact h.repQ, by rw [t4, t5]; exact h.res, by rw [t4, t5]; exact h.res0⟩, t2, ?_, t3, t6, t7⟩
    intro i hi
    unfold Has at hi ⊢
    rw [t4]
    by_cases hk : i < k
    · rw [if_pos hk] at hi ⊢
      obtain ⟨p, hp⟩ := hi
      exact ⟨p, t2.keep _ _ hp⟩
    · rw [if_neg hk] at hi ⊢; exact hi

theorem covers {k : Nat} {l : List Nat} (hn : l.Nodup) (hl : k ≤ l.length) (hk : ∀ i ∈ l, i < k) : ∀ i < k, i ∈ l := by
  have h1 : l.Perm (List.range k) := (hn.subperm (fun i hi => List.mem_range.mpr (hk i hi))).perm_of_length_le (by rw [List.length_range]; exact hl)
  intro i hi
  exact h1.mem_iff.mpr (List.mem_range.mpr hi)

/-- With enough packets and a working decoder the block becomes complete. -/
theorem tryRepair_full {k r n maxLen : Nat} {s : St} (h : Hom2 k r n s) (hi : Inv (anyCtx maxLen) s) (e : Env) (ha : Att k s) {l : List Nat}
    (hn : l.Nodup) (hl : k ≤ l.length) (hh : ∀ i ∈ l, Has k s i) {g : Nat → Option Nat} (hd : e.dec s.blk = some g) (hg : ∀ i, (g i).isSome = true) :
    Sat (fun _ => True) (fun t => ∀ i < k, Has k t i) (tryRepair e s) := by
  unfold tryRepair
  by_cases h1 : (!s.canRepair) = true
  · rw [if_pos h1]
    rcases ha with ha | ha | ha
    · rw [ha] at h1; cases h1
    · exact ha
    · have := ha l hn hh
      omega
  rw [if_neg h1]
  by_cases h2 : (!(s.srcRes && s.repRes && s.payRes)) = true
  · rw [if_pos h2]
    have hz : ∀ x ∈ s.rep, x = none := by
      cases hr : s.repRes with
      | false => exact hi.repN hr
      | true =>
        have hs := (hi.repT hr).1
        rw [hr, hs] at h2
        have hp : s.payRes = false := by simpa using h2
        exact (hi.payN hp).2
    have hlt : ∀ i ∈ l, i < k := by
      intro i hm
      rcases Nat.lt_or_ge i k with c | c
      · exact c
      · exact absurd (hh i hm) (no_rep hz (by omega))
    exact fun i hik => hh i (covers hn hl hlt i hik)
  rw [if_neg h2, hd]
  show Sat _ _ (repairBlock e s g)
  unfold repairBlock
  split_ifs
  · trivial
  · trivial
  · trivial
  · intro i hik
    rw [has_src hik]
    show ∃ p, (s.src.mapIdx (restore g s.blk))[i]? = some (some p)
    have hlen : i < s.src.length := by rw [h.hom.len]; exact hik
    rw [List.getElem?_mapIdx, List.getElem?_eq_getElem hlen]
    cases hc : s.src[i] with
    | some p => exact ⟨p, rfl⟩
    | none =>
      obtain ⟨t, ht⟩ := Option.isSome_iff_exists.mp (hg i)
      refine ⟨.rest t s.blk i, ?_⟩
      show some ((g i).map _) = _
      rw [ht]
      rfl

/-- The call returns the packet at the current position, and keeps packets of this and later blocks. -/
def Rec (k r n : Nat) (s : St) (u : St × Option (Option (Nat × Nat) × Pkt)) : Prop :=
  Hom2 k r n u.1 ∧ Att k u.1 ∧ (∃ p, u.2 = some (some (s.blk, s.nxt), p)) ∧ (u.1.blk, u.1.nxt) = succ k (s.blk, s.nxt) ∧
  ∀ b i, Sym k s b i → u.1.blk ≤ b → Sym k u.1 b i

theorem advance_rec {k r n : Nat} {s : St} (h : Hom2 k r n s) (ha : Att k s) (hk : 0 < k) (e : Env) (p : Pkt) :
    Sat (fun _ => True) (fun u => u.1.alive = true → Rec k r n s u) (advance e s s.nxt p) := by
  unfold advance
  have hlen := h.hom.len
  by_cases h1 : s.nxt + 1 = s.src.length
  · rw [if_pos h1, nextBlock_nxt]
    refine (nextBlock_2 h hk e).bind (fun t ht => ?_)
    obtain ⟨t1, t2, t3, t4, t5, t6⟩ := ht
    intro hal
    have hal : t.alive = true := hal
    refine ⟨t1, t2, ⟨p, rfl⟩, ?_, ?_⟩
    · unfold succ
      rw [if_pos (show s.nxt + 1 = k by omega)]
      show (t.blk, t.nxt) = _
      rw [t3, t4]
    · intro b i hs hb
      have hb : t.blk ≤ b := hb
      exact t6 hal b i hs (by omega)
  · rw [if_neg h1]
    intro _
    refine ⟨⟨⟨h.hom.srcQ, h.hom.repQ, h.hom.len, h.hom.pay, h.hom.sbn⟩, h.repQ, h.res, h.res0⟩, ha, ⟨p, rfl⟩, ?_, fun b i hs _ => hs⟩
    unfold succ
    rw [if_neg (show ¬ s.nxt + 1 = k by omega)]

theorem findPos_head {l : List (Option Pkt)} {i : Nat} {p : Pkt} (h : l[0]? = some (some p)) : findPos l i = some (i, p) := by
  cases l with
  | nil => cases h
  | cons o l =>
    rw [List.getElem?_cons_zero] at h
    injection h with h
    rw [h]
    rfl

theorem search_rec {k r n maxLen : Nat} {s : St} (h : Hom2 k r n s) (hi : Inv (anyCtx maxLen) s) (hst : s.started = true) (hk : 0 < k) (e : Env) (ha : Att k s) {l : List Nat}
    (hn : l.Nodup) (hl : k ≤ l.length) (hh : ∀ i ∈ l, Has k s i) {g : Nat → Option Nat} (hd : e.dec s.blk = some g) (hg : ∀ i, (g i).isSome = true) (fuel : Nat) :
    Sat (fun _ => True) (fun u => u.1.alive = true → Rec k r n s u) (search e (fuel + 1) s) := by
  simp only [search]
  by_cases hal : (!s.alive) = true
  · rw [if_pos hal]
    intro c
    have c : s.alive = true := c
    rw [c] at hal; cases hal
  rw [if_neg hal]
  refine ((tryRepair_2 h e).and (tryRepair_full h hi e ha hn hl hh hd hg)).bind (fun t ht => ?_)
  obtain ⟨⟨t1, t2, t3, t4, t5, _⟩, t6⟩ := ht
  have hlt := hi.lt hst
  have hlen := h.hom.len
  obtain ⟨p, hp⟩ := (has_src (show s.nxt < k by omega)).mp (t6 s.nxt (by omega))
  have hf : findPos (t.src.drop t.nxt) t.nxt = some (t.nxt, p) := findPos_head (by rw [List.getElem?_drop, t2.nxt]; exact hp)
  simp only [hf]
  refine (advance_rec t1 (Or.inr (Or.inl t6)) hk e p).mono (fun u hu hal => ?_)
  obtain ⟨u1, u2, u3, u4, u5⟩ := hu hal
  rw [t2.blk, t2.nxt] at u3 u4
  refine ⟨u1, u2, u3, u4, fun b i hs hb => u5 b i ?_ hb⟩
  unfold Sym
  rw [t2.blk, t2.sbn, t4, t5]
  rcases hs with ⟨h1, h2⟩ | hs
  · exact Or.inl ⟨h1, t3 i h2⟩
  · exact Or.inr hs

theorem getNext_rec {k r n maxLen : Nat} {s : St} (h : Hom2 k r n s) (hi : Inv (anyCtx maxLen) s) (hst : s.started = true) (hk : 0 < k) (e : Env) (ha : Att k s)
    (hs1 : Sorted s.sbn s.srcQ) (hs2 : Sorted s.sbn s.repQ) {l : List Nat}
    (hn : l.Nodup) (hl : k ≤ l.length) (hh : ∀ i ∈ l, Sym k s s.blk i) {g : Nat → Option Nat} (hd : e.dec s.blk = some g) (hg : ∀ i, (g i).isSome = true) :
    Sat (fun _ => True) (fun u => u.1.alive = true → Rec k r n s u) (getNext e s) := by
  unfold getNext
  refine ((fill_2 h e).and (inv_fill hi hst)).bind (fun t ht => ?_)
  obtain ⟨⟨t1, t2, t3, t4, t5⟩, i1, i2, _⟩ := ht
  have key : t.alive = true → ∀ u, Rec k r n t u → Rec k r n s u := by
    intro hal u hu
    obtain ⟨u1, u2, u3, u4, u5⟩ := hu
    rw [t2.blk, t2.nxt] at u3 u4
    exact ⟨u1, u2, u3, u4, fun b i hs hb => u5 b i (t4 hal b i hs) hb⟩
  have hdead : ∀ (x : Res), x = .ok (t, none) → t.alive = false → Sat (fun _ => True) (fun u => u.1.alive = true → Rec k r n s u) x := by
    intro x hx hd
    rw [hx]
    intro c
    have c : t.alive = true := c
    rw [hd] at c; cases c
  cases hal : t.alive with
  | false =>
    cases hp : t.src[t.nxt]? with
    | none => trivial
    | some o =>
      cases o with
      | some p =>
        exact hdead _ rfl hal
      | none =>
        refine hdead _ ?_ hal
        show search e (fuelOf e t) t = _
        unfold fuelOf
        simp only [search]
        rw [if_pos (by rw [hal]; rfl)]
  | true =>
    cases hp : t.src[t.nxt]? with
    | none => trivial
    | some o =>
      cases o with
      | some p =>
        show Sat _ _ (advance e t t.nxt p)
        exact (advance_rec t1 (t3.att ha) hk e p).mono (fun u hu hu2 => key hal u (hu hu2))
      | none =>
        exact (search_rec t1 i1 (i2.started.trans hst) hk e (t3.att ha) hn hl (fun i hm => t5 hal hs1 hs2 i (hh i hm))
          (by rw [t2.blk]; exact hd) hg _).mono (fun u hu hu2 => key hal u (hu hu2))

/-- What every call keeps; `x` is the returned position. -/
def Keep (k r n : Nat) (u : St × Option (Option (Nat × Nat) × Pkt)) : Prop :=
  Hom2 k r n u.1 ∧ (∀ x p, u.2 = some (some x, p) → x.2 + 1 = k → Att k u.1)

theorem advance_keep {k r n : Nat} {s : St} (h : Hom2 k r n s) (hk : 0 < k) (e : Env) (pos : Nat) (p : Pkt) :
    Sat (fun _ => True) (fun u => Keep k r n u ∧ (Att k s → Att k u.1) ∧ u.2 = some (some (s.blk, pos), p)) (advance e s pos p) := by
  unfold advance
  have hlen := h.hom.len
  by_cases h1 : pos + 1 = s.src.length
  · rw [if_pos h1, nextBlock_nxt]
    refine (nextBlock_2 h hk e).bind (fun t ht => ?_)
    exact ⟨⟨ht.1, fun _ _ _ _ => ht.2.1⟩, fun _ => ht.2.1, rfl⟩
  · rw [if_neg h1]
    refine ⟨⟨⟨⟨h.hom.srcQ, h.hom.repQ, h.hom.len, h.hom.pay, h.hom.sbn⟩, h.repQ, h.res, h.res0⟩, fun x q hx hxk => ?_⟩, fun ha => ha, rfl⟩
    cases hx
    have hxk : pos + 1 = k := hxk
    omega

theorem search_keep {k r n : Nat} (hk : 0 < k) (e : Env) (fuel : Nat) : ∀ (s : St), Hom2 k r n s →
    Sat (fun _ => True) (fun u => Keep k r n u ∧ (s.src[s.nxt]? = some none → ∀ f, u.2 ≠ some (some (s.blk, s.nxt), .recv f))) (search e fuel s) := by
  induction fuel with
  | zero => intro s _; trivial
  | succ fuel ih =>
    intro s h
    simp only [search]
    by_cases hal : (!s.alive) = true
    · rw [if_pos hal]
      exact ⟨⟨h, fun x p hx => by cases hx⟩, fun _ f hf => by cases hf⟩
    rw [if_neg hal]
    refine (tryRepair_2 h e).bind (fun t ht => ?_)
    obtain ⟨t1, t2, t3, t4, t5, t6⟩ := ht
    cases hp : findPos (t.src.drop t.nxt) t.nxt with
    | some x =>
      obtain ⟨pos, p⟩ := x
      obtain ⟨f1, f2⟩ := findPos_some _ _ _ _ hp
      rw [List.getElem?_drop] at f2
      have f2 : t.src[pos]? = some (some p) := by rw [← f2]; congr 1; omega
      refine (advance_keep t1 hk e pos p).mono (fun u hu => ⟨hu.1, fun hno f hf => ?_⟩)
      rw [hu.2.2] at hf
      simp only [Option.some.injEq, Prod.mk.injEq] at hf
      obtain ⟨⟨_, hpos⟩, hpf⟩ := hf
      rw [hpos] at f2
      obtain ⟨a, b, c, hc⟩ := t6 hno p f2
      rw [hpf] at hc
      cases hc
    | none =>
      show Sat _ _ (if t.srcQ = [] then _ else _)
      by_cases hq : t.srcQ = []
      · rw [if_pos hq]
        exact ⟨⟨t1, fun x p hx => by cases hx⟩, fun _ f hf => by cases hf⟩
      · rw [if_neg hq, nextBlock_nxt]
        refine (nextBlock_2 t1 hk e).bind (fun v hv => ?_)
        obtain ⟨v1, v2, v3, v4, _⟩ := hv
        refine ((ih v v1).and (search_got e fuel v v1.hom)).mono (fun u hu => ⟨hu.1.1, fun _ f hf => ?_⟩)
        obtain ⟨x, q, y1, _, y3, _⟩ := hu.2.2.2.1 _ hf
        cases y1
        rw [v3, t2.blk] at y3
        rcases y3 with y3 | y3
        · have y3 : s.blk + 1 < s.blk := y3
          omega
        · have y3 : s.blk + 1 = s.blk := y3.1
          omega

theorem getNext_keep {k r n : Nat} {s : St} (h : Hom2 k r n s) (hk : 0 < k) (e : Env) :
    Sat (fun _ => True) (fun u => Keep k r n u ∧ (Att k s → ∀ f, u.2 = some (some (s.blk, s.nxt), .recv f) → u.1.alive = true →
      Att k u.1 ∧ ∀ b i, Sym k s b i → u.1.blk ≤ b → Sym k u.1 b i)) (getNext e s) := by
  unfold getNext
  refine (fill_2 h e).bind (fun t ht => ?_)
  obtain ⟨t1, t2, t3, t4, _⟩ := ht
  cases hp : t.src[t.nxt]? with
  | none => trivial
  | some o =>
    cases o with
    | some p =>
      show Sat _ _ (if (!t.alive) = true then _ else _)
      by_cases hal : (!t.alive) = true
      · rw [if_pos hal]
        exact ⟨⟨t1, fun x p hx => by cases hx⟩, fun _ f hf => by cases hf⟩
      · rw [if_neg hal]
        have ht : t.alive = true := by simpa using hal
        have hboth : Sat (fun _ => True) (fun u => Keep k r n u ∧ (Att k t → u.1.alive = true → Rec k r n t u)) (advance e t t.nxt p) := by
          by_cases hat : Att k t
          · exact ((advance_keep t1 hk e t.nxt p).and (advance_rec t1 hat hk e p)).mono (fun u hu => ⟨hu.1.1, fun _ => hu.2⟩)
          · exact (advance_keep t1 hk e t.nxt p).mono (fun u hu => ⟨hu.1, fun h => absurd h hat⟩)
        refine hboth.mono (fun u hu => ⟨hu.1, fun ha _ _ hal => ?_⟩)
        obtain ⟨_, a1, _, _, a2⟩ := hu.2 (t3.att ha) hal
        exact ⟨a1, fun b i hs hb => a2 b i (t4 ht b i hs) hb⟩
    | none =>
      refine (search_keep hk e _ t t1).mono (fun u hu => ⟨hu.1, fun _ f hf _ => ?_⟩)
      have := hu.2 hp f
      rw [t2.blk, t2.nxt] at this
      exact absurd hf this

/-- In the call that starts decoding nothing was attempted yet. -/
theorem tryStart_att {k r n : Nat} {c : Ctx} {e : Env} {s : St} (hi : Inv c s) (hst : s.started = false) (hk : 0 < k) (h : RepInv k r n s) :
    RepInv k r n (tryStart e s) ∧ Att k (tryStart e s) ∧ (tryStart e s).nxt = 0 := by
  have hatt : ∀ t : St, (∀ x ∈ t.src, x = none) → (∀ x ∈ t.rep, x = none) → Att k t := by
    intro t h1 h2
    refine Or.inr (Or.inr fun l _ hl => ?_)
    cases l with
    | nil => exact hk
    | cons i l =>
      have := hl i List.mem_cons_self
      by_cases hik : i < k
      · obtain ⟨p, hp⟩ := (has_src hik).mp this
        have := h1 _ (List.mem_of_getElem? hp)
        cases this
      · exact absurd this (no_rep h2 hik)
  unfold tryStart
  cases hq : s.srcQ with
  | nil =>
    obtain ⟨z1, z2, z3⟩ := hi.pre hst
    exact ⟨h, hatt s z1 z2, z3⟩
  | cons f q =>
    obtain ⟨p1, p2, _⟩ := inv_procSource (e := e) hi f
    obtain ⟨z1, z2, z3⟩ := p1.pre (p2.started.trans hst)
    have hrep : (procSource e s f).2.rep = s.rep ∧ (procSource e s f).2.repRes = s.repRes := by
      unfold procSource canSrc updSrc updPay
      split_ifs <;> exact ⟨rfl, rfl⟩
    have hr : RepInv k r n (procSource e s f).2 :=
      ⟨by rw [(procSource_queues e s f).2]; exact h.repQ, by rw [hrep.1, hrep.2]; exact h.res, by rw [hrep.1, hrep.2]; exact h.res0⟩
    show RepInv k r n (if (!(procSource e s f).1) = true then (procSource e s f).2 else _) ∧ Att k (if (!(procSource e s f).1) = true then (procSource e s f).2 else _) ∧
      (if (!(procSource e s f).1) = true then (procSource e s f).2 else _).nxt = 0
    by_cases h1 : (!(procSource e s f).1) = true
    · rw [if_pos h1]
      exact ⟨hr, hatt _ z1 z2, z3⟩
    · rw [if_neg h1]
      exact ⟨⟨fun g hg => h.repQ g (dropPrev_mem _ _ g hg), hr.res, hr.res0⟩, hatt _ z1 z2, z3⟩

/-- Packet `i` of block `b` arrives in call `c`, while block `cur` is being decoded. -/
def Arrives (c : Call) (cur b i : Nat) : Prop :=
  ∃ f m, ((f, m) ∈ c.srcs ∨ (f, m) ∈ c.reps) ∧ 0 ≤ diff f.sbn (cur % 65536) ∧ b = cur + (diff f.sbn (cur % 65536)).toNat ∧ f.esi = i

theorem dropPrev_keep (b : Nat) (q : List Fec) {f : Fec} (hf : f ∈ q) (hd : 0 ≤ diff f.sbn b) : f ∈ dropPrev b q := by
  induction q with
  | nil => cases hf
  | cons g q ih =>
    unfold dropPrev
    split_ifs with h
    · rcases List.mem_cons.mp hf with rfl | hf
      · omega
      · exact ih hf
    · exact hf

/-- Starting keeps the packets in the queues, of the first block and later ones. -/
theorem tryStart_sym {k : Nat} {e : Env} {s : St} (hst : s.started = false) (hs : (tryStart e s).started = true) {f : Fec} (hf : f ∈ s.srcQ ∨ f ∈ s.repQ)
    (hd : 0 ≤ diff f.sbn (tryStart e s).sbn) : Sym k (tryStart e s) ((tryStart e s).blk + (diff f.sbn (tryStart e s).sbn).toNat) f.esi := by
  refine Or.inr ⟨f, ?_, hd, rfl, rfl⟩
  revert hs hd
  unfold tryStart
  cases hq : s.srcQ with
  | nil => intro hs; have hs : s.started = true := hs; rw [hst] at hs; cases hs
  | cons g q =>
    have h1 := (procSource_queues e s g)
    dsimp only
    split_ifs with h
    · intro hs
      have : (procSource e s g).2.started = s.started := by
        unfold procSource canSrc updSrc updPay
        split_ifs <;> rfl
      rw [this, hst] at hs; cases hs
    · intro _ hd
      have hd : 0 ≤ diff f.sbn g.sbn := hd
      rcases hf with hf | hf
      · left
        show f ∈ (procSource e s g).2.srcQ
        rw [h1.1]; exact hf
      · exact Or.inr (dropPrev_keep _ _ hf hd)

theorem tryStart_alive {e : Env} {s : St} (h : (tryStart e s).alive = true) : s.alive = true := by
  cases hs : s.alive with
  | true => rfl
  | false =>
    have hp : ∀ f, (procSource e s f).2.alive = false := by
      intro f
      unfold procSource canSrc updSrc updPay
      split_ifs <;> first | exact hs | rfl
    exfalso
    unfold tryStart at h
    cases hq : s.srcQ with
    | nil =>
      rw [hq] at h
      have h : s.alive = true := h
      rw [hs] at h; cases h
    | cons f q =>
      rw [hq] at h
      dsimp only at h
      split_ifs at h
      · rw [hp f] at h; cases h
      · have h : (procSource e s f).2.alive = true := h
        rw [hp f] at h; cases h

/-- Packets that arrive in the call that starts decoding are kept. -/
theorem start_arrives {k : Nat} {e : Env} {t : St} {c : Call} (hst : t.started = false) (hs : (tryStart e t).started = true)
    (hb : (tryStart e t).sbn = (tryStart e t).blk % 65536)
    (hq : ∀ f m, (f, m) ∈ c.srcs ∨ (f, m) ∈ c.reps → f ∈ t.srcQ ∨ f ∈ t.repQ) {b i : Nat} (hbi : Arrives c (tryStart e t).blk b i) :
    Sym k (tryStart e t) b i := by
  obtain ⟨f, m, f1, f2, f3, f4⟩ := hbi
  rw [← hb] at f2 f3
  rw [f3, ← f4]
  exact tryStart_sym hst hs (hq f m f1) f2

theorem fetched {s : St} {srcs reps : List (Fec × Nat)} (ha : (fetchAll s srcs reps).alive = true) (f : Fec) (m : Nat) (h : (f, m) ∈ srcs ∨ (f, m) ∈ reps) :
    f ∈ (fetchAll s srcs reps).srcQ ∨ f ∈ (fetchAll s srcs reps).repQ := by
  have hal : (s.alive && (fetch srcs s.srcQ).2 && (fetch reps s.repQ).2) = true := ha
  simp only [Bool.and_eq_true] at hal
  exact h.imp (fun hm => fetch_all _ _ hal.1.2 _ hm) (fun hm => fetch_all _ _ hal.2 _ hm)

/-- Every call keeps what is known about repair packets; after the last packet of a block and after the start nothing was attempted in vain. -/
theorem read_keep {k r n maxLen : Nat} {e : Env} {s : St} {u : St × Option (Option (Nat × Nat) × Pkt)} {l : Option (Nat × Nat)} (he : EnvOk (anyCtx maxLen) e)
    (hi : Inv (anyCtx maxLen) s) (hk : Known k n l s) (h : RepInv k r n s) (hk0 : 0 < k) {srcs reps : List (Fec × Nat)} (h1 : ∀ x ∈ srcs, Reg k n x.1)
    (h2 : ∀ x ∈ reps, Reg2 k r n x.1) (hr : read e s srcs reps = .ok u) (ha : u.1.alive = true) :
    RepInv k r n u.1 ∧ ∀ x p, u.2 = some (some x, p) → (x.2 + 1 = k → Att k u.1) ∧
      (s.started = false → Att k u.1 ∧ x.2 = 0 ∧ ∀ b i, Arrives ⟨srcs, reps, e.dec, e.alloc⟩ x.1 b i → u.1.blk ≤ b → Sym k u.1 b i) := by
  have s1 : ∀ x ∈ srcs, SrcOk (anyCtx maxLen) x.1 := fun x hx => ⟨trivial, (h1 x hx).2.2.2⟩
  have s2 : ∀ x ∈ reps, RepOk (anyCtx maxLen) x.1 := fun x hx => ⟨(h2 x hx).1.2.2, fun _ => trivial, fun _ => trivial⟩
  have hs : s.alive = true := by
    cases hs : s.alive with
    | true => rfl
    | false =>
      unfold read at hr
      rw [if_pos (by rw [hs]; rfl)] at hr
      cases hr
      rw [← hs]; exact ha
  have hf : RepInv k r n (fetchAll s srcs reps) := ⟨fetch_mem reps _ h2 h.repQ, h.res, h.res0⟩
  have hif : Inv (anyCtx maxLen) (fetchAll s srcs reps) := inv_queues hi (fetch_mem srcs _ s1 hi.srcQ) (fetch_mem reps _ s2 hi.repQ)
  have hr0 := hr
  unfold read at hr
  rw [if_neg (by rw [hs]; decide)] at hr
  unfold readIn at hr
  -- result of the inner call
  have fin : ∀ {x : Res} {P : St × Option (Option (Nat × Nat) × Pkt) → Prop}, Sat (fun _ => True) P x →
      x.bind (fun v => if (!v.1.alive) = true then Except.ok (v.1, none) else Except.ok v) = Except.ok u → P u := by
    intro x P hx hb
    cases x with
    | error y => cases hb
    | ok v =>
      have hb : (if (!v.1.alive) = true then Except.ok (v.1, none) else Except.ok v) = (Except.ok u : Res) := hb
      by_cases hv : (!v.1.alive) = true
      · rw [if_pos hv] at hb
        cases hb
        have ha : v.1.alive = true := ha
        rw [ha] at hv; cases hv
      · rw [if_neg hv] at hb
        cases hb
        exact hx
  rcases hk hs with ⟨k1, k2, k3⟩ | ⟨x, k1, k2, k3, k4, k5⟩
  · have hf0 : Hom0 k n (fetchAll s srcs reps) := ⟨fetch_mem srcs _ h1 k3.srcQ, fetch_mem reps _ (fun x hx => (h2 x hx).1) k3.repQ, k3.len, k3.pay⟩
    obtain ⟨t1, t2⟩ := tryStart_hom0 (e := e) hf0 k2
    obtain ⟨a1, a2, a3⟩ := tryStart_att (e := e) hif k2 hk0 hf
    rw [if_neg (show ¬ (fetchAll s srcs reps).started = true from by show ¬ s.started = true; rw [k2]; decide)] at hr
    by_cases h5 : (tryStart e (fetchAll s srcs reps)).started = true
    · rw [if_pos h5] at hr
      have hg := fin (((getNext_keep (a1.hom (t2 h5)) hk0 e).and (start_getNext hif k2 h5)).and (getNext_got (t2 h5) e)) hr
      obtain ⟨⟨⟨g1, g2⟩, g3⟩, g4⟩ := hg
      refine ⟨g1.1.inv, fun x p hx => ⟨g1.2 x p hx, fun _ => ?_⟩⟩
      rcases g3 with ⟨g3, _⟩ | ⟨f, g3⟩
      · rw [g3] at hx; cases hx
      · obtain ⟨m1, m2⟩ := g2 a2 f (by rw [a3]; exact g3) ha
        rw [g3] at hx
        cases hx
        exact ⟨m1, rfl, fun b i hbi hb => m2 b i (start_arrives (t := fetchAll s srcs reps) (c := ⟨srcs, reps, e.dec, e.alloc⟩) k2 h5 (t2 h5).sbn (fetched (tryStart_alive (g4.2.1 ha))) hbi) hb⟩
    · rw [if_neg h5] at hr
      have hfw : Sat (fun _ => True) (fun v => RepInv k r n v.1 ∧ ∀ x p, v.2 ≠ some (some x, p)) (forward (tryStart e (fetchAll s srcs reps))) := by
        unfold forward
        cases (tryStart e (fetchAll s srcs reps)).srcQ with
        | nil => exact ⟨a1, fun x p hx => by cases hx⟩
        | cons f q => exact ⟨⟨a1.repQ, a1.res, a1.res0⟩, fun x p hx => by cases hx⟩
      obtain ⟨g1, g2⟩ := fin hfw hr
      exact ⟨g1, fun x p hx => absurd hx (g2 x p)⟩
  · rw [if_pos (show (fetchAll s srcs reps).started = true from k2)] at hr
    have hg := fin (getNext_keep (hf.hom (hom_fetch k3 h1 (fun x hx => (h2 x hx).1))) hk0 e) hr
    refine ⟨hg.1.1.inv, fun x p hx => ⟨hg.1.2 x p hx, fun hc => ?_⟩⟩
    rw [k2] at hc; cases hc

/-- All packets are of a stream with `k` source and `r` repair packets of `n` bytes in each block. -/
def Uniform2 (k r n : Nat) (h : List Call) : Prop := ∀ c ∈ h, (∀ x ∈ c.srcs, Reg k n x.1) ∧ (∀ x ∈ c.reps, Reg2 k r n x.1)

/-- In every call both queues are sorted, seen from the block that is being decoded. -/
def Tidy2 (maxLen maxJump : Nat) : St → List Call → Prop
  | _, [] => True
  | s, c :: h => (s.started = true → Sorted s.sbn (fetch c.srcs s.srcQ).1 ∧ Sorted s.sbn (fetch c.reps s.repQ).1) ∧
      ∀ r, read ⟨maxLen, maxJump, c.alloc, c.dec⟩ s c.srcs c.reps = .ok r → Tidy2 maxLen maxJump r.1 h

theorem Uniform2.toUniform {k r n : Nat} {h : List Call} (hu : Uniform2 k r n h) : Uniform k n h :=
  fun c hc => ⟨(hu c hc).1, fun x hx => ((hu c hc).2 x hx).1⟩

theorem Tidy2.toTidy {maxLen maxJump : Nat} (h : List Call) : ∀ {s : St}, Tidy2 maxLen maxJump s h → Tidy maxLen maxJump s h := by
  induction h with
  | nil => intro s _; trivial
  | cons c h ih => intro s ht; exact ⟨fun hs => (ht.1 hs).1, fun r hr => ih (ht.2 r hr)⟩

theorem keep_run {k r n maxLen maxJump : Nat} (hk0 : 0 < k) (h : List Call) : ∀ (h2 : List Call) (s : St) (l : Option (Nat × Nat)), Inv (anyCtx maxLen) s → Known k n l s → RepInv k r n s →
    Uniform2 k r n h → Tidy2 maxLen maxJump s (h ++ h2) → ∀ u, run maxLen maxJump s h = .ok u → u.1.alive = true →
    RepInv k r n u.1 ∧ Tidy2 maxLen maxJump u.1 h2 := by
  induction h with
  | nil =>
    intro h2 s l _ _ hp _ ht u hr _
    cases hr
    exact ⟨hp, ht⟩
  | cons c h ih =>
    intro h2 s l hi hk hp hu ht u hr ha
    obtain ⟨v, w, e1, e2, e3⟩ := run_cons hr
    obtain ⟨u1, u2⟩ := hu c List.mem_cons_self
    have u2' : ∀ x ∈ c.reps, RegRep k n x.1 := fun x hx => (u2 x hx).1
    have s1 : ∀ x ∈ c.srcs, SrcOk (anyCtx maxLen) x.1 := fun x hx => ⟨trivial, (u1 x hx).2.2.2⟩
    have s2 : ∀ x ∈ c.reps, RepOk (anyCtx maxLen) x.1 := fun x hx => ⟨(u2' x hx).2.2, fun _ => trivial, fun _ => trivial⟩
    have hi' := inv_read (any_env maxLen maxJump c) hi s1 s2
    rw [e1] at hi'
    have hw : w.1.alive = true := by rw [e3] at ha; exact ha
    have hk' := read_known (any_env maxLen maxJump c) hi hk u1 u2' s1 s2 e1 (fun hs => (ht.1 hs).1)
    have hp' := (read_keep (any_env maxLen maxJump c) hi hk hp hk0 u1 u2 e1 (run_alive e2 hw)).1
    rw [e3]
    exact ih h2 v.1 _ hi'.1 hk' hp' (fun y hy => hu y (List.mem_cons_of_mem _ hy)) (ht.2 v e1) w e2 hw

/-- Whenever a packet of a block is to be returned, at least `k` different packets of this block have arrived, and the decoder restores it.
`v` is the number of the next position, `held b i` says that packet `i` of block `b` is known to be there. -/
def Enough (k : Nat) : Nat → (Nat → Nat → Prop) → List Call → Prop
  | _, _, [] => True
  | v, held, c :: h =>
    (∃ l : List Nat, l.Nodup ∧ k ≤ l.length ∧ ∀ i ∈ l, held (v / k) i ∨ Arrives c (v / k) (v / k) i) ∧
    (∃ g, c.dec (v / k) = some g ∧ ∀ i, (g i).isSome = true) ∧
    Enough k (v + 1) (fun b i => held b i ∨ Arrives c (v / k) b i) h

theorem Enough.mono {k : Nat} (h : List Call) : ∀ {v : Nat} {p q : Nat → Nat → Prop}, (∀ b i, v / k ≤ b → p b i → q b i) → Enough k v p h → Enough k v q h := by
  induction h with
  | nil => intro _ _ _ _ _; trivial
  | cons c h ih =>
    intro v p q hpq he
    obtain ⟨⟨l, l1, l2, l3⟩, e2, e3⟩ := he
    refine ⟨⟨l, l1, l2, fun i hi => (l3 i hi).imp (hpq _ _ (Nat.le_refl _)) id⟩, e2, ih (fun b i hb h => h.imp (hpq b i ?_) id) e3⟩
    exact Nat.le_trans (Nat.div_le_div_right (Nat.le_succ v)) hb

/-- The position with number `v` in blocks of `k` packets. -/
def posOfNum (k v : Nat) : Nat × Nat := (v / k, v % k)

theorem succ_num {k v : Nat} (hk : 0 < k) : succ k (posOfNum k v) = posOfNum k (v + 1) := by
  have h1 := Nat.div_add_mod v k
  have hm := Nat.mod_lt v hk
  unfold succ posOfNum
  by_cases hc : v % k + 1 = k
  · rw [if_pos hc]
    have hv : v + 1 = k * (v / k + 1) := by rw [Nat.mul_succ]; omega
    rw [hv, Nat.mul_div_cancel_left _ hk, Nat.mul_mod_right]
  · rw [if_neg hc]
    obtain ⟨q1, q2⟩ := (Nat.div_mod_unique (d := v / k) (c := v % k + 1) (a := v + 1) hk).mpr ⟨by omega, by omega⟩
    rw [q1, q2]

theorem rec_run {k r n maxLen maxJump : Nat} (hk0 : 0 < k) (h : List Call) : ∀ (v : Nat) (s : St), Inv (anyCtx maxLen) s → s.started = true → Hom2 k r n s → Att k s →
    (s.blk, s.nxt) = posOfNum k v → Uniform2 k r n h → Tidy2 maxLen maxJump s h → Enough k v (Sym k s) h →
    ∀ u, run maxLen maxJump s h = .ok u → u.1.alive = true →
    u.2.map (·.1) = (List.range h.length).map (fun j => some (posOfNum k (v + j))) := by
  induction h with
  | nil =>
    intro v s _ _ _ _ _ _ _ _ u hr _
    cases hr
    rfl
  | cons c h ih =>
    intro v s hi hst hh hat hpos hu ht he u hr ha
    obtain ⟨x, w, e1, e2, e3⟩ := run_cons hr
    obtain ⟨u1, u2⟩ := hu c List.mem_cons_self
    have u2' : ∀ x ∈ c.reps, RegRep k n x.1 := fun x hx => (u2 x hx).1
    have s1 : ∀ x ∈ c.srcs, SrcOk (anyCtx maxLen) x.1 := fun x hx => ⟨trivial, (u1 x hx).2.2.2⟩
    have s2 : ∀ x ∈ c.reps, RepOk (anyCtx maxLen) x.1 := fun x hx => ⟨(u2' x hx).2.2, fun _ => trivial, fun _ => trivial⟩
    have hi' := inv_read (any_env maxLen maxJump c) hi s1 s2
    rw [e1] at hi'
    have hw : w.1.alive = true := by rw [e3] at ha; exact ha
    have hx := run_alive e2 hw
    have hs : s.alive = true := run_alive hr ha
    obtain ⟨⟨l, l1, l2, l3⟩, ⟨g, g1, g2⟩, e4⟩ := he
    have hblk : s.blk = v / k := congrArg Prod.fst hpos
    have hsb : s.sbn = v / k % 65536 := by rw [hh.hom.sbn, hblk]
    -- unfold the call
    unfold read at e1
    rw [if_neg (by rw [hs]; decide)] at e1
    unfold readIn at e1
    rw [if_pos (show (fetchAll s c.srcs c.reps).started = true from hst)] at e1
    have hif : Inv (anyCtx maxLen) (fetchAll s c.srcs c.reps) := inv_queues hi (fetch_mem _ _ s1 hi.srcQ) (fetch_mem _ _ s2 hi.repQ)
    have hf : Hom2 k r n (fetchAll s c.srcs c.reps) := ⟨hom_fetch hh.hom u1 u2', fetch_mem _ _ u2 hh.repQ, hh.res, hh.res0⟩
    have hga := getNext_got (hom_fetch hh.hom u1 u2') ⟨maxLen, maxJump, c.alloc, c.dec⟩
    cases hgn : getNext ⟨maxLen, maxJump, c.alloc, c.dec⟩ (fetchAll s c.srcs c.reps) with
    | error y => rw [hgn] at e1; cases e1
    | ok y =>
      rw [hgn] at e1 hga
      have e1 : (if (!y.1.alive) = true then Except.ok (y.1, none) else Except.ok y) = (Except.ok x : Res) := e1
      by_cases hy : (!y.1.alive) = true
      · rw [if_pos hy] at e1
        cases e1
        have hx : y.1.alive = true := hx
        rw [hx] at hy; cases hy
      rw [if_neg hy] at e1
      cases e1
      have hal : (fetchAll s c.srcs c.reps).alive = true := hga.2.1 hx
      have hal : (s.alive && (fetch c.srcs s.srcQ).2 && (fetch c.reps s.repQ).2) = true := hal
      simp only [Bool.and_eq_true] at hal
      have hsym : ∀ b i, Sym k s b i ∨ Arrives c (v / k) b i → Sym k (fetchAll s c.srcs c.reps) b i := by
        intro b i hbi
        rcases hbi with (hbi | ⟨f, f1, f2, f3⟩) | ⟨f, m, f1, f2, f3, f4⟩
        · exact Or.inl hbi
        · exact Or.inr ⟨f, f1.imp (fetch_keep _ _ f) (fetch_keep _ _ f), f2, f3⟩
        · right
          refine ⟨f, f1.imp (fun hm => fetch_all _ _ hal.1.2 _ hm) (fun hm => fetch_all _ _ hal.2 _ hm), ?_, ?_, f4⟩
          · show 0 ≤ diff f.sbn s.sbn
            rw [hsb]; exact f2
          · show b = s.blk + (diff f.sbn s.sbn).toNat
            rw [hsb, hblk]; exact f3
      have hrec := getNext_rec hf hif hst hk0 ⟨maxLen, maxJump, c.alloc, c.dec⟩ hat (ht.1 hst).1 (ht.1 hst).2 l1 l2
        (fun i hm => by
          show Sym k (fetchAll s c.srcs c.reps) s.blk i
          rw [hblk]; exact hsym _ _ (l3 i hm)) (g := g) (by show c.dec s.blk = some g; rw [hblk]; exact g1) g2
      rw [hgn] at hrec
      obtain ⟨r1, r2, ⟨p, r3⟩, r4, r5⟩ := hrec hx
      have r3 : x.2 = some (some (s.blk, s.nxt), p) := r3
      have hp2 : (x.1.blk, x.1.nxt) = posOfNum k (v + 1) := by
        have r4 : (x.1.blk, x.1.nxt) = succ k (s.blk, s.nxt) := r4
        rw [r4, hpos, succ_num hk0]
      have hb2 : x.1.blk = (v + 1) / k := congrArg Prod.fst hp2
      have key := ih (v + 1) x.1 hi'.1 (hi'.2.1 hst) r1 r2 hp2 (fun z hz => hu z (List.mem_cons_of_mem _ hz)) (ht.2 x (by
        unfold read
        rw [if_neg (by rw [hs]; decide)]
        unfold readIn
        rw [if_pos (show (fetchAll s c.srcs c.reps).started = true from hst), hgn]
        show (if (!x.1.alive) = true then Except.ok (x.1, none) else Except.ok x) = _
        rw [if_neg hy]))
        (e4.mono _ (fun b i hb hbi => r5 b i (hsym b i hbi) (by rw [hb2]; exact hb))) w e2 hw
      rw [e3, r3]
      show some (s.blk, s.nxt) :: w.2.map (·.1) = _
      rw [key, hpos, List.length_cons, List.range_succ_eq_map, List.map_cons, List.map_map]
      congr 1
      apply List.map_congr_left
      intro j _
      show some (posOfNum k (v + 1 + j)) = some (posOfNum k (v + (j + 1)))
      congr 2
      omega

end Verif.FecReader
