import Verif.FecReader.Complete

/-!
# FEC reader: blocks of which enough packets arrive are restored
-/

namespace Verif.FecReader

/-- A repair packet of a stream with `k` source and `r` repair packets of `n` bytes in each block. -/
def Reg2 (k r n : Nat) (f : Fec) : Prop := RegRep k n f ∧ validRepair f = true ∧ f.blen = k + r

/-- State when the stream is uniform, including repair packets, and decoding is started. -/
structure Hom2 (k r n : Nat) (s : St) : Prop where
  hom : Hom k n s
  repQ : ∀ f ∈ s.repQ, Reg2 k r n f
  res : s.repRes = true → s.rep.length = r
  res0 : s.repRes = false → ∀ x ∈ s.rep, x = none

/-- Packet `i` of the current block is there: a source packet if `i < k`, a repair packet otherwise. -/
def Has (k : Nat) (s : St) (i : Nat) : Prop :=
  if i < k then ∃ p, s.src[i]? = some (some p) else ∃ f, s.rep[i - k]? = some (some f)

/-- A repair of the current block was not attempted in vain: there is something new since the last attempt, or the block is complete, or
it has fewer than `k` packets. -/
def Att (k : Nat) (s : St) : Prop :=
  s.canRepair = true ∨ (∀ i < k, Has k s i) ∨ ∀ l : List Nat, l.Nodup → (∀ i ∈ l, Has k s i) → l.length < k

/-- Packet `i` of block `b` is in the current block or in a queue. -/
def Sym (k : Nat) (s : St) (b i : Nat) : Prop :=
  (b = s.blk ∧ Has k s i) ∨
  ∃ f, (f ∈ s.srcQ ∨ f ∈ s.repQ) ∧ 0 ≤ diff f.sbn s.sbn ∧ b = s.blk + (diff f.sbn s.sbn).toNat ∧ f.esi = i

/-- Filling a block keeps packets. -/
structure Grow (k : Nat) (s t : St) : Prop where
  has : ∀ i, Has k s i → Has k t i
  att : Att k s → Att k t

theorem Grow.refl (k : Nat) (s : St) : Grow k s s := ⟨fun _ h => h, fun h => h⟩

theorem Grow.trans {k : Nat} {a b c : St} (h1 : Grow k a b) (h2 : Grow k b c) : Grow k a c :=
  ⟨fun i h => h2.has i (h1.has i h), fun h => h2.att (h1.att h)⟩

/-- Nothing about packets changes. -/
theorem Grow.same {k : Nat} {s t : St} (h1 : t.src = s.src) (h2 : t.rep = s.rep) (h3 : t.canRepair = s.canRepair) : Grow k s t := by
  have hh : ∀ i, Has k t i ↔ Has k s i := by intro i; unfold Has; rw [h1, h2]
  refine ⟨fun i h => (hh i).mpr h, fun h => ?_⟩
  rcases h with h | h | h
  · exact Or.inl (h3.trans h)
  · exact Or.inr (Or.inl fun i hi => (hh i).mpr (h i hi))
  · exact Or.inr (Or.inr fun l hl hi => h l hl (fun i hm => (hh i).mp (hi i hm)))

theorem Sat.and {α : Type} {P Q : α → Prop} {x : Except Fault α} (h1 : Sat (fun _ => True) P x) (h2 : Sat (fun _ => True) Q x) :
    Sat (fun _ => True) (fun a => P a ∧ Q a) x := by
  cases x with
  | ok a => exact ⟨h1, h2⟩
  | error f => trivial

theorem no_rep {k : Nat} {s : St} (h : ∀ x ∈ s.rep, x = none) {i : Nat} (hi : ¬ i < k) : ¬ Has k s i := by
  intro hh
  unfold Has at hh
  rw [if_neg hi] at hh
  obtain ⟨f, hf⟩ := hh
  have := h _ (List.mem_of_getElem? hf)
  cases this

theorem procRepair_2 {k r n : Nat} {s : St} (h : Hom2 k r n s) (e : Env) {f : Fec} (hf : Reg2 k r n f) :
    Sat (fun _ => True) (fun u => Hom2 k r n u.2 ∧ Ext s u.2 ∧ Grow k s u.2 ∧ u.2.srcQ = s.srcQ ∧ u.2.repQ = s.repQ ∧
      (u.2.alive = true → u.1 = true ∧ u.2.rep.length = r)) (procRepair e s f) := by
  refine ((procRepair_hom h.hom e hf.1).and (Q := fun u => (∀ g ∈ u.2.repQ, Reg2 k r n g) ∧ (u.2.repRes = true → u.2.rep.length = r) ∧
    (u.2.repRes = false → ∀ x ∈ u.2.rep, x = none) ∧ Grow k s u.2 ∧ u.2.repQ = s.repQ ∧ (u.2.alive = true → u.1 = true ∧ u.2.rep.length = r)) ?_).mono
    (fun u hu => ⟨⟨hu.1.1, hu.2.1, hu.2.2.1, hu.2.2.2.1⟩, hu.1.2.1, hu.2.2.2.2.1, hu.1.2.2, hu.2.2.2.2.2.1, hu.2.2.2.2.2.2⟩)
  obtain ⟨⟨f2, f3, _⟩, f4, f5⟩ := hf
  have hlen := h.hom.len
  unfold procRepair
  rw [f4, f2, f3, f5, canPay_hom h.hom, canSrc_hom h.hom, updSrc_hom h.hom]
  simp only [Bool.not_true, Bool.false_eq_true, if_false]
  by_cases h1 : s.src.length + s.rep.length = k + r
  · have hl : s.rep.length = r := by omega
    have hc : canRep e s (k + r) = (true, s) := by unfold canRep; rw [if_pos h1]
    rw [hc]
    simp only [Bool.not_true, Bool.false_eq_true, if_false]
    unfold updRep
    rw [if_pos h1]
    exact ⟨h.repQ, fun _ => hl, fun c => (by cases c), Grow.same rfl rfl rfl, rfl, fun _ => ⟨rfl, hl⟩⟩
  · have hres : s.repRes = false := by
      cases hc : s.repRes with
      | false => rfl
      | true => have := h.res hc; omega
    have hz := h.res0 hres
    by_cases h2 : k + r > e.maxLen
    · have hc : canRep e s (k + r) = (false, { s with alive := false }) := by
        unfold canRep; rw [if_neg h1, if_neg (by rw [hres]; decide), if_pos h2]
      rw [hc]
      simp only [Bool.not_false, if_true]
      exact ⟨h.repQ, h.res, h.res0, Grow.same rfl rfl rfl, rfl, fun c => (by cases c)⟩
    · have hc : canRep e s (k + r) = (true, s) := by
        unfold canRep; rw [if_neg h1, if_neg (by rw [hres]; decide), if_neg h2]
      rw [hc]
      simp only [Bool.not_true, Bool.false_eq_true, if_false]
      unfold updRep
      rw [if_neg h1]
      split_ifs
      · exact ⟨h.repQ, h.res, h.res0, Grow.same rfl rfl rfl, rfl, fun c => (by cases c)⟩
      rotate_left
      · trivial
      · have hl : (resize s.rep (k + r - s.src.length)).length = r := by rw [resize_length]; omega
        have hz2 := resize_none hz (k + r - s.src.length)
        refine ⟨h.repQ, fun _ => hl, fun c => (by cases c), ⟨?_, ?_⟩, rfl, fun _ => ⟨rfl, hl⟩⟩
        · intro i hi
          by_cases hk : i < k
          · unfold Has at hi ⊢
            rw [if_pos hk] at hi ⊢
            exact hi
          · exact absurd hi (no_rep hz hk)
        · intro ha
          rcases ha with ha | ha | ha
          · exact Or.inl ha
          · refine Or.inr (Or.inl fun i hi => ?_)
            have := ha i hi
            unfold Has at this ⊢
            rw [if_pos hi] at this ⊢
            exact this
          · refine Or.inr (Or.inr fun l hl hi => ha l hl fun i hm => ?_)
            have := hi i hm
            by_cases hk : i < k
            · unfold Has at this ⊢
              rw [if_pos hk] at this ⊢
              exact this
            · exact absurd this (no_rep hz2 hk)

theorem placeRepair_2 {k r n : Nat} {s : St} (h : Hom2 k r n s) {f : Fec} (hf : Reg2 k r n f) (hr : s.repRes = true) :
    Sat (fun _ => True) (fun t => Hom2 k r n t ∧ Ext s t ∧ Grow k s t ∧ t.srcQ = s.srcQ ∧ t.repQ = s.repQ ∧ Has k t f.esi) (placeRepair s f) := by
  obtain ⟨⟨f2, f3, _⟩, f4, f5⟩ := hf
  obtain ⟨v1, v2, v3, _⟩ := validRepair_elim f4
  have hlen := h.hom.len
  have hrl := h.res hr
  unfold placeRepair
  by_cases h1 : ¬ (f.sblen = s.src.length ∧ f.esi ≥ s.src.length ∧ f.esi < s.src.length + s.rep.length)
  · rw [if_pos h1]; trivial
  rw [if_neg h1]
  simp only [not_not] at h1
  have hlt : f.esi - f.sblen < s.rep.length := by omega
  by_cases h2 : s.rep[f.esi - f.sblen]? = some none
  · rw [if_pos h2]
    refine ⟨⟨⟨h.hom.srcQ, h.hom.repQ, h.hom.len, h.hom.pay, h.hom.sbn⟩, h.repQ, fun _ => ?_, fun c => ?_⟩, ⟨rfl, rfl, rfl, id, fun _ _ h => h⟩, ⟨?_, fun _ => Or.inl rfl⟩, rfl, rfl, ?_⟩
    · show (s.rep.set _ _).length = r
      rw [List.length_set]; exact hrl
    · have c : s.repRes = false := c
      rw [hr] at c; cases c
    · intro i hi
      unfold Has at hi ⊢
      by_cases hk : i < k
      · rw [if_pos hk] at hi ⊢; exact hi
      · rw [if_neg hk] at hi ⊢
        obtain ⟨g, hg⟩ := hi
        by_cases he : f.esi - f.sblen = i - k
        · exact ⟨f, by show (s.rep.set _ _)[i - k]? = _; rw [← he, List.getElem?_set_self hlt]⟩
        · exact ⟨g, by show (s.rep.set _ _)[i - k]? = _; rw [List.getElem?_set_ne he]; exact hg⟩
    · unfold Has
      rw [if_neg (by omega)]
      exact ⟨f, by show (s.rep.set _ _)[f.esi - k]? = _; rw [← f2, List.getElem?_set_self hlt]⟩
  · rw [if_neg h2]
    refine ⟨h, Ext.refl s, Grow.refl k s, rfl, rfl, ?_⟩
    unfold Has
    rw [if_neg (by omega)]
    rw [List.getElem?_eq_getElem hlt] at h2
    cases ho : s.rep[f.esi - f.sblen] with
    | none => rw [ho] at h2; exact absurd rfl h2
    | some g => exact ⟨g, by rw [← f2, List.getElem?_eq_getElem hlt, ho]⟩

theorem placeSource_2 {k r n : Nat} {s : St} (h : Hom2 k r n s) (f : Fec) :
    Sat (fun _ => True) (fun t => Hom2 k r n t ∧ Grow k s t ∧ t.repQ = s.repQ) (placeSource s f) := by
  refine ((placeSource_hom h.hom f).and (Q := fun t => t.rep = s.rep ∧ t.repRes = s.repRes ∧ t.repQ = s.repQ ∧ (t.canRepair = true ∨ t = s)) ?_).mono (fun t ht => ?_)
  · unfold placeSource
    split_ifs
    · exact ⟨rfl, rfl, rfl, Or.inl rfl⟩
    · exact ⟨rfl, rfl, rfl, Or.inr rfl⟩
    · trivial
  · obtain ⟨⟨t1, t2, _, _⟩, t3, t4, t5, t6⟩ := ht
    refine ⟨⟨t1, by rw [t5]; exact h.repQ, by rw [t3, t4]; exact h.res, by rw [t3, t4]; exact h.res0⟩, ⟨?_, ?_⟩, t5⟩
    · intro i hi
      unfold Has at hi ⊢
      rw [t3]
      by_cases hk : i < k
      · rw [if_pos hk] at hi ⊢
        obtain ⟨p, hp⟩ := hi
        exact ⟨p, t2.keep _ _ hp⟩
      · rw [if_neg hk] at hi ⊢; exact hi
    · intro ha
      rcases t6 with t6 | t6
      · exact Or.inl t6
      · rw [t6]; exact ha

theorem takeSource_2 {k r n : Nat} {s : St} (h : Hom2 k r n s) (e : Env) {f : Fec} (hf : Reg k n f) :
    Sat (fun _ => True) (fun t => Hom2 k r n t ∧ Grow k s t ∧ t.repQ = s.repQ) (takeSource e s f) := by
  unfold takeSource
  by_cases h1 : diff f.sbn s.sbn < 0
  · rw [if_pos h1]
    exact ⟨h, Grow.refl k s, rfl⟩
  rw [if_neg h1]
  by_cases h2 : f.sbn ≠ s.sbn
  · rw [if_pos h2]; trivial
  rw [if_neg h2, procSource_hom h.hom e hf]
  obtain ⟨u1, u2⟩ := hom_upd h.hom
  show Sat _ _ (placeSource _ f)
  refine (placeSource_2 (r := r) (s := { s with pay := n, payRes := true, srcRes := true }) ⟨u1, h.repQ, h.res, h.res0⟩ f).mono (fun t ht => ?_)
  exact ⟨ht.1, (Grow.same (s := s) (t := { s with pay := n, payRes := true, srcRes := true }) rfl rfl rfl).trans ht.2.1, ht.2.2⟩

theorem procRepair_res {e : Env} {s : St} {f : Fec} : Sat (fun _ => True) (fun u => u.1 = true → u.2.repRes = true) (procRepair e s f) := by
  unfold procRepair
  split_ifs
  · exact fun c => (by cases c)
  · exact fun c => (by cases c)
  · exact fun c => (by cases c)
  · exact fun c => (by cases c)
  · exact fun c => (by cases c)
  · unfold updRep
    split_ifs
    · exact fun _ => rfl
    · exact fun c => (by cases c)
    · exact fun _ => rfl
    · trivial

theorem takeRepair_2 {k r n : Nat} {s : St} (h : Hom2 k r n s) (e : Env) {f : Fec} (hf : Reg2 k r n f) :
    Sat (fun _ => True) (fun t => Hom2 k r n t ∧ Ext s t ∧ Grow k s t ∧ t.srcQ = s.srcQ ∧ t.repQ = s.repQ ∧
      (t.alive = true → 0 ≤ diff f.sbn s.sbn → Has k t f.esi)) (takeRepair e s f) := by
  unfold takeRepair
  by_cases h1 : diff f.sbn s.sbn < 0
  · rw [if_pos h1]
    exact ⟨h, Ext.refl s, Grow.refl k s, rfl, rfl, fun _ c => absurd h1 (by omega)⟩
  rw [if_neg h1]
  by_cases h2 : f.sbn ≠ s.sbn
  · rw [if_pos h2]; trivial
  rw [if_neg h2]
  refine ((procRepair_2 h e hf).and procRepair_res).bind (fun u hu => ?_)
  obtain ⟨⟨u1, u2, u3, u4, u5, u6⟩, u7⟩ := hu
  by_cases h3 : (!u.1) = true
  · rw [if_pos h3]
    refine ⟨u1, u2, u3, u4, u5, fun ha => ?_⟩
    rw [(u6 ha).1] at h3; cases h3
  · rw [if_neg h3]
    simp only [Bool.not_eq_true', Bool.not_eq_false] at h3
    exact (placeRepair_2 u1 hf (u7 h3)).mono (fun t ht =>
      ⟨ht.1, u2.trans ht.2.1, u3.trans ht.2.2.1, ht.2.2.2.1.trans u4, ht.2.2.2.2.1.trans u5, fun _ _ => ht.2.2.2.2.2⟩)

theorem fillSource_2 {k r n : Nat} (e : Env) (q : List Fec) : ∀ (s : St), Hom2 k r n s → (∀ f ∈ q, Reg k n f) →
    Sat (fun _ => True) (fun t => Hom2 k r n t ∧ Grow k s t ∧ t.repQ = s.repQ) (fillSource e q s) := by
  induction q with
  | nil =>
    intro s h hq
    exact ⟨⟨⟨(fun f hf => by cases hf), h.hom.repQ, h.hom.len, h.hom.pay, h.hom.sbn⟩, h.repQ, h.res, h.res0⟩, Grow.same rfl rfl rfl, rfl⟩
  | cons f q ih =>
    intro s h hq
    simp only [fillSource]
    split_ifs
    · exact ⟨⟨⟨hq, h.hom.repQ, h.hom.len, h.hom.pay, h.hom.sbn⟩, h.repQ, h.res, h.res0⟩, Grow.same rfl rfl rfl, rfl⟩
    · refine (takeSource_2 h e (hq f List.mem_cons_self)).bind (fun t ht => ?_)
      obtain ⟨t1, t2, t3⟩ := ht
      exact (ih t t1 (fun g hg => hq g (List.mem_cons_of_mem _ hg))).mono (fun u hu => ⟨hu.1, t2.trans hu.2.1, hu.2.2.trans t3⟩)
    · exact ⟨⟨⟨hq, h.hom.repQ, h.hom.len, h.hom.pay, h.hom.sbn⟩, h.repQ, h.res, h.res0⟩, Grow.same rfl rfl rfl, rfl⟩

/-- Packets of the current block are placed or stay in the queue (even if it is not sorted). -/
theorem fillSource_place {k n : Nat} (e : Env) (q : List Fec) : ∀ (s : St), Hom k n s → (∀ f ∈ q, Reg k n f) →
    Sat (fun _ => True) (fun t => Ext s t ∧ ∀ f ∈ q, 0 ≤ diff f.sbn s.sbn → f ∈ t.srcQ ∨ (diff f.sbn s.sbn = 0 ∧ ∃ p, t.src[f.esi]? = some (some p)))
      (fillSource e q s) := by
  induction q with
  | nil =>
    intro s h hq
    exact ⟨⟨rfl, rfl, rfl, id, fun _ _ h => h⟩, fun f hf => by cases hf⟩
  | cons f q ih =>
    intro s h hq
    simp only [fillSource]
    by_cases h1 : (!validSbn e s f) = true
    · rw [if_pos h1]
      exact ⟨⟨rfl, rfl, rfl, (fun c => by cases c), fun _ _ h => h⟩, fun g hg _ => Or.inl hg⟩
    rw [if_neg h1]
    by_cases h2 : ¬ diff f.sbn s.sbn ≤ 0
    · rw [if_pos h2]
      exact ⟨⟨rfl, rfl, rfl, id, fun _ _ h => h⟩, fun g hg _ => Or.inl hg⟩
    rw [if_neg h2]
    simp only [not_not] at h2
    refine (takeSource_hom h e (hq f List.mem_cons_self)).bind (fun t ht => ?_)
    obtain ⟨t1, t2, t3, t4⟩ := ht
    refine (ih t t1 (fun g hg => hq g (List.mem_cons_of_mem _ hg))).mono (fun u hu => ⟨t2.trans hu.1, ?_⟩)
    intro g hg hd
    rcases List.mem_cons.mp hg with hg | hg
    · rw [hg] at hd ⊢
      obtain ⟨p, hp⟩ := t4 hd
      exact Or.inr ⟨by omega, p, hu.1.keep _ _ hp⟩
    · have := hu.2 g hg (by rw [t2.sbn]; exact hd)
      rw [t2.sbn] at this
      exact this

theorem fillRepair_2 {k r n : Nat} (e : Env) (q : List Fec) : ∀ (s : St), Hom2 k r n s → (∀ f ∈ q, Reg2 k r n f) →
    Sat (fun _ => True) (fun t => Hom2 k r n t ∧ Ext s t ∧ Grow k s t ∧ t.srcQ = s.srcQ ∧
      (t.alive = true → ∀ f ∈ q, 0 ≤ diff f.sbn s.sbn → f ∈ t.repQ ∨ (diff f.sbn s.sbn = 0 ∧ Has k t f.esi)) ∧
      (t.alive = true → Sorted s.sbn q → ∀ f ∈ q, diff f.sbn s.sbn = 0 → Has k t f.esi)) (fillRepair e q s) := by
  induction q with
  | nil =>
    intro s h hq
    exact ⟨⟨⟨h.hom.srcQ, (fun f hf => by cases hf), h.hom.len, h.hom.pay, h.hom.sbn⟩, (fun f hf => by cases hf), h.res, h.res0⟩, ⟨rfl, rfl, rfl, id, fun _ _ h => h⟩,
      Grow.same rfl rfl rfl, rfl, fun _ f hf => (by cases hf), fun _ _ f hf => by cases hf⟩
  | cons f q ih =>
    intro s h hq
    have hq1 : ∀ g ∈ f :: q, RegRep k n g := fun g hg => (hq g hg).1
    simp only [fillRepair]
    by_cases h1 : (!validSbn e s f) = true
    · rw [if_pos h1]
      exact ⟨⟨⟨h.hom.srcQ, hq1, h.hom.len, h.hom.pay, h.hom.sbn⟩, hq, h.res, h.res0⟩, ⟨rfl, rfl, rfl, (fun c => by cases c), fun _ _ h => h⟩,
        Grow.same rfl rfl rfl, rfl, fun _ g hg _ => Or.inl hg, fun c => by cases c⟩
    rw [if_neg h1]
    by_cases h2 : ¬ diff f.sbn s.sbn ≤ 0
    · rw [if_pos h2]
      refine ⟨⟨⟨h.hom.srcQ, hq1, h.hom.len, h.hom.pay, h.hom.sbn⟩, hq, h.res, h.res0⟩, ⟨rfl, rfl, rfl, id, fun _ _ h => h⟩,
        Grow.same rfl rfl rfl, rfl, fun _ g hg _ => Or.inl hg, fun _ hs g hg h0 => ?_⟩
      rcases List.mem_cons.mp hg with hg | hg
      · rw [hg] at h0; omega
      · have := (List.pairwise_cons.mp hs).1 g hg
        omega
    rw [if_neg h2]
    simp only [not_not] at h2
    refine (takeRepair_2 h e (hq f List.mem_cons_self)).bind (fun t ht => ?_)
    obtain ⟨t1, t2, t3, t4, t5, t6⟩ := ht
    refine (ih t t1 (fun g hg => hq g (List.mem_cons_of_mem _ hg))).mono (fun u hu => ?_)
    obtain ⟨u1, u2, u3, u4, u5, u6⟩ := hu
    refine ⟨u1, t2.trans u2, t3.trans u3, u4.trans t4, ?_, ?_⟩
    · intro ha g hg hd
      rcases List.mem_cons.mp hg with hg | hg
      · rw [hg] at hd ⊢
        exact Or.inr ⟨by omega, u3.has _ (t6 (u2.alive ha) hd)⟩
      · have := u5 ha g hg (by rw [t2.sbn]; exact hd)
        rw [t2.sbn] at this
        exact this
    · intro ha hs g hg hd
      rcases List.mem_cons.mp hg with hg | hg
      · rw [hg] at hd ⊢
        exact u3.has _ (t6 (u2.alive ha) (by omega))
      · exact u6 ha (by rw [t2.sbn]; exact (List.pairwise_cons.mp hs).2) g hg (by rw [t2.sbn]; exact hd)

theorem has_src {k : Nat} {s : St} {i : Nat} (hk : i < k) : Has k s i ↔ ∃ p, s.src[i]? = some (some p) := by
  unfold Has; rw [if_pos hk]

theorem fill_2 {k r n : Nat} {s : St} (h : Hom2 k r n s) (e : Env) :
    Sat (fun _ => True) (fun t => Hom2 k r n t ∧ Ext s t ∧ Grow k s t ∧ (t.alive = true → ∀ b i, Sym k s b i → Sym k t b i) ∧
      (t.alive = true → Sorted s.sbn s.srcQ → Sorted s.sbn s.repQ → ∀ i, Sym k s s.blk i → Has k t i)) (fill e s) := by
  unfold fill
  refine (((fillSource_2 e s.srcQ s h h.hom.srcQ).and (fillSource_place e s.srcQ s h.hom h.hom.srcQ)).and (fillSource_hom e s.srcQ s h.hom h.hom.srcQ)).bind (fun t ht => ?_)
  obtain ⟨⟨⟨t1, t2, t3⟩, t4, t5⟩, _, _, _, _, t6⟩ := ht
  refine (fillRepair_2 e t.repQ t t1 t1.repQ).mono (fun u hu => ?_)
  obtain ⟨u1, u2, u3, u4, u5, u6⟩ := hu
  have hesi : ∀ f ∈ s.srcQ, f.esi < k := fun f hf => by
    have := h.hom.srcQ f hf
    rw [← this.2.1]; exact (validSource_elim this.1).1
  refine ⟨u1, t4.trans u2, t2.trans u3, ?_, ?_⟩
  · intro ha b i hi
    unfold Sym
    rw [u2.blk, u2.sbn, t4.blk, t4.sbn]
    rcases hi with ⟨i1, i2⟩ | ⟨f, i1, i2, i3, i4⟩
    · exact Or.inl ⟨i1, u3.has _ (t2.has _ i2)⟩
    · rcases i1 with i1 | i1
      · rcases t5 f i1 i2 with j | ⟨j1, p, j2⟩
        · exact Or.inr ⟨f, Or.inl (by rw [u4]; exact j), i2, i3, i4⟩
        · left
          rw [j1] at i3
          exact ⟨i3, u3.has _ ((has_src (by rw [← i4]; exact hesi f i1)).mpr ⟨p, by rw [← i4]; exact j2⟩)⟩
      · rcases u5 ha f (by rw [t3]; exact i1) (by rw [t4.sbn]; exact i2) with j | ⟨j1, j2⟩
        · exact Or.inr ⟨f, Or.inr j, i2, i3, i4⟩
        · rw [t4.sbn] at j1
          left
          rw [j1] at i3
          exact ⟨i3, by rw [← i4]; exact j2⟩
  · intro ha hs1 hs2 i hi
    rcases hi with ⟨_, i2⟩ | ⟨f, i1, i2, i3, i4⟩
    · exact u3.has _ (t2.has _ i2)
    · have hd : diff f.sbn s.sbn = 0 := by omega
      rcases i1 with i1 | i1
      · obtain ⟨p, hp⟩ := (t6 (u2.alive ha) hs1).2 f i1 hd
        exact u3.has _ ((has_src (by rw [← i4]; exact hesi f i1)).mpr ⟨p, by rw [← i4]; exact hp⟩)
      · rw [← i4]
        exact u6 ha (by rw [t3, t4.sbn]; exact hs2) f (by rw [t3]; exact i1) (by rw [t4.sbn]; exact hd)

theorem nextBlock_2 {k r n : Nat} {s : St} (h : Hom2 k r n s) (hk : 0 < k) (e : Env) :
    Sat (fun _ => True) (fun t => Hom2 k r n t ∧ Att k t ∧ t.blk = s.blk + 1 ∧ t.nxt = 0 ∧ (t.alive = true → s.alive = true) ∧
      (t.alive = true → ∀ b i, Sym k s b i → s.blk < b → Sym k t b i)) (nextBlock e s) := by
  unfold nextBlock
  have hsb : (s.sbn + 1) % 65536 = (s.blk + 1) % 65536 := by rw [h.hom.sbn]; omega
  obtain ⟨w, hw⟩ : ∃ w : St, w = { s with src := s.src.map (fun _ => none), rep := s.rep.map (fun _ => none), sbn := (s.sbn + 1) % 65536, blk := s.blk + 1, nxt := 0, srcRes := false, repRes := false, payRes := false, canRepair := false } := ⟨_, rfl⟩
  rw [← hw]
  have hz : ∀ x ∈ w.rep, x = none := by
    intro x hx
    rw [hw] at hx
    have hx : x ∈ s.rep.map (fun _ => none) := hx
    obtain ⟨_, _, hx⟩ := List.mem_map.mp hx
    exact hx.symm
  have hz2 : ∀ i, ¬ Has k w i := by
    intro i hi
    by_cases hk : i < k
    · obtain ⟨p, hp⟩ := (has_src hk).mp hi
      rw [hw] at hp
      have hp : (s.src.map (fun _ => (none : Option Pkt)))[i]? = some (some p) := hp
      obtain ⟨_, _, hx⟩ := List.mem_map.mp (List.mem_of_getElem? hp)
      cases hx
    · exact no_rep hz hk hi
  have hh : Hom2 k r n w := by
    refine ⟨?_, by rw [hw]; exact h.repQ, ?_, fun _ => hz⟩
    · rw [hw]
      exact ⟨h.hom.srcQ, h.hom.repQ, (by show (s.src.map _).length = k; rw [List.length_map]; exact h.hom.len), (fun c => by cases c), hsb⟩
    · intro c
      rw [hw] at c
      cases c
  refine (fill_2 hh e).mono (fun t ht => ?_)
  obtain ⟨t1, t2, t3, t4, _⟩ := ht
  refine ⟨t1, t3.att ?_, ?_, ?_, ?_, ?_⟩
  · refine Or.inr (Or.inr fun l _ hl => ?_)
    cases l with
    | nil => exact hk
    | cons i l => exact absurd (hl i List.mem_cons_self) (hz2 i)
  · rw [t2.blk, hw]
  · rw [t2.nxt, hw]
  · intro ha
    have := t2.alive ha
    rw [hw] at this
    exact this
  · intro ha b i hi hlt
    refine t4 ha b i (Or.inr ?_)
    rcases hi with ⟨i1, _⟩ | ⟨f, i1, i2, i3, i4⟩
    · omega
    · have hd : 0 < diff f.sbn s.sbn := by omega
      have e1 : diff f.sbn ((s.sbn + 1) % 65536) = diff f.sbn s.sbn - 1 := diff_succ hd
      refine ⟨f, by rw [hw]; exact i1, ?_, ?_, i4⟩
      · rw [hw]
        show 0 ≤ diff f.sbn ((s.sbn + 1) % 65536)
        omega
      · rw [hw]
        show b = s.blk + 1 + (diff f.sbn ((s.sbn + 1) % 65536)).toNat
        omega

end Verif.FecReader
