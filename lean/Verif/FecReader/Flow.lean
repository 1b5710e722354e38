import Verif.FecReader.RecoverRun

/-!
# FEC reader: calls that do not stop the reader
-/

namespace Verif.FecReader

/-- Enough memory, and the decoder supports blocks of this size. -/
structure Fine (k r : Nat) (e : Env) : Prop where
  alloc : ∀ m, e.alloc m = true
  len : k + r ≤ e.maxLen

/-- Blocks of the packets are close enough to block `b`. -/
def Vis (e : Env) (b : Nat) (q : List Fec) : Prop := ∀ f ∈ q, (diff f.sbn b).natAbs ≤ e.maxJump ∧ diff f.sbn b ≠ -32768

theorem takeSource_live {k n : Nat} {s : St} (h : Hom k n s) (e : Env) {f : Fec} (hf : Reg k n f) :
    Sat (fun _ => True) (fun t => t.alive = s.alive) (takeSource e s f) := by
  unfold takeSource
  split_ifs
  · exact rfl
  · trivial
  · rw [procSource_hom h e hf]; rfl
  · rw [procSource_hom h e hf]
    unfold placeSource
    split_ifs <;> first | trivial | exact rfl

theorem takeRepair_live {k r n : Nat} {s : St} (h : Hom2 k r n s) {e : Env} (he : Fine k r e) {f : Fec} (hf : Reg2 k r n f) :
    Sat (fun _ => True) (fun t => t.alive = s.alive) (takeRepair e s f) := by
  unfold takeRepair
  by_cases h1 : diff f.sbn s.sbn < 0
  · rw [if_pos h1]; exact rfl
  rw [if_neg h1]
  by_cases h2 : f.sbn ≠ s.sbn
  · rw [if_pos h2]; trivial
  rw [if_neg h2]
  have hp : Sat (fun _ => True) (fun u => u.2.alive = s.alive) (procRepair e s f) := by
    obtain ⟨⟨f2, f3, _⟩, f4, f5⟩ := hf
    unfold procRepair
    rw [f4, f2, f3, f5, canPay_hom h.hom, canSrc_hom h.hom, updSrc_hom h.hom]
    have hlen := he.len
    unfold canRep updRep
    split_ifs
    all_goals first
      | trivial
      | exact rfl
      | (rename_i hc; rw [he.alloc] at hc; cases hc)
      | omega
  refine hp.bind (fun u hu => ?_)
  split_ifs
  · exact hu
  · unfold placeRepair
    split_ifs <;> first | trivial | exact hu

theorem vis_valid {e : Env} {s : St} {f : Fec} (h : (diff f.sbn s.sbn).natAbs ≤ e.maxJump ∧ diff f.sbn s.sbn ≠ -32768) : ¬ (!validSbn e s f) = true := by
  unfold validSbn
  simp [h.1, h.2]

theorem fillSource_live {k n : Nat} (e : Env) (q : List Fec) : ∀ (s : St), Hom k n s → (∀ f ∈ q, Reg k n f) → Vis e s.sbn q → s.alive = true →
    Sat (fun _ => True) (fun t => t.alive = true) (fillSource e q s) := by
  induction q with
  | nil => intro s _ _ _ ha; exact ha
  | cons f q ih =>
    intro s h hq hv ha
    simp only [fillSource]
    rw [if_neg (vis_valid (hv f List.mem_cons_self))]
    split_ifs
    · refine ((takeSource_live h e (hq f List.mem_cons_self)).and (takeSource_hom h e (hq f List.mem_cons_self))).bind (fun t ht => ?_)
      obtain ⟨t1, t2, t3, _⟩ := ht
      exact ih t t2 (fun g hg => hq g (List.mem_cons_of_mem _ hg)) (fun g hg => by rw [t3.sbn]; exact hv g (List.mem_cons_of_mem _ hg)) (t1.trans ha)
    · exact ha

theorem fillRepair_live {k r n : Nat} {e : Env} (he : Fine k r e) (q : List Fec) : ∀ (s : St), Hom2 k r n s → (∀ f ∈ q, Reg2 k r n f) → Vis e s.sbn q → s.alive = true →
    Sat (fun _ => True) (fun t => t.alive = true ∧ t.repQ <:+ q ∧ (Sorted s.sbn q → ∀ f ∈ t.repQ, 0 < diff f.sbn s.sbn)) (fillRepair e q s) := by
  induction q with
  | nil => intro s _ _ _ ha; exact ⟨ha, List.suffix_refl _, fun _ f hf => by cases hf⟩
  | cons f q ih =>
    intro s h hq hv ha
    simp only [fillRepair]
    rw [if_neg (vis_valid (hv f List.mem_cons_self))]
    by_cases h2 : ¬ diff f.sbn s.sbn ≤ 0
    · rw [if_pos h2]
      refine ⟨ha, List.suffix_refl _, fun hs g hg => ?_⟩
      rcases List.mem_cons.mp hg with hg | hg
      · rw [hg]; omega
      · have := (List.pairwise_cons.mp hs).1 g hg
        omega
    · rw [if_neg h2]
      refine ((takeRepair_live h he (hq f List.mem_cons_self)).and (takeRepair_2 h e (hq f List.mem_cons_self))).bind (fun t ht => ?_)
      obtain ⟨t1, t2, t3, _⟩ := ht
      refine (ih t t2 (fun g hg => hq g (List.mem_cons_of_mem _ hg)) (fun g hg => by rw [t3.sbn]; exact hv g (List.mem_cons_of_mem _ hg)) (t1.trans ha)).mono (fun u hu => ?_)
      refine ⟨hu.1, hu.2.1.trans (List.suffix_cons _ _), fun hs => ?_⟩
      rw [← t3.sbn]
      exact hu.2.2 (by rw [t3.sbn]; exact (List.pairwise_cons.mp hs).2)

/-- Both queues are sorted and near. -/
structure Calm (e : Env) (s : St) : Prop where
  v1 : Vis e s.sbn s.srcQ
  v2 : Vis e s.sbn s.repQ
  s1 : Sorted s.sbn s.srcQ
  s2 : Sorted s.sbn s.repQ

/-- Queues only lose packets at the front. -/
def Less (s t : St) : Prop := t.alive = true ∧ t.srcQ <:+ s.srcQ ∧ t.repQ <:+ s.repQ

/-- All packets in the queues are of later blocks. -/
def Late (t : St) : Prop := (∀ f ∈ t.srcQ, 0 < diff f.sbn t.sbn) ∧ (∀ f ∈ t.repQ, 0 < diff f.sbn t.sbn)

theorem Less.trans {a b c : St} (h1 : Less a b) (h2 : Less b c) : Less a c := ⟨h2.1, h2.2.1.trans h1.2.1, h2.2.2.trans h1.2.2⟩

theorem fill_live {k r n : Nat} {e : Env} (he : Fine k r e) {s : St} (h : Hom2 k r n s) (hc : Calm e s) (ha : s.alive = true) :
    Sat (fun _ => True) (fun t => Less s t ∧ (∀ f ∈ t.srcQ, 0 < diff f.sbn s.sbn) ∧ (∀ f ∈ t.repQ, 0 < diff f.sbn s.sbn)) (fill e s) := by
  unfold fill
  refine (((fillSource_2 e s.srcQ s h h.hom.srcQ).and (fillSource_live e s.srcQ s h.hom h.hom.srcQ hc.v1 ha)).and (fillSource_hom e s.srcQ s h.hom h.hom.srcQ)).bind (fun t ht => ?_)
  obtain ⟨⟨⟨t1, _, t3⟩, t4⟩, _, t5, t6, _, t7⟩ := ht
  refine ((fillRepair_live he t.repQ t t1 t1.repQ (by rw [t3, t5.sbn]; exact hc.v2) t4).and (fillRepair_2 e t.repQ t t1 t1.repQ)).mono (fun u hu => ?_)
  obtain ⟨⟨u1, u2, u3⟩, _, _, _, u4, _⟩ := hu
  refine ⟨⟨u1, by rw [u4]; exact t6, by rw [t3] at u2; exact u2⟩, ?_, ?_⟩
  · rw [u4]; exact (t7 t4 hc.s1).1
  · rw [t5.sbn, t3] at u3
    exact u3 hc.s2

theorem nextBlock_live {k r n : Nat} {e : Env} (he : Fine k r e) {s : St} (h : Hom2 k r n s) (hc : Calm e s) (ha : s.alive = true)
    (h1 : ∀ f ∈ s.srcQ, 0 < diff f.sbn s.sbn) (h2 : ∀ f ∈ s.repQ, 0 < diff f.sbn s.sbn) :
    Sat (fun _ => True) (fun t => Less s t ∧ Late t) (nextBlock e s) := by
  unfold nextBlock
  have hsb : (s.sbn + 1) % 65536 = (s.blk + 1) % 65536 := by rw [h.hom.sbn]; omega
  obtain ⟨w, hw⟩ : ∃ w : St, w = { s with src := s.src.map (fun _ => none), rep := s.rep.map (fun _ => none), sbn := (s.sbn + 1) % 65536, blk := s.blk + 1, nxt := 0, srcRes := false, repRes := false, payRes := false, canRepair := false } := ⟨_, rfl⟩
  rw [← hw]
  have w1 : w.srcQ = s.srcQ := by rw [hw]
  have w2 : w.repQ = s.repQ := by rw [hw]
  have w3 : w.sbn = (s.sbn + 1) % 65536 := by rw [hw]
  have w4 : w.alive = s.alive := by rw [hw]
  have hz : ∀ x ∈ w.rep, x = none := by
    intro x hx
    rw [hw] at hx
    have hx : x ∈ s.rep.map (fun _ => none) := hx
    obtain ⟨_, _, hx⟩ := List.mem_map.mp hx
    exact hx.symm
  have hh : Hom2 k r n w := by
    refine ⟨?_, by rw [hw]; exact h.repQ, ?_, fun _ => hz⟩
    · rw [hw]
      exact ⟨h.hom.srcQ, h.hom.repQ, (by show (s.src.map _).length = k; rw [List.length_map]; exact h.hom.len), (fun c => by cases c), hsb⟩
    · intro c
      rw [hw] at c
      cases c
  have vis : ∀ q, Vis e s.sbn q → (∀ f ∈ q, 0 < diff f.sbn s.sbn) → Vis e w.sbn q := by
    intro q hq hp f hf
    have hd := diff_succ (hp f hf)
    obtain ⟨q1, q2⟩ := hq f hf
    have := hp f hf
    rw [w3, hd]
    constructor <;> omega
  have srt : ∀ q, Sorted s.sbn q → (∀ f ∈ q, 0 < diff f.sbn s.sbn) → Sorted w.sbn q := by
    intro q hq hp
    refine List.Pairwise.imp_of_mem ?_ hq
    intro a b ha hb hab
    rw [w3, diff_succ (hp a ha), diff_succ (hp b hb)]
    omega
  have hcw : Calm e w := ⟨by rw [w1]; exact vis _ hc.v1 h1, by rw [w2]; exact vis _ hc.v2 h2, by rw [w1]; exact srt _ hc.s1 h1, by rw [w2]; exact srt _ hc.s2 h2⟩
  refine ((fill_live he hh hcw (w4.trans ha)).and (fill_2 hh e)).mono (fun t ht => ?_)
  obtain ⟨⟨⟨a1, a2, a3⟩, a4, a5⟩, _, b2, _⟩ := ht
  rw [← b2.sbn] at a4 a5
  exact ⟨⟨a1, by rw [w1] at a2; exact a2, by rw [w2] at a3; exact a3⟩, a4, a5⟩

theorem advance_live {k r n : Nat} {e : Env} (he : Fine k r e) {s : St} (h : Hom2 k r n s) (hc : Calm e s) (ha : s.alive = true)
    (h1 : ∀ f ∈ s.srcQ, 0 < diff f.sbn s.sbn) (h2 : ∀ f ∈ s.repQ, 0 < diff f.sbn s.sbn) (pos : Nat) (p : Pkt) :
    Sat (fun _ => True) (fun u => Less s u.1 ∧ Late u.1) (advance e s pos p) := by
  unfold advance
  split_ifs
  · rw [nextBlock_nxt]
    exact (nextBlock_live he h hc ha h1 h2).bind (fun t ht => ht)
  · exact ⟨⟨ha, List.suffix_refl _, List.suffix_refl _⟩, h1, h2⟩

theorem tryRepair_live {e : Env} {s : St} {g : Nat → Option Nat} (hd : e.dec s.blk = some g) :
    Sat (fun _ => True) (fun t => t.alive = s.alive ∧ t.srcQ = s.srcQ ∧ t.repQ = s.repQ ∧ t.sbn = s.sbn) (tryRepair e s) := by
  unfold tryRepair
  rw [hd]
  split_ifs
  · exact ⟨rfl, rfl, rfl, rfl⟩
  · exact ⟨rfl, rfl, rfl, rfl⟩
  · show Sat _ _ (repairBlock e s g)
    unfold repairBlock
    split_ifs <;> first | trivial | exact ⟨rfl, rfl, rfl, rfl⟩

/-- The call does not stop the reader, if the packet that is due is there, or can be restored. -/
theorem getNext_live {k r n maxLen : Nat} {s : St} (h : Hom2 k r n s) (hi : Inv (anyCtx maxLen) s) (hst : s.started = true) {e : Env} (he : Fine k r e)
    (hc : Calm e s) (ha : s.alive = true) (hx : Sym k s s.blk s.nxt ∨ (Att k s ∧ (∃ l : List Nat, l.Nodup ∧ k ≤ l.length ∧ ∀ i ∈ l, Sym k s s.blk i) ∧
      ∃ g, e.dec s.blk = some g ∧ ∀ i, (g i).isSome = true)) :
    Sat (fun _ => True) (fun u => Less s u.1 ∧ Late u.1) (getNext e s) := by
  unfold getNext
  refine (((fill_2 h e).and (inv_fill hi hst)).and (fill_live he h hc ha)).bind (fun t ht => ?_)
  obtain ⟨⟨⟨t1, t2, t3, t4, t5⟩, i1, i2, _⟩, hl, r1, r2⟩ := ht
  have hal : t.alive = true := hl.1
  rw [← t2.sbn] at r1 r2
  have hct : Calm e t := ⟨fun f hf => by rw [t2.sbn]; exact hc.v1 f (hl.2.1.subset hf), fun f hf => by rw [t2.sbn]; exact hc.v2 f (hl.2.2.subset hf),
    by rw [t2.sbn]; exact List.Pairwise.sublist hl.2.1.sublist hc.s1, by rw [t2.sbn]; exact List.Pairwise.sublist hl.2.2.sublist hc.s2⟩
  have hlt : t.nxt < k := by
    have := i1.lt (i2.started.trans hst)
    rw [t1.hom.len] at this; exact this
  cases hp : t.src[t.nxt]? with
  | none => trivial
  | some o =>
    cases o with
    | some p =>
      show Sat _ _ (if (!t.alive) = true then _ else _)
      rw [if_neg (by rw [hal]; decide)]
      exact (advance_live he t1 hct hal r1 r2 _ _).mono (fun u hu => ⟨hl.trans hu.1, hu.2⟩)
    | none =>
      rcases hx with hx | ⟨x1, ⟨l, l1, l2, l3⟩, g, g1, g2⟩
      · have := t5 hal hc.s1 hc.s2 _ hx
        rw [← t2.nxt] at this
        obtain ⟨p, hp2⟩ := (has_src hlt).mp this
        rw [hp] at hp2; cases hp2
      · show Sat _ _ (search e (fuelOf e t) t)
        unfold fuelOf
        simp only [search]
        rw [if_neg (by rw [hal]; decide)]
        have hd : e.dec t.blk = some g := by rw [t2.blk]; exact g1
        refine (((tryRepair_2 t1 e).and (tryRepair_full t1 i1 e (t3.att x1) l1 l2 (fun i hm => t5 hal hc.s1 hc.s2 i (l3 i hm)) hd g2)).and (tryRepair_live hd)).bind (fun w hw => ?_)
        obtain ⟨⟨⟨w1, w2, _, _, _, _⟩, w6⟩, w7, w8, w9, w10⟩ := hw
        obtain ⟨p, hp⟩ := (has_src hlt).mp (w6 t.nxt hlt)
        have hf : findPos (w.src.drop w.nxt) w.nxt = some (w.nxt, p) := findPos_head (by rw [List.getElem?_drop, w2.nxt]; exact hp)
        simp only [hf]
        have hcw : Calm e w := ⟨by rw [w10, w8]; exact hct.v1, by rw [w10, w9]; exact hct.v2, by rw [w10, w8]; exact hct.s1, by rw [w10, w9]; exact hct.s2⟩
        refine (advance_live he w1 hcw (w7.trans hal) (by rw [w8, w10]; exact r1) (by rw [w9, w10]; exact r2) _ _).mono (fun u hu => ⟨hl.trans ?_, hu.2⟩)
        exact ⟨hu.1.1, by rw [← w8]; exact hu.1.2.1, by rw [← w9]; exact hu.1.2.2⟩

end Verif.FecReader
