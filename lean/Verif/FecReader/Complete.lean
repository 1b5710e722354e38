import Verif.FecReader.Start

/-!
# FEC reader: packets which arrive in time are not skipped
-/

namespace Verif.FecReader

/-- State when the stream is uniform and decoding is started. -/
structure Hom (k n : Nat) (s : St) : Prop where
  srcQ : ∀ f ∈ s.srcQ, Reg k n f
  repQ : ∀ f ∈ s.repQ, RegRep k n f
  len : s.src.length = k
  pay : s.payRes = true → s.pay = n
  sbn : s.sbn = s.blk % 65536

/-- Filling keeps the position and packets. -/
structure Ext (s t : St) : Prop where
  nxt : t.nxt = s.nxt
  sbn : t.sbn = s.sbn
  blk : t.blk = s.blk
  alive : t.alive = true → s.alive = true
  keep : ∀ (i : Nat) (p : Pkt), s.src[i]? = some (some p) → t.src[i]? = some (some p)

theorem Ext.refl (s : St) : Ext s s := ⟨rfl, rfl, rfl, id, fun _ _ h => h⟩

theorem Ext.trans {a b c : St} (h1 : Ext a b) (h2 : Ext b c) : Ext a c :=
  ⟨h2.nxt.trans h1.nxt, h2.sbn.trans h1.sbn, h2.blk.trans h1.blk, fun h => h1.alive (h2.alive h), fun i p h => h2.keep i p (h1.keep i p h)⟩

theorem canPay_hom {k n : Nat} {s : St} (h : Hom k n s) : canPay s n = true := by
  unfold canPay
  cases hp : s.payRes with
  | false => simp
  | true => simp [h.pay hp]

theorem canSrc_hom {k n : Nat} {s : St} (h : Hom k n s) (e : Env) : canSrc e s k = (true, s) := by
  unfold canSrc
  rw [if_pos h.len]

theorem updSrc_hom {k n : Nat} {s : St} (h : Hom k n s) (e : Env) : updSrc e (updPay s n) k = (true, { s with pay := n, payRes := true, srcRes := true }) := by
  unfold updSrc
  rw [if_pos (show (updPay s n).src.length = k from h.len)]
  rfl

theorem hom_upd {k n : Nat} {s : St} (h : Hom k n s) : Hom k n { s with pay := n, payRes := true, srcRes := true } ∧ Ext s { s with pay := n, payRes := true, srcRes := true } :=
  ⟨⟨h.srcQ, h.repQ, h.len, fun _ => rfl, h.sbn⟩, ⟨rfl, rfl, rfl, id, fun _ _ h => h⟩⟩

theorem procSource_hom {k n : Nat} {s : St} (h : Hom k n s) (e : Env) {f : Fec} (hf : Reg k n f) :
    procSource e s f = (true, { s with pay := n, payRes := true, srcRes := true }) := by
  obtain ⟨f1, f2, f3, _⟩ := hf
  unfold procSource
  rw [f1, f2, f3, canPay_hom h, canSrc_hom h, updSrc_hom h]
  rfl

theorem procRepair_hom {k n : Nat} {s : St} (h : Hom k n s) (e : Env) {f : Fec} (hf : RegRep k n f) :
    Sat (fun _ => True) (fun r => Hom k n r.2 ∧ Ext s r.2 ∧ r.2.srcQ = s.srcQ) (procRepair e s f) := by
  obtain ⟨f2, f3, _⟩ := hf
  unfold procRepair
  rw [f2, f3, canPay_hom h, canSrc_hom h, updSrc_hom h]
  have hd : Hom k n { s with alive := false } ∧ Ext s { s with alive := false } ∧ True := ⟨⟨h.srcQ, h.repQ, h.len, h.pay, h.sbn⟩, ⟨rfl, rfl, rfl, (fun c => by cases c), fun _ _ h => h⟩, trivial⟩
  obtain ⟨u1, u2⟩ := hom_upd h
  split_ifs with h1 h2 h3
  · exact ⟨h, Ext.refl s, rfl⟩
  · exact ⟨h, Ext.refl s, rfl⟩
  · show Hom k n (canRep e s f.blen).2 ∧ Ext s (canRep e s f.blen).2 ∧ (canRep e s f.blen).2.srcQ = s.srcQ
    unfold canRep
    split_ifs
    · exact ⟨h, Ext.refl s, rfl⟩
    · exact ⟨h, Ext.refl s, rfl⟩
    · exact ⟨hd.1, hd.2.1, rfl⟩
    · exact ⟨h, Ext.refl s, rfl⟩
  · unfold updRep
    split_ifs
    · exact ⟨⟨h.srcQ, h.repQ, h.len, fun _ => rfl, h.sbn⟩, ⟨rfl, rfl, rfl, id, fun _ _ h => h⟩, rfl⟩
    · exact ⟨⟨h.srcQ, h.repQ, h.len, fun _ => rfl, h.sbn⟩, ⟨rfl, rfl, rfl, (fun c => by cases c), fun _ _ h => h⟩, rfl⟩
    · exact ⟨⟨h.srcQ, h.repQ, h.len, fun _ => rfl, h.sbn⟩, ⟨rfl, rfl, rfl, id, fun _ _ h => h⟩, rfl⟩
    · trivial

theorem placeSource_hom {k n : Nat} {s : St} (h : Hom k n s) (f : Fec) :
    Sat (fun _ => True) (fun t => Hom k n t ∧ Ext s t ∧ t.srcQ = s.srcQ ∧ ∃ p, t.src[f.esi]? = some (some p)) (placeSource s f) := by
  unfold placeSource
  by_cases h1 : ¬ (f.sblen = s.src.length ∧ f.esi < s.src.length)
  · rw [if_pos h1]; trivial
  rw [if_neg h1]
  simp only [not_not] at h1
  by_cases h2 : s.src[f.esi]? = some none
  · rw [if_pos h2]
    refine ⟨⟨h.srcQ, h.repQ, (by show (s.src.set f.esi _).length = k; rw [List.length_set]; exact h.len), h.pay, h.sbn⟩, ⟨rfl, rfl, rfl, id, ?_⟩, rfl, .recv f, ?_⟩
    · intro i p hp
      show (s.src.set f.esi (some (.recv f)))[i]? = _
      rw [List.getElem?_set_ne]
      · exact hp
      · intro he
        rw [he, hp] at h2
        cases h2
    · show (s.src.set f.esi (some (.recv f)))[f.esi]? = _
      rw [List.getElem?_set_self h1.2]
  · rw [if_neg h2]
    refine ⟨h, Ext.refl s, rfl, ?_⟩
    rw [List.getElem?_eq_getElem h1.2] at h2 ⊢
    cases ho : s.src[f.esi] with
    | none => rw [ho] at h2; exact absurd rfl h2
    | some p => exact ⟨p, rfl⟩

theorem placeRepair_hom {k n : Nat} {s : St} (h : Hom k n s) (f : Fec) :
    Sat (fun _ => True) (fun t => Hom k n t ∧ Ext s t ∧ t.srcQ = s.srcQ) (placeRepair s f) := by
  unfold placeRepair
  split_ifs
  · exact ⟨⟨h.srcQ, h.repQ, h.len, h.pay, h.sbn⟩, ⟨rfl, rfl, rfl, id, fun _ _ h => h⟩, rfl⟩
  · exact ⟨h, Ext.refl s, rfl⟩
  · trivial

theorem takeSource_hom {k n : Nat} {s : St} (h : Hom k n s) (e : Env) {f : Fec} (hf : Reg k n f) :
    Sat (fun _ => True) (fun t => Hom k n t ∧ Ext s t ∧ t.srcQ = s.srcQ ∧ (0 ≤ diff f.sbn s.sbn → ∃ p, t.src[f.esi]? = some (some p))) (takeSource e s f) := by
  unfold takeSource
  by_cases h1 : diff f.sbn s.sbn < 0
  · rw [if_pos h1]
    exact ⟨h, Ext.refl s, rfl, fun c => absurd h1 (by omega)⟩
  rw [if_neg h1]
  by_cases h2 : f.sbn ≠ s.sbn
  · rw [if_pos h2]; trivial
  rw [if_neg h2, procSource_hom h e hf]
  obtain ⟨u1, u2⟩ := hom_upd h
  show Sat _ _ (placeSource _ f)
  refine (placeSource_hom u1 f).mono (fun t ht => ?_)
  exact ⟨ht.1, u2.trans ht.2.1, ht.2.2.1, fun _ => ht.2.2.2⟩

theorem takeRepair_hom {k n : Nat} {s : St} (h : Hom k n s) (e : Env) {f : Fec} (hf : RegRep k n f) :
    Sat (fun _ => True) (fun t => Hom k n t ∧ Ext s t ∧ t.srcQ = s.srcQ) (takeRepair e s f) := by
  unfold takeRepair
  by_cases h1 : diff f.sbn s.sbn < 0
  · rw [if_pos h1]
    exact ⟨h, Ext.refl s, rfl⟩
  rw [if_neg h1]
  by_cases h2 : f.sbn ≠ s.sbn
  · rw [if_pos h2]; trivial
  rw [if_neg h2]
  refine (procRepair_hom h e hf).bind (fun r hr => ?_)
  split_ifs
  · exact hr
  · exact (placeRepair_hom hr.1 f).mono (fun t ht => ⟨ht.1, hr.2.1.trans ht.2.1, ht.2.2.trans hr.2.2⟩)

theorem fillSource_hom {k n : Nat} (e : Env) (q : List Fec) : ∀ (s : St), Hom k n s → (∀ f ∈ q, Reg k n f) →
    Sat (fun _ => True) (fun t => Hom k n t ∧ Ext s t ∧ t.srcQ <:+ q ∧ (∀ f ∈ q, 0 < diff f.sbn s.sbn → f ∈ t.srcQ) ∧
      (t.alive = true → Sorted s.sbn q → (∀ f ∈ t.srcQ, 0 < diff f.sbn s.sbn) ∧ ∀ f ∈ q, diff f.sbn s.sbn = 0 → ∃ p, t.src[f.esi]? = some (some p))) (fillSource e q s) := by
  induction q with
  | nil =>
    intro s h _
    exact ⟨⟨(fun f hf => by cases hf), h.repQ, h.len, h.pay, h.sbn⟩, ⟨rfl, rfl, rfl, id, fun _ _ h => h⟩, List.suffix_refl _, (fun f hf => by cases hf), fun _ _ => ⟨(fun f hf => by cases hf), fun f hf => by cases hf⟩⟩
  | cons f q ih =>
    intro s h hq
    simp only [fillSource]
    by_cases h1 : (!validSbn e s f) = true
    · rw [if_pos h1]
      exact ⟨⟨hq, h.repQ, h.len, h.pay, h.sbn⟩, ⟨rfl, rfl, rfl, (fun c => by cases c), fun _ _ h => h⟩, List.suffix_refl _, (fun g hg _ => hg), fun c => by cases c⟩
    rw [if_neg h1]
    by_cases h2 : ¬ diff f.sbn s.sbn ≤ 0
    · rw [if_pos h2]
      refine ⟨⟨hq, h.repQ, h.len, h.pay, h.sbn⟩, ⟨rfl, rfl, rfl, id, fun _ _ h => h⟩, List.suffix_refl _, (fun g hg _ => hg), fun _ hs => ?_⟩
      have hall : ∀ g ∈ f :: q, 0 < diff g.sbn s.sbn := by
        intro g hg
        rcases List.mem_cons.mp hg with hg | hg
        · rw [hg]; omega
        · have := (List.pairwise_cons.mp hs).1 g hg
          omega
      exact ⟨hall, fun g hg h0 => absurd (hall g hg) (by omega)⟩
    rw [if_neg h2]
    simp only [not_not] at h2
    refine (takeSource_hom h e (hq f List.mem_cons_self)).bind (fun t ht => ?_)
    obtain ⟨t1, t2, t3, t4⟩ := ht
    refine (ih t t1 (fun g hg => hq g (List.mem_cons_of_mem _ hg))).mono (fun u hu => ?_)
    obtain ⟨u1, u2, u3, u4, u5⟩ := hu
    refine ⟨u1, t2.trans u2, u3.trans (List.suffix_cons _ _), ?_, ?_⟩
    · intro g hg hd
      rcases List.mem_cons.mp hg with hg | hg
      · rw [hg] at hd; omega
      · exact u4 g hg (by rw [t2.sbn]; exact hd)
    · intro ha hs
      have hs' : Sorted t.sbn q := by rw [t2.sbn]; exact (List.pairwise_cons.mp hs).2
      obtain ⟨v1, v2⟩ := u5 ha hs'
      rw [t2.sbn] at v1 v2
      refine ⟨v1, fun g hg hd => ?_⟩
      rcases List.mem_cons.mp hg with hg | hg
      · rw [hg] at hd ⊢
        obtain ⟨p, hp⟩ := t4 (by omega)
        exact ⟨p, u2.keep _ _ hp⟩
      · exact v2 g hg hd

theorem fillRepair_hom {k n : Nat} (e : Env) (q : List Fec) : ∀ (s : St), Hom k n s → (∀ f ∈ q, RegRep k n f) →
    Sat (fun _ => True) (fun t => Hom k n t ∧ Ext s t ∧ t.srcQ = s.srcQ) (fillRepair e q s) := by
  induction q with
  | nil =>
    intro s h _
    exact ⟨⟨h.srcQ, (fun f hf => by cases hf), h.len, h.pay, h.sbn⟩, ⟨rfl, rfl, rfl, id, fun _ _ h => h⟩, rfl⟩
  | cons f q ih =>
    intro s h hq
    simp only [fillRepair]
    by_cases h1 : (!validSbn e s f) = true
    · rw [if_pos h1]
      exact ⟨⟨h.srcQ, hq, h.len, h.pay, h.sbn⟩, ⟨rfl, rfl, rfl, (fun c => by cases c), fun _ _ h => h⟩, rfl⟩
    rw [if_neg h1]
    by_cases h2 : ¬ diff f.sbn s.sbn ≤ 0
    · rw [if_pos h2]
      exact ⟨⟨h.srcQ, hq, h.len, h.pay, h.sbn⟩, ⟨rfl, rfl, rfl, id, fun _ _ h => h⟩, rfl⟩
    rw [if_neg h2]
    refine (takeRepair_hom h e (hq f List.mem_cons_self)).bind (fun t ht => ?_)
    obtain ⟨t1, t2, t3⟩ := ht
    exact (ih t t1 (fun g hg => hq g (List.mem_cons_of_mem _ hg))).mono (fun u hu => ⟨hu.1, t2.trans hu.2.1, hu.2.2.trans t3⟩)

/-- A packet waits in the current block or in the queue, at position `a` which is not passed yet. -/
def Pend (a : Nat × Nat) (s : St) : Prop :=
  (a.1 = s.blk ∧ s.nxt ≤ a.2 ∧ ∃ p, s.src[a.2]? = some (some p)) ∨
  ∃ f ∈ s.srcQ, 0 ≤ diff f.sbn s.sbn ∧ a = (s.blk + (diff f.sbn s.sbn).toNat, f.esi) ∧ NotAfter (s.blk, s.nxt) a

/-- All queued packets are of later blocks. -/
def Ready (s : St) : Prop := (∀ f ∈ s.srcQ, 0 < diff f.sbn s.sbn) ∧ Sorted s.sbn s.srcQ

theorem fill_hom {k n : Nat} {s : St} (h : Hom k n s) (e : Env) :
    Sat (fun _ => True) (fun t => Hom k n t ∧ Ext s t ∧ (t.alive = true → Sorted s.sbn s.srcQ → Ready t ∧ ∀ a, Pend a s → Pend a t)) (fill e s) := by
  unfold fill
  refine (fillSource_hom e s.srcQ s h h.srcQ).bind (fun t ht => ?_)
  obtain ⟨t1, t2, t3, t4, t5⟩ := ht
  refine (fillRepair_hom e t.repQ t t1 t1.repQ).mono (fun u hu => ?_)
  obtain ⟨u1, u2, u3⟩ := hu
  have hx := t2.trans u2
  refine ⟨u1, hx, fun ha hs => ?_⟩
  obtain ⟨v1, v2⟩ := t5 (u2.alive ha) hs
  refine ⟨⟨?_, ?_⟩, ?_⟩
  · intro f hf
    rw [u3] at hf
    rw [hx.sbn]
    exact v1 f hf
  · rw [hx.sbn, u3]
    exact List.Pairwise.sublist t3.sublist hs
  · intro a hp
    rcases hp with ⟨a1, a2, p, a3⟩ | ⟨f, f1, f2, f3, f4⟩
    · exact Or.inl ⟨a1.trans hx.blk.symm, by rw [hx.nxt]; exact a2, p, hx.keep _ _ a3⟩
    · rcases Int.lt_or_eq_of_le f2 with f2' | f2'
      · exact Or.inr ⟨f, by rw [u3]; exact t4 f f1 f2', by rw [hx.sbn]; exact f2, by rw [hx.sbn, hx.blk]; exact f3, by rw [hx.blk, hx.nxt]; exact f4⟩
      · obtain ⟨p, hp⟩ := v2 f f1 f2'.symm
        rw [← f2'] at f3
        left
        rw [f3] at f4 ⊢
        refine ⟨by show s.blk + 0 = u.blk; rw [hx.blk]; rfl, ?_, p, u2.keep _ _ hp⟩
        show u.nxt ≤ f.esi
        rw [hx.nxt]
        rcases f4 with f4 | f4
        · have f4 : s.blk < s.blk + 0 := f4
          omega
        · exact f4.2

theorem nextBlock_hom {k n : Nat} {s : St} (h : Hom k n s) (e : Env) :
    Sat (fun _ => True) (fun t => Hom k n t ∧ t.blk = s.blk + 1 ∧ t.nxt = 0 ∧ (t.alive = true → s.alive = true) ∧
      (t.alive = true → Ready s → Ready t ∧ ∀ a, Pend a s → s.blk < a.1 → Pend a t)) (nextBlock e s) := by
  unfold nextBlock
  have hsb : (s.sbn + 1) % 65536 = (s.blk + 1) % 65536 := by rw [h.sbn]; omega
  refine (fill_hom (k := k) (n := n) (s := { s with src := s.src.map (fun _ => none), rep := s.rep.map (fun _ => none), sbn := (s.sbn + 1) % 65536, blk := s.blk + 1, nxt := 0, srcRes := false, repRes := false, payRes := false, canRepair := false })
    ⟨h.srcQ, h.repQ, (by show (s.src.map _).length = k; rw [List.length_map]; exact h.len), (fun c => by cases c), hsb⟩ e).mono (fun t ht => ?_)
  obtain ⟨t1, t2, t3⟩ := ht
  refine ⟨t1, t2.blk, t2.nxt, t2.alive, fun ha hr => ?_⟩
  obtain ⟨r1, r2⟩ := hr
  have hs : Sorted ((s.sbn + 1) % 65536) s.srcQ := by
    unfold Sorted at *
    refine List.Pairwise.imp_of_mem ?_ r2
    intro f g hf hg hfg
    rw [diff_succ (r1 f hf), diff_succ (r1 g hg)]
    omega
  obtain ⟨v1, v2⟩ := t3 ha hs
  refine ⟨v1, fun a hp hlt => v2 a ?_⟩
  rcases hp with ⟨a1, _, _⟩ | ⟨f, f1, f2, f3, f4⟩
  · omega
  · right
    have hd := r1 f f1
    have e1 : diff f.sbn ((s.sbn + 1) % 65536) = diff f.sbn s.sbn - 1 := diff_succ hd
    refine ⟨f, f1, ?_, ?_, ?_⟩
    · show 0 ≤ diff f.sbn ((s.sbn + 1) % 65536)
      omega
    · show a = (s.blk + 1 + (diff f.sbn ((s.sbn + 1) % 65536)).toNat, f.esi)
      rw [e1, f3]
      congr 1
      omega
    · show NotAfter (s.blk + 1, 0) a
      unfold NotAfter
      show s.blk + 1 < a.1 ∨ (s.blk + 1 = a.1 ∧ 0 ≤ a.2)
      omega

theorem tryRepair_hom {k n : Nat} {s : St} (h : Hom k n s) (e : Env) :
    Sat (fun _ => True) (fun t => Hom k n t ∧ Ext s t ∧ t.srcQ = s.srcQ) (tryRepair e s) := by
  unfold tryRepair
  split_ifs
  · exact ⟨h, Ext.refl s, rfl⟩
  · exact ⟨h, Ext.refl s, rfl⟩
  cases hd : e.dec s.blk with
  | none => exact ⟨⟨h.srcQ, h.repQ, h.len, h.pay, h.sbn⟩, ⟨rfl, rfl, rfl, (fun c => by cases c), fun _ _ h => h⟩, rfl⟩
  | some g =>
    show Sat _ _ (repairBlock e s g)
    unfold repairBlock
    split_ifs
    · trivial
    · trivial
    · trivial
    · refine ⟨⟨h.srcQ, h.repQ, (by show (s.src.mapIdx _).length = k; rw [List.length_mapIdx]; exact h.len), h.pay, h.sbn⟩, ⟨rfl, rfl, rfl, id, ?_⟩, rfl⟩
      intro i p hp
      show (s.src.mapIdx (restore g s.blk))[i]? = _
      rw [List.getElem?_mapIdx, hp]
      rfl

theorem ext_ready {s t : St} (hx : Ext s t) (hq : t.srcQ = s.srcQ) (h : Ready s) : Ready t := by
  unfold Ready
  rw [hx.sbn, hq]
  exact h

theorem ext_pend {a : Nat × Nat} {s t : St} (hx : Ext s t) (hq : t.srcQ = s.srcQ) (h : Pend a s) : Pend a t := by
  unfold Pend
  rw [hx.sbn, hx.blk, hx.nxt, hq]
  rcases h with ⟨a1, a2, p, a3⟩ | h
  · exact Or.inl ⟨a1, a2, p, hx.keep _ _ a3⟩
  · exact Or.inr h

/-- The position after `x` in blocks of `k` packets. -/
def succ (k : Nat) (x : Nat × Nat) : Nat × Nat := if x.2 + 1 = k then (x.1 + 1, 0) else (x.1, x.2 + 1)

/-- Result of a call when the stream is uniform. -/
def Got (k n : Nat) (s : St) (r : St × Option (Option (Nat × Nat) × Pkt)) : Prop :=
  Hom k n r.1 ∧ (r.1.alive = true → s.alive = true) ∧
  (∀ y, r.2 = some y → ∃ x p, y = (some x, p) ∧ x.2 < k ∧ NotAfter (s.blk, s.nxt) x ∧ (r.1.blk, r.1.nxt) = succ k x) ∧
  (r.1.alive = true → Ready s → (r.2 = none → (r.1.blk, r.1.nxt) = (s.blk, s.nxt)) ∧
    ∀ a, Pend a s → ∃ x p, r.2 = some (some x, p) ∧ (x = a ∨ (Before x a ∧ Pend a r.1)))

theorem getElem_lt {α : Type} {l : List α} {i : Nat} {x : α} (h : l[i]? = some x) : i < l.length := by
  rcases Nat.lt_or_ge i l.length with hl | hl
  · exact hl
  · rw [List.getElem?_eq_none hl] at h; cases h

theorem pend_lt {k n : Nat} {a : Nat × Nat} {s : St} (h : Hom k n s) (hp : Pend a s) : a.2 < k := by
  rcases hp with ⟨_, _, p, a3⟩ | ⟨f, f1, _, f3, _⟩
  · have := getElem_lt a3
    rwa [h.len] at this
  · have hr := h.srcQ f f1
    have := (validSource_elim hr.1).1
    rw [f3, ← hr.2.1]
    exact this

theorem advance_got {k n : Nat} {s : St} (h : Hom k n s) (e : Env) {pos : Nat} {p : Pkt} (hp : s.src[pos]? = some (some p)) (hn : s.nxt ≤ pos)
    (hfirst : ∀ (i : Nat) (q : Pkt), s.nxt ≤ i → s.src[i]? = some (some q) → pos ≤ i) : Sat (fun _ => True) (Got k n s) (advance e s pos p) := by
  have hlt := getElem_lt hp
  have hlen := h.len
  have hle : Ready s → ∀ a, Pend a s → (s.blk, pos) = a ∨ Before (s.blk, pos) a := by
    intro hr a hpa
    obtain ⟨a1, a2⟩ := a
    rcases hpa with ⟨b1, b2, q, b3⟩ | ⟨f, f1, f2, f3, f4⟩
    · have b1 : a1 = s.blk := b1
      have b2 : s.nxt ≤ a2 := b2
      have := hfirst a2 q b2 b3
      rcases Nat.lt_or_eq_of_le this with hlt | heq
      · exact Or.inr (Or.inr ⟨b1.symm, hlt⟩)
      · left
        rw [b1, heq]
    · right
      left
      have := hr.1 f f1
      rw [f3]
      show s.blk < s.blk + (diff f.sbn s.sbn).toNat
      omega
  have hpa : ∀ a, Before (s.blk, pos) a → Pend a s → a.1 = s.blk → pos + 1 ≤ a.2 := by
    intro a hb _ h1
    rcases hb with hb | hb
    · have hb : s.blk < a.1 := hb
      omega
    · exact hb.2
  unfold advance
  by_cases h1 : pos + 1 = s.src.length
  · rw [if_pos h1, nextBlock_nxt]
    refine (nextBlock_hom h e).bind (fun t ht => ?_)
    obtain ⟨t1, t2, t3, t4, t5⟩ := ht
    refine ⟨t1, t4, ?_, ?_⟩
    · intro y hy
      cases hy
      refine ⟨(s.blk, pos), p, rfl, by show pos < k; omega, Or.inr ⟨rfl, hn⟩, ?_⟩
      unfold succ
      rw [if_pos (show pos + 1 = k by omega)]
      show (t.blk, t.nxt) = _
      rw [t2, t3]
    · intro ha hr
      refine ⟨(fun c => by cases c), fun a hpd => ⟨(s.blk, pos), p, rfl, ?_⟩⟩
      rcases hle hr a hpd with hl | hl
      · exact Or.inl hl
      · refine Or.inr ⟨hl, (t5 ha hr).2 a hpd ?_⟩
        have hk := pend_lt h hpd
        rcases hl with hl | hl
        · exact hl
        · have e2 : pos < a.2 := hl.2
          omega
  · rw [if_neg h1]
    refine ⟨⟨h.srcQ, h.repQ, h.len, h.pay, h.sbn⟩, id, ?_, ?_⟩
    · intro y hy
      cases hy
      refine ⟨(s.blk, pos), p, rfl, by show pos < k; omega, Or.inr ⟨rfl, hn⟩, ?_⟩
      unfold succ
      rw [if_neg (show ¬ pos + 1 = k by omega)]
    · intro ha hr
      refine ⟨(fun c => by cases c), fun a hpd => ⟨(s.blk, pos), p, rfl, ?_⟩⟩
      rcases hle hr a hpd with hl | hl
      · exact Or.inl hl
      · refine Or.inr ⟨hl, ?_⟩
        have hq := hpa a hl hpd
        rcases hpd with ⟨b1, b2, q, b3⟩ | ⟨f, f1, f2, f3, f4⟩
        · exact Or.inl ⟨b1, hq b1, q, b3⟩
        · refine Or.inr ⟨f, f1, f2, f3, ?_⟩
          have := hr.1 f f1
          left
          rw [f3]
          show s.blk < s.blk + (diff f.sbn s.sbn).toNat
          omega

theorem findPos_first (l : List (Option Pkt)) : ∀ (k i : Nat) (p : Pkt), findPos l k = some (i, p) → ∀ (j : Nat) (q : Pkt), l[j]? = some (some q) → i ≤ k + j := by
  induction l with
  | nil => intro k i p h; cases h
  | cons o l ih =>
    intro k i p h j q hj
    cases o with
    | some r =>
      have h : some (k, r) = some (i, p) := h
      injection h with h
      injection h with h1 h2
      omega
    | none =>
      cases j with
      | zero => cases hj
      | succ j =>
        rw [List.getElem?_cons_succ] at hj
        have := ih (k + 1) i p h j q hj
        omega

theorem findPos_none (l : List (Option Pkt)) : ∀ (k : Nat), findPos l k = none → ∀ (j : Nat) (q : Pkt), l[j]? ≠ some (some q) := by
  induction l with
  | nil => intro k _ j q h; cases h
  | cons o l ih =>
    intro k h j q hj
    cases o with
    | some r => cases h
    | none =>
      cases j with
      | zero => cases hj
      | succ j =>
        rw [List.getElem?_cons_succ] at hj
        exact ih (k + 1) h j q hj

/-- The queue is not ready only if the reader has stopped. -/
theorem search_got {k n : Nat} (e : Env) (fuel : Nat) : ∀ (s : St), Hom k n s → Sat (fun _ => True) (Got k n s) (search e fuel s) := by
  induction fuel with
  | zero => intro s _; trivial
  | succ fuel ih =>
    intro s h
    simp only [search]
    by_cases ha : (!s.alive) = true
    · rw [if_pos ha]
      simp only [Bool.not_eq_true'] at ha
      refine ⟨h, id, (fun y hy => by cases hy), fun c => ?_⟩
      have c : s.alive = true := c
      rw [ha] at c; cases c
    rw [if_neg ha]
    refine (tryRepair_hom h e).bind (fun t ht => ?_)
    obtain ⟨t1, t2, t3⟩ := ht
    have hgot : ∀ r, Got k n t r → Got k n s r := by
      intro r ⟨r1, r2, r3, r4⟩
      rw [t2.blk, t2.nxt] at r3 r4
      exact ⟨r1, fun c => t2.alive (r2 c), r3, fun c hr => ⟨(r4 c (ext_ready t2 t3 hr)).1, fun a hp => (r4 c (ext_ready t2 t3 hr)).2 a (ext_pend t2 t3 hp)⟩⟩
    cases hp : findPos (t.src.drop t.nxt) t.nxt with
    | some x =>
      obtain ⟨pos, p⟩ := x
      obtain ⟨f1, f2⟩ := findPos_some _ _ _ _ hp
      rw [List.getElem?_drop] at f2
      have f2 : t.src[pos]? = some (some p) := by rw [← f2]; congr 1; omega
      refine (advance_got t1 e f2 f1 ?_).mono hgot
      intro i q hi hq
      have := findPos_first _ _ _ _ hp (i - t.nxt) q (by rw [List.getElem?_drop, ← hq]; congr 1; omega)
      omega
    | none =>
      have hno : ∀ (i : Nat) (q : Pkt), t.nxt ≤ i → t.src[i]? ≠ some (some q) := by
        intro i q hi hq
        exact findPos_none _ _ hp (i - t.nxt) q (by rw [List.getElem?_drop, ← hq]; congr 1; omega)
      show Sat _ _ (if t.srcQ = [] then _ else _)
      by_cases hq : t.srcQ = []
      · rw [if_pos hq]
        refine hgot _ ⟨t1, id, (fun y hy => by cases hy), fun c hr => ⟨fun _ => rfl, fun a hpd => ?_⟩⟩
        rcases hpd with ⟨b1, b2, q, b3⟩ | ⟨f, f1, _⟩
        · exact absurd b3 (hno _ _ b2)
        · rw [hq] at f1; cases f1
      · rw [if_neg hq, nextBlock_nxt]
        refine (nextBlock_hom t1 e).bind (fun u hu => ?_)
        obtain ⟨u1, u2, u3, u4, u5⟩ := hu
        refine (ih u u1).mono (fun r hr => hgot r ?_)
        obtain ⟨r1, r2, r3, r4⟩ := hr
        have hin : Ready t → ∀ a, Pend a t → t.blk < a.1 := by
          intro hrd a hpd
          rcases hpd with ⟨b1, b2, q, b3⟩ | ⟨f, f1, f2, f3, f4⟩
          · exact absurd b3 (hno _ _ b2)
          · have := hrd.1 f f1
            rw [f3]
            show t.blk < t.blk + (diff f.sbn t.sbn).toNat
            omega
        refine ⟨r1, fun c => u4 (r2 c), ?_, ?_⟩
        · intro y hy
          obtain ⟨x, p, y1, y2, y3, y4⟩ := r3 y hy
          refine ⟨x, p, y1, y2, ?_, y4⟩
          left
          show t.blk < x.1
          rw [u2] at y3
          rcases y3 with y3 | y3
          · have y3 : t.blk + 1 < x.1 := y3
            omega
          · have y3 : t.blk + 1 = x.1 := y3.1
            omega
        · intro c hrd
          obtain ⟨v1, v2⟩ := u5 (r2 c) hrd
          have hall : ∀ a, Pend a t → ∃ x p, r.2 = some (some x, p) ∧ (x = a ∨ (Before x a ∧ Pend a r.1)) :=
            fun a hpd => (r4 c v1).2 a (v2 a hpd (hin hrd a hpd))
          refine ⟨fun hn => ?_, hall⟩
          cases hsq : t.srcQ with
          | nil => exact absurd hsq hq
          | cons f q =>
            have hd := hrd.1 f (by rw [hsq]; exact List.mem_cons_self)
            obtain ⟨x, p, hx, _⟩ := hall (t.blk + (diff f.sbn t.sbn).toNat, f.esi) (Or.inr ⟨f, by rw [hsq]; exact List.mem_cons_self, by omega, rfl,
              Or.inl (by show t.blk < t.blk + (diff f.sbn t.sbn).toNat; omega)⟩)
            rw [hn] at hx
            cases hx

/-- Result of a call when decoding was started before it. -/
def GotIn (k n : Nat) (s : St) (r : St × Option (Option (Nat × Nat) × Pkt)) : Prop :=
  Hom k n r.1 ∧ (r.1.alive = true → s.alive = true) ∧
  (∀ y, r.2 = some y → ∃ x p, y = (some x, p) ∧ x.2 < k ∧ NotAfter (s.blk, s.nxt) x ∧ (r.1.blk, r.1.nxt) = succ k x) ∧
  (r.1.alive = true → Sorted s.sbn s.srcQ → (r.2 = none → (r.1.blk, r.1.nxt) = (s.blk, s.nxt)) ∧
    ∀ a, Pend a s → ∃ x p, r.2 = some (some x, p) ∧ (x = a ∨ (Before x a ∧ Pend a r.1)))

theorem getNext_got {k n : Nat} {s : St} (h : Hom k n s) (e : Env) : Sat (fun _ => True) (GotIn k n s) (getNext e s) := by
  unfold getNext
  refine (fill_hom h e).bind (fun t ht => ?_)
  obtain ⟨t1, t2, t3⟩ := ht
  have hgot : ∀ r, Got k n t r → GotIn k n s r := by
    intro r ⟨r1, r2, r3, r4⟩
    rw [t2.blk, t2.nxt] at r3 r4
    refine ⟨r1, fun c => t2.alive (r2 c), r3, fun c hs => ?_⟩
    obtain ⟨v1, v2⟩ := t3 (r2 c) hs
    exact ⟨(r4 c v1).1, fun a hp => (r4 c v1).2 a (v2 a hp)⟩
  cases hg : t.src[t.nxt]? with
  | none => trivial
  | some o =>
    cases o with
    | some p =>
      show Sat _ _ (if (!t.alive) = true then _ else _)
      by_cases ha : (!t.alive) = true
      · rw [if_pos ha]
        simp only [Bool.not_eq_true'] at ha
        refine ⟨t1, t2.alive, (fun y hy => by cases hy), fun c => ?_⟩
        have c : t.alive = true := c
        rw [ha] at c; cases c
      · rw [if_neg ha]
        exact (advance_got t1 e hg (Nat.le_refl _) (fun i _ hi _ => hi)).mono hgot
    | none => exact (search_got e _ t t1).mono hgot

theorem fetch_keep (l : List (Fec × Nat)) : ∀ (q : List Fec), ∀ f ∈ q, f ∈ (fetch l q).1 := by
  induction l with
  | nil => intro q f hf; exact hf
  | cons x l ih =>
    intro q f hf
    obtain ⟨g, i⟩ := x
    unfold fetch
    split_ifs
    · exact hf
    · apply ih
      rw [← List.take_append_drop i q] at hf
      rcases List.mem_append.mp hf with hf | hf
      · exact List.mem_append_left _ hf
      · exact List.mem_append_right _ (List.mem_cons_of_mem _ hf)

theorem fetch_all (l : List (Fec × Nat)) : ∀ (q : List Fec), (fetch l q).2 = true → ∀ x ∈ l, x.1 ∈ (fetch l q).1 := by
  induction l with
  | nil => intro q _ x hx; cases hx
  | cons y l ih =>
    intro q h x hx
    obtain ⟨g, i⟩ := y
    unfold fetch at h ⊢
    by_cases h1 : (!g.scheme) = true
    · rw [if_pos h1] at h; cases h
    rw [if_neg h1] at h ⊢
    rcases List.mem_cons.mp hx with hx | hx
    · rw [hx]
      exact fetch_keep l _ _ (List.mem_append_right _ List.mem_cons_self)
    · exact ih _ h x hx

theorem hom_fetch {k n : Nat} {s : St} (h : Hom k n s) {srcs reps : List (Fec × Nat)} (h1 : ∀ x ∈ srcs, Reg k n x.1) (h2 : ∀ x ∈ reps, RegRep k n x.1) :
    Hom k n (fetchAll s srcs reps) :=
  ⟨fetch_mem srcs _ h1 h.srcQ, fetch_mem reps _ h2 h.repQ, h.len, h.pay, h.sbn⟩

theorem pend_fetch {a : Nat × Nat} {s : St} (h : Pend a s) (srcs reps : List (Fec × Nat)) : Pend a (fetchAll s srcs reps) := by
  rcases h with h | ⟨f, f1, f2, f3, f4⟩
  · exact Or.inl h
  · exact Or.inr ⟨f, fetch_keep srcs _ f f1, f2, f3, f4⟩

theorem read_started {k n : Nat} {e : Env} {s : St} {r : St × Option (Option (Nat × Nat) × Pkt)} (h : Hom k n s) (hst : s.started = true)
    {srcs reps : List (Fec × Nat)} (h1 : ∀ x ∈ srcs, Reg k n x.1) (h2 : ∀ x ∈ reps, RegRep k n x.1) (hr : read e s srcs reps = .ok r)
    (ha : r.1.alive = true) : GotIn k n (fetchAll s srcs reps) r := by
  unfold read at hr
  by_cases hd : (!s.alive) = true
  · rw [if_pos hd] at hr
    cases hr
    rw [ha] at hd; cases hd
  rw [if_neg hd] at hr
  unfold readIn at hr
  rw [if_pos (show (fetchAll s srcs reps).started = true from hst)] at hr
  have hg := getNext_got (hom_fetch h h1 h2) e
  cases hgn : getNext e (fetchAll s srcs reps) with
  | error x => rw [hgn] at hr; cases hr
  | ok u =>
    rw [hgn] at hg hr
    have hr : (if (!u.1.alive) = true then Except.ok (u.1, none) else Except.ok u) = Except.ok r := hr
    by_cases hu : (!u.1.alive) = true
    · rw [if_pos hu] at hr
      cases hr
      have ha : u.1.alive = true := ha
      rw [ha] at hu; cases hu
    · rw [if_neg hu] at hr
      cases hr
      exact hg

/-- State before decoding is started. -/
structure Hom0 (k n : Nat) (s : St) : Prop where
  srcQ : ∀ f ∈ s.srcQ, Reg k n f
  repQ : ∀ f ∈ s.repQ, RegRep k n f
  len : s.src.length = k ∨ s.srcRes = false
  pay : s.payRes = true → s.pay = n

theorem procSource_hom0 {k n : Nat} {e : Env} {s : St} (h : Hom0 k n s) {f : Fec} (hf : Reg k n f) :
    Hom0 k n (procSource e s f).2 ∧ ((procSource e s f).1 = true → (procSource e s f).2.src.length = k) := by
  obtain ⟨f1, f2, f3, _⟩ := hf
  unfold procSource
  rw [f1, f2, f3]
  split_ifs with h1 h2 h3
  · cases h1
  · exact ⟨h, fun c => by cases c⟩
  · refine ⟨?_, fun c => by cases c⟩
    show Hom0 k n (canSrc e s k).2
    unfold canSrc
    split_ifs
    · exact h
    · exact h
    · exact ⟨h.srcQ, h.repQ, h.len, h.pay⟩
    · exact h
  · unfold updSrc
    split_ifs with h4 h5
    · exact ⟨⟨h.srcQ, h.repQ, Or.inl h4, fun _ => rfl⟩, fun _ => h4⟩
    · refine ⟨⟨h.srcQ, h.repQ, ?_, fun _ => rfl⟩, fun c => by cases c⟩
      rcases h.len with hl | hl
      · exact absurd hl h4
      · exact Or.inr hl
    · exact ⟨⟨h.srcQ, h.repQ, Or.inl (resize_length _ _), fun _ => rfl⟩, fun _ => resize_length _ _⟩

theorem tryStart_hom0 {k n : Nat} {e : Env} {s : St} (h : Hom0 k n s) (hst : s.started = false) :
    Hom0 k n (tryStart e s) ∧ ((tryStart e s).started = true → Hom k n (tryStart e s)) := by
  unfold tryStart
  cases hq : s.srcQ with
  | nil =>
    refine ⟨h, fun c => ?_⟩
    have c : s.started = true := c
    rw [hst] at c; cases c
  | cons f q =>
    have hf : Reg k n f := h.srcQ f (by rw [hq]; exact List.mem_cons_self)
    obtain ⟨p1, p2⟩ := procSource_hom0 (e := e) h hf
    have hst2 : (procSource e s f).2.started = false := by
      unfold procSource canSrc updSrc updPay
      split_ifs <;> exact hst
    show Hom0 k n (if (!(procSource e s f).1) = true then (procSource e s f).2 else _) ∧
      ((if (!(procSource e s f).1) = true then (procSource e s f).2 else _).started = true → Hom k n (if (!(procSource e s f).1) = true then (procSource e s f).2 else _))
    by_cases h1 : (!(procSource e s f).1) = true
    · rw [if_pos h1]
      exact ⟨p1, fun c => by rw [hst2] at c; cases c⟩
    · rw [if_neg h1]
      simp only [Bool.not_eq_true', Bool.not_eq_false] at h1
      have hr : ∀ g ∈ dropPrev f.sbn s.repQ, RegRep k n g := fun g hg => h.repQ g (dropPrev_mem _ _ g hg)
      exact ⟨⟨p1.srcQ, hr, p1.len, p1.pay⟩, fun _ => ⟨p1.srcQ, hr, p2 h1, p1.pay, (Nat.mod_eq_of_lt hf.2.2.2).symm⟩⟩

/-- What is known before and after decoding is started; `l` is the position of the last returned packet. -/
def Known (k n : Nat) (l : Option (Nat × Nat)) (s : St) : Prop :=
  s.alive = true → (l = none ∧ s.started = false ∧ Hom0 k n s) ∨ ∃ x, l = some x ∧ s.started = true ∧ Hom k n s ∧ x.2 < k ∧ (s.blk, s.nxt) = succ k x

/-- The position of a returned packet. -/
def posOf (r : Option (Option (Nat × Nat) × Pkt)) : Option (Nat × Nat) := r.bind (·.1)

theorem read_known {k n : Nat} {c : Ctx} {e : Env} {s : St} {r : St × Option (Option (Nat × Nat) × Pkt)} {l : Option (Nat × Nat)} (he : EnvOk c e) (hi : Inv c s)
    (hk : Known k n l s) {srcs reps : List (Fec × Nat)} (h1 : ∀ x ∈ srcs, Reg k n x.1) (h2 : ∀ x ∈ reps, RegRep k n x.1)
    (h3 : ∀ x ∈ srcs, SrcOk c x.1) (h4 : ∀ x ∈ reps, RepOk c x.1) (hr : read e s srcs reps = .ok r)
    (ht : s.started = true → Sorted s.sbn (fetch srcs s.srcQ).1) : Known k n ((posOf r.2).or l) r.1 := by
  intro ha
  have hs : s.alive = true := by
    cases hs : s.alive with
    | true => rfl
    | false =>
      unfold read at hr
      rw [if_pos (by rw [hs]; rfl)] at hr
      cases hr
      rw [← hs]; exact ha
  rcases hk hs with ⟨k1, k2, k3⟩ | ⟨x, k1, k2, k3, k4, k5⟩
  · have hstep := inv_read he hi h3 h4
    rw [hr] at hstep
    have hf0 : Hom0 k n (fetchAll s srcs reps) := ⟨fetch_mem srcs _ h1 k3.srcQ, fetch_mem reps _ h2 k3.repQ, k3.len, k3.pay⟩
    obtain ⟨t1, t2⟩ := tryStart_hom0 (e := e) hf0 k2
    rcases start_read he hi k2 h3 h4 hr with ⟨s1, s2⟩ | ⟨s1, s2⟩ | ⟨b, f, s1⟩
    · left
      have hpos : posOf r.2 = none := by
        unfold posOf
        cases hr2 : r.2 with
        | none => rfl
        | some y =>
          obtain ⟨y1, y2⟩ := y
          cases y1 with
          | none => rfl
          | some z => exact absurd hr2 (s2 z y2)
      refine ⟨by rw [hpos, k1]; rfl, s1, ?_⟩
      unfold read at hr
      rw [if_neg (by rw [hs]; decide)] at hr
      unfold readIn at hr
      rw [if_neg (show ¬ (fetchAll s srcs reps).started = true from by show ¬ s.started = true; rw [k2]; decide)] at hr
      by_cases h5 : (tryStart e (fetchAll s srcs reps)).started = true
      · rw [if_pos h5] at hr
        have hti : Inv c (tryStart e (fetchAll s srcs reps)) := inv_tryStart (inv_queues hi (fetch_mem srcs _ h3 hi.srcQ) (fetch_mem reps _ h4 hi.repQ)) k2
        have hg := inv_getNext he hti h5
        cases hgn : getNext e (tryStart e (fetchAll s srcs reps)) with
        | error y => rw [hgn] at hr; cases hr
        | ok u =>
          rw [hgn] at hr hg
          have hr : (if (!u.1.alive) = true then Except.ok (u.1, none) else Except.ok u) = Except.ok r := hr
          have hu := hg.2.1
          split_ifs at hr
          · cases hr
            rw [hu] at s1; cases s1
          · cases hr
            rw [hu] at s1; cases s1
      · rw [if_neg h5] at hr
        unfold forward at hr
        cases hq : (tryStart e (fetchAll s srcs reps)).srcQ with
        | nil =>
          rw [hq] at hr
          have hr : (if (!(tryStart e (fetchAll s srcs reps)).alive) = true then Except.ok (tryStart e (fetchAll s srcs reps), none) else Except.ok (tryStart e (fetchAll s srcs reps), none)) = Except.ok r := hr
          split_ifs at hr <;> (cases hr; exact t1)
        | cons g q =>
          rw [hq] at hr
          have ht' : Hom0 k n { tryStart e (fetchAll s srcs reps) with srcQ := q } :=
            ⟨fun f hf => t1.srcQ f (by rw [hq]; exact List.mem_cons_of_mem _ hf), t1.repQ, t1.len, t1.pay⟩
          have hr : (if (!(tryStart e (fetchAll s srcs reps)).alive) = true then Except.ok ({ tryStart e (fetchAll s srcs reps) with srcQ := q }, none)
            else Except.ok ({ tryStart e (fetchAll s srcs reps) with srcQ := q }, some (none, .recv g))) = (Except.ok r : Res) := hr
          split_ifs at hr <;> (cases hr; exact ht')
    · rw [ha] at s2; cases s2
    · right
      refine ⟨(b, 0), by rw [s1]; rfl, ?_⟩
      have hstep3 := hstep.2.2
      rw [s1] at hstep3
      refine ⟨hstep3.1, ?_⟩
      unfold read at hr
      rw [if_neg (by rw [hs]; decide)] at hr
      unfold readIn at hr
      rw [if_neg (show ¬ (fetchAll s srcs reps).started = true from by show ¬ s.started = true; rw [k2]; decide)] at hr
      by_cases h5 : (tryStart e (fetchAll s srcs reps)).started = true
      · rw [if_pos h5] at hr
        have hg := getNext_got (t2 h5) e
        cases hgn : getNext e (tryStart e (fetchAll s srcs reps)) with
        | error y => rw [hgn] at hr; cases hr
        | ok u =>
          rw [hgn] at hr hg
          have hr : (if (!u.1.alive) = true then Except.ok (u.1, none) else Except.ok u) = Except.ok r := hr
          have hur : u = r := by
            split_ifs at hr with h6
            · cases hr
              cases s1
            · cases hr; rfl
          rw [hur] at hg
          obtain ⟨g1, g2, g3, g4⟩ := hg
          obtain ⟨x, p, y1, y2, y3, y4⟩ := g3 _ s1
          cases y1
          exact ⟨g1, y2, y4⟩
      · rw [if_neg h5] at hr
        unfold forward at hr
        cases hq : (tryStart e (fetchAll s srcs reps)).srcQ with
        | nil =>
          rw [hq] at hr
          have hr : (if (!(tryStart e (fetchAll s srcs reps)).alive) = true then Except.ok (tryStart e (fetchAll s srcs reps), none) else Except.ok (tryStart e (fetchAll s srcs reps), none)) = Except.ok r := hr
          split_ifs at hr <;> (cases hr; cases s1)
        | cons g q =>
          rw [hq] at hr
          have hr : (if (!(tryStart e (fetchAll s srcs reps)).alive) = true then Except.ok ({ tryStart e (fetchAll s srcs reps) with srcQ := q }, none)
            else Except.ok ({ tryStart e (fetchAll s srcs reps) with srcQ := q }, some (none, .recv g))) = (Except.ok r : Res) := hr
          split_ifs at hr <;> (cases hr; cases s1)
  · right
    obtain ⟨g1, g2, g3, g4⟩ := read_started k3 k2 h1 h2 hr ha
    have hstep := inv_read he hi h3 h4
    rw [hr] at hstep
    have hst := hstep.2.1 k2
    cases hr2 : r.2 with
    | none =>
      have hc := (g4 ha (ht k2)).1 hr2
      exact ⟨x, by rw [k1]; rfl, hst, g1, k4, hc.trans k5⟩
    | some y =>
      obtain ⟨z, p, y1, y2, y3, y4⟩ := g3 y hr2
      exact ⟨z, by rw [y1]; rfl, hst, g1, y2, y4⟩

theorem run_cons {maxLen maxJump : Nat} {s : St} {c : Call} {h : List Call} {r : St × List (Option (Nat × Nat) × Pkt)} (hr : run maxLen maxJump s (c :: h) = .ok r) :
    ∃ u v, read ⟨maxLen, maxJump, c.alloc, c.dec⟩ s c.srcs c.reps = .ok u ∧ run maxLen maxJump u.1 h = .ok v ∧ r = (v.1, u.2.toList ++ v.2) := by
  simp only [run] at hr
  cases hrd : read ⟨maxLen, maxJump, c.alloc, c.dec⟩ s c.srcs c.reps with
  | error f => rw [hrd] at hr; cases hr
  | ok u =>
    rw [hrd] at hr
    have hr : (run maxLen maxJump u.1 h).bind (fun r' => .ok (r'.1, u.2.toList ++ r'.2)) = .ok r := hr
    cases hrn : run maxLen maxJump u.1 h with
    | error f => rw [hrn] at hr; cases hr
    | ok v =>
      rw [hrn] at hr
      cases hr
      exact ⟨u, v, rfl, hrn, rfl⟩

theorem run_alive {maxLen maxJump : Nat} {s : St} {h : List Call} {r : St × List (Option (Nat × Nat) × Pkt)} (hr : run maxLen maxJump s h = .ok r)
    (ha : r.1.alive = true) : s.alive = true := by
  cases hs : s.alive with
  | true => rfl
  | false =>
    rw [dead_run h hs] at hr
    cases hr
    rw [← hs]; exact ha

/-- A context which accepts everything. -/
def anyCtx (maxLen : Nat) : Ctx := ⟨fun _ => True, fun _ => True, fun _ _ _ => True, maxLen⟩

theorem any_env (maxLen maxJump : Nat) (c : Call) : EnvOk (anyCtx maxLen) ⟨maxLen, maxJump, c.alloc, c.dec⟩ :=
  ⟨rfl, fun _ _ _ _ _ _ => trivial, fun _ _ _ => Or.inl trivial⟩

theorem known_run {k n maxLen maxJump : Nat} (h : List Call) : ∀ (h2 : List Call) (s : St) (l : Option (Nat × Nat)), Inv (anyCtx maxLen) s → Known k n l s → Uniform k n h →
    Tidy maxLen maxJump s (h ++ h2) → ∀ r, run maxLen maxJump s h = .ok r →
    Inv (anyCtx maxLen) r.1 ∧ Known k n ((r.2.filterMap (·.1)).getLast?.or l) r.1 ∧ Tidy maxLen maxJump r.1 h2 := by
  induction h with
  | nil =>
    intro h2 s l hi hk _ ht r hr
    cases hr
    exact ⟨hi, hk, ht⟩
  | cons c h ih =>
    intro h2 s l hi hk hu ht r hr
    obtain ⟨u, v, e1, e2, e3⟩ := run_cons hr
    obtain ⟨u1, u2⟩ := hu c List.mem_cons_self
    have s1 : ∀ x ∈ c.srcs, SrcOk (anyCtx maxLen) x.1 := fun x hx => ⟨trivial, (u1 x hx).2.2.2⟩
    have s2 : ∀ x ∈ c.reps, RepOk (anyCtx maxLen) x.1 := fun x hx => ⟨(u2 x hx).2.2, fun _ => trivial, fun _ => trivial⟩
    have hi' := inv_read (any_env maxLen maxJump c) hi s1 s2
    rw [e1] at hi'
    obtain ⟨t1, t2⟩ := ht
    have hk' := read_known (any_env maxLen maxJump c) hi hk u1 u2 s1 s2 e1 t1
    obtain ⟨v1, v2, v3⟩ := ih h2 u.1 _ hi'.1 hk' (fun y hy => hu y (List.mem_cons_of_mem _ hy)) (t2 u e1) v e2
    rw [e3]
    refine ⟨v1, ?_, v3⟩
    show Known k n (((u.2.toList ++ v.2).filterMap (·.1)).getLast?.or l) v.1
    rw [List.filterMap_append, List.getLast?_append, Option.or_assoc]
    have hp : ((u.2.toList).filterMap (·.1)).getLast? = posOf u.2 := by
      cases hu2 : u.2 with
      | none => rfl
      | some y =>
        obtain ⟨y1, y2⟩ := y
        cases y1 with
        | none => rfl
        | some z => rfl
    rw [hp]
    exact v2

/-- Number of a position in blocks of `k` packets. -/
def val (k : Nat) (x : Nat × Nat) : Nat := x.1 * k + x.2

theorem val_succ (k : Nat) (x : Nat × Nat) : val k (succ k x) = val k x + 1 := by
  unfold val succ
  by_cases h : x.2 + 1 = k
  · rw [if_pos h]
    show (x.1 + 1) * k + 0 = _
    rw [Nat.succ_mul]
    omega
  · rw [if_neg h]
    show x.1 * k + (x.2 + 1) = _
    omega

theorem val_le {k : Nat} {x y : Nat × Nat} (h : NotAfter x y) (hx : x.2 ≤ k) : val k x ≤ val k y := by
  unfold val
  rcases h with h | h
  · have : (x.1 + 1) * k ≤ y.1 * k := Nat.mul_le_mul_right _ h
    rw [Nat.succ_mul] at this
    omega
  · rw [h.1]
    omega

theorem pend_notAfter {a : Nat × Nat} {s : St} (h : Pend a s) : NotAfter (s.blk, s.nxt) a := by
  rcases h with ⟨h1, h2, _⟩ | ⟨_, _, _, _, h⟩
  · exact Or.inr ⟨h1.symm, h2⟩
  · exact h

theorem pend_run {k n maxLen maxJump : Nat} {a : Nat × Nat} (h : List Call) : ∀ (s : St), Inv (anyCtx maxLen) s → s.started = true → Hom k n s → NotAfter (s.blk, s.nxt) a →
    (∀ c h', h = c :: h' → (fetchAll s c.srcs c.reps).alive = true → Pend a (fetchAll s c.srcs c.reps)) → Uniform k n h →
    Tidy maxLen maxJump s h → ∀ r, run maxLen maxJump s h = .ok r → r.1.alive = true →
    a ∈ r.2.filterMap (·.1) ∨ (r.2.length = h.length ∧ (∀ y ∈ r.2, ∃ x, y.1 = some x ∧ Before x a) ∧ val k (s.blk, s.nxt) + h.length ≤ val k a) := by
  induction h with
  | nil =>
    intro s hi hst hh hn _ _ _ r hr _
    cases hr
    refine Or.inr ⟨rfl, (fun y hy => by cases hy), ?_⟩
    have := hi.lt hst
    have hl := hh.len
    exact val_le hn (show s.nxt ≤ k by omega)
  | cons c h ih =>
    intro s hi hst hh hn hp hu ht r hr ha
    obtain ⟨u, v, e1, e2, e3⟩ := run_cons hr
    obtain ⟨u1, u2⟩ := hu c List.mem_cons_self
    have s1 : ∀ x ∈ c.srcs, SrcOk (anyCtx maxLen) x.1 := fun x hx => ⟨trivial, (u1 x hx).2.2.2⟩
    have s2 : ∀ x ∈ c.reps, RepOk (anyCtx maxLen) x.1 := fun x hx => ⟨(u2 x hx).2.2, fun _ => trivial, fun _ => trivial⟩
    have hi' := inv_read (any_env maxLen maxJump c) hi s1 s2
    rw [e1] at hi'
    obtain ⟨t1, t2⟩ := ht
    have hva : v.1.alive = true := by rw [e3] at ha; exact ha
    have hua := run_alive e2 hva
    obtain ⟨g1, g2, g3, g4⟩ := read_started hh hst u1 u2 e1 hua
    obtain ⟨x, p, x1, x2⟩ := (g4 hua (t1 hst)).2 a (hp c h rfl (g2 hua))
    obtain ⟨x', p', y1, y2, y3, y4⟩ := g3 _ x1
    cases y1
    have hr2 : r.2 = (some x, p) :: v.2 := by rw [e3, x1]; rfl
    have hcur : val k (s.blk, s.nxt) + 1 ≤ val k (u.1.blk, u.1.nxt) := by
      rw [y4, val_succ]
      have := hi.lt hst
      have hl := hh.len
      have := val_le (k := k) y3 (show s.nxt ≤ k by omega)
      have this : val k (s.blk, s.nxt) ≤ val k x := this
      omega
    rcases x2 with x2 | ⟨x2, x3⟩
    · left
      rw [hr2, x2]
      exact List.mem_cons_self
    · rcases ih u.1 hi'.1 (hi'.2.1 hst) g1 (pend_notAfter x3) (fun c h' _ _ => pend_fetch x3 _ _) (fun y hy => hu y (List.mem_cons_of_mem _ hy)) (t2 u e1) v e2 hva with hin | ⟨i1, i2, i3⟩
      · left
        rw [hr2]
        exact List.mem_cons_of_mem _ hin
      · right
        rw [hr2]
        refine ⟨by simp only [List.length_cons, i1], ?_, ?_⟩
        · intro y hy
          rcases List.mem_cons.mp hy with hy | hy
          · rw [hy]; exact ⟨x, rfl, x2⟩
          · exact i2 y hy
        · simp only [List.length_cons]
          omega

/-- A packet that arrives after `x` was returned waits for its turn. -/
theorem pend_arrive {k n : Nat} {s : St} {x : Nat × Nat} {f : Fec} {i : Nat} {srcs reps : List (Fec × Nat)} (h : Hom k n s) (hc : (s.blk, s.nxt) = succ k x) (hk : x.2 < k)
    (hm : (f, i) ∈ srcs) (hf : Reg k n f) (hd : 0 ≤ diff f.sbn (x.1 % 65536)) (hb : Before x (x.1 + (diff f.sbn (x.1 % 65536)).toNat, f.esi))
    (ha : (fetchAll s srcs reps).alive = true) : Pend (x.1 + (diff f.sbn (x.1 % 65536)).toNat, f.esi) (fetchAll s srcs reps) := by
  right
  have hfl : (fetch srcs s.srcQ).2 = true := by
    have ha : (s.alive && (fetch srcs s.srcQ).2 && (fetch reps s.repQ).2) = true := ha
    simp only [Bool.and_eq_true] at ha
    exact ha.1.2
  have hesi : f.esi < k := by rw [← hf.2.1]; exact (validSource_elim hf.1).1
  refine ⟨f, fetch_all srcs _ hfl _ hm, ?_⟩
  have hsb := h.sbn
  show 0 ≤ diff f.sbn s.sbn ∧ _ = (s.blk + (diff f.sbn s.sbn).toNat, f.esi) ∧ NotAfter (s.blk, s.nxt) _
  unfold succ at hc
  by_cases hx : x.2 + 1 = k
  · rw [if_pos hx] at hc
    injection hc with c1 c2
    have hpos : 0 < diff f.sbn (x.1 % 65536) := by
      rcases hb with hb | hb
      · have hb : x.1 < x.1 + (diff f.sbn (x.1 % 65536)).toNat := hb
        omega
      · have hb : x.2 < f.esi := hb.2
        omega
    have e1 : diff f.sbn s.sbn = diff f.sbn (x.1 % 65536) - 1 := by
      rw [hsb, c1, ← diff_succ hpos]
      congr 1
      omega
    rw [e1, c1, c2]
    refine ⟨by omega, ?_, ?_⟩
    · congr 1
      omega
    · unfold NotAfter
      show x.1 + 1 < x.1 + (diff f.sbn (x.1 % 65536)).toNat ∨ (x.1 + 1 = x.1 + (diff f.sbn (x.1 % 65536)).toNat ∧ 0 ≤ f.esi)
      omega
  · rw [if_neg hx] at hc
    injection hc with c1 c2
    rw [c1] at hsb
    rw [hsb, c1, c2]
    refine ⟨hd, rfl, ?_⟩
    rcases hb with hb | hb
    · exact Or.inl hb
    · exact Or.inr ⟨hb.1, hb.2⟩

theorem procSource_ok {k n : Nat} {e : Env} {s : St} (h : Hom0 k n s) {f : Fec} (hf : Reg k n f) (hk : k ≤ e.maxLen) (ha : ∀ m, e.alloc m = true) :
    (procSource e s f).1 = true := by
  obtain ⟨f1, f2, f3, _⟩ := hf
  have hp : canPay s n = true := by
    unfold canPay
    cases hp : s.payRes with
    | false => simp
    | true => simp [h.pay hp]
  have hc : (canSrc e s k).1 = true := by
    unfold canSrc
    rcases h.len with hl | hl
    · rw [if_pos hl]
    · split_ifs with h1 h2 h3
      · rfl
      · rw [hl] at h2; cases h2
      · omega
      · rfl
  unfold procSource
  rw [f1, f2, f3, hp, hc]
  show (updSrc e (updPay s n) k).1 = true
  unfold updSrc
  split_ifs with h1 h2
  · rfl
  · rw [ha] at h2; cases h2
  · rfl

theorem known0_run {k n maxLen maxJump : Nat} (h : List Call) : ∀ (s : St), Inv (anyCtx maxLen) s → (s.alive = true → s.started = false ∧ Hom0 k n s) → Uniform k n h →
    ∀ r, run maxLen maxJump s h = .ok r → r.2.filterMap (·.1) = [] → Inv (anyCtx maxLen) r.1 ∧ (r.1.alive = true → r.1.started = false ∧ Hom0 k n r.1) := by
  induction h with
  | nil =>
    intro s hi hk _ r hr _
    cases hr
    exact ⟨hi, hk⟩
  | cons c h ih =>
    intro s hi hk hu r hr hn
    obtain ⟨u, v, e1, e2, e3⟩ := run_cons hr
    obtain ⟨u1, u2⟩ := hu c List.mem_cons_self
    have s1 : ∀ x ∈ c.srcs, SrcOk (anyCtx maxLen) x.1 := fun x hx => ⟨trivial, (u1 x hx).2.2.2⟩
    have s2 : ∀ x ∈ c.reps, RepOk (anyCtx maxLen) x.1 := fun x hx => ⟨(u2 x hx).2.2, fun _ => trivial, fun _ => trivial⟩
    have hi' := inv_read (any_env maxLen maxJump c) hi s1 s2
    rw [e1] at hi'
    have hn : (u.2.toList ++ v.2).filterMap (·.1) = [] := by rw [e3] at hn; exact hn
    rw [List.filterMap_append, List.append_eq_nil_iff] at hn
    rw [e3]
    refine ih u.1 hi'.1 ?_ (fun y hy => hu y (List.mem_cons_of_mem _ hy)) v e2 hn.2
    cases hs : s.alive with
    | false =>
      intro ha
      unfold read at e1
      rw [if_pos (by rw [hs]; rfl)] at e1
      cases e1
      rw [hs] at ha; cases ha
    | true =>
      obtain ⟨k2, k3⟩ := hk hs
      have hkn : Known k n none s := fun _ => Or.inl ⟨rfl, k2, k3⟩
      have hk' := read_known (any_env maxLen maxJump c) hi hkn u1 u2 s1 s2 e1 (fun c => by rw [k2] at c; cases c)
      intro ha
      rcases hk' ha with ⟨_, a1, a2⟩ | ⟨x, a1, _⟩
      · exact ⟨a1, a2⟩
      · have hp : posOf u.2 = none := by
          cases hu2 : u.2 with
          | none => rfl
          | some y =>
            obtain ⟨y1, y2⟩ := y
            cases y1 with
            | none => rfl
            | some z => rw [hu2] at hn; cases hn.1
        rw [hp] at a1
        cases a1

/-- Block size was set to 3 before the start, and all queued packets have another one. -/
structure Stuck (s : St) : Prop where
  started : s.started = false
  len : s.src.length = 3
  res : s.srcRes = true
  srcQ : ∀ f ∈ s.srcQ, f.sblen = 5

theorem stuck_tryStart {e : Env} {s : St} (h : Stuck s) : Stuck (tryStart e s) ∧ (tryStart e s).srcQ = s.srcQ := by
  unfold tryStart
  cases hq : s.srcQ with
  | nil => exact ⟨h, hq⟩
  | cons f q =>
    have hf : f.sblen = 5 := h.srcQ f (by rw [hq]; exact List.mem_cons_self)
    have hp : procSource e s f = (false, s) := by
      unfold procSource
      have hc : canSrc e s f.sblen = (false, s) := by
        unfold canSrc
        rw [if_neg (by rw [h.len, hf]; decide), if_pos h.res]
      rw [hc]
      by_cases h1 : (!validSource f) = true
      · rw [if_pos h1]
      rw [if_neg h1]
      by_cases h2 : (!canPay s f.pay) = true
      · rw [if_pos h2]
      rw [if_neg h2]
      rfl
    show Stuck (if (!(procSource e s f).1) = true then (procSource e s f).2 else _) ∧ (if (!(procSource e s f).1) = true then (procSource e s f).2 else _).srcQ = f :: q
    rw [hp]
    exact ⟨h, hq⟩

theorem stuck_read {e : Env} {s : St} {srcs reps : List (Fec × Nat)} {r : St × Option (Option (Nat × Nat) × Pkt)} (h : Stuck s) (h1 : ∀ x ∈ srcs, x.1.sblen = 5)
    (hr : read e s srcs reps = .ok r) : Stuck r.1 ∧ posOf r.2 = none := by
  unfold read at hr
  by_cases ha : (!s.alive) = true
  · rw [if_pos ha] at hr
    cases hr
    exact ⟨h, rfl⟩
  rw [if_neg ha] at hr
  have hf : Stuck (fetchAll s srcs reps) := ⟨h.started, h.len, h.res, fetch_mem srcs _ h1 h.srcQ⟩
  obtain ⟨t1, _⟩ := stuck_tryStart (e := e) hf
  unfold readIn at hr
  rw [if_neg (by rw [hf.started]; decide), if_neg (by rw [t1.started]; decide)] at hr
  unfold forward at hr
  cases hq : (tryStart e (fetchAll s srcs reps)).srcQ with
  | nil =>
    rw [hq] at hr
    have hr : (if (!(tryStart e (fetchAll s srcs reps)).alive) = true then Except.ok (tryStart e (fetchAll s srcs reps), none) else Except.ok (tryStart e (fetchAll s srcs reps), none)) = Except.ok r := hr
    split_ifs at hr <;> (cases hr; exact ⟨t1, rfl⟩)
  | cons g q =>
    rw [hq] at hr
    have ht' : Stuck { tryStart e (fetchAll s srcs reps) with srcQ := q } :=
      ⟨t1.started, t1.len, t1.res, fun f hf => t1.srcQ f (by rw [hq]; exact List.mem_cons_of_mem _ hf)⟩
    have hr : (if (!(tryStart e (fetchAll s srcs reps)).alive) = true then Except.ok ({ tryStart e (fetchAll s srcs reps) with srcQ := q }, none)
      else Except.ok ({ tryStart e (fetchAll s srcs reps) with srcQ := q }, some (none, .recv g))) = (Except.ok r : Res) := hr
    split_ifs at hr <;> (cases hr; exact ⟨ht', rfl⟩)

theorem stuck_run {maxLen maxJump : Nat} (h : List Call) : ∀ (s : St), Stuck s → (∀ c ∈ h, ∀ x ∈ c.srcs, x.1.sblen = 5) →
    ∀ r, run maxLen maxJump s h = .ok r → r.2.filterMap (·.1) = [] := by
  induction h with
  | nil => intro s _ _ r hr; cases hr; rfl
  | cons c h ih =>
    intro s hs hc r hr
    obtain ⟨u, v, e1, e2, e3⟩ := run_cons hr
    obtain ⟨s1, s2⟩ := stuck_read hs (hc c List.mem_cons_self) e1
    have := ih u.1 s1 (fun y hy => hc y (List.mem_cons_of_mem _ hy)) v e2
    rw [e3]
    show (u.2.toList ++ v.2).filterMap (·.1) = []
    rw [List.filterMap_append, this, List.append_nil]
    cases hu2 : u.2 with
    | none => rfl
    | some y =>
      obtain ⟨y1, y2⟩ := y
      cases y1 with
      | none => rfl
      | some z => rw [hu2] at s2; cases s2

end Verif.FecReader
