import Verif.FecReader.Read

/-!
# FEC reader: the first block, and packets which stay in a block
-/

namespace Verif.FecReader

/-- A packet is in the block. -/
def Kept (i : Nat) (p : Pkt) (s : St) : Prop := s.src[i]? = some (some p) ∧ s.srcRes = true

theorem kept_canSrc {i : Nat} {p : Pkt} {e : Env} {s : St} (h : Kept i p s) (n : Nat) : Kept i p (canSrc e s n).2 := by
  unfold canSrc
  split_ifs <;> exact h

theorem kept_canRep {i : Nat} {p : Pkt} {e : Env} {s : St} (h : Kept i p s) (n : Nat) : Kept i p (canRep e s n).2 := by
  unfold canRep
  split_ifs <;> exact h

theorem kept_updSrc {i : Nat} {p : Pkt} {e : Env} {s : St} (h : Kept i p s) {n : Nat} (hc : (canSrc e s n).1 = true) (m : Nat) :
    Kept i p (updSrc e (updPay s m) n).2 := by
  have hl : s.src.length = n := (canSrc_true hc).resolve_right (by rw [h.2]; decide)
  unfold updSrc
  rw [if_pos (show (updPay s m).src.length = n from hl)]
  exact ⟨h.1, rfl⟩

theorem kept_procSource {i : Nat} {p : Pkt} {e : Env} {s : St} (h : Kept i p s) (f : Fec) : Kept i p (procSource e s f).2 := by
  unfold procSource
  split_ifs with h1 h2 h3
  · exact h
  · exact h
  · exact kept_canSrc h _
  · simp only [Bool.not_eq_true', Bool.not_eq_false] at h3
    exact kept_updSrc h h3 _

theorem kept_updRep {i : Nat} {p : Pkt} {e : Env} {s : St} (h : Kept i p s) (n : Nat) : Sat (fun _ => True) (fun r => Kept i p r.2) (updRep e s n) := by
  unfold updRep
  split_ifs
  · exact h
  · exact h
  · exact h
  · trivial

theorem kept_procRepair {i : Nat} {p : Pkt} {e : Env} {s : St} (h : Kept i p s) (f : Fec) : Sat (fun _ => True) (fun r => Kept i p r.2) (procRepair e s f) := by
  unfold procRepair
  split_ifs with h1 h2 h3 h4 h5
  · exact h
  · exact h
  · exact kept_canSrc h _
  · exact kept_canRep h _
  · simp only [Bool.not_eq_true', Bool.not_eq_false] at h3
    exact kept_updSrc h h3 _
  · simp only [Bool.not_eq_true', Bool.not_eq_false] at h3
    exact kept_updRep (kept_updSrc h h3 _) _

theorem kept_placeSource {i : Nat} {p : Pkt} {s : St} (h : Kept i p s) (f : Fec) : Sat (fun _ => True) (Kept i p) (placeSource s f) := by
  unfold placeSource
  split_ifs with h1 h2
  · refine ⟨?_, h.2⟩
    show (s.src.set f.esi (some (.recv f)))[i]? = _
    rw [List.getElem?_set_ne]
    · exact h.1
    · intro e
      rw [e, h.1] at h2
      cases h2
  · exact h
  · trivial

theorem kept_placeRepair {i : Nat} {p : Pkt} {s : St} (h : Kept i p s) (f : Fec) : Sat (fun _ => True) (Kept i p) (placeRepair s f) := by
  unfold placeRepair
  split_ifs
  · exact h
  · exact h
  · trivial

theorem kept_fillSource {i : Nat} {p : Pkt} {e : Env} (q : List Fec) : ∀ (s : St), Kept i p s → Sat (fun _ => True) (Kept i p) (fillSource e q s) := by
  induction q with
  | nil => intro s h; exact h
  | cons f q ih =>
    intro s h
    simp only [fillSource]
    by_cases h1 : (!validSbn e s f) = true
    · rw [if_pos h1]; exact h
    rw [if_neg h1]
    by_cases h2 : ¬ diff f.sbn s.sbn ≤ 0
    · rw [if_pos h2]; exact h
    rw [if_neg h2]
    refine Sat.bind (P := Kept i p) ?_ ih
    unfold takeSource
    split_ifs
    · exact h
    · trivial
    · exact kept_procSource h f
    · exact kept_placeSource (kept_procSource h f) f

theorem kept_fillRepair {i : Nat} {p : Pkt} {e : Env} (q : List Fec) : ∀ (s : St), Kept i p s → Sat (fun _ => True) (Kept i p) (fillRepair e q s) := by
  induction q with
  | nil => intro s h; exact h
  | cons f q ih =>
    intro s h
    simp only [fillRepair]
    by_cases h1 : (!validSbn e s f) = true
    · rw [if_pos h1]; exact h
    rw [if_neg h1]
    by_cases h2 : ¬ diff f.sbn s.sbn ≤ 0
    · rw [if_pos h2]; exact h
    rw [if_neg h2]
    refine Sat.bind (P := Kept i p) ?_ ih
    unfold takeRepair
    split_ifs
    · exact h
    · trivial
    · refine (kept_procRepair h f).bind (fun r hr => ?_)
      split_ifs
      · exact hr
      · exact kept_placeRepair hr f

/-- A source packet that was accepted once is accepted again. -/
theorem procSource_again {e : Env} {s : St} {f : Fec} (h1 : validSource f = true) (h2 : s.src.length = f.sblen) (h3 : s.pay = f.pay) :
    (procSource e s f).1 = true ∧ (procSource e s f).2.src = s.src ∧ (procSource e s f).2.srcRes = true := by
  unfold procSource
  rw [h1]
  have hp : canPay s f.pay = true := by unfold canPay; simp [h3]
  have hc : (canSrc e s f.sblen).1 = true := by unfold canSrc; rw [if_pos h2]
  rw [hp, hc]
  unfold updSrc
  rw [if_pos (show (updPay s f.pay).src.length = f.sblen from h2)]
  exact ⟨rfl, rfl, rfl⟩

theorem procSource_valid {e : Env} {s : St} {f : Fec} (h : (procSource e s f).1 = true) : validSource f = true := by
  unfold procSource at h
  by_cases h1 : (!validSource f) = true
  · rw [if_pos h1] at h; cases h
  · simpa using h1

theorem diff_self (a : Nat) : diff a a = 0 := by unfold diff; omega

/-- The call that starts decoding returns the first packet of the block, or the reader stops. -/
theorem start_getNext {c : Ctx} {e : Env} {s : St} (h : Inv c s) (hst : s.started = false) (hs : (tryStart e s).started = true) :
    Sat (fun _ => True) (fun r => (r.2 = none ∧ r.1.alive = false) ∨ ∃ f, r.2 = some (some ((tryStart e s).blk, 0), .recv f)) (getNext e (tryStart e s)) := by
  have hq : ∃ f q, s.srcQ = f :: q := by
    cases hq : s.srcQ with
    | nil =>
      unfold tryStart at hs
      rw [hq] at hs
      have hs : s.started = true := hs
      rw [hst] at hs; cases hs
    | cons f q => exact ⟨f, q, rfl⟩
  obtain ⟨f, q, hq⟩ := hq
  obtain ⟨p1, p2, p3⟩ := inv_procSource (e := e) h f
  have het : tryStart e s = if (!(procSource e s f).1) = true then (procSource e s f).2
      else { (procSource e s f).2 with sbn := f.sbn, blk := f.sbn, repQ := dropPrev f.sbn s.repQ, started := decide (f.esi = 0) } := by
    unfold tryStart
    rw [hq]
  by_cases h1 : (!(procSource e s f).1) = true
  · rw [if_pos h1] at het
    rw [het, p2.started, hst] at hs
    cases hs
  rw [if_neg h1] at het
  simp only [Bool.not_eq_true', Bool.not_eq_false] at h1
  obtain ⟨q1, q2, q3, q4, q5⟩ := p3 h1
  have hst' : (procSource e s f).2.started = false := p2.started.trans hst
  obtain ⟨z1, z2, z3⟩ := p1.pre hst'
  have hesi : f.esi = 0 := by
    rw [het] at hs
    simpa using hs
  obtain ⟨t, ht⟩ : ∃ t, t = tryStart e s := ⟨_, rfl⟩
  rw [← ht]
  have t1 : t.srcQ = f :: q := by rw [ht, het]; exact (procSource_queues e s f).1.trans hq
  have t2 : t.sbn = f.sbn := by rw [ht, het]
  have t3 : t.src = (procSource e s f).2.src := by rw [ht, het]
  have t4 : t.nxt = 0 := by rw [ht, het]; exact z3
  have t5 : t.pay = f.pay := by rw [ht, het]; exact q5
  have hv := procSource_valid h1
  obtain ⟨v1, v2, _⟩ := validSource_elim hv
  obtain ⟨a1, a2, a3⟩ := procSource_again (e := e) (s := t) hv (by rw [t3]; exact q2) t5
  have hlen : (procSource e t f).2.src.length = f.sblen := by rw [a2, t3]; exact q2
  have hnone : (procSource e t f).2.src[f.esi]? = some none := by
    have : f.esi < (procSource e t f).2.src.length := by omega
    rw [List.getElem?_eq_getElem this]
    congr 1
    refine z1 _ ?_
    have hm := List.getElem_mem this
    have hs2 : (procSource e t f).2.src = (procSource e s f).2.src := a2.trans t3
    rw [← hs2]
    exact hm
  have hfill : Sat (fun _ => True) (Kept 0 (.recv f)) (fill e t) := by
    unfold fill
    rw [t1]
    simp only [fillSource]
    have hd : diff f.sbn t.sbn = 0 := by rw [t2]; exact diff_self _
    rw [if_neg (by unfold validSbn; rw [hd]; simp), if_neg (by rw [hd]; decide)]
    refine Sat.bind (P := Kept 0 (.recv f)) (Sat.bind (P := Kept 0 (.recv f)) ?_ (kept_fillSource q)) (fun r hr => kept_fillRepair r.repQ r hr)
    unfold takeSource
    rw [if_neg (by rw [hd]; decide), if_neg (by rw [t2]; simp), a1]
    show Sat (fun _ => True) (Kept 0 (.recv f)) (placeSource (procSource e t f).2 f)
    unfold placeSource
    rw [if_neg (by rw [hlen]; simp; omega), if_pos hnone]
    refine ⟨?_, a3⟩
    show ((procSource e t f).2.src.set f.esi (some (.recv f)))[0]? = _
    rw [hesi, List.getElem?_set_self (by omega)]
  have hti : Inv c t := by rw [ht]; exact inv_tryStart h hst
  have htst : t.started = true := by rw [ht]; exact hs
  have hsame := inv_fill (e := e) (c := { c with A := fun _ => True })
    (s := t) ⟨hti.sbn, hti.srcQ, fun g hg => ⟨(hti.repQ g hg).1, fun _ => trivial, fun _ => trivial⟩, hti.srcN, hti.repN, hti.payN, fun hr => ⟨(hti.repT hr).1, fun _ => trivial⟩,
      hti.src, hti.rep, fun _ => Or.inl trivial, hti.lt, hti.pre⟩ htst
  unfold getNext
  cases hf : fill e t with
  | error x => trivial
  | ok r =>
    rw [hf] at hfill hsame
    obtain ⟨_, sm, _, _⟩ := hsame
    show Sat _ _ (match r.src[r.nxt]? with
      | none => .error .index
      | some (some p) => if !r.alive then .ok (r, none) else advance e r r.nxt p
      | some none => search e (fuelOf e r) r)
    rw [sm.nxt, t4, hfill.1]
    show Sat _ _ (if (!r.alive) = true then .ok (r, none) else advance e r 0 (.recv f))
    by_cases ha : (!r.alive) = true
    · rw [if_pos ha]
      exact Or.inl ⟨rfl, by simpa using ha⟩
    · rw [if_neg ha]
      unfold advance
      by_cases hl : 0 + 1 = r.src.length
      · rw [if_pos hl]
        refine Sat.bind (P := fun _ => True) (by cases nextBlock e { r with nxt := 0 + 1 } <;> trivial) (fun s' _ => Or.inr ⟨f, ?_⟩)
        rw [← sm.blk]
      · rw [if_neg hl]
        exact Or.inr ⟨f, by rw [← sm.blk]⟩

/-- A call in which decoding starts. -/
theorem start_read {c : Ctx} {e : Env} {s : St} {r : St × Option (Option (Nat × Nat) × Pkt)} (he : EnvOk c e) (h : Inv c s) (hst : s.started = false) {srcs reps : List (Fec × Nat)}
    (h1 : ∀ x ∈ srcs, SrcOk c x.1) (h2 : ∀ x ∈ reps, RepOk c x.1) (hr : read e s srcs reps = .ok r) :
    (r.1.started = false ∧ ∀ z p, r.2 ≠ some (some z, p)) ∨ (r.2 = none ∧ r.1.alive = false) ∨ ∃ b f, r.2 = some (some (b, 0), .recv f) := by
  have hstep := inv_read he h h1 h2
  rw [hr] at hstep
  have hi : Inv c (fetchAll s srcs reps) := inv_queues h (fetch_mem srcs _ h1 h.srcQ) (fetch_mem reps _ h2 h.repQ)
  unfold read at hr
  by_cases ha : (!s.alive) = true
  · rw [if_pos ha] at hr
    cases hr
    exact Or.inr (Or.inl ⟨rfl, by simpa using ha⟩)
  rw [if_neg ha] at hr
  unfold readIn at hr
  rw [if_neg (show ¬ (fetchAll s srcs reps).started = true from by show ¬ s.started = true; rw [hst]; decide)] at hr
  by_cases h3 : (tryStart e (fetchAll s srcs reps)).started = true
  · rw [if_pos h3] at hr
    have hg := start_getNext (e := e) hi hst h3
    cases hgn : getNext e (tryStart e (fetchAll s srcs reps)) with
    | error x => rw [hgn] at hr; cases hr
    | ok u =>
      rw [hgn] at hg hr
      have hr : (if (!u.1.alive) = true then Except.ok (u.1, none) else Except.ok u) = Except.ok r := hr
      by_cases hu : (!u.1.alive) = true
      · rw [if_pos hu] at hr
        cases hr
        exact Or.inr (Or.inl ⟨rfl, by simpa using hu⟩)
      · rw [if_neg hu] at hr
        cases hr
        rcases hg with hg | ⟨f, hg⟩
        · exact Or.inr (Or.inl hg)
        · exact Or.inr (Or.inr ⟨_, f, hg⟩)
  · rw [if_neg h3] at hr
    left
    rw [Bool.not_eq_true] at h3
    have hf := inv_forward (s := s) (inv_tryStart (e := e) hi hst) h3 hst
    cases hfw : forward (tryStart e (fetchAll s srcs reps)) with
    | error x => rw [hfw] at hr; cases hr
    | ok u =>
      have hu1 : u.1.started = false ∧ ∀ z p, u.2 ≠ some (some z, p) := by
        unfold forward at hfw
        cases hq : (tryStart e (fetchAll s srcs reps)).srcQ with
        | nil => rw [hq] at hfw; cases hfw; exact ⟨h3, fun z p c => by cases c⟩
        | cons f q => rw [hq] at hfw; cases hfw; exact ⟨h3, fun z p c => by cases c⟩
      rw [hfw] at hr
      have hr : (if (!u.1.alive) = true then Except.ok (u.1, none) else Except.ok u) = Except.ok r := hr
      by_cases hu : (!u.1.alive) = true
      · rw [if_pos hu] at hr
        cases hr
        exact ⟨hu1.1, fun z p c => by cases c⟩
      · rw [if_neg hu] at hr
        cases hr
        exact hu1

theorem dead_run {maxLen maxJump : Nat} (h : List Call) : ∀ {s : St}, s.alive = false → run maxLen maxJump s h = .ok (s, []) := by
  induction h with
  | nil => intro s _; rfl
  | cons k h ih =>
    intro s hs
    have : read ⟨maxLen, maxJump, k.alloc, k.dec⟩ s k.srcs k.reps = .ok (s, none) := by
      unfold read
      rw [if_pos (by rw [hs]; rfl)]
    simp only [run, this]
    show (run maxLen maxJump s h).bind _ = _
    rw [ih hs]
    rfl

end Verif.FecReader
