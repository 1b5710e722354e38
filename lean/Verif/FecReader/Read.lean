import Verif.FecReader.Lemmas

/-!
# FEC reader: one call
-/

namespace Verif.FecReader

/-- What is known about the decoder. -/
structure EnvOk (c : Ctx) (e : Env) : Prop where
  max : e.maxLen = c.maxLen
  dec : ∀ b g n t, e.dec b = some g → g n = some t → c.D t b n
  all : ∀ b g, e.dec b = some g → c.A .nullFec ∨ (∀ n, (g n).isSome = true) ∨ (∀ n, g n = none)

theorem restore_none {g : Nat → Option Nat} (hg : ∀ n, g n = none) (b : Nat) (l : List (Option Pkt)) : l.mapIdx (restore g b) = l := by
  apply List.ext_getElem?
  intro i
  rw [List.getElem?_mapIdx]
  cases h : l[i]? with
  | none => rfl
  | some o =>
    cases o with
    | none => simp [restore, hg]
    | some p => rfl

theorem inv_tryRepair {c : Ctx} {e : Env} {s : St} (h : Inv c s) (he : EnvOk c e) (hst : s.started = true) (hr : s.src.any isRest = true → c.A .nullFec) :
    Sat c.A (fun r => Inv c r ∧ r.srcQ = s.srcQ ∧ r.nxt = s.nxt ∧ r.blk = s.blk ∧ r.sbn = s.sbn ∧ r.started = s.started ∧ r.src.length = s.src.length) (tryRepair e s) := by
  unfold tryRepair
  by_cases h1 : (!s.canRepair) = true
  · rw [if_pos h1]; exact ⟨h, rfl, rfl, rfl, rfl, rfl, rfl⟩
  rw [if_neg h1]
  by_cases h2 : (!(s.srcRes && s.repRes && s.payRes)) = true
  · rw [if_pos h2]; exact ⟨h, rfl, rfl, rfl, rfl, rfl, rfl⟩
  rw [if_neg h2]
  simp only [Bool.not_eq_true', Bool.not_eq_false, Bool.and_eq_true] at h2
  obtain ⟨⟨a1, a2⟩, a3⟩ := h2
  cases hd : e.dec s.blk with
  | none => exact ⟨inv_dead h, rfl, rfl, rfl, rfl, rfl, rfl⟩
  | some g =>
    show Sat c.A _ (repairBlock e s g)
    unfold repairBlock
    by_cases h3 : s.src.length + s.rep.length > e.maxLen
    · rw [if_pos h3]
      exact (h.repT a2).2 (he.max ▸ h3)
    rw [if_neg h3]
    by_cases h4 : s.src.any isRest = true
    · rw [if_pos h4]; exact hr h4
    rw [if_neg h4]
    have h5 : ¬ (s.src.any (badPay s.pay) || s.rep.any (fun o => badPay s.pay (o.map .recv))) = true := by
      intro hc
      rcases (Bool.or_eq_true _ _).mp hc with hc | hc
      · obtain ⟨x, hx, hb⟩ := List.any_eq_true.mp hc
        obtain ⟨i, hi⟩ := List.mem_iff_getElem?.mp hx
        cases x with
        | none => cases hb
        | some p =>
          have := h.src i p hi
          cases p with
          | recv f =>
            have hb : decide (f.pay ≠ s.pay) = true := hb
            exact (of_decide_eq_true hb) this.2.2.2
          | rest t b n => cases hb
      · obtain ⟨x, hx, hb⟩ := List.any_eq_true.mp hc
        cases x with
        | none => cases hb
        | some f =>
          have hb : decide (f.pay ≠ s.pay) = true := hb
          exact (of_decide_eq_true hb) (h.rep f hx)
    rw [if_neg h5]
    have hlen : (s.src.mapIdx (restore g s.blk)).length = s.src.length := List.length_mapIdx
    refine ⟨⟨h.sbn, h.srcQ, h.repQ, ?_, h.repN, ?_, ?_, ?_, h.rep, ?_, ?_, ?_⟩, rfl, rfl, rfl, rfl, rfl, hlen⟩
    · intro hf
      have hf : s.srcRes = false := hf
      rw [a1] at hf; cases hf
    · intro hf
      have hf : s.payRes = false := hf
      rw [a3] at hf; cases hf
    · intro hrr
      refine ⟨a1, ?_⟩
      show (s.src.mapIdx (restore g s.blk)).length + s.rep.length > c.maxLen → _
      rw [hlen]; exact (h.repT a2).2
    · intro i p hp
      have hp : (s.src.mapIdx (restore g s.blk))[i]? = some (some p) := hp
      rw [List.getElem?_mapIdx] at hp
      cases ho : s.src[i]? with
      | none => rw [ho] at hp; cases hp
      | some o =>
        rw [ho] at hp
        have hp := Option.some.inj hp
        cases o with
        | some q =>
          have hp : some q = some p := hp
          rw [← Option.some.inj hp]
          exact h.src i q ho
        | none =>
          have hp : (g i).map (fun t => Pkt.rest t s.blk i) = some p := hp
          cases hg : g i with
          | none => rw [hg] at hp; cases hp
          | some t =>
            rw [hg] at hp
            rw [← Option.some.inj hp]
            exact ⟨rfl, rfl, he.dec s.blk g i t hd hg⟩
    · intro hr'
      rcases he.all s.blk g hd with hA | hA | hA
      · exact Or.inl hA
      · refine Or.inr (fun i _ hc => ?_)
        have hc : (s.src.mapIdx (restore g s.blk))[i]? = some none := hc
        rw [List.getElem?_mapIdx] at hc
        cases ho : s.src[i]? with
        | none => rw [ho] at hc; cases hc
        | some o =>
          rw [ho] at hc
          have hc := Option.some.inj hc
          cases o with
          | some q => cases hc
          | none =>
            have hc : (g i).map (fun t => Pkt.rest t s.blk i) = none := hc
            have := hA i
            cases hg : g i with
            | none => rw [hg] at this; cases this
            | some t => rw [hg] at hc; cases hc
      · have hr' : (s.src.mapIdx (restore g s.blk)).any isRest = true := hr'
        rw [restore_none hA] at hr'
        exact absurd hr' h4
    · intro _
      show s.nxt < (s.src.mapIdx (restore g s.blk)).length
      rw [hlen]; exact h.lt hst
    · intro hc
      have hc : s.started = false := hc
      rw [hst] at hc; cases hc

theorem findPos_some (l : List (Option Pkt)) : ∀ (k i : Nat) (p : Pkt), findPos l k = some (i, p) → k ≤ i ∧ l[i - k]? = some (some p) := by
  induction l with
  | nil => intro k i p h; cases h
  | cons o l ih =>
    intro k i p h
    cases o with
    | some q =>
      have h : some (k, q) = some (i, p) := h
      injection h with h
      injection h with h1 h2
      rw [← h1, ← h2]
      simp
    | none =>
      obtain ⟨a, b⟩ := ih (k + 1) i p h
      refine ⟨by omega, ?_⟩
      have : i - k = (i - (k + 1)) + 1 := by omega
      rw [this, List.getElem?_cons_succ]
      exact b

/-- Position `a` is not after `b`. -/
def NotAfter (a b : Nat × Nat) : Prop := a.1 < b.1 ∨ (a.1 = b.1 ∧ a.2 ≤ b.2)

/-- A packet delivered for a position. -/
def Good (c : Ctx) (at_ : Nat × Nat) : Pkt → Prop
  | .recv f => c.R f ∧ f.sbn = at_.1 % 65536 ∧ f.esi = at_.2
  | .rest t b p => (b, p) = at_ ∧ c.D t b p

/-- Result of a call after decoding has started. -/
def Post (c : Ctx) (s : St) (r : St × Option (Option (Nat × Nat) × Pkt)) : Prop :=
  Inv c r.1 ∧ r.1.started = true ∧
  match r.2 with
  | none => NotAfter (s.blk, s.nxt) (r.1.blk, r.1.nxt)
  | some (none, _) => False
  | some (some x, p) => NotAfter (s.blk, s.nxt) x ∧ Before x (r.1.blk, r.1.nxt) ∧ Good c x p

theorem fits_good {c : Ctx} {s : St} (h : Inv c s) {i : Nat} {p : Pkt} (hf : Fits c s i p) : Good c (s.blk, i) p := by
  cases p with
  | recv f => exact ⟨hf.1, hf.2.1.trans h.sbn, hf.2.2.1⟩
  | rest t b n =>
    obtain ⟨h1, h2, h3⟩ := hf
    exact ⟨by rw [h1, h2], h3⟩

theorem inv_nxt {c : Ctx} {s : St} (h : Inv c s) {n : Nat} (hn : s.nxt ≤ n) (hlt : n < s.src.length) {p : Pkt} {i : Nat} (hne : s.src[i]? = some (some p)) (hst : s.started = true) :
    Inv c { s with nxt := n } := by
  refine ⟨h.sbn, h.srcQ, h.repQ, ?_, h.repN, h.payN, h.repT, h.src, h.rep, ?_, fun _ => hlt, ?_⟩
  · intro hf
    exact absurd hne (none_getElem (h.srcN hf).1)
  · intro hr
    rcases h.rest hr with hr | hr
    · exact Or.inl hr
    · exact Or.inr (fun i hi => hr i (Nat.le_trans hn hi))
  · intro hc
    have hc : s.started = false := hc
    rw [hst] at hc; cases hc

theorem inv_advance {c : Ctx} {e : Env} {s : St} (h : Inv c s) (hst : s.started = true) {pos : Nat} {p : Pkt} (hp : s.src[pos]? = some (some p)) (hn : s.nxt ≤ pos) :
    Sat c.A (Post c s) (advance e s pos p) := by
  unfold advance
  have hg := fits_good h (h.src pos p hp)
  have hlt : pos < s.src.length := by
    rcases Nat.lt_or_ge pos s.src.length with hl | hl
    · exact hl
    · rw [List.getElem?_eq_none hl] at hp; cases hp
  by_cases h1 : pos + 1 = s.src.length
  · rw [if_pos h1, nextBlock_nxt]
    refine (inv_nextBlock h hst).bind ?_
    intro r hr
    exact ⟨hr.1, hr.2.1, Or.inr ⟨rfl, hn⟩, Or.inl (by show s.blk < r.blk; rw [hr.2.2.1]; omega), hg⟩
  · rw [if_neg h1]
    exact ⟨inv_nxt h (by omega) (by omega) hp hst, hst, Or.inr ⟨rfl, hn⟩, Or.inr ⟨rfl, by show pos < pos + 1; omega⟩, hg⟩

/-- Blocks that the search may still skip. -/
def meas (e : Env) (s : St) : Nat :=
  match s.srcQ with
  | [] => 0
  | f :: q => (q.length + 1) * (e.maxJump + 1) + (diff f.sbn s.sbn).toNat

theorem diff_succ {a b : Nat} (h : 0 < diff a b) : diff a ((b + 1) % 65536) = diff a b - 1 := by
  unfold diff at *
  omega

theorem meas_next {e : Env} {s r : St} (hf : Filled e r) (ha : r.alive = true) (hs : r.srcQ <:+ s.srcQ) (hsb : r.sbn = (s.sbn + 1) % 65536)
    (hne : s.srcQ ≠ []) (hh : ∀ f q, s.srcQ = f :: q → 0 < diff f.sbn s.sbn) : meas e r < meas e s := by
  unfold meas
  cases hsq : s.srcQ with
  | nil => exact absurd hsq hne
  | cons f q =>
    have hd := hh f q hsq
    cases hrq : r.srcQ with
    | nil =>
      show 0 < (q.length + 1) * (e.maxJump + 1) + _
      have : 0 < (q.length + 1) * (e.maxJump + 1) := Nat.mul_pos (by omega) (by omega)
      omega
    | cons f' q' =>
      show (q'.length + 1) * (e.maxJump + 1) + (diff f'.sbn r.sbn).toNat < (q.length + 1) * (e.maxJump + 1) + (diff f.sbn s.sbn).toNat
      obtain ⟨d1, d2⟩ := hf ha f' q' hrq
      rw [hsq, hrq] at hs
      rcases List.suffix_cons_iff.mp hs with he | he
      · injection he with he1 he2
        rw [hsb] at d1 d2 ⊢
        rw [he1, he2] at *
        rw [diff_succ hd] at *
        omega
      · have hl := he.length_le
        simp only [List.length_cons] at hl
        have : (q'.length + 1 + 1) * (e.maxJump + 1) ≤ (q.length + 1) * (e.maxJump + 1) := Nat.mul_le_mul_right _ (by omega)
        have e2 : (q'.length + 1 + 1) * (e.maxJump + 1) = (q'.length + 1) * (e.maxJump + 1) + (e.maxJump + 1) := by rw [Nat.succ_mul]
        omega

theorem inv_search {c : Ctx} {e : Env} (he : EnvOk c e) (fuel : Nat) : ∀ (s : St), Inv c s → s.started = true → (s.src.any isRest = true → c.A .nullFec) →
    Filled e s → 0 < fuel → (s.alive = true → meas e s < fuel) → Sat c.A (Post c s) (search e fuel s) := by
  induction fuel with
  | zero => intro s _ _ _ _ h; omega
  | succ fuel ih =>
    intro s h hst hr hf _ hm
    simp only [search]
    by_cases ha : (!s.alive) = true
    · rw [if_pos ha]
      exact ⟨h, hst, Or.inr ⟨rfl, Nat.le_refl _⟩⟩
    rw [if_neg ha]
    simp only [Bool.not_eq_true', Bool.not_eq_false] at ha
    refine (inv_tryRepair h he hst hr).bind ?_
    intro t ht
    obtain ⟨t1, t2, t3, t4, t5, t6, _⟩ := ht
    have tst : t.started = true := t6.trans hst
    have hpost : ∀ r, Post c t r → Post c s r := by
      intro r hr
      unfold Post at *
      rw [t3, t4] at hr
      exact hr
    cases hp : findPos (t.src.drop t.nxt) t.nxt with
    | some x =>
      obtain ⟨pos, p⟩ := x
      obtain ⟨f1, f2⟩ := findPos_some _ _ _ _ hp
      rw [List.getElem?_drop] at f2
      have f2 : t.src[pos]? = some (some p) := by rw [← f2]; congr 1; omega
      exact (inv_advance t1 tst f2 f1).mono hpost
    | none =>
      by_cases hq : t.srcQ = []
      · show Sat c.A _ (if t.srcQ = [] then _ else _)
        rw [if_pos hq]
        exact ⟨t1, tst, Or.inr ⟨t4.symm, by show s.nxt ≤ t.nxt; omega⟩⟩
      · show Sat c.A _ (if t.srcQ = [] then _ else _)
        rw [if_neg hq, nextBlock_nxt]
        refine (inv_nextBlock t1 tst).bind ?_
        intro r hr
        obtain ⟨r1, r2, r3, r4, r5, r6, r7, r8⟩ := hr
        have hms := hm ha
        rw [t2] at hq r7
        rw [t5] at r5
        have hpos : 0 < meas e s ∧ 0 < (e.maxJump + 1) := by
          unfold meas
          cases hsq : s.srcQ with
          | nil => exact absurd hsq hq
          | cons f q =>
            have : 0 < (q.length + 1) * (e.maxJump + 1) := Nat.mul_pos (by omega) (by omega)
            exact ⟨by show 0 < (q.length + 1) * (e.maxJump + 1) + _; omega, by omega⟩
        refine (ih r r1 r2 (by rw [r6]; exact fun c => by cases c) r8 (by omega) ?_).mono ?_
        · intro ra
          have := meas_next r8 ra r7 r5 hq (fun f q hfq => (hf ha f q hfq).1)
          omega
        · intro x hx
          have hlt : s.blk < r.blk := by omega
          refine ⟨hx.1, hx.2.1, ?_⟩
          have h3 := hx.2.2
          cases hx2 : x.2 with
          | none =>
            rw [hx2] at h3
            rcases h3 with h3 | h3
            · exact Or.inl (by have h3 : r.blk < x.1.blk := h3; show s.blk < x.1.blk; omega)
            · exact Or.inl (by have h3 : r.blk = x.1.blk := h3.1; show s.blk < x.1.blk; omega)
          | some y =>
            obtain ⟨y1, y2⟩ := y
            rw [hx2] at h3
            cases y1 with
            | none => exact h3
            | some z =>
              refine ⟨?_, h3.2⟩
              rcases h3.1 with h4 | h4
              · exact Or.inl (by have h4 : r.blk < z.1 := h4; show s.blk < z.1; omega)
              · exact Or.inl (by have h4 : r.blk = z.1 := h4.1; show s.blk < z.1; omega)

theorem inv_getNext {c : Ctx} {e : Env} {s : St} (he : EnvOk c e) (h : Inv c s) (hst : s.started = true) : Sat c.A (Post c s) (getNext e s) := by
  unfold getNext
  refine (inv_fill (e := e) h hst).bind ?_
  intro t ht
  obtain ⟨t1, t2, t3, t4⟩ := ht
  have tst : t.started = true := t2.started.trans hst
  have hpost : ∀ r, Post c t r → Post c s r := by
    intro r hr
    unfold Post at *
    rw [t2.nxt, t2.blk] at hr
    exact hr
  have hlt := t1.lt tst
  have hget : t.src[t.nxt]? = some t.src[t.nxt] := List.getElem?_eq_getElem hlt
  cases ho : t.src[t.nxt] with
  | some p =>
    rw [ho] at hget
    rw [hget]
    show Sat c.A _ (if (!t.alive) = true then _ else _)
    by_cases ha : (!t.alive) = true
    · rw [if_pos ha]
      exact ⟨t1, tst, Or.inr ⟨t2.blk.symm, by have := t2.nxt; show s.nxt ≤ t.nxt; omega⟩⟩
    · rw [if_neg ha]
      exact (inv_advance t1 tst hget (Nat.le_refl _)).mono hpost
  | none =>
    rw [ho] at hget
    rw [hget]
    show Sat c.A _ (search e (fuelOf e t) t)
    refine (inv_search he (fuelOf e t) t t1 tst ?_ t4 (by unfold fuelOf; omega) ?_).mono hpost
    · intro hr
      rcases t1.rest hr with hr | hr
      · exact hr
      · exact absurd hget (hr _ (Nat.le_refl _))
    · intro ha
      unfold meas fuelOf
      cases hq : t.srcQ with
      | nil => simp
      | cons f q =>
        show (q.length + 1) * (e.maxJump + 1) + (diff f.sbn t.sbn).toNat < (q.length + 1 + 1) * (e.maxJump + 1) + 1
        have := (t4 ha f q hq).2
        rw [Nat.succ_mul (q.length + 1)]
        omega

theorem dropPrev_mem (b : Nat) (q : List Fec) : ∀ f ∈ dropPrev b q, f ∈ q := by
  induction q with
  | nil => intro f hf; exact hf
  | cons g q ih =>
    intro f hf
    unfold dropPrev at hf
    split_ifs at hf with h1
    · exact List.mem_cons_of_mem _ (ih f hf)
    · exact hf

theorem procSource_queues (e : Env) (s : St) (f : Fec) : (procSource e s f).2.srcQ = s.srcQ ∧ (procSource e s f).2.repQ = s.repQ := by
  have h1 : (canSrc e s f.sblen).2.srcQ = s.srcQ ∧ (canSrc e s f.sblen).2.repQ = s.repQ := by
    unfold canSrc; split_ifs <;> exact ⟨rfl, rfl⟩
  have h2 : (updSrc e (updPay s f.pay) f.sblen).2.srcQ = s.srcQ ∧ (updSrc e (updPay s f.pay) f.sblen).2.repQ = s.repQ := by
    unfold updSrc; split_ifs <;> exact ⟨rfl, rfl⟩
  unfold procSource
  split_ifs
  · exact ⟨rfl, rfl⟩
  · exact ⟨rfl, rfl⟩
  · exact h1
  · exact h2

theorem inv_tryStart {c : Ctx} {e : Env} {s : St} (h : Inv c s) (hst : s.started = false) : Inv c (tryStart e s) := by
  unfold tryStart
  cases hq : s.srcQ with
  | nil => exact h
  | cons f q =>
    obtain ⟨p1, p2, p3⟩ := inv_procSource (e := e) h f
    show Inv c (if (!(procSource e s f).1) = true then _ else _)
    by_cases h1 : (!(procSource e s f).1) = true
    · rw [if_pos h1]; exact p1
    rw [if_neg h1]
    simp only [Bool.not_eq_true', Bool.not_eq_false] at h1
    obtain ⟨q1, q2, q3, q4, q5⟩ := p3 h1
    have hst' : (procSource e s f).2.started = false := p2.started.trans hst
    obtain ⟨z1, z2, z3⟩ := p1.pre hst'
    have hf : SrcOk c f := h.srcQ f (by rw [hq]; exact List.mem_cons_self)
    refine ⟨?_, p1.srcQ, ?_, p1.srcN, p1.repN, p1.payN, p1.repT, ?_, p1.rep, ?_, ?_, fun _ => ⟨z1, z2, z3⟩⟩
    · show f.sbn = f.sbn % 65536
      rw [Nat.mod_eq_of_lt hf.2]
    · intro g hg
      exact h.repQ g (dropPrev_mem _ _ g hg)
    · intro i p hp
      exact absurd hp (none_getElem z1)
    · intro hr
      have hr : (procSource e s f).2.src.any isRest = true := hr
      rw [none_noRest z1] at hr; cases hr
    · intro _
      show (procSource e s f).2.nxt < (procSource e s f).2.src.length
      rw [z3, q2]; omega

theorem fetch_mem {P : Fec → Prop} (l : List (Fec × Nat)) : ∀ (q : List Fec), (∀ x ∈ l, P x.1) → (∀ f ∈ q, P f) → ∀ f ∈ (fetch l q).1, P f := by
  induction l with
  | nil => intro q _ hq; exact hq
  | cons x l ih =>
    intro q hl hq
    obtain ⟨g, i⟩ := x
    unfold fetch
    split_ifs
    · exact hq
    · apply ih
      · intro x hx; exact hl x (List.mem_cons_of_mem _ hx)
      · intro f hf
        rcases List.mem_append.mp hf with hf | hf
        · exact hq f (List.mem_of_mem_take hf)
        · rcases List.mem_cons.mp hf with hf | hf
          · rw [hf]; exact hl (g, i) List.mem_cons_self
          · exact hq f (List.mem_of_mem_drop hf)

/-- Result of a call. -/
def Step (c : Ctx) (s : St) (r : St × Option (Option (Nat × Nat) × Pkt)) : Prop :=
  Inv c r.1 ∧ (s.started = true → r.1.started = true) ∧
  match r.2 with
  | none => s.started = true → NotAfter (s.blk, s.nxt) (r.1.blk, r.1.nxt)
  | some (none, p) => s.started = false ∧ r.1.started = false ∧ ∃ f, p = .recv f ∧ c.R f
  | some (some x, p) => r.1.started = true ∧ (s.started = true → NotAfter (s.blk, s.nxt) x) ∧ Before x (r.1.blk, r.1.nxt) ∧ Good c x p

theorem post_step {c : Ctx} {s t : St} {r : St × Option (Option (Nat × Nat) × Pkt)} (h : Post c t r)
    (hs : s.started = true → s.blk = t.blk ∧ s.nxt = t.nxt) : Step c s r := by
  refine ⟨h.1, fun _ => h.2.1, ?_⟩
  have h3 := h.2.2
  cases hr : r.2 with
  | none =>
    rw [hr] at h3
    intro hst
    rw [(hs hst).1, (hs hst).2]
    exact h3
  | some y =>
    obtain ⟨y1, y2⟩ := y
    rw [hr] at h3
    cases y1 with
    | none => exact absurd h3 id
    | some x =>
      refine ⟨h.2.1, fun hst => ?_, h3.2.1, h3.2.2⟩
      rw [(hs hst).1, (hs hst).2]
      exact h3.1

theorem inv_forward {c : Ctx} {s t : St} (h : Inv c t) (ht : t.started = false) (hs : s.started = false) : Sat c.A (Step c s) (forward t) := by
  unfold forward
  cases hq : t.srcQ with
  | nil => exact ⟨h, (fun k => absurd k (by rw [hs]; decide)), (fun k => absurd k (by rw [hs]; decide))⟩
  | cons f q =>
    refine ⟨?_, (fun k => absurd k (by rw [hs]; decide)), hs, ht, f, rfl, ?_⟩
    · have := inv_queues (a := t.alive) h (q := q) (r := t.repQ) (fun g hg => h.srcQ g (by rw [hq]; exact List.mem_cons_of_mem _ hg)) h.repQ
      exact this
    · exact (h.srcQ f (by rw [hq]; exact List.mem_cons_self)).1

theorem inv_read {c : Ctx} {e : Env} {s : St} (he : EnvOk c e) (h : Inv c s) {srcs reps : List (Fec × Nat)} (h1 : ∀ x ∈ srcs, SrcOk c x.1) (h2 : ∀ x ∈ reps, RepOk c x.1) :
    Sat c.A (Step c s) (read e s srcs reps) := by
  unfold read
  by_cases ha : (!s.alive) = true
  · rw [if_pos ha]
    exact ⟨h, id, fun _ => Or.inr ⟨rfl, Nat.le_refl _⟩⟩
  rw [if_neg ha]
  have hi : Inv c (fetchAll s srcs reps) := inv_queues h (fetch_mem srcs _ h1 h.srcQ) (fetch_mem reps _ h2 h.repQ)
  have key : Sat c.A (Step c s) (readIn e (fetchAll s srcs reps)) := by
    unfold readIn
    by_cases hst : s.started = true
    · rw [if_pos (show (fetchAll s srcs reps).started = true from hst)]
      exact (inv_getNext he hi hst).mono (fun r hr => post_step hr (fun _ => ⟨rfl, rfl⟩))
    · have hsf : s.started = false := by rwa [Bool.not_eq_true] at hst
      rw [if_neg (show ¬ (fetchAll s srcs reps).started = true from hst)]
      have hts := inv_tryStart (e := e) hi hsf
      by_cases h3 : (tryStart e (fetchAll s srcs reps)).started = true
      · rw [if_pos h3]
        exact (inv_getNext he hts h3).mono (fun r hr => post_step hr (fun c => absurd c hst))
      · rw [if_neg h3]
        rw [Bool.not_eq_true] at h3
        exact inv_forward hts h3 hsf
  refine key.bind ?_
  intro r hr
  by_cases hra : (!r.1.alive) = true
  · rw [if_pos hra]
    refine ⟨hr.1, hr.2.1, fun hst => ?_⟩
    have h3 := hr.2.2
    cases hr2 : r.2 with
    | none => rw [hr2] at h3; exact h3 hst
    | some y =>
      obtain ⟨y1, y2⟩ := y
      rw [hr2] at h3
      cases y1 with
      | none =>
        have := h3.1
        rw [hst] at this; cases this
      | some x =>
        have a1 := h3.2.1 hst
        have a2 := h3.2.2.1
        rcases a1 with a1 | a1 <;> rcases a2 with a2 | a2
        · exact Or.inl (Nat.lt_trans a1 a2)
        · exact Or.inl (by have e1 : x.1 = r.1.blk := a2.1; have a1 : s.blk < x.1 := a1; show s.blk < r.1.blk; omega)
        · exact Or.inl (by have e1 : s.blk = x.1 := a1.1; have a2 : x.1 < r.1.blk := a2; show s.blk < r.1.blk; omega)
        · exact Or.inr ⟨a1.1.trans a2.1, Nat.le_of_lt (Nat.lt_of_le_of_lt a1.2 a2.2)⟩
  · rw [if_neg hra]; exact hr

end Verif.FecReader
