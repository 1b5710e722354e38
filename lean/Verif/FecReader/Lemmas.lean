import Verif.FecReader.Spec
import Mathlib.Tactic.SplitIfs
import Mathlib.Tactic.Linarith

/-!
# FEC reader: invariant
-/

namespace Verif.FecReader

/-- The result is good, or the fault is an accepted one. -/
def Sat {α : Type} (A : Fault → Prop) (P : α → Prop) : Except Fault α → Prop
  | .ok a => P a
  | .error f => A f

theorem Sat.bind {α β : Type} {A : Fault → Prop} {P : α → Prop} {Q : β → Prop} {x : Except Fault α} {g : α → Except Fault β}
    (h : Sat A P x) (hg : ∀ a, P a → Sat A Q (g a)) : Sat A Q (x.bind g) := by
  cases x with
  | ok a => exact hg a h
  | error f => exact h

theorem Sat.mono {α : Type} {A : Fault → Prop} {P Q : α → Prop} {x : Except Fault α} (h : Sat A P x) (hg : ∀ a, P a → Q a) : Sat A Q x := by
  cases x with
  | ok a => exact hg a h
  | error f => exact h

/-- What is known about the outside: accepted faults, source packets which arrived, what was restored. -/
structure Ctx where
  A : Fault → Prop
  R : Fec → Prop
  D : Nat → Nat → Nat → Prop
  maxLen : Nat

/-- A packet fits its position. -/
def Fits (c : Ctx) (s : St) (i : Nat) : Pkt → Prop
  | .recv f => c.R f ∧ f.sbn = s.sbn ∧ f.esi = i ∧ f.pay = s.pay
  | .rest t b n => b = s.blk ∧ n = i ∧ c.D t b n

/-- Fine source packet. -/
def SrcOk (c : Ctx) (f : Fec) : Prop := c.R f ∧ f.sbn < 65536

/-- Fine repair packet. -/
def RepOk (c : Ctx) (f : Fec) : Prop := f.sbn < 65536 ∧ (f.blen = 0 → c.A .zeroLen) ∧ (f.blen > c.maxLen → c.A .overMax)

structure Inv (c : Ctx) (s : St) : Prop where
  sbn : s.sbn = s.blk % 65536
  srcQ : ∀ f ∈ s.srcQ, SrcOk c f
  repQ : ∀ f ∈ s.repQ, RepOk c f
  srcN : s.srcRes = false → (∀ x ∈ s.src, x = none) ∧ s.nxt = 0
  repN : s.repRes = false → ∀ x ∈ s.rep, x = none
  payN : s.payRes = false → (∀ x ∈ s.src, x = none) ∧ ∀ x ∈ s.rep, x = none
  repT : s.repRes = true → s.srcRes = true ∧ (s.src.length + s.rep.length > c.maxLen → c.A .overMax)
  src : ∀ i p, s.src[i]? = some (some p) → Fits c s i p
  rep : ∀ f, some f ∈ s.rep → f.pay = s.pay
  rest : s.src.any isRest = true → c.A .nullFec ∨ ∀ i, s.nxt ≤ i → s.src[i]? ≠ some none
  lt : s.started = true → s.nxt < s.src.length
  pre : s.started = false → (∀ x ∈ s.src, x = none) ∧ (∀ x ∈ s.rep, x = none) ∧ s.nxt = 0

/-- What filling does not change. -/
structure Same (s s' : St) : Prop where
  nxt : s'.nxt = s.nxt
  sbn : s'.sbn = s.sbn
  blk : s'.blk = s.blk
  started : s'.started = s.started
  noRest : s.src.any isRest = false → s'.src.any isRest = false

theorem Same.refl (s : St) : Same s s := ⟨rfl, rfl, rfl, rfl, id⟩

theorem Same.trans {a b c : St} (h1 : Same a b) (h2 : Same b c) : Same a c :=
  ⟨h2.nxt.trans h1.nxt, h2.sbn.trans h1.sbn, h2.blk.trans h1.blk, h2.started.trans h1.started, fun h => h2.noRest (h1.noRest h)⟩

theorem none_noRest {l : List (Option Pkt)} (h : ∀ x ∈ l, x = none) : l.any isRest = false := by
  rw [Bool.eq_false_iff]
  intro hc
  obtain ⟨x, hx, hr⟩ := List.any_eq_true.mp hc
  rw [h x hx] at hr
  cases hr

theorem none_getElem {l : List (Option Pkt)} (h : ∀ x ∈ l, x = none) {i : Nat} {p : Pkt} : l[i]? ≠ some (some p) := by
  intro hc
  have := h _ (List.mem_of_getElem? hc)
  cases this

theorem resize_none {α : Type} {l : List (Option α)} (h : ∀ x ∈ l, x = none) (n : Nat) : ∀ x ∈ resize l n, x = none := by
  intro x hx
  rcases List.mem_append.mp hx with hx | hx
  · exact h x (List.mem_of_mem_take hx)
  · exact (List.mem_replicate.mp hx).2

theorem resize_length {α : Type} (l : List (Option α)) (n : Nat) : (resize l n).length = n := by
  unfold resize
  rw [List.length_append, List.length_take, List.length_replicate]
  omega

theorem inv_dead {c : Ctx} {s : St} (h : Inv c s) : Inv c { s with alive := false } := ⟨h.sbn, h.srcQ, h.repQ, h.srcN, h.repN, h.payN, h.repT, h.src, h.rep, h.rest, h.lt, h.pre⟩

theorem inv_updPay {c : Ctx} {s : St} (h : Inv c s) {n : Nat} (hc : canPay s n = true) : Inv c (updPay s n) ∧ Same s (updPay s n) := by
  unfold updPay
  refine ⟨?_, rfl, rfl, rfl, rfl, id⟩
  unfold canPay at hc
  by_cases he : s.pay = n
  · refine ⟨h.sbn, h.srcQ, h.repQ, h.srcN, h.repN, fun c => absurd c (by simp), h.repT, ?_, ?_, h.rest, h.lt, h.pre⟩
    · intro i p hp
      have := h.src i p hp
      cases p with
      | recv f => exact ⟨this.1, this.2.1, this.2.2.1, this.2.2.2.trans he⟩
      | rest t b n => exact this
    · intro f hf
      exact (h.rep f hf).trans he
  · have hf : s.payRes = false := by
      cases hp : s.payRes with
      | false => rfl
      | true =>
        rw [hp, decide_eq_false he] at hc
        cases hc
    obtain ⟨n1, n2⟩ := h.payN hf
    refine ⟨h.sbn, h.srcQ, h.repQ, h.srcN, h.repN, fun c => absurd c (by simp), h.repT, ?_, ?_, h.rest, h.lt, h.pre⟩
    · intro i p hp
      exact absurd hp (none_getElem n1)
    · intro f hf'
      have := n2 _ hf'
      cases this

theorem canSrc_true {e : Env} {s : St} {n : Nat} (h : (canSrc e s n).1 = true) : s.src.length = n ∨ s.srcRes = false := by
  unfold canSrc at h
  by_cases h1 : s.src.length = n
  · exact Or.inl h1
  · rw [if_neg h1] at h
    cases hs : s.srcRes with
    | false => exact Or.inr rfl
    | true => rw [if_pos hs] at h; cases h

theorem inv_canSrc {c : Ctx} {e : Env} {s : St} (h : Inv c s) (n : Nat) : Inv c (canSrc e s n).2 ∧ Same s (canSrc e s n).2 := by
  unfold canSrc
  split_ifs
  · exact ⟨h, Same.refl s⟩
  · exact ⟨h, Same.refl s⟩
  · exact ⟨inv_dead h, rfl, rfl, rfl, rfl, id⟩
  · exact ⟨h, Same.refl s⟩

theorem inv_canRep {c : Ctx} {e : Env} {s : St} (h : Inv c s) (n : Nat) : Inv c (canRep e s n).2 ∧ Same s (canRep e s n).2 := by
  unfold canRep
  split_ifs
  · exact ⟨h, Same.refl s⟩
  · exact ⟨h, Same.refl s⟩
  · exact ⟨inv_dead h, rfl, rfl, rfl, rfl, id⟩
  · exact ⟨h, Same.refl s⟩

theorem inv_updSrc {c : Ctx} {e : Env} {s : St} (h : Inv c s) {n : Nat} (hn : n ≠ 0) (hc : s.src.length = n ∨ s.srcRes = false) :
    Inv c (updSrc e s n).2 ∧ Same s (updSrc e s n).2 ∧ (updSrc e s n).2.payRes = s.payRes ∧ (updSrc e s n).2.pay = s.pay ∧
    (updSrc e s n).2.rep = s.rep ∧ (updSrc e s n).2.repRes = s.repRes ∧
    ((updSrc e s n).1 = true → (updSrc e s n).2.src.length = n ∧ (updSrc e s n).2.srcRes = true) := by
  unfold updSrc
  by_cases h1 : s.src.length = n
  · rw [if_pos h1]
    exact ⟨⟨h.sbn, h.srcQ, h.repQ, fun c => absurd c (by simp), h.repN, h.payN, fun hr => ⟨rfl, (h.repT hr).2⟩, h.src, h.rep, h.rest, h.lt, h.pre⟩, ⟨rfl, rfl, rfl, rfl, id⟩, rfl, rfl, rfl,
      rfl, fun _ => ⟨h1, rfl⟩⟩
  · rw [if_neg h1]
    have hs : s.srcRes = false := hc.resolve_left h1
    obtain ⟨n1, n2⟩ := h.srcN hs
    have hr : s.repRes = false := by
      cases hr : s.repRes with
      | false => rfl
      | true => have := (h.repT hr).1; rw [hs] at this; cases this
    by_cases h2 : (!e.alloc n) = true
    · rw [if_pos h2]
      exact ⟨inv_dead h, ⟨rfl, rfl, rfl, rfl, id⟩, rfl, rfl, rfl, rfl, fun c => by cases c⟩
    · rw [if_neg h2]
      have hz := resize_none n1 n
      refine ⟨⟨h.sbn, h.srcQ, h.repQ, fun c => absurd c (by simp), h.repN, fun hp => ⟨hz, (h.payN hp).2⟩, ?_, ?_, h.rep, ?_, ?_, ?_⟩, ⟨rfl, rfl, rfl, rfl, fun _ => none_noRest hz⟩,
        rfl, rfl, rfl, rfl, fun _ => ⟨resize_length _ _, rfl⟩⟩
      · intro hr'
        have hr' : s.repRes = true := hr'
        rw [hr] at hr'; cases hr'
      · intro i p hp
        exact absurd hp (none_getElem hz)
      · intro hc'
        have := none_noRest hz
        have hc' : (resize s.src n).any isRest = true := hc'
        rw [this] at hc'; cases hc'
      · intro _
        show s.nxt < (resize s.src n).length
        rw [resize_length, n2]; omega
      · intro hst
        obtain ⟨_, p2, p3⟩ := h.pre hst
        exact ⟨hz, p2, p3⟩

theorem validSource_elim {f : Fec} (h : validSource f = true) : f.esi < f.sblen ∧ f.sblen ≠ 0 ∧ f.pay ≠ 0 := by
  unfold validSource at h
  simp only [Bool.and_eq_true, decide_eq_true_eq] at h
  exact ⟨h.1.1.1, h.1.1.2, h.2⟩

theorem validRepair_elim {f : Fec} (h : validRepair f = true) : f.sblen ≤ f.esi ∧ f.sblen ≠ 0 ∧ (f.blen = 0 ∨ f.esi < f.blen) ∧ f.pay ≠ 0 := by
  unfold validRepair at h
  simp only [Bool.and_eq_true, decide_eq_true_eq, Bool.or_eq_true] at h
  refine ⟨h.1.1.1, h.1.1.2, ?_, h.2⟩
  rcases h.1.2 with h | h
  · exact Or.inl h
  · exact Or.inr h.1

theorem inv_procSource {c : Ctx} {e : Env} {s : St} (h : Inv c s) (f : Fec) :
    Inv c (procSource e s f).2 ∧ Same s (procSource e s f).2 ∧
    ((procSource e s f).1 = true → f.esi < f.sblen ∧ (procSource e s f).2.src.length = f.sblen ∧ (procSource e s f).2.srcRes = true ∧
      (procSource e s f).2.payRes = true ∧ (procSource e s f).2.pay = f.pay) := by
  unfold procSource
  by_cases h1 : (!validSource f) = true
  · rw [if_pos h1]; exact ⟨h, Same.refl s, fun c => by cases c⟩
  rw [if_neg h1]
  by_cases h2 : (!canPay s f.pay) = true
  · rw [if_pos h2]; exact ⟨h, Same.refl s, fun c => by cases c⟩
  rw [if_neg h2]
  by_cases h3 : (!(canSrc e s f.sblen).1) = true
  · rw [if_pos h3]; exact ⟨(inv_canSrc h _).1, (inv_canSrc h _).2, fun c => by cases c⟩
  rw [if_neg h3]
  simp only [Bool.not_eq_true', Bool.not_eq_false] at h1 h2 h3
  obtain ⟨v1, v2, _⟩ := validSource_elim h1
  obtain ⟨p1, p2⟩ := inv_updPay h h2
  have hcs := canSrc_true h3
  obtain ⟨u1, u2, u3, u4, _, _, u5⟩ := inv_updSrc (e := e) p1 v2 hcs
  exact ⟨u1, p2.trans u2, fun ht => ⟨v1, (u5 ht).1, (u5 ht).2, u3, u4⟩⟩

theorem inv_updRep {c : Ctx} {e : Env} {s : St} (h : Inv c s) {f : Fec} (hs : s.srcRes = true) (hl : s.src.length = f.sblen)
    (hv : f.blen = 0 ∨ f.sblen < f.blen) (ho : RepOk c f) (hr : s.src.length + s.rep.length = f.blen ∨ s.repRes = false) :
    Sat c.A (fun r => Inv c r.2 ∧ Same s r.2 ∧ r.2.payRes = s.payRes ∧ r.2.pay = s.pay ∧ r.2.src = s.src ∧ r.2.srcRes = s.srcRes ∧
      (r.1 = true → r.2.src.length + r.2.rep.length = f.blen ∧ r.2.repRes = true)) (updRep e s f.blen) := by
  unfold updRep
  by_cases h1 : s.src.length + s.rep.length = f.blen
  · rw [if_pos h1]
    refine ⟨⟨h.sbn, h.srcQ, h.repQ, h.srcN, fun c => absurd c (by simp), h.payN, fun _ => ⟨hs, ?_⟩, h.src, h.rep, h.rest, h.lt, h.pre⟩, ⟨rfl, rfl, rfl, rfl, id⟩, rfl, rfl, rfl, rfl,
      fun _ => ⟨h1, rfl⟩⟩
    intro hgt
    have hgt : s.src.length + s.rep.length > c.maxLen := hgt
    exact ho.2.2 (by omega)
  rw [if_neg h1]
  have hr : s.repRes = false := hr.resolve_left h1
  by_cases h2 : ¬ f.blen > s.src.length
  · rw [if_pos h2]
    exact ho.2.1 (by omega)
  rw [if_neg h2]
  by_cases h3 : (!e.alloc (f.blen - s.src.length)) = true
  · rw [if_pos h3]
    exact ⟨inv_dead h, ⟨rfl, rfl, rfl, rfl, id⟩, rfl, rfl, rfl, rfl, fun c => by cases c⟩
  rw [if_neg h3]
  have hz := resize_none (h.repN hr) (f.blen - s.src.length)
  have hlen : s.src.length + (resize s.rep (f.blen - s.src.length)).length = f.blen := by rw [resize_length]; omega
  refine ⟨⟨h.sbn, h.srcQ, h.repQ, h.srcN, fun c => absurd c (by simp), fun hp => ⟨(h.payN hp).1, hz⟩, fun _ => ⟨hs, ?_⟩, h.src, ?_, h.rest, h.lt, ?_⟩, ⟨rfl, rfl, rfl, rfl, id⟩,
    rfl, rfl, rfl, rfl, fun _ => ⟨hlen, rfl⟩⟩
  · intro hgt
    have hgt : s.src.length + (resize s.rep (f.blen - s.src.length)).length > c.maxLen := hgt
    exact ho.2.2 (by omega)
  · intro g hg
    have := hz _ hg
    cases this
  · intro hst
    obtain ⟨p1, _, p3⟩ := h.pre hst
    exact ⟨p1, hz, p3⟩

theorem inv_procRepair {c : Ctx} {e : Env} {s : St} (h : Inv c s) {f : Fec} (ho : RepOk c f) :
    Sat c.A (fun r => Inv c r.2 ∧ Same s r.2 ∧ (r.1 = true → f.sblen ≤ f.esi ∧ f.esi < f.blen ∧ r.2.src.length = f.sblen ∧
      r.2.src.length + r.2.rep.length = f.blen ∧ r.2.repRes = true ∧ r.2.payRes = true ∧ r.2.pay = f.pay)) (procRepair e s f) := by
  unfold procRepair
  by_cases h1 : (!validRepair f) = true
  · rw [if_pos h1]; exact ⟨h, Same.refl s, fun c => by cases c⟩
  rw [if_neg h1]
  by_cases h2 : (!canPay s f.pay) = true
  · rw [if_pos h2]; exact ⟨h, Same.refl s, fun c => by cases c⟩
  rw [if_neg h2]
  by_cases h3 : (!(canSrc e s f.sblen).1) = true
  · rw [if_pos h3]; exact ⟨(inv_canSrc h _).1, (inv_canSrc h _).2, fun c => by cases c⟩
  rw [if_neg h3]
  by_cases h4 : (!(canRep e s f.blen).1) = true
  · rw [if_pos h4]; exact ⟨(inv_canRep h _).1, (inv_canRep h _).2, fun c => by cases c⟩
  rw [if_neg h4]
  simp only [Bool.not_eq_true', Bool.not_eq_false] at h1 h2 h3 h4
  obtain ⟨v1, v2, v3, _⟩ := validRepair_elim h1
  obtain ⟨p1, p2⟩ := inv_updPay h h2
  have hcs := canSrc_true h3
  obtain ⟨u1, u2, u3, u4, u6, u7, u5⟩ := inv_updSrc (e := e) p1 v2 hcs
  by_cases h5 : (!(updSrc e (updPay s f.pay) f.sblen).1) = true
  · rw [if_pos h5]; exact ⟨u1, p2.trans u2, fun c => by cases c⟩
  rw [if_neg h5]
  simp only [Bool.not_eq_true', Bool.not_eq_false] at h5
  obtain ⟨w1, w2⟩ := u5 h5
  have hcr : s.src.length + s.rep.length = f.blen ∨ s.repRes = false := by
    unfold canRep at h4
    by_cases k1 : s.src.length + s.rep.length = f.blen
    · exact Or.inl k1
    · rw [if_neg k1] at h4
      cases hs : s.repRes with
      | false => exact Or.inr rfl
      | true => rw [if_pos hs] at h4; cases h4
  have hr' : (updSrc e (updPay s f.pay) f.sblen).2.src.length + (updSrc e (updPay s f.pay) f.sblen).2.rep.length = f.blen ∨
      (updSrc e (updPay s f.pay) f.sblen).2.repRes = false := by
    rw [u6, u7, w1]
    show f.sblen + s.rep.length = f.blen ∨ s.repRes = false
    cases hs : s.repRes with
    | false => exact Or.inr rfl
    | true =>
      have k1 := hcr.resolve_right (by rw [hs]; exact fun c => by cases c)
      have k2 := hcs.resolve_right (by rw [(h.repT hs).1]; exact fun c => by cases c)
      exact Or.inl (by omega)
  refine (inv_updRep u1 w2 w1 (by omega) ho hr').mono ?_
  intro r hr
  obtain ⟨r1, r2, r3, r4, r5, r6, r7⟩ := hr
  refine ⟨r1, p2.trans (u2.trans r2), fun ht => ?_⟩
  obtain ⟨t1, t2⟩ := r7 ht
  have t3 : r.2.src.length = f.sblen := by rw [r5]; exact w1
  have hlt : f.esi < f.blen := by
    rcases v3 with v3 | v3
    · omega
    · exact v3
  exact ⟨v1, hlt, t3, t1, t2, by rw [r3, u3]; rfl, by rw [r4, u4]; rfl⟩

theorem noRest_set {l : List (Option Pkt)} (i : Nat) (f : Fec) (h : (l.set i (some (.recv f))).any isRest = true) : l.any isRest = true := by
  obtain ⟨x, hx, hr⟩ := List.any_eq_true.mp h
  rcases List.mem_or_eq_of_mem_set hx with hx | hx
  · exact List.any_eq_true.mpr ⟨x, hx, hr⟩
  · rw [hx] at hr; cases hr

theorem inv_placeSource {c : Ctx} {s : St} (h : Inv c s) {f : Fec} (hs : s.src.length = f.sblen) (he : f.esi < f.sblen) (hR : c.R f)
    (hsb : f.sbn = s.sbn) (hp : f.pay = s.pay) (h1 : s.srcRes = true) (h2 : s.payRes = true) (hst : s.started = true) :
    Sat c.A (fun r => Inv c r ∧ Same s r) (placeSource s f) := by
  unfold placeSource
  rw [if_neg (by rw [hs]; simp [he])]
  by_cases h3 : s.src[f.esi]? = some none
  · rw [if_pos h3]
    refine ⟨⟨h.sbn, h.srcQ, h.repQ, ?_, h.repN, ?_, ?_, ?_, h.rep, ?_, ?_, ?_⟩, rfl, rfl, rfl, rfl, ?_⟩
    · intro hf
      have hf : s.srcRes = false := hf
      rw [h1] at hf; cases hf
    · intro hf
      have hf : s.payRes = false := hf
      rw [h2] at hf; cases hf
    · intro hr
      have := h.repT hr
      refine ⟨this.1, ?_⟩
      show (s.src.set f.esi _).length + s.rep.length > c.maxLen → _
      rw [List.length_set]; exact this.2
    · intro i p hip
      have hip : (s.src.set f.esi (some (.recv f)))[i]? = some (some p) := hip
      rw [List.getElem?_set] at hip
      by_cases hi : f.esi = i
      · rw [if_pos hi, if_pos (by omega)] at hip
        have := Option.some.inj (Option.some.inj hip)
        rw [← this]
        exact ⟨hR, hsb, hi, hp⟩
      · rw [if_neg hi] at hip
        exact h.src i p hip
    · intro hr
      rcases h.rest (noRest_set _ _ hr) with hr | hr
      · exact Or.inl hr
      · refine Or.inr (fun i hi hc => ?_)
        have hc : (s.src.set f.esi (some (.recv f)))[i]? = some none := hc
        rw [List.getElem?_set] at hc
        by_cases hi' : f.esi = i
        · rw [if_pos hi', if_pos (by omega)] at hc
          have := Option.some.inj hc
          cases this
        · rw [if_neg hi'] at hc
          exact hr i hi hc
    · intro hst'
      show s.nxt < (s.src.set f.esi _).length
      rw [List.length_set]; exact h.lt hst'
    · intro hc
      have hc : s.started = false := hc
      rw [hst] at hc; cases hc
    · intro hr
      rw [Bool.eq_false_iff] at hr ⊢
      exact fun hc => hr (noRest_set _ _ hc)
  · rw [if_neg h3]
    exact ⟨h, Same.refl s⟩

theorem inv_placeRepair {c : Ctx} {s : St} (h : Inv c s) {f : Fec} (hs : s.src.length = f.sblen) (he : f.sblen ≤ f.esi) (he2 : f.esi < f.blen)
    (hl : s.src.length + s.rep.length = f.blen) (hp : f.pay = s.pay) (h1 : s.repRes = true) (h2 : s.payRes = true) (hst : s.started = true) :
    Sat c.A (fun r => Inv c r ∧ Same s r) (placeRepair s f) := by
  unfold placeRepair
  rw [if_neg (by intro hc; exact hc ⟨hs.symm, by omega, by omega⟩)]
  by_cases h3 : s.rep[f.esi - f.sblen]? = some none
  · rw [if_pos h3]
    refine ⟨⟨h.sbn, h.srcQ, h.repQ, h.srcN, ?_, ?_, ?_, h.src, ?_, h.rest, h.lt, ?_⟩, rfl, rfl, rfl, rfl, id⟩
    · intro hf
      have hf : s.repRes = false := hf
      rw [h1] at hf; cases hf
    · intro hf
      have hf : s.payRes = false := hf
      rw [h2] at hf; cases hf
    · intro hr
      have := h.repT hr
      refine ⟨this.1, ?_⟩
      show s.src.length + (s.rep.set _ _).length > c.maxLen → _
      rw [List.length_set]; exact this.2
    · intro g hg
      rcases List.mem_or_eq_of_mem_set hg with hg | hg
      · exact h.rep g hg
      · rw [Option.some.inj hg]; exact hp
    · intro hc
      have hc : s.started = false := hc
      rw [hst] at hc; cases hc
  · rw [if_neg h3]
    exact ⟨h, Same.refl s⟩

theorem diff_zero {a b : Nat} (ha : a < 65536) (hb : b < 65536) (h1 : diff a b ≤ 0) (h2 : ¬ diff a b < 0) : a = b := by
  unfold diff at h1 h2
  omega

theorem inv_takeSource {c : Ctx} {e : Env} {s : St} (h : Inv c s) {f : Fec} (ho : SrcOk c f) (hd : diff f.sbn s.sbn ≤ 0) (hst : s.started = true) :
    Sat c.A (fun r => Inv c r ∧ Same s r) (takeSource e s f) := by
  unfold takeSource
  by_cases h1 : diff f.sbn s.sbn < 0
  · rw [if_pos h1]; exact ⟨h, Same.refl s⟩
  rw [if_neg h1]
  have heq := diff_zero ho.2 (by rw [h.sbn]; exact Nat.mod_lt _ (by omega)) hd h1
  rw [if_neg (by simp [heq])]
  obtain ⟨p1, p2, p3⟩ := inv_procSource (e := e) h f
  by_cases h2 : (!(procSource e s f).1) = true
  · rw [if_pos h2]; exact ⟨p1, p2⟩
  rw [if_neg h2]
  simp only [Bool.not_eq_true', Bool.not_eq_false] at h2
  obtain ⟨q1, q2, q3, q4, q5⟩ := p3 h2
  refine (inv_placeSource p1 q2 q1 ho.1 (by rw [p2.sbn]; exact heq) q5.symm q3 q4 (by rw [p2.started]; exact hst)).mono ?_
  intro r hr
  exact ⟨hr.1, p2.trans hr.2⟩

theorem inv_takeRepair {c : Ctx} {e : Env} {s : St} (h : Inv c s) {f : Fec} (ho : RepOk c f) (hd : diff f.sbn s.sbn ≤ 0) (hst : s.started = true) :
    Sat c.A (fun r => Inv c r ∧ Same s r) (takeRepair e s f) := by
  unfold takeRepair
  by_cases h1 : diff f.sbn s.sbn < 0
  · rw [if_pos h1]; exact ⟨h, Same.refl s⟩
  rw [if_neg h1]
  have heq := diff_zero ho.1 (by rw [h.sbn]; exact Nat.mod_lt _ (by omega)) hd h1
  rw [if_neg (by simp [heq])]
  refine (inv_procRepair (e := e) h ho).bind ?_
  intro r hr
  obtain ⟨p1, p2, p3⟩ := hr
  by_cases h2 : (!r.1) = true
  · rw [if_pos h2]; exact ⟨p1, p2⟩
  rw [if_neg h2]
  simp only [Bool.not_eq_true', Bool.not_eq_false] at h2
  obtain ⟨q1, q2, q3, q4, q5, q6, q7⟩ := p3 h2
  refine (inv_placeRepair p1 q3 q1 q2 q4 q7.symm q5 q6 (by rw [p2.started]; exact hst)).mono ?_
  intro r' hr'
  exact ⟨hr'.1, p2.trans hr'.2⟩

theorem inv_queues {c : Ctx} {s : St} (h : Inv c s) {q r : List Fec} {a : Bool} (hq : ∀ f ∈ q, SrcOk c f) (hr : ∀ f ∈ r, RepOk c f) :
    Inv c { s with srcQ := q, repQ := r, alive := a } := ⟨h.sbn, hq, hr, h.srcN, h.repN, h.payN, h.repT, h.src, h.rep, h.rest, h.lt, h.pre⟩

/-- After filling, the first queued source packet is of a later block, not too far. -/
def Filled (e : Env) (s : St) : Prop := s.alive = true → ∀ f q, s.srcQ = f :: q → 0 < diff f.sbn s.sbn ∧ diff f.sbn s.sbn ≤ e.maxJump

theorem inv_fillSource {c : Ctx} {e : Env} (q : List Fec) : ∀ (s : St), Inv c s → s.started = true → (∀ f ∈ q, SrcOk c f) →
    Sat c.A (fun r => Inv c r ∧ Same s r ∧ r.srcQ <:+ q ∧ Filled e r) (fillSource e q s) := by
  induction q with
  | nil =>
    intro s h _ hq
    exact ⟨inv_queues h hq h.repQ, ⟨rfl, rfl, rfl, rfl, id⟩, List.suffix_refl _, fun _ f q hf => by cases hf⟩
  | cons f q ih =>
    intro s h hst hq
    simp only [fillSource]
    by_cases h1 : (!validSbn e s f) = true
    · rw [if_pos h1]
      exact ⟨inv_queues h hq h.repQ, ⟨rfl, rfl, rfl, rfl, id⟩, List.suffix_refl _, fun hf => by cases hf⟩
    rw [if_neg h1]
    simp only [Bool.not_eq_true', Bool.not_eq_false] at h1
    by_cases h2 : ¬ diff f.sbn s.sbn ≤ 0
    · rw [if_pos h2]
      refine ⟨inv_queues h hq h.repQ, ⟨rfl, rfl, rfl, rfl, id⟩, List.suffix_refl _, fun _ f' q' hf => ?_⟩
      have hf : f :: q = f' :: q' := hf
      injection hf with hf1 hf2
      rw [← hf1]
      unfold validSbn at h1
      simp only [Bool.and_eq_true, decide_eq_true_eq] at h1
      show 0 < diff f.sbn s.sbn ∧ diff f.sbn s.sbn ≤ e.maxJump
      omega
    rw [if_neg h2]
    simp only [not_not] at h2
    refine (inv_takeSource h (hq f List.mem_cons_self) h2 hst).bind ?_
    intro r hr
    refine (ih r hr.1 (by rw [hr.2.started]; exact hst) (fun g hg => hq g (List.mem_cons_of_mem _ hg))).mono ?_
    intro r' hr'
    exact ⟨hr'.1, hr.2.trans hr'.2.1, hr'.2.2.1.trans (List.suffix_cons _ _), hr'.2.2.2⟩

/-- Source queue is not changed and nothing becomes alive. -/
def Frame (s s' : St) : Prop := s'.srcQ = s.srcQ ∧ (s'.alive = true → s.alive = true)

theorem Frame.refl (s : St) : Frame s s := ⟨rfl, id⟩

theorem Frame.trans {a b c : St} (h1 : Frame a b) (h2 : Frame b c) : Frame a c := ⟨h2.1.trans h1.1, fun h => h1.2 (h2.2 h)⟩

theorem canSrc_frame (e : Env) (s : St) (n : Nat) : Frame s (canSrc e s n).2 := by
  unfold canSrc; split_ifs
  · exact Frame.refl s
  · exact Frame.refl s
  · exact ⟨rfl, fun c => by cases c⟩
  · exact Frame.refl s

theorem canRep_frame (e : Env) (s : St) (n : Nat) : Frame s (canRep e s n).2 := by
  unfold canRep; split_ifs
  · exact Frame.refl s
  · exact Frame.refl s
  · exact ⟨rfl, fun c => by cases c⟩
  · exact Frame.refl s

theorem updSrc_frame (e : Env) (s : St) (n : Nat) : Frame s (updSrc e s n).2 := by
  unfold updSrc; split_ifs
  · exact ⟨rfl, id⟩
  · exact ⟨rfl, fun c => by cases c⟩
  · exact ⟨rfl, id⟩

theorem updRep_frame (e : Env) (s : St) (n : Nat) : Sat (fun _ => True) (fun r => Frame s r.2) (updRep e s n) := by
  unfold updRep; split_ifs
  · exact ⟨rfl, id⟩
  · exact ⟨rfl, fun c => by cases c⟩
  · exact ⟨rfl, id⟩
  · trivial

theorem procRepair_frame (e : Env) (s : St) (f : Fec) : Sat (fun _ => True) (fun r => Frame s r.2) (procRepair e s f) := by
  unfold procRepair; split_ifs
  · exact Frame.refl s
  · exact Frame.refl s
  · exact canSrc_frame e s _
  · exact canRep_frame e s _
  · exact updSrc_frame e (updPay s f.pay) _
  · refine (updRep_frame e _ _).mono (fun r hr => ?_)
    exact Frame.trans (updSrc_frame e (updPay s f.pay) _) hr

theorem placeRepair_frame (s : St) (f : Fec) : Sat (fun _ => True) (fun r => Frame s r) (placeRepair s f) := by
  unfold placeRepair; split_ifs
  · exact ⟨rfl, id⟩
  · exact Frame.refl s
  · trivial

theorem takeRepair_frame (e : Env) (s : St) (f : Fec) : Sat (fun _ => True) (fun r => Frame s r) (takeRepair e s f) := by
  unfold takeRepair; split_ifs
  · exact Frame.refl s
  · trivial
  · refine (procRepair_frame e s f).bind (fun r hr => ?_)
    split_ifs
    · exact hr
    · exact (placeRepair_frame r.2 f).mono (fun r' hr' => hr.trans hr')

theorem inv_fillRepair {c : Ctx} {e : Env} (q : List Fec) : ∀ (s : St), Inv c s → s.started = true → (∀ f ∈ q, RepOk c f) →
    Sat c.A (fun r => Inv c r ∧ Same s r ∧ r.srcQ = s.srcQ ∧ (r.alive = true → s.alive = true)) (fillRepair e q s) := by
  induction q with
  | nil =>
    intro s h _ hq
    exact ⟨inv_queues h h.srcQ hq, ⟨rfl, rfl, rfl, rfl, id⟩, rfl, id⟩
  | cons f q ih =>
    intro s h hst hq
    simp only [fillRepair]
    by_cases h1 : (!validSbn e s f) = true
    · rw [if_pos h1]
      exact ⟨inv_queues h h.srcQ hq, ⟨rfl, rfl, rfl, rfl, id⟩, rfl, fun hf => by cases hf⟩
    rw [if_neg h1]
    by_cases h2 : ¬ diff f.sbn s.sbn ≤ 0
    · rw [if_pos h2]
      exact ⟨inv_queues h h.srcQ hq, ⟨rfl, rfl, rfl, rfl, id⟩, rfl, id⟩
    rw [if_neg h2]
    simp only [not_not] at h2
    have ht := inv_takeRepair (e := e) h (hq f List.mem_cons_self) h2 hst
    cases hr : takeRepair e s f with
    | error x => rw [hr] at ht; exact ht
    | ok r =>
      rw [hr] at ht
      obtain ⟨t1, t2⟩ := ht
      have hfr := takeRepair_frame e s f
      rw [hr] at hfr
      obtain ⟨g1, g2⟩ := hfr
      refine (ih r t1 (by rw [t2.started]; exact hst) (fun g hg => hq g (List.mem_cons_of_mem _ hg))).mono ?_
      intro r' hr'
      exact ⟨hr'.1, t2.trans hr'.2.1, hr'.2.2.1.trans g1, fun ha => g2 (hr'.2.2.2 ha)⟩

theorem inv_fill {c : Ctx} {e : Env} {s : St} (h : Inv c s) (hst : s.started = true) :
    Sat c.A (fun r => Inv c r ∧ Same s r ∧ r.srcQ <:+ s.srcQ ∧ Filled e r) (fill e s) := by
  unfold fill
  refine (inv_fillSource s.srcQ s h hst h.srcQ).bind ?_
  intro r hr
  obtain ⟨r1, r2, r3, r4⟩ := hr
  refine (inv_fillRepair r.repQ r r1 (by rw [r2.started]; exact hst) r1.repQ).mono ?_
  intro r' hr'
  obtain ⟨q1, q2, q3, q4⟩ := hr'
  refine ⟨q1, r2.trans q2, by rw [q3]; exact r3, ?_⟩
  intro ha f q hq
  rw [q2.sbn]
  exact r4 (q4 ha) f q (q3 ▸ hq)

theorem nextBlock_nxt (e : Env) (s : St) (n : Nat) : nextBlock e { s with nxt := n } = nextBlock e s := rfl

theorem inv_nextBlock {c : Ctx} {e : Env} {s : St} (h : Inv c s) (hst : s.started = true) :
    Sat c.A (fun r => Inv c r ∧ r.started = true ∧ r.blk = s.blk + 1 ∧ r.nxt = 0 ∧ r.sbn = (s.sbn + 1) % 65536 ∧ r.src.any isRest = false ∧
      r.srcQ <:+ s.srcQ ∧ Filled e r) (nextBlock e s) := by
  unfold nextBlock
  have hz : ∀ x ∈ s.src.map (fun _ => (none : Option Pkt)), x = none := by
    intro x hx
    obtain ⟨_, _, hy⟩ := List.mem_map.mp hx
    exact hy.symm
  have hz2 : ∀ x ∈ s.rep.map (fun _ => (none : Option Fec)), x = none := by
    intro x hx
    obtain ⟨_, _, hy⟩ := List.mem_map.mp hx
    exact hy.symm
  have hlt := h.lt hst
  refine (inv_fill (c := c) (e := e) (s := { s with src := s.src.map (fun _ => none), rep := s.rep.map (fun _ => none), sbn := (s.sbn + 1) % 65536, blk := s.blk + 1, nxt := 0, srcRes := false, repRes := false, payRes := false, canRepair := false })
    ⟨?_, h.srcQ, h.repQ, fun _ => ⟨hz, rfl⟩, fun _ => hz2, fun _ => ⟨hz, hz2⟩, fun hc => absurd hc Bool.noConfusion, ?_, ?_, ?_, ?_, ?_⟩ hst).mono ?_
  · show (s.sbn + 1) % 65536 = (s.blk + 1) % 65536
    rw [h.sbn]; omega
  · intro i p hp; exact absurd hp (none_getElem hz)
  · intro f hf
    have := hz2 _ hf
    cases this
  · intro hc
    have hc : (s.src.map (fun _ => (none : Option Pkt))).any isRest = true := hc
    rw [none_noRest hz] at hc; cases hc
  · intro _
    show 0 < (s.src.map _).length
    rw [List.length_map]; omega
  · intro hc
    have hc : s.started = false := hc
    rw [hst] at hc; cases hc
  · intro r hr
    obtain ⟨r1, r2, r3, r4⟩ := hr
    exact ⟨r1, r2.started.trans hst, r2.blk, r2.nxt, r2.sbn, r2.noRest (none_noRest hz), r3, r4⟩

end Verif.FecReader
