import Verif.Reporter.Index

/-!
# RTCP reporter: histories
-/

namespace Verif.Reporter

/-- Invariant between calls. `K`: there is a configured destination and the participant always sends. -/
structure Inv (M : List Nat) (K Q : Prop) (s : St) : Prop where
  base : Base s
  named : ∀ x ∈ s.streams, x.ssrc ∈ M
  index : s.index = s.addrs.map (·.addr)
  times : ∀ a ∈ s.addrs, a.last ≤ s.time
  idx : s.rebuild = false → Idx Q s
  must : K → s.rebuild = false → ∃ a, s.dest = some a ∧ a ∈ s.index
  timeout : 0 < s.timeout
  dest : K → s.dest.isSome

theorem inv_grow {M : List Nat} {K Q : Prop} {s s' : St} (h : Inv M K Q s) (g : Grow M s s') : Inv M K Q s' := by
  refine ⟨g.base h.base, g.named h.named, by rw [g.index, g.addrs]; exact h.index, ?_, ?_, ?_, by rw [g.timeout]; exact h.timeout,
    by rw [g.dest]; exact h.dest⟩
  · rw [g.addrs, g.time]; exact h.times
  · intro hr a ha
    rw [g.addrs] at ha
    obtain ⟨k1, k2⟩ := h.idx (g.rebuild hr) a ha
    constructor
    · intro i hi
      obtain ⟨x, hx, e⟩ := k1 i hi
      obtain ⟨y, hy, e1, _, _⟩ := g.keep hr x hx
      exact ⟨y, hy, e1.trans e⟩
    · intro i hi
      obtain ⟨x, hx, e, k, r, q1, q2, q3⟩ := k2 i hi
      obtain ⟨y, hy, e1, e2, e3⟩ := g.keep hr x hx
      exact ⟨y, hy, e1.trans e, k, r, e3.trans q1, by rw [g.recvs]; exact q2, fun q => (q3 q).trans e2.symm⟩
  · rw [g.dest, g.index]
    intro k hr
    exact h.must k (g.rebuild hr)

theorem begin_ok {M : List Nat} {K Q : Prop} {s : St} (h : Inv M K Q s) {now : Int} {p : Part} (ht : s.time ≤ now)
    (hp : ∀ r ∈ p.recvs, r.1 ∈ M) (hk : K → p.hasSend = true)
    (hq : Q → p.recvs.map (·.1) = s.recvs.map (·.1) ∨ p.recvs.length ≠ s.recvs.length) :
    Inv M K Q (s.begin now p) ∧ (s.begin now p).rebuild = false ∧ (s.begin now p).src = s.src ∧ (s.begin now p).detected = s.detected ∧
    (s.begin now p).recvs = p.recvs ∧ (s.begin now p).hasSend = p.hasSend ∧ (s.begin now p).dest = s.dest ∧
    (s.begin now p).timeout = s.timeout ∧
    (s.begin now p).time = (if now = s.time then s.time + 1 else now) ∧
    (∀ x ∈ s.streams, ∃ y ∈ (s.begin now p).streams, y.ssrc = x.ssrc) := by
  obtain ⟨t', ht'⟩ : ∃ t', t' = if now ≠ s.time then now else now + 1 := ⟨_, rfl⟩
  have htt : s.time < t' := by rw [ht']; split <;> omega
  have hte : t' = if now = s.time then s.time + 1 else now := by
    rw [ht']
    by_cases hn : now = s.time
    · simp [hn]
    · simp [hn]
  obtain ⟨b, hb⟩ : ∃ b, b = (s.rebuild || changed { s with time := t' } p) := ⟨_, rfl⟩
  obtain ⟨s1, hs1⟩ : ∃ s1, s1 = { s with time := t', hasSend := p.hasSend, recvs := p.recvs, rebuild := b } := ⟨_, rfl⟩
  have hbeg : s.begin now p = if b = true then s1.rebuildIndex else s1 := by
    unfold St.begin St.refresh
    rw [← ht']
    simp only []
    rw [← hb, ← hs1]
  rw [hbeg, ← hte]
  cases hbb : b with
  | true =>
    rw [if_pos rfl]
    have hbase : Base s1 := by
      rw [hs1]
      exact ⟨h.base.ids, h.base.keys, h.base.fresh, h.base.lru, h.base.akeys, h.base.alru⟩
    obtain ⟨k1, k2, k3, k4, k5, k6, k7, k8⟩ := rebuild_ok (M := M) (s := s1) hbase (by rw [hs1]; exact h.named) (by rw [hs1]; exact hp) (by
      rw [hs1]
      intro a ha
      exact Int.lt_of_le_of_lt (h.times a ha) htt)
    have es : s1.src = s.src := by rw [hs1]
    have ed : s1.dest = s.dest := by rw [hs1]
    have eh : s1.hasSend = p.hasSend := by rw [hs1]
    refine ⟨⟨k1, k3, k6, ?_, ?_, ?_, ?_, ?_⟩, k7, k2.src.trans es, k2.detected.trans (by rw [hs1]), k2.recvs.trans (by rw [hs1]),
      k2.hasSend.trans eh, k2.dest.trans ed, k2.timeout.trans (by rw [hs1]), k2.time.trans (by rw [hs1]),
      fun x hx => k2.keys x (by rw [hs1]; exact hx)⟩
    · intro a ha
      rw [k5 a ha, k2.time]
      exact Int.le_refl _
    · intro _ a ha
      obtain ⟨q1, q2⟩ := k4 a ha
      refine ⟨q1, ?_⟩
      intro i hi
      obtain ⟨x, hx, e, k, r, e1, e2, e3⟩ := q2 i hi
      exact ⟨x, hx, e, k, r, e1, e2, fun _ => e3 trivial⟩
    · intro k _
      obtain ⟨a, ha⟩ := Option.isSome_iff_exists.mp (h.dest k)
      exact ⟨a, by rw [k2.dest, ed]; exact ha, k8 a (by rw [ed]; exact ha) (by rw [eh]; exact hk k)⟩
    · rw [k2.timeout, hs1]; exact h.timeout
    · rw [k2.dest, ed]; exact h.dest
  | false =>
    rw [if_neg (by intro e; cases e)]
    have hr : s.rebuild = false := by
      rw [hbb] at hb
      cases hr : s.rebuild with
      | false => rfl
      | true => rw [hr] at hb; simp at hb
    have hlen : s.recvs.length = p.recvs.length := by
      rw [hbb] at hb
      by_contra hne
      have : changed { s with time := t' } p = true := by
        unfold changed
        simp [hne]
      rw [this, Bool.or_true] at hb
      cases hb
    rw [hs1]
    refine ⟨⟨⟨h.base.ids, h.base.keys, h.base.fresh, h.base.lru, h.base.akeys, h.base.alru⟩, h.named, h.index, ?_, ?_, ?_, h.timeout, h.dest⟩,
      hbb, rfl, rfl, rfl, rfl, rfl, rfl, rfl, fun x hx => ⟨x, hx, rfl⟩⟩
    · intro a ha
      exact Int.le_of_lt (Int.lt_of_le_of_lt (h.times a ha) htt)
    · intro _ a ha
      obtain ⟨q1, q2⟩ := h.idx hr a ha
      refine ⟨q1, ?_⟩
      intro i hi
      obtain ⟨x, hx, e, k, r, e1, e2, e3⟩ := q2 i hi
      have hkl : k < p.recvs.length := by
        rw [← hlen]
        exact (List.getElem?_eq_some_iff.mp e2).1
      refine ⟨x, hx, e, k, p.recvs[k], e1, List.getElem?_eq_getElem hkl, ?_⟩
      intro q
      have hmm := (hq q).resolve_right (fun n => n hlen.symm)
      have h1 : (p.recvs.map (·.1))[k]? = some p.recvs[k].1 := by
        rw [List.getElem?_map, List.getElem?_eq_getElem hkl]; rfl
      rw [hmm, List.getElem?_map, e2] at h1
      have h2 : r.1 = p.recvs[k].1 := Option.some.inj h1
      rw [← h2]
      exact e3 q
    · intro k _
      exact h.must k hr

/-! ## Source of the participant -/

/-- The source and the collision flag stay. -/
def SD (s s' : St) : Prop := s'.src = s.src ∧ s'.detected = s.detected

theorem SD.trans {a b c : St} (h : SD a b) (g : SD b c) : SD a c := ⟨g.1.trans h.1, g.2.trans h.2⟩

theorem sd_ensure (s : St) (k : Nat) : SD s (s.ensure k) := ⟨(same_ensure s k).src, (same_ensure s k).detected⟩

theorem sd_update (s : St) (k : Nat) : SD s (s.update k) := by
  unfold St.update
  cases s.find k with
  | none => exact ⟨rfl, rfl⟩
  | some x =>
    show SD s (if x.last = s.time then s else _)
    by_cases ht : x.last = s.time
    · rw [if_pos ht]; exact ⟨rfl, rfl⟩
    · rw [if_neg ht]; exact ⟨rfl, rfl⟩

theorem sd_mark (s : St) (k addr : Nat) (has : Stream → Bool) (f : Stream → Stream) : SD s (s.mark k addr has f) := by
  unfold St.mark
  cases s.find k <;> exact ⟨rfl, rfl⟩

theorem sd_recreate (s : St) (k : Nat) (text : List Nat) : SD s (s.recreate k text) := by
  unfold St.recreate
  cases s.find k with
  | none => exact ⟨rfl, rfl⟩
  | some x =>
    show SD s (if x.cname ≠ [] ∧ x.cname ≠ text then _ else s)
    by_cases hc : x.cname ≠ [] ∧ x.cname ≠ text
    · rw [if_pos hc]
      have h1 : SD s (s.remove x) := ⟨rfl, rfl⟩
      exact h1.trans (sd_ensure _ k)
    · rw [if_neg hc]; exact ⟨rfl, rfl⟩

theorem src_collide (s : St) (k : Nat) : (s.collide k).src = s.src := by
  unfold St.collide
  split_ifs with h1 h2
  · rfl
  · rfl
  · cases s.find k with
    | none => rfl
    | some x => dsimp only; split_ifs <;> rfl

theorem sd_collide (s : St) (k : Nat) (h : k ≠ s.src) : SD s (s.collide k) := by
  unfold St.collide
  by_cases h1 : s.detected = true
  · rw [if_pos h1]; exact ⟨rfl, rfl⟩
  · rw [if_neg h1, if_pos h]; exact ⟨rfl, rfl⟩

/-- `cname` part, with the collision check. -/
theorem sd_on {s : St} (addr : Nat) (e : Ev) (h : e.source ≠ s.src) : SD s (s.on addr e) := by
  cases e with
  | cname k text =>
    show SD s (s.onCname k text)
    unfold St.onCname
    by_cases h1 : text = []
    · rw [if_pos h1]; exact ⟨rfl, rfl⟩
    rw [if_neg h1]
    by_cases h2 : (s.ensure k).sameCname k text = true
    · rw [if_pos h2]; exact sd_ensure s k
    rw [if_neg h2]
    have g := (sd_ensure s k).trans (sd_recreate _ k text)
    have g' : SD s { ((s.ensure k).recreate k text).edit k (fun x => { x with cname := text }) with rebuild := true } :=
      g.trans ⟨rfl, rfl⟩
    refine g'.trans ((sd_collide _ k ?_).trans (sd_update _ k))
    rw [g'.1]; exact h
  | sr k ts =>
    exact (sd_collide s k h).trans ((sd_ensure _ k).trans ((sd_mark _ k addr _ _).trans (sd_update _ k)))
  | reception k about =>
    show SD s (s.onReception addr k about)
    unfold St.onReception
    by_cases h1 : (!s.hasSend || decide (about ≠ (s.collide k).src)) = true
    · rw [if_pos h1]; exact sd_collide s k h
    rw [if_neg h1]
    exact (sd_collide s k h).trans ((sd_ensure _ k).trans ((sd_mark _ k addr _ _).trans (sd_update _ k)))
  | dlrr k about =>
    show SD s (s.onDlrr k about)
    unfold St.onDlrr
    by_cases h1 : about ≠ (s.collide k).src
    · rw [if_pos h1]; exact sd_collide s k h
    rw [if_neg h1]
    by_cases h2 : (!(s.collide k).known k (·.hasSend)) = true
    · rw [if_pos h2]; exact sd_collide s k h
    · rw [if_neg h2]; exact (sd_collide s k h).trans (sd_update _ k)
  | rrtr k ts =>
    show SD s (s.onRrtr k ts)
    unfold St.onRrtr
    by_cases h2 : (!(s.collide k).known k (·.hasRecv)) = true
    · rw [if_pos h2]; exact sd_collide s k h
    · rw [if_neg h2]
      have g : SD (s.collide k) ((s.collide k).edit k (fun x => { x with recvTs := ts })) := ⟨rfl, rfl⟩
      exact (sd_collide s k h).trans (g.trans (sd_update _ k))
  | metrics k about =>
    show SD s (s.onMetrics k about)
    unfold St.onMetrics
    by_cases h1 : about ≠ (s.collide k).src
    · rw [if_pos h1]; exact sd_collide s k h
    rw [if_neg h1]
    by_cases h2 : (!(s.collide k).known k (·.hasRecv)) = true
    · rw [if_pos h2]; exact sd_collide s k h
    · rw [if_neg h2]; exact (sd_collide s k h).trans (sd_update _ k)
  | bye k =>
    show SD s (s.onBye k)
    unfold St.onBye
    cases s.find k <;> exact ⟨rfl, rfl⟩

theorem sd_evs (addr : Nat) (evs : List Ev) : ∀ (s : St), (∀ e ∈ evs, e.source ≠ s.src) → SD s (evs.foldl (St.on addr) s) := by
  induction evs with
  | nil => intro s _; exact ⟨rfl, rfl⟩
  | cons e evs ih =>
    intro s h
    have g := sd_on addr e (h e List.mem_cons_self)
    refine g.trans (ih _ ?_)
    intro x hx
    rw [g.1]
    exact h x (List.mem_cons_of_mem _ hx)

/-! ## Generation -/

theorem mapM_ok {α β : Type} (f : α → Option β) (l : List α) (h : ∀ a ∈ l, ∃ b, f a = some b) :
    ∃ m, l.mapM f = some m ∧ (∀ b ∈ m, ∃ a ∈ l, f a = some b) ∧ (∀ a ∈ l, ∃ b ∈ m, f a = some b) := by
  induction l with
  | nil => exact ⟨[], rfl, (fun b hb => absurd hb List.not_mem_nil), (fun a ha => absurd ha List.not_mem_nil)⟩
  | cons a l ih =>
    obtain ⟨b, hb⟩ := h a List.mem_cons_self
    obtain ⟨m, e, h1, h2⟩ := ih (fun x hx => h x (List.mem_cons_of_mem _ hx))
    refine ⟨b :: m, ?_, ?_, ?_⟩
    · rw [List.mapM_cons, hb, e]; rfl
    · intro c hc
      rcases List.mem_cons.mp hc with rfl | hc
      · exact ⟨a, List.mem_cons_self, hb⟩
      · obtain ⟨x, hx, ex⟩ := h1 c hc
        exact ⟨x, List.mem_cons_of_mem _ hx, ex⟩
    · intro x hx
      rcases List.mem_cons.mp hx with rfl | hx
      · exact ⟨b, List.mem_cons_self, hb⟩
      · obtain ⟨c, hc, ec⟩ := h2 x hx
        exact ⟨c, List.mem_cons_of_mem _ hc, ec⟩

theorem derefSend_ok {s : St} (hb : Base s) {i : Nat} (h : Live s i) : ∃ b, s.derefSend i = some b := by
  obtain ⟨x, hx, e⟩ := h
  have := findId_of_mem hb.ids hx
  rw [e] at this
  exact ⟨x.ssrc, by unfold St.derefSend; rw [this]; rfl⟩

theorem derefRecv_ok {Q : Prop} {s : St} (hb : Base s) {i : Nat} (h : LiveR Q s i) :
    ∃ b, s.derefRecv i = some b ∧ (Q → b ∈ s.recvs) := by
  obtain ⟨x, hx, e, k, r, e1, e2, e3⟩ := h
  have := findId_of_mem hb.ids hx
  rw [e] at this
  refine ⟨(x.ssrc, r.2), ?_, ?_⟩
  · unfold St.derefRecv
    simp only [this, e1, e2]
  · intro q
    have hr := List.mem_of_getElem? e2
    rw [← e3 q]
    exact hr

theorem mem_ite_nil {α : Type} {b : Bool} {l : List α} {x : α} (h : x ∈ (if b then l else [])) : x ∈ l := by
  cases b
  · exact absurd h List.not_mem_nil
  · exact h

theorem mem_ite_nil' {α : Type} {b : Bool} {l : List α} {x : α} (h : x ∈ (if b then [] else l)) : x ∈ l := by
  cases b
  · exact h
  · exact absurd h List.not_mem_nil

theorem repTo_ok {Q : Prop} {s : St} (hb : Base s) (hi : Idx Q s) (p : Part) {a : Nat} (ha : a ∈ s.addrs.map (·.addr)) :
    ∃ d, s.repTo p a = some d ∧ d.addr = a ∧ (Q → ∀ x ∈ d.recv, x ∈ s.recvs) ∧ d.bye = (if s.detected then some s.src else none) := by
  obtain ⟨x, hx, ex⟩ := List.mem_map.mp ha
  obtain ⟨y, hy⟩ : ∃ y, s.addrs.find? (fun z => z.addr = a) = some y := by
    cases h : s.addrs.find? (fun z => z.addr = a) with
    | none =>
      have := List.find?_eq_none.mp h x hx
      simp [ex] at this
    | some y => exact ⟨y, rfl⟩
  obtain ⟨k1, k2⟩ := hi y (List.mem_of_find?_eq_some hy)
  obtain ⟨l, el, _⟩ := mapM_ok s.derefSend (if p.hasSend then y.send else []) (fun i hi => derefSend_ok hb (k1 i (mem_ite_nil hi)))
  obtain ⟨m, em, h1, _⟩ := mapM_ok s.derefRecv (if p.recvs.isEmpty then [] else y.recv) (fun i hi => by
    obtain ⟨b, e, _⟩ := derefRecv_ok hb (k2 i (mem_ite_nil' hi))
    exact ⟨b, e⟩)
  refine ⟨⟨a, l, m, if s.detected then some s.src else none⟩, ?_, rfl, ?_, rfl⟩
  · unfold St.repTo
    rw [hy]
    simp only [el, em]
  · intro q z hz
    obtain ⟨i, hi', e⟩ := h1 z hz
    obtain ⟨b, e', hq⟩ := derefRecv_ok hb (k2 i (mem_ite_nil' hi'))
    rw [e] at e'
    cases e'
    exact hq q

theorem resolve_ok {s : St} {ids : List Nat} (h : s.detected = true → s.reported = true ∧ ∃ i ∈ ids, s.find i = none) :
    ∃ s', s.resolve ids = .ok s' ∧ s'.detected = false ∧ (s.detected = false → s' = s) ∧
      (s.detected = true → s'.src ∈ ids ∧ s.find s'.src = none) ∧
      s' = { s with src := s'.src, detected := s'.detected, reported := s'.reported } := by
  unfold St.resolve
  cases hd : s.detected with
  | false =>
    refine ⟨s, rfl, hd, fun _ => rfl, (fun e => absurd e Bool.noConfusion), rfl⟩
  | true =>
    obtain ⟨hr, i, hi, hf⟩ := h hd
    rw [hr]
    obtain ⟨j, hj⟩ : ∃ j, ids.find? (fun i => (s.find i).isNone) = some j := by
      cases hx : ids.find? (fun i => (s.find i).isNone) with
      | none =>
        have := List.find?_eq_none.mp hx i hi
        rw [hf] at this
        exact absurd rfl this
      | some j => exact ⟨j, rfl⟩
    refine ⟨{ s with src := j, detected := false, reported := false }, ?_, rfl, (fun e => absurd e Bool.noConfusion), fun _ => ⟨List.mem_of_find?_eq_some hj, ?_⟩, rfl⟩
    · simp only [Bool.not_true]
      rw [hj]
      rfl
    · have := List.find?_some hj
      exact Option.isNone_iff_eq_none.mp this

theorem inv_sayBye {M : List Nat} {K Q : Prop} {s : St} (h : Inv M K Q s) (b : Bool) (src : Nat) (d : Bool) :
    Inv M K Q { s with src := src, detected := d, reported := b } :=
  ⟨⟨h.base.ids, h.base.keys, h.base.fresh, h.base.lru, h.base.akeys, h.base.alru⟩, h.named, h.index, h.times, h.idx, h.must, h.timeout, h.dest⟩

theorem sayBye_eq (s : St) : ∃ b, s.sayBye = { s with src := s.src, detected := s.detected, reported := b } := by
  unfold St.sayBye
  by_cases h : (s.detected && !s.index.isEmpty) = true
  · rw [if_pos h]; exact ⟨true, rfl⟩
  · rw [if_neg h]; exact ⟨s.reported, rfl⟩

theorem generate_ok {M : List Nat} {K Q : Prop} {s : St} (h : Inv M K Q s) {now : Int} {p : Part} {ids : List Nat} (h0 : 0 < now)
    (ht : s.time ≤ now) (hp : ∀ r ∈ p.recvs, r.1 ∈ M) (hk : K → p.hasSend = true)
    (hq : Q → p.recvs.map (·.1) = s.recvs.map (·.1) ∨ p.recvs.length ≠ s.recvs.length)
    (hm : s.detected = true → K ∧ ∃ i ∈ ids, i ∉ M) :
    ∃ s' l, s.generate now p ids = .ok (s', l) ∧ Inv M K Q s' ∧ s'.detected = false ∧ (s.detected = false → s'.src = s.src) ∧
      (s.detected = true → s'.src ∈ ids ∧ (s.begin now p).find s'.src = none) ∧
      s'.recvs = p.recvs ∧ s'.time = (if now = s.time then s.time + 1 else now) ∧ s'.dest = s.dest ∧
      (Q → ∀ d ∈ l, ∀ x ∈ d.recv, x ∈ p.recvs) ∧ (K → ∃ d ∈ l, some d.addr = s.dest) ∧
      (∀ d ∈ l, d.bye = if s.detected then some s.src else none) := by
  obtain ⟨hi, hr, e1, e2, e3, e4, e5, e6, e7, e8⟩ := begin_ok h ht hp hk hq
  obtain ⟨s1, hs1⟩ : ∃ s1, s1 = s.begin now p := ⟨_, rfl⟩
  rw [← hs1] at hi hr e1 e2 e3 e4 e5 e6 e7 ⊢
  have hidx := hi.idx hr
  obtain ⟨l, el, h1, h2⟩ := mapM_ok (s1.repTo p) s1.index (fun a ha => by
    rw [hi.index] at ha
    obtain ⟨d, hd, _⟩ := repTo_ok hi.base hidx p ha
    exact ⟨d, hd⟩)
  have hrep : ∀ d ∈ l, ∃ a ∈ s1.index, d.addr = a ∧ (Q → ∀ x ∈ d.recv, x ∈ s1.recvs) ∧ d.bye = (if s1.detected then some s1.src else none) := by
    intro d hd
    obtain ⟨a, ha, ea⟩ := h1 d hd
    have ha' := ha
    rw [hi.index] at ha'
    obtain ⟨d', hd', q1, q2, q3⟩ := repTo_ok hi.base hidx p ha'
    rw [ea] at hd'
    cases hd'
    exact ⟨a, ha, q1, q2, q3⟩
  obtain ⟨b, eb⟩ := sayBye_eq s1
  have hdet : s1.sayBye.detected = s1.detected := by rw [eb]
  obtain ⟨s2, g1, g2, g3, g4, g5⟩ := resolve_ok (s := s1.sayBye) (ids := ids) (by
    intro hd
    rw [hdet] at hd
    obtain ⟨k, i, hi1, hi2⟩ := hm (by rw [← e2]; exact hd)
    constructor
    · obtain ⟨a, _, ha⟩ := hi.must k hr
      unfold St.sayBye
      rw [if_pos]
      rw [hd]
      cases hx : s1.index with
      | nil => rw [hx] at ha; cases ha
      | cons _ _ => rfl
    · refine ⟨i, hi1, ?_⟩
      cases hf : s1.sayBye.find i with
      | none => rfl
      | some x =>
        exfalso
        obtain ⟨hx, ex⟩ := find_some hf
        rw [eb] at hx
        exact hi2 (ex ▸ hi.named x hx))
  have hi2 : Inv M K Q s2 := by
    rw [g5, eb]
    exact inv_sayBye hi _ _ _
  obtain ⟨s3, k1, k2, k3, k4, k5⟩ := expire_ok M s2 hi2.base hi2.timeout
  have hfs : ∀ i, s1.sayBye.find i = s1.find i := by intro i; rw [eb]; rfl
  have hrt : s2.recvs = s1.recvs ∧ s2.time = s1.time ∧ s2.dest = s1.dest := by
    rw [g5, eb]; exact ⟨rfl, rfl, rfl⟩
  refine ⟨s3, l, ?_, inv_grow hi2 k2, k4.trans g2, ?_, ?_, ?_, ?_, ?_, ?_, ?_, ?_⟩
  · unfold St.generate
    rw [if_neg (by omega), ← hs1, el]
    simp only [g1, k1]
  · intro hd
    rw [k3, g3 (by rw [hdet, e2]; exact hd), eb]
    exact e1
  · intro hd
    obtain ⟨q1, q2⟩ := g4 (by rw [hdet, e2]; exact hd)
    rw [k3]
    exact ⟨q1, by rw [← hfs]; exact q2⟩
  · rw [k2.recvs, hrt.1, e3]
  · rw [k2.time, hrt.2.1, e7]
  · rw [k2.dest, hrt.2.2, e5]
  · intro q d hd
    obtain ⟨_, _, _, q2, _⟩ := hrep d hd
    rw [← e3]
    exact q2 q
  · intro k
    obtain ⟨a, ha1, ha2⟩ := hi.must k hr
    obtain ⟨d, hd, ed⟩ := h2 a ha2
    refine ⟨d, hd, ?_⟩
    obtain ⟨d', hd', q1, _⟩ := repTo_ok hi.base hidx p (by rw [← hi.index]; exact ha2)
    rw [ed] at hd'
    cases hd'
    rw [q1, ← e5, ha1]
  · intro d hd
    obtain ⟨_, _, _, _, q3⟩ := hrep d hd
    rw [q3, e1, e2]

theorem process_ok {M : List Nat} {K Q : Prop} {s : St} (h : Inv M K Q s) {now : Int} {p : Part} {addr : Nat} {evs : List Ev} (h0 : 0 < now)
    (ht : s.time ≤ now) (hp : ∀ r ∈ p.recvs, r.1 ∈ M) (he : ∀ e ∈ evs, e.source ∈ M) (hk : K → p.hasSend = true)
    (hq : Q → p.recvs.map (·.1) = s.recvs.map (·.1) ∨ p.recvs.length ≠ s.recvs.length) :
    ∃ s', s.process now p addr evs = .ok s' ∧ Inv M K Q s' ∧ ((∀ e ∈ evs, e.source ≠ s.src) → SD s s') ∧
      s'.recvs = p.recvs ∧ s'.time = (if now = s.time then s.time + 1 else now) ∧ s'.dest = s.dest := by
  obtain ⟨hi, hr, e1, e2, e3, e4, e5, e6, e7, e8⟩ := begin_ok h ht hp hk hq
  obtain ⟨s1, hs1⟩ : ∃ s1, s1 = s.begin now p := ⟨_, rfl⟩
  rw [← hs1] at hi hr e1 e2 e3 e4 e5 e6 e7
  have g := grow_evs addr evs s1 he
  have hi2 := inv_grow hi g
  obtain ⟨s3, k1, k2, k3, k4, k5⟩ := expire_ok M _ hi2.base hi2.timeout
  refine ⟨s3, ?_, inv_grow hi2 k2, ?_, ?_, ?_, ?_⟩
  · unfold St.process
    rw [if_neg (by omega), ← hs1, k1]
  · intro hn
    have a : SD s s1 := ⟨e1, e2⟩
    refine a.trans ((sd_evs addr evs s1 (by rw [e1]; exact hn)).trans ⟨k3, k4⟩)
  · rw [k2.recvs, g.recvs, e3]
  · rw [k2.time, g.time, e7]
  · rw [k2.dest, g.dest, e5]

/-- How collisions are excluded or resolved. -/
def Mode (M : List Nat) (K : Prop) (s : St) (cs : List Call) : Prop :=
  (K ∧ ∀ c ∈ cs, c.Picks M) ∨ (s.detected = false ∧ ∀ c ∈ cs, ∀ e ∈ c.evs, e.source ≠ s.src)

theorem call_ok {M : List Nat} {K Q : Prop} {s : St} (h : Inv M K Q s) (c : Call) (cs : List Call) (h0 : 0 < c.now)
    (ht : s.time ≤ c.now) (hp : ∀ r ∈ c.part.recvs, r.1 ∈ M) (he : ∀ e ∈ c.evs, e.source ∈ M) (hk : K → c.part.hasSend = true)
    (hq : Q → c.part.recvs.map (·.1) = s.recvs.map (·.1) ∨ c.part.recvs.length ≠ s.recvs.length) (hm : Mode M K s (c :: cs)) :
    ∃ s' l, s.call c = .ok (s', l) ∧ Inv M K Q s' ∧ Mode M K s' cs ∧ s'.recvs = c.part.recvs ∧
      s'.time = (if c.now = s.time then s.time + 1 else c.now) ∧ s'.dest = s.dest ∧ (Q → Faithful c l) ∧
      ((∃ n p ids, c = .report n p ids) → K → ∃ d ∈ l, some d.addr = s.dest) := by
  cases c with
  | packet now p addr evs =>
    obtain ⟨s', e, hi, hsd, e1, e2, e3⟩ := process_ok (now := now) (p := p) (addr := addr) (evs := evs) h h0 ht hp he hk hq
    refine ⟨s', [], ?_, hi, ?_, e1, e2, e3, ?_, ?_⟩
    · show (match s.process now p addr evs with
        | .ok s' => Out.ok (s', [])
        | .abort => .abort
        | .ub => .ub
        | .hang => .hang) = _
      rw [e]
    · rcases hm with ⟨k, hm⟩ | ⟨hd, hm⟩
      · exact .inl ⟨k, fun c hc => hm c (List.mem_cons_of_mem _ hc)⟩
      · have sd := hsd (hm _ List.mem_cons_self)
        exact .inr ⟨sd.2.trans hd, fun c hc => by rw [sd.1]; exact hm c (List.mem_cons_of_mem _ hc)⟩
    · intro _ d hd
      cases hd
    · rintro ⟨_, _, _, hc⟩
      cases hc
  | report now p ids =>
    obtain ⟨s', l, e, hi, g1, g2, _, g4, g5, g6, g7, g8, _⟩ := generate_ok (now := now) (p := p) (ids := ids) h h0 ht hp hk hq (by
      intro hd
      rcases hm with ⟨k, hm⟩ | ⟨hd', hm⟩
      · exact ⟨k, hm _ List.mem_cons_self⟩
      · rw [hd] at hd'; cases hd')
    refine ⟨s', l, e, hi, ?_, g4, g5, g6, fun q => g7 q, fun _ => g8⟩
    rcases hm with ⟨k, hm⟩ | ⟨hd, hm⟩
    · exact .inl ⟨k, fun c hc => hm c (List.mem_cons_of_mem _ hc)⟩
    · exact .inr ⟨g1, fun c hc => by rw [g2 hd]; exact hm c (List.mem_cons_of_mem _ hc)⟩

theorem run_ok {M : List Nat} {K Q : Prop} (cs : List Call) : ∀ {s : St}, Inv M K Q s → Spaced s.time cs → (∀ x ∈ mentioned cs, x ∈ M) →
    (K → ∀ c ∈ cs, c.part.hasSend = true) → (Q → Steady s.recvs cs) → Mode M K s cs →
    ∃ s' ls, s.run cs = .ok (s', ls) ∧ Inv M K Q s' ∧ s'.dest = s.dest ∧ (Q → List.Forall₂ Faithful cs ls) ∧
      (K → List.Forall₂ (fun c l => (∃ n p ids, c = Call.report n p ids) → ∃ d ∈ l, some d.addr = s.dest) cs ls) ∧
      ((∀ c ∈ cs, ∀ e ∈ c.evs, e.source ≠ s.src) → s.detected = false → SD s s') ∧ (cs = [] → s' = s) ∧
      (∀ t, Spaced s.time (cs ++ t) → Spaced s'.time t) ∧ (∀ t, Steady s.recvs (cs ++ t) → Steady s'.recvs t) := by
  induction cs with
  | nil =>
    intro s h _ _ _ _ _
    exact ⟨s, [], rfl, h, rfl, fun _ => .nil, fun _ => .nil, fun _ _ => ⟨rfl, rfl⟩, fun _ => rfl, fun t h => h, fun t h => h⟩
  | cons c cs ih =>
    intro s h hs hn hk hq hm
    obtain ⟨h0, ht, hs⟩ := hs
    have hn1 : ∀ r ∈ c.part.recvs, r.1 ∈ M := by
      intro r hr
      apply hn
      exact List.mem_flatMap.mpr ⟨c, List.mem_cons_self, List.mem_append_right _ (List.mem_map_of_mem hr)⟩
    have hn2 : ∀ e ∈ c.evs, e.source ∈ M := by
      intro e he
      apply hn
      exact List.mem_flatMap.mpr ⟨c, List.mem_cons_self, List.mem_append_left _ (List.mem_map_of_mem he)⟩
    have hn3 : ∀ x ∈ mentioned cs, x ∈ M := by
      intro x hx
      apply hn
      exact List.mem_append_right _ hx
    obtain ⟨s', l, e, hi, hm', e1, e2, e3, hf, hd⟩ := call_ok h c cs h0 ht hn1 hn2 (fun k => hk k c List.mem_cons_self) (fun q => (hq q).1) hm
    obtain ⟨s'', ls, e', hi', e4, hf', hd', sd', _, sp, st⟩ := ih hi (by rw [e2]; exact hs) hn3
      (fun k c' hc => hk k c' (List.mem_cons_of_mem _ hc)) (fun q => by rw [e1]; exact (hq q).2) hm'
    refine ⟨s'', l :: ls, ?_, hi', e4.trans e3, fun q => .cons (hf q) (hf' q), fun k => .cons (fun hc => hd hc k) ?_, ?_,
      (fun e => by cases e), ?_, ?_⟩
    · conv => lhs; unfold St.run
      rw [e]
      show (match s'.run cs with
        | .ok (s'', rs) => Out.ok (s'', l :: rs)
        | .abort => .abort
        | .ub => .ub
        | .hang => .hang) = _
      rw [e']
    · have := hd' k
      rw [e3] at this
      exact this
    · intro hne hdet
      have hm2 : Mode M K s (c :: cs) := .inr ⟨hdet, hne⟩
      have sd1 : SD s s' := by
        cases c with
        | packet now p addr evs =>
          obtain ⟨s2, k1, _, k2, _⟩ := process_ok (now := now) (p := p) (addr := addr) (evs := evs) h h0 ht hn1 hn2 (fun k => hk k _ List.mem_cons_self) (fun q => (hq q).1)
          have e' : (match s.process now p addr evs with
            | .ok s' => Out.ok (s', [])
            | .abort => .abort
            | .ub => .ub
            | .hang => .hang) = Out.ok (s', l) := e
          rw [k1] at e'
          have : s2 = s' := congrArg (fun o => match o with | Out.ok (a, _) => a | _ => s2) e'
          rw [← this]
          exact k2 (hne _ List.mem_cons_self)
        | report now p ids =>
          obtain ⟨s2, l2, k1, _, q1, q2, _⟩ := generate_ok (now := now) (p := p) (ids := ids) h h0 ht hn1 (fun k => hk k _ List.mem_cons_self) (fun q => (hq q).1)
            (by rw [hdet]; intro e; cases e)
          have e' : s.generate now p ids = Out.ok (s', l) := e
          rw [k1] at e'
          have : s2 = s' := congrArg (fun o => match o with | Out.ok (a, _) => a | _ => s2) e'
          rw [← this]
          exact ⟨q2 hdet, q1.trans hdet.symm⟩
      refine sd1.trans (sd' ?_ (sd1.2.trans hdet))
      intro c' hc
      rw [sd1.1]
      exact hne c' (List.mem_cons_of_mem _ hc)
    · intro t ht'
      apply sp
      rw [e2]
      exact ht'.2.2
    · intro t ht'
      apply st
      rw [e1]
      exact ht'.2

theorem inv_init (M : List Nat) (K Q : Prop) (src : Nat) (cname : List Nat) (dest : Option Nat) (timeout : Int) (ht : 0 < timeout)
    (hk : K → dest.isSome) : Inv M K Q (St.init src cname dest timeout) := by
  refine ⟨⟨List.nodup_nil, List.nodup_nil, ?_, List.Perm.nil, List.nodup_nil, List.Perm.nil⟩, ?_, rfl, ?_, ?_, ?_, ht, hk⟩
  · intro x hx; cases hx
  · intro x hx; cases hx
  · intro x hx; cases hx
  · intro e; cases e
  · intro _ e; cases e

end Verif.Reporter
