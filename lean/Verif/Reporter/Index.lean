import Verif.Reporter.Lemmas

/-!
# RTCP reporter: the index
-/

namespace Verif.Reporter

/-- A stream pointer is valid. -/
def Live (s : St) (i : Nat) : Prop := ∃ x ∈ s.streams, x.id = i

/-- A stream pointer and its report pointer are valid; if `Q`, the report is about this stream. -/
def LiveR (Q : Prop) (s : St) (i : Nat) : Prop :=
  ∃ x ∈ s.streams, x.id = i ∧ ∃ k r, x.report = some k ∧ s.recvs[k]? = some r ∧ (Q → r.1 = x.ssrc)

/-- An address was rebuilt at the current time. -/
def Fresh (s : St) (a : Nat) : Prop := ∃ x ∈ s.addrs, x.addr = a ∧ x.last = s.time

/-- Members that are not changed by a rebuild. -/
structure Same (s s' : St) : Prop where
  src : s'.src = s.src
  cname : s'.cname = s.cname
  dest : s'.dest = s.dest
  timeout : s'.timeout = s.timeout
  hasSend : s'.hasSend = s.hasSend
  recvs : s'.recvs = s.recvs
  detected : s'.detected = s.detected
  time : s'.time = s.time
  keys : ∀ x ∈ s.streams, ∃ y ∈ s'.streams, y.ssrc = x.ssrc

theorem Same.refl (s : St) : Same s s := ⟨rfl, rfl, rfl, rfl, rfl, rfl, rfl, rfl, fun x hx => ⟨x, hx, rfl⟩⟩

theorem Same.trans {a b c : St} (h : Same a b) (g : Same b c) : Same a c :=
  ⟨g.src.trans h.src, g.cname.trans h.cname, g.dest.trans h.dest, g.timeout.trans h.timeout, g.hasSend.trans h.hasSend,
    g.recvs.trans h.recvs, g.detected.trans h.detected, g.time.trans h.time, fun x hx => by
      obtain ⟨y, hy, e⟩ := h.keys x hx
      obtain ⟨z, hz, e'⟩ := g.keys y hy
      exact ⟨z, hz, e'.trans e⟩⟩

/-- Invariant of a rebuild; addresses `D` are present. -/
structure RI (M D : List Nat) (s : St) : Prop where
  base : Base s
  named : ∀ x ∈ s.streams, x.ssrc ∈ M
  live : ∀ a ∈ s.addrs, a.last = s.time → (∀ i ∈ a.send, Live s i) ∧ (∀ i ∈ a.recv, LiveR True s i)
  split : ∃ f b, s.addrLru = f ++ b ∧ (∀ a ∈ f, Fresh s a) ∧ (∀ a ∈ b, ¬ Fresh s a)
  must : ∀ a ∈ D, Fresh s a

theorem addr_inj {s : St} (hb : Base s) {x y : Addr} (hx : x ∈ s.addrs) (hy : y ∈ s.addrs) (e : x.addr = y.addr) : x = y :=
  List.inj_on_of_nodup_map hb.akeys hx hy e

theorem live_ensure {s : St} {k i : Nat} (h : Live s i) : Live (s.ensure k) i := by
  obtain ⟨x, hx, e⟩ := h
  refine ⟨x, ?_, e⟩
  unfold St.ensure
  cases s.find k with
  | some _ => exact hx
  | none => exact List.mem_append_left _ hx

theorem same_ensure (s : St) (k : Nat) : Same s (s.ensure k) := by
  unfold St.ensure
  cases s.find k with
  | some _ => exact Same.refl s
  | none => exact ⟨rfl, rfl, rfl, rfl, rfl, rfl, rfl, rfl, fun x hx => ⟨x, List.mem_append_left _ hx, rfl⟩⟩

theorem streams_ensure {s : St} {k : Nat} {x : Stream} (hx : x ∈ s.streams) : x ∈ (s.ensure k).streams := by
  unfold St.ensure
  cases s.find k with
  | some _ => exact hx
  | none => exact List.mem_append_left _ hx

theorem liveR_ensure {Q : Prop} {s : St} {k i : Nat} (h : LiveR Q s i) : LiveR Q (s.ensure k) i := by
  obtain ⟨x, hx, e, n, r, e1, e2, e3⟩ := h
  exact ⟨x, streams_ensure hx, e, n, r, e1, by rw [(same_ensure s k).recvs]; exact e2, e3⟩

theorem ri_ensure {M D : List Nat} {s : St} (h : RI M D s) {k : Nat} (hk : k ∈ M) : RI M D (s.ensure k) := by
  have g := grow_ensure (M := M) s hk
  have hf : ∀ a, Fresh (s.ensure k) a ↔ Fresh s a := by
    intro a; unfold Fresh; rw [g.addrs, g.time]
  refine ⟨g.base h.base, g.named h.named, ?_, ?_, fun a ha => (hf a).mpr (h.must a ha)⟩
  · intro a ha hl
    rw [g.addrs] at ha
    rw [g.time] at hl
    obtain ⟨h1, h2⟩ := h.live a ha hl
    exact ⟨fun i hi => live_ensure (h1 i hi), fun i hi => liveR_ensure (h2 i hi)⟩
  · obtain ⟨f, b, e, h1, h2⟩ := h.split
    exact ⟨f, b, g.addrLru.trans e, fun a ha => (hf a).mpr (h1 a ha), fun a ha => fun c => h2 a ha ((hf a).mp c)⟩

/-! ## Addresses -/

theorem ri_touch {M D : List Nat} {s : St} (h : RI M D s) (a : Nat) : RI M (a :: D) (s.touch a) ∧ Same s (s.touch a) ∧ (s.touch a).streams = s.streams := by
  unfold St.touch
  cases hf : s.addrs.find? (fun x => x.addr = a) with
  | none =>
    have hno : ∀ x ∈ s.addrs, x.addr ≠ a := by
      intro x hx e
      have := List.find?_eq_none.mp hf x hx
      simp [e] at this
    have fr : ∀ b, Fresh s b → Fresh { s with addrs := s.addrs ++ [⟨a, [], [], s.time⟩], addrLru := a :: s.addrLru } b := by
      rintro b ⟨x, hx, e1, e2⟩
      exact ⟨x, List.mem_append_left _ hx, e1, e2⟩
    have fra : Fresh { s with addrs := s.addrs ++ [⟨a, [], [], s.time⟩], addrLru := a :: s.addrLru } a :=
      ⟨⟨a, [], [], s.time⟩, List.mem_append_right _ (List.mem_singleton.mpr rfl), rfl, rfl⟩
    refine ⟨⟨⟨h.base.ids, h.base.keys, h.base.fresh, h.base.lru, ?_, ?_⟩, h.named, ?_, ?_, ?_⟩, ⟨rfl, rfl, rfl, rfl, rfl, rfl, rfl, rfl, fun x hx => ⟨x, hx, rfl⟩⟩, rfl⟩
    · simp only [List.map_append, List.map_cons, List.map_nil]
      refine List.nodup_append.mpr ⟨h.base.akeys, by simp, ?_⟩
      intro b hb c hc
      obtain ⟨x, hx, e⟩ := List.mem_map.mp hb
      rw [List.mem_singleton.mp hc, ← e]
      exact hno x hx
    · simp only [List.map_append, List.map_cons, List.map_nil]
      exact (List.Perm.cons _ h.base.alru).trans (List.perm_append_singleton _ _).symm
    · intro b hb hl
      rcases List.mem_append.mp hb with hb | hb
      · exact h.live b hb hl
      · rw [List.mem_singleton.mp hb]
        exact ⟨fun i hi => absurd hi List.not_mem_nil, fun i hi => absurd hi List.not_mem_nil⟩
    · obtain ⟨f, b, e, h1, h2⟩ := h.split
      refine ⟨a :: f, b, by show a :: s.addrLru = _; rw [e]; rfl, ?_, ?_⟩
      · intro c hc
        rcases List.mem_cons.mp hc with rfl | hc
        · exact fra
        · exact fr c (h1 c hc)
      · rintro c hc ⟨x, hx, e1, e2⟩
        rcases List.mem_append.mp hx with hx | hx
        · exact h2 c hc ⟨x, hx, e1, e2⟩
        · rw [List.mem_singleton.mp hx] at e1
          have : c ∈ s.addrLru := by rw [e]; exact List.mem_append_right _ hc
          obtain ⟨y, hy, ey⟩ := List.mem_map.mp (h.base.alru.mem_iff.mp this)
          exact hno y hy (ey.trans e1.symm)
    · intro c hc
      rcases List.mem_cons.mp hc with rfl | hc
      · exact fra
      · exact fr c (h.must c hc)
  | some x =>
    have hx := List.mem_of_find?_eq_some hf
    have ex := List.find?_some hf
    have ex : x.addr = a := of_decide_eq_true ex
    show RI M (a :: D) (if x.last = s.time then s else _) ∧ Same s (if x.last = s.time then s else _) ∧ (if x.last = s.time then s else _).streams = s.streams
    by_cases hl : x.last = s.time
    · rw [if_pos hl]
      refine ⟨⟨h.base, h.named, h.live, h.split, ?_⟩, Same.refl s, rfl⟩
      intro c hc
      rcases List.mem_cons.mp hc with rfl | hc
      · exact ⟨x, hx, ex, hl⟩
      · exact h.must c hc
    · rw [if_neg hl]
      have hma : ∀ y ∈ s.addrs, y.addr ≠ a → y ∈ s.addrs.map (fun y => if y.addr = a then (⟨a, [], [], s.time⟩ : Addr) else y) := by
        intro y hy hn
        exact List.mem_map.mpr ⟨y, hy, if_neg hn⟩
      have hmb : (⟨a, [], [], s.time⟩ : Addr) ∈ s.addrs.map (fun y => if y.addr = a then (⟨a, [], [], s.time⟩ : Addr) else y) :=
        List.mem_map.mpr ⟨x, hx, if_pos ex⟩
      have nfa : ¬ Fresh s a := by
        rintro ⟨y, hy, e1, e2⟩
        have : y = x := addr_inj h.base hy hx (e1.trans ex.symm)
        exact hl (this ▸ e2)
      have ek : (s.addrs.map (fun y => if y.addr = a then (⟨a, [], [], s.time⟩ : Addr) else y)).map (·.addr) = s.addrs.map (·.addr) := by
        rw [List.map_map]
        apply List.map_congr_left
        intro y _
        simp only [Function.comp]
        by_cases hy : y.addr = a
        · rw [if_pos hy, hy]
        · rw [if_neg hy]
      have fr : ∀ b, Fresh s b → ∃ z ∈ s.addrs.map (fun y => if y.addr = a then (⟨a, [], [], s.time⟩ : Addr) else y), z.addr = b ∧ z.last = s.time := by
        rintro b ⟨y, hy, e1, e2⟩
        by_cases hn : y.addr = a
        · exact absurd ⟨y, hy, hn, e2⟩ nfa
        · exact ⟨y, hma y hy hn, e1, e2⟩
      have ndl : s.addrLru.Nodup := h.base.alru.nodup_iff.mpr h.base.akeys
      refine ⟨⟨⟨h.base.ids, h.base.keys, h.base.fresh, h.base.lru, ?_, ?_⟩, h.named, ?_, ?_, ?_⟩, ⟨rfl, rfl, rfl, rfl, rfl, rfl, rfl, rfl, fun x hx => ⟨x, hx, rfl⟩⟩, rfl⟩
      · exact (congrArg List.Nodup ek).mpr h.base.akeys
      · refine (congrArg (List.Perm (a :: s.addrLru.filter (fun b => b ≠ a))) ek).mpr ?_
        refine (cons_filter_perm ndl ?_).trans h.base.alru
        exact h.base.alru.mem_iff.mpr (List.mem_map.mpr ⟨x, hx, ex⟩)
      · intro b hb hlb
        obtain ⟨y, hy, ey⟩ := List.mem_map.mp hb
        by_cases hn : y.addr = a
        · rw [if_pos hn] at ey
          subst ey
          exact ⟨fun i hi => absurd hi List.not_mem_nil, fun i hi => absurd hi List.not_mem_nil⟩
        · rw [if_neg hn] at ey
          subst ey
          exact h.live y hy hlb
      · obtain ⟨f, b, e, h1, h2⟩ := h.split
        have hfa : ∀ c ∈ f, c ≠ a := fun c hc ec => nfa (ec ▸ h1 c hc)
        refine ⟨a :: f, b.filter (fun c => c ≠ a), ?_, ?_, ?_⟩
        · show a :: s.addrLru.filter (fun b => b ≠ a) = _
          rw [e, List.filter_append]
          have : f.filter (fun b => b ≠ a) = f := by
            rw [List.filter_eq_self]
            intro c hc
            simpa using hfa c hc
          rw [this]; rfl
        · intro c hc
          rcases List.mem_cons.mp hc with rfl | hc
          · exact ⟨_, hmb, rfl, rfl⟩
          · exact fr c (h1 c hc)
        · rintro c hc ⟨z, hz, e1, e2⟩
          have hc1 := List.mem_of_mem_filter hc
          have hc2 : c ≠ a := by simpa using List.of_mem_filter hc
          obtain ⟨y, hy, ey⟩ := List.mem_map.mp hz
          by_cases hn : y.addr = a
          · rw [if_pos hn] at ey
            subst ey
            exact hc2 e1.symm
          · rw [if_neg hn] at ey
            subst ey
            exact h2 c hc1 ⟨y, hy, e1, e2⟩
      · intro c hc
        rcases List.mem_cons.mp hc with rfl | hc
        · exact ⟨_, hmb, rfl, rfl⟩
        · exact fr c (h.must c hc)

/-- Change of one address that keeps its key and time. -/
theorem ri_editAddr {M D : List Nat} {s : St} (h : RI M D s) (a : Nat) (f : Addr → Addr)
    (h1 : ∀ y, (f y).addr = y.addr) (h2 : ∀ y, (f y).last = y.last)
    (h3 : ∀ y ∈ s.addrs, y.last = s.time → (∀ i ∈ (f y).send, Live s i) ∧ (∀ i ∈ (f y).recv, LiveR True s i)) :
    RI M D { s with addrs := s.addrs.map (fun y => if y.addr = a then f y else y) } := by
  have ek : (s.addrs.map (fun y => if y.addr = a then f y else y)).map (·.addr) = s.addrs.map (·.addr) := by
    rw [List.map_map]
    apply List.map_congr_left
    intro y _
    simp only [Function.comp]
    by_cases hy : y.addr = a
    · rw [if_pos hy, h1]
    · rw [if_neg hy]
  have fr : ∀ b, Fresh { s with addrs := s.addrs.map (fun y => if y.addr = a then f y else y) } b ↔ Fresh s b := by
    intro b
    constructor
    · rintro ⟨z, hz, e1, e2⟩
      obtain ⟨y, hy, ey⟩ := List.mem_map.mp hz
      by_cases hn : y.addr = a
      · rw [if_pos hn] at ey
        subst ey
        exact ⟨y, hy, (h1 y).symm.trans e1, (h2 y).symm.trans e2⟩
      · rw [if_neg hn] at ey
        subst ey
        exact ⟨y, hy, e1, e2⟩
    · rintro ⟨y, hy, e1, e2⟩
      by_cases hn : y.addr = a
      · exact ⟨f y, List.mem_map.mpr ⟨y, hy, if_pos hn⟩, (h1 y).trans e1, (h2 y).trans e2⟩
      · exact ⟨y, List.mem_map.mpr ⟨y, hy, if_neg hn⟩, e1, e2⟩
  refine ⟨⟨h.base.ids, h.base.keys, h.base.fresh, h.base.lru, ?_, ?_⟩, h.named, ?_, ?_, fun c hc => (fr c).mpr (h.must c hc)⟩
  · exact (congrArg List.Nodup ek).mpr h.base.akeys
  · exact (congrArg (List.Perm s.addrLru) ek).mpr h.base.alru
  · intro b hb hl
    obtain ⟨y, hy, ey⟩ := List.mem_map.mp hb
    by_cases hn : y.addr = a
    · rw [if_pos hn] at ey
      subst ey
      exact h3 y hy ((h2 y).symm.trans hl)
    · rw [if_neg hn] at ey
      subst ey
      exact h.live y hy hl
  · obtain ⟨f', b, e, g1, g2⟩ := h.split
    exact ⟨f', b, e, fun c hc => (fr c).mpr (g1 c hc), fun c hc k => g2 c hc ((fr c).mp k)⟩

theorem ri_pushSend {M D : List Nat} {s : St} (h : RI M D s) (a i : Nat) (hi : Live s i) : RI M D (s.pushSend a i) := by
  apply ri_editAddr h a (fun y => { y with send := y.send ++ [i] }) (fun _ => rfl) (fun _ => rfl)
  intro y hy hl
  obtain ⟨g1, g2⟩ := h.live y hy hl
  refine ⟨?_, g2⟩
  intro j hj
  rcases List.mem_append.mp hj with hj | hj
  · exact g1 j hj
  · rw [List.mem_singleton.mp hj]; exact hi

theorem ri_pushRecv {M D : List Nat} {s : St} (h : RI M D s) (a i : Nat) (hi : LiveR True s i) : RI M D (s.pushRecv a i) := by
  apply ri_editAddr h a (fun y => { y with recv := y.recv ++ [i] }) (fun _ => rfl) (fun _ => rfl)
  intro y hy hl
  obtain ⟨g1, g2⟩ := h.live y hy hl
  refine ⟨g1, ?_⟩
  intro j hj
  rcases List.mem_append.mp hj with hj | hj
  · exact g2 j hj
  · rw [List.mem_singleton.mp hj]; exact hi

theorem ri_report {M D : List Nat} {s : St} (h : RI M D s) (k i : Nat) (r : Nat × Nat) (hr : s.recvs[i]? = some r) (hk : r.1 = k) :
    RI M D (s.edit k (fun y => { y with report := some i })) := by
  refine ⟨base_edit h.base k _ (fun _ => rfl) (fun _ => rfl), named_edit h.named k _ (fun _ => rfl), ?_, h.split, h.must⟩
  intro a ha hl
  obtain ⟨g1, g2⟩ := h.live a ha hl
  constructor
  · intro j hj
    obtain ⟨x, hx, e⟩ := g1 j hj
    refine ⟨_, List.mem_map.mpr ⟨x, hx, rfl⟩, ?_⟩
    by_cases hn : x.ssrc = k
    · rw [if_pos hn]; exact e
    · rw [if_neg hn]; exact e
  · intro j hj
    obtain ⟨x, hx, e, n, q, e1, e2, e3⟩ := g2 j hj
    by_cases hn : x.ssrc = k
    · exact ⟨{ x with report := some i }, List.mem_map.mpr ⟨x, hx, if_pos hn⟩, e, i, r, rfl, hr, fun _ => hk.trans hn.symm⟩
    · exact ⟨x, List.mem_map.mpr ⟨x, hx, if_neg hn⟩, e, n, q, e1, e2, e3⟩

/-! ## Loops -/

theorem RI.weaken {M D : List Nat} {a : Nat} {s : St} (h : RI M (a :: D) s) : RI M D s :=
  ⟨h.base, h.named, h.live, h.split, fun c hc => h.must c (List.mem_cons_of_mem _ hc)⟩

theorem ri_rebuildSend {M D : List Nat} {s : St} (h : RI M D s) {x : Stream} (hx : x ∈ s.streams) :
    RI M D (rebuildSend s x) ∧ Same s (rebuildSend s x) ∧ (rebuildSend s x).streams = s.streams := by
  unfold rebuildSend
  by_cases h1 : x.looped = true
  · rw [if_pos h1]; exact ⟨h, Same.refl s, rfl⟩
  rw [if_neg h1]
  by_cases h2 : (!x.hasRecv || !x.recvTs) = true
  · rw [if_pos h2]; exact ⟨h, Same.refl s, rfl⟩
  rw [if_neg h2]
  obtain ⟨g1, g2, g3⟩ := ri_touch h (s.dest.getD x.addr)
  refine ⟨ri_pushSend g1.weaken _ _ ⟨x, by rw [g3]; exact hx, rfl⟩, g2.trans ⟨rfl, rfl, rfl, rfl, rfl, rfl, rfl, rfl, fun x hx => ⟨x, hx, rfl⟩⟩, g3⟩

theorem ri_sendLoop {M D : List Nat} (l : List Stream) : ∀ (s : St), RI M D s → (∀ x ∈ l, x ∈ s.streams) →
    RI M D (l.foldl rebuildSend s) ∧ Same s (l.foldl rebuildSend s) := by
  induction l with
  | nil => intro s h _; exact ⟨h, Same.refl s⟩
  | cons x l ih =>
    intro s h hl
    obtain ⟨g1, g2, g3⟩ := ri_rebuildSend h (hl x List.mem_cons_self)
    obtain ⟨k1, k2⟩ := ih _ g1 (fun y hy => by rw [g3]; exact hl y (List.mem_cons_of_mem _ hy))
    exact ⟨k1, g2.trans k2⟩

theorem ri_rebuildRecv {M D : List Nat} {s : St} (h : RI M D s) {i k : Nat} {r : Nat × Nat} (hr : s.recvs[i]? = some r) (hk : r.1 = k)
    (hm : k ∈ M) : RI M D (rebuildRecv s i k) ∧ Same s (rebuildRecv s i k) := by
  have e0 := same_ensure s k
  have h0 := ri_ensure h hm
  unfold rebuildRecv
  cases hf : (s.ensure k).find k with
  | none => exact ⟨h, Same.refl s⟩
  | some x =>
    obtain ⟨hx, ex⟩ := find_some hf
    show RI M D (if x.looped = true then s.ensure k else _) ∧ Same s (if x.looped = true then s.ensure k else _)
    by_cases h1 : x.looped = true
    · rw [if_pos h1]; exact ⟨h0, e0⟩
    rw [if_neg h1]
    by_cases h2 : s.dest = none ∧ (!x.hasSend || !x.sendTs) = true
    · rw [if_pos h2]; exact ⟨h0, e0⟩
    rw [if_neg h2]
    obtain ⟨g1, g2, g3⟩ := ri_touch h0 (s.dest.getD x.addr)
    have hr' : ((s.ensure k).touch (s.dest.getD x.addr)).recvs[i]? = some r := by rw [g2.recvs, e0.recvs]; exact hr
    have g4 := ri_report g1.weaken k i r hr' hk
    have g5 := ri_pushRecv g4 (s.dest.getD x.addr) x.id
      ⟨{ x with report := some i }, List.mem_map.mpr ⟨x, by rw [g3]; exact hx, if_pos ex⟩, rfl, i, r, rfl, hr', fun _ => hk.trans ex.symm⟩
    refine ⟨g5, e0.trans (g2.trans ⟨rfl, rfl, rfl, rfl, rfl, rfl, rfl, rfl, ?_⟩)⟩
    intro y hy
    refine ⟨_, List.mem_map.mpr ⟨y, hy, rfl⟩, ?_⟩
    by_cases hn : y.ssrc = k
    · rw [if_pos hn]
    · rw [if_neg hn]

theorem ri_recvLoop {M D : List Nat} (l : List (Nat × Nat)) : ∀ (s : St) (i : Nat), RI M D s → s.recvs.drop i = l → (∀ r ∈ l, r.1 ∈ M) →
    RI M D (rebuildRecvs s i l) ∧ Same s (rebuildRecvs s i l) := by
  induction l with
  | nil => intro s i h _ _; exact ⟨h, Same.refl s⟩
  | cons r l ih =>
    intro s i h hd hm
    have hr : s.recvs[i]? = some r := by
      have : (s.recvs.drop i)[0]? = some r := by rw [hd]; rfl
      rw [List.getElem?_drop] at this
      simpa using this
    obtain ⟨g1, g2⟩ := ri_rebuildRecv h hr rfl (hm r List.mem_cons_self)
    obtain ⟨k1, k2⟩ := ih _ (i + 1) g1 (by
      rw [g2.recvs, ← List.drop_drop, hd]; rfl) (fun q hq => hm q (List.mem_cons_of_mem _ hq))
    exact ⟨k1, g2.trans k2⟩

theorem prune_ok (b : List Nat) : ∀ (s : St) (f : List Nat), (s.addrs.map (·.addr)).Nodup → s.addrLru.Perm (s.addrs.map (·.addr)) →
    s.addrLru = f ++ b.reverse → (∀ a ∈ f, Fresh s a) → (∀ a ∈ b, ¬ Fresh s a) →
    ∃ l, prune s (b ++ f.reverse) = { s with addrs := l, addrLru := f } ∧ (∀ y ∈ l, y ∈ s.addrs ∧ y.last = s.time) ∧
      (∀ y ∈ s.addrs, y.last = s.time → y ∈ l) ∧ (l.map (·.addr)).Nodup ∧ f.Perm (l.map (·.addr)) := by
  induction b with
  | nil =>
    intro s f hn hp he hf _
    rw [List.reverse_nil, List.append_nil] at he
    have hall : ∀ y ∈ s.addrs, y.last = s.time := by
      intro y hy
      have : y.addr ∈ f := by rw [← he]; exact hp.mem_iff.mpr (List.mem_map_of_mem hy)
      obtain ⟨z, hz, e1, e2⟩ := hf _ this
      rw [← List.inj_on_of_nodup_map hn hz hy e1]
      exact e2
    refine ⟨s.addrs, ?_, fun y hy => ⟨hy, hall y hy⟩, fun y hy _ => hy, hn, he ▸ hp⟩
    have es : { s with addrs := s.addrs, addrLru := f } = s := by rw [← he]
    rw [es, List.nil_append]
    cases hrev : f.reverse with
    | nil => rfl
    | cons a as =>
      have ha : a ∈ f := by rw [← List.mem_reverse, hrev]; exact List.mem_cons_self
      obtain ⟨z, hz, e1, e2⟩ := hf a ha
      unfold prune
      cases hfi : s.addrs.find? (fun x => x.addr = a) with
      | none => rfl
      | some x =>
        show (if x.last = s.time then s else _) = s
        exact if_pos (hall x (List.mem_of_find?_eq_some hfi))
  | cons a b ih =>
    intro s f hn hp he hf hb
    have ha : a ∈ s.addrLru := by rw [he]; simp
    obtain ⟨x, hx, ex⟩ := List.mem_map.mp (hp.mem_iff.mp ha)
    have hnl : x.last ≠ s.time := fun e => hb a List.mem_cons_self ⟨x, hx, ex, e⟩
    have hfi : s.addrs.find? (fun y => y.addr = a) = some x := by
      cases h : s.addrs.find? (fun y => y.addr = a) with
      | none =>
        have := List.find?_eq_none.mp h x hx
        simp [ex] at this
      | some y =>
        have h2 := List.find?_some h
        have h2 : y.addr = a := of_decide_eq_true h2
        rw [List.inj_on_of_nodup_map hn (List.mem_of_find?_eq_some h) hx (h2.trans ex.symm)]
    have hnd : s.addrLru.Nodup := hp.nodup_iff.mpr hn
    rw [he, List.reverse_cons, ← List.append_assoc] at hnd
    have hfl : s.addrLru.filter (fun c => c ≠ a) = f ++ b.reverse := by
      rw [he, List.reverse_cons, ← List.append_assoc, List.filter_append]
      have h1 : (f ++ b.reverse).filter (fun c => c ≠ a) = f ++ b.reverse := by
        rw [List.filter_eq_self]
        intro c hc
        have := (List.nodup_append.mp hnd).2.2 c hc a (List.mem_singleton.mpr rfl)
        simpa using this
      rw [h1]; simp
    have hab : ∀ c ∈ f ++ b.reverse, c ≠ a := fun c hc => (List.nodup_append.mp hnd).2.2 c hc a (List.mem_singleton.mpr rfl)
    obtain ⟨l, e1, e2, e3, e4, e5⟩ := ih { s with addrs := s.addrs.filter (fun y => y.addr ≠ a), addrLru := s.addrLru.filter (fun c => c ≠ a) } f
      ((List.filter_sublist.map _).nodup hn) (by
        have h := hp.filter (fun c => c ≠ a)
        rw [List.filter_map] at h
        exact h) hfl (by
        intro c hc
        obtain ⟨z, hz, k1, k2⟩ := hf c hc
        refine ⟨z, List.mem_filter.mpr ⟨hz, ?_⟩, k1, k2⟩
        have := hab c (List.mem_append_left _ hc)
        rw [← k1] at this
        simpa using this) (by
        rintro c hc ⟨z, hz, k1, k2⟩
        exact hb c (List.mem_cons_of_mem _ hc) ⟨z, List.mem_of_mem_filter hz, k1, k2⟩)
    refine ⟨l, ?_, ?_, ?_, e4, e5⟩
    · show prune s (a :: (b ++ f.reverse)) = _
      conv => lhs; unfold prune
      rw [hfi]
      show (if x.last = s.time then s else _) = _
      rw [if_neg hnl, e1]
    · intro y hy
      obtain ⟨k1, k2⟩ := e2 y hy
      exact ⟨List.mem_of_mem_filter k1, k2⟩
    · intro y hy hl
      apply e3 y _ hl
      refine List.mem_filter.mpr ⟨hy, ?_⟩
      have : y.addr ≠ a := by
        intro e
        rw [List.inj_on_of_nodup_map hn hy hx (e.trans ex.symm)] at hl
        exact hnl hl
      simpa using this

/-- The index points to existing streams and reports. -/
def Idx (Q : Prop) (s : St) : Prop := ∀ a ∈ s.addrs, (∀ i ∈ a.send, Live s i) ∧ (∀ i ∈ a.recv, LiveR Q s i)

theorem rebuild_ok {M : List Nat} {s : St} (hb : Base s) (hm : ∀ x ∈ s.streams, x.ssrc ∈ M) (hr : ∀ r ∈ s.recvs, r.1 ∈ M)
    (ht : ∀ a ∈ s.addrs, a.last < s.time) :
    Base s.rebuildIndex ∧ Same s s.rebuildIndex ∧ (∀ x ∈ s.rebuildIndex.streams, x.ssrc ∈ M) ∧ Idx True s.rebuildIndex ∧
    (∀ a ∈ s.rebuildIndex.addrs, a.last = s.time) ∧ s.rebuildIndex.index = s.rebuildIndex.addrs.map (·.addr) ∧
    s.rebuildIndex.rebuild = false ∧ (∀ a, s.dest = some a → s.hasSend = true → a ∈ s.rebuildIndex.index) := by
  obtain ⟨D, hD⟩ : ∃ D : List Nat, D = if s.hasSend then s.dest.toList else [] := ⟨_, rfl⟩
  have nf : ∀ a, ¬ Fresh s a := by
    rintro a ⟨x, hx, _, e⟩
    have := ht x hx
    omega
  have r0 : RI M [] s := by
    refine ⟨hb, hm, ?_, ⟨[], s.addrLru, rfl, ?_, fun a _ => nf a⟩, ?_⟩
    · intro a ha hl
      have := ht a ha
      omega
    · intro a ha; cases ha
    · intro a ha; cases ha
  have r1 : RI M D (rebuildSends s) ∧ Same s (rebuildSends s) := by
    unfold rebuildSends
    by_cases hs : s.hasSend = true
    · rw [if_pos hs]
      rw [if_pos hs] at hD
      have r01 : RI M D (touchDest s) ∧ Same s (touchDest s) ∧ (touchDest s).streams = s.streams := by
        unfold touchDest
        cases hd : s.dest with
        | none =>
          rw [hd] at hD
          subst hD
          exact ⟨r0, Same.refl s, rfl⟩
        | some a =>
          rw [hd] at hD
          subst hD
          exact ri_touch r0 a
      obtain ⟨k1, k2⟩ := ri_sendLoop s.streams _ r01.1 (fun x hx => by rw [r01.2.2]; exact hx)
      exact ⟨k1, r01.2.1.trans k2⟩
    · rw [if_neg hs]
      rw [if_neg hs] at hD
      subst hD
      exact ⟨r0, Same.refl s⟩
  obtain ⟨r2, e2⟩ := ri_recvLoop s.recvs (rebuildSends s) 0 r1.1 (by rw [r1.2.recvs]; rfl) hr
  have e3 := r1.2.trans e2
  have hs2 : ∃ s1, s1 = rebuildRecvs (rebuildSends s) 0 s.recvs := ⟨_, rfl⟩
  obtain ⟨s1, hs1⟩ := hs2
  have hri : s.rebuildIndex = { prune s1 s1.addrLru.reverse with index := (prune s1 s1.addrLru.reverse).addrs.map (·.addr), rebuild := false } := by
    rw [hs1]; rfl
  rw [← hs1] at r2 e3
  obtain ⟨f, b, e, h1, h2⟩ := r2.split
  obtain ⟨l, k1, k2, k3, k4, k5⟩ := prune_ok b.reverse s1 f r2.base.akeys r2.base.alru (by rw [List.reverse_reverse]; exact e) h1
    (fun a ha => h2 a (List.mem_reverse.mp ha))
  rw [← List.reverse_append, ← e] at k1
  rw [k1] at hri
  rw [hri]
  refine ⟨⟨r2.base.ids, r2.base.keys, r2.base.fresh, r2.base.lru, k4, k5⟩,
    e3.trans ⟨rfl, rfl, rfl, rfl, rfl, rfl, rfl, rfl, fun x hx => ⟨x, hx, rfl⟩⟩, r2.named, ?_, ?_, rfl, rfl, ?_⟩
  · intro a ha
    obtain ⟨q1, q2⟩ := k2 a ha
    exact r2.live a q1 q2
  · intro a ha
    rw [(k2 a ha).2, e3.time]
  · intro a hd hs
    rw [if_pos hs, hd] at hD
    obtain ⟨x, hx, q1, q2⟩ := r2.must a (by rw [hD]; exact List.mem_singleton.mpr rfl)
    exact List.mem_map.mpr ⟨x, k3 x hx q2, q1⟩

end Verif.Reporter
