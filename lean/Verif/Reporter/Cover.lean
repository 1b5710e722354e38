import Verif.Reporter.Run

/-!
# RTCP reporter: which destinations are told about which streams
-/

namespace Verif.Reporter

/-- Reports with non-zero timestamps, nobody else uses our source. -/
structure Plain (s : St) : Prop where
  ts : ∀ x ∈ s.streams, x.hasSend = true → x.sendTs = true
  looped : ∀ x ∈ s.streams, x.looped = false

/-- The index tells the address of every sending stream in `P` about this stream. -/
def Cov (P : List Nat) (s : St) : Prop :=
  ∀ x ∈ s.streams, x.ssrc ∈ P → x.hasSend = true → ∃ a ∈ s.addrs, a.addr = s.dest.getD x.addr ∧ x.id ∈ a.recv

/-- The index tells nobody else. -/
def Only (s : St) : Prop := ∀ a ∈ s.addrs, ∀ x ∈ s.streams, x.id ∈ a.recv → a.addr = s.dest.getD x.addr

/-- Between calls. -/
structure CInv (s : St) : Prop where
  plain : Plain s
  cov : s.rebuild = false → Cov (s.recvs.map (·.1)) s
  only : s.rebuild = false → Only s

/-- What calls between `begin` and `end` do to streams. -/
structure Kept (s s' : St) : Prop where
  plain : Plain s → Plain s'
  back : s'.rebuild = false → s.rebuild = false ∧ ∀ y ∈ s'.streams, ∃ x ∈ s.streams, x.id = y.id ∧ x.ssrc = y.ssrc ∧ x.addr = y.addr ∧ (y.hasSend = true → x.hasSend = true)

theorem Kept.refl (s : St) : Kept s s := ⟨id, fun h => ⟨h, fun y hy => ⟨y, hy, rfl, rfl, rfl, id⟩⟩⟩

theorem Kept.trans {a b c : St} (h : Kept a b) (g : Kept b c) : Kept a c := by
  refine ⟨fun p => g.plain (h.plain p), fun hr => ?_⟩
  obtain ⟨g1, g2⟩ := g.back hr
  obtain ⟨h1, h2⟩ := h.back g1
  refine ⟨h1, fun z hz => ?_⟩
  obtain ⟨y, hy, e1, e2, e3, e4⟩ := g2 z hz
  obtain ⟨x, hx, f1, f2, f3, f4⟩ := h2 y hy
  exact ⟨x, hx, f1.trans e1, f2.trans e2, f3.trans e3, fun k => f4 (e4 k)⟩

theorem kept_cinv {M : List Nat} {s s' : St} (h : CInv s) (g : Grow M s s') (k : Kept s s') : CInv s' := by
  refine ⟨k.plain h.plain, fun hr => ?_, fun hr => ?_⟩
  · obtain ⟨k1, k2⟩ := k.back hr
    intro y hy hp hs
    obtain ⟨x, hx, e1, e2, e3, e4⟩ := k2 y hy
    rw [g.recvs] at hp
    obtain ⟨a, ha, f1, f2⟩ := h.cov k1 x hx (e2 ▸ hp) (e4 hs)
    exact ⟨a, by rw [g.addrs]; exact ha, by rw [g.dest, ← e3]; exact f1, e1 ▸ f2⟩
  · obtain ⟨k1, k2⟩ := k.back hr
    intro a ha y hy hi
    obtain ⟨x, hx, e1, e2, e3, e4⟩ := k2 y hy
    rw [g.addrs] at ha
    rw [g.dest, ← e3]
    exact h.only k1 a ha x hx (e1 ▸ hi)

theorem kept_edit (s : St) (k : Nat) (f : Stream → Stream) (h1 : ∀ x, (f x).id = x.id) (h2 : ∀ x, (f x).ssrc = x.ssrc) (h3 : ∀ x, (f x).addr = x.addr)
    (h4 : ∀ x, (f x).hasSend = x.hasSend) (h5 : ∀ x, (f x).sendTs = x.sendTs) (h6 : ∀ x, (f x).looped = x.looped) : Kept s (s.edit k f) := by
  have key : ∀ y ∈ (s.edit k f).streams, ∃ x ∈ s.streams, x.id = y.id ∧ x.ssrc = y.ssrc ∧ x.addr = y.addr ∧ x.hasSend = y.hasSend ∧ x.sendTs = y.sendTs ∧ x.looped = y.looped := by
    intro y hy
    obtain ⟨x, hx, e⟩ := List.mem_map.mp hy
    refine ⟨x, hx, ?_⟩
    by_cases hk : x.ssrc = k
    · rw [if_pos hk] at e; rw [← e, h1, h2, h3, h4, h5, h6]; exact ⟨rfl, rfl, rfl, rfl, rfl, rfl⟩
    · rw [if_neg hk] at e; rw [← e]; exact ⟨rfl, rfl, rfl, rfl, rfl, rfl⟩
  refine ⟨fun p => ⟨?_, ?_⟩, fun hr => ⟨hr, ?_⟩⟩
  · intro y hy hs
    obtain ⟨x, hx, _, _, _, e4, e5, _⟩ := key y hy
    rw [← e5]
    exact p.ts x hx (e4.trans hs)
  · intro y hy
    obtain ⟨x, hx, _, _, _, _, _, e6⟩ := key y hy
    rw [← e6]
    exact p.looped x hx
  · intro y hy
    obtain ⟨x, hx, e1, e2, e3, e4, _⟩ := key y hy
    exact ⟨x, hx, e1, e2, e3, fun hs => e4.trans hs⟩

theorem kept_ensure (s : St) (k : Nat) : Kept s (s.ensure k) := by
  unfold St.ensure
  cases h : s.find k with
  | some x => exact Kept.refl s
  | none =>
    refine ⟨fun p => ⟨?_, ?_⟩, fun hr => by cases hr⟩
    · intro y hy hs
      rcases List.mem_append.mp hy with hy | hy
      · exact p.ts y hy hs
      · rw [List.mem_singleton.mp hy] at hs; cases hs
    · intro y hy
      rcases List.mem_append.mp hy with hy | hy
      · exact p.looped y hy
      · rw [List.mem_singleton.mp hy]; rfl

theorem kept_remove (s : St) (x : Stream) : Kept s (s.remove x) :=
  ⟨fun p => ⟨fun y hy => p.ts y (List.mem_of_mem_filter hy), fun y hy => p.looped y (List.mem_of_mem_filter hy)⟩, fun hr => by cases hr⟩

theorem kept_update (s : St) (k : Nat) : Kept s (s.update k) := by
  unfold St.update
  cases h : s.find k with
  | none => exact Kept.refl s
  | some x =>
    show Kept s (if x.last = s.time then s else _)
    by_cases ht : x.last = s.time
    · rw [if_pos ht]; exact Kept.refl s
    · rw [if_neg ht]
      have g := kept_edit s k (fun y => { y with last := s.time }) (fun _ => rfl) (fun _ => rfl) (fun _ => rfl) (fun _ => rfl) (fun _ => rfl) (fun _ => rfl)
      exact ⟨fun p => ⟨(g.plain p).ts, (g.plain p).looped⟩, g.back⟩

theorem collide_eq (s : St) {k : Nat} (h : k ≠ s.src) : s.collide k = s := by
  unfold St.collide
  split_ifs <;> rfl

theorem kept_recreate (s : St) (k : Nat) (text : List Nat) : Kept s (s.recreate k text) := by
  unfold St.recreate
  cases h : s.find k with
  | none => exact Kept.refl s
  | some x =>
    show Kept s (if x.cname ≠ [] ∧ x.cname ≠ text then _ else s)
    by_cases hc : x.cname ≠ [] ∧ x.cname ≠ text
    · rw [if_pos hc]; exact (kept_remove s x).trans (kept_ensure _ k)
    · rw [if_neg hc]; exact Kept.refl s

/-- If the index stays, the stream had a report of this kind and the same address. -/
theorem kept_mark {s : St} (hb : Base s) (k addr : Nat) (has : Stream → Bool) (f : Stream → Stream)
    (h1 : ∀ x, (f x).id = x.id) (h2 : ∀ x, (f x).ssrc = x.ssrc)
    (h4 : ∀ x, (f x).hasSend = true → has x = true → x.hasSend = true) (h5 : ∀ x, (x.hasSend = true → x.sendTs = true) → (f x).hasSend = true → (f x).sendTs = true) (h6 : ∀ x, (f x).looped = x.looped) :
    Kept s (s.mark k addr has f) := by
  unfold St.mark
  cases h : s.find k with
  | none => exact Kept.refl s
  | some x =>
    obtain ⟨hx, ex⟩ := find_some h
    refine ⟨fun p => ⟨?_, ?_⟩, fun hr => ?_⟩
    · intro y hy hs
      obtain ⟨z, hz, e⟩ := List.mem_map.mp hy
      by_cases hk : z.ssrc = k
      · rw [if_pos hk] at e; rw [← e] at hs ⊢; exact h5 z (p.ts z hz) hs
      · rw [if_neg hk] at e; rw [← e] at hs ⊢; exact p.ts z hz hs
    · intro y hy
      obtain ⟨z, hz, e⟩ := List.mem_map.mp hy
      by_cases hk : z.ssrc = k
      · rw [if_pos hk] at e; rw [← e]; exact (h6 z).trans (p.looped z hz)
      · rw [if_neg hk] at e; rw [← e]; exact p.looped z hz
    · have hr' : (s.rebuild || !has x || decide (x.addr ≠ addr)) = false := hr
      simp only [Bool.or_eq_false_iff, Bool.not_eq_false', decide_eq_false_iff_not, not_not] at hr'
      obtain ⟨⟨r1, r2⟩, r3⟩ := hr'
      refine ⟨r1, fun y hy => ?_⟩
      obtain ⟨z, hz, e⟩ := List.mem_map.mp hy
      refine ⟨z, hz, ?_⟩
      by_cases hk : z.ssrc = k
      · have hzx : z = x := List.inj_on_of_nodup_map hb.keys hz hx (hk.trans ex.symm)
        rw [if_pos hk] at e
        rw [← e]
        exact ⟨(h1 z).symm, (h2 z).symm, by rw [hzx]; exact r3, fun hs => h4 z hs (by rw [hzx]; exact r2)⟩
      · rw [if_neg hk] at e; rw [← e]; exact ⟨rfl, rfl, rfl, id⟩

theorem kept_on {M : List Nat} (addr : Nat) {s : St} (hb : Base s) (e : Ev) (hm : e.source ∈ M) (he : e.source ≠ s.src) (ht : e.Stamped) : Kept s (s.on addr e) := by
  cases e with
  | cname k text =>
    show Kept s (s.onCname k text)
    unfold St.onCname
    by_cases h1 : text = []
    · rw [if_pos h1]; exact Kept.refl s
    rw [if_neg h1]
    by_cases h2 : (s.ensure k).sameCname k text = true
    · rw [if_pos h2]; exact kept_ensure s k
    rw [if_neg h2]
    have hsrc : ((((s.ensure k).recreate k text).edit k (fun x => { x with cname := text })).src) = s.src :=
      (sd_recreate (s.ensure k) k text).1.trans (sd_ensure s k).1
    refine (kept_ensure s k).trans ((kept_recreate _ k text).trans ?_)
    refine (kept_edit _ k (fun x => { x with cname := text }) (fun _ => rfl) (fun _ => rfl) (fun _ => rfl) (fun _ => rfl) (fun _ => rfl) (fun _ => rfl)).trans ?_
    simp only []
    rw [collide_eq _ (by show k ≠ _; rw [hsrc]; exact he)]
    refine Kept.trans (b := { ((s.ensure k).recreate k text).edit k (fun x => { x with cname := text }) with rebuild := true }) ?_ (kept_update _ k)
    exact ⟨fun p => ⟨p.ts, p.looped⟩, fun hr => by cases hr⟩
  | sr k ts =>
    have ht : ts = true := ht
    show Kept s (s.onSr addr k ts)
    unfold St.onSr
    rw [collide_eq s (k := k) he]
    refine (kept_ensure s k).trans (Kept.trans ?_ (kept_update _ k))
    exact kept_mark ((grow_ensure s hm).base hb) k addr _ _ (fun _ => rfl) (fun _ => rfl) (fun _ _ h => h) (fun _ _ _ => ht) (fun _ => rfl)
  | reception k about =>
    show Kept s (s.onReception addr k about)
    unfold St.onReception
    rw [collide_eq s (k := k) he]
    by_cases h1 : (!s.hasSend || decide (about ≠ s.src)) = true
    · rw [if_pos h1]; exact Kept.refl s
    rw [if_neg h1]
    refine (kept_ensure s k).trans (Kept.trans ?_ (kept_update _ k))
    exact kept_mark ((grow_ensure s hm).base hb) k addr _ _ (fun _ => rfl) (fun _ => rfl) (fun _ h _ => h) (fun _ h1 h2 => h1 h2) (fun _ => rfl)
  | dlrr k about =>
    show Kept s (s.onDlrr k about)
    unfold St.onDlrr
    rw [collide_eq s (k := k) he]
    split_ifs
    · exact Kept.refl s
    · exact Kept.refl s
    · exact kept_update _ k
  | rrtr k ts =>
    show Kept s (s.onRrtr k ts)
    unfold St.onRrtr
    rw [collide_eq s (k := k) he]
    split_ifs
    · exact Kept.refl s
    · exact (kept_edit _ k (fun x => { x with recvTs := ts }) (fun _ => rfl) (fun _ => rfl) (fun _ => rfl) (fun _ => rfl) (fun _ => rfl) (fun _ => rfl)).trans (kept_update _ k)
  | metrics k about =>
    show Kept s (s.onMetrics k about)
    unfold St.onMetrics
    rw [collide_eq s (k := k) he]
    split_ifs
    · exact Kept.refl s
    · exact Kept.refl s
    · exact kept_update _ k
  | bye k =>
    show Kept s (s.onBye k)
    unfold St.onBye
    cases h : s.find k with
    | none => exact Kept.refl s
    | some x => exact kept_remove s x

theorem kept_evs {M : List Nat} (addr : Nat) (evs : List Ev) : ∀ (s : St), Base s → (∀ e ∈ evs, e.source ∈ M) → (∀ e ∈ evs, e.source ≠ s.src) → (∀ e ∈ evs, e.Stamped) →
    Kept s (evs.foldl (St.on addr) s) := by
  induction evs with
  | nil => intro s _ _ _ _; exact Kept.refl s
  | cons e evs ih =>
    intro s hb hm hs ht
    have sd := sd_on addr e (hs e List.mem_cons_self)
    exact (kept_on addr hb e (hm e List.mem_cons_self) (hs e List.mem_cons_self) (ht e List.mem_cons_self)).trans
      (ih _ ((grow_on addr s e (hm e List.mem_cons_self)).base hb) (fun x hx => hm x (List.mem_cons_of_mem _ hx))
        (fun x hx => by rw [sd.1]; exact hs x (List.mem_cons_of_mem _ hx)) (fun x hx => ht x (List.mem_cons_of_mem _ hx)))

theorem kept_timeouts : ∀ (n : Nat) (s s' : St), timeouts n s = .ok s' → Kept s s' := by
  intro n
  induction n with
  | zero =>
    intro s s' h
    unfold timeouts at h
    split at h
    · cases h; exact Kept.refl s
    · split at h
      · cases h
      · simp only at h
        split_ifs at h
        cases h; exact Kept.refl s
  | succ n ih =>
    intro s s' h
    unfold timeouts at h
    split at h
    · cases h; exact Kept.refl s
    · split at h
      · cases h
      · simp only at h
        split_ifs at h
        · cases h; exact Kept.refl s
        · exact (kept_update _ _).trans (ih _ _ h)
        · exact (kept_remove _ _).trans (ih _ _ h)

/-! ## The index -/

/-- Streams after a part of a rebuild: as before up to the report, or new and without reports. -/
structure Old (s s' : St) : Prop where
  fwd : ∀ x ∈ s.streams, ∃ y ∈ s'.streams, y.id = x.id ∧ y.ssrc = x.ssrc ∧ y.addr = x.addr ∧ y.hasSend = x.hasSend ∧ y.last = x.last
  back : ∀ y ∈ s'.streams, (y.hasSend = false ∧ y.looped = false ∧ s.next ≤ y.id) ∨
    ∃ x ∈ s.streams, x.id = y.id ∧ x.ssrc = y.ssrc ∧ x.addr = y.addr ∧ x.hasSend = y.hasSend ∧ x.sendTs = y.sendTs ∧ x.looped = y.looped
  next : s.next ≤ s'.next

theorem Old.refl (s : St) : Old s s := ⟨fun x hx => ⟨x, hx, rfl, rfl, rfl, rfl, rfl⟩, fun y hy => .inr ⟨y, hy, rfl, rfl, rfl, rfl, rfl, rfl⟩, Nat.le_refl _⟩

theorem Old.trans {a b c : St} (h : Old a b) (g : Old b c) : Old a c := by
  refine ⟨fun x hx => ?_, fun z hz => ?_, Nat.le_trans h.next g.next⟩
  · obtain ⟨y, hy, e1, e2, e3, e4, e5⟩ := h.fwd x hx
    obtain ⟨z, hz, f1, f2, f3, f4, f5⟩ := g.fwd y hy
    exact ⟨z, hz, f1.trans e1, f2.trans e2, f3.trans e3, f4.trans e4, f5.trans e5⟩
  · rcases g.back z hz with ⟨h1, h2, h3⟩ | ⟨y, hy, e1, e2, e3, e4, e5, e6⟩
    · exact .inl ⟨h1, h2, Nat.le_trans h.next h3⟩
    · rcases h.back y hy with ⟨h1, h2, h3⟩ | ⟨x, hx, f1, f2, f3, f4, f5, f6⟩
      · exact .inl ⟨e4 ▸ h1, e6 ▸ h2, e1 ▸ h3⟩
      · exact .inr ⟨x, hx, f1.trans e1, f2.trans e2, f3.trans e3, f4.trans e4, f5.trans e5, f6.trans e6⟩

theorem Old.plain {s s' : St} (o : Old s s') (h : Plain s) : Plain s' := by
  constructor
  · intro y hy hs
    rcases o.back y hy with ⟨h1, _⟩ | ⟨x, hx, _, _, _, e4, e5, _⟩
    · rw [hs] at h1; cases h1
    · rw [← e5]; exact h.ts x hx (e4.trans hs)
  · intro y hy
    rcases o.back y hy with ⟨_, h2, _⟩ | ⟨x, hx, _, _, _, _, _, e6⟩
    · exact h2
    · rw [← e6]; exact h.looped x hx

theorem old_ensure (s : St) (k : Nat) : Old s (s.ensure k) := by
  unfold St.ensure
  cases h : s.find k with
  | some x => exact Old.refl s
  | none =>
    refine ⟨fun x hx => ⟨x, List.mem_append_left _ hx, rfl, rfl, rfl, rfl, rfl⟩, fun y hy => ?_, Nat.le_succ _⟩
    rcases List.mem_append.mp hy with hy | hy
    · exact .inr ⟨y, hy, rfl, rfl, rfl, rfl, rfl, rfl⟩
    · rw [List.mem_singleton.mp hy]; exact .inl ⟨rfl, rfl, Nat.le_refl _⟩

theorem old_report (s : St) (k i : Nat) : Old s (s.edit k (fun y => { y with report := some i })) := by
  refine ⟨fun x hx => ⟨_, List.mem_map.mpr ⟨x, hx, rfl⟩, ?_⟩, fun y hy => .inr ?_, Nat.le_refl _⟩
  · by_cases hk : x.ssrc = k
    · rw [if_pos hk]; exact ⟨rfl, rfl, rfl, rfl, rfl⟩
    · rw [if_neg hk]; exact ⟨rfl, rfl, rfl, rfl, rfl⟩
  · obtain ⟨x, hx, e⟩ := List.mem_map.mp hy
    refine ⟨x, hx, ?_⟩
    by_cases hk : x.ssrc = k
    · rw [if_pos hk] at e; rw [← e]; exact ⟨rfl, rfl, rfl, rfl, rfl, rfl⟩
    · rw [if_neg hk] at e; rw [← e]; exact ⟨rfl, rfl, rfl, rfl, rfl, rfl⟩

/-- During a rebuild: streams in `P` are covered by fresh addresses, which cover nothing else. -/
structure CovT (P : List Nat) (s : St) : Prop where
  cov : ∀ x ∈ s.streams, x.ssrc ∈ P → x.hasSend = true → ∃ a ∈ s.addrs, a.addr = s.dest.getD x.addr ∧ a.last = s.time ∧ x.id ∈ a.recv
  only : ∀ a ∈ s.addrs, a.last = s.time → ∀ x ∈ s.streams, x.id ∈ a.recv → a.addr = s.dest.getD x.addr

theorem covT_touch {M D P : List Nat} {s : St} (r : RI M D s) (h : CovT P s) (b : Nat) : CovT P (s.touch b) := by
  unfold St.touch
  cases hf : s.addrs.find? (fun x => x.addr = b) with
  | none =>
    refine ⟨fun x hx hp hs => ?_, fun a ha hl x hx hi => ?_⟩
    · obtain ⟨a, ha, e1, e2, e3⟩ := h.cov x hx hp hs
      exact ⟨a, List.mem_append_left _ ha, e1, e2, e3⟩
    · rcases List.mem_append.mp ha with ha | ha
      · exact h.only a ha hl x hx hi
      · rw [List.mem_singleton.mp ha] at hi; cases hi
  | some z =>
    have hz := List.mem_of_find?_eq_some hf
    have ez : z.addr = b := by simpa using List.find?_some hf
    show CovT P (if z.last = s.time then s else _)
    by_cases hl : z.last = s.time
    · rw [if_pos hl]; exact h
    · rw [if_neg hl]
      refine ⟨fun x hx hp hs => ?_, fun a ha hla x hx hi => ?_⟩
      · obtain ⟨a, ha, e1, e2, e3⟩ := h.cov x hx hp hs
        refine ⟨a, List.mem_map.mpr ⟨a, ha, if_neg ?_⟩, e1, e2, e3⟩
        intro hc
        rw [addr_inj r.base ha hz (hc.trans ez.symm)] at e2
        exact hl e2
      · obtain ⟨y, hy, ey⟩ := List.mem_map.mp ha
        by_cases hn : y.addr = b
        · rw [if_pos hn] at ey; rw [← ey] at hi; cases hi
        · rw [if_neg hn] at ey; rw [← ey] at hi hla ⊢; exact h.only y hy hla x hx hi

theorem covT_pushSend {P : List Nat} {s : St} (h : CovT P s) (b i : Nat) : CovT P (s.pushSend b i) := by
  refine ⟨fun x hx hp hs => ?_, fun a ha hla x hx hi => ?_⟩
  · obtain ⟨a, ha, e1, e2, e3⟩ := h.cov x hx hp hs
    refine ⟨_, List.mem_map.mpr ⟨a, ha, rfl⟩, ?_⟩
    by_cases hn : a.addr = b
    · rw [if_pos hn]; exact ⟨e1, e2, e3⟩
    · rw [if_neg hn]; exact ⟨e1, e2, e3⟩
  · obtain ⟨y, hy, ey⟩ := List.mem_map.mp ha
    by_cases hn : y.addr = b
    · rw [if_pos hn] at ey; rw [← ey] at hi hla ⊢; exact h.only y hy hla x hx hi
    · rw [if_neg hn] at ey; rw [← ey] at hi hla ⊢; exact h.only y hy hla x hx hi

theorem touch_next (s : St) (b : Nat) : (s.touch b).next = s.next := by
  unfold St.touch
  split
  · rfl
  · split_ifs <;> rfl

theorem covT_rebuildSend {M D P : List Nat} {s : St} (r : RI M D s) (h : CovT P s) (x : Stream) : CovT P (rebuildSend s x) ∧ (rebuildSend s x).next = s.next := by
  have hn : ∀ b, (s.touch b).next = s.next := by
    intro b
    unfold St.touch
    split
    · rfl
    · split_ifs <;> rfl
  unfold rebuildSend
  split_ifs
  · exact ⟨h, rfl⟩
  · exact ⟨h, rfl⟩
  · exact ⟨covT_pushSend (covT_touch r h _) _ _, hn _⟩

theorem covT_ensure {M D P : List Nat} {s : St} (r : RI M D s) (h : CovT P s) (k : Nat) : CovT P (s.ensure k) := by
  unfold St.ensure
  cases hf : s.find k with
  | some x => exact h
  | none =>
    refine ⟨fun x hx hp hs => ?_, fun a ha hla x hx hi => ?_⟩
    · rcases List.mem_append.mp hx with hx | hx
      · exact h.cov x hx hp hs
      · rw [List.mem_singleton.mp hx] at hs; cases hs
    · rcases List.mem_append.mp hx with hx | hx
      · exact h.only a ha hla x hx hi
      · exfalso
        rw [List.mem_singleton.mp hx] at hi
        obtain ⟨y, hy, e, _⟩ := (r.live a ha hla).2 _ hi
        have := r.base.fresh y hy
        rw [e] at this
        exact Nat.lt_irrefl _ this

/-- `pushRecv` and the report for the stream. -/
theorem covT_pushRecv {M D P : List Nat} {s : St} (r : RI M D s) (h : CovT P s) {x : Stream} (hx : x ∈ s.streams) (i : Nat) (hfr : Fresh s (s.dest.getD x.addr)) :
    CovT (x.ssrc :: P) ((s.pushRecv (s.dest.getD x.addr) x.id).edit x.ssrc (fun y => { y with report := some i })) := by
  have o := old_report (s.pushRecv (s.dest.getD x.addr) x.id) x.ssrc i
  refine ⟨fun y hy hp hs => ?_, fun a ha hla y hy hi => ?_⟩
  · rcases o.back y hy with ⟨h1, _⟩ | ⟨z, hz, e1, e2, e3, e4, _⟩
    · rw [hs] at h1; cases h1
    · have hz : z ∈ s.streams := hz
      by_cases hk : z.ssrc = x.ssrc
      · have hzx : z = x := List.inj_on_of_nodup_map r.base.keys hz hx hk
        obtain ⟨a, ha, f1, f2⟩ := hfr
        refine ⟨_, List.mem_map.mpr ⟨a, ha, rfl⟩, ?_⟩
        rw [if_pos f1]
        refine ⟨?_, f2, ?_⟩
        · show a.addr = s.dest.getD y.addr
          rw [← e3, hzx]; exact f1
        · show y.id ∈ a.recv ++ [x.id]
          rw [← e1, hzx]; simp
      · have hp : z.ssrc ∈ P := by
          rcases List.mem_cons.mp hp with hp | hp
          · exact absurd (e2.trans hp) hk
          · rw [e2]; exact hp
        obtain ⟨a, ha, f1, f2, f3⟩ := h.cov z hz hp (e4.trans hs)
        refine ⟨_, List.mem_map.mpr ⟨a, ha, rfl⟩, ?_⟩
        rw [e3, ] at f1
        rw [e1] at f3
        by_cases hn : a.addr = s.dest.getD x.addr
        · rw [if_pos hn]; exact ⟨f1, f2, List.mem_append_left _ f3⟩
        · rw [if_neg hn]; exact ⟨f1, f2, f3⟩
  · obtain ⟨b, hb, eb⟩ := List.mem_map.mp ha
    obtain ⟨z, hz, ez⟩ := List.mem_map.mp hy
    have hz : z ∈ s.streams := hz
    have hyz : y.id = z.id ∧ y.addr = z.addr := by
      by_cases hk : z.ssrc = x.ssrc
      · rw [if_pos hk] at ez; rw [← ez]; exact ⟨rfl, rfl⟩
      · rw [if_neg hk] at ez; rw [← ez]; exact ⟨rfl, rfl⟩
    show a.addr = s.dest.getD y.addr
    rw [hyz.2]
    rw [hyz.1] at hi
    by_cases hn : b.addr = s.dest.getD x.addr
    · rw [if_pos hn] at eb
      rw [← eb] at hi hla ⊢
      rcases List.mem_append.mp hi with hi | hi
      · exact h.only b hb hla z hz hi
      · have : z = x := List.inj_on_of_nodup_map r.base.ids hz hx (List.mem_singleton.mp hi)
        rw [this]; exact hn
    · rw [if_neg hn] at eb
      rw [← eb] at hi hla ⊢
      exact h.only b hb hla z hz hi

theorem old_touch (s : St) (b : Nat) : Old s (s.touch b) := by
  have : (s.touch b).streams = s.streams ∧ (s.touch b).next = s.next := by
    unfold St.touch
    split
    · exact ⟨rfl, rfl⟩
    · split_ifs <;> exact ⟨rfl, rfl⟩
  refine ⟨fun x hx => ⟨x, by rw [this.1]; exact hx, rfl, rfl, rfl, rfl, rfl⟩, fun y hy => .inr ⟨y, by rw [← this.1]; exact hy, rfl, rfl, rfl, rfl, rfl, rfl⟩, Nat.le_of_eq this.2.symm⟩

theorem covT_rebuildRecv {M D P : List Nat} {s : St} (r : RI M D s) (h : CovT P s) (hp : Plain s) {i k : Nat} (hm : k ∈ M) :
    CovT (k :: P) (rebuildRecv s i k) ∧ Old s (rebuildRecv s i k) := by
  have r0 := ri_ensure r hm
  have c0 := covT_ensure r h k
  have o0 := old_ensure s k
  have e0 := same_ensure s k
  have miss : ∀ x ∈ (s.ensure k).streams, x.ssrc = k → x.hasSend = false → CovT (k :: P) (s.ensure k) := by
    intro x hx ex hh
    refine ⟨fun y hy hP hs => ?_, c0.only⟩
    rcases List.mem_cons.mp hP with hP | hP
    · rw [List.inj_on_of_nodup_map r0.base.keys hy hx (hP.trans ex.symm)] at hs
      rw [hs] at hh; cases hh
    · exact c0.cov y hy hP hs
  unfold rebuildRecv
  cases hf : (s.ensure k).find k with
  | none =>
    exfalso
    have := find_none hf
    revert hf
    unfold St.ensure
    cases hk : s.find k with
    | some x => intro hf; rw [hk] at hf; cases hf
    | none =>
      intro hf
      exact find_none hf (newStream s.next k s.time) (List.mem_append_right _ (List.mem_singleton.mpr rfl)) rfl
  | some x =>
    obtain ⟨hx, ex⟩ := find_some hf
    show CovT (k :: P) (if x.looped = true then s.ensure k else _) ∧ Old s (if x.looped = true then s.ensure k else _)
    have hl := (o0.plain hp).looped x hx
    rw [if_neg (by rw [hl]; simp)]
    by_cases h2 : s.dest = none ∧ (!x.hasSend || !x.sendTs) = true
    · rw [if_pos h2]
      refine ⟨miss x hx ex ?_, o0⟩
      cases hs : x.hasSend with
      | false => rfl
      | true =>
        have := (o0.plain hp).ts x hx hs
        rw [hs, this] at h2
        simp at h2
    rw [if_neg h2]
    obtain ⟨g1, g2, g3⟩ := ri_touch r0 (s.dest.getD x.addr)
    have c1 := covT_touch r0 c0 (s.dest.getD x.addr)
    have hx1 : x ∈ ((s.ensure k).touch (s.dest.getD x.addr)).streams := by rw [g3]; exact hx
    have hd : ((s.ensure k).touch (s.dest.getD x.addr)).dest = s.dest := g2.dest.trans e0.dest
    have c2 := covT_pushRecv g1.weaken c1 hx1 i (by rw [hd]; exact g1.must _ List.mem_cons_self)
    rw [hd, ex] at c2
    refine ⟨c2, o0.trans ((old_touch _ (s.dest.getD x.addr)).trans ?_)⟩
    have o2 := old_report (((s.ensure k).touch (s.dest.getD x.addr)).pushRecv (s.dest.getD x.addr) x.id) k i
    exact ⟨o2.fwd, o2.back, o2.next⟩

theorem covT_recvLoop {M D : List Nat} (l : List (Nat × Nat)) : ∀ (P : List Nat) (s : St) (i : Nat), RI M D s → CovT P s → Plain s → s.recvs.drop i = l → (∀ r ∈ l, r.1 ∈ M) →
    CovT (l.reverse.map (·.1) ++ P) (rebuildRecvs s i l) ∧ Old s (rebuildRecvs s i l) := by
  induction l with
  | nil => intro P s i _ h _ _ _; exact ⟨h, Old.refl s⟩
  | cons r l ih =>
    intro P s i hr h hp hd hm
    have hri : s.recvs[i]? = some r := by
      have : (s.recvs.drop i)[0]? = some r := by rw [hd]; rfl
      rw [List.getElem?_drop] at this
      simpa using this
    obtain ⟨g1, g2⟩ := ri_rebuildRecv hr hri rfl (hm r List.mem_cons_self)
    obtain ⟨c1, o1⟩ := covT_rebuildRecv (i := i) hr h hp (hm r List.mem_cons_self)
    obtain ⟨k1, k2⟩ := ih (r.1 :: P) _ (i + 1) g1 c1 (o1.plain hp) (by
      rw [g2.recvs, ← List.drop_drop, hd]; rfl) (fun q hq => hm q (List.mem_cons_of_mem _ hq))
    refine ⟨?_, o1.trans k2⟩
    rw [List.reverse_cons, List.map_append, List.append_assoc]
    exact k1

theorem covT_sendLoop {M D : List Nat} (l : List Stream) : ∀ (s : St), RI M D s → CovT [] s → (∀ x ∈ l, x ∈ s.streams) →
    CovT [] (l.foldl rebuildSend s) ∧ (l.foldl rebuildSend s).streams = s.streams ∧ (l.foldl rebuildSend s).next = s.next := by
  induction l with
  | nil => intro s _ h _; exact ⟨h, rfl, rfl⟩
  | cons x l ih =>
    intro s r h hl
    obtain ⟨g1, g2, g3⟩ := ri_rebuildSend r (hl x List.mem_cons_self)
    obtain ⟨c1, c2⟩ := covT_rebuildSend r h x
    obtain ⟨k1, k2, k3⟩ := ih _ g1 c1 (fun y hy => by rw [g3]; exact hl y (List.mem_cons_of_mem _ hy))
    exact ⟨k1, k2.trans g3, k3.trans c2⟩

theorem rebuild_cover {M : List Nat} {s : St} (hb : Base s) (hm : ∀ x ∈ s.streams, x.ssrc ∈ M) (hr : ∀ r ∈ s.recvs, r.1 ∈ M)
    (ht : ∀ a ∈ s.addrs, a.last < s.time) (hp : Plain s) :
    CInv s.rebuildIndex ∧ Old s s.rebuildIndex := by
  obtain ⟨D, hD⟩ : ∃ D : List Nat, D = if s.hasSend then s.dest.toList else [] := ⟨_, rfl⟩
  have nf : ∀ a, ¬ Fresh s a := by
    rintro a ⟨x, hx, _, e⟩
    have := ht x hx
    omega
  have r0 : RI M [] s := by
    refine ⟨hb, hm, ?_, ⟨[], s.addrLru, rfl, ?_, fun a _ => nf a⟩, ?_⟩
    · intro a ha hl
      have := ht a ha
      omega
    · intro a ha; cases ha
    · intro a ha; cases ha
  have c0 : CovT [] s := by
    refine ⟨fun x _ hx => (by cases hx), fun a ha hl => ?_⟩
    have := ht a ha
    omega
  have r1 : RI M D (rebuildSends s) ∧ Same s (rebuildSends s) ∧ CovT [] (rebuildSends s) ∧ (rebuildSends s).streams = s.streams ∧ (rebuildSends s).next = s.next := by
    unfold rebuildSends
    by_cases hs : s.hasSend = true
    · rw [if_pos hs]
      rw [if_pos hs] at hD
      have r01 : RI M D (touchDest s) ∧ Same s (touchDest s) ∧ (touchDest s).streams = s.streams ∧ CovT [] (touchDest s) ∧ (touchDest s).next = s.next := by
        unfold touchDest
        cases hd : s.dest with
        | none =>
          rw [hd] at hD
          subst hD
          exact ⟨r0, Same.refl s, rfl, c0, rfl⟩
        | some a =>
          rw [hd] at hD
          subst hD
          obtain ⟨q1, q2, q3⟩ := ri_touch r0 a
          exact ⟨q1, q2, q3, covT_touch r0 c0 a, touch_next s a⟩
      obtain ⟨k1, k2⟩ := ri_sendLoop s.streams _ r01.1 (fun x hx => by rw [r01.2.2.1]; exact hx)
      obtain ⟨k3, k4, k5⟩ := covT_sendLoop s.streams _ r01.1 r01.2.2.2.1 (fun x hx => by rw [r01.2.2.1]; exact hx)
      exact ⟨k1, r01.2.1.trans k2, k3, k4.trans r01.2.2.1, k5.trans r01.2.2.2.2⟩
    · rw [if_neg hs]
      rw [if_neg hs] at hD
      subst hD
      exact ⟨r0, Same.refl s, c0, rfl, rfl⟩
  obtain ⟨r1, rs, rc, rst, rn⟩ := r1
  have p1 : Plain (rebuildSends s) := ⟨by rw [rst]; exact hp.ts, by rw [rst]; exact hp.looped⟩
  obtain ⟨r2, e2⟩ := ri_recvLoop s.recvs (rebuildSends s) 0 r1 (by rw [rs.recvs]; rfl) hr
  obtain ⟨c2, o2⟩ := covT_recvLoop s.recvs [] (rebuildSends s) 0 r1 rc p1 (by rw [rs.recvs]; rfl) hr
  have e3 := rs.trans e2
  obtain ⟨s1, hs1⟩ : ∃ s1, s1 = rebuildRecvs (rebuildSends s) 0 s.recvs := ⟨_, rfl⟩
  have hri : s.rebuildIndex = { prune s1 s1.addrLru.reverse with index := (prune s1 s1.addrLru.reverse).addrs.map (·.addr), rebuild := false } := by
    rw [hs1]; rfl
  rw [← hs1] at r2 e3 c2 o2
  obtain ⟨f, b, e, h1, h2⟩ := r2.split
  obtain ⟨l, k1, k2, k3, k4, k5⟩ := prune_ok b.reverse s1 f r2.base.akeys r2.base.alru (by rw [List.reverse_reverse]; exact e) h1
    (fun a ha => h2 a (List.mem_reverse.mp ha))
  rw [← List.reverse_append, ← e] at k1
  rw [k1] at hri
  rw [hri]
  have o3 : Old s s1 := by
    refine ⟨fun x hx => o2.fwd x (by rw [rst]; exact hx), fun y hy => ?_, by rw [← rn]; exact o2.next⟩
    have := o2.back y hy
    rw [rn, rst] at this
    exact this
  refine ⟨⟨⟨(o3.plain hp).ts, (o3.plain hp).looped⟩, fun _ => ?_, fun _ => ?_⟩, ⟨o3.fwd, o3.back, o3.next⟩⟩
  · intro x hx hP hs
    have hP : x.ssrc ∈ s1.recvs.map (·.1) := hP
    rw [e3.recvs] at hP
    obtain ⟨a, ha, q1, q2, q3⟩ := c2.cov x hx (by simpa using hP) hs
    exact ⟨a, k3 a ha q2, q1, q3⟩
  · intro a ha x hx hi
    obtain ⟨q1, q2⟩ := k2 a ha
    exact c2.only a q1 q2 x hx hi

/-! ## Calls -/

/-- The last report of source `k` came from `a`, not before `T`. -/
def Has (k a : Nat) (T : Int) (s : St) : Prop := ∃ x ∈ s.streams, x.ssrc = k ∧ x.hasSend = true ∧ x.addr = a ∧ T ≤ x.last

theorem cinv_begin {M : List Nat} {K : Prop} {s : St} (h : Inv M K True s) (hc : CInv s) {now : Int} {p : Part} (ht : s.time ≤ now)
    (hp : ∀ r ∈ p.recvs, r.1 ∈ M) (hq : p.recvs.map (·.1) = s.recvs.map (·.1) ∨ p.recvs.length ≠ s.recvs.length) :
    CInv (s.begin now p) ∧ ∀ k a T, Has k a T s → Has k a T (s.begin now p) := by
  obtain ⟨t', ht'⟩ : ∃ t', t' = if now ≠ s.time then now else now + 1 := ⟨_, rfl⟩
  have htt : s.time < t' := by rw [ht']; split <;> omega
  obtain ⟨b, hb⟩ : ∃ b, b = (s.rebuild || changed { s with time := t' } p) := ⟨_, rfl⟩
  obtain ⟨s1, hs1⟩ : ∃ s1, s1 = { s with time := t', hasSend := p.hasSend, recvs := p.recvs, rebuild := b } := ⟨_, rfl⟩
  have hbeg : s.begin now p = if b = true then s1.rebuildIndex else s1 := by
    unfold St.begin St.refresh
    rw [← ht']
    simp only []
    rw [← hb, ← hs1]
  rw [hbeg]
  cases hbb : b with
  | true =>
    rw [if_pos rfl]
    have hbase : Base s1 := by
      rw [hs1]
      exact ⟨h.base.ids, h.base.keys, h.base.fresh, h.base.lru, h.base.akeys, h.base.alru⟩
    obtain ⟨c1, o1⟩ := rebuild_cover (M := M) (s := s1) hbase (by rw [hs1]; exact h.named) (by rw [hs1]; exact hp) (by
      rw [hs1]
      intro a ha
      exact Int.lt_of_le_of_lt (h.times a ha) htt) (by rw [hs1]; exact ⟨hc.plain.ts, hc.plain.looped⟩)
    refine ⟨c1, ?_⟩
    rintro k a T ⟨x, hx, q1, q2, q3, q4⟩
    obtain ⟨y, hy, e1, e2, e3, e4, e5⟩ := o1.fwd x (by rw [hs1]; exact hx)
    exact ⟨y, hy, e2.trans q1, e4.trans q2, e3.trans q3, by rw [e5]; exact q4⟩
  | false =>
    rw [if_neg (by intro e; cases e)]
    have hr : s.rebuild = false := by
      rw [hbb] at hb
      cases hr : s.rebuild with
      | false => rfl
      | true => rw [hr] at hb; simp at hb
    have hlen : s.recvs.length = p.recvs.length := by
      rw [hbb] at hb
      by_contra hne
      have : changed { s with time := t' } p = true := by
        unfold changed
        simp [hne]
      rw [this, Bool.or_true] at hb
      cases hb
    have hmm := hq.resolve_right (fun n => n hlen.symm)
    rw [hs1]
    refine ⟨⟨⟨hc.plain.ts, hc.plain.looped⟩, fun _ => ?_, fun _ => hc.only hr⟩, fun k a T h => h⟩
    have := hc.cov hr
    rw [← hmm] at this
    exact this

theorem stay_edit {s : St} {x : Stream} (hx : x ∈ s.streams) {j : Nat} (hj : j ≠ x.ssrc) (f : Stream → Stream) : x ∈ (s.edit j f).streams :=
  List.mem_map.mpr ⟨x, hx, if_neg (fun e => hj e.symm)⟩

theorem stay_update {s : St} {x : Stream} (hx : x ∈ s.streams) {j : Nat} (hj : j ≠ x.ssrc) : x ∈ (s.update j).streams := by
  unfold St.update
  cases s.find j with
  | none => exact hx
  | some y =>
    show x ∈ (if y.last = s.time then s else _).streams
    by_cases ht : y.last = s.time
    · rw [if_pos ht]; exact hx
    · rw [if_neg ht]; exact stay_edit hx hj _

theorem stay_remove {s : St} (hb : Base s) {x y : Stream} (hx : x ∈ s.streams) (hy : y ∈ s.streams) (hj : y.ssrc ≠ x.ssrc) : x ∈ (s.remove y).streams := by
  have : x.id ≠ y.id := fun e => hj (by rw [List.inj_on_of_nodup_map hb.ids hx hy e])
  exact List.mem_filter.mpr ⟨hx, by simpa using this⟩

theorem stay_mark {s : St} {x : Stream} (hx : x ∈ s.streams) {j : Nat} (hj : j ≠ x.ssrc) (addr : Nat) (has : Stream → Bool) (f : Stream → Stream) :
    x ∈ (s.mark j addr has f).streams := by
  unfold St.mark
  cases s.find j with
  | none => exact hx
  | some y => exact stay_edit hx hj _

theorem stay_on {M : List Nat} {s : St} (hb : Base s) {x : Stream} (hx : x ∈ s.streams) (addr : Nat) (e : Ev) (hj : e.source ≠ x.ssrc) (he : e.source ≠ s.src) (hm : e.source ∈ M) :
    x ∈ (s.on addr e).streams := by
  cases e with
  | cname k text =>
    have hj : k ≠ x.ssrc := hj
    show x ∈ (s.onCname k text).streams
    unfold St.onCname
    by_cases h1 : text = []
    · rw [if_pos h1]; exact hx
    rw [if_neg h1]
    by_cases h2 : (s.ensure k).sameCname k text = true
    · rw [if_pos h2]; exact streams_ensure hx
    rw [if_neg h2]
    have hsrc : ((((s.ensure k).recreate k text).edit k (fun x => { x with cname := text })).src) = s.src :=
      (sd_recreate (s.ensure k) k text).1.trans (sd_ensure s k).1
    simp only []
    rw [collide_eq _ (by show k ≠ _; rw [hsrc]; exact he)]
    apply stay_update _ hj
    refine stay_edit (s := (s.ensure k).recreate k text) ?_ hj _
    unfold St.recreate
    cases hf : (s.ensure k).find k with
    | none => exact streams_ensure hx
    | some y =>
      obtain ⟨hy, ey⟩ := find_some hf
      show x ∈ (if y.cname ≠ [] ∧ y.cname ≠ text then _ else s.ensure k).streams
      by_cases hc : y.cname ≠ [] ∧ y.cname ≠ text
      · rw [if_pos hc]
        exact streams_ensure (stay_remove ((grow_ensure s hm).base hb) (streams_ensure hx) hy (by rw [ey]; exact hj))
      · rw [if_neg hc]; exact streams_ensure hx
  | sr k ts =>
    show x ∈ (s.onSr addr k ts).streams
    unfold St.onSr
    rw [collide_eq s (k := k) he]
    exact stay_update (stay_mark (streams_ensure hx) hj _ _ _) hj
  | reception k about =>
    show x ∈ (s.onReception addr k about).streams
    unfold St.onReception
    rw [collide_eq s (k := k) he]
    by_cases h1 : (!s.hasSend || decide (about ≠ s.src)) = true
    · rw [if_pos h1]; exact hx
    rw [if_neg h1]
    exact stay_update (stay_mark (streams_ensure hx) hj _ _ _) hj
  | dlrr k about =>
    show x ∈ (s.onDlrr k about).streams
    unfold St.onDlrr
    rw [collide_eq s (k := k) he]
    split_ifs
    · exact hx
    · exact hx
    · exact stay_update hx hj
  | rrtr k ts =>
    show x ∈ (s.onRrtr k ts).streams
    unfold St.onRrtr
    rw [collide_eq s (k := k) he]
    split_ifs
    · exact hx
    · exact stay_update (stay_edit hx hj _) hj
  | metrics k about =>
    show x ∈ (s.onMetrics k about).streams
    unfold St.onMetrics
    rw [collide_eq s (k := k) he]
    split_ifs
    · exact hx
    · exact hx
    · exact stay_update hx hj
  | bye k =>
    show x ∈ (s.onBye k).streams
    unfold St.onBye
    cases h : s.find k with
    | none => exact hx
    | some y =>
      obtain ⟨hy, ey⟩ := find_some h
      exact stay_remove hb hx hy (by rw [ey]; exact hj)

theorem stay_evs {M : List Nat} (addr : Nat) (evs : List Ev) {x : Stream} : ∀ (s : St), Base s → x ∈ s.streams → (∀ e ∈ evs, e.source ≠ x.ssrc) →
    (∀ e ∈ evs, e.source ≠ s.src) → (∀ e ∈ evs, e.source ∈ M) → x ∈ (evs.foldl (St.on addr) s).streams := by
  induction evs with
  | nil => intro s _ hx _ _ _; exact hx
  | cons e evs ih =>
    intro s hb hx hj hs hm
    have sd := sd_on addr e (hs e List.mem_cons_self)
    exact ih _ ((grow_on addr s e (hm e List.mem_cons_self)).base hb)
      (stay_on hb hx addr e (hj e List.mem_cons_self) (hs e List.mem_cons_self) (hm e List.mem_cons_self)) (fun y hy => hj y (List.mem_cons_of_mem _ hy))
      (fun y hy => by rw [sd.1]; exact hs y (List.mem_cons_of_mem _ hy)) (fun y hy => hm y (List.mem_cons_of_mem _ hy))

theorem expire_cover {M : List Nat} {s s' : St} (hb : Base s) (hc : CInv s) (ht : 0 < s.timeout) (e : s.expire = .ok s') :
    CInv s' ∧ (∀ x ∈ s.streams, x.last > s.time - s.timeout → x ∈ s'.streams) ∧ s'.timeout = s.timeout := by
  obtain ⟨s2, k1, k2, _, _, k5⟩ := expire_ok M s hb ht
  have : s2 = s' := by rw [k1] at e; cases e; rfl
  subst this
  exact ⟨kept_cinv hc k2 (kept_timeouts _ _ _ k1), k5, k2.timeout⟩

theorem cinv_call {M : List Nat} {K : Prop} {s s' : St} (h : Inv M K True s) (hc : CInv s) (c : Call) {l : List Rep} (hd : s.detected = false) (h0 : 0 < c.now)
    (ht : s.time ≤ c.now) (hp : ∀ r ∈ c.part.recvs, r.1 ∈ M) (he : ∀ e ∈ c.evs, e.source ∈ M) (hk : K → c.part.hasSend = true)
    (hq : c.part.recvs.map (·.1) = s.recvs.map (·.1) ∨ c.part.recvs.length ≠ s.recvs.length)
    (hn : ∀ e ∈ c.evs, e.source ≠ s.src) (hst : ∀ e ∈ c.evs, e.Stamped) (e : s.call c = .ok (s', l)) :
    CInv s' ∧ (∀ k a T, (∀ e ∈ c.evs, e.source ≠ k) → Has k a T s → c.now + 1 < T + s.timeout → Has k a T s') ∧ s'.timeout = s.timeout := by
  obtain ⟨hi, hr, e1, e2, e3, e4, e5, e6, e7, _⟩ := begin_ok (now := c.now) (p := c.part) h ht hp hk (fun _ => hq)
  obtain ⟨b1, b2⟩ := cinv_begin (now := c.now) (p := c.part) h hc ht hp hq
  obtain ⟨s1, hs1⟩ : ∃ s1, s1 = s.begin c.now c.part := ⟨_, rfl⟩
  rw [← hs1] at hi hr e1 e2 e3 e4 e5 e6 e7 b1 b2
  have etime : s1.time ≤ c.now + 1 := by
    rw [e7]
    split <;> omega
  cases c with
  | packet now p addr evs =>
    have e' : (match s.process now p addr evs with
      | .ok s' => Out.ok (s', [])
      | .abort => .abort
      | .ub => .ub
      | .hang => .hang) = Out.ok (s', l) := e
    have hpr : s.process now p addr evs = (evs.foldl (St.on addr) s1).expire := by
      rw [hs1]
      unfold St.process
      rw [if_neg (by have : 0 < now := h0; omega)]
      rfl
    rw [hpr] at e'
    have g := grow_evs addr evs s1 he
    have hi2 := inv_grow hi g
    have hk2 := kept_evs addr evs s1 hi.base he (by rw [e1]; exact hn) hst
    have hc2 := kept_cinv b1 g hk2
    have hex : (evs.foldl (St.on addr) s1).expire = .ok s' := by
      cases hx : (evs.foldl (St.on addr) s1).expire with
      | ok y => rw [hx] at e'; cases e'; rfl
      | abort => rw [hx] at e'; cases e'
      | ub => rw [hx] at e'; cases e'
      | hang => rw [hx] at e'; cases e'
    obtain ⟨x1, x2, x3⟩ := expire_cover (M := M) hi2.base hc2 hi2.timeout hex
    refine ⟨x1, ?_, by rw [x3, g.timeout, e6]⟩
    intro k a T hne hh hT
    obtain ⟨x, hx, q1, q2, q3, q4⟩ := b2 k a T hh
    have hx2 := stay_evs addr evs s1 hi.base hx (by rw [q1]; exact hne) (by rw [e1]; exact hn) he
    refine ⟨x, x2 x hx2 ?_, q1, q2, q3, q4⟩
    rw [g.time, g.timeout, e6]
    omega
  | report now p ids =>
    have e' : s.generate now p ids = .ok (s', l) := e
    unfold St.generate at e'
    rw [if_neg (by have : 0 < now := h0; omega)] at e'
    have hs1' : s.begin now p = s1 := hs1.symm
    rw [hs1'] at e'
    have hdet : s1.detected = false := e2.trans hd
    have hsb : s1.sayBye = s1 := by unfold St.sayBye; rw [hdet]; rfl
    have hrs : s1.resolve ids = .ok s1 := by unfold St.resolve; rw [hdet]; rfl
    rw [hsb, hrs] at e'
    have hex : s1.expire = .ok s' := by
      cases hl : s1.index.mapM (s1.repTo p) with
      | none => rw [hl] at e'; cases e'
      | some m =>
        rw [hl] at e'
        simp only [] at e'
        cases hx : s1.expire with
        | ok y => rw [hx] at e'; cases e'; rfl
        | abort => rw [hx] at e'; cases e'
        | ub => rw [hx] at e'; cases e'
        | hang => rw [hx] at e'; cases e'
    obtain ⟨x1, x2, x3⟩ := expire_cover (M := M) hi.base b1 hi.timeout hex
    refine ⟨x1, ?_, by rw [x3, e6]⟩
    intro k a T hne hh hT
    obtain ⟨x, hx, q1, q2, q3, q4⟩ := b2 k a T hh
    refine ⟨x, x2 x hx ?_, q1, q2, q3, q4⟩
    rw [e6]
    have hT : now + 1 < T + s.timeout := hT
    have etime : s1.time ≤ now + 1 := etime
    omega

/-- What a packet that ends with a sender report leaves. -/
theorem sr_has {M : List Nat} {K : Prop} {s s' : St} (h : Inv M K True s) {now : Int} {p : Part} {a k : Nat} {evs : List Ev} {l : List Rep} (h0 : 0 < now)
    (ht : s.time ≤ now) (hp : ∀ r ∈ p.recvs, r.1 ∈ M) (he : ∀ e ∈ evs ++ [.sr k true], e.source ∈ M) (hk : K → p.hasSend = true)
    (hq : p.recvs.map (·.1) = s.recvs.map (·.1) ∨ p.recvs.length ≠ s.recvs.length)
    (hn : ∀ e ∈ evs ++ [Ev.sr k true], e.source ≠ s.src) (e : s.call (.packet now p a (evs ++ [.sr k true])) = .ok (s', l)) :
    Has k a now s' := by
  obtain ⟨hi, hr, e1, e2, e3, e4, e5, e6, e7, _⟩ := begin_ok (now := now) (p := p) h ht hp hk (fun _ => hq)
  obtain ⟨s1, hs1⟩ : ∃ s1, s1 = s.begin now p := ⟨_, rfl⟩
  rw [← hs1] at hi hr e1 e2 e3 e4 e5 e6 e7
  have etime : now ≤ s1.time := by
    rw [e7]
    split <;> omega
  have e' : (match s.process now p a (evs ++ [.sr k true]) with
    | .ok s' => Out.ok (s', [])
    | .abort => .abort
    | .ub => .ub
    | .hang => .hang) = Out.ok (s', l) := e
  have he1 : ∀ e ∈ evs, e.source ∈ M := fun x hx => he x (List.mem_append_left _ hx)
  have he2 : k ∈ M := he (.sr k true) (List.mem_append_right _ (List.mem_singleton.mpr rfl))
  have g := grow_evs a evs s1 he1
  have sd := sd_evs a evs s1 (fun x hx => by rw [e1]; exact hn x (List.mem_append_left _ hx))
  obtain ⟨s2, hs2⟩ : ∃ s2, s2 = evs.foldl (St.on a) s1 := ⟨_, rfl⟩
  rw [← hs2] at g sd
  have hpr : s.process now p a (evs ++ [.sr k true]) = (s2.onSr a k true).expire := by
    rw [hs2, hs1]
    unfold St.process
    rw [if_neg (by omega), List.foldl_append]
    rfl
  rw [hpr] at e'
  have g2 : Grow M s2 (s2.onSr a k true) := grow_on a s2 (.sr k true) he2
  have hi2 := inv_grow (inv_grow hi g) g2
  have hex : (s2.onSr a k true).expire = .ok s' := by
    cases hx : (s2.onSr a k true).expire with
    | ok y => rw [hx] at e'; cases e'; rfl
    | abort => rw [hx] at e'; cases e'
    | ub => rw [hx] at e'; cases e'
    | hang => rw [hx] at e'; cases e'
  obtain ⟨s4, k1, k2, _, _, k5⟩ := expire_ok M _ hi2.base hi2.timeout
  have h4 : s4 = s' := by rw [k1] at hex; cases hex; rfl
  rw [← h4]
  have hne : k ≠ s2.src := by
    rw [sd.1, e1]
    exact hn (.sr k true) (List.mem_append_right _ (List.mem_singleton.mpr rfl))
  have key : ∃ x ∈ (s2.onSr a k true).streams, x.ssrc = k ∧ x.hasSend = true ∧ x.addr = a ∧ x.last = s2.time := by
    unfold St.onSr
    rw [collide_eq s2 (k := k) hne]
    obtain ⟨x, hx, ex⟩ : ∃ x ∈ (s2.ensure k).streams, x.ssrc = k := by
      unfold St.ensure
      cases h : s2.find k with
      | some x => exact ⟨x, (find_some h).1, (find_some h).2⟩
      | none => exact ⟨newStream s2.next k s2.time, List.mem_append_right _ (List.mem_singleton.mpr rfl), rfl⟩
    have gm := (grow_ensure s2 he2).trans (grow_mark M (s2.ensure k) k a (·.hasSend) (fun x => { x with hasSend := true, sendTs := true }) (fun _ => rfl) (fun _ => rfl) (fun _ => rfl))
    obtain ⟨s3, hs3⟩ : ∃ s3, s3 = (s2.ensure k).mark k a (·.hasSend) (fun x => { x with hasSend := true, sendTs := true }) := ⟨_, rfl⟩
    rw [← hs3] at gm ⊢
    have hx3 : { x with hasSend := true, sendTs := true, addr := a } ∈ s3.streams := by
      rw [hs3]
      unfold St.mark
      cases hf : (s2.ensure k).find k with
      | none => exact absurd ex (find_none hf x hx)
      | some y => exact List.mem_map.mpr ⟨x, hx, if_pos ex⟩
    have hb3 := gm.base (inv_grow hi g).base
    have hf3 := find_of_mem hb3.keys hx3
    have hf3 : s3.find k = some { x with hasSend := true, sendTs := true, addr := a } := by rw [← ex]; exact hf3
    unfold St.update
    rw [hf3]
    show ∃ y ∈ (if x.last = s3.time then s3 else _).streams, _
    by_cases hl : x.last = s3.time
    · rw [if_pos hl]
      exact ⟨_, hx3, ex, rfl, rfl, hl.trans gm.time⟩
    · rw [if_neg hl]
      exact ⟨_, List.mem_map.mpr ⟨_, hx3, if_pos ex⟩, ex, rfl, rfl, gm.time⟩
  obtain ⟨x, hx, q1, q2, q3, q4⟩ := key
  refine ⟨x, k5 x hx ?_, q1, q2, q3, ?_⟩
  · rw [q4, g2.time]
    have := hi2.timeout
    omega
  · rw [q4, g.time]
    exact etime

theorem repTo_find {s : St} (hb : Base s) {p : Part} {a : Nat} {d : Rep} (h : s.repTo p a = some d) :
    ∃ y ∈ s.addrs, y.addr = a ∧ d.addr = a ∧ (if p.recvs.isEmpty then [] else y.recv).mapM s.derefRecv = some d.recv := by
  unfold St.repTo at h
  cases hf : s.addrs.find? (fun x => x.addr = a) with
  | none => rw [hf] at h; cases h
  | some y =>
    rw [hf] at h
    simp only [] at h
    refine ⟨y, List.mem_of_find?_eq_some hf, by simpa using List.find?_some hf, ?_⟩
    cases h1 : (if p.hasSend then y.send else []).mapM s.derefSend with
    | none => rw [h1] at h; cases h
    | some u =>
      cases h2 : (if p.recvs.isEmpty then [] else y.recv).mapM s.derefRecv with
      | none => rw [h1, h2] at h; cases h
      | some v =>
        rw [h1, h2] at h
        cases h
        exact ⟨rfl, rfl⟩

theorem derefRecv_some {s : St} {i : Nat} {b : Nat × Nat} (h : s.derefRecv i = some b) : ∃ x ∈ s.streams, x.id = i ∧ x.ssrc = b.1 := by
  unfold St.derefRecv at h
  cases hf : s.streams.find? (fun x => x.id = i) with
  | none => rw [hf] at h; cases h
  | some x =>
    refine ⟨x, List.mem_of_find?_eq_some hf, by simpa using List.find?_some hf, ?_⟩
    rw [hf] at h
    simp only [] at h
    cases h1 : x.report with
    | none => rw [h1] at h; cases h
    | some k =>
      rw [h1] at h
      simp only [] at h
      cases h2 : s.recvs[k]? with
      | none => rw [h2] at h; cases h
      | some r => rw [h2] at h; cases h; rfl

/-- Reports generated when the index is current. -/
theorem report_cover {M : List Nat} {K : Prop} {s : St} (h : Inv M K True s) (hc : CInv s) (hr : s.rebuild = false) {p : Part} (hp : s.recvs = p.recvs) {k a : Nat} {T : Int}
    (hk : k ∈ p.recvs.map (·.1)) (hh : Has k a T s) {l : List Rep} (hl : s.index.mapM (s.repTo p) = some l) :
    (∃ d ∈ l, d.addr = s.dest.getD a ∧ k ∈ d.recv.map (·.1)) ∧ ∀ d ∈ l, k ∈ d.recv.map (·.1) → d.addr = s.dest.getD a := by
  obtain ⟨x, hx, q1, q2, q3, q4⟩ := hh
  have hidx := h.idx hr
  have hpe : p.recvs.isEmpty = false := by
    cases hq : p.recvs with
    | nil => rw [hq] at hk; cases hk
    | cons _ _ => rfl
  obtain ⟨l', el, h1, h2⟩ := mapM_ok (s.repTo p) s.index (fun a ha => by
    rw [h.index] at ha
    obtain ⟨d, hd, _⟩ := repTo_ok h.base hidx p ha
    exact ⟨d, hd⟩)
  rw [hl] at el
  cases el
  constructor
  · obtain ⟨A, hA, f1, f2⟩ := hc.cov hr x hx (by rw [hp, q1]; exact hk) q2
    obtain ⟨d, hd, ed⟩ := h2 A.addr (by rw [h.index]; exact List.mem_map_of_mem hA)
    obtain ⟨y, hy, g1, g2, g3⟩ := repTo_find h.base ed
    have hyA := addr_inj h.base hy hA g1
    rw [hpe, hyA] at g3
    refine ⟨d, hd, by rw [g2, f1, q3], ?_⟩
    obtain ⟨m, em, _, m2⟩ := mapM_ok s.derefRecv A.recv (fun i hi => by
      obtain ⟨b, e, _⟩ := derefRecv_ok h.base ((hidx A hA).2 i hi)
      exact ⟨b, e⟩)
    have g3 : A.recv.mapM s.derefRecv = some d.recv := g3
    rw [em] at g3
    cases g3
    obtain ⟨b, hb, eb⟩ := m2 x.id f2
    obtain ⟨z, hz, z1, z2⟩ := derefRecv_some eb
    have : z = x := List.inj_on_of_nodup_map h.base.ids hz hx z1
    rw [this, q1] at z2
    exact List.mem_map.mpr ⟨b, hb, z2.symm⟩
  · intro d hd hkd
    obtain ⟨b, hb, ebk⟩ := List.mem_map.mp hkd
    obtain ⟨a', ha', ed⟩ := h1 d hd
    obtain ⟨y, hy, g1, g2, g3⟩ := repTo_find h.base ed
    rw [hpe] at g3
    have g3 : y.recv.mapM s.derefRecv = some d.recv := g3
    obtain ⟨m, em, m1, _⟩ := mapM_ok s.derefRecv y.recv (fun i hi => by
      obtain ⟨b, e, _⟩ := derefRecv_ok h.base ((hidx y hy).2 i hi)
      exact ⟨b, e⟩)
    rw [em] at g3
    cases g3
    obtain ⟨i, hi, ei⟩ := m1 b hb
    obtain ⟨z, hz, z1, z2⟩ := derefRecv_some ei
    have hzx : z = x := List.inj_on_of_nodup_map h.base.keys hz hx (by rw [z2, q1]; exact ebk)
    rw [g2, ← g1, ← q3]
    apply hc.only hr y hy x hx
    rw [← hzx, z1]
    exact hi

/-- A whole history. -/
theorem cinv_run {M : List Nat} (cs : List Call) : ∀ {s : St}, Inv M False True s → CInv s → s.detected = false → Spaced s.time cs → (∀ x ∈ mentioned cs, x ∈ M) →
    Steady s.recvs cs → (∀ c ∈ cs, ∀ e ∈ c.evs, e.source ≠ s.src ∧ e.Stamped) →
    ∃ s' ls, s.run cs = .ok (s', ls) ∧ Inv M False True s' ∧ CInv s' ∧ SD s s' ∧ s'.dest = s.dest ∧ s'.timeout = s.timeout ∧
      (∀ k a T, (∀ c ∈ cs, (∀ e ∈ c.evs, e.source ≠ k) ∧ c.now + 1 < T + s.timeout) → Has k a T s → Has k a T s') ∧
      (∀ t, Spaced s.time (cs ++ t) → Spaced s'.time t) ∧ (∀ t, Steady s.recvs (cs ++ t) → Steady s'.recvs t) := by
  induction cs with
  | nil =>
    intro s h hc hd _ _ _ _
    exact ⟨s, [], rfl, h, hc, ⟨rfl, rfl⟩, rfl, rfl, fun _ _ _ _ h => h, fun t h => h, fun t h => h⟩
  | cons c cs ih =>
    intro s h hc hdet hs hn hq hm
    obtain ⟨h0, ht, hs⟩ := hs
    have hn1 : ∀ r ∈ c.part.recvs, r.1 ∈ M := by
      intro r hr
      apply hn
      exact List.mem_flatMap.mpr ⟨c, List.mem_cons_self, List.mem_append_right _ (List.mem_map_of_mem hr)⟩
    have hn2 : ∀ e ∈ c.evs, e.source ∈ M := by
      intro e he
      apply hn
      exact List.mem_flatMap.mpr ⟨c, List.mem_cons_self, List.mem_append_left _ (List.mem_map_of_mem he)⟩
    have hn3 : ∀ x ∈ mentioned cs, x ∈ M := by
      intro x hx
      apply hn
      exact List.mem_append_right _ hx
    have hmode : Mode M False s (c :: cs) := .inr ⟨hdet, fun c' hc' e he => (hm c' hc' e he).1⟩
    obtain ⟨s', l, e, hi, hm', e1, e2, e3, _, _⟩ := call_ok h c cs h0 ht hn1 hn2 (fun k => k.elim) (fun _ => hq.1) hmode
    obtain ⟨hc', hhas, eto⟩ := cinv_call h hc c hdet h0 ht hn1 hn2 (fun k => k.elim) hq.1 (fun e he => (hm c List.mem_cons_self e he).1)
      (fun e he => (hm c List.mem_cons_self e he).2) e
    have sd1 : SD s s' := by
      obtain ⟨s2, ls2, r1, _, _, _, _, r2, _⟩ := run_ok [c] h ⟨h0, ht, trivial⟩ (fun x hx => hn x (by
        rw [mentioned, List.flatMap_cons, List.flatMap_nil, List.append_nil] at hx
        exact List.mem_flatMap.mpr ⟨c, List.mem_cons_self, hx⟩)) (fun k => k.elim) (fun _ => ⟨hq.1, trivial⟩)
        (.inr ⟨hdet, fun c' hc' e he => by
          rw [List.mem_singleton.mp hc'] at he
          exact (hm c List.mem_cons_self e he).1⟩)
      have : s2 = s' := by
        unfold St.run at r1
        rw [e] at r1
        simp only [St.run] at r1
        cases r1
        rfl
      rw [← this]
      exact r2 (fun c' hc' e he => by
          rw [List.mem_singleton.mp hc'] at he
          exact (hm c List.mem_cons_self e he).1) hdet
    obtain ⟨s'', ls, e', hi', hc'', sd2, d2, t2, hh2, sp, st⟩ := ih hi hc' (sd1.2.trans hdet) (by rw [e2]; exact hs) hn3 (by rw [e1]; exact hq.2)
      (fun c' hc' e he => by rw [sd1.1]; exact hm c' (List.mem_cons_of_mem _ hc') e he)
    refine ⟨s'', l :: ls, ?_, hi', hc'', sd1.trans sd2, d2.trans e3, t2.trans eto, ?_, ?_, ?_⟩
    · conv => lhs; unfold St.run
      rw [e]
      show (match s'.run cs with
        | .ok (s'', rs) => Out.ok (s'', l :: rs)
        | .abort => .abort
        | .ub => .ub
        | .hang => .hang) = _
      rw [e']
    · intro k a T hne hh
      refine hh2 k a T (fun c' hc' => ?_) (hhas k a T (hne c List.mem_cons_self).1 hh (hne c List.mem_cons_self).2)
      rw [eto]
      exact hne c' (List.mem_cons_of_mem _ hc')
    · intro t ht'
      apply sp
      rw [e2]
      exact ht'.2.2
    · intro t ht'
      apply st
      rw [e1]
      exact ht'.2

theorem cinv_init (src : Nat) (cname : List Nat) (dest : Option Nat) (timeout : Int) : CInv (St.init src cname dest timeout) := by
  refine ⟨⟨?_, ?_⟩, ?_, ?_⟩
  · intro x hx; cases hx
  · intro x hx; cases hx
  · intro e; cases e
  · intro e; cases e

end Verif.Reporter
