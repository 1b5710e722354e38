import Verif.SessionRouter.Effects

/-!
# Session router and session group: properties
-/

namespace Verif.SessionRouter

/-! ## C46: the router -/

/-- **C46.** After any history of calls: every source, CNAME, address and session is in at most one route; a source or an address is found if and only if there is a route with it, and the session of this
route is returned; `has_session` tells whether a route has the session. -/
theorem C46_consistent (l : List Op) (s : St) (h : St.init.runs l = some s) :
    (∀ r ∈ s.routes, ∀ q ∈ s.routes, ((∃ x, x ∈ r.sources ∧ x ∈ q.sources) ∨ (∃ c, r.cname = some c ∧ q.cname = some c) ∨
      (∃ a, r.addr = some a ∧ q.addr = some a) ∨ (∃ z, r.sess = some z ∧ q.sess = some z)) → r = q) ∧
    (∀ r ∈ s.routes, ∀ x ∈ r.sources, s.findBySource x = r.sess) ∧
    (∀ x z, s.findBySource x = some z ↔ ∃ r ∈ s.routes, x ∈ r.sources ∧ r.sess = some z) ∧
    (∀ a z, s.findByAddress a = some z ↔ ∃ r ∈ s.routes, r.addr = some a ∧ r.sess = some z) ∧
    (∀ z, s.hasSession z = true ↔ ∃ r ∈ s.routes, r.sess = some z) := by
  have hi := inv_init.runs h
  have gm : ∀ r, r ∈ s.routes → s.get r.id = some r := fun r hr => (mem_iff hi.w).1 hr
  refine ⟨fun r hr q hq hc => ?_, fun r hr x hx => findBySource_of hi.w (gm r hr) hx, fun x z => ?_, fun a z => ?_, hasSession_iff hi⟩
  · have : r.id = q.id := by
      rcases hc with ⟨x, h1, h2⟩ | ⟨c, h1, h2⟩ | ⟨a, h1, h2⟩ | ⟨z, h1, h2⟩
      · exact hi.w.src _ _ _ _ _ (gm r hr) (gm q hq) h1 h2
      · refine hi.w.c _ _ _ _ (gm r hr) (gm q hq) ?_ ?_ (h1.trans h2.symm)
        · rw [(hi.l _ _ (gm r hr)).c, h1]; rfl
        · rw [(hi.l _ _ (gm q hq)).c, h2]; rfl
      · exact hi.w.a _ _ _ _ (gm r hr) (gm q hq) ((hi.l _ _ (gm r hr)).a (by rw [h1]; rfl)) ((hi.l _ _ (gm q hq)).a (by rw [h2]; rfl)) (h1.trans h2.symm)
      · exact hi.w.z _ _ _ _ (gm r hr) (gm q hq) ((hi.l _ _ (gm r hr)).z (by rw [h1]; rfl)) ((hi.l _ _ (gm q hq)).z (by rw [h2]; rfl)) (h1.trans h2.symm)
    have h1 := gm r hr
    rw [this, gm q hq] at h1
    injection h1 with h1
    exact h1.symm
  · rw [fbs_iff hi.w]
    exact ⟨fun ⟨i, r, h1, h2⟩ => ⟨r, get_mem h1, h2⟩, fun ⟨r, h1, h2⟩ => ⟨_, r, gm r h1, h2⟩⟩
  · rw [fba_iff hi]
    exact ⟨fun ⟨i, r, h1, h2⟩ => ⟨r, get_mem h1, h2⟩, fun ⟨r, h1, h2⟩ => ⟨_, r, gm r h1, h2⟩⟩

/-- **C46.** `add_session` either succeeds, and then the session is found by its source and by its address, and no other source is affected, except those that share a route without a session with the source: they get the session;
or it reports a conflict, and then the session or the address is registered already, and nothing changes. -/
theorem C46_add (l : List Op) (s s' : St) (h : St.init.runs l = some s) (z x : Nat) (a : Option Nat) (b : Status) (hs : s.add z x a = some (s', b)) :
    (b = .ok → s'.findBySource x = some z ∧ (∀ d, a = some d → s'.findByAddress d = some z) ∧ s'.hasSession z = true ∧
      ∀ y, y ≠ x → s'.findBySource y = s.findBySource y ∨ (s'.findBySource y = some z ∧ ∃ r ∈ s.routes, x ∈ r.sources ∧ y ∈ r.sources ∧ r.sess = none)) ∧
    (b = .conflict → s' = s ∧ (s.hasSession z = true ∨ ∃ r ∈ s.routes, ∃ d, a = some d ∧ r.addr = some d)) := by
  have hi := inv_init.runs h
  constructor
  · rintro rfl
    exact add_effect hi hs
  · rintro rfl
    rcases add_conflict hs with ⟨_, h1, h2 | h2⟩ | ⟨hc, _⟩
    · obtain ⟨d, hd⟩ := Option.isSome_iff_exists.1 h2.1
      obtain ⟨r, hr⟩ := Option.isSome_iff_exists.1 h2.2
      obtain ⟨h3, _, h4⟩ := byAddr_some hi.w hr
      exact ⟨h1, Or.inr ⟨r, get_mem h3, d, hd, h4.trans hd⟩⟩
    · exact ⟨h1, Or.inl h2⟩
    · cases hc

/-- **C46.** After `link_source`: the source is in the route of the CNAME; all sources that were linked to this CNAME have the same session as the source; if the source is the main one of its route, it keeps its session, and otherwise it
gets the session of the CNAME; sources of other routes of which the source is not the main one keep their sessions. -/
theorem C46_link (l : List Op) (s s' : St) (h : St.init.runs l = some s) (x c : Nat) (hs : s.link x (some c) = some s') :
    (∃ r ∈ s'.routes, x ∈ r.sources ∧ r.cname = some c) ∧
    (∀ r ∈ s.routes, r.cname = some c → ∀ y ∈ r.sources, s'.findBySource y = s'.findBySource x) ∧
    (∀ r ∈ s.routes, r.main = some x → s'.findBySource x = s.findBySource x) ∧
    (∀ q ∈ s.routes, q.cname = some c → (∀ r ∈ s.routes, r.main ≠ some x) → s'.findBySource x = q.sess) ∧
    (∀ r ∈ s.routes, r.cname ≠ some c → r.main ≠ some x → ∀ y ∈ r.sources, y ≠ x → s'.findBySource y = s.findBySource y) := by
  have e := link_effect (inv_init.runs h) hs
  exact ⟨e.here, e.share, e.main, e.join, e.keep⟩

/-- **C46.** After `unlink_source` the source is not found, and all other sources are found as before. -/
theorem C46_unlink (l : List Op) (s : St) (h : St.init.runs l = some s) (x y : Nat) : (s.unlink x).findBySource y = if y = x then none else s.findBySource y :=
  unlink_fbs (inv_init.runs h) x y

/-- **C46.** After `remove_session` no lookup returns the session; lookups that returned another session return it still. -/
theorem C46_remove (l : List Op) (s : St) (h : St.init.runs l = some s) (z : Nat) :
    (s.remove z).hasSession z = false ∧ (∀ x, (s.remove z).findBySource x ≠ some z) ∧ (∀ a, (s.remove z).findByAddress a ≠ some z) ∧
    (∀ w, w ≠ z → ((s.remove z).hasSession w = s.hasSession w) ∧ (∀ x, (s.remove z).findBySource x = some w ↔ s.findBySource x = some w) ∧
      ∀ a, (s.remove z).findByAddress a = some w ↔ s.findByAddress a = some w) := by
  have hi := inv_init.runs h
  have hr := hi.remove z
  refine ⟨?_, fun x hx => ?_, fun a ha => ?_, fun w hw => ⟨?_, fun x => ?_, fun a => ?_⟩⟩
  · cases hh : (s.remove z).hasSession z with
    | false => rfl
    | true =>
      obtain ⟨r, h1, h2⟩ := (hasSession_iff hr z).1 hh
      exact absurd h2 ((remove_mem hi z _ _).1 ((mem_iff hr.w).1 h1)).2
  · obtain ⟨i, r, h1, _, h2⟩ := (fbs_iff hr.w).1 hx
    exact ((remove_mem hi z _ _).1 h1).2 h2
  · obtain ⟨i, r, h1, _, h2⟩ := (fba_iff hr).1 ha
    exact ((remove_mem hi z _ _).1 h1).2 h2
  · rw [Bool.eq_iff_iff, hasSession_iff hr, hasSession_iff hi]
    constructor
    · rintro ⟨r, h1, h2⟩
      exact ⟨r, get_mem ((remove_mem hi z _ _).1 ((mem_iff hr.w).1 h1)).1, h2⟩
    · rintro ⟨r, h1, h2⟩
      exact ⟨r, get_mem ((remove_mem hi z _ _).2 ⟨(mem_iff hi.w).1 h1, by rw [h2]; exact fun hc => hw (Option.some.inj hc)⟩), h2⟩
  · rw [fbs_iff hr.w, fbs_iff hi.w]
    constructor
    · rintro ⟨i, r, h1, h2⟩
      exact ⟨i, r, ((remove_mem hi z _ _).1 h1).1, h2⟩
    · rintro ⟨i, r, h1, h2, h3⟩
      exact ⟨i, r, (remove_mem hi z _ _).2 ⟨h1, by rw [h3]; exact fun hc => hw (Option.some.inj hc)⟩, h2, h3⟩
  · rw [fba_iff hr, fba_iff hi]
    constructor
    · rintro ⟨i, r, h1, h2⟩
      exact ⟨i, r, ((remove_mem hi z _ _).1 h1).1, h2⟩
    · rintro ⟨i, r, h1, h2, h3⟩
      exact ⟨i, r, (remove_mem hi z _ _).2 ⟨h1, by rw [h3]; exact fun hc => hw (Option.some.inj hc)⟩, h2, h3⟩

/-- **C46 is false** as stated: a source that is linked to a CNAME, and then to another one, before it has a session, leaves a node without a key in the maps, and the next `add_session` for the source panics. -/
theorem C46_abort_fails : St.init.runs [.link 1 (some 10), .link 1 (some 11)] ≠ none ∧
    St.init.runs [.link 1 (some 10), .link 1 (some 11), .add 5 1 (some 7)] = none := by decide +kernel

/-- **C46**, a limit: session 5 was added for source 2; linking *another* source (1) to a new CNAME takes the session away from source 2. -/
theorem C46_main_fails : ((St.init.runs [.link 1 (some 10), .link 2 (some 10), .add 5 2 (some 7)]).map (·.findBySource 2)) = some (some 5) ∧
    ((St.init.runs [.link 1 (some 10), .link 2 (some 10), .add 5 2 (some 7), .link 1 (some 11)]).map (·.findBySource 2)) = some none := by decide +kernel

/-- **C46**, absence of panics. `link_source` is called with a CNAME, and the main source of a route changes its CNAME only if the route has a session and an address (or has no CNAME yet and the CNAME is new). Then no call panics.
Missing: the other histories; `C46_abort_fails`. -/
theorem C46_no_abort_partial (l : List Op) (h : St.init.allSafe l) : ∃ s, St.init.runs l = some s := by
  obtain ⟨s, h1, _⟩ := runs_safe inv_init flags_init h
  exact ⟨s, h1⟩

/-- A history for the examples. -/
def sampleOps : List Op := [.add 5 1 (some 7), .link 1 (some 10), .link 2 (some 10), .add 6 3 (some 8), .link 3 (some 11), .unlink 1, .link 3 (some 10)]

example : ∃ s, St.init.runs sampleOps = some s ∧ s.findBySource 2 = some 6 ∧ s.findBySource 3 = some 6 ∧ s.findByAddress 8 = some 6 ∧ s.hasSession 5 = false :=
  ⟨_, rfl, by decide +kernel⟩

example : St.init.allSafe [.add 5 1 (some 7), .link 1 (some 10)] := by
  refine ⟨trivial, fun r hr => ⟨fun q hq _ _ => ?_, fun _ _ => trivial⟩⟩
  have : r = ((⟨[made 0 1 (some 7) none (some 5)], 1⟩ : St), .ok) := by
    have : St.init.call (.add 5 1 (some 7)) = some ((⟨[made 0 1 (some 7) none (some 5)], 1⟩ : St), .ok) := by decide +kernel
    rw [this] at hr
    exact (Option.some.inj hr).symm
  rw [this] at hq
  rw [List.mem_singleton.1 hq]
  exact Or.inr (Or.inr ⟨rfl, rfl⟩)

/-! ## C65: the session group -/

/-- **C65**, the group alone. If reports have CNAMEs, and a source keeps its CNAME until it is halted, then nothing panics, and sessions that are found by lookups exist. -/
theorem C65_group_partial (l : List GOp) (h : allAllowed (fun _ => none) Group.init l) :
    ∃ g, Group.init.runs l = some g ∧ (∀ x z, g.router.findBySource x = some z → z ∈ g.sessions) ∧ (∀ a z, g.router.findByAddress a = some z → z ∈ g.sessions) := by
  obtain ⟨g, h1, h2⟩ := gi_init.runs h
  exact ⟨g, h1, fun x z hz => h2.found hz, fun a z hz => h2.foundA hz⟩

/-- **C65.** A receiver that gets RTP packets, and RTCP packets in which every source of a sender report has a CNAME, does not panic in the session group, whatever the order of the events.
Missing: RTCP packets without CNAMEs (`C65_no_cname_fails`), and failures in the reporter itself (C30). -/
theorem C65_no_panic_partial (code : List Nat → Nat) (src : Nat) (cname : List Nat) (dest : Option Nat) (timeout : Int) (l : List REv) (h : ∀ e ∈ l, Conformant e) :
    (Recv.init src cname dest timeout).runs code l ≠ .error .panic := by
  rcases (ci_init code src cname dest timeout).runs h with h1 | ⟨r, _, h1, _⟩ <;> rw [h1] <;> intro hc <;> cases hc

/-- **C65.** In such a history, after a source packet (not a repair packet) from any source and address there is a session that gets the packets of this source from this address. -/
theorem C65_delivered_partial (code : List Nat → Nat) (src : Nat) (cname : List Nat) (dest : Option Nat) (timeout : Int) (l : List REv) (h : ∀ e ∈ l, Conformant e) (r : Recv)
    (hr : (Recv.init src cname dest timeout).runs code l = .ok r) (x a : Nat) :
    ∃ r', r.step code (.rtp x a false) = .ok r' ∧ ∃ z ∈ r'.grp.sessions, r'.grp.target (some x) a = some z := by
  rcases (ci_init code src cname dest timeout).runs h with h1 | ⟨r1, d, h1, h2⟩
  · rw [h1] at hr; cases hr
  · rw [h1] at hr
    injection hr with hr
    subst hr
    have hz : r1.fresh ∉ r1.grp.sessions := fun hc => Nat.lt_irrefl _ (h2.fresh _ hc)
    obtain ⟨g', h3, _, h4⟩ := h2.gi.packet (x := x) (a := a) (rep := false) hz
    refine ⟨{ r1 with grp := g', fresh := r1.fresh + 1 }, ?_, h4 rfl⟩
    simp only [Recv.step]
    rw [h3]

/-- **C65 is false** in general: one RTCP packet with a sender report and without a CNAME makes the receiver panic. -/
theorem C65_no_cname_fails (code : List Nat → Nat) : (Recv.init 1 [1] none 1).runs code [.rtcp 1 ⟨false, []⟩ 7 [.sr 5 true]] = .error .panic := rfl

/-- **C65**, a limit: when two sessions get the same CNAME, the group keeps the older session, but no lookup returns it: it gets no packets any more. -/
theorem C65_orphan_fails :
    ∃ g, Group.init.runs [.packet 1 7 100 false, .notify 1 (some 10), .packet 2 8 101 false, .notify 2 (some 10)] = some g ∧
      100 ∈ g.sessions ∧ g.router.hasSession 100 = false ∧ g.target (some 1) 7 = some 101 := ⟨_, rfl, by decide +kernel⟩

/-- A history for the examples: two sources with the same CNAME, of which one says goodbye. -/
def sampleEvs : List REv := [.rtp 5 7 false, .rtcp 1 ⟨false, []⟩ 8 [.cname 5 [1], .sr 5 true], .rtcp 2 ⟨false, []⟩ 8 [.cname 6 [1], .sr 6 true], .rtp 6 9 false,
  .rtcp 3 ⟨false, []⟩ 8 [.bye 5]]

example : (∀ e ∈ sampleEvs, Conformant e) ∧ ∃ r, (Recv.init 1 [2] none 100).runs List.length sampleEvs = .ok r ∧ r.grp.sessions = [0] ∧ r.grp.target (some 6) 1 = some 0 ∧
    r.grp.router.findBySource 5 = none := by
  refine ⟨?_, _, rfl, by decide +kernel⟩
  intro e he
  simp only [sampleEvs, List.mem_cons, List.not_mem_nil, or_false] at he
  rcases he with rfl | rfl | rfl | rfl | rfl
  · trivial
  · exact ⟨[.cname 5 [1]], [.sr 5 true], [], rfl, by simp, by simp, by simp, fun k ts hk => ⟨[1], by simp, by simp at hk ⊢; exact hk.1⟩⟩
  · exact ⟨[.cname 6 [1]], [.sr 6 true], [], rfl, by simp, by simp, by simp, fun k ts hk => ⟨[1], by simp, by simp at hk ⊢; exact hk.1⟩⟩
  · trivial
  · exact ⟨[], [], [.bye 5], rfl, by simp, by simp, by simp, by simp⟩

example : allAllowed (fun _ => none) Group.init [.packet 1 7 100 false, .notify 1 (some 10), .halt 1] :=
  ⟨by simp [allowed, Group.init], fun _ _ => ⟨⟨rfl, Or.inl rfl⟩, fun _ _ => ⟨trivial, fun _ _ => trivial⟩⟩⟩

end Verif.SessionRouter
