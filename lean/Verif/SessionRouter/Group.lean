import Verif.SessionRouter.Spec

/-!
# Session group: histories
-/

namespace Verif.SessionRouter

/-- Constructor (receiver_session_group.cpp:19-60): no sessions. -/
def Group.init : Group := ⟨St.init, []⟩

/-- A history of events (receiver_session_group.h:66-140); `none` if the receiver panics. -/
def Group.runs : Group → List GOp → Option Group
  | g, [] => some g
  | g, o :: os => (g.call o).bind fun g => g.runs os

/-- The CNAME that was last reported for every source, and not withdrawn. -/
def declare (d : Nat → Option Nat) : GOp → Nat → Option Nat
  | .notify x c => fun y => if y = x then c else d y
  | .halt x => fun y => if y = x then none else d y
  | _ => d

/-- An event that is possible in a group, given the CNAMEs reported so far: a new session is a new object, only existing sessions end, a
report has a CNAME, and the CNAME of a source does not change until the source is halted (reporter.cpp:158-179). -/
def allowed (d : Nat → Option Nat) (g : Group) : GOp → Prop
  | .packet _ _ z _ => z ∉ g.sessions
  | .notify x c => c.isSome = true ∧ (d x = none ∨ d x = c)
  | .halt _ => True
  | .ended z => z ∈ g.sessions

/-- All events of a history are possible. -/
def allAllowed : (Nat → Option Nat) → Group → List GOp → Prop
  | _, _, [] => True
  | d, g, o :: os => allowed d g o ∧ ∀ g', g.call o = some g' → allAllowed (declare d o) g' os

/-- Invariant of the group. -/
structure GI (d : Nat → Option Nat) (g : Group) : Prop where
  inv : Inv g.router
  flags : Flags g.router
  pair : ∀ i r, g.router.get i = some r → r.addr.isSome = r.sess.isSome
  bare : ∀ i r, g.router.get i = some r → r.cname = none → ∃ x, r.main = some x ∧ r.sources = [x] ∧ r.sess.isSome = true
  live : ∀ i r z, g.router.get i = some r → r.sess = some z → z ∈ g.sessions
  decl : ∀ i r x c, g.router.get i = some r → x ∈ r.sources → r.cname = some c → d x = some c

theorem gi_init : GI (fun _ => none) Group.init := by
  refine ⟨inv_init, flags_init, ?_, ?_, ?_, ?_⟩ <;> intro i r <;> intros <;> simp_all [St.get, St.init, Group.init]

theorem GI.removeSession {d : Nat → Option Nat} {g : Group} (h : GI d g) {z : Nat} (hz : z ∈ g.sessions) :
    ∃ g', g.removeSession z = some g' ∧ GI d g' ∧ ∀ y, y ∈ g'.sessions ↔ y ∈ g.sessions ∧ y ≠ z := by
  refine ⟨_, if_pos hz, ?_, fun y => by simp⟩
  have hs : ∀ i r, (g.router.remove z).get i = some r → g.router.get i = some r ∧ r.sess ≠ some z := by
    intro i r hi
    unfold St.remove at hi
    cases hb : g.router.bySess (some z) with
    | none =>
      rw [hb] at hi
      refine ⟨hi, fun hc => ?_⟩
      exact bySess_none hb hi ((h.inv.l _ _ hi).z (by rw [hc]; rfl)) hc
    | some q =>
      rw [hb] at hi
      simp only at hi
      rw [get_remove] at hi
      by_cases hk : i = q.id
      · rw [if_pos hk] at hi; cases hi
      · rw [if_neg hk] at hi
        refine ⟨hi, fun hc => ?_⟩
        obtain ⟨h1, h2, h3⟩ := bySess_some h.inv.w hb
        exact hk (h.inv.w.z _ _ _ _ hi h1 ((h.inv.l _ _ hi).z (by rw [hc]; rfl)) h2 (hc.trans h3.symm))
  refine ⟨h.inv.remove z, ?_, ?_, ?_, ?_, ?_⟩
  · intro i r hi; exact h.flags _ _ (hs i r hi).1
  · intro i r hi; exact h.pair _ _ (hs i r hi).1
  · intro i r hi; exact h.bare _ _ (hs i r hi).1
  · intro i r y hi hy
    refine List.mem_filter.2 ⟨h.live _ _ _ (hs i r hi).1 hy, ?_⟩
    have := (hs i r hi).2
    rw [hy] at this
    simpa using this
  · intro i r x c hi; exact h.decl _ _ _ _ (hs i r hi).1

theorem GI.drop {d : Nat → Option Nat} {g : Group} (h : GI d g) {o : Option Nat} (ho : ∀ z, o = some z → z ∈ g.sessions) :
    ∃ g', g.drop o = some g' ∧ GI d g' := by
  unfold Group.drop
  cases o with
  | none => exact ⟨g, rfl, h⟩
  | some z =>
    simp only
    by_cases hh : g.router.hasSession z = true
    · rw [if_pos hh]; exact ⟨g, rfl, h⟩
    · rw [if_neg hh]
      obtain ⟨g', h1, h2, _⟩ := h.removeSession (ho z rfl)
      exact ⟨g', h1, h2⟩

theorem GI.found {d : Nat → Option Nat} {g : Group} (h : GI d g) {x z : Nat} (hz : g.router.findBySource x = some z) : z ∈ g.sessions := by
  unfold St.findBySource at hz
  obtain ⟨r, h1, h2⟩ := Option.bind_eq_some_iff.1 hz
  exact h.live _ _ _ (bySrc_some h.inv.w h1).1 h2

theorem GI.foundA {d : Nat → Option Nat} {g : Group} (h : GI d g) {a z : Nat} (hz : g.router.findByAddress a = some z) : z ∈ g.sessions := by
  unfold St.findByAddress at hz
  obtain ⟨r, h1, h2⟩ := Option.bind_eq_some_iff.1 hz
  exact h.live _ _ _ (byAddr_some h.inv.w h1).1 h2

theorem GI.halt {d : Nat → Option Nat} {g : Group} (h : GI d g) (x : Nat) : ∃ g', g.halt x = some g' ∧ GI (declare d (.halt x)) g' := by
  unfold Group.halt
  refine GI.drop (g := { g with router := g.router.unlink x }) ?_ fun z hz => h.found hz
  cases hb : g.router.bySrc x with
  | none =>
    rw [unlink_none hb]
    refine ⟨h.inv, h.flags, h.pair, h.bare, h.live, fun i r y c hi hy hc => ?_⟩
    simp only [declare]
    rw [if_neg (fun hyx => bySrc_none hb hi (by rw [← hyx]; exact hy))]
    exact h.decl _ _ _ _ hi hy hc
  | some o =>
    obtain ⟨h1, h2⟩ := unlink_spec h.inv.w hb
    obtain ⟨hg, hx⟩ := bySrc_some h.inv.w hb
    have key : ∀ i r, (g.router.unlink x).get i = some r → ∃ q, g.router.get i = some q ∧ (r = q ∨ (r = without q x ∧ q.cname ≠ none)) := by
      intro i r hi
      rw [h2] at hi
      by_cases hk : i = o.id
      · rw [if_pos hk] at hi
        by_cases hn : (without o x).sources = []
        · rw [if_pos hn] at hi; cases hi
        · rw [if_neg hn] at hi
          injection hi with hi
          refine ⟨o, by rw [hk]; exact hg, Or.inr ⟨hi.symm, fun hc => hn ?_⟩⟩
          obtain ⟨y, _, h3, _⟩ := h.bare _ _ hg hc
          rw [h3, List.mem_singleton] at hx
          simp [without, h3, hx]
      · rw [if_neg hk] at hi
        exact ⟨r, hi, Or.inl rfl⟩
    refine ⟨h.inv.unlink x, h.flags.unlink h.inv x, ?_, ?_, ?_, ?_⟩
    · intro i r hi
      obtain ⟨q, h3, h4 | ⟨h4, _⟩⟩ := key i r hi
      · rw [h4]; exact h.pair _ _ h3
      · rw [h4]
        have := h.pair _ _ h3
        exact this
    · intro i r hi hc
      obtain ⟨q, h3, h4 | ⟨h4, h5⟩⟩ := key i r hi
      · rw [h4] at hc ⊢; exact h.bare _ _ h3 hc
      · rw [h4] at hc
        exact absurd hc h5
    · intro i r z hi hz
      obtain ⟨q, h3, h4 | ⟨h4, h5⟩⟩ := key i r hi
      · rw [h4] at hz; exact h.live _ _ _ h3 hz
      · rw [h4] at hz
        exact h.live _ _ _ h3 hz
    · intro i r y c hi hy hc
      have hyx : y ≠ x := by
        rintro rfl
        exact bySrc_none (unlink_bySrc h.inv y) hi hy
      simp only [declare]
      rw [if_neg hyx]
      obtain ⟨q, h3, h4 | ⟨h4, h5⟩⟩ := key i r hi
      · rw [h4] at hy hc; exact h.decl _ _ _ _ h3 hy hc
      · rw [h4] at hy hc
        exact h.decl _ _ _ _ h3 (List.mem_filter.1 hy).1 hc

theorem GI.linkNew {d : Nat → Option Nat} {g : Group} (h : GI d g) {x c : Nat} (hb : g.router.bySrc x = none) {s' : St} (hs : g.router.linkNew x c = some s') :
    GI (declare d (.notify x (some c))) { g with router := s' } := by
  have hinv := linkNew_inv h.inv hb hs
  have hfl := h.flags.linkNew h.inv hb hs
  obtain ⟨s'', t, n, h1, h2, h3, h4⟩ := linkNew_spec (c := c) h.inv.w hb
  rw [h1] at hs
  injection hs with hs
  subst hs
  have hn : n.addr.isSome = n.sess.isSome ∧ n.cname = some c ∧ (∀ z, n.sess = some z → z ∈ g.sessions) ∧ (∀ y ∈ n.sources, y = x ∨ d y = some c) := by
    rcases h4 with ⟨hc, _, h5⟩ | ⟨q, hc, _, h5⟩
    · rw [h5]
      refine ⟨rfl, rfl, (fun z hz => by cases hz), fun y hy => Or.inl (List.mem_singleton.1 hy)⟩
    · obtain ⟨h6, h7, h8⟩ := byCname_some h.inv.w hc
      rw [h5]
      have h9 := h.pair _ _ h6
      refine ⟨h9, h8, fun z hz => h.live _ _ _ h6 hz, fun y hy => ?_⟩
      rcases List.mem_append.1 hy with hy | hy
      · exact Or.inr (h.decl _ _ _ _ h6 hy h8)
      · exact Or.inl (List.mem_singleton.1 hy)
  refine ⟨hinv, hfl, ?_, ?_, ?_, ?_⟩
  · intro i r hi
    simp only at hi
    rw [h3] at hi
    split_ifs at hi
    · injection hi with hi; rw [← hi]; exact hn.1
    · exact h.pair _ _ hi
  · intro i r hi hc
    simp only at hi
    rw [h3] at hi
    split_ifs at hi
    · injection hi with hi; rw [← hi, hn.2.1] at hc; cases hc
    · exact h.bare _ _ hi hc
  · intro i r z hi hz
    simp only at hi
    rw [h3] at hi
    split_ifs at hi
    · injection hi with hi; rw [← hi] at hz; exact hn.2.2.1 z hz
    · exact h.live _ _ _ hi hz
  · intro i r y c' hi hy hc
    simp only at hi
    rw [h3] at hi
    simp only [declare]
    split_ifs at hi
    · injection hi with hi
      rw [← hi, hn.2.1] at hc
      rw [← hi] at hy
      rcases hn.2.2.2 y hy with h5 | h5
      · rw [if_pos h5]; exact hc
      · split_ifs
        · exact hc
        · rw [h5]; exact hc
    · rw [if_neg (fun hyx => bySrc_none hb hi (by rw [← hyx]; exact hy))]
      exact h.decl _ _ _ _ hi hy hc

theorem GI.link {d : Nat → Option Nat} {g : Group} (h : GI d g) {x c : Nat} (hd : d x = none ∨ d x = some c) :
    ∃ s', g.router.link x (some c) = some s' ∧ GI (declare d (.notify x (some c))) { g with router := s' } := by
  have hdd : ∀ y, d y = some c → declare d (.notify x (some c)) y = some c := by
    intro y hy
    simp only [declare]
    split_ifs
    · rfl
    · exact hy
  unfold St.link
  simp only
  cases hb : g.router.bySrc x with
  | none =>
    obtain ⟨s', _, _, h1, _⟩ := linkNew_spec (c := c) h.inv.w hb
    exact ⟨s', h1, h.linkNew hb h1⟩
  | some o =>
    obtain ⟨hg, hx⟩ := bySrc_some h.inv.w hb
    have hl := h.inv.l _ _ hg
    -- the source keeps its CNAME
    have hoc : o.cname = none ∨ o.cname = some c := by
      cases hc : o.cname with
      | none => exact Or.inl rfl
      | some c' =>
        have := h.decl _ _ _ _ hg hx hc
        rcases hd with hd | hd
        · rw [hd] at this; cases this
        · rw [hd] at this; exact Or.inr this.symm
    have hother : ∀ i r y c', i ≠ o.id → g.router.get i = some r → y ∈ r.sources → r.cname = some c' → declare d (.notify x (some c)) y = some c' := by
      intro i r y c' hio hi hy hc
      have hyx : y ≠ x := by
        rintro rfl
        exact hio (h.inv.w.src _ _ _ _ _ hi hg hy hx)
      simp only [declare]
      rw [if_neg hyx]
      exact h.decl _ _ _ _ hi hy hc
    cases hq : g.router.byCname (some c) with
    | none =>
      simp only
      rcases hoc with hoc | hoc
      · rw [if_neg (by rw [hoc]; simp)]
        obtain ⟨s', h1, h2, h3⟩ := putC_spec h.inv.w hg hq (noC hl hoc)
        obtain ⟨x', hb1, hb2, hb3⟩ := h.bare _ _ hg hoc
        have hlink : g.router.link x (some c) = some s' := by
          unfold St.link
          simp only
          rw [hb, hq]
          simp only
          rw [if_neg (by rw [hoc]; simp)]
          exact h1
        have hsafe : g.router.safeLink x (some c) := by
          intro r hr hxr _
          have : r = o := by
            have := bySrc_eq h.inv.w ((mem_iff h.inv.w).1 hr) hxr
            rw [hb] at this
            injection this with this
            exact this.symm
          rw [this]
          exact Or.inr (Or.inr ⟨hb3, by rw [h.pair _ _ hg]; exact hb3⟩)
        obtain ⟨s'', h4, h5⟩ := link_safe h.inv h.flags hsafe
        rw [hlink] at h4
        injection h4 with h4
        subst h4
        refine ⟨s', h1, h.inv.link hlink, h5, ?_, ?_, ?_, ?_⟩
        · intro i r hi
          simp only at hi
          rw [h3] at hi
          split_ifs at hi
          · injection hi with hi
            rw [← hi]
            have := h.pair _ _ hg
            exact this
          · exact h.pair _ _ hi
        · intro i r hi hc
          simp only at hi
          rw [h3] at hi
          split_ifs at hi
          · injection hi with hi
            rw [← hi] at hc
            cases hc
          · exact h.bare _ _ hi hc
        · intro i r z hi hz
          simp only at hi
          rw [h3] at hi
          split_ifs at hi
          · injection hi with hi
            rw [← hi] at hz
            exact h.live _ _ _ hg hz
          · exact h.live _ _ _ hi hz
        · intro i r y c' hi hy hc
          simp only at hi
          rw [h3] at hi
          split_ifs at hi with hio
          · injection hi with hi
            rw [← hi] at hy hc
            rw [hb2] at hx hy
            have hyx : y = x := (List.mem_singleton.1 hy).trans (List.mem_singleton.1 hx).symm
            simp only [declare]
            rw [if_pos hyx]
            exact hc
          · exact hother i r y c' hio hi hy hc
      · exact absurd hoc (byCname_none hq hg (by rw [hl.c, hoc]; rfl))
    | some q =>
      obtain ⟨hgq, hq1, hq2⟩ := byCname_some h.inv.w hq
      simp only
      by_cases ho : o.id = q.id
      · rw [if_pos ho]
        refine ⟨g.router, rfl, h.inv, h.flags, h.pair, h.bare, h.live, fun i r y c' hi hy hc => ?_⟩
        by_cases hio : i = o.id
        · have hr : r = q := by
            rw [hio, ho, hgq] at hi
            injection hi with hi
            exact hi.symm
          rw [hr] at hc
          rw [hq2] at hc
          rw [← hc]
          refine hdd y ?_
          have := h.decl _ _ _ _ hi hy (by rw [hr]; exact hq2)
          exact this
        · exact hother i r y c' hio hi hy hc
      · rw [if_neg ho]
        rcases hoc with hoc | hoc
        · obtain ⟨x', hb1, hb2, hb3⟩ := h.bare _ _ hg hoc
          have hxx : x' = x := by
            rw [hb2] at hx
            exact (List.mem_singleton.1 hx).symm
          rw [hxx] at hb1 hb2
          have hn : ∀ p, g.router.byCname (some c) = some p → p.id ≠ o.id := by
            intro p hp
            rw [hq] at hp
            injection hp with hp
            rw [← hp]
            exact fun hc => ho hc.symm
          obtain ⟨s', h1, h2⟩ := h.flags.relink h.inv hb hn fun _ => ⟨hb3, by rw [h.pair _ _ hg]; exact hb3⟩
          obtain ⟨h3, h4⟩ := relink_main h.inv.w hb hn hb1 h1
          have hp : picked g.router x c = { q with sources := q.sources ++ [x] } := by
            unfold picked
            rw [hq]
          have hleft : (left o x).sources = [] := by simp [left, hb2]
          rw [hp, hleft] at h4
          have key : ∀ i r, s'.get i = some r → (i = q.id ∧ r = joined o { q with sources := q.sources ++ [x] } x) ∨ (i ≠ o.id ∧ g.router.get i = some r) := by
            intro i r hi
            rw [h4] at hi
            by_cases h5 : i = q.id
            · rw [if_pos h5] at hi
              injection hi with hi
              exact Or.inl ⟨h5, hi.symm⟩
            · rw [if_neg h5] at hi
              by_cases h6 : i = o.id
              · rw [if_pos h6, if_pos rfl] at hi; cases hi
              · rw [if_neg h6] at hi
                exact Or.inr ⟨h6, hi⟩
          refine ⟨s', h1, h.inv.relink hb hn h1, h2, ?_, ?_, ?_, ?_⟩
          · intro i r hi
            rcases key i r hi with ⟨_, h5⟩ | ⟨_, h5⟩
            · rw [h5]
              have := h.pair _ _ hg
              exact this
            · exact h.pair _ _ h5
          · intro i r hi hc
            rcases key i r hi with ⟨_, h5⟩ | ⟨_, h5⟩
            · rw [h5] at hc
              rw [show (joined o { q with sources := q.sources ++ [x] } x).cname = q.cname from rfl, hq2] at hc
              cases hc
            · exact h.bare _ _ h5 hc
          · intro i r z hi hz
            rcases key i r hi with ⟨_, h5⟩ | ⟨_, h5⟩
            · rw [h5] at hz
              exact h.live _ _ _ hg hz
            · exact h.live _ _ _ h5 hz
          · intro i r y c' hi hy hc
            rcases key i r hi with ⟨_, h5⟩ | ⟨h6, h5⟩
            · rw [h5] at hy hc
              rw [show (joined o { q with sources := q.sources ++ [x] } x).cname = q.cname from rfl, hq2] at hc
              rw [← hc]
              rcases List.mem_append.1 (show y ∈ q.sources ++ [x] from hy) with hy | hy
              · exact hdd y (h.decl _ _ _ _ hgq hy hq2)
              · simp only [declare]
                rw [if_pos (List.mem_singleton.1 hy)]
            · exact hother i r y c' h6 h5 hy hc
        · exact absurd (h.inv.w.c _ _ _ _ hg hgq (by rw [hl.c, hoc]; rfl) hq1 (hoc.trans hq2.symm)) ho

theorem GI.notify {d : Nat → Option Nat} {g : Group} (h : GI d g) {x c : Nat} (hd : d x = none ∨ d x = some c) :
    ∃ g', g.notify x (some c) = some g' ∧ GI (declare d (.notify x (some c))) g' := by
  obtain ⟨s', h1, h2⟩ := h.link hd
  obtain ⟨g', h3, h4⟩ := h2.drop (o := g.router.findBySource x) fun z hz => h.found hz
  refine ⟨g', ?_, h4⟩
  show (g.router.link x (some c)).bind _ = _
  rw [h1]
  exact h3

theorem GI.packet {d : Nat → Option Nat} {g : Group} (h : GI d g) {x a z : Nat} {rep : Bool} (hz : z ∉ g.sessions) :
    ∃ g', g.packet x a z rep = some g' ∧ GI d g' ∧ (rep = false → ∃ y ∈ g'.sessions, g'.target (some x) a = some y) := by
  unfold Group.packet
  cases rep with
  | true =>
    simp only [if_true]
    cases g.target none a <;> exact ⟨g, rfl, h, fun hc => by cases hc⟩
  | false =>
    simp only [Bool.false_eq_true, if_false]
    cases ht : g.target (some x) a with
    | some y =>
      refine ⟨g, rfl, h, fun _ => ⟨y, ?_, ht⟩⟩
      unfold Group.target at ht
      simp only [Option.bind_some] at ht
      cases hf : g.router.findBySource x with
      | some y' =>
        rw [hf] at ht
        injection ht with ht
        rw [← ht]
        exact h.found hf
      | none =>
        rw [hf] at ht
        exact h.foundA ht
    | none =>
      unfold Group.target at ht
      simp only [Option.bind_some] at ht
      cases hf : g.router.findBySource x with
      | some y' => rw [hf] at ht; cases ht
      | none =>
        rw [hf] at ht
        simp only at ht
        have hA : g.router.byAddr (some a) = none := by
          cases hb : g.router.byAddr (some a) with
          | none => rfl
          | some r =>
            obtain ⟨h1, h2, h3⟩ := byAddr_some h.inv.w hb
            unfold St.findByAddress at ht
            rw [hb] at ht
            have := h.pair _ _ h1
            rw [h3, show r.sess = none from ht] at this
            cases this
        have hS : g.router.bySess (some z) = none := by
          refine bySess_none_of h.inv.w fun i r hi _ hc => hz (h.live _ _ _ hi hc)
        obtain ⟨⟨s', b⟩, hs⟩ := add_safe h.inv h.flags z x (some a)
        have hb : b = .ok := by
          rcases add_conflict hs with ⟨_, _, h1 | h1⟩ | ⟨h1, _⟩
          · rw [hA] at h1; exact absurd h1.2 (by simp)
          · rw [hS] at h1; exact absurd h1 (by simp)
          · exact h1
        rw [hb] at hs
        have hinv := h.inv.add hs
        have hfl := h.flags.add h.inv hs
        rw [hs]
        have hbs : ∀ r, g.router.bySrc x = some r → r.sess = none ∧ r.addr = none := by
          intro r hr
          have h1 : r.sess = none := by
            unfold St.findBySource at hf
            rw [hr] at hf
            exact hf
          have := h.pair _ _ (bySrc_some h.inv.w hr).1
          rw [h1] at this
          exact ⟨h1, Option.not_isSome_iff_eq_none.1 (by rw [this]; simp)⟩
        have key : ∃ t n, (∀ k, s'.get k = if k = t then some n else g.router.get k) ∧ n.addr = some a ∧ n.sess = some z ∧ x ∈ n.sources ∧
            (n.cname = none → n.main = some x ∧ n.sources = [x]) ∧ (∀ y c, y ∈ n.sources → n.cname = some c → d y = some c) := by
          rcases add_ok h.inv hs with ⟨r, h1, h2, h3, h4, h5, h6, h7⟩ | ⟨h1, h2, h3⟩
          · obtain ⟨hg, hx⟩ := bySrc_some h.inv.w h1
            refine ⟨_, _, h7, rfl, rfl, hx, fun hc => ?_, fun y c hy hc => h.decl _ _ _ _ hg hy hc⟩
            obtain ⟨_, _, _, h8⟩ := h.bare _ _ hg hc
            rw [h3] at h8
            cases h8
          · cases hr : g.router.bySrc x with
            | none =>
              rw [unlink_none hr] at h3
              exact ⟨_, _, h3, rfl, rfl, List.mem_singleton.2 rfl, fun _ => ⟨rfl, rfl⟩, fun y c _ hc => by cases hc⟩
            | some r => exact absurd (hbs r hr).symm (h1 r hr)
        obtain ⟨t, n, k1, k2, k3, k4, k5, k6⟩ := key
        refine ⟨⟨s', g.sessions ++ [z]⟩, rfl, ⟨hinv, hfl, ?_, ?_, ?_, ?_⟩, fun _ => ⟨z, by simp, ?_⟩⟩
        · intro i r hi
          simp only at hi
          rw [k1] at hi
          split_ifs at hi
          · injection hi with hi; rw [← hi, k2, k3]; rfl
          · exact h.pair _ _ hi
        · intro i r hi hc
          simp only at hi
          rw [k1] at hi
          split_ifs at hi
          · injection hi with hi
            rw [← hi] at hc ⊢
            exact ⟨x, (k5 hc).1, (k5 hc).2, by rw [k3]; rfl⟩
          · exact h.bare _ _ hi hc
        · intro i r y hi hy
          simp only at hi ⊢
          rw [k1] at hi
          split_ifs at hi
          · injection hi with hi
            rw [← hi, k3] at hy
            injection hy with hy
            rw [← hy]
            simp
          · exact List.mem_append.2 (Or.inl (h.live _ _ _ hi hy))
        · intro i r y c hi hy hc
          simp only at hi
          rw [k1] at hi
          split_ifs at hi
          · injection hi with hi
            rw [← hi] at hy hc
            exact k6 y c hy hc
          · exact h.decl _ _ _ _ hi hy hc
        · unfold Group.target
          simp only [Option.bind_some]
          have hgt : s'.get t = some n := by rw [k1, if_pos rfl]
          rw [findBySource_of hinv.w hgt k4, k3]

theorem GI.call {d : Nat → Option Nat} {g : Group} (h : GI d g) {o : GOp} (ho : allowed d g o) : ∃ g', g.call o = some g' ∧ GI (declare d o) g' := by
  cases o with
  | packet x a z rep =>
    obtain ⟨g', h1, h2, _⟩ := h.packet (x := x) (a := a) (rep := rep) ho
    exact ⟨g', h1, h2⟩
  | notify x c =>
    obtain ⟨hc, hd⟩ := ho
    cases c with
    | none => cases hc
    | some c => exact h.notify hd
  | halt x => exact h.halt x
  | ended z =>
    obtain ⟨g', h1, h2, _⟩ := h.removeSession ho
    exact ⟨g', h1, h2⟩

theorem GI.runs {d : Nat → Option Nat} {g : Group} (h : GI d g) {l : List GOp} (hl : allAllowed d g l) :
    ∃ g', g.runs l = some g' ∧ GI (l.foldl declare d) g' := by
  induction l generalizing d g with
  | nil => exact ⟨g, rfl, h⟩
  | cons o os ih =>
    obtain ⟨g1, h1, h2⟩ := h.call hl.1
    obtain ⟨g', h3, h4⟩ := ih h2 (hl.2 g1 h1)
    refine ⟨g', ?_, h4⟩
    simp only [Group.runs]
    rw [h1]
    exact h3

end Verif.SessionRouter
