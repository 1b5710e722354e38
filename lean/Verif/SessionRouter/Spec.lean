import Verif.SessionRouter.Ops

/-!
# Session router: histories
-/

namespace Verif.SessionRouter

/-- A history of calls of the router (receiver_session_router.h:84-135); `none` if one of them panics. -/
def St.runs : St → List Op → Option St
  | s, [] => some s
  | s, o :: os => (s.call o).bind fun r => r.1.runs os

/-- Linking source `x` to CNAME `c` is safe: the source has no route, or its route has this CNAME already, or the route has no CNAME and the CNAME is new, or
the source is not the main one of its route, or the route has a session and an address that move together with the source. -/
def St.safeLink (s : St) (x : Nat) : Option Nat → Prop
  | none => False
  | some c => ∀ r ∈ s.routes, x ∈ r.sources → r.main = some x →
      r.cname = some c ∨ (r.cname = none ∧ ∀ q ∈ s.routes, q.cname ≠ some c) ∨ (r.sess.isSome = true ∧ r.addr.isSome = true)

/-- A call is safe. -/
def St.safe (s : St) : Op → Prop
  | .link x c => s.safeLink x c
  | _ => True

/-- All calls of a history are safe at the time when they are made. -/
def St.allSafe : St → List Op → Prop
  | _, [] => True
  | s, o :: os => s.safe o ∧ ∀ r, s.call o = some r → r.1.allSafe os

theorem runs_append (s : St) (l m : List Op) : s.runs (l ++ m) = (s.runs l).bind fun s => s.runs m := by
  induction l generalizing s with
  | nil => rfl
  | cons o os ih =>
    simp only [List.cons_append, St.runs]
    cases s.call o with
    | none => rfl
    | some r => simp only [Option.bind_some, ih]

theorem runs_one (s : St) (o : Op) : s.runs [o] = (s.call o).map (·.1) := by
  simp only [St.runs]
  cases s.call o <;> rfl

theorem mem_iff {s : St} (h : W s) {r : Route} : r ∈ s.routes ↔ s.get r.id = some r :=
  ⟨fun hr => get_of_mem h.ids hr, get_mem⟩

theorem add_conflict {s s' : St} {z x : Nat} {a : Option Nat} {b : Status} (hs : s.add z x a = some (s', b)) :
    (b = .conflict ∧ s' = s ∧ ((a.isSome = true ∧ (s.byAddr a).isSome = true) ∨ (s.bySess (some z)).isSome = true)) ∨
    (b = .ok ∧ (a.isSome = true → s.byAddr a = none) ∧ s.bySess (some z) = none) := by
  unfold St.add at hs
  by_cases h1 : a.isSome = true ∧ (s.byAddr a).isSome = true
  · rw [if_pos h1] at hs
    injection hs with hs
    injection hs with h2 h3
    exact Or.inl ⟨h3.symm, h2.symm, Or.inl h1⟩
  · rw [if_neg h1] at hs
    by_cases h2 : (s.bySess (some z)).isSome = true
    · rw [if_pos h2] at hs
      injection hs with hs
      injection hs with h3 h4
      exact Or.inl ⟨h4.symm, h3.symm, Or.inr h2⟩
    · rw [if_neg h2] at hs
      refine Or.inr ⟨?_, fun ha => Option.not_isSome_iff_eq_none.1 fun hc => h1 ⟨ha, hc⟩, Option.not_isSome_iff_eq_none.1 h2⟩
      cases hb : s.bySrc x with
      | none =>
        rw [hb] at hs
        simp only at hs
        obtain ⟨_, _, h3⟩ := Option.map_eq_some_iff.1 hs
        injection h3 with _ h3
        exact h3.symm
      | some r =>
        rw [hb] at hs
        simp only at hs
        split_ifs at hs
        all_goals
          obtain ⟨_, _, h3⟩ := Option.map_eq_some_iff.1 hs
          injection h3 with _ h3
          exact h3.symm

/-- A successful `add_session` gives the session and the address to the route of the source, or makes a new route. -/
theorem add_ok {s s' : St} (h : Inv s) {z x : Nat} {a : Option Nat} (hs : s.add z x a = some (s', .ok)) :
    (∃ r, s.bySrc x = some r ∧ r.addr = none ∧ r.sess = none ∧ W s' ∧ (a.isSome = true → r.inA = false) ∧ r.inS = false ∧
      ∀ k, s'.get k = if k = r.id then some { (if a.isSome then { r with addr := a, inA := true } else r) with sess := some z, inS := true } else s.get k) ∨
    ((∀ r, s.bySrc x = some r → ¬ (r.addr = none ∧ r.sess = none)) ∧ Inv s' ∧
      ∀ k, s'.get k = if k = (s.unlink x).fresh then some (made (s.unlink x).fresh x a none (some z)) else (s.unlink x).get k) := by
  rcases add_conflict hs with ⟨hc, _⟩ | ⟨_, h1, h2⟩
  · cases hc
  unfold St.add at hs
  rw [if_neg (fun hc => by rw [h1 hc.1] at hc; exact absurd hc.2 (by simp)), h2, if_neg (by simp)] at hs
  cases hb : s.bySrc x with
  | none =>
    rw [hb] at hs
    simp only at hs
    obtain ⟨q, hq, h3⟩ := Option.map_eq_some_iff.1 hs
    injection h3 with h3 _
    rw [unlink_none hb]
    obtain ⟨s'', h4, h5, h6⟩ := create_inv (x := x) (a := a) (c := none) (z := some z) h hb h1 (fun hc => by cases hc) (fun _ => h2)
    rw [h4] at hq
    injection hq with hq
    rw [← h3, ← hq]
    exact Or.inr ⟨(fun r hr => by cases hr), h5, h6⟩
  | some r =>
    rw [hb] at hs
    simp only at hs
    by_cases hr : r.addr = none ∧ r.sess = none
    · rw [if_pos hr] at hs
      obtain ⟨q, hq, h3⟩ := Option.map_eq_some_iff.1 hs
      injection h3 with h3 _
      obtain ⟨h4, h5, h6, h7⟩ := add_found h.w hb h1 h2 hq
      rw [← h3]
      exact Or.inl ⟨r, rfl, hr.1, hr.2, h4, h5, h6, h7⟩
    · rw [if_neg hr] at hs
      obtain ⟨q, hq, h3⟩ := Option.map_eq_some_iff.1 hs
      injection h3 with h3 _
      obtain ⟨s'', h4, h5, h6⟩ := create_inv (x := x) (a := a) (c := none) (z := some z) (h.unlink x) (unlink_bySrc h x)
        (fun hc => unlink_byAddr h (h1 hc)) (fun hc => by cases hc) (fun _ => unlink_bySess h h2)
      rw [h4] at hq
      injection hq with hq
      rw [← h3, ← hq]
      refine Or.inr ⟨fun q hq => ?_, h5, h6⟩
      injection hq with hq
      rw [← hq]
      exact hr

theorem Inv.add {s s' : St} (h : Inv s) {z x : Nat} {a : Option Nat} {b : Status} (hs : s.add z x a = some (s', b)) : Inv s' := by
  cases b with
  | conflict =>
    rcases add_conflict hs with ⟨_, h1, _⟩ | ⟨hc, _⟩
    · rw [h1]; exact h
    · cases hc
  | ok =>
    rcases add_ok h hs with ⟨r, hb, h1, h2, h3, h4, h5, h6⟩ | ⟨_, h1, _⟩
    · refine ⟨h3, fun k q hk => ?_⟩
      rw [h6] at hk
      by_cases hkr : k = r.id
      · rw [if_pos hkr] at hk
        injection hk with hk
        have hl := h.l _ _ (bySrc_some h.w hb).1
        rw [← hk]
        cases a with
        | none => exact ⟨hl.ne, hl.main, hl.c, hl.a, fun _ => rfl, hl.nd⟩
        | some a => exact ⟨hl.ne, hl.main, hl.c, fun _ => rfl, fun _ => rfl, hl.nd⟩
      · rw [if_neg hkr] at hk
        exact h.l _ _ hk
    · exact h1

theorem Inv.call {s : St} (h : Inv s) {o : Op} {r : St × Status} (hs : s.call o = some r) : Inv r.1 := by
  obtain ⟨s', b⟩ := r
  cases o with
  | add z x a => exact h.add hs
  | remove z =>
    injection hs with hs
    injection hs with hs _
    rw [← hs]
    exact h.remove z
  | link x c =>
    obtain ⟨q, hq, h3⟩ := Option.map_eq_some_iff.1 hs
    injection h3 with h3 _
    rw [← h3]
    exact h.link hq
  | unlink x =>
    injection hs with hs
    injection hs with hs _
    rw [← hs]
    exact h.unlink x

theorem Inv.runs {s s' : St} (h : Inv s) {l : List Op} (hs : s.runs l = some s') : Inv s' := by
  induction l generalizing s with
  | nil => injection hs with hs; rw [← hs]; exact h
  | cons o os ih =>
    simp only [St.runs] at hs
    obtain ⟨r, h1, h2⟩ := Option.bind_eq_some_iff.1 hs
    exact ih (h.call h1) h2

/-! ### Lookups -/

theorem findBySource_of {s : St} (h : W s) {i : Nat} {r : Route} (hi : s.get i = some r) {x : Nat} (hx : x ∈ r.sources) : s.findBySource x = r.sess := by
  unfold St.findBySource
  rw [bySrc_eq h hi hx]
  rfl

theorem byAddr_eq {s : St} (h : W s) {i : Nat} {r : Route} (hi : s.get i = some r) {a : Option Nat} (h1 : r.inA = true) (h2 : r.addr = a) : s.byAddr a = some r := by
  cases hb : s.byAddr a with
  | none => exact absurd h2 (byAddr_none hb hi h1)
  | some q =>
    obtain ⟨h3, h4, h5⟩ := byAddr_some h hb
    have := h.a _ _ _ _ h3 hi h4 h1 (h5.trans h2.symm)
    rw [this, hi] at h3
    injection h3 with h3
    rw [h3]

theorem bySess_eq {s : St} (h : W s) {i : Nat} {r : Route} (hi : s.get i = some r) {a : Option Nat} (h1 : r.inS = true) (h2 : r.sess = a) : s.bySess a = some r := by
  cases hb : s.bySess a with
  | none => exact absurd h2 (bySess_none hb hi h1)
  | some q =>
    obtain ⟨h3, h4, h5⟩ := bySess_some h hb
    have := h.z _ _ _ _ h3 hi h4 h1 (h5.trans h2.symm)
    rw [this, hi] at h3
    injection h3 with h3
    rw [h3]

theorem findByAddress_of {s : St} (h : Inv s) {i : Nat} {r : Route} (hi : s.get i = some r) {a : Nat} (ha : r.addr = some a) : s.findByAddress a = r.sess := by
  unfold St.findByAddress
  rw [byAddr_eq h.w hi ((h.l _ _ hi).a (by rw [ha]; rfl)) ha]
  rfl

theorem hasSession_iff {s : St} (h : Inv s) (z : Nat) : s.hasSession z = true ↔ ∃ r ∈ s.routes, r.sess = some z := by
  unfold St.hasSession
  constructor
  · intro hz
    obtain ⟨r, hr⟩ := Option.isSome_iff_exists.1 hz
    obtain ⟨h1, _, h2⟩ := bySess_some h.w hr
    exact ⟨r, get_mem h1, h2⟩
  · rintro ⟨r, hr, hz⟩
    have hg := (mem_iff h.w).1 hr
    rw [bySess_eq h.w hg ((h.l _ _ hg).z (by rw [hz]; rfl)) hz]
    rfl

/-! ### Absence of panics -/

/-- The nodes are in the maps exactly when their keys are not empty. -/
def Flags (s : St) : Prop := ∀ i r, s.get i = some r → r.inA = r.addr.isSome ∧ r.inS = r.sess.isSome

theorem flags_init : Flags St.init := fun i r hi => by simp [St.get, St.init] at hi

theorem flags_made (i x : Nat) (a c z : Option Nat) : (made i x a c z).inA = (made i x a c z).addr.isSome ∧ (made i x a c z).inS = (made i x a c z).sess.isSome := ⟨rfl, rfl⟩

theorem Flags.unlink {s : St} (hi : Inv s) (h : Flags s) (x : Nat) : Flags (s.unlink x) := by
  cases hb : s.bySrc x with
  | none => rw [unlink_none hb]; exact h
  | some r =>
    obtain ⟨h1, h2⟩ := unlink_spec hi.w hb
    intro i q hq
    rw [h2] at hq
    by_cases hk : i = r.id
    · rw [if_pos hk] at hq
      by_cases hn : (without r x).sources = []
      · rw [if_pos hn] at hq; cases hq
      · rw [if_neg hn] at hq
        injection hq with hq
        rw [← hq]
        have := h _ _ (bySrc_some hi.w hb).1
        exact this
    · rw [if_neg hk] at hq
      exact h _ _ hq

theorem Flags.add {s s' : St} (hi : Inv s) (h : Flags s) {z x : Nat} {a : Option Nat} {b : Status} (hs : s.add z x a = some (s', b)) : Flags s' := by
  cases b with
  | conflict =>
    rcases add_conflict hs with ⟨_, h1, _⟩ | ⟨hc, _⟩
    · rw [h1]; exact h
    · cases hc
  | ok =>
    rcases add_ok hi hs with ⟨r, hb, h1, h2, h3, h4, h5, h6⟩ | ⟨_, h1, h2⟩
    · intro k q hk
      rw [h6] at hk
      by_cases hkr : k = r.id
      · rw [if_pos hkr] at hk
        injection hk with hk
        have hl := h _ _ (bySrc_some hi.w hb).1
        rw [← hk]
        cases a with
        | none => exact ⟨hl.1, rfl⟩
        | some a => exact ⟨rfl, rfl⟩
      · rw [if_neg hkr] at hk
        exact h _ _ hk
    · intro k q hk
      rw [h2] at hk
      by_cases hkr : k = (s.unlink x).fresh
      · rw [if_pos hkr] at hk
        injection hk with hk
        rw [← hk]
        exact flags_made _ _ _ _ _
      · rw [if_neg hkr] at hk
        exact (h.unlink hi x) _ _ hk

theorem add_safe {s : St} (hi : Inv s) (h : Flags s) (z x : Nat) (a : Option Nat) : ∃ r, s.add z x a = some r := by
  unfold St.add
  by_cases h1 : a.isSome = true ∧ (s.byAddr a).isSome = true
  · rw [if_pos h1]; exact ⟨_, rfl⟩
  · rw [if_neg h1]
    by_cases h2 : (s.bySess (some z)).isSome = true
    · rw [if_pos h2]; exact ⟨_, rfl⟩
    · rw [if_neg h2]
      have h1 : a.isSome = true → s.byAddr a = none := fun ha => Option.not_isSome_iff_eq_none.1 fun hc => h1 ⟨ha, hc⟩
      have h2 := Option.not_isSome_iff_eq_none.1 h2
      cases hb : s.bySrc x with
      | none =>
        simp only
        obtain ⟨s'', h4, _⟩ := create_inv (x := x) (a := a) (c := none) (z := some z) hi hb h1 (fun hc => by cases hc) (fun _ => h2)
        rw [h4]
        exact ⟨_, rfl⟩
      | some r =>
        simp only
        by_cases hr : r.addr = none ∧ r.sess = none
        · rw [if_pos hr]
          have hf := h _ _ (bySrc_some hi.w hb).1
          rw [hr.1, hr.2] at hf
          obtain ⟨s', h3⟩ := add_found_ok (z := z) (a := a) hi.w hb h1 h2 (fun _ => hf.1) hf.2
          rw [h3]
          exact ⟨_, rfl⟩
        · rw [if_neg hr]
          obtain ⟨s'', h4, _⟩ := create_inv (x := x) (a := a) (c := none) (z := some z) (hi.unlink x) (unlink_bySrc hi x)
            (fun hc => unlink_byAddr hi (h1 hc)) (fun hc => by cases hc) (fun _ => unlink_bySess hi h2)
          rw [h4]
          exact ⟨_, rfl⟩

theorem Flags.linkNew {s s' : St} (hi : Inv s) (h : Flags s) {x c : Nat} (hx : s.bySrc x = none) (hs : s.linkNew x c = some s') : Flags s' := by
  obtain ⟨s'', t, n, h1, h2, h3, h4⟩ := linkNew_spec (c := c) hi.w hx
  rw [h1] at hs
  injection hs with hs
  rw [← hs]
  intro k q hk
  rw [h3] at hk
  by_cases hkt : k = t
  · rw [if_pos hkt] at hk
    injection hk with hk
    rw [← hk]
    rcases h4 with ⟨_, _, h5⟩ | ⟨p, hc, _, h5⟩
    · rw [h5]; exact flags_made _ _ _ _ _
    · rw [h5]
      have := h _ _ (byCname_some hi.w hc).1
      exact this
  · rw [if_neg hkt] at hk
    exact h _ _ hk

theorem flags_picked {s : St} (hi : Inv s) (h : Flags s) (x c : Nat) :
    (picked s x c).inA = (picked s x c).addr.isSome ∧ (picked s x c).inS = (picked s x c).sess.isSome := by
  unfold picked
  cases hc : s.byCname (some c) with
  | none => exact flags_made _ _ _ _ _
  | some q =>
    have := h _ _ (byCname_some hi.w hc).1
    exact this

theorem Flags.relink {s : St} (hi : Inv s) (h : Flags s) {x c : Nat} {o : Route} (hb : s.bySrc x = some o)
    (hn : ∀ q, s.byCname (some c) = some q → q.id ≠ o.id) (hm : o.main = some x → o.sess.isSome = true ∧ o.addr.isSome = true) :
    ∃ s', s.relink o.id x c = some s' ∧ Flags s' := by
  obtain ⟨hg, hx⟩ := bySrc_some hi.w hb
  have hf := h _ _ hg
  obtain ⟨s', hs⟩ := relink_ok hi.w hb hn fun hmx => ⟨by rw [hf.1]; exact (hm hmx).2, by rw [hf.2]; exact (hm hmx).1⟩
  refine ⟨s', hs, ?_⟩
  by_cases hmx : o.main = some x
  · obtain ⟨_, h2⟩ := relink_main hi.w hb hn hmx hs
    intro k q hk
    rw [h2] at hk
    by_cases h3 : k = (picked s x c).id
    · rw [if_pos h3] at hk
      injection hk with hk
      rw [← hk]
      exact ⟨(hm hmx).2.symm, (hm hmx).1.symm⟩
    · rw [if_neg h3] at hk
      by_cases h4 : k = o.id
      · rw [if_pos h4] at hk
        by_cases h5 : (left o x).sources = []
        · rw [if_pos h5] at hk; cases hk
        · rw [if_neg h5] at hk
          injection hk with hk
          rw [← hk]
          exact ⟨rfl, rfl⟩
      · rw [if_neg h4] at hk
        exact h _ _ hk
  · obtain ⟨_, h2⟩ := relink_other hi.w hb hn hmx hs
    intro k q hk
    rw [h2] at hk
    by_cases h3 : k = (picked s x c).id
    · rw [if_pos h3] at hk
      injection hk with hk
      rw [← hk]
      exact flags_picked hi h x c
    · rw [if_neg h3] at hk
      by_cases h4 : k = o.id
      · rw [if_pos h4] at hk
        by_cases h5 : (o.sources.filter (· ≠ x)) = []
        · rw [if_pos h5] at hk; cases hk
        · rw [if_neg h5] at hk
          injection hk with hk
          rw [← hk]
          exact hf
      · rw [if_neg h4] at hk
        exact h _ _ hk

theorem link_safe {s : St} (hi : Inv s) (h : Flags s) {x : Nat} {c : Option Nat} (hc : s.safeLink x c) : ∃ s', s.link x c = some s' ∧ Flags s' := by
  cases c with
  | none => exact absurd hc (fun hc => hc)
  | some c =>
    unfold St.link
    simp only
    cases hb : s.bySrc x with
    | none =>
      obtain ⟨s', _, _, h1, _⟩ := linkNew_spec (c := c) hi.w hb
      exact ⟨s', h1, h.linkNew hi hb h1⟩
    | some o =>
      obtain ⟨hg, hx⟩ := bySrc_some hi.w hb
      have hs := hc o (get_mem hg) hx
      have hl := hi.l _ _ hg
      cases hq : s.byCname (some c) with
      | none =>
        simp only
        have hno : o.cname ≠ some c := fun he => byCname_none hq hg (by rw [hl.c, he]; rfl) he
        by_cases ho : o.cname.isSome = true
        · rw [if_pos ho]
          refine h.relink hi hb (fun q hq' => by rw [hq] at hq'; cases hq') fun hm => ?_
          rcases hs hm with h1 | h1 | h1
          · exact absurd h1 hno
          · rw [h1.1] at ho; cases ho
          · exact h1
        · rw [if_neg ho]
          have hon := Option.not_isSome_iff_eq_none.1 ho
          obtain ⟨s', h1, h2, h3⟩ := putC_spec hi.w hg hq (noC hl hon)
          refine ⟨s', h1, fun k q hk => ?_⟩
          rw [h3] at hk
          by_cases hk' : k = o.id
          · rw [if_pos hk'] at hk
            injection hk with hk
            rw [← hk]
            have := h _ _ hg
            exact this
          · rw [if_neg hk'] at hk
            exact h _ _ hk
      | some q =>
        simp only
        obtain ⟨hgq, hq1, hq2⟩ := byCname_some hi.w hq
        by_cases ho : o.id = q.id
        · rw [if_pos ho]
          exact ⟨s, rfl, h⟩
        · rw [if_neg ho]
          refine h.relink hi hb (fun p hp => by rw [hq] at hp; injection hp with hp; rw [← hp]; exact fun hc => ho hc.symm) fun hm => ?_
          rcases hs hm with h1 | h1 | h1
          · exact absurd (hi.w.c _ _ _ _ hg hgq (by rw [hl.c, h1]; rfl) hq1 (h1.trans hq2.symm)) ho
          · exact absurd hq2 (h1.2 q (get_mem hgq))
          · exact h1

theorem call_safe {s : St} (hi : Inv s) (h : Flags s) {o : Op} (ho : s.safe o) : ∃ r, s.call o = some r ∧ Flags r.1 := by
  cases o with
  | add z x a =>
    obtain ⟨⟨s', b⟩, h1⟩ := add_safe hi h z x a
    exact ⟨_, h1, h.add hi h1⟩
  | remove z =>
    refine ⟨_, rfl, ?_⟩
    show Flags (s.remove z)
    unfold St.remove
    split
    · exact h
    · intro k q hk
      rw [get_remove] at hk
      split_ifs at hk
      exact h _ _ hk
  | link x c =>
    obtain ⟨s', h1, h2⟩ := link_safe hi h ho
    refine ⟨(s', .ok), ?_, h2⟩
    show (s.link x c).map _ = _
    rw [h1]
    rfl
  | unlink x => exact ⟨_, rfl, h.unlink hi x⟩

theorem runs_safe {s : St} (hi : Inv s) (h : Flags s) {l : List Op} (hl : s.allSafe l) : ∃ s', s.runs l = some s' ∧ Flags s' := by
  induction l generalizing s with
  | nil => exact ⟨s, rfl, h⟩
  | cons o os ih =>
    obtain ⟨r, h1, h2⟩ := call_safe hi h hl.1
    obtain ⟨s', h3, h4⟩ := ih (hi.call h1) h2 (hl.2 r h1)
    refine ⟨s', ?_, h4⟩
    simp only [St.runs]
    rw [h1]
    exact h3

end Verif.SessionRouter
