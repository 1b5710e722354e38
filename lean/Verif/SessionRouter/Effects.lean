import Verif.SessionRouter.Control

/-!
# Effects of single calls on lookups
-/

namespace Verif.SessionRouter

theorem fbs_iff {s : St} (h : W s) {x z : Nat} : s.findBySource x = some z ↔ ∃ i r, s.get i = some r ∧ x ∈ r.sources ∧ r.sess = some z := by
  constructor
  · intro hz
    unfold St.findBySource at hz
    obtain ⟨r, h1, h2⟩ := Option.bind_eq_some_iff.1 hz
    obtain ⟨h3, h4⟩ := bySrc_some h h1
    exact ⟨_, r, h3, h4, h2⟩
  · rintro ⟨i, r, h1, h2, h3⟩
    rw [findBySource_of h h1 h2]
    exact h3

theorem fba_iff {s : St} (h : Inv s) {a z : Nat} : s.findByAddress a = some z ↔ ∃ i r, s.get i = some r ∧ r.addr = some a ∧ r.sess = some z := by
  constructor
  · intro hz
    unfold St.findByAddress at hz
    obtain ⟨r, h1, h2⟩ := Option.bind_eq_some_iff.1 hz
    obtain ⟨h3, _, h4⟩ := byAddr_some h.w h1
    exact ⟨_, r, h3, h4, h2⟩
  · rintro ⟨i, r, h1, h2, h3⟩
    unfold St.findByAddress
    rw [byAddr_eq h.w h1 ((h.l _ _ h1).a (by rw [h2]; rfl)) h2]
    exact h3

theorem byCname_eq {s : St} (h : Inv s) {i : Nat} {r : Route} (hi : s.get i = some r) {c : Nat} (h2 : r.cname = some c) : s.byCname (some c) = some r := by
  have h1 : r.inC = true := by rw [(h.l _ _ hi).c, h2]; rfl
  cases hb : s.byCname (some c) with
  | none => exact absurd h2 (byCname_none hb hi h1)
  | some q =>
    obtain ⟨h3, h4, h5⟩ := byCname_some h.w hb
    have := h.w.c _ _ _ _ h3 hi h4 h1 (h5.trans h2.symm)
    rw [this, hi] at h3
    injection h3 with h3
    rw [h3]

theorem unlink_fbs {s : St} (h : Inv s) (x y : Nat) : (s.unlink x).findBySource y = if y = x then none else s.findBySource y := by
  by_cases hy : y = x
  · rw [if_pos hy, hy]
    unfold St.findBySource
    rw [unlink_bySrc h x]
    rfl
  rw [if_neg hy]
  cases hb : s.bySrc x with
  | none => rw [unlink_none hb]
  | some r =>
    obtain ⟨h1, h2⟩ := unlink_spec h.w hb
    obtain ⟨hg, hx⟩ := bySrc_some h.w hb
    apply Option.ext
    intro z
    rw [fbs_iff h1, fbs_iff h.w]
    constructor
    · rintro ⟨i, q, h3, h4, h5⟩
      rw [h2] at h3
      by_cases hi : i = r.id
      · rw [if_pos hi] at h3
        split_ifs at h3
        injection h3 with h3
        rw [← h3] at h4 h5
        exact ⟨r.id, r, hg, (List.mem_filter.1 h4).1, h5⟩
      · rw [if_neg hi] at h3
        exact ⟨i, q, h3, h4, h5⟩
    · rintro ⟨i, q, h3, h4, h5⟩
      by_cases hi : i = r.id
      · rw [hi, hg] at h3
        injection h3 with h3
        rw [← h3] at h4 h5
        have hm : y ∈ (without r x).sources := List.mem_filter.2 ⟨h4, by simpa using hy⟩
        refine ⟨r.id, without r x, ?_, hm, h5⟩
        rw [h2, if_pos rfl, if_neg (List.ne_nil_of_mem hm)]
      · exact ⟨i, q, by rw [h2, if_neg hi]; exact h3, h4, h5⟩

theorem remove_get {s : St} (h : Inv s) (z i : Nat) : (s.remove z).get i = (s.get i).filter fun r => decide (r.sess ≠ some z) := by
  unfold St.remove
  cases hb : s.bySess (some z) with
  | none =>
    simp only
    cases hi : s.get i with
    | none => rfl
    | some r =>
      have : r.sess ≠ some z := fun hc => bySess_none hb hi ((h.l _ _ hi).z (by rw [hc]; rfl)) hc
      simp [Option.filter, this]
  | some q =>
    simp only
    obtain ⟨h1, h2, h3⟩ := bySess_some h.w hb
    rw [get_remove]
    by_cases hi : i = q.id
    · rw [if_pos hi, hi, h1]
      simp [Option.filter, h3]
    · rw [if_neg hi]
      cases hg : s.get i with
      | none => rfl
      | some r =>
        have : r.sess ≠ some z := fun hc => hi (h.w.z _ _ _ _ hg h1 ((h.l _ _ hg).z (by rw [hc]; rfl)) h2 (hc.trans h3.symm))
        simp [Option.filter, this]

theorem remove_mem {s : St} (h : Inv s) (z i : Nat) (r : Route) : (s.remove z).get i = some r ↔ s.get i = some r ∧ r.sess ≠ some z := by
  rw [remove_get h]
  cases hg : s.get i with
  | none => simp
  | some q =>
    simp only [Option.filter_some, Option.some.injEq]
    constructor
    · intro hq
      split_ifs at hq with hz
      injection hq with hq
      exact ⟨hq, by rw [← hq]; simpa using hz⟩
    · rintro ⟨rfl, hz⟩
      rw [if_pos (by simpa using hz)]

/-- What `link_source` does. -/
structure Linked (s s' : St) (x c : Nat) : Prop where
  here : ∃ r ∈ s'.routes, x ∈ r.sources ∧ r.cname = some c
  share : ∀ r ∈ s.routes, r.cname = some c → ∀ y ∈ r.sources, s'.findBySource y = s'.findBySource x
  keep : ∀ r ∈ s.routes, r.cname ≠ some c → r.main ≠ some x → ∀ y ∈ r.sources, y ≠ x → s'.findBySource y = s.findBySource y
  main : ∀ r ∈ s.routes, r.main = some x → s'.findBySource x = s.findBySource x
  join : ∀ q ∈ s.routes, q.cname = some c → (∀ r ∈ s.routes, r.main ≠ some x) → s'.findBySource x = q.sess

/-- All other routes are as before. -/
theorem keep_of {s s' : St} (h : W s) (h' : W s') {x y i : Nat} {r : Route} (hi : s.get i = some r) (hy : y ∈ r.sources) (hyx : y ≠ x)
    (hg : s'.get i = some r ∨ ∃ q, s'.get i = some q ∧ q.sess = r.sess ∧ y ∈ q.sources) : s'.findBySource y = s.findBySource y := by
  rw [findBySource_of h hi hy]
  rcases hg with hg | ⟨q, hg, h1, h2⟩
  · exact findBySource_of h' hg hy
  · rw [findBySource_of h' hg h2, h1]

theorem link_effect {s s' : St} (h : Inv s) {x c : Nat} (hs : s.link x (some c) = some s') : Linked s s' x c := by
  have h' := h.link hs
  have gm : ∀ r, r ∈ s.routes → s.get r.id = some r := fun r hr => (mem_iff h.w).1 hr
  unfold St.link at hs
  simp only at hs
  have relink : ∀ o, s.bySrc x = some o → (∀ q, s.byCname (some c) = some q → q.id ≠ o.id) → s.relink o.id x c = some s' → Linked s s' x c := by
    intro o hb hn hs
    obtain ⟨hg, hx⟩ := bySrc_some h.w hb
    obtain ⟨_, _, _, hne, _, _⟩ := relink_pre (c := c) h.w hb hn
    have hpc : ∀ q, s.byCname (some c) = some q → picked s x c = { q with sources := q.sources ++ [x] } := fun q hq => by unfold picked; rw [hq]
    have hpx : x ∈ (picked s x c).sources ∧ (picked s x c).cname = some c := by
      unfold picked
      cases hc : s.byCname (some c) with
      | none => simp [made]
      | some q => exact ⟨by simp, (byCname_some h.w hc).2.2⟩
    have hpk : ∀ i r, s.get i = some r → i = (picked s x c).id → r.cname = some c := by
      intro i r hi he
      unfold picked at he
      cases hc : s.byCname (some c) with
      | none =>
        rw [hc] at he
        simp only [made] at he
        rw [he, get_fresh h.w] at hi
        cases hi
      | some q =>
        rw [hc] at he
        simp only at he
        obtain ⟨h1, _, h2⟩ := byCname_some h.w hc
        rw [he, h1] at hi
        injection hi with hi
        rw [← hi]
        exact h2
    by_cases hm : o.main = some x
    · obtain ⟨h1, h2⟩ := relink_main h.w hb hn hm hs
      have hj : s'.get (picked s x c).id = some (joined o (picked s x c) x) := by rw [h2, if_pos rfl]
      refine ⟨⟨_, get_mem hj, hpx⟩, fun r hr hc y hy => ?_, fun r hr hc hrm y hy hyx => ?_, fun r hr hrm => ?_, fun q hq hc hr => ?_⟩
      · rw [findBySource_of h1 hj (show x ∈ (picked s x c).sources from hpx.1)]
        have := hpc r (byCname_eq h (gm r hr) hc)
        refine findBySource_of h1 hj ?_
        show y ∈ (picked s x c).sources
        rw [this]
        exact List.mem_append_left _ hy
      · have hro : r.id ≠ o.id := by
          intro hc
          have := gm r hr
          rw [hc, hg] at this
          injection this with this
          rw [← this] at hrm
          exact hrm hm
        refine keep_of h.w h1 (gm r hr) hy hyx (Or.inl ?_)
        rw [h2, if_neg (fun hc' => hc (hpk _ _ (gm r hr) hc')), if_neg hro]
        exact gm r hr
      · rw [findBySource_of h1 hj (show x ∈ (picked s x c).sources from hpx.1), findBySource_of h.w hg hx]
        rfl
      · exact absurd hm (hr o (get_mem hg))
    · obtain ⟨h1, h2⟩ := relink_other h.w hb hn hm hs
      have hj : s'.get (picked s x c).id = some (picked s x c) := by rw [h2, if_pos rfl]
      refine ⟨⟨_, get_mem hj, hpx⟩, fun r hr hc y hy => ?_, fun r hr hc hrm y hy hyx => ?_, fun r hr hrm => ?_, fun q hq hc hr => ?_⟩
      · rw [findBySource_of h1 hj hpx.1]
        have := hpc r (byCname_eq h (gm r hr) hc)
        refine findBySource_of h1 hj ?_
        rw [this]
        exact List.mem_append_left _ hy
      · have hk : ¬ r.id = (picked s x c).id := fun hc' => hc (hpk _ _ (gm r hr) hc')
        by_cases hro : r.id = o.id
        · have he := gm r hr
          rw [hro, hg] at he
          injection he with he
          refine keep_of h.w h1 (gm r hr) hy hyx (Or.inr ⟨{ o with sources := o.sources.filter (· ≠ x) }, ?_, by rw [← he], ?_⟩)
          · rw [h2, if_neg hk, if_pos hro, if_neg]
            exact List.ne_nil_of_mem (List.mem_filter.2 ⟨by rw [he]; exact hy, by simpa using hyx⟩)
          · exact List.mem_filter.2 ⟨by rw [he]; exact hy, by simpa using hyx⟩
        · refine keep_of h.w h1 (gm r hr) hy hyx (Or.inl ?_)
          rw [h2, if_neg hk, if_neg hro]
          exact gm r hr
      · have hxr := (h.l _ _ (gm r hr)).main x hrm
        have := h.w.src _ _ _ _ _ (gm r hr) hg hxr hx
        have he := gm r hr
        rw [this, hg] at he
        injection he with he
        rw [he] at hm
        exact absurd hrm hm
      · rw [findBySource_of h1 hj hpx.1, hpc q (byCname_eq h (gm q hq) hc)]
  cases hb : s.bySrc x with
  | none =>
    rw [hb] at hs
    simp only at hs
    obtain ⟨s'', t, n, h1, h2, h3, h4⟩ := linkNew_spec (c := c) h.w hb
    rw [h1] at hs
    injection hs with hs
    subst hs
    have hn : s''.get t = some n := by rw [h3, if_pos rfl]
    have hnm : ∀ r ∈ s.routes, r.main ≠ some x := fun r hr hc => bySrc_none hb (gm r hr) ((h.l _ _ (gm r hr)).main x hc)
    rcases h4 with ⟨hc, ht, hn'⟩ | ⟨q, hc, ht, hn'⟩
    · refine ⟨⟨n, get_mem hn, by rw [hn']; simp [made], by rw [hn']; rfl⟩, fun r hr hrc => ?_, fun r hr _ _ y hy hyx => ?_, fun r hr hc => absurd hc (hnm r hr), fun q hq hqc => ?_⟩
      · rw [byCname_eq h (gm r hr) hrc] at hc; cases hc
      · refine keep_of h.w h2 (gm r hr) hy hyx (Or.inl ?_)
        rw [h3, if_neg]
        · exact gm r hr
        · intro hc
          have := gm r hr
          rw [hc, ht, get_fresh h.w] at this
          cases this
      · rw [byCname_eq h (gm q hq) hqc] at hc; cases hc
    · obtain ⟨h5, h6, h7⟩ := byCname_some h.w hc
      have hxn : x ∈ n.sources := by rw [hn']; simp
      refine ⟨⟨n, get_mem hn, hxn, by rw [hn']; exact h7⟩, fun r hr hrc y hy => ?_, fun r hr hrc _ y hy hyx => ?_, fun r hr hc => absurd hc (hnm r hr), fun p hp hpc _ => ?_⟩
      · rw [byCname_eq h (gm r hr) hrc] at hc
        injection hc with hc
        rw [findBySource_of h2 hn hxn, findBySource_of h2 hn (by rw [hn', ← hc]; exact List.mem_append_left _ hy)]
      · refine keep_of h.w h2 (gm r hr) hy hyx (Or.inl ?_)
        rw [h3, if_neg]
        · exact gm r hr
        · intro hc
          have := gm r hr
          rw [hc, ht, h5] at this
          injection this with this
          rw [this] at h7
          exact hrc h7
      · rw [byCname_eq h (gm p hp) hpc] at hc
        injection hc with hc
        rw [findBySource_of h2 hn hxn, hn', hc]
  | some o =>
    rw [hb] at hs
    obtain ⟨hg, hx⟩ := bySrc_some h.w hb
    cases hc : s.byCname (some c) with
    | none =>
      rw [hc] at hs
      simp only at hs
      have hno : ∀ r ∈ s.routes, r.cname ≠ some c := fun r hr hrc => by rw [byCname_eq h (gm r hr) hrc] at hc; cases hc
      by_cases ho : o.cname.isSome = true
      · rw [if_pos ho] at hs
        exact relink o hb (fun q hq => by rw [hc] at hq; cases hq) hs
      · rw [if_neg ho] at hs
        have hon : o.cname = none := Option.not_isSome_iff_eq_none.1 ho
        obtain ⟨s'', h1, h2, h3⟩ := putC_spec h.w hg hc (noC (h.l _ _ hg) hon)
        rw [h1] at hs
        injection hs with hs
        subst hs
        have hn := h3 o.id
        rw [if_pos rfl] at hn
        have hk : ∀ r ∈ s.routes, ∀ y ∈ r.sources, s''.findBySource y = s.findBySource y := by
          intro r hr y hy
          rw [findBySource_of h.w (gm r hr) hy]
          by_cases hro : r.id = o.id
          · have he := gm r hr
            rw [hro, hg] at he
            injection he with he
            rw [findBySource_of h2 hn (show y ∈ o.sources by rw [he]; exact hy), ← he]
          · refine findBySource_of h2 (i := r.id) ?_ hy
            rw [h3, if_neg hro]
            exact gm r hr
        refine ⟨⟨_, get_mem hn, hx, rfl⟩, fun r hr hrc => absurd hrc (hno r hr), fun r hr _ _ y hy _ => hk r hr y hy, fun r hr _ => hk o (get_mem hg) x hx,
          fun q hq hqc => absurd hqc (hno q hq)⟩
    | some q =>
      rw [hc] at hs
      simp only at hs
      by_cases ho : o.id = q.id
      · rw [if_pos ho] at hs
        injection hs with hs
        subst hs
        obtain ⟨h5, _, h7⟩ := byCname_some h.w hc
        rw [← ho, hg] at h5
        injection h5 with h5
        rw [← h5] at h7
        have hr : ∀ r ∈ s.routes, r.cname = some c → r = o := by
          intro r hr hrc
          have := byCname_eq h (gm r hr) hrc
          rw [hc, ← h5] at this
          injection this with this
          exact this.symm
        refine ⟨⟨o, get_mem hg, hx, h7⟩, fun r hr' hrc y hy => ?_, fun _ _ _ _ _ _ _ => rfl, fun _ _ _ => rfl, fun p hp hpc _ => ?_⟩
        · rw [hr r hr' hrc] at hy
          rw [findBySource_of h.w hg hx, findBySource_of h.w hg hy]
        · rw [hr p hp hpc, findBySource_of h.w hg hx]
      · rw [if_neg ho] at hs
        exact relink o hb (fun p hp => by rw [hc] at hp; injection hp with hp; rw [← hp]; exact fun hc => ho hc.symm) hs

/-- A successful `add_session`. -/
theorem add_effect {s s' : St} (h : Inv s) {z x : Nat} {a : Option Nat} (hs : s.add z x a = some (s', .ok)) :
    s'.findBySource x = some z ∧ (∀ b, a = some b → s'.findByAddress b = some z) ∧ s'.hasSession z = true ∧
    (∀ y, y ≠ x → s'.findBySource y = s.findBySource y ∨
      (s'.findBySource y = some z ∧ ∃ r ∈ s.routes, x ∈ r.sources ∧ y ∈ r.sources ∧ r.sess = none)) := by
  have h' := h.add hs
  rcases add_ok h hs with ⟨r, hb, h1, h2, h3, h4, h5, h6⟩ | ⟨_, _, h6⟩
  · obtain ⟨hg, hx⟩ := bySrc_some h.w hb
    obtain ⟨n, hn⟩ : ∃ n, n = { (if a.isSome then { r with addr := a, inA := true } else r) with sess := some z, inS := true } := ⟨_, rfl⟩
    rw [← hn] at h6
    have hnr : n.sources = r.sources ∧ n.sess = some z ∧ (∀ b, a = some b → n.addr = some b) := by
      rw [hn]
      cases a with
      | none => exact ⟨rfl, rfl, fun b hb => by cases hb⟩
      | some a => exact ⟨rfl, rfl, fun b hb => hb⟩
    have hgn : s'.get r.id = some n := by rw [h6, if_pos rfl]
    refine ⟨(fbs_iff h'.w).2 ⟨_, n, hgn, by rw [hnr.1]; exact hx, hnr.2.1⟩, fun b hb => (fba_iff h').2 ⟨_, n, hgn, hnr.2.2 b hb, hnr.2.1⟩,
      (hasSession_iff h' z).2 ⟨n, get_mem hgn, hnr.2.1⟩, fun y hy => ?_⟩
    by_cases hyr : y ∈ r.sources
    · exact Or.inr ⟨(fbs_iff h'.w).2 ⟨_, n, hgn, by rw [hnr.1]; exact hyr, hnr.2.1⟩, r, get_mem hg, hx, hyr, h2⟩
    · left
      apply Option.ext
      intro w
      rw [fbs_iff h'.w, fbs_iff h.w]
      constructor
      · rintro ⟨i, q, h7, h8, h9⟩
        rw [h6] at h7
        by_cases hi : i = r.id
        · rw [if_pos hi] at h7
          injection h7 with h7
          rw [← h7, hnr.1] at h8
          exact absurd h8 hyr
        · rw [if_neg hi] at h7
          exact ⟨i, q, h7, h8, h9⟩
      · rintro ⟨i, q, h7, h8, h9⟩
        refine ⟨i, q, ?_, h8, h9⟩
        rw [h6, if_neg]
        · exact h7
        · intro hi
          rw [hi, hg] at h7
          injection h7 with h7
          rw [← h7] at h8
          exact hyr h8
  · have hu := h.unlink x
    have hgn := h6 (s.unlink x).fresh
    rw [if_pos rfl] at hgn
    refine ⟨(fbs_iff h'.w).2 ⟨_, _, hgn, by simp [made], rfl⟩, fun b hb => (fba_iff h').2 ⟨_, _, hgn, hb, rfl⟩,
      (hasSession_iff h' z).2 ⟨_, get_mem hgn, rfl⟩, fun y hy => Or.inl ?_⟩
    have hux := unlink_fbs h x y
    rw [if_neg hy] at hux
    rw [← hux]
    apply Option.ext
    intro w
    rw [fbs_iff h'.w, fbs_iff hu.w]
    constructor
    · rintro ⟨i, q, h7, h8, h9⟩
      rw [h6] at h7
      by_cases hi : i = (s.unlink x).fresh
      · rw [if_pos hi] at h7
        injection h7 with h7
        rw [← h7] at h8
        exact absurd (List.mem_singleton.1 h8) hy
      · rw [if_neg hi] at h7
        exact ⟨i, q, h7, h8, h9⟩
    · rintro ⟨i, q, h7, h8, h9⟩
      refine ⟨i, q, ?_, h8, h9⟩
      rw [h6, if_neg]
      · exact h7
      · intro hi
        rw [hi, get_fresh hu.w] at h7
        cases h7

end Verif.SessionRouter
