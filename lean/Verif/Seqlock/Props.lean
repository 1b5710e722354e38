import Verif.Seqlock.Model

/-! # C19: seqlock reads are never torn -/

namespace Verif.Seqlock

variable {β : Type}

theorem upd_same {γ : Type} (f : Nat → γ) (t : Nat) (v : γ) : upd f t v t = v := by simp [upd]
theorem upd_other {γ : Type} (f : Nat → γ) {t k : Nat} (v : γ) (h : k ≠ t) : upd f t v k = f k := by simp [upd, h]

/-- What a load result is promised to be: the complete value of the last store completed when the
load began (or the initial value), with the version of that store; and no store completed since. -/
def Good (n : Nat) (log : List (Nat → β)) (x : Loaded β) : Prop :=
  ∃ val, log[x.started - 1]? = some val ∧ x.value = (List.range n).map val ∧
    x.ver = BitVec.ofNat 32 (2 * (x.started - 1)) ∧ x.ended = x.started

/-- `busy` is the thread past its first write, if any. -/
structure Inv (n : Nat) (s : State β) (busy : Option Nat) : Prop where
  hn : s.n = n
  log : 0 < s.log.length
  ver : s.ver = BitVec.ofNat 32 (2 * (s.log.length - 1) + if busy.isSome then 1 else 0)
  hbusy : ∀ t, (∃ v0 val i, s.w t = .writing v0 val i) ↔ busy = some t
  loaded : ∀ t v0 val, s.w t = .loaded v0 val → v0.toNat % 2 = 0
  writing : ∀ t v0 val i, s.w t = .writing v0 val i → s.ver = v0 + 1 ∧ i ≤ n ∧ ∀ j < i, s.cell j = val j
  quiet : busy = none → ∃ val, s.log[s.log.length - 1]? = some val ∧ ∀ j < n, s.cell j = val j
  reader : ∀ r v0 buf st, s.r r = .copying v0 buf st → 1 ≤ st ∧ st ≤ s.log.length ∧ buf.length ≤ n ∧
    (v0.toNat % 2 = 1 ∨ (v0 = BitVec.ofNat 32 (2 * (st - 1)) ∧
      (s.log.length = st → busy = none → buf = (List.range buf.length).map s.cell)))
  results : ∀ x ∈ s.results, 1 ≤ x.started ∧ x.started ≤ s.log.length ∧
    (x.ended < x.started + 2 ^ 31 → Good n s.log x)

theorem ver_even {s : State β} {n : Nat} {busy : Option Nat} (h : Inv n s busy) (he : s.ver.toNat % 2 = 0) :
    busy = none := by
  cases busy with
  | none => rfl
  | some t =>
    exfalso
    have := h.ver
    rw [this, BitVec.toNat_ofNat] at he
    simp only [Option.isSome_some, if_true] at he
    omega

theorem quiet_busy {s : State β} {n : Nat} {busy : Option Nat} (h : Inv n s busy) (hq : s.Quiet) : busy = none := by
  cases busy with
  | none => rfl
  | some t =>
    obtain ⟨v0, val, i, hw⟩ := (h.hbusy t).2 rfl
    exact absurd hw (hq t v0 val i)

theorem good_append {n : Nat} {log : List (Nat → β)} {x : Loaded β} (hs : 1 ≤ x.started) (hl : x.started ≤ log.length)
    (h : Good n log x) (val : Nat → β) : Good n (log ++ [val]) x := by
  obtain ⟨v, h1, h2⟩ := h
  refine ⟨v, ?_, h2⟩
  rw [List.getElem?_append_left (by omega)]
  exact h1

/-- Starting a store. -/
theorem inv_start {s : State β} {n t : Nat} (h : Inv n s none) (val : Nat → β)
    (hidle : ∀ v0 val i, s.w t ≠ .writing v0 val i) (he : s.ver.toNat % 2 = 0) :
    Inv n { s with ver := s.ver + 1, w := upd s.w t (.writing s.ver val 0) } (some t) := by
  have hno : ∀ k v0 val i, s.w k ≠ .writing v0 val i := by
    intro k v0 val i hk
    have := (h.hbusy k).1 ⟨v0, val, i, hk⟩
    simp at this
  refine { hn := h.hn, log := h.log, ver := ?_, hbusy := ?_, loaded := ?_, writing := ?_, quiet := ?_, reader := ?_,
           results := h.results }
  · have := h.ver
    simp only [Option.isSome_none, Bool.false_eq_true, if_false, Nat.add_zero] at this
    simp only [Option.isSome_some, if_true, this]
    apply BitVec.eq_of_toNat_eq
    rw [BitVec.toNat_add, BitVec.toNat_ofNat, BitVec.toNat_ofNat]
    simp
  · intro k
    constructor
    · rintro ⟨v0, vl, i, hk⟩
      by_cases hkt : k = t
      · rw [hkt]
      · simp only [upd_other _ _ hkt] at hk; exact absurd hk (hno k v0 vl i)
    · intro hk
      simp only [Option.some.injEq] at hk
      subst hk
      exact ⟨s.ver, val, 0, by simp [upd_same]⟩
  · intro k v0 vl hk
    by_cases hkt : k = t
    · subst hkt; simp [upd_same] at hk
    · simp only [upd_other _ _ hkt] at hk; exact h.loaded k v0 vl hk
  · intro k v0 vl i hk
    by_cases hkt : k = t
    · subst hkt
      simp only [upd_same, WPc.writing.injEq] at hk
      obtain ⟨rfl, rfl, rfl⟩ := hk
      exact ⟨rfl, by omega, by omega⟩
    · simp only [upd_other _ _ hkt] at hk; exact absurd hk (hno k v0 vl i)
  · intro hc; simp at hc
  · intro r v0 buf st hr
    obtain ⟨h1, h2, h3, h4⟩ := h.reader r v0 buf st hr
    refine ⟨h1, h2, h3, h4.imp id fun h5 => ⟨h5.1, fun _ hc => by simp at hc⟩⟩

theorem inv_step {s s' : State β} {n : Nat} {busy : Option Nat} (h : Inv n s busy) (st : Step s s') :
    ∃ busy', Inv n s' busy' := by
  cases st with
  | tryStoreFail t _ _ => exact ⟨busy, h⟩
  | tryStore t val hw he =>
    refine ⟨busy, { hn := h.hn, log := h.log, ver := h.ver, hbusy := ?_, loaded := ?_, writing := ?_, quiet := h.quiet, reader := h.reader, results := h.results }⟩
    · intro k
      rw [← h.hbusy k]
      by_cases hkt : k = t
      · subst hkt; simp [upd_same, hw]
      · simp only [upd_other _ _ hkt]
    · intro k v0 vl hk
      by_cases hkt : k = t
      · subst hkt
        simp only [upd_same, WPc.loaded.injEq] at hk
        rw [← hk.1]; exact he
      · simp only [upd_other _ _ hkt] at hk; exact h.loaded k v0 vl hk
    · intro k v0 vl i hk
      by_cases hkt : k = t
      · subst hkt; simp [upd_same] at hk
      · simp only [upd_other _ _ hkt] at hk; exact h.writing k v0 vl i hk
  | casFail t v0 val hw _ =>
    refine ⟨busy, { hn := h.hn, log := h.log, ver := h.ver, hbusy := ?_, loaded := ?_, writing := ?_, quiet := h.quiet, reader := h.reader, results := h.results }⟩
    · intro k
      rw [← h.hbusy k]
      by_cases hkt : k = t
      · subst hkt; simp [upd_same, hw]
      · simp only [upd_other _ _ hkt]
    · intro k v0' vl hk
      by_cases hkt : k = t
      · subst hkt; simp [upd_same] at hk
      · simp only [upd_other _ _ hkt] at hk; exact h.loaded k v0' vl hk
    · intro k v0 vl i hk
      by_cases hkt : k = t
      · subst hkt; simp [upd_same] at hk
      · simp only [upd_other _ _ hkt] at hk; exact h.writing k v0 vl i hk
  | cas t v0 val hw he =>
    subst he
    have hev := h.loaded t s.ver val hw
    have hb := ver_even h hev
    subst hb
    exact ⟨some t, inv_start h val (by simp [hw]) hev⟩
  | exclusive t val hw hq =>
    have hb := quiet_busy h hq
    subst hb
    refine ⟨some t, inv_start h val (by simp [hw]) ?_⟩
    have := h.ver
    simp only [Option.isSome_none, Bool.false_eq_true, if_false, Nat.add_zero] at this
    rw [this, BitVec.toNat_ofNat]; omega
  | copy t v0 val i hw hi =>
    have hb := (h.hbusy t).1 ⟨v0, val, i, hw⟩
    obtain ⟨hv, hin, hcell⟩ := h.writing t v0 val i hw
    refine ⟨busy, { hn := h.hn, log := h.log, ver := h.ver, hbusy := ?_, loaded := ?_, writing := ?_, quiet := ?_, reader := ?_, results := h.results }⟩
    · intro k
      rw [← h.hbusy k]
      by_cases hkt : k = t
      · subst hkt; simp [upd_same, hw]
      · simp only [upd_other _ _ hkt]
    · intro k v0' vl hk
      by_cases hkt : k = t
      · subst hkt; simp [upd_same] at hk
      · simp only [upd_other _ _ hkt] at hk; exact h.loaded k v0' vl hk
    · intro k v0' vl i' hk
      by_cases hkt : k = t
      · subst hkt
        simp only [upd_same, WPc.writing.injEq] at hk
        obtain ⟨rfl, rfl, rfl⟩ := hk
        refine ⟨hv, by have := h.hn; omega, ?_⟩
        intro j hj
        by_cases hji : j = i
        · subst hji; simp [upd_same]
        · simp only [upd_other _ _ hji]; exact hcell j (by omega)
      · simp only [upd_other _ _ hkt] at hk
        have := (h.hbusy k).1 ⟨v0', vl, i', hk⟩
        rw [hb] at this
        simp only [Option.some.injEq] at this
        exact absurd this.symm hkt
    · intro hc; rw [hb] at hc; simp at hc
    · intro r v0' buf st hr
      obtain ⟨h1, h2, h3, h4⟩ := h.reader r v0' buf st hr
      exact ⟨h1, h2, h3, h4.imp id fun h5 => ⟨h5.1, fun _ hc => by rw [hb] at hc; simp at hc⟩⟩
  | finish t v0 val i hw hi =>
    have hb := (h.hbusy t).1 ⟨v0, val, i, hw⟩
    obtain ⟨hv, hin, hcell⟩ := h.writing t v0 val i hw
    have hlog := h.log
    refine ⟨none, { hn := h.hn, log := by simp, ver := ?_, hbusy := ?_, loaded := ?_, writing := ?_, quiet := ?_, reader := ?_, results := ?_ }⟩
    · have hver := h.ver
      rw [hb] at hver
      simp only [Option.isSome_some, if_true] at hver
      simp only [List.length_append, List.length_singleton, Option.isSome_none, Bool.false_eq_true, if_false]
      have e2 : v0 + 2 = s.ver + 1 := by rw [hv, BitVec.add_assoc]; rfl
      rw [e2, hver]
      apply BitVec.eq_of_toNat_eq
      rw [BitVec.toNat_add, BitVec.toNat_ofNat, BitVec.toNat_ofNat]
      simp only [BitVec.toNat_ofNat, Nat.mod_add_mod]
      congr 1
      simp
      omega
    · intro k
      constructor
      · rintro ⟨v0', vl, i', hk⟩
        by_cases hkt : k = t
        · subst hkt; simp [upd_same] at hk
        · simp only [upd_other _ _ hkt] at hk
          have := (h.hbusy k).1 ⟨v0', vl, i', hk⟩
          rw [hb] at this
          simp only [Option.some.injEq] at this
          exact absurd this.symm hkt
      · intro hc; simp at hc
    · intro k v0' vl hk
      by_cases hkt : k = t
      · subst hkt; simp [upd_same] at hk
      · simp only [upd_other _ _ hkt] at hk; exact h.loaded k v0' vl hk
    · intro k v0' vl i' hk
      exfalso
      by_cases hkt : k = t
      · subst hkt; simp [upd_same] at hk
      · simp only [upd_other _ _ hkt] at hk
        have := (h.hbusy k).1 ⟨v0', vl, i', hk⟩
        rw [hb] at this
        simp only [Option.some.injEq] at this
        exact absurd this.symm hkt
    · intro _
      refine ⟨val, by simp, ?_⟩
      intro j hj
      exact hcell j (by have := h.hn; omega)
    · intro r v0' buf st hr
      obtain ⟨h1, h2, h3, h4⟩ := h.reader r v0' buf st hr
      refine ⟨h1, by simp; omega, h3, h4.imp id fun h5 => ⟨h5.1, fun hc => ?_⟩⟩
      simp only [List.length_append, List.length_singleton] at hc
      omega
    · intro x hx
      obtain ⟨h1, h2, h3⟩ := h.results x hx
      exact ⟨h1, by simp; omega, fun hd => good_append h1 h2 (h3 hd) val⟩
  | load r hr =>
    refine ⟨busy, { hn := h.hn, log := h.log, ver := h.ver, hbusy := h.hbusy, loaded := h.loaded, writing := h.writing, quiet := h.quiet, reader := ?_, results := h.results }⟩
    intro k v0 buf st hk
    by_cases hkr : k = r
    · subst hkr
      simp only [upd_same, RPc.copying.injEq] at hk
      obtain ⟨rfl, rfl, rfl⟩ := hk
      have hlog := h.log
      refine ⟨hlog, by simp, by simp, ?_⟩
      have hver := h.ver
      cases busy with
      | none =>
        right
        simp only [Option.isSome_none, Bool.false_eq_true, if_false, Nat.add_zero] at hver
        exact ⟨hver, by simp⟩
      | some t =>
        left
        simp only [Option.isSome_some, if_true] at hver
        rw [hver, BitVec.toNat_ofNat]; omega
    · simp only [upd_other _ _ hkr] at hk; exact h.reader k v0 buf st hk
  | read r v0 buf st hr hlt =>
    refine ⟨busy, { hn := h.hn, log := h.log, ver := h.ver, hbusy := h.hbusy, loaded := h.loaded, writing := h.writing, quiet := h.quiet, reader := ?_, results := h.results }⟩
    intro k v0' buf' st' hk
    by_cases hkr : k = r
    · subst hkr
      simp only [upd_same, RPc.copying.injEq] at hk
      obtain ⟨rfl, rfl, rfl⟩ := hk
      obtain ⟨h1, h2, h3, h4⟩ := h.reader k v0 buf st hr
      refine ⟨h1, h2, by simp; have := h.hn; omega, h4.imp id fun h5 => ⟨h5.1, fun e1 e2 => ?_⟩⟩
      have := h5.2 e1 e2
      simp only [List.length_append, List.length_singleton, List.range_succ, List.map_append, List.map_cons,
        List.map_nil]
      rw [← this]
    · simp only [upd_other _ _ hkr] at hk; exact h.reader k v0' buf' st' hk
  | checkFail r v0 buf st hr _ _ =>
    refine ⟨busy, { hn := h.hn, log := h.log, ver := h.ver, hbusy := h.hbusy, loaded := h.loaded, writing := h.writing, quiet := h.quiet, reader := ?_, results := h.results }⟩
    intro k v0' buf' st' hk
    by_cases hkr : k = r
    · subst hkr; simp [upd_same] at hk
    · simp only [upd_other _ _ hkr] at hk; exact h.reader k v0' buf' st' hk
  | check r v0 buf st hr hge hc =>
    obtain ⟨he, rfl⟩ := hc
    have hb := ver_even h he
    subst hb
    refine ⟨none, { hn := h.hn, log := h.log, ver := h.ver, hbusy := h.hbusy, loaded := h.loaded, writing := h.writing, quiet := h.quiet, reader := ?_, results := ?_ }⟩
    · intro k v0' buf' st' hk
      by_cases hkr : k = r
      · subst hkr; simp [upd_same] at hk
      · simp only [upd_other _ _ hkr] at hk; exact h.reader k v0' buf' st' hk
    · intro x hx
      rw [List.mem_append] at hx
      rcases hx with hx | hx
      · exact h.results x hx
      · rw [List.mem_singleton] at hx
        subst hx
        obtain ⟨h1, h2, h3, h4⟩ := h.reader r s.ver buf st hr
        refine ⟨h1, h2, fun hd => ?_⟩
        simp only at hd
        rcases h4 with h4 | ⟨h4, h5⟩
        · omega
        · have hver := h.ver
          simp only [Option.isSome_none, Bool.false_eq_true, if_false, Nat.add_zero] at hver
          have heq : s.log.length = st := by
            rw [h4] at hver
            have := congrArg BitVec.toNat hver
            rw [BitVec.toNat_ofNat, BitVec.toNat_ofNat] at this
            omega
          obtain ⟨val, hv1, hv2⟩ := h.quiet rfl
          refine ⟨val, by rw [← heq]; exact hv1, ?_, h4, heq⟩
          have hbl : buf.length = n := by have := h.hn; omega
          have := h5 heq rfl
          simp only
          rw [this, hbl]
          apply List.map_congr_left
          intro j hj
          exact hv2 j (by simpa using hj)

theorem reach_inv {n : Nat} {val : Nat → β} {s : State β} (h : Reach n val s) : ∃ busy, Inv n s busy := by
  induction h with
  | init =>
    refine ⟨none, ⟨rfl, by simp [State.init], rfl, ?_, ?_, ?_, ?_, ?_, ?_⟩⟩
    · intro t; simp [State.init]
    · intro t v0 vl hc; simp [State.init] at hc
    · intro t v0 vl i hc; simp [State.init] at hc
    · intro _; exact ⟨val, by simp [State.init], fun j _ => rfl⟩
    · intro r v0 buf st hc; simp [State.init] at hc
    · intro x hx; simp [State.init] at hx
  | step _ st ih =>
    obtain ⟨b, hb⟩ := ih
    exact inv_step hb st

/-- **C19.** For every interleaving of any number of storing and loading threads and values of any
number of words: a successful load during which fewer than 2^31 stores completed returned the
complete value of the last store completed before it began (the initial value if there was none),
together with the version of that store, and no store completed while it ran.

The full claim has no bound on the number of stores during one load; it is false
(`C19_wrap_fails`) because the version has 32 bits. -/
theorem C19_not_torn_partial {n : Nat} {val : Nat → β} {s : State β} (h : Reach n val s) {x : Loaded β}
    (hx : x ∈ s.results) (hfew : x.ended < x.started + 2 ^ 31) :
    ∃ v, s.log[x.started - 1]? = some v ∧ x.value = (List.range n).map v ∧
      x.ver = BitVec.ofNat 32 (2 * (x.started - 1)) ∧ x.ended = x.started := by
  obtain ⟨b, hb⟩ := reach_inv h
  exact (hb.results x hx).2.2 hfew

/-- **C19, stores.** At most one store writes at a time, and whenever none does, the cell holds the
complete value of the last completed store and the version counts the stores. -/
theorem C19_stores {n : Nat} {val : Nat → β} {s : State β} (h : Reach n val s) :
    (∀ t t' v v' a a' i i', s.w t = .writing v a i → s.w t' = .writing v' a' i' → t = t') ∧
    (s.Quiet → s.ver = BitVec.ofNat 32 (2 * (s.log.length - 1)) ∧
      ∃ v, s.log.getLast? = some v ∧ ∀ j < n, s.cell j = v j) := by
  obtain ⟨b, hb⟩ := reach_inv h
  constructor
  · intro t t' v v' a a' i i' h1 h2
    have e1 := (hb.hbusy t).1 ⟨_, _, _, h1⟩
    have e2 := (hb.hbusy t').1 ⟨_, _, _, h2⟩
    rw [e1] at e2
    simpa using e2
  · intro hq
    have hn := quiet_busy hb hq
    subst hn
    refine ⟨by simpa using hb.ver, ?_⟩
    obtain ⟨v, h1, h2⟩ := hb.quiet rfl
    exact ⟨v, by rw [List.getLast?_eq_getElem?]; exact h1, h2⟩

/-- One complete store of a two-word value by thread 0. -/
theorem reach_store {val : Nat → β} {s : State β} (h : Reach 2 val s) (hn : s.n = 2) (hw : s.w = fun _ => .idle)
    (he : s.ver.toNat % 2 = 0) (v : β) :
    Reach 2 val { s with ver := s.ver + 2, cell := upd (upd s.cell 0 v) 1 v, log := s.log ++ [fun _ => v] } := by
  have h1 := Reach.step h (.tryStore s 0 (fun _ => v) (by rw [hw]) he)
  have h2 := Reach.step h1 (.cas _ 0 s.ver (fun _ => v) (by simp [upd_same]) rfl)
  have h3 := Reach.step h2 (.copy _ 0 s.ver (fun _ => v) 0 (by simp [upd_same]) (by simp [hn]))
  have h4 := Reach.step h3 (.copy _ 0 s.ver (fun _ => v) 1 (by simp [upd_same]) (by simp [hn]))
  have h5 := Reach.step h4 (.finish _ 0 s.ver (fun _ => v) 2 (by simp [upd_same]) (by simp [hn]))
  have hw' : upd (upd (upd (upd (upd s.w 0 (.loaded s.ver fun _ => v)) 0 (.writing s.ver (fun _ => v) 0)) 0
      (.writing s.ver (fun _ => v) 1)) 0 (.writing s.ver (fun _ => v) 2)) 0 .idle = s.w := by
    rw [hw]; funext k; simp only [upd]; split <;> rfl
  simp only [Nat.reduceAdd] at h5
  rw [hw'] at h5
  exact h5

/-- Non-vacuity of `C19_not_torn_partial`: a load after one store. -/
example : ∃ s : State Nat, Reach 2 (fun _ => 0) s ∧ ∃ x ∈ s.results, x.ended < x.started + 2 ^ 31 ∧ x.value = [7, 7] := by
  have h0 := reach_store (Reach.init (n := 2) (val := fun _ => (0 : Nat))) rfl rfl rfl 7
  have h1 := Reach.step h0 (.load _ 3 rfl)
  have h2 := Reach.step h1 (.read _ 3 2 [] 2 rfl (by decide))
  have h3 := Reach.step h2 (.read _ 3 2 [7] 2 rfl (by decide))
  have h4 := Reach.step h3 (.check _ 3 2 [7, 7] 2 rfl (by decide) ⟨by decide, rfl⟩)
  exact ⟨_, h4, _, List.mem_append_right _ (List.mem_singleton.2 rfl), by decide, by rfl⟩

/-- **C19 fails without the bound.** A load of a two-word value that is preempted between the two
words while exactly 2^31 stores complete succeeds and returns the first word of one value and the
second word of another: no store (and not the initial value) ever was [0, 1]. -/
theorem C19_wrap_fails : ∃ s : State Nat, Reach 2 (fun _ => 0) s ∧ ∃ x ∈ s.results, x.value = [0, 1] ∧
    ∀ v ∈ s.log, x.value ≠ (List.range 2).map v := by
  let s1 : State Nat := { State.init 2 (fun _ => 0) with r := upd (fun _ => .idle) 3 (.copying 0 [0] 1) }
  have hs1 : Reach 2 (fun _ => 0) s1 := by
    have h1 := Reach.step (Reach.init (n := 2) (val := fun _ => (0 : Nat))) (.load _ 3 rfl)
    have h2 := Reach.step h1 (.read _ 3 0 [] 1 rfl (by decide))
    have : upd (upd (State.init 2 (fun _ => (0 : Nat))).r 3 (.copying (State.init 2 (fun _ => (0 : Nat))).ver []
        (State.init 2 (fun _ => (0 : Nat))).log.length)) 3 (.copying 0
          ([] ++ [(State.init 2 (fun _ => (0 : Nat))).cell ([] : List Nat).length]) 1)
        = upd (fun _ => .idle) 3 (.copying 0 [0] 1) := by
      funext k; simp only [upd, State.init]; split <;> rfl
    simp only at h2
    rw [this] at h2
    exact h2
  -- after k + 1 stores of [1, 1]
  have hk : ∀ k : Nat, Reach 2 (fun _ => 0)
      { s1 with ver := BitVec.ofNat 32 (2 * (k + 1)), cell := upd (upd s1.cell 0 1) 1 1,
                log := s1.log ++ List.replicate (k + 1) (fun _ => 1) } := by
    intro k
    induction k with
    | zero => exact reach_store hs1 rfl rfl rfl 1
    | succ k ih =>
      have h1 := reach_store ih rfl rfl (by simp only [BitVec.toNat_ofNat]; omega) 1
      have e1 : BitVec.ofNat 32 (2 * (k + 1)) + 2 = BitVec.ofNat 32 (2 * (k + 1 + 1)) := by
        apply BitVec.eq_of_toNat_eq
        rw [BitVec.toNat_add]
        simp only [BitVec.toNat_ofNat]
        have : BitVec.toNat (2 : BitVec 32) = 2 := rfl
        omega
      have e2 : upd (upd (upd (upd s1.cell 0 1) 1 1) 0 1) 1 1 = upd (upd s1.cell 0 1) 1 1 := by
        funext j; simp only [upd]; by_cases h1 : j = 1 <;> by_cases h0 : j = 0 <;> simp [h1, h0]
      simp only [e1, e2, List.append_assoc] at h1
      rw [List.replicate_succ']
      exact h1
  obtain ⟨k, hkk⟩ : ∃ k, k = 2 ^ 31 - 1 := ⟨_, rfl⟩
  have h1 := hk k
  have hv : BitVec.ofNat 32 (2 * (k + 1)) = 0 := by subst hkk; decide
  rw [hv] at h1
  have h2 := Reach.step h1 (.read _ 3 0 [0] 1 rfl (show 1 < 2 by decide))
  have h3 := Reach.step h2 (.check _ 3 0 [0, 1] 1 rfl (show 2 ≥ 2 by decide) ⟨by decide, rfl⟩)
  refine ⟨_, h3, _, List.mem_append_right _ (List.mem_singleton.2 rfl), by rfl, ?_⟩
  intro v hv
  simp only [s1, State.init, List.singleton_append, List.mem_cons, List.mem_replicate] at hv
  rcases hv with rfl | ⟨_, rfl⟩
  · show ([0, 1] : List Nat) ≠ _; decide
  · show ([0, 1] : List Nat) ≠ _; decide

end Verif.Seqlock
