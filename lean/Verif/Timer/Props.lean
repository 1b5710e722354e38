import Verif.Timer.Model
import Mathlib.Tactic.SplitIfs

/-! # C54: the timer does not lose wakeups -/

namespace Verif.Timer

/-- The waiter is going to look at the deadline again, or what it plans is not later than the
current deadline. -/
def Covered (s : State) : Prop :=
  match s.waiter with
  | .check d => s.dl < 0 ∨ (0 ≤ d ∧ d ≤ s.dl)
  | .planA d | .planB d => s.dl < 0 ∨ (0 ≤ d ∧ d ≤ s.dl)
  | .sleep (some d) => s.dl < 0 ∨ (0 ≤ d ∧ d ≤ s.dl)
  | .sleep none => s.dl < 0
  | _ => True

/-- What `next_wakeup_` says about the waiter. -/
def NwOk (s : State) : Prop :=
  match s.waiter with
  | .load | .check _ | .planA _ | .sleep none => s.nwBusy = false ∧ s.nw = -1
  | .sleep (some d) => s.nwBusy = false ∧ s.nw = d
  | .planB _ => s.nwBusy = true
  | _ => True

structure Inv (s : State) : Prop where
  now : 0 ≤ s.now
  plan : ∀ d, (s.waiter = .planA d ∨ s.waiter = .planB d ∨ s.waiter = .sleep (some d)) → 0 < d
  busy : ∀ t, (∃ v, s.setter t = .storing v) → s.dlBusy = some t
  busy' : ∀ t, s.dlBusy = some t → ∃ v, s.setter t = .storing v
  flag : s.flag = true → 0 < s.sem ∨ s.waiter = .woke ∨ ∃ t, s.setter t = .post
  nw : NwOk s
  cov : Covered s ∨ 0 < s.sem ∨ (∃ t, s.setter t = .post) ∨ (∃ t, s.setter t = .cas) ∨
    ∃ t, s.setter t = .check s.dl

theorem upd_same (f : Nat → Setter) (t : Nat) (v : Setter) : upd f t v t = v := by simp [upd]
theorem upd_other (f : Nat → Setter) {t k : Nat} (v : Setter) (h : k ≠ t) : upd f t v k = f k := by simp [upd, h]

theorem inv_init (now : Int) (h : 0 ≤ now) : Inv (State.init now) := by
  refine ⟨h, ?_, ?_, ?_, ?_, trivial, .inl trivial⟩
  · intro d hd; simp [State.init] at hd
  · intro t ht; simp [State.init] at ht
  · intro t ht; simp [State.init] at ht
  · intro hf; simp [State.init] at hf

theorem inv_setter {s : State} (h : Inv s) (t : Nat) (sp : Bool) : Inv (s.runSetter t sp) := by
  unfold State.runSetter
  cases hp : s.setter t with
  | idle => exact h
  | storing v =>
    have hb := h.busy t ⟨v, hp⟩
    refine ⟨h.now, h.plan, ?_, ?_, ?_, h.nw, ?_⟩
    · rintro k ⟨v', hk⟩
      by_cases hkt : k = t
      · subst hkt; simp [upd_same] at hk
      · simp only [upd_other _ _ hkt] at hk
        have := h.busy k ⟨v', hk⟩
        rw [hb] at this
        simp only [Option.some.injEq] at this
        exact absurd this.symm hkt
    · intro k hk; simp at hk
    · intro hf
      rcases h.flag hf with h1 | h1 | ⟨k, hk⟩
      · exact .inl h1
      · exact .inr (.inl h1)
      · refine .inr (.inr ⟨k, ?_⟩)
        have hkt : k ≠ t := by rintro rfl; rw [hp] at hk; cases hk
        simp only [upd_other _ _ hkt]; exact hk
    · exact .inr (.inr (.inr (.inr ⟨t, by simp [upd_same]⟩)))
  | check v =>
    have hbusy : ∀ (p : Setter), (∀ v', p ≠ .storing v') → ∀ k, (∃ v', upd s.setter t p k = .storing v') →
        s.dlBusy = some k := by
      rintro p hpn k ⟨v', hk⟩
      by_cases hkt : k = t
      · subst hkt; rw [upd_same] at hk; exact absurd hk (hpn v')
      · rw [upd_other _ _ hkt] at hk; exact h.busy k ⟨v', hk⟩
    have hbusy' : ∀ (p : Setter) k, s.dlBusy = some k → ∃ v', upd s.setter t p k = .storing v' := by
      intro p k hk
      obtain ⟨v', hv⟩ := h.busy' k hk
      have hkt : k ≠ t := by rintro rfl; rw [hp] at hv; cases hv
      exact ⟨v', by rw [upd_other _ _ hkt]; exact hv⟩
    have hpost : ∀ (p : Setter) , (∃ k, s.setter k = .post) → ∃ k, upd s.setter t p k = .post := by
      rintro p ⟨k, hk⟩
      have hkt : k ≠ t := by rintro rfl; rw [hp] at hk; cases hk
      exact ⟨k, by rw [upd_other _ _ hkt]; exact hk⟩
    have hcas : ∀ (p : Setter) , (∃ k, s.setter k = .cas) → ∃ k, upd s.setter t p k = .cas := by
      rintro p ⟨k, hk⟩
      have hkt : k ≠ t := by rintro rfl; rw [hp] at hk; cases hk
      exact ⟨k, by rw [upd_other _ _ hkt]; exact hk⟩
    simp only
    obtain ⟨x, hx⟩ : ∃ x, x = (if (s.nwBusy || sp) = true then -1 else s.nw) := ⟨_, rfl⟩
    rw [← hx]
    split
    · refine ⟨h.now, h.plan, hbusy _ (by simp), hbusy' _, ?_, h.nw, ?_⟩
      · intro hf
        rcases h.flag hf with h1 | h1 | h1
        · exact .inl h1
        · exact .inr (.inl h1)
        · exact .inr (.inr (hpost _ h1))
      · exact .inr (.inr (.inr (.inl ⟨t, by simp [upd_same]⟩)))
    · rename_i hno
      refine ⟨h.now, h.plan, hbusy _ (by simp), hbusy' _, ?_, h.nw, ?_⟩
      · intro hf
        rcases h.flag hf with h1 | h1 | h1
        · exact .inl h1
        · exact .inr (.inl h1)
        · exact .inr (.inr (hpost _ h1))
      · rcases h.cov with h1 | h1 | h1 | h1 | ⟨k, hk⟩
        · exact .inl h1
        · exact .inr (.inl h1)
        · exact .inr (.inr (.inl (hpost _ h1)))
        · exact .inr (.inr (.inr (.inl (hcas _ h1))))
        · by_cases hkt : k = t
          · subst hkt
            rw [hp] at hk
            simp only [Setter.check.injEq] at hk
            subst hk
            left
            have hnw := h.nw
            have hplan := h.plan
            cases hsp : (s.nwBusy || sp) with
            | true => simp [hsp] at hx; omega
            | false =>
              simp only [hsp, Bool.false_eq_true, if_false] at hx
              subst hx
              unfold Covered NwOk at *
              cases hw : s.waiter with
              | sleep p =>
                cases p with
                | none => simp only [hw] at hnw; omega
                | some d =>
                  simp only [hw] at hnw ⊢
                  have := hplan d (by simp [hw])
                  omega
              | planB d => simp only [hw] at hnw; simp [hnw] at hsp
              | check d => simp only [hw] at hnw; omega
              | planA d => simp only [hw] at hnw; omega
              | _ => trivial
          · exact .inr (.inr (.inr (.inr ⟨k, by simp only [upd_other _ _ hkt]; exact hk⟩)))
  | cas =>
    have hbusy : ∀ (p : Setter), (∀ v', p ≠ .storing v') → ∀ k, (∃ v', upd s.setter t p k = .storing v') →
        s.dlBusy = some k := by
      rintro p hpn k ⟨v', hk⟩
      by_cases hkt : k = t
      · subst hkt; rw [upd_same] at hk; exact absurd hk (hpn v')
      · rw [upd_other _ _ hkt] at hk; exact h.busy k ⟨v', hk⟩
    have hbusy' : ∀ (p : Setter) k, s.dlBusy = some k → ∃ v', upd s.setter t p k = .storing v' := by
      intro p k hk
      obtain ⟨v', hv⟩ := h.busy' k hk
      have hkt : k ≠ t := by rintro rfl; rw [hp] at hv; cases hv
      exact ⟨v', by rw [upd_other _ _ hkt]; exact hv⟩
    have hpost : ∀ (p : Setter) , (∃ k, s.setter k = .post) → ∃ k, upd s.setter t p k = .post := by
      rintro p ⟨k, hk⟩
      have hkt : k ≠ t := by rintro rfl; rw [hp] at hk; cases hk
      exact ⟨k, by rw [upd_other _ _ hkt]; exact hk⟩
    simp only
    split
    · refine ⟨h.now, h.plan, hbusy _ (by simp), hbusy' _, ?_, h.nw, ?_⟩
      · intro _; exact .inr (.inr ⟨t, by simp [upd_same]⟩)
      · exact .inr (.inr (.inl ⟨t, by simp [upd_same]⟩))
    · rename_i hf
      have hf' : s.flag = true := by simpa using hf
      refine ⟨h.now, h.plan, hbusy _ (by simp), hbusy' _, ?_, h.nw, ?_⟩
      · intro _
        rcases h.flag hf' with h1 | h1 | h1
        · exact .inl h1
        · exact .inr (.inl h1)
        · exact .inr (.inr (hpost _ h1))
      · rcases h.flag hf' with h1 | h1 | h1
        · exact .inr (.inl h1)
        · left; simp [Covered, h1]
        · exact .inr (.inr (.inl (hpost _ h1)))
  | post =>
    refine ⟨h.now, h.plan, ?_, ?_, ?_, h.nw, ?_⟩
    · rintro k ⟨v', hk⟩
      by_cases hkt : k = t
      · subst hkt; simp [upd_same] at hk
      · simp only [upd_other _ _ hkt] at hk; exact h.busy k ⟨v', hk⟩
    · intro k hk
      obtain ⟨v', hv⟩ := h.busy' k hk
      have hkt : k ≠ t := by rintro rfl; rw [hp] at hv; cases hv
      exact ⟨v', by simp only [upd_other _ _ hkt]; exact hv⟩
    · intro _; left; simp
    · right; left; simp

theorem inv_waiter {s : State} (h : Inv s) (to : Bool) : Inv (s.runWaiter to) := by
  have hplan := h.plan
  have hnow := h.now
  have hnw := h.nw
  have hcov := h.cov
  -- steps that leave everything but the waiter and `next_wakeup_` alone
  have mk : ∀ (nw : Int) (b : Bool) (w : Waiter),
      (∀ d, (w = .planA d ∨ w = .planB d ∨ w = .sleep (some d)) → 0 < d) →
      s.waiter ≠ .woke →
      NwOk { s with nw := nw, nwBusy := b, waiter := w } →
      (Covered s → Covered { s with nw := nw, nwBusy := b, waiter := w }) →
      Inv { s with nw := nw, nwBusy := b, waiter := w } := by
    intro nw b w h1 h2 h3 h4
    refine ⟨h.now, h1, h.busy, h.busy', ?_, h3, ?_⟩
    · intro hf
      rcases h.flag hf with e | e | e
      · exact .inl e
      · exact absurd e h2
      · exact .inr (.inr e)
    · rcases hcov with e | e
      · exact .inl (h4 e)
      · exact .inr e
  unfold State.runWaiter
  cases hw : s.waiter with
  | out => exact h
  | reset => exact mk _ _ _ (by simp) (by simp [hw]) trivial (fun _ => trivial)
  | resetting => exact mk _ _ _ (by simp) (by simp [hw]) ⟨rfl, rfl⟩ (fun _ => trivial)
  | load =>
    simp only
    split
    · refine mk s.nw s.nwBusy _ (by simp) (by simp [hw]) ?_ ?_
      · simpa [NwOk, hw] using hnw
      · intro _; simp only [Covered]; omega
    · exact h
  | check d =>
    simp only
    have hn : s.nwBusy = false ∧ s.nw = -1 := by simpa [NwOk, hw] using hnw
    split
    · exact mk s.nw s.nwBusy _ (by simp) (by simp [hw]) trivial (fun _ => trivial)
    · rename_i hne
      split
      · rename_i hd
        refine mk s.nw s.nwBusy _ ?_ (by simp [hw]) (by simpa [NwOk] using hn) ?_
        · intro d' hd'; simp at hd'; omega
        · intro hc; simpa [Covered, hw] using hc
      · rename_i hd
        refine mk s.nw s.nwBusy _ (by simp) (by simp [hw]) (by simpa [NwOk] using hn) ?_
        · intro hc
          simp only [Covered, hw] at hc ⊢
          omega
  | planA d =>
    have hd := hplan d (by simp [hw])
    refine mk s.nw true _ ?_ (by simp [hw]) (by simp [NwOk]) ?_
    · intro d' hd'; simp at hd'; omega
    · intro hc; simpa [Covered, hw] using hc
  | planB d =>
    have hd := hplan d (by simp [hw])
    refine mk d false _ ?_ (by simp [hw]) (by simp [NwOk]) ?_
    · intro d' hd'; simp at hd'; omega
    · intro hc; simpa [Covered, hw] using hc
  | sleep plan =>
    have hwoke : Inv { s with waiter := .woke } :=
      mk s.nw s.nwBusy _ (by simp) (by simp [hw]) trivial (fun _ => trivial)
    simp only
    split
    · cases plan with
      | none => exact h
      | some d =>
        simp only
        split
        · exact hwoke
        · exact h
    · split
      · refine ⟨h.now, by simp, h.busy, h.busy', fun _ => .inr (.inl rfl), trivial, .inl trivial⟩
      · exact h
  | woke =>
    refine ⟨h.now, by simp, h.busy, h.busy', fun hf => by simp at hf, trivial, .inl trivial⟩
  | exitA => exact mk _ _ _ (by simp) (by simp [hw]) trivial (fun _ => trivial)
  | exitB => exact mk _ _ _ (by simp) (by simp [hw]) trivial (fun _ => trivial)

theorem inv_step {s : State} (h : Inv s) (st : Step) : Inv (s.step st) := by
  cases st with
  | tick dt =>
    have := h.now
    exact ⟨by simp only [State.step]; omega, h.plan, h.busy, h.busy', h.flag, h.nw, h.cov⟩
  | set t v =>
    simp only [State.step]
    cases hp : s.setter t with
    | idle =>
      simp only
      split
      · rename_i hb
        have hne : ∀ k, s.setter k ≠ .idle → k ≠ t := by rintro k hk rfl; exact hk hp
        refine ⟨h.now, h.plan, ?_, ?_, ?_, h.nw, ?_⟩
        · rintro k ⟨v', hk⟩
          by_cases hkt : k = t
          · subst hkt; rfl
          · simp only [upd_other _ _ hkt] at hk
            have := h.busy k ⟨v', hk⟩
            rw [hb] at this; simp at this
        · intro k hk
          simp only [Option.some.injEq] at hk
          subst hk
          exact ⟨v, by simp [upd_same]⟩
        · intro hf
          rcases h.flag hf with h1 | h1 | ⟨k, hk⟩
          · exact .inl h1
          · exact .inr (.inl h1)
          · exact .inr (.inr ⟨k, by simp only [upd_other _ _ (hne k (by simp [hk]))]; exact hk⟩)
        · rcases h.cov with h1 | h1 | ⟨k, hk⟩ | ⟨k, hk⟩ | ⟨k, hk⟩
          · exact .inl h1
          · exact .inr (.inl h1)
          · exact .inr (.inr (.inl ⟨k, by simp only [upd_other _ _ (hne k (by simp [hk]))]; exact hk⟩))
          · exact .inr (.inr (.inr (.inl ⟨k, by simp only [upd_other _ _ (hne k (by simp [hk]))]; exact hk⟩)))
          · exact .inr (.inr (.inr (.inr ⟨k, by simp only [upd_other _ _ (hne k (by simp [hk]))]; exact hk⟩)))
      · exact h
    | _ => exact h
  | run t sp => exact inv_setter h t sp
  | wait =>
    simp only [State.step]
    cases hw : s.waiter with
    | out =>
      refine ⟨h.now, by simp, h.busy, h.busy', ?_, trivial, .inl trivial⟩
      intro hf
      rcases h.flag hf with e | e | e
      · exact .inl e
      · rw [hw] at e; cases e
      · exact .inr (.inr e)
    | _ => exact h
  | runW to => exact inv_waiter h to

theorem reach_inv {s : State} (h : Reach s) : Inv s := by
  induction h with
  | init now hn => exact inv_init now hn
  | step st _ ih => exact inv_step ih st

/-- **C54.** In every interleaving, whenever no `try_set_deadline` is in progress and the waiter
sleeps although a deadline is set, then either the semaphore is already posted (the sleep ends at
once), or the sleep is timed and ends no later than the deadline. -/
theorem C54_no_lost_wakeup {s : State} (h : Reach s) (hidle : ∀ t, s.setter t = .idle) {plan : Option Int}
    (hsleep : s.waiter = .sleep plan) (hdl : 0 ≤ s.dl) :
    0 < s.sem ∨ ∃ d, plan = some d ∧ 0 < d ∧ d ≤ s.dl := by
  have hi := reach_inv h
  rcases hi.cov with h1 | h1 | ⟨k, hk⟩ | ⟨k, hk⟩ | ⟨k, hk⟩
  · right
    unfold Covered at h1
    cases plan with
    | none => simp only [hsleep] at h1; omega
    | some d =>
      simp only [hsleep] at h1
      exact ⟨d, rfl, hi.plan d (by simp [hsleep]), by omega⟩
  · exact .inl h1
  all_goals (rw [hidle k] at hk; cases hk)

/-- Runs a schedule. -/
def State.exec (s : State) : List Step → State
  | [] => s
  | st :: l => (s.step st).exec l

theorem reach_exec {s : State} (h : Reach s) (l : List Step) : Reach (s.exec l) := by
  induction l generalizing s with
  | nil => exact h
  | cons st l ih => exact ih (.step st h)

/-- Non-vacuity: the waiter loads deadline 200; while it records that, another thread moves the
deadline to 150; the waiter then sleeps with the semaphore posted. -/
example : ∃ s, Reach s ∧ (∀ t, s.setter t = .idle) ∧ s.waiter = .sleep (some 200) ∧ s.dl = 150 ∧ s.sem = 1 := by
  refine ⟨_, reach_exec (.init 100 (by decide)) [.set 1 200, .run 1 false, .run 1 false, .wait, .runW false,
    .runW false, .runW false, .runW false, .set 2 150, .run 2 false, .run 2 false, .run 2 false, .run 2 false,
    .runW false, .runW false], ?_, rfl, rfl, rfl⟩
  intro t
  by_cases h1 : t = 1
  · subst h1; rfl
  · by_cases h2 : t = 2
    · subst h2; rfl
    · simp [State.exec, State.step, State.runSetter, State.runWaiter, upd, State.init, h1, h2]

/-- The waiter alone gets out of `wait_deadline` in at most `n` steps. -/
def Ends (n : Nat) (s : State) : Prop :=
  ∃ l : List Bool, l.length ≤ n ∧ (s.exec (l.map .runW)).waiter = .out

theorem ends_step {n : Nat} {s s' : State} (b : Bool) (he : s.runWaiter b = s') (h : Ends n s') : Ends (n + 1) s := by
  obtain ⟨l, hl, ho⟩ := h
  refine ⟨b :: l, by simpa using hl, ?_⟩
  rw [← he] at ho
  exact ho

theorem ends_mono {n m : Nat} {s : State} (h : Ends n s) (hm : n ≤ m) : Ends m s := by
  obtain ⟨l, hl, ho⟩ := h
  exact ⟨l, by omega, ho⟩

theorem ends_exitB {s : State} (hw : s.waiter = .exitB) : Ends 1 s :=
  ends_step false (by simp only [State.runWaiter, hw]; rfl) ⟨[], by simp, rfl⟩

theorem ends_exitA {s : State} (hw : s.waiter = .exitA) : Ends 2 s :=
  ends_step false (by simp only [State.runWaiter, hw]; rfl) (ends_exitB rfl)

theorem ends_load {s : State} (hb : s.dlBusy = none) (hd : 0 ≤ s.dl ∧ s.dl ≤ s.now) (hw : s.waiter = .load) :
    Ends 4 s := by
  refine ends_step (s' := { s with waiter := .check s.dl }) false ?_ ?_
  · simp only [State.runWaiter, hw, hb, if_true]
  · refine ends_step (s' := { s with waiter := .exitA }) false ?_ (ends_exitA rfl)
    have : s.dl ≥ 0 ∧ s.dl ≤ s.now := hd
    simp only [State.runWaiter, this, and_self, if_true]

theorem ends_resetting {s : State} (hb : s.dlBusy = none) (hd : 0 ≤ s.dl ∧ s.dl ≤ s.now)
    (hw : s.waiter = .resetting) : Ends 5 s :=
  ends_step (s' := { s with nw := -1, nwBusy := false, waiter := .load }) false
    (by simp only [State.runWaiter, hw]) (ends_load hb hd rfl)

theorem ends_reset {s : State} (hb : s.dlBusy = none) (hd : 0 ≤ s.dl ∧ s.dl ≤ s.now)
    (hw : s.waiter = .reset) : Ends 6 s :=
  ends_step (s' := { s with nwBusy := true, waiter := .resetting }) false
    (by simp only [State.runWaiter, hw]) (ends_resetting hb hd rfl)

theorem ends_woke {s : State} (hb : s.dlBusy = none) (hd : 0 ≤ s.dl ∧ s.dl ≤ s.now)
    (hw : s.waiter = .woke) : Ends 7 s :=
  ends_step (s' := { s with flag := false, waiter := .reset }) false
    (by simp only [State.runWaiter, hw]) (ends_reset hb hd rfl)

theorem ends_sleep {s : State} {plan : Option Int} (hb : s.dlBusy = none) (hd : 0 ≤ s.dl ∧ s.dl ≤ s.now)
    (hw : s.waiter = .sleep plan) (hc : 0 < s.sem ∨ ∃ d, plan = some d ∧ d ≤ s.dl) : Ends 8 s := by
  rcases hc with hs | ⟨d, rfl, hle⟩
  · refine ends_step (s' := { s with sem := s.sem - 1, waiter := .woke }) false ?_ (ends_woke hb hd rfl)
    have : s.sem > 0 := hs
    simp only [State.runWaiter, hw, this, if_true, Bool.false_eq_true, if_false]
  · refine ends_step (s' := { s with waiter := .woke }) true ?_ (ends_woke hb hd rfl)
    have : d ≤ s.now := by omega
    simp only [State.runWaiter, hw, this, if_true]

theorem ends_planB {s : State} {d : Int} (hb : s.dlBusy = none) (hd : 0 ≤ s.dl ∧ s.dl ≤ s.now)
    (hw : s.waiter = .planB d) (hc : 0 < s.sem ∨ d ≤ s.dl) : Ends 9 s :=
  ends_step (s' := { s with nw := d, nwBusy := false, waiter := .sleep (some d) }) false
    (by simp only [State.runWaiter, hw]) (ends_sleep hb hd rfl (hc.imp id fun e => ⟨d, rfl, e⟩))

theorem ends_planA {s : State} {d : Int} (hb : s.dlBusy = none) (hd : 0 ≤ s.dl ∧ s.dl ≤ s.now)
    (hw : s.waiter = .planA d) (hc : 0 < s.sem ∨ d ≤ s.dl) : Ends 10 s :=
  ends_step (s' := { s with nwBusy := true, waiter := .planB d }) false
    (by simp only [State.runWaiter, hw]) (ends_planB hb hd rfl hc)

/-- **C54, the wait ends.** When no `try_set_deadline` is in progress, the clock has reached the
deadline and the waiter is anywhere inside `wait_deadline`, then the waiter returns after at most
eleven of its own steps, without anybody else's help. -/
theorem C54_returns {s : State} (h : Reach s) (hidle : ∀ t, s.setter t = .idle)
    (hdl : 0 ≤ s.dl ∧ s.dl ≤ s.now) : ∃ l : List Bool, l.length ≤ 11 ∧ (s.exec (l.map .runW)).waiter = .out := by
  have hi := reach_inv h
  have hb : s.dlBusy = none := by
    cases hc : s.dlBusy with
    | none => rfl
    | some t =>
      obtain ⟨v, hv⟩ := hi.busy' t hc
      rw [hidle t] at hv; cases hv
  have hcov : Covered s ∨ 0 < s.sem := by
    rcases hi.cov with h1 | h1 | ⟨k, hk⟩ | ⟨k, hk⟩ | ⟨k, hk⟩
    · exact .inl h1
    · exact .inr h1
    all_goals (rw [hidle k] at hk; cases hk)
  have hplan : ∀ d, (s.waiter = .check d ∨ s.waiter = .planA d ∨ s.waiter = .planB d) → 0 < s.sem ∨ (0 ≤ d ∧ d ≤ s.dl) := by
    intro d hw
    rcases hcov with e | e
    · right
      rcases hw with hw | hw | hw <;> · simp only [Covered, hw] at e; omega
    · exact .inl e
  show Ends 11 s
  cases hw : s.waiter with
  | out => exact ⟨[], by simp, hw⟩
  | reset => exact ends_mono (ends_reset hb hdl hw) (by omega)
  | resetting => exact ends_mono (ends_resetting hb hdl hw) (by omega)
  | load => exact ends_mono (ends_load hb hdl hw) (by omega)
  | check d =>
    have hp := hplan d (.inl hw)
    by_cases hc : d ≥ 0 ∧ d ≤ s.now
    · refine ends_mono (ends_step (s' := { s with waiter := .exitA }) false ?_ (ends_exitA rfl)) (by omega)
      simp only [State.runWaiter, hw, hc, and_self, if_true]
    · by_cases hd : d > 0
      · refine ends_step (s' := { s with waiter := .planA d }) false ?_
          (ends_planA hb hdl rfl (hp.imp id And.right))
        simp only [State.runWaiter, hw, hc, if_false, hd, if_true]
      · refine ends_mono (ends_step (s' := { s with waiter := .sleep none }) false ?_
          (ends_sleep (plan := none) hb hdl rfl (.inl ?_))) (by omega)
        · simp only [State.runWaiter, hw, hc, if_false, hd]
        · rcases hp with e | e
          · exact e
          · omega
  | planA d => exact ends_mono (ends_planA hb hdl hw ((hplan d (.inr (.inl hw))).imp id And.right)) (by omega)
  | planB d => exact ends_mono (ends_planB hb hdl hw ((hplan d (.inr (.inr hw))).imp id And.right)) (by omega)
  | sleep plan =>
    refine ends_mono (ends_sleep hb hdl hw ?_) (by omega)
    rcases C54_no_lost_wakeup h hidle hw hdl.1 with e | ⟨d, e1, _, e2⟩
    · exact .inl e
    · exact .inr ⟨d, e1, e2⟩
  | woke => exact ends_mono (ends_woke hb hdl hw) (by omega)
  | exitA => exact ends_mono (ends_exitA hw) (by omega)
  | exitB => exact ends_mono (ends_exitB hw) (by omega)

/-- Non-vacuity of `C54_returns`: the clock reaches the deadline 150 while the waiter sleeps. -/
example : ∃ s, Reach s ∧ (∀ t, s.setter t = .idle) ∧ s.waiter = .sleep (some 150) ∧ s.dl = 150 ∧ s.now = 180 := by
  refine ⟨_, reach_exec (.init 100 (by decide)) [.set 1 150, .run 1 false, .run 1 false, .wait, .runW false,
    .runW false, .runW false, .runW false, .runW false, .runW false, .tick 80], ?_, rfl, rfl, rfl⟩
  intro t
  by_cases h1 : t = 1
  · subst h1; rfl
  · simp [State.exec, State.step, State.runSetter, State.runWaiter, upd, State.init, h1]

/-- **C54, not early.** The waiter leaves its loop only after it has loaded a deadline that had
been reached: whenever a step takes it to the exit, the deadline it holds is nonnegative and not
after the current time. -/
theorem C54_not_early {s : State} (to : Bool) (hbefore : s.waiter ≠ .exitA)
    (hafter : (s.step (.runW to)).waiter = .exitA) : ∃ d, s.waiter = .check d ∧ 0 ≤ d ∧ d ≤ s.now := by
  simp only [State.step, State.runWaiter] at hafter
  cases hw : s.waiter with
  | check d =>
    simp only [hw] at hafter
    split at hafter
    · rename_i hc; exact ⟨d, rfl, hc⟩
    · split at hafter <;> simp at hafter
  | load =>
    simp only [hw] at hafter
    split at hafter
    · simp at hafter
    · rw [hw] at hafter; cases hafter
  | sleep p =>
    simp only [hw] at hafter
    split at hafter
    · split at hafter
      · split at hafter
        · simp at hafter
        · rw [hw] at hafter; cases hafter
      · rw [hw] at hafter; cases hafter
    · split at hafter
      · simp at hafter
      · rw [hw] at hafter; cases hafter
  | exitA => exact absurd hw hbefore
  | _ => simp [hw] at hafter

/-- Non-vacuity of `C54_not_early`. -/
example : ∃ s, Reach s ∧ s.waiter ≠ .exitA ∧ (s.step (.runW false)).waiter = .exitA ∧ s.dl = 50 := by
  refine ⟨_, reach_exec (.init 100 (by decide)) [.set 1 50, .run 1 false, .run 1 false, .wait, .runW false,
    .runW false, .runW false], by decide, rfl, rfl⟩

/-- How many times the semaphore is posted during a history. -/
def posts : State → List Step → Nat
  | _, [] => 0
  | s, .run t sp :: l => (if s.setter t = .post then 1 else 0) + posts (s.step (.run t sp)) l
  | s, st :: l => posts (s.step st) l

/-- How many times the waiter wakes up from a sleep and looks at the deadline again. -/
def wakes : State → List Step → Nat
  | _, [] => 0
  | s, .runW to :: l => (if s.waiter = .woke then 1 else 0) + wakes (s.step (.runW to)) l
  | s, st :: l => wakes (s.step st) l

theorem posts_le (l : List Step) : ∀ (s : State) (L : List Nat), L.Nodup → (∀ t, s.setter t = .post ↔ t ∈ L) →
    posts s l ≤ (if s.flag then 0 else 1) + L.length + wakes s l := by
  induction l with
  | nil => intro s L _ _; simp [posts]
  | cons st l ih =>
    intro s L hnd hL
    cases st with
    | tick dt => exact ih _ L hnd hL
    | set t v =>
      simp only [posts, wakes]
      have key : ∀ s' : State, s'.flag = s.flag → (∀ k, s'.setter k = .post ↔ k ∈ L) →
          posts s' l ≤ (if s.flag then 0 else 1) + L.length + wakes s' l := by
        intro s' h1 h2
        have := ih s' L hnd h2
        rw [h1] at this; simpa using this
      have : posts (s.step (.set t v)) l ≤ (if s.flag then 0 else 1) + L.length + wakes (s.step (.set t v)) l := by
        apply key
        · simp only [State.step]; split
          · split <;> rfl
          · rfl
        · intro k
          rw [← hL k]
          simp only [State.step]
          split
          · rename_i hi
            split
            · by_cases hk : k = t
              · subst hk; simp [upd_same, hi]
              · simp [upd_other _ _ hk]
            · rfl
          · rfl
      simpa using this
    | wait =>
      simp only [posts, wakes]
      have := ih (s.step .wait) L hnd (by intro k; rw [← hL k]; simp only [State.step]; split <;> rfl)
      have hf : (s.step .wait).flag = s.flag := by simp only [State.step]; split <;> rfl
      rw [hf] at this; simpa using this
    | runW to =>
      simp only [posts, wakes]
      have hs : ∀ k, (s.step (.runW to)).setter k = s.setter k := by
        intro k; simp only [State.step, State.runWaiter]; split <;> (try split) <;> (try split) <;> (try split) <;> rfl
      have := ih (s.step (.runW to)) L hnd (by intro k; rw [hs k]; exact hL k)
      by_cases hw : s.waiter = .woke
      · rw [if_pos hw]
        have hf : (s.step (.runW to)).flag = false := by simp [State.step, State.runWaiter, hw]
        rw [hf] at this
        simp at this ⊢
        omega
      · rw [if_neg hw]
        have hf : (s.step (.runW to)).flag = s.flag := by
          simp only [State.step, State.runWaiter]
          split <;> (try split) <;> (try split) <;> (try split) <;> first | rfl | simp_all
        rw [hf] at this; simpa using this
    | run t sp =>
      simp only [posts, wakes]
      have same : ∀ s' : State, s.setter t ≠ .post → s'.flag = s.flag → (∃ v, v ≠ .post ∧ s'.setter = upd s.setter t v) →
          posts s' l ≤ (if s.flag then 0 else 1) + L.length + wakes s' l := by
        intro s' h0 h1 ⟨v, hv, h2⟩
        have := ih s' L hnd (by
          intro k
          rw [← hL k, h2]
          by_cases hk : k = t
          · subst hk; simp [upd_same, h0, hv]
          · simp [upd_other _ _ hk])
        rw [h1] at this; simpa using this
      cases hp : s.setter t with
      | idle =>
        have h1 : s.step (.run t sp) = s := by simp [State.step, State.runSetter, hp]
        rw [h1]
        have := ih s L hnd hL
        simpa using this
      | storing v =>
        have := same (s.step (.run t sp)) (by simp [hp]) (by simp [State.step, State.runSetter, hp])
          ⟨.check v, by simp, by simp [State.step, State.runSetter, hp]⟩
        simpa using this
      | check v =>
        have := same (s.step (.run t sp)) (by simp [hp])
          (by simp only [State.step, State.runSetter, hp]; split <;> split <;> rfl)
          (by
            simp only [State.step, State.runSetter, hp]
            split <;> split <;> first | exact ⟨.cas, by simp, rfl⟩ | exact ⟨.idle, by simp, rfl⟩)
        simpa using this
      | cas =>
        cases hf : s.flag with
        | true =>
          have := same (s.step (.run t sp)) (by simp [hp]) (by simp [State.step, State.runSetter, hp, hf])
            ⟨.idle, by simp, by simp [State.step, State.runSetter, hp, hf]⟩
          rw [hf] at this
          simpa using this
        | false =>
          have hnot : t ∉ L := by rw [← hL t, hp]; simp
          have h2 : s.step (.run t sp) = { s with flag := true, setter := upd s.setter t .post } := by
            simp [State.step, State.runSetter, hp, hf]
          have := ih (s.step (.run t sp)) (t :: L) (List.nodup_cons.2 ⟨hnot, hnd⟩) (by
            intro k
            rw [h2, List.mem_cons, ← hL k]
            by_cases hk : k = t
            · subst hk; simp [upd_same]
            · simp [upd_other _ _ hk, hk])
          rw [show (s.step (.run t sp)).flag = true by rw [h2]] at this
          simp at this ⊢
          omega
      | post =>
        have hin : t ∈ L := (hL t).1 hp
        have h2 : s.step (.run t sp) = { s with sem := s.sem + 1, setter := upd s.setter t .idle } := by
          simp [State.step, State.runSetter, hp]
        have := ih (s.step (.run t sp)) (L.erase t) (hnd.erase t) (by
          intro k
          rw [h2, hnd.mem_erase_iff, ← hL k]
          by_cases hk : k = t
          · subst hk; simp [upd_same]
          · simp [upd_other _ _ hk, hk])
        rw [show (s.step (.run t sp)).flag = s.flag by rw [h2]] at this
        have hlen := List.length_erase_of_mem hin
        have : 0 < L.length := List.length_pos_of_mem hin
        simp at *
        omega

/-- **C54** (the semaphore does not pile up). However many threads set the deadline however many
times, the semaphore is posted at most once more than the waiter wakes up. -/
theorem C54_posts_bounded (now : Int) (l : List Step) :
    posts (State.init now) l ≤ 1 + wakes (State.init now) l := by
  have := posts_le l (State.init now) [] List.nodup_nil (by intro t; simp [State.init])
  simpa [State.init] using this

/-- Non-vacuity: two threads set deadlines while the waiter sleeps; one post. -/
example : posts (State.init 5)
    ([.wait, .set 0 (-1), .run 0 false, .run 0 false] ++ List.replicate 5 (.runW false) ++
     [.set 1 9, .run 1 false, .run 1 false, .set 2 8, .run 2 false, .run 2 false, .run 1 false, .run 1 false,
      .run 2 false, .run 2 false]) = 1 := by decide

end Verif.Timer
