import Verif.NetLoop.Steps

/-!
# Network loop: events of the loop end
-/

namespace Verif.NetLoop

/-- Sum over a table. -/
def wsum {β : Type} (w : β → Nat) (f : Nat → Option β) : Nat → Nat
  | 0 => 0
  | n + 1 => wsum w f n + (match f n with | some x => w x | none => 0)

theorem wsum_ge {β : Type} (w : β → Nat) (f : Nat → Option β) (t : Nat) (v : β) : ∀ n, n ≤ t → wsum w (upd f t v) n = wsum w f n
  | 0, _ => rfl
  | n + 1, h => by
    unfold wsum
    rw [wsum_ge w f t v n (by omega), upd_ne _ _ (by omega)]

theorem wsum_upd {β : Type} (w : β → Nat) (f : Nat → Option β) (t : Nat) (x v : β) (hx : f t = some x) : ∀ n, t < n → wsum w (upd f t v) n + w x = wsum w f n + w v
  | 0, h => by omega
  | n + 1, h => by
    unfold wsum
    by_cases e : n = t
    · subst e
      rw [wsum_ge w f n v n (Nat.le_refl n), upd_same, hx]
      simp only
      omega
    · have := wsum_upd w f t x v hx n (by omega)
      rw [upd_ne _ _ e]
      omega

theorem wsum_new {β : Type} (w : β → Nat) (f : Nat → Option β) (n : Nat) (v : β) : wsum w (upd f n v) (n + 1) = wsum w f n + w v := by
  rw [wsum, wsum_ge w f n v n (Nat.le_refl n), upd_same]

/-- Events to come for a task. -/
def tw (x : Task) : Nat :=
  match x.st with
  | .pending => 4
  | .resolving => 1
  | _ => 0

/-- Events to come for a port. -/
def pw (y : Port) : Nat :=
  match y.life with
  | .terming _ => 2
  | .closing _ => 1
  | _ => 0

def b2n (b : Bool) : Nat := if b then 1 else 0

theorem b2n_le (b : Bool) : b2n b ≤ 1 := by cases b <;> simp [b2n]

/-- Events to come for the semaphores. -/
def semw : Bool → Nat → Nat
  | true, n => 2 + n
  | false, _ => 0

/-- Bound of the number of events to come. -/
def St.meas (s : St) : Nat :=
  wsum tw s.tk s.nt + wsum pw s.pt s.np + 3 * s.unsig.length + 2 * b2n s.sig + b2n s.awake + semw s.sems s.opened.length + b2n (!s.ended)

theorem finish_meas {s s' : St} {t : Nat} (h : s.finish t = .ok s') (ht : ∀ x, s.tk t = some x → t < s.nt) :
    ∃ x, s.tk t = some x ∧ s'.meas + tw x = s.meas := by
  unfold St.finish at h
  cases hx : s.tk t with
  | none => rw [hx] at h; cases h
  | some x =>
    rw [hx] at h
    simp only at h
    split at h
    · cases h
    · injection h with h
      subst h
      have := wsum_upd tw s.tk t x { x with st := .done, notes := x.notes + 1 } hx s.nt (ht x hx)
      refine ⟨x, rfl, ?_⟩
      simp only [St.meas, St.setTask]
      have e : tw { x with st := .done, notes := x.notes + 1 } = 0 := rfl
      omega

theorem asyncClose_meas {s s' : St} {p : Nat} {raw : Bool} {t : Option Nat} {b : Bool} (h : s.asyncClose p raw t = .ok (s', b)) (hb : ∀ y, s.pt p = some y → p < s.np) :
    s'.meas ≤ s.meas + 1 ∧ s'.tk = s.tk ∧ s'.nt = s.nt ∧ s'.np = s.np ∧ ∃ y y', s.pt p = some y ∧ s'.pt = upd s.pt p y' ∧ s'.meas + pw y = s.meas + pw y' ∧ pw y' ≤ 1 := by
  unfold St.asyncClose at h
  cases hy : s.pt p with
  | none => rw [hy] at h; cases h
  | some y =>
    rw [hy] at h
    simp only [bind, Except.bind] at h
    cases hc : y.asyncClose raw t with
    | error e => rw [hc] at h; cases h
    | ok r =>
      obtain ⟨y', st⟩ := r
      rw [hc] at h
      have hp : pw y' ≤ 1 := by
        unfold Port.asyncClose at hc
        split at hc
        · cases hc
        · cases hc
        · cases hc
        · split at hc
          · cases hc
          · split at hc
            · cases hc
            · split at hc
              all_goals
                injection hc with hc
                injection hc with hc _
                subst hc
                simp [pw]
        · split at hc
          all_goals
            injection hc with hc
            injection hc with hc _
            subst hc
            simp [pw]
      have := wsum_upd pw s.pt p y y' hy s.np (hb y hy)
      simp only at h
      split at h
      · split at h
        · cases h
        · injection h with h
          injection h with h _
          subst h
          refine ⟨?_, rfl, rfl, rfl, y, y', rfl, rfl, ?_, hp⟩ <;> simp only [St.meas, St.setPort] <;> omega
      · injection h with h
        injection h with h _
        subst h
        refine ⟨?_, rfl, rfl, rfl, y, y', rfl, rfl, ?_, hp⟩ <;> simp only [St.meas, St.setPort] <;> omega

theorem semw_mono (b : Bool) {m n : Nat} (h : m ≤ n + 1) : semw b m ≤ semw b n + 1 := by
  cases b <;> simp only [semw] <;> omega

theorem finishClosing_meas {s s' : St} {p : Nat} {t : Option Nat} (h : s.finishClosing p t = .ok s') (ht : ∀ u x, s.tk u = some x → u < s.nt) : s'.meas ≤ s.meas := by
  unfold St.finishClosing at h
  split at h
  · cases h
  · cases t with
    | none =>
      injection h with h
      subst h
      exact Nat.le_refl _
    | some t =>
      obtain ⟨x, _, e⟩ := finish_meas (s := { s with closing := s.closing.erase p }) h (ht t)
      have : ({ s with closing := s.closing.erase p } : St).meas = s.meas := rfl
      omega

theorem closeAll_meas : ∀ (n : Nat) {s s' : St}, s.sems = true → (∀ p y, s.pt p = some y → p < s.np) → s.closeAll n = .ok s' → s'.meas ≤ s.meas ∧ s'.sems = true ∧ s'.awake = s.awake
  | 0, s, s', hs, _, h => by
    injection h with h
    subst h
    exact ⟨Nat.le_refl _, hs, rfl⟩
  | n + 1, s, s', hs, hb, h => by
    unfold St.closeAll at h
    match ho : s.opened with
    | [] =>
      rw [ho] at h
      injection h with h
      subst h
      refine ⟨?_, hs, rfl⟩
      simp only [St.meas, ho]
      exact Nat.le_refl _
    | p :: ps =>
      rw [ho] at h
      simp only [bind, Except.bind] at h
      cases hc : ({ s with opened := ps } : St).asyncClose p false none with
      | error e => rw [hc] at h; cases h
      | ok r =>
        obtain ⟨s1, b⟩ := r
        rw [hc] at h
        obtain ⟨e1, e2, e3, e4, y, y', e5, e6, _⟩ := asyncClose_meas (s := { s with opened := ps }) hc (hb p)
        have hfl : s1.sems = s.sems ∧ s1.awake = s.awake := by
          simp only [St.asyncClose, bind, Except.bind] at hc
          rw [show s.pt p = some y from e5] at hc
          simp only at hc
          cases hc' : y.asyncClose false none with
          | error e => rw [hc'] at hc; cases hc
          | ok r =>
            rw [hc'] at hc
            simp only at hc
            split at hc
            · split at hc
              · cases hc
              · injection hc with hc
                injection hc with hc
                subst hc
                exact ⟨rfl, rfl⟩
            · injection hc with hc
              injection hc with hc
              subst hc
              exact ⟨rfl, rfl⟩
        have hb1 : ∀ q z, s1.pt q = some z → q < s1.np := by
          intro q z hz
          rw [e6] at hz
          rw [e4]
          rcases upd_cases hz with ⟨rfl, _⟩ | ⟨_, hz⟩
          · exact hb q y e5
          · exact hb q z hz
        obtain ⟨f1, f2, f3⟩ := closeAll_meas n (hfl.1.trans hs) hb1 h
        refine ⟨?_, f2, f3.trans hfl.2⟩
        have : ({ s with opened := ps } : St).meas + 1 = s.meas := by
          simp only [St.meas, hs, semw, ho, List.length_cons]
          omega
        omega

theorem setTask_np (s : St) (t : Nat) (x : Task) : (s.setTask t x).np = s.np := rfl

theorem proc_meas {s s' : St} (h : Full s) {r : Res} (hp : s.proc r = .ok s') : s'.meas < s.meas := by
  unfold St.proc at hp
  split at hp
  · cases hp
  · cases hq : s.queue with
    | nil => rw [hq] at hp; cases hp
    | cons t q =>
      obtain ⟨x, hx, hst, hqe⟩ := head_task h.inv hq
      have htn := h.inv.tkb t x hx
      have hw : tw x = 4 := by unfold tw; rw [hst]
      rw [hq] at hp
      simp only [hx] at hp
      rw [if_neg (by rw [hst]; simp)] at hp
      -- the state with a changed task
      have key : ∀ (s0 : St) (x' : Task), s0.tk = s.tk → s0.nt = s.nt → (s0.setTask t x').meas + 4 = s0.meas + tw x' := by
        intro s0 x' e1 e2
        have := wsum_upd tw s.tk t x x' hx s.nt htn
        simp only [St.meas, St.setTask, e1, e2]
        omega
      -- finish after a changed task that is pending
      have key2 : ∀ (s0 s1 : St) (x' : Task), s0.tk = s.tk → s0.nt = s.nt → x'.st = .pending → (s0.setTask t x').finish t = .ok s1 → s1.meas + 4 = s0.meas := by
        intro s0 s1 x' e1 e2 e3 e4
        have k1 := key s0 x' e1 e2
        have hs2 : (s0.setTask t x').nt = s.nt := e2
        obtain ⟨z, hz, k2⟩ := finish_meas e4 (fun _ _ => by rw [hs2]; exact htn)
        have hz' : (s0.setTask t x').tk t = some x' := upd_same _ _ _
        rw [hz'] at hz
        injection hz with hz
        subst hz
        have : tw x' = 4 := by unfold tw; rw [e3]
        omega
      have hq0 : ({ s with queue := q } : St).meas = s.meas := rfl
      cases hr : x.req with
      | add k =>
        rw [hr] at hp
        simp only at hp
        cases r with
        | noMem =>
          have := key2 { s with queue := q } s' { x with success := false } rfl rfl hst hp
          omega
        | openFail hb =>
          simp only [St.doAdd, bind, Except.bind, setTask_np, Nat.add_sub_cancel] at hp
          cases hc : (({ s with queue := q, pt := upd s.pt s.np ⟨k, .up, hb, 0⟩, np := s.np + 1 } : St).setTask t { x with success := false, port := some s.np }).asyncClose s.np true (some t) with
          | error e => rw [hc] at hp; cases hp
          | ok r =>
            obtain ⟨s1, b⟩ := r
            rw [hc] at hp
            obtain ⟨e1, e2, e3, e4, y, y', e5, e6, e7, e8⟩ := asyncClose_meas hc (fun _ _ => Nat.lt_succ_self _)
            have k1 := key { s with queue := q, pt := upd s.pt s.np ⟨k, .up, hb, 0⟩, np := s.np + 1 } { x with success := false, port := some s.np } rfl rfl
            have k2 : ({ s with queue := q, pt := upd s.pt s.np ⟨k, .up, hb, 0⟩, np := s.np + 1 } : St).meas = s.meas := by
              simp only [St.meas]
              rw [wsum_new]
              simp [pw]
            have k3 : tw { x with success := false, port := some s.np } = 4 := hw
            have hx1 : s1.tk t = some { x with success := false, port := some s.np } := by rw [e2]; exact upd_same _ _ _
            have hn1 : s1.nt = s.nt := e3
            simp only at hp
            split at hp
            · injection hp with hp
              subst hp
              have k4 := wsum_upd tw s1.tk t _ { x with success := false, port := some (s1.np - 1), st := .closing } hx1 s1.nt (by rw [hn1]; exact htn)
              have k5 : tw { x with success := false, port := some (s1.np - 1), st := .closing } = 0 := rfl
              have k6 : (s1.setTask t { x with success := false, port := some (s1.np - 1), st := .closing }).meas + 4 = s1.meas := by
                simp only [St.meas, St.setTask]
                omega
              omega
            · obtain ⟨z, hz, k4⟩ := finish_meas hp (fun _ _ => by rw [hn1]; exact htn)
              rw [hx1] at hz
              injection hz with hz
              subst hz
              omega
        | connFail =>
          simp only [St.doAdd, Nat.add_sub_cancel] at hp
          split at hp
          · cases hp
          · injection hp with hp
            subst hp
            have k1 := wsum_upd tw s.tk t x { x with success := false, port := some s.np, st := .closing } hx s.nt htn
            have k2 : tw { x with success := false, port := some s.np, st := .closing } = 0 := rfl
            simp only [St.meas, St.setTask]
            rw [wsum_new]
            have : pw ⟨k, .terming t, true, 0⟩ = 2 := rfl
            omega
        | ok =>
          simp only [St.doAdd, Nat.add_sub_cancel] at hp
          have k1 := key2 { s with queue := q, pt := upd s.pt s.np ⟨k, .up, true, 0⟩, np := s.np + 1, opened := s.opened ++ [s.np], numOpen := (s.opened ++ [s.np]).length } s'
            { x with success := true, port := some s.np } rfl rfl hst hp
          have k2 : ({ s with queue := q, pt := upd s.pt s.np ⟨k, .up, true, 0⟩, np := s.np + 1, opened := s.opened ++ [s.np], numOpen := (s.opened ++ [s.np]).length } : St).meas ≤ s.meas + 1 := by
            simp only [St.meas]
            rw [wsum_new]
            have : pw ⟨k, .up, true, 0⟩ = 0 := rfl
            have := semw_mono s.sems (m := (s.opened ++ [s.np]).length) (n := s.opened.length) (by simp)
            omega
          omega
        | result b => cases hp
        | async => cases hp
      | start p =>
        rw [hr] at hp
        simp only at hp
        cases r with
        | result b =>
          simp only [St.doStart] at hp
          split at hp
          · split at hp
            · cases hp
            · have := key2 { s with queue := q } s' { x with success := b } rfl rfl hst hp
              omega
          · cases hp
        | _ => cases hp
      | remove p =>
        rw [hr] at hp
        simp only [St.doRemove] at hp
        split at hp
        · cases hp
        · simp only [bind, Except.bind] at hp
          cases hc : (({ s with queue := q, opened := s.opened.erase p, numOpen := (s.opened.erase p).length } : St).setTask t { x with success := true }).asyncClose p false (some t) with
          | error e => rw [hc] at hp; cases hp
          | ok r =>
            obtain ⟨s1, b⟩ := r
            rw [hc] at hp
            obtain ⟨e1, e2, e3, e4, y, y', e5, e6, e7, e8⟩ := asyncClose_meas hc (fun y hy => h.inv.ptb p y hy)
            have k1 := key { s with queue := q, opened := s.opened.erase p, numOpen := (s.opened.erase p).length } { x with success := true } rfl rfl
            have k2 : ({ s with queue := q, opened := s.opened.erase p, numOpen := (s.opened.erase p).length } : St).meas ≤ s.meas + 1 := by
              simp only [St.meas]
              have := semw_mono s.sems (m := (s.opened.erase p).length) (n := s.opened.length) (by have := List.length_erase_le (l := s.opened) (a := p); omega)
              omega
            have k3 : tw { x with success := true } = 4 := hw
            have hx1 : s1.tk t = some { x with success := true } := by rw [e2]; exact upd_same _ _ _
            have hn1 : s1.nt = s.nt := e3
            simp only at hp
            split at hp
            · injection hp with hp
              subst hp
              have k4 := wsum_upd tw s1.tk t _ { x with success := true, st := .closing } hx1 s1.nt (by rw [hn1]; exact htn)
              have k5 : tw { x with success := true, st := .closing } = 0 := rfl
              have k6 : (s1.setTask t { x with success := true, st := .closing }).meas + 4 = s1.meas := by
                simp only [St.meas, St.setTask]
                omega
              omega
            · obtain ⟨z, hz, k4⟩ := finish_meas hp (fun _ _ => by rw [hn1]; exact htn)
              rw [hx1] at hz
              injection hz with hz
              subst hz
              omega
      | resolve =>
        rw [hr] at hp
        simp only at hp
        cases r with
        | result b =>
          have := key2 { s with queue := q } s' { x with success := b } rfl rfl hst hp
          omega
        | async =>
          injection hp with hp
          subst hp
          have := key { s with queue := q } { x with st := .resolving } rfl rfl
          have : tw { x with st := .resolving } = 1 := rfl
          omega
        | _ => cases hp

theorem step_meas {s s' : St} (h : Full s) {e : Ev} (hi : internal e = true) (hs : s.step e = .ok s') : s'.meas < s.meas := by
  cases e with
  | schedule r => cases hi
  | again t => cases hi
  | drop t => cases hi
  | userTerm p => cases hi
  | connOpen p => cases hi
  | connGone p => cases hi
  | destroy => cases hi
  | proc r => exact proc_meas h hs
  | signal t =>
    simp only [St.step, St.signal] at hs
    split at hs
    · cases hs
    · rename_i ht
      split at hs
      · cases hs
      · injection hs with hs
        subst hs
        have ht : t ∈ s.unsig := by simpa using ht
        have := List.length_erase_of_mem ht
        have : 0 < s.unsig.length := List.length_pos_of_mem ht
        simp only [St.meas, show b2n true = 1 from rfl]
        omega
  | wake =>
    simp only [St.step, St.wake] at hs
    split at hs
    · cases hs
    · rename_i hc
      have hc : s.awake = false ∧ s.sig = true ∧ s.sems = true := by
        simpa [not_or] using hc
      injection hs with hs
      subst hs
      simp only [St.meas, hc.1, hc.2.1, b2n]
      simp
  | sleep =>
    simp only [St.step, St.sleep] at hs
    split at hs
    · cases hs
    · rename_i hc
      have hc : s.awake = true := by simpa using hc
      split at hs
      · injection hs with hs
        subst hs
        simp only [St.meas, hc, b2n]
        simp
      · cases hs
  | closeDone p =>
    simp only [St.step, St.closeDone] at hs
    cases hy : s.pt p with
    | none => rw [hy] at hs; cases hs
    | some y =>
      rw [hy] at hs
      simp only at hs
      split at hs
      · rename_i t hl
        split at hs
        · cases hs
        · have k1 := finishClosing_meas hs (fun u x hu => h.inv.tkb u x hu)
          have k2 := wsum_upd pw s.pt p y { y with life := .closed } hy s.np (h.inv.ptb p y hy)
          have k3 : pw y = 1 := by unfold pw; rw [hl]
          have k4 : pw { y with life := .closed } = 0 := rfl
          have k5 : (s.setPort p { y with life := .closed }).meas + 1 = s.meas := by
            simp only [St.meas, St.setPort]
            omega
          omega
      · cases hs
  | termDone p =>
    simp only [St.step, St.termDone] at hs
    cases hy : s.pt p with
    | none => rw [hy] at hs; cases hs
    | some y =>
      rw [hy] at hs
      simp only at hs
      split at hs
      · rename_i t hl
        split at hs
        · cases hs
        · simp only [bind, Except.bind] at hs
          cases hc : (s.setPort p { y with life := .termd }).asyncClose p false (some t) with
          | error e => rw [hc] at hs; cases hs
          | ok r =>
            obtain ⟨s1, b⟩ := r
            rw [hc] at hs
            obtain ⟨e1, e2, e3, _⟩ := asyncClose_meas hc (fun _ _ => h.inv.ptb p y hy)
            have k2 := wsum_upd pw s.pt p y { y with life := .termd } hy s.np (h.inv.ptb p y hy)
            have k3 : pw y = 2 := by unfold pw; rw [hl]
            have k4 : pw { y with life := .termd } = 0 := rfl
            have k5 : (s.setPort p { y with life := .termd }).meas + 2 = s.meas := by
              simp only [St.meas, St.setPort]
              omega
            simp only at hs
            split at hs
            · injection hs with hs
              subst hs
              omega
            · have k6 := finishClosing_meas hs (fun u x hu => by rw [e2] at hu; rw [e3]; exact h.inv.tkb u x hu)
              omega
      · cases hs
  | resolved t b =>
    simp only [St.step, St.resolved] at hs
    cases hx : s.tk t with
    | none => rw [hx] at hs; cases hs
    | some x =>
      rw [hx] at hs
      simp only at hs
      split at hs
      · rename_i hst
        obtain ⟨z, hz, k1⟩ := finish_meas hs (fun _ _ => h.inv.tkb t x hx)
        have hz' : (s.setTask t { x with success := b }).tk t = some { x with success := b } := upd_same _ _ _
        rw [hz'] at hz
        injection hz with hz
        subst hz
        have k2 := wsum_upd tw s.tk t x { x with success := b } hx s.nt (h.inv.tkb t x hx)
        have k3 : tw { x with success := b } = tw x := rfl
        have k4 : tw x = 1 := by unfold tw; rw [hst]
        have k5 : (s.setTask t { x with success := b }).meas = s.meas := by
          simp only [St.meas, St.setTask]
          omega
        omega
      · cases hs
  | stopCb =>
    simp only [St.step, St.stopCb] at hs
    split at hs
    · cases hs
    · rename_i hc
      have hc : s.stopReq = true ∧ s.sems = true ∧ s.awake = false := by simpa [not_or] using hc
      simp only [bind, Except.bind] at hs
      cases hd : s.closeAll s.opened.length with
      | error e => rw [hd] at hs; cases hs
      | ok s1 =>
        rw [hd] at hs
        injection hs with hs
        subst hs
        obtain ⟨k1, k2, k3⟩ := closeAll_meas _ hc.2.1 (fun p y hy => h.inv.ptb p y hy) hd
        have : ({ s1 with sems := false, awake := true } : St).meas + 1 ≤ s1.meas := by
          simp only [St.meas, k2, k3, hc.2.2, semw, b2n]
          simp
          omega
        omega
  | finishDtor =>
    simp only [St.step, St.finishDtor] at hs
    split at hs
    · cases hs
    · rename_i hc
      have hc : s.ended = false := by
        cases e : s.ended with
        | true => exact absurd (Or.inl e) hc
        | false => rfl
      split at hs
      · cases hs
      · split at hs
        · cases hs
        · injection hs with hs
          subst hs
          simp only [St.meas, hc, b2n]
          simp

theorem internal_legal {s : St} {e : Ev} (hi : internal e = true) : Legal s e := by
  cases e <;> first | exact True.intro | cases hi

theorem runs_meas : ∀ (es : List Ev) {s s' : St}, Reach s → (∀ e ∈ es, internal e = true) → runs s es = .ok s' → es.length + s'.meas ≤ s.meas ∧ Reach s'
  | [], s, s', hr, _, h => by
    injection h with h
    subst h
    exact ⟨by simp, hr⟩
  | e :: es, s, s', hr, hi, h => by
    simp only [runs, bind, Except.bind] at h
    cases hs : s.step e with
    | error x => rw [hs] at h; cases h
    | ok s1 =>
      rw [hs] at h
      have hie := hi e (by simp)
      have k1 := step_meas (reach_full hr) hie hs
      obtain ⟨k2, k3⟩ := runs_meas es (hr.step e (internal_legal hie) hs) (fun e he => hi e (by simp [he])) h
      refine ⟨?_, k3⟩
      simp only [List.length_cons]
      omega

/-- A port being closed or terminated will report it. -/
theorem can_close {s : St} (h : Full s) {p : Nat} {y : Port} (hy : s.pt p = some y) (hc : cls y.life) : ∃ e s', internal e = true ∧ s.step e = .ok s' := by
  obtain ⟨g1, g2, g3, g4, g5, g6⟩ := h.inv.port p y hy
  have hpc := g2.2 hc
  have hpo : p ∉ s.opened := fun e => opn_not_cls (g1.1 e) hc
  have hfin : ∀ t, y.life = .closing t → ∃ s', s.step (.closeDone p) = .ok s' := by
    intro t hl
    simp only [St.step, St.closeDone, hy, hl]
    rw [if_neg (by simpa using hpc)]
    unfold St.finishClosing
    rw [if_neg (by simpa [St.setPort] using hpc)]
    cases t with
    | none => exact ⟨_, rfl⟩
    | some t =>
      obtain ⟨x, hx, hst, _⟩ := g3 t (hl ▸ Or.inr rfl)
      simp only [St.finish, St.setPort, hx]
      rw [if_neg (by rw [hst]; simp)]
      exact ⟨_, rfl⟩
  rcases hc with ⟨t, hl | hl⟩ | hl
  · refine ⟨.termDone p, ?_⟩
    have hh := (g4 (Or.inr ⟨t, hl⟩)).2
    simp only [St.step, St.termDone, hy, hl]
    rw [if_neg (by simpa using hpc)]
    simp only [St.asyncClose, St.setPort, upd_same, Port.asyncClose, hh, if_true, bind, Except.bind, hpc, not_true, and_false, if_false]
    exact ⟨_, rfl, rfl⟩
  · obtain ⟨s', e⟩ := hfin _ hl
    exact ⟨_, s', rfl, e⟩
  · obtain ⟨s', e⟩ := hfin _ hl
    exact ⟨_, s', rfl, e⟩

theorem good_not_bad {r : Except Err St} (h : Good r) (hb : r ≠ .error .bad) : ∃ s', r = .ok s' := by
  cases r with
  | ok s' => exact ⟨s', rfl⟩
  | error e => exact absurd (congrArg Except.error h) hb

theorem finish_ok {s : St} {t : Nat} {x : Task} (hx : s.tk t = some x) (hn : x.st ≠ .gone) : ∃ s', s.finish t = .ok s' := by
  simp only [St.finish, hx]
  rw [if_neg hn]
  exact ⟨_, rfl⟩

/-- An awake loop processes a task or ends. -/
theorem can_proc {s : St} (h : Full s) (ha : s.awake = true) : ∃ e s', internal e = true ∧ s.step e = .ok s' := by
  cases hq : s.queue with
  | nil =>
    refine ⟨.sleep, { s with awake := false }, rfl, ?_⟩
    simp [St.step, St.sleep, ha, hq]
  | cons t q =>
    obtain ⟨x, hx, hst, hqe⟩ := head_task h.inv hq
    have hng : x.st ≠ .gone := by rw [hst]; simp
    obtain ⟨_, _, t3⟩ := h.inv.task t x hx
    cases hr : x.req with
    | add k =>
      obtain ⟨s', e⟩ := finish_ok (s := ({ s with queue := q } : St).setTask t { x with success := false }) (t := t) (upd_same _ _ _) hng
      refine ⟨.proc .noMem, s', rfl, ?_⟩
      simp only [St.step, St.proc, hq, hx, hr]
      rw [if_neg (by simp [ha]), if_neg hng]
      exact e
    | start p =>
      obtain ⟨s', e⟩ := finish_ok (s := ({ s with queue := q } : St).setTask t { x with success := true }) (t := t) (upd_same _ _ _) hng
      rw [hr] at t3
      obtain ⟨y, hy, hl, hk⟩ := t3.2.2 hst
      refine ⟨.proc (.result true), s', rfl, ?_⟩
      simp only [St.step, St.proc, hq, hx, hr]
      rw [if_neg (by simp [ha]), if_neg hng]
      unfold St.doStart
      simp only [hy]
      rw [if_neg (by simp [hl, hk])]
      exact e
    | remove p =>
      obtain ⟨s', e, _⟩ := doRemove_ok h ha hq hx hr
      refine ⟨.proc .async, s', rfl, ?_⟩
      simp only [St.step, St.proc, hq, hx, hr]
      rw [if_neg (by simp [ha]), if_neg hng]
      exact e
    | resolve =>
      obtain ⟨s', e⟩ := finish_ok (s := ({ s with queue := q } : St).setTask t { x with success := true }) (t := t) (upd_same _ _ _) hng
      refine ⟨.proc (.result true), s', rfl, ?_⟩
      simp only [St.step, St.proc, hq, hx, hr]
      rw [if_neg (by simp [ha]), if_neg hng]
      exact e

/-- While a task is not finished, something can happen. -/
theorem can_task {s : St} (h : Full s) {t : Nat} {x : Task} (hx : s.tk t = some x) (hnf : ¬ fin x.st) : ∃ e s', internal e = true ∧ s.step e = .ok s' := by
  have hns : s.stopReq = false := by
    cases hs : s.stopReq with
    | false => rfl
    | true => exact absurd ((h.inv.stop hs).1 t x hx) hnf
  have hse : s.sems = true := by
    cases hs : s.sems with
    | true => rfl
    | false => rw [(h.inv.sems hs).1] at hns; cases hns
  cases hst : x.st with
  | pending =>
    have hq : s.queue ≠ [] := by
      intro e
      have := h.inv.q2 t x hx hst
      rw [e] at this
      cases this
    cases ha : s.awake with
    | true => exact can_proc h ha
    | false =>
      cases hg : s.sig with
      | true =>
        refine ⟨.wake, { s with awake := true, sig := false }, rfl, ?_⟩
        simp [St.step, St.wake, ha, hg, hse]
      | false =>
        have hu := h.inv.wk hse ha hg hq
        obtain ⟨u, us, hu⟩ := List.exists_cons_of_ne_nil hu
        refine ⟨.signal u, { s with sig := true, unsig := s.unsig.erase u }, rfl, ?_⟩
        simp [St.step, St.signal, hu, hse]
  | resolving =>
    obtain ⟨s', e⟩ := finish_ok (s := s.setTask t { x with success := true }) (t := t) (upd_same _ _ _) (by simp [hst])
    refine ⟨.resolved t true, s', rfl, ?_⟩
    simp only [St.step, St.resolved, hx]
    rw [if_pos hst]
    exact e
  | closing =>
    obtain ⟨p, y, hy, hp, hc⟩ := closing_port h.inv hx hst
    exact can_close h (by assumption) (clsFor_cls (by assumption))
  | done => exact absurd (Or.inl hst) hnf
  | gone => exact absurd (Or.inr hst) hnf

/-- While the destructor waits, something can happen. -/
theorem can_dtor {s : St} (h : Full s) (hs : s.stopReq = true) (he : s.ended = false) : ∃ e s', internal e = true ∧ s.step e = .ok s' := by
  cases ha : s.awake with
  | true => exact can_proc h ha
  | false =>
    cases hse : s.sems with
    | true =>
      obtain ⟨s', e, _⟩ := close_all _ h.inv hs rfl
      refine ⟨.stopCb, { s' with sems := false, awake := true }, rfl, ?_⟩
      simp only [St.step, St.stopCb]
      rw [if_neg (by simp [hs, hse, ha])]
      simp only [e, bind, Except.bind]
    | false =>
      by_cases hall : ∃ p y, s.pt p = some y ∧ y.life ≠ .closed
      · obtain ⟨p, y, hy, hl⟩ := hall
        obtain ⟨g1, g2, _⟩ := h.inv.port p y hy
        have hno : ¬ opn y.life := fun e => by
          have := g1.2 e
          rw [(h.inv.sems hse).2] at this
          cases this
        refine can_close h hy ?_
        cases hl' : y.life with
        | up => exact absurd (Or.inl hl') hno
        | termd => exact absurd (Or.inr hl') hno
        | terming t => exact Or.inl ⟨t, Or.inl rfl⟩
        | closing t => exact closing_cls t
        | closed => exact absurd hl' hl
      · have hcl : ∀ p y, s.pt p = some y → y.life = .closed := fun p y hy => by
          by_cases e : y.life = .closed
          · exact e
          · exact absurd ⟨p, y, hy, e⟩ hall
        have hnh : s.noHandles = true := by
          unfold St.noHandles
          simp only [Bool.and_eq_true, decide_eq_true_eq, List.all_eq_true]
          refine ⟨⟨⟨hse, ha⟩, fun p _ => ?_⟩, fun t _ => ?_⟩
          · cases hy : s.pt p with
            | none => rfl
            | some y => simp [hcl p y hy]
          · cases hx : s.tk t with
            | none => rfl
            | some x =>
              have := (h.inv.stop hs).1 t x hx
              rcases this with e | e <;> simp [e]
        obtain ⟨s', e⟩ := good_not_bad (good_finishDtor h) (by
          unfold St.finishDtor
          rw [if_neg (by simp [he, hnh])]
          split
          · simp
          · split
            · simp
            · simp)
        exact ⟨.finishDtor, s', rfl, e⟩

theorem finish_ended {s s' : St} {t : Nat} (h : s.finish t = .ok s') : s'.ended = s.ended ∧ s'.pt = s.pt := by
  unfold St.finish at h
  split at h
  · split at h
    · cases h
    · injection h with h
      subst h
      exact ⟨rfl, rfl⟩
  · cases h

theorem asyncClose_ended {s s' : St} {p : Nat} {raw : Bool} {t : Option Nat} {b : Bool} (h : s.asyncClose p raw t = .ok (s', b)) : s'.ended = s.ended := by
  unfold St.asyncClose at h
  split at h
  · cases h
  · rename_i y hy
    cases hc : y.asyncClose raw t with
    | error e => simp only [hc, bind, Except.bind] at h; cases h
    | ok r =>
      simp only [hc, bind, Except.bind] at h
      split at h
      · split at h
        · cases h
        · injection h with h
          injection h with h
          subst h
          rfl
      · injection h with h
        injection h with h
        subst h
        rfl

theorem finishClosing_ended {s s' : St} {p : Nat} {t : Option Nat} (h : s.finishClosing p t = .ok s') : s'.ended = s.ended := by
  unfold St.finishClosing at h
  split at h
  · cases h
  · cases t with
    | none => injection h with h; subst h; rfl
    | some t => exact (finish_ended h).1

theorem closeAll_ended : ∀ (n : Nat) {s s' : St}, s.closeAll n = .ok s' → s'.ended = s.ended
  | 0, s, s', h => by injection h with h; subst h; rfl
  | n + 1, s, s', h => by
    unfold St.closeAll at h
    split at h
    · injection h with h; subst h; rfl
    · rename_i p ps _
      cases hc : ({ s with opened := ps } : St).asyncClose p false none with
      | error e => simp only [hc, bind, Except.bind] at h; cases h
      | ok r =>
        simp only [hc, bind, Except.bind] at h
        have e1 := asyncClose_ended (b := r.2) hc
        exact (closeAll_ended n h).trans e1

theorem proc_ended {s s' : St} {r : Res} (h : s.proc r = .ok s') : s'.ended = s.ended := by
  unfold St.proc at h
  split at h
  · cases h
  · split at h
    · cases h
    · simp only at h
      split at h
      · cases h
      · split at h
        · cases h
        · split at h
          · cases r with
            | noMem => exact (finish_ended h).1
            | openFail b =>
              simp only [St.doAdd, bind, Except.bind] at h
              split at h
              · cases h
              · rename_i v hc
                have e1 := asyncClose_ended (b := v.2) hc
                split at h
                · injection h with h
                  subst h
                  exact e1
                · exact (finish_ended h).1.trans e1
            | connFail =>
              simp only [St.doAdd] at h
              split at h
              · cases h
              · injection h with h
                subst h
                rfl
            | ok => exact (finish_ended h).1
            | result b => cases h
            | async => cases h
          · cases r with
            | result b =>
              simp only [St.doStart] at h
              split at h
              · split at h
                · cases h
                · exact (finish_ended h).1
              · cases h
            | _ => cases h
          · simp only [St.doRemove] at h
            split at h
            · cases h
            · simp only [bind, Except.bind] at h
              split at h
              · cases h
              · rename_i v hc
                have e1 := asyncClose_ended (b := v.2) hc
                split at h
                · injection h with h
                  subst h
                  exact e1
                · exact (finish_ended h).1.trans e1
          · cases r with
            | result b => exact (finish_ended h).1
            | async => injection h with h; subst h; rfl
            | _ => cases h

theorem ended_closed {s : St} (h : Reach s) : s.ended = true → ∀ p y, s.pt p = some y → y.life = .closed := by
  induction h with
  | init => intro he; cases he
  | @step s s' hr e hl hs ih =>
    intro he
    have g := reach_full hr
    -- the step of a loop that is not destroyed
    have same : s'.ended = s.ended → (s.ended = true → s'.pt = s.pt) → ∀ p y, s'.pt p = some y → y.life = .closed := by
      intro h1 h2 p y hy
      have := h1.symm.trans he
      rw [h2 this] at hy
      exact ih this p y hy
    have live : s'.ended = s.ended → (s.ended = true → False) → ∀ p y, s'.pt p = some y → y.life = .closed := fun h1 h2 => same h1 (fun e => (h2 e).elim)
    have hsem : s.ended = true → s.stopReq = true ∧ s.sems = false ∧ s.queue = [] := by
      intro e
      have h1 := g.en e
      have h2 := (g.inv.sems h1).1
      refine ⟨h2, h1, ?_⟩
      rw [List.eq_nil_iff_forall_not_mem]
      intro t ht
      obtain ⟨x, hx, hst⟩ := g.inv.q1 t ht
      rcases (g.inv.stop h2).1 t x hx with e | e <;> rw [hst] at e <;> cases e
    cases e with
    | schedule r =>
      have hns : s.stopReq = false := by cases r <;> first | exact hl | exact hl.1
      simp only [St.step, St.schedule] at hs
      split at hs
      · cases hs
      · injection hs with hs
        subst hs
        exact same rfl (fun _ => rfl)
    | again t => exact hl.elim
    | signal t =>
      simp only [St.step, St.signal] at hs
      split at hs
      · cases hs
      · split at hs
        · cases hs
        · injection hs with hs
          subst hs
          exact same rfl (fun _ => rfl)
    | drop t =>
      simp only [St.step, St.drop] at hs
      split at hs
      · cases hs
      · split at hs
        · injection hs with hs
          subst hs
          exact same rfl (fun _ => rfl)
        · cases hs
        · cases hs
    | wake =>
      simp only [St.step, St.wake] at hs
      split at hs
      · cases hs
      · injection hs with hs
        subst hs
        exact same rfl (fun _ => rfl)
    | sleep =>
      simp only [St.step, St.sleep] at hs
      split at hs
      · cases hs
      · split at hs
        · injection hs with hs
          subst hs
          exact same rfl (fun _ => rfl)
        · cases hs
    | proc r =>
      refine live (proc_ended hs) (fun e => ?_)
      simp only [St.step, St.proc, (hsem e).2.2] at hs
      split at hs <;> cases hs
    | closeDone p =>
      simp only [St.step, St.closeDone] at hs
      split at hs
      · rename_i y hy
        split at hs
        · rename_i t hlf
          split at hs
          · cases hs
          · have e1 := finishClosing_ended hs
            refine live e1 (fun e => ?_)
            rw [ih e p y hy] at hlf
            cases hlf
        · cases hs
      · cases hs
    | termDone p =>
      simp only [St.step, St.termDone] at hs
      split at hs
      · rename_i y hy
        split at hs
        · rename_i t hlf
          have hno : s.ended = true → False := by
            intro e
            rw [ih e p y hy] at hlf
            cases hlf
          split at hs
          · cases hs
          · simp only [bind, Except.bind] at hs
            split at hs
            · cases hs
            · rename_i v hc
              have e1 := asyncClose_ended (b := v.2) hc
              split at hs
              · injection hs with hs
                subst hs
                exact live e1 hno
              · exact live ((finishClosing_ended hs).trans e1) hno
        · cases hs
      · cases hs
    | resolved t b =>
      simp only [St.step, St.resolved] at hs
      split at hs
      · split at hs
        · have := finish_ended hs
          exact same this.1 (fun _ => this.2)
        · cases hs
      · cases hs
    | userTerm p =>
      simp only [St.step, St.userTerm] at hs
      split at hs
      · rename_i y hy
        split at hs
        · rename_i hc
          injection hs with hs
          subst hs
          refine live rfl (fun e => ?_)
          have := hc.2
          rw [ih e p y hy] at this
          cases this
        · cases hs
      · cases hs
    | connOpen p =>
      simp only [St.step, St.connOpen] at hs
      split at hs
      · rename_i y hy
        split at hs
        · rename_i hc
          injection hs with hs
          subst hs
          refine live rfl (fun e => ?_)
          have := hc.2
          rw [ih e p y hy] at this
          cases this
        · cases hs
      · cases hs
    | connGone p =>
      simp only [St.step, St.connGone] at hs
      split at hs
      · rename_i y hy
        split at hs
        · rename_i hc
          injection hs with hs
          subst hs
          refine live rfl (fun e => ?_)
          have := ((g.inv.port p y hy).2.2.2.2.2 hc.2).1
          rw [ih e p y hy] at this
          cases this
        · cases hs
      · cases hs
    | destroy =>
      simp only [St.step, St.destroy] at hs
      split at hs
      · cases hs
      · injection hs with hs
        subst hs
        exact same rfl (fun _ => rfl)
    | stopCb =>
      simp only [St.step, St.stopCb] at hs
      split at hs
      · cases hs
      · rename_i hc
        simp only [bind, Except.bind] at hs
        split at hs
        · cases hs
        · rename_i v hv
          injection hs with hs
          subst hs
          have e1 := closeAll_ended _ hv
          exact live e1 (fun e => hc (Or.inr (Or.inl (hsem e).2.1)))
    | finishDtor =>
      simp only [St.step, St.finishDtor] at hs
      split at hs
      · cases hs
      · rename_i hc
        split at hs
        · cases hs
        · split at hs
          · cases hs
          · injection hs with hs
            subst hs
            intro p y hy
            have hnh : s.noHandles = true := by
              cases e : s.noHandles with
              | true => rfl
              | false => exact absurd (Or.inr e) hc
            unfold St.noHandles at hnh
            simp only [Bool.and_eq_true, decide_eq_true_eq, List.all_eq_true, List.mem_range] at hnh
            have := hnh.1.2 p (g.inv.ptb p y hy)
            rw [show s.pt p = some y from hy] at this
            simpa using this

end Verif.NetLoop
