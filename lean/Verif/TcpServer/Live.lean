import Verif.TcpServer.Steps
/-!
# TCP server port: termination and progress
-/
namespace Verif.TcpServer

/-- Callbacks that a connection still has to get. -/
def Ph.weight : Ph → Nat
  | .established | .connecting => 3
  | .terminating => 2
  | .closing | .terminated => 1
  | .opening | .closed => 0

/-- Callbacks that all connections still have to get. -/
def wsum (l : List Conn) : Nat := (l.map (·.ph.weight)).sum

/-- Measure that completions and terminations decrease. -/
def St.meas (s : St) : Nat := wsum s.conns + s.init.toNat

theorem sum_set (l : List Conn) (c : Nat) (x y : Conn) (h : l[c]? = some x) :
    wsum (l.set c y) + x.ph.weight = wsum l + y.ph.weight := by
  simp only [wsum]
  induction l generalizing c with
  | nil => simp at h
  | cons a l ih =>
    cases c with
    | zero =>
      simp only [List.getElem?_cons_zero, Option.some.injEq] at h
      subst h
      simp only [List.set_cons_zero, List.map_cons, List.sum_cons]; omega
    | succ c =>
      simp only [List.getElem?_cons_succ] at h
      have := ih c h
      simp only [List.set_cons_succ, List.map_cons, List.sum_cons]; omega

theorem closeServer_meas (s : St) : s.closeServer.1.meas = s.meas := by
  simp only [St.closeServer]
  split
  · rfl
  · split <;> rfl

theorem closeLast_meas (s : St) : s.closeLast.meas = s.meas := by
  simp only [St.closeLast]
  split
  · exact closeServer_meas s
  · rfl

theorem term_meas {s s' : St} {c : Nat} (h : s.term c = .ok s') : s'.meas < s.meas := by
  simp only [St.term] at h
  cases hx : s.conns[c]? with
  | none => simp [hx] at h
  | some x =>
    simp only [hx, Conn.terminate] at h
    by_cases h1 : x.ph = .terminating
    · rw [if_pos h1] at h; cases h
    · by_cases h2 : x.ph.usable = false
      · rw [if_neg h1, if_pos h2] at h; cases h
      · rw [if_neg h1, if_neg h2] at h
        simp only [bind, Except.bind, Except.ok.injEq] at h
        subst h
        have := sum_set s.conns c x { x with ph := .terminating } hx
        have h3 : x.ph.weight = 3 := by
          cases e : x.ph <;> simp_all [Ph.usable, Ph.weight]
        have h4 : ({ x with ph := .terminating } : Conn).ph.weight = 2 := rfl
        rw [h3, h4] at this
        simp only [St.meas, St.set]
        omega

theorem termDone_open {s : St} (l : L s) {c h : Nat} {x : Conn} (hx : s.conns[c]? = some x)
    (hp : x.ph = .terminating) (ht : x.thandler = some (some h)) :
    c ∈ s.opened ∧ s.termDone c = .ok { s with
      conns := s.conns.set c ⟨.closing, true, some (some h), true⟩
      opened := s.opened.erase c
      closing := s.closing ++ [c]
      refs := fun i => if i = h then s.refs i - 1 else s.refs i
      calls := s.calls ++ [.remove c h] } ∧ 0 < s.refs h := by
  rcases l.term_cases hx hp with ⟨hc, i, h1, h2, h3⟩ | ⟨hc, h1, h2, h3⟩
  · rw [ht] at h1; cases h1
    obtain ⟨n1, n2, n3⟩ := nodup_split l
    have hcc : c ∉ s.closing := n3 c hc
    have hf : s.hof c = some h := by simp [St.hof, hx, ht]
    have hr : s.refs h ≠ 0 := by
      rw [l.refs h]
      have : c ∈ s.opened.filter (fun d => s.hof d == some h) := by simp [hc, hf]
      intro e
      rw [List.length_eq_zero_iff.1 e] at this
      simp at this
    refine ⟨hc, ?_, by omega⟩
    simp only [St.termDone, hx, hp, ne_eq, not_true, if_false, ht, St.closeConn, Conn.close, h2, h3, bind,
      Except.bind, and_false, Bool.false_eq_true, if_true, St.set, hcc, not_false_eq_true, and_self, hr]
  · rw [ht] at h1; cases h1

theorem termDone_closing {s : St} (l : L s) {c : Nat} {x : Conn} (hx : s.conns[c]? = some x)
    (hp : x.ph = .terminating) (ht : x.thandler = some none) :
    c ∈ s.closing ∧ s.termDone c = .ok { s with
      conns := s.conns.set c ⟨.closing, true, some none, true⟩ } := by
  rcases l.term_cases hx hp with ⟨hc, i, h1, h2, h3⟩ | ⟨hc, h1, h2, h3⟩
  · rw [ht] at h1; cases h1
  · obtain ⟨n1, n2, n3⟩ := nodup_split l
    have hco : c ∉ s.opened := fun h => n3 c h hc
    refine ⟨hc, ?_⟩
    simp only [St.termDone, hx, hp, ne_eq, not_true, if_false, ht, St.closeConn, Conn.close, h2, h3, bind,
      Except.bind, and_false, Bool.false_eq_true, if_true, St.set, hc, List.erase_of_not_mem hco]

theorem term_handler {s : St} (l : L s) {c : Nat} {x : Conn} (hx : s.conns[c]? = some x)
    (hp : x.ph = .terminating) : (∃ h, x.thandler = some (some h)) ∨ x.thandler = some none := by
  rcases l.term_cases hx hp with ⟨hc, i, h1, h2, h3⟩ | ⟨hc, h1, h2, h3⟩
  · exact .inl ⟨i, h1⟩
  · exact .inr h1

theorem termDone_ph {s s' : St} {c : Nat} (h : s.termDone c = .ok s') :
    ∃ x, s.conns[c]? = some x ∧ x.ph = .terminating := by
  simp only [St.termDone] at h
  cases hx : s.conns[c]? with
  | none => simp [hx] at h
  | some x =>
    by_cases hp : x.ph = .terminating
    · exact ⟨x, rfl, hp⟩
    · simp [hx, hp] at h

theorem termDone_meas {s s' : St} (I : Inv s) {c : Nat} (h : s.termDone c = .ok s') : s'.meas < s.meas := by
  obtain ⟨x, hx, hp⟩ := termDone_ph h
  have w : x.ph.weight = 2 := by rw [hp]; rfl
  rcases term_handler I.l hx hp with ⟨i, ht⟩ | ht
  · rw [(termDone_open I.l hx hp ht).2.1] at h
    cases h
    have := sum_set s.conns c x ⟨.closing, true, some (some i), true⟩ hx
    rw [w, show (Ph.closing).weight = 1 from rfl] at this
    simp only [St.meas]
    omega
  · rw [(termDone_closing I.l hx hp ht).2] at h
    cases h
    have := sum_set s.conns c x ⟨.closing, true, some none, true⟩ hx
    rw [w, show (Ph.closing).weight = 1 from rfl] at this
    simp only [St.meas]
    omega

theorem closeDone_meas {s s' : St} {c : Nat} (h : s.closeDone c = .ok s') : s'.meas < s.meas := by
  simp only [St.closeDone] at h
  cases hx : s.conns[c]? with
  | none => simp [hx] at h
  | some x =>
    by_cases hp : x.ph = .closing
    · simp only [hx, hp, ne_eq, not_true, if_false] at h
      split at h
      · simp at h
      · simp only [Except.ok.injEq] at h
        subst h
        rw [closeLast_meas]
        have := sum_set s.conns c x { x with ph := .closed, sem := false } hx
        rw [show x.ph.weight = 1 by rw [hp]; rfl, show (Ph.closed).weight = 0 from rfl] at this
        simp only [St.meas, St.set]
        omega
    · simp [hx, hp] at h

theorem closeCb_meas {s s' : St} (I : Inv s) (h : s.closeCb = .ok s') : s'.meas < s.meas := by
  simp only [St.closeCb] at h
  by_cases h1 : s.init = false ∨ s.pclosing = false
  · rw [if_pos h1] at h; cases h
  · rw [if_neg h1] at h
    simp only [not_or, Bool.not_eq_false] at h1
    by_cases h2 : s.closed = true
    · have := (I.f.don h2).2.2.1; simp_all
    · rw [if_neg h2] at h
      cases h3 : s.chandler with
      | false => simp [h3] at h
      | true =>
        simp only [h3, Bool.true_eq_false, if_false, Except.ok.injEq] at h
        subst h
        simp [St.meas, h1.1]

theorem step_meas {s s' : St} (I : Inv s) {e : Ev} (he : e.completion ∨ ∃ c, e = .term c)
    (h : s.step e = .ok s') : s'.meas < s.meas := by
  simp only [St.step] at h
  split at h
  · cases h
  · rcases he with he | ⟨c, rfl⟩
    · cases e <;> simp only [Ev.completion] at he
      · exact termDone_meas I h
      · exact closeDone_meas h
      · exact closeCb_meas I h
    · exact term_meas h

theorem closeServer_gone (s : St) : s.closeServer.1.gone = s.gone := by
  simp only [St.closeServer]
  split
  · rfl
  · split <;> rfl

theorem closeConn_gone {s s' : St} {c : Nat} {x : Conn} (h : s.closeConn c x = .ok s') : s'.gone = s.gone := by
  simp only [St.closeConn, bind, Except.bind] at h
  split at h
  · cases h
  · split at h <;> (simp only [Except.ok.injEq] at h; subst h; rfl)

theorem terminateConn_gone {s s' : St} {c : Nat} {x : Conn} (h : s.terminateConn c x = .ok s') :
    s'.gone = s.gone := by
  simp only [St.terminateConn, bind, Except.bind] at h
  repeat' split at h
  all_goals first | (cases h; done) | (simp only [Except.ok.injEq] at h; subst h; rfl)

theorem step_gone {s s' : St} {e : Ev} (h : s.step e = .ok s') (he : e ≠ .destroy) : s'.gone = s.gone := by
  simp only [St.step] at h
  split at h
  · cases h
  · cases e with
    | opn r =>
      simp only [St.opn] at h
      split at h
      · cases h
      · split at h <;> (simp only [Except.ok.injEq] at h; subst h; rfl)
    | poll a =>
      simp only [St.poll, bind, Except.bind] at h
      split at h
      · cases h
      · split at h
        · simp only [Except.ok.injEq] at h; subst h; rfl
        · simp only [Except.ok.injEq] at h; subst h; rfl
        · have := closeConn_gone h; exact this
        · have := terminateConn_gone h; exact this
        · have := terminateConn_gone h; exact this
        · split at h
          · cases h
          · simp only [Except.ok.injEq] at h; subst h; rfl
    | term c =>
      simp only [St.term, bind, Except.bind] at h
      repeat' split at h
      all_goals first | (cases h; done) | (simp only [Except.ok.injEq] at h; subst h; rfl)
    | termDone c =>
      simp only [St.termDone, bind, Except.bind] at h
      split at h
      · cases h
      · split at h
        · cases h
        · split at h
          · simp only [Except.ok.injEq] at h; subst h; rfl
          · split at h
            · cases h
            · rename_i e
              have := closeConn_gone e
              split at h
              · simp only [Except.ok.injEq] at h; subst h; exact this
              · split at h
                · cases h
                · simp only [Except.ok.injEq] at h; subst h; exact this
    | closeDone c =>
      simp only [St.closeDone] at h
      split at h
      · cases h
      · split at h
        · cases h
        · split at h
          · cases h
          · simp only [Except.ok.injEq] at h
            subst h
            simp only [St.closeLast]
            split
            · rw [closeServer_gone]; rfl
            · rfl
    | close =>
      simp only [St.close] at h
      repeat' split at h
      all_goals first
        | (cases h; done)
        | (simp only [Except.ok.injEq] at h; subst h; first | rfl | (simp only [closeServer_gone]))
    | closeCb =>
      simp only [St.closeCb] at h
      repeat' split at h
      all_goals first | (cases h; done) | (simp only [Except.ok.injEq] at h; subst h; rfl)
    | destroy => exact absurd rfl he

theorem reach_gone {s : St} (h : Reach s) : s.gone = true → s.result = some false ∨ 0 < s.notes := by
  induction h with
  | start => intro h; cases h
  | @step s s' e _ hl he ih =>
    intro hg
    by_cases hd : e = .destroy
    · subst hd
      simp only [St.step] at he
      split at he
      · cases he
      · simp only [St.destroy] at he
        repeat' split at he
        all_goals first | (cases he; done) | (simp only [Except.ok.injEq] at he; subst he; exact hl)
    · rw [step_gone he hd] at hg
      simp [St.step, hg] at he

theorem can_term {s : St} (I : Inv s) {c : Nat} {x : Conn} (hx : s.conns[c]? = some x)
    (hp : x.ph = .terminating) : ∃ s', s.termDone c = .ok s' := by
  rcases term_handler I.l hx hp with ⟨i, ht⟩ | ht
  · exact ⟨_, (termDone_open I.l hx hp ht).2.1⟩
  · exact ⟨_, (termDone_closing I.l hx hp ht).2⟩

theorem can_close {s : St} (I : Inv s) {c : Nat} {x : Conn} (hx : s.conns[c]? = some x)
    (hp : x.ph = .closing) : ∃ s', s.closeDone c = .ok s' := by
  have hg := good_closeDone I c
  cases h : s.closeDone c with
  | ok s' => exact ⟨s', rfl⟩
  | error e =>
    rw [h] at hg
    cases e with
    | panic => exact absurd hg (by simp [Good])
    | bad =>
      exfalso
      simp only [St.closeDone, hx, hp, ne_eq, not_true, if_false] at h
      split at h <;> simp at h

theorem can_finish {s : St} (R : Reach s) (h1 : s.result = some true) (h2 : s.notes = 0) :
    (∃ c, s.held c) ∨ ∃ e s', e.completion ∧ s.step e = .ok s' := by
  have I := reach_inv R
  have h3 : s.closed = false := by
    cases e : s.closed with
    | false => rfl
    | true => have := (I.f.res1 h1).1; simp [e, h2] at this
  have hg : s.gone = false := by
    cases e : s.gone with
    | false => rfl
    | true =>
      rcases reach_gone R e with h | h
      · rw [h1] at h; cases h
      · omega
  have hh : ∀ e, s.step e = (match e with
    | .opn r => s.opn r
    | .poll a => s.poll a
    | .term c => s.term c
    | .termDone c => s.termDone c
    | .closeDone c => s.closeDone c
    | .close => s.close
    | .closeCb => s.closeCb
    | .destroy => s.destroy) := by intro e; simp only [St.step, hg, Bool.false_eq_true, if_false]; cases e <;> rfl
  by_cases hi : s.idle
  · have hp := (I.f.res1 h1).2.2 h3 hi
    have hin := (I.f.res1 h1).2.1 h3
    have hc : s.chandler = true := by rw [I.f.chd, h1]; rfl
    right
    refine ⟨.closeCb, { s with init := false, polling := false, sock := false, closed := true, notes := s.notes + 1 },
      trivial, ?_⟩
    rw [hh]
    simp [St.closeCb, hin, hp, h3, hc]
  · have : ∃ c, c ∈ s.opened ∨ c ∈ s.closing := by
      cases e1 : s.opened with
      | cons a l => exact ⟨a, by simp⟩
      | nil =>
        cases e2 : s.closing with
        | cons a l => exact ⟨a, by simp⟩
        | nil => exact absurd ⟨e1, e2⟩ hi
    obtain ⟨c, hc | hc⟩ := this
    · obtain ⟨x, h, hx, hp | hp, ht, _⟩ := I.l.op c hc
      · left
        refine ⟨c, ⟨h, ?_⟩, x, hx, hp⟩
        have := I.l.adds c h
        rw [if_pos (by simp [St.hof, hx, ht])] at this
        exact List.count_pos_iff.1 (by omega)
      · right
        obtain ⟨s', h'⟩ := can_term I hx hp
        exact ⟨.termDone c, s', trivial, by rw [hh]; exact h'⟩
    · right
      obtain ⟨x, hx, ⟨hp, _⟩ | ⟨hp, _⟩⟩ := I.l.cl c hc
      · obtain ⟨s', h'⟩ := can_term I hx hp
        exact ⟨.termDone c, s', trivial, by rw [hh]; exact h'⟩
      · obtain ⟨s', h'⟩ := can_close I hx hp
        exact ⟨.closeDone c, s', trivial, by rw [hh]; exact h'⟩

end Verif.TcpServer
