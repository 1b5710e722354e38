import Verif.TcpServer.Live
/-!
# C110: the TCP server gives every connection to its owner and takes it back
-/
namespace Verif.TcpServer

/-- A server that accepted connection 0 (handler 7), was refused connection 1 by its acceptor, and whose
user terminated connection 0. -/
def exEvents : List Ev :=
  [.opn .ok, .poll (.taken 7), .poll (.refused false), .term 0]

def exC0 : Conn := ⟨.established, true, some (some 7), false⟩
def exC1 : Conn := ⟨.terminating, true, some none, false⟩
def exT0 : Conn := ⟨.terminating, true, some (some 7), false⟩

def ex1 : St := { sock := true, init := true, polling := true, tried := true }
def ex2 : St := { ex1 with conns := [exC0], opened := [0], calls := [.add 0 (some 7)],
                           refs := fun i => if i = 7 then 0 + 1 else 0 }
def ex3 : St := { ex2 with conns := [exC0, exC1], closing := [1], calls := [.add 0 (some 7), .add 1 none] }
def ex4 : St := { ex3 with conns := [exT0, exC1] }

theorem ex_reach : Reach ex2 ∧ Reach ex4 := by
  have r1 : Reach ex1 := .step .start (e := .opn .ok) rfl rfl
  have r2 : Reach ex2 := .step r1 (e := .poll (.taken 7)) (by simp [Legal]) rfl
  have r3 : Reach ex3 := .step r2 (e := .poll (.refused false)) (by simp [Legal]) rfl
  refine ⟨r2, .step r3 (e := .term 0) ?_ rfl⟩
  exact ⟨⟨7, by simp [St.handed, ex3]⟩, exC0, rfl, rfl⟩

/-- **C110 (no abort, `_partial`)**: no call and no callback aborts, as long as the users follow `Legal`. Missing:
`C110_race_fails` and `C110_null_fails` show that the interfaces alone do not exclude an abort. -/
theorem C110_no_abort_partial {s : St} (R : Reach s) {e : Ev} (h : Legal s e) : aborts (s.step e) = false := by
  have := good_step (reach_inv R) h
  cases hs : s.step e with
  | ok s' => rfl
  | error x =>
    rw [hs] at this
    cases x with
    | panic => exact absurd this (by simp [Good])
    | bad => rfl

example : Reach ex4 ∧ Legal ex4 (.termDone 0) ∧ aborts (ex4.step (.termDone 0)) = false :=
  ⟨ex_reach.2, trivial, C110_no_abort_partial ex_reach.2 (e := .termDone 0) trivial⟩

/-- **C110 (once)**: a connection is given to the acceptor at most once, the acceptor gets back only what it
took, with the same handler and at most once. -/
theorem C110_once {s : St} (R : Reach s) (c : Nat) :
    (∀ a, s.calls.count (.add c a) ≤ 1) ∧ (∀ a b, Call.add c a ∈ s.calls → Call.add c b ∈ s.calls → a = b) ∧
      ∀ h, s.calls.count (.remove c h) ≤ s.calls.count (.add c (some h)) := by
  have l := (reach_inv R).l
  have ha : ∀ h, Call.add c (some h) ∈ s.calls → s.hof c = some h := by
    intro h hm
    have := List.count_pos_iff.2 hm
    rw [l.adds] at this
    split at this
    · assumption
    · omega
  refine ⟨?_, ?_, ?_⟩
  · intro a
    cases a with
    | none => exact (l.nones c).1
    | some h => rw [l.adds]; split <;> omega
  · intro a b h1 h2
    cases a with
    | none =>
      cases b with
      | none => rfl
      | some h => have := ((l.nones c).2 h1).2; rw [ha h h2] at this; cases this
    | some h =>
      cases b with
      | none => have := ((l.nones c).2 h2).2; rw [ha h h1] at this; cases this
      | some i => have := ha h h1; rw [ha i h2] at this; exact this.symm
  · intro h
    rw [l.adds, l.rems]
    split <;> split <;> simp_all

example : Reach ex4 ∧ Call.add 0 (some 7) ∈ ex4.calls ∧ Call.add 1 none ∈ ex4.calls :=
  ⟨ex_reach.2, by simp [ex4, ex3], by simp [ex4, ex3]⟩

theorem handed_iff {s : St} (l : L s) (c h : Nat) : s.handed c h ↔ s.hof c = some h := by
  have := l.adds c h
  rw [St.handed, ← List.count_pos_iff, this]
  split <;> simp_all

theorem removed_iff {s : St} (l : L s) (c h : Nat) : s.removed c h ↔ s.hof c = some h ∧ c ∉ s.opened := by
  have := l.rems c h
  rw [St.removed, ← List.count_pos_iff, this]
  split <;> simp_all

/-- **C110 (references)**: the server holds one reference to a connection handler for every connection that was
given to it and was not taken back, and no other. -/
theorem C110_refs {s : St} (R : Reach s) (h : Nat) :
    s.refs h = ((List.range s.conns.length).filter
      (fun c => decide (Call.add c (some h) ∈ s.calls ∧ Call.remove c h ∉ s.calls))).length := by
  have l := (reach_inv R).l
  obtain ⟨n1, n2, n3⟩ := nodup_split l
  rw [l.refs h]
  apply List.Perm.length_eq
  rw [List.perm_ext_iff_of_nodup (n1.filter _) (List.nodup_range.filter _)]
  intro c
  have h1 := handed_iff l c h
  have h2 := removed_iff l c h
  simp only [St.handed, St.removed] at h1 h2
  simp only [List.mem_filter, List.mem_range, decide_eq_true_eq, beq_iff_eq, h1, h2]
  constructor
  · intro ⟨a, b⟩
    exact ⟨l.lt (.inl a), b, fun x => x.2 a⟩
  · intro ⟨_, b, d⟩
    refine ⟨?_, b⟩
    exact Classical.byContradiction fun e => d ⟨b, e⟩

example : Reach ex4 ∧ ex4.refs 7 = 1 := ⟨ex_reach.2, rfl⟩

/-- **C110 (taken back)**: when the termination of a connection that the acceptor took is completed, the server
first releases its reference to the handler, then tells the acceptor to remove the connection; this did not
happen before; the connection is not usable any more. -/
theorem C110_removed {s s' : St} (R : Reach s) {c h : Nat} (hh : s.handed c h)
    (hs : s.step (.termDone c) = .ok s') :
    ¬ s.removed c h ∧ s'.calls = s.calls ++ [.remove c h] ∧ s'.refs h + 1 = s.refs h ∧
      ∃ x, s'.conns[c]? = some x ∧ x.ph = .closing := by
  have l := (reach_inv R).l
  have hs : s.termDone c = .ok s' := by
    simp only [St.step] at hs
    split at hs
    · cases hs
    · exact hs
  obtain ⟨x, hx, hp⟩ := termDone_ph hs
  have hf := (handed_iff l c h).1 hh
  rcases term_handler l hx hp with ⟨i, ht⟩ | ht
  · have : h = i := by simpa [St.hof, hx, ht] using hf.symm
    subst this
    obtain ⟨hc, he, hr⟩ := termDone_open l hx hp ht
    rw [he] at hs
    cases hs
    refine ⟨fun e => ((removed_iff l c h).1 e).2 hc, rfl, ?_, ⟨.closing, true, some (some h), true⟩, ?_, rfl⟩
    · simp only [if_true]; omega
    · have := (List.getElem?_eq_some_iff.1 hx).1
      simp [this]
  · simp [St.hof, hx, ht] at hf

example : ∃ s', ex4.step (.termDone 0) = .ok s' ∧ ex4.handed 0 7 :=
  ⟨_, rfl, by simp [St.handed, ex4, ex3]⟩

theorem closeServer_calls (s : St) : s.closeServer.1.calls = s.calls := by
  simp only [St.closeServer]
  split
  · rfl
  · split <;> rfl

theorem closeConn_calls {s s' : St} {c : Nat} {x : Conn} (h : s.closeConn c x = .ok s') : s'.calls = s.calls := by
  simp only [St.closeConn, bind, Except.bind] at h
  split at h
  · cases h
  · split at h <;> (simp only [Except.ok.injEq] at h; subst h; rfl)

theorem terminateConn_calls {s s' : St} {c : Nat} {x : Conn} (h : s.terminateConn c x = .ok s') :
    s'.calls = s.calls := by
  simp only [St.terminateConn, bind, Except.bind] at h
  repeat' split at h
  all_goals first | (cases h; done) | (simp only [Except.ok.injEq] at h; subst h; rfl)

/-- **C110 (only then)**: a connection is taken back from the acceptor only when its termination is completed, and
the termination of a connection is completed only after `async_terminate` was called for it. -/
theorem C110_only {s s' : St} (R : Reach s) {e : Ev} (hs : s.step e = .ok s') {c h : Nat} (h1 : s'.removed c h)
    (h2 : ¬ s.removed c h) : e = .termDone c ∧ ∃ x, s.conns[c]? = some x ∧ x.ph = .terminating := by
  have l := (reach_inv R).l
  simp only [St.step] at hs
  split at hs
  · cases hs
  · have same : s'.calls = s.calls → False := fun e => h2 (by rw [St.removed, ← e]; exact h1)
    cases e with
    | opn r =>
      exfalso; apply same
      simp only [St.opn] at hs
      split at hs
      · cases hs
      · split at hs <;> (simp only [Except.ok.injEq] at hs; subst hs; rfl)
    | poll a =>
      exfalso
      have key : (s'.calls = s.calls ∨ ∃ d a, s'.calls = s.calls ++ [.add d a]) → False := by
        rintro (e | ⟨d, a, e⟩)
        · exact same e
        · rw [St.removed, e] at h1
          simp at h1
          exact h2 h1
      apply key
      simp only [St.poll, bind, Except.bind] at hs
      split at hs
      · cases hs
      · split at hs
        · simp only [Except.ok.injEq] at hs; subst hs; exact .inl rfl
        · simp only [Except.ok.injEq] at hs; subst hs; exact .inl rfl
        · have := closeConn_calls hs; exact .inl this
        · have := terminateConn_calls hs; exact .inl this
        · have := terminateConn_calls hs; exact .inr ⟨_, _, this⟩
        · split at hs
          · cases hs
          · simp only [Except.ok.injEq] at hs; subst hs; exact .inr ⟨_, _, rfl⟩
    | term d =>
      exfalso; apply same
      simp only [St.term, bind, Except.bind] at hs
      repeat' split at hs
      all_goals first | (cases hs; done) | (simp only [Except.ok.injEq] at hs; subst hs; rfl)
    | termDone d =>
      replace hs : s.termDone d = .ok s' := hs
      obtain ⟨x, hx, hp⟩ := termDone_ph hs
      rcases term_handler l hx hp with ⟨i, ht⟩ | ht
      · rw [(termDone_open l hx hp ht).2.1] at hs
        cases hs
        simp only [St.removed, List.mem_append, List.mem_singleton, Call.remove.injEq] at h1
        rcases h1 with h1 | h1
        · exact absurd h1 h2
        · rw [h1.1]; exact ⟨rfl, x, hx, hp⟩
      · rw [(termDone_closing l hx hp ht).2] at hs
        cases hs
        exact absurd h1 h2
    | closeDone d =>
      exfalso; apply same
      simp only [St.closeDone] at hs
      split at hs
      · cases hs
      · split at hs
        · cases hs
        · split at hs
          · cases hs
          · simp only [Except.ok.injEq] at hs
            subst hs
            simp only [St.closeLast]
            split
            · rw [closeServer_calls]; rfl
            · rfl
    | close =>
      exfalso; apply same
      simp only [St.close] at hs
      repeat' split at hs
      all_goals first
        | (cases hs; done)
        | (simp only [Except.ok.injEq] at hs; subst hs; first | rfl | (simp only [closeServer_calls]))
    | closeCb =>
      exfalso; apply same
      simp only [St.closeCb] at hs
      repeat' split at hs
      all_goals first | (cases hs; done) | (simp only [Except.ok.injEq] at hs; subst hs; rfl)
    | destroy =>
      exfalso; apply same
      simp only [St.destroy] at hs
      repeat' split at hs
      all_goals first | (cases hs; done) | (simp only [Except.ok.injEq] at hs; subst hs; rfl)

example : ∃ s', ex4.step (.termDone 0) = .ok s' ∧ s'.removed 0 7 ∧ ¬ ex4.removed 0 7 :=
  ⟨_, rfl, by simp [St.removed, ex4, ex3], by simp [St.removed, ex4, ex3]⟩

/-- **C110 (where)**: a connection that is not closed is owned by exactly one of the two lists of the server: those
in the hands of the acceptor by the first, all others by the second. -/
theorem C110_owned {s : St} (R : Reach s) {c : Nat} {x : Conn} (hx : s.conns[c]? = some x)
    (hp : x.ph ≠ .closed) :
    (s.opened ++ s.closing).count c = 1 ∧ (c ∈ s.opened ↔ ∃ h, s.handed c h ∧ ¬ s.removed c h) := by
  have l := (reach_inv R).l
  have hm := l.all c x hx hp
  refine ⟨l.nd.count.trans (if_pos (List.mem_append.2 hm)), ?_⟩
  constructor
  · intro hc
    obtain ⟨y, h, hy, _, ht, _⟩ := l.op c hc
    have hf : s.hof c = some h := by simp [St.hof, hy, ht]
    exact ⟨h, (handed_iff l c h).2 hf, fun e => ((removed_iff l c h).1 e).2 hc⟩
  · rintro ⟨h, h1, h2⟩
    refine Classical.byContradiction fun e => h2 ?_
    exact (removed_iff l c h).2 ⟨(handed_iff l c h).1 h1, e⟩

example : Reach ex4 ∧ ex4.conns[0]? = some exT0 ∧ exT0.ph ≠ .closed := ⟨ex_reach.2, rfl, by decide⟩

/-- **C110 (result of close)**: `async_close` is completed at once, without a callback, when the poll handle does not
exist (`open` failed early); otherwise it is started. -/
theorem C110_close {s s' : St} (R : Reach s) (h : Legal s .close) (hs : s.step .close = .ok s') :
    s'.result = some s.init ∧ s'.notes = 0 ∧ (s.init = false → s'.closed = true ∧ s'.sock = false) := by
  have I := reach_inv R
  have R' : Reach s' := .step R h hs
  have I' := reach_inv R'
  obtain ⟨ht, hn, hr⟩ := h
  have f := I.f
  have hcl : s.closed = false := by
    cases e : s.closed with
    | false => rfl
    | true => have := (f.don e).1; rw [f.wnt, f.chd, hn] at this; cases this
  have hch : s.chandler = false := by rw [f.chd, hn]; rfl
  have hno := f.resn hn
  simp only [St.step] at hs
  split at hs
  · cases hs
  · have ho : s.opened.length = 0 := by
      refine Classical.byContradiction fun e => ?_
      have := good_close I ht hn hr
      simp [St.close, e, Good] at this
    simp only [St.close, ho, ne_eq, not_true, if_false, hch, Bool.false_eq_true, hcl, Nat.zero_add] at hs
    by_cases hc : s.closing.length = 0
    · simp only [hc, not_true, if_false, St.closeServer, Bool.false_eq_true] at hs
      cases hi : s.init with
      | false =>
        simp only [hi, if_true, Except.ok.injEq] at hs
        subst hs
        exact ⟨rfl, hno, fun _ => ⟨rfl, rfl⟩⟩
      | true =>
        simp only [hi, Bool.true_eq_false, if_false, Except.ok.injEq] at hs
        subst hs
        exact ⟨rfl, hno, fun e => by cases e⟩
    · simp only [hc, not_false_eq_true, if_true, Except.ok.injEq] at hs
      subst hs
      have : s.init = true := f.conn (fun e => hc (by rw [e.2]; rfl))
      exact ⟨by rw [this], hno, fun e => by rw [this] at e; cases e⟩

example : Reach { tried := true, sock := true } ∧ Legal { tried := true, sock := true } .close :=
  ⟨.step .start (e := .opn .noPoll) rfl rfl, rfl, rfl, by simp [St.handed]⟩
example : Reach ex1 ∧ Legal ex1 .close :=
  ⟨.step .start (e := .opn .ok) rfl rfl, rfl, rfl, by simp [St.handed, ex1]⟩

/-- **C110 (closed)**: the owner is notified at most once, and only of a close that was started; when the close is
completed, every connection is closed, the acceptor got everything back, no handler is referenced, and neither the
socket nor the poll handle is left. -/
theorem C110_closed {s : St} (R : Reach s) :
    s.notes ≤ 1 ∧ (s.notes = 1 → s.result = some true) ∧
      (s.result = some false ∨ s.notes = 1 →
        s.sock = false ∧ s.init = false ∧ (∀ h, s.refs h = 0) ∧ (∀ c h, s.handed c h → s.removed c h) ∧
          ∀ x ∈ s.conns, x.ph = .closed) := by
  obtain ⟨l, f⟩ := reach_inv R
  rcases hr : s.result with _ | _ | _
  · have := f.resn hr
    refine ⟨by omega, fun h => by omega, ?_⟩
    rintro (h | h)
    · cases h
    · omega
  all_goals
    have hn : s.notes ≤ 1 ∧ (s.notes = 1 → s.result = some true) := by
      first
        | (have := (f.res0 hr).2; exact ⟨by omega, fun h => by omega⟩)
        | (have := (f.res1 hr).1; refine ⟨by rw [this]; split <;> omega, fun _ => hr⟩)
    refine ⟨hn.1, fun h => hr.symm.trans (hn.2 h), fun h => ?_⟩
    have hc : s.closed = true := by
      first
        | exact (f.res0 hr).1
        | (have := (f.res1 hr).1
           rcases h with h | h
           · cases h
           · rw [h] at this; split at this
             · assumption
             · omega)
    obtain ⟨_, ⟨h1, h2⟩, h3, h4⟩ := f.don hc
    refine ⟨h4, h3, fun i => by rw [l.refs, h1]; rfl, ?_, ?_⟩
    · intro c i h
      exact (removed_iff l c i).2 ⟨(handed_iff l c i).1 h, by simp [h1]⟩
    · intro x hx
      obtain ⟨c, hc'⟩ := List.mem_iff_getElem?.1 hx
      refine Classical.byContradiction fun e => ?_
      have := l.all c x hc' e
      simp [h1, h2] at this

/-- The server of the examples after the user closed it and all completions. -/
def exC : List Ev :=
  [.opn .ok, .poll (.taken 7), .poll (.refused false), .term 0, .termDone 0, .close, .termDone 1, .closeDone 0,
   .closeDone 1, .closeCb]

def exDone : St :=
  { conns := [⟨.closed, false, some (some 7), true⟩, ⟨.closed, false, some none, true⟩]
    refs := fun i => if i = 7 then (if i = 7 then 0 + 1 else 0) - 1 else (if i = 7 then 0 + 1 else 0)
    pclosing := true, chandler := true, want := true, closed := true, tried := true
    calls := [.add 0 (some 7), .add 1 none, .remove 0 7], notes := 1, result := some true }

theorem runs_reach {s s' : St} {es : List Ev} (R : Reach s) (he : ∀ e ∈ es, e.completion)
    (h : runs s es = .ok s') : Reach s' := by
  induction es generalizing s with
  | nil => simp only [runs, Except.ok.injEq] at h; subst h; exact R
  | cons e es ih =>
    simp only [runs] at h
    cases hs : s.step e with
    | error x => simp [hs] at h
    | ok s1 =>
      simp only [hs] at h
      refine ih (.step R ?_ hs) (fun x hx => he x (by simp [hx])) h
      have := he e (by simp)
      cases e <;> simp only [Ev.completion] at this <;> trivial

def ex5 : St :=
  { conns := [⟨.closing, true, some (some 7), true⟩, exC1], closing := [1, 0]
    refs := fun i => if i = 7 then (if i = 7 then 0 + 1 else 0) - 1 else (if i = 7 then 0 + 1 else 0)
    sock := true, init := true, polling := true, tried := true
    calls := [.add 0 (some 7), .add 1 none, .remove 0 7] }
def ex6 : St := { ex5 with chandler := true, want := true, result := some true }

theorem ex_reach5 : Reach ex5 ∧ Reach ex6 ∧ Reach exDone := by
  have r5 : Reach ex5 := .step ex_reach.2 (e := .termDone 0) trivial rfl
  have r6 : Reach ex6 := by
    refine .step r5 (e := .close) ⟨rfl, rfl, ?_⟩ rfl
    intro c h hh
    simp [St.handed, ex5] at hh
    simp [St.removed, ex5, hh]
  exact ⟨r5, r6, runs_reach r6 (es := [.termDone 1, .closeDone 0, .closeDone 1, .closeCb])
    (by simp [Ev.completion]) rfl⟩

example : Reach exDone ∧ exDone.notes = 1 ∧ (runs {} exC).toOption.isSome = true := ⟨ex_reach5.2.2, rfl, rfl⟩

/-- **C110 (destroyed)**: the server can be destroyed when its close is completed. -/
theorem C110_destroy {s : St} (R : Reach s) (hg : s.gone = false) (h : s.result = some false ∨ 0 < s.notes) :
    ∃ s', s.step .destroy = .ok s' := by
  have := good_destroy (reach_inv R) h
  simp only [St.step, hg, Bool.false_eq_true, if_false]
  cases hd : s.destroy with
  | ok s' => exact ⟨s', rfl⟩
  | error e =>
    rw [hd] at this
    cases e with
    | panic => exact absurd this (by simp [Good])
    | bad =>
      simp only [St.destroy] at hd
      repeat' split at hd
      all_goals cases hd

example : Reach exDone ∧ exDone.gone = false ∧ (exDone.result = some false ∨ 0 < exDone.notes) :=
  ⟨ex_reach5.2.2, rfl, .inr (by decide)⟩

theorem term_inv {s s' : St} (I : Inv s) {c : Nat} (h : s.term c = .ok s') : Inv s' := by
  cases hx : s.conns[c]? with
  | none => simp [St.term, hx] at h
  | some x =>
    by_cases hp : x.ph = .established
    · have := good_term I hx hp
      rw [h] at this
      exact this
    · exfalso
      have hu : x.ph = .connecting := by
        simp only [St.term, hx, Conn.terminate] at h
        by_cases h1 : x.ph = .terminating
        · rw [if_pos h1] at h; cases h
        · by_cases h2 : x.ph.usable = false
          · rw [if_neg h1, if_pos h2] at h; cases h
          · revert hp h1 h2
            cases x.ph <;> simp [Ph.usable]
      rcases I.l.all c x hx (by simp [hu]) with h | h
      · obtain ⟨y, _, hy, h1, _⟩ := I.l.op c h
        rw [hx] at hy; cases hy
        simp [hu] at h1
      · obtain ⟨y, hy, h1⟩ := I.l.cl c h
        rw [hx] at hy; cases hy
        simp [hu] at h1

theorem runs_meas {s s' : St} (I : Inv s) {es : List Ev}
    (he : ∀ e ∈ es, e.completion ∨ ∃ c, e = .term c) (h : runs s es = .ok s') :
    es.length + s'.meas ≤ s.meas := by
  induction es generalizing s with
  | nil => simp only [runs, Except.ok.injEq] at h; subst h; simp
  | cons e es ih =>
    simp only [runs] at h
    cases hs : s.step e with
    | error x => simp [hs] at h
    | ok s1 =>
      simp only [hs] at h
      have h1 := step_meas I (he e (by simp)) hs
      have I1 : Inv s1 := by
        rcases he e (by simp) with hc | ⟨c, rfl⟩
        · have hl : Legal s e := by cases e <;> simp only [Ev.completion] at hc <;> trivial
          have := good_step I hl
          rw [hs] at this
          exact this
        · simp only [St.step] at hs
          split at hs
          · cases hs
          · exact term_inv I hs
      have h2 := ih I1 (fun x hx => he x (by simp [hx])) h
      simp only [List.length_cons]
      omega

theorem wsum_le (l : List Conn) : wsum l ≤ 3 * l.length := by
  induction l with
  | nil => simp [wsum]
  | cons x l ih =>
    simp only [wsum, List.map_cons, List.sum_cons, List.length_cons] at ih ⊢
    have : x.ph.weight ≤ 3 := by cases x.ph <;> decide
    omega

/-- **C110 (bounded)**: without new connections the server has finitely many steps: at most three for every
connection (its termination by the user, the completion of the termination and of its close) and one for the server. -/
theorem C110_bounded {s s' : St} (R : Reach s) {es : List Ev}
    (he : ∀ e ∈ es, e.completion ∨ ∃ c, e = .term c) (h : runs s es = .ok s') :
    es.length ≤ 3 * s.conns.length + 1 := by
  have h1 := runs_meas (reach_inv R) he h
  have h2 := wsum_le s.conns
  have h3 : s.init.toNat ≤ 1 := by cases s.init <;> decide
  simp only [St.meas] at h1
  omega

example : Reach ex6 ∧ runs ex6 [.termDone 1, .closeDone 0, .closeDone 1, .closeCb] = .ok exDone :=
  ⟨ex_reach5.2.1, rfl⟩

/-- **C110 (progress)**: as long as a close that was started is not completed, the user holds a connection that they
did not terminate, or libuv has a callback to deliver. -/
theorem C110_progress {s : St} (R : Reach s) (h1 : s.result = some true) (h2 : s.notes = 0) :
    (∃ c, s.held c) ∨ ∃ e s', e.completion ∧ s.step e = .ok s' := can_finish R h1 h2

example : Reach ex6 ∧ ex6.result = some true ∧ ex6.notes = 0 := ⟨ex_reach5.2.1, rfl, rfl⟩

theorem closeServer_conns (s : St) : s.closeServer.1.conns = s.conns ∧ s.closeServer.1.calls = s.calls ∧
    s.closeServer.1.result = s.result ∧ s.closeServer.1.notes = s.notes := by
  simp only [St.closeServer]
  split
  · simp
  · split <;> simp

theorem held_back {s s' : St} (I : Inv s) {e : Ev} (he : e.completion) (hs : s.step e = .ok s') :
    s'.result = s.result ∧ ∀ c, s'.held c → s.held c := by
  have l := I.l
  simp only [St.step] at hs
  split at hs
  · cases hs
  · cases e <;> simp only [Ev.completion] at he
    · rename_i d
      replace hs : s.termDone d = .ok s' := hs
      obtain ⟨x, hx, hp⟩ := termDone_ph hs
      have hlt := (List.getElem?_eq_some_iff.1 hx).1
      rcases term_handler l hx hp with ⟨i, ht⟩ | ht
      · rw [(termDone_open l hx hp ht).2.1] at hs
        cases hs
        refine ⟨rfl, ?_⟩
        rintro c ⟨⟨h, h1⟩, y, h2, h3⟩
        simp only [List.getElem?_set] at h2
        refine ⟨⟨h, by simpa [St.handed] using h1⟩, y, ?_, h3⟩
        split at h2
        · simp only [Option.some.injEq] at h2
          subst h2; cases h3
        · exact h2
      · rw [(termDone_closing l hx hp ht).2] at hs
        cases hs
        refine ⟨rfl, ?_⟩
        rintro c ⟨h1, y, h2, h3⟩
        simp only [List.getElem?_set] at h2
        refine ⟨h1, y, ?_, h3⟩
        split at h2
        · simp only [Option.some.injEq] at h2
          subst h2; cases h3
        · exact h2
    · rename_i d
      simp only [St.closeDone] at hs
      split at hs
      · cases hs
      · rename_i x hx
        have hlt := (List.getElem?_eq_some_iff.1 hx).1
        split at hs
        · cases hs
        · split at hs
          · cases hs
          · simp only [Except.ok.injEq] at hs
            subst hs
            have key : ∀ t : St, t.closeLast.conns = t.conns ∧ t.closeLast.calls = t.calls ∧
                t.closeLast.result = t.result := by
              intro t
              simp only [St.closeLast]
              split
              · obtain ⟨a, b, c, _⟩ := closeServer_conns t
                exact ⟨a, b, c⟩
              · simp
            refine ⟨by rw [(key _).2.2]; rfl, ?_⟩
            rintro c ⟨⟨h, h1⟩, y, h2, h3⟩
            rw [St.handed, (key _).2.1] at h1
            rw [(key _).1] at h2
            simp only [St.set, List.getElem?_set] at h2
            refine ⟨⟨h, h1⟩, y, ?_, h3⟩
            split at h2
            · simp only [Option.some.injEq] at h2
              subst h2; cases h3
            · exact h2
    · simp only [St.closeCb] at hs
      repeat' split at hs
      all_goals first
        | (cases hs; done)
        | (simp only [Except.ok.injEq] at hs; subst hs; exact ⟨rfl, fun c h => h⟩)

/-- **C110 (completes)**: when the user has terminated all connections they got, the callbacks that libuv delivers
complete the close: in any order, they end after finitely many (`C110_bounded`), and only when the owner is notified
(`C110_progress`); in particular some of them notify the owner. -/
theorem C110_completes {s : St} (R : Reach s) (h1 : s.result = some true) (h2 : ∀ c, ¬ s.held c)
    (h3 : s.notes = 0) : ∃ es s', (∀ e ∈ es, e.completion) ∧ runs s es = .ok s' ∧ s'.notes = 1 := by
  suffices ∀ n (s : St), s.meas = n → Reach s → s.result = some true → (∀ c, ¬ s.held c) → s.notes = 0 →
      ∃ es s', (∀ e ∈ es, e.completion) ∧ runs s es = .ok s' ∧ s'.notes = 1 from this _ s rfl R h1 h2 h3
  intro n
  induction n using Nat.strongRecOn with
  | ind n ih =>
    intro s hm R h1 h2 h3
    rcases can_finish R h1 h3 with ⟨c, hc⟩ | ⟨e, s1, he, hs⟩
    · exact absurd hc (h2 c)
    · have hl : Legal s e := by cases e <;> simp only [Ev.completion] at he <;> trivial
      have R1 : Reach s1 := .step R hl hs
      obtain ⟨k1, k2⟩ := held_back (reach_inv R) he hs
      have hn := (C110_closed R1).1
      by_cases h0 : s1.notes = 0
      · obtain ⟨es, s', g1, g2, g3⟩ := ih s1.meas (hm ▸ step_meas (reach_inv R) (.inl he) hs) s1 rfl R1
          (k1.trans h1) (fun c hc => h2 c (k2 c hc)) h0
        refine ⟨e :: es, s', ?_, ?_, g3⟩
        · intro x hx
          rcases List.mem_cons.1 hx with hx | hx
          · rw [hx]; exact he
          · exact g1 x hx
        · simp only [runs, hs]; exact g2
      · refine ⟨[e], s1, by simpa using he, ?_, by omega⟩
        simp only [runs, hs]

example : Reach ex6 ∧ ex6.result = some true ∧ (∀ c, ¬ ex6.held c) ∧ ex6.notes = 0 := by
  refine ⟨ex_reach5.2.1, rfl, ?_, rfl⟩
  rintro c ⟨⟨h, hh⟩, x, hx, hp⟩
  simp [St.handed, ex6, ex5] at hh
  obtain ⟨rfl, rfl⟩ := hh
  simp only [ex6, ex5, List.getElem?_cons_zero, Option.some.injEq] at hx
  subst hx
  cases hp

/-- **C110 (close and accept, fails)**: `async_close` runs later than the user asks for it; a connection that the
acceptor takes in between makes it abort, whatever the server did before. -/
theorem C110_race_fails {s : St} (R : Reach s) (h1 : s.polling = true) (h2 : s.pclosing = false) (h : Nat) :
    ∃ s', s.step (.poll (.taken h)) = .ok s' ∧ aborts (s'.step .close) = true := by
  have hg : s.gone = false := by
    cases e : s.gone with
    | false => rfl
    | true =>
      have h3 := (reach_inv R).f.poll h1
      have h4 := reach_gone R e
      have h5 : s.result = some false ∨ s.notes = 1 := by
        rcases h4 with h4 | h4
        · exact .inl h4
        · have := (C110_closed R).1; right; omega
      have := ((C110_closed R).2.2 h5).2.1
      simp_all
  refine ⟨{ s with conns := s.conns ++ [⟨.established, true, some (some h), false⟩],
                   calls := s.calls ++ [.add s.conns.length (some h)],
                   refs := fun i => if i = h then s.refs i + 1 else s.refs i,
                   opened := s.opened ++ [s.conns.length] }, ?_, ?_⟩
  · simp [St.step, hg, St.poll, h1, h2, Conn.attach, Ph.usable, bind, Except.bind]
  · simp [St.step, hg, St.close, aborts]

example : Reach ex1 ∧ ex1.polling = true ∧ ex1.pclosing = false ∧ Legal ex1 .close :=
  ⟨.step .start (e := .opn .ok) rfl rfl, rfl, rfl, rfl, rfl, by simp [St.handed, ex1]⟩

/-- **C110 (null, fails)**: an acceptor that terminates the connection it was given and returns null makes the
server abort. -/
theorem C110_null_fails {s : St} (R : Reach s) (h1 : s.polling = true) (h2 : s.pclosing = false)
    (hg : s.gone = false) : aborts (s.step (.poll (.refused true))) = true := by
  have l := (reach_inv R).l
  have n2 : s.conns.length ∉ s.closing := fun e => by have := l.lt (.inr e); omega
  simp [St.step, hg, St.poll, h1, h2, St.terminateConn, n2, Conn.attach, Conn.terminate, Ph.usable, bind,
    Except.bind, aborts]

/-- **C110 (misuse)**: destroying a server that was opened and is not closed aborts, as long as its socket or a
connection is left; terminating a connection twice aborts. -/
theorem C110_misuse {s : St} (hg : s.gone = false) :
    (s.sock = true ∨ s.init = true ∨ s.opened ≠ [] ∨ s.closing ≠ [] → aborts (s.step .destroy) = true) ∧
      ∀ c s', s.step (.term c) = .ok s' → aborts (s'.step (.term c)) = true := by
  constructor
  · intro h
    simp only [St.step, hg, Bool.false_eq_true, if_false, St.destroy]
    split
    · rfl
    · rename_i h1
      split
      · rfl
      · rename_i h2
        rw [if_pos]
        · rfl
        · have h1 : s.opened = [] := by simpa using h1
          have h2 : s.closing = [] := by simpa using h2
          rcases h with h | h | h | h
          · exact .inr h
          · exact .inl h
          · exact absurd h1 h
          · exact absurd h2 h
  · intro c s' h
    simp only [St.step, hg, Bool.false_eq_true, if_false, St.term] at h
    cases hx : s.conns[c]? with
    | none => rw [hx] at h; cases h
    | some x =>
      rw [hx] at h
      simp only [Conn.terminate, bind, Except.bind] at h
      have hc : c < s.conns.length := (List.getElem?_eq_some_iff.1 hx).1
      repeat' split at h
      all_goals first
        | (cases h; done)
        | skip
      rename_i y hy
      repeat' split at hy
      all_goals first
        | (cases hy; done)
        | skip
      simp only [Except.ok.injEq] at h hy
      subst h
      subst hy
      simp [St.step, hg, St.term, St.set, hc, Conn.terminate, bind, Except.bind, aborts]

example : aborts (ex1.step .destroy) = true := (C110_misuse (s := ex1) rfl).1 (.inl rfl)

/-- A server that waits for its last connection, which was refused. -/
structure Wait (s : St) (k : Nat) : Prop where
  op : s.opened = []
  cl : s.closing = [k]
  len : s.conns.length = k + 1
  last : s.conns[k]? = some exC1
  pol : s.polling = true
  pcl : s.pclosing = false
  gon : s.gone = false
  res : s.result = some true
  not : s.notes = 0

theorem wait_next {s : St} {k : Nat} (w : Wait s k) :
    ∃ s', runs s [.poll (.refused false), .termDone k, .closeDone k] = .ok s' ∧ Wait s' (k + 1) ∧
      s'.conns[k]? = some ⟨.closed, false, some none, true⟩ ∧ s'.calls = s.calls ++ [.add (k + 1) none] ∧
      ∀ c < k, s'.conns[c]? = s.conns[c]? := by
  obtain ⟨h1, h2, h3, h4, h5, h6, h7, h8, h9⟩ := w
  have hk : k < s.conns.length := by omega
  have e1 : s.step (.poll (.refused false)) = .ok { s with
      conns := s.conns ++ [exC1], calls := s.calls ++ [.add (k + 1) none], closing := [k, k + 1] } := by
    simp [St.step, h7, St.poll, h5, h6, St.terminateConn, h1, h2, h3, Conn.attach, Conn.terminate, Ph.usable, bind,
      Except.bind, St.set, exC1]
  have g1 : (s.conns ++ [exC1])[k]? = some exC1 := by rw [List.getElem?_append_left hk, h4]
  have e2 : ({ s with conns := s.conns ++ [exC1], calls := s.calls ++ [.add (k + 1) none], closing := [k, k + 1] } :
      St).step (.termDone k) = .ok { s with
      conns := (s.conns ++ [exC1]).set k ⟨.closing, true, some none, true⟩,
      calls := s.calls ++ [.add (k + 1) none], closing := [k, k + 1] } := by
    simp only [St.step, h7, Bool.false_eq_true, if_false, St.termDone, g1]
    simp [exC1, St.closeConn, h1, Conn.close, bind, Except.bind, St.set]
  have g2 : ((s.conns ++ [exC1]).set k ⟨.closing, true, some none, true⟩)[k]? =
      some ⟨.closing, true, some none, true⟩ := by
    simp [List.getElem?_set]; omega
  refine ⟨{ s with
      conns := ((s.conns ++ [exC1]).set k ⟨.closing, true, some none, true⟩).set k ⟨.closed, false, some none, true⟩,
      calls := s.calls ++ [.add (k + 1) none], closing := [k + 1] }, ?_, ?_, ?_, rfl, ?_⟩
  · simp only [runs, e1, e2]
    simp only [St.step, h7, Bool.false_eq_true, if_false, St.closeDone, g2]
    simp [St.set, St.closeLast]
  · refine ⟨h1, rfl, by simp [h3], ?_, h5, h6, h7, h8, h9⟩
    simp only [List.getElem?_set]
    have : ¬ k = k + 1 := by omega
    simp only [this, if_false]
    rw [← h3]; simp
  · simp [List.getElem?_set]; omega
  · intro c hc
    have : ¬ k = c := by omega
    simp only [List.getElem?_set, this, if_false]
    rw [List.getElem?_append_left (by omega)]

/-- **C110 (close never completes, fails)**: a server that is being closed goes on to accept connections. If clients
go on to connect, the close is never completed, though the acceptor takes no connection and every refused one
is closed: for any `n` there is a run with `n` further connections after which the owner is not notified. -/
theorem C110_delay_fails (n : Nat) :
    ∃ es s', runs {} ([.opn .ok, .poll (.refused false), .close] ++ es) = .ok s' ∧ es.length = 3 * n ∧ Reach s' ∧
      s'.result = some true ∧ s'.notes = 0 ∧ s'.conns.length = n + 1 ∧ (∀ c h, ¬ s'.handed c h) ∧
      ∀ c < n, ∃ x, s'.conns[c]? = some x ∧ x.ph = .closed := by
  let s2 : St := { ex1 with conns := [exC1], closing := [0], calls := [.add 0 none] }
  let s3 : St := { s2 with chandler := true, want := true, result := some true }
  have r1 : Reach ex1 := .step .start (e := .opn .ok) rfl rfl
  have r2 : Reach s2 := .step r1 (e := .poll (.refused false)) (by simp [Legal]) rfl
  have r3 : Reach s3 := .step r2 (e := .close) ⟨rfl, rfl, by simp [St.handed, s2]⟩ rfl
  have hrun : ∀ es, runs {} ([.opn .ok, .poll (.refused false), .close] ++ es) = runs s3 es := fun es => rfl
  have happ : ∀ (es fs : List Ev) (s t : St), runs s es = .ok t → runs s (es ++ fs) = runs t fs := by
    intro es
    induction es with
    | nil => intro fs s t h; simp only [runs, Except.ok.injEq] at h; subst h; rfl
    | cons e es ih =>
      intro fs s t h
      simp only [runs, List.cons_append] at h ⊢
      cases hs : s.step e with
      | error x => simp [hs] at h
      | ok s1 => simp only [hs] at h; exact ih fs s1 t h
  have key : ∃ es s', runs s3 es = .ok s' ∧ es.length = 3 * n ∧ Reach s' ∧ Wait s' n ∧
      (∀ c h, ¬ s'.handed c h) ∧ ∀ c < n, ∃ x, s'.conns[c]? = some x ∧ x.ph = .closed := by
    induction n with
    | zero =>
      exact ⟨[], s3, rfl, rfl, r3, ⟨rfl, rfl, rfl, rfl, rfl, rfl, rfl, rfl, rfl⟩,
        by simp [St.handed, s3, s2], by intro c hc; omega⟩
    | succ n ih =>
      obtain ⟨es, t, k1, k2, k3, k4, k5, k6⟩ := ih
      obtain ⟨s', m1, m2, m3, m4, m5⟩ := wait_next k4
      refine ⟨es ++ [.poll (.refused false), .termDone n, .closeDone n], s', ?_, ?_, ?_, m2, ?_, ?_⟩
      · rw [happ es _ s3 t k1]; exact m1
      · simp [k2]; omega
      · simp only [runs] at m1
        cases q1 : t.step (.poll (.refused false)) with
        | error x => simp [q1] at m1
        | ok t1 =>
          simp only [q1] at m1
          cases q2 : t1.step (.termDone n) with
          | error x => simp [q2] at m1
          | ok t2 =>
            simp only [q2] at m1
            cases q3 : t2.step (.closeDone n) with
            | error x => simp [q3] at m1
            | ok t3 =>
              simp only [q3, Except.ok.injEq] at m1
              subst m1
              exact .step (.step (.step k3 (e := .poll (.refused false)) (by simp [Legal]) q1)
                (e := .termDone n) trivial q2) (e := .closeDone n) trivial q3
      · intro c h hh
        rw [St.handed, m4] at hh
        simp at hh
        exact k5 c h hh
      · intro c hc
        by_cases e : c = n
        · subst e; exact ⟨_, m3, rfl⟩
        · rw [m5 c (by omega)]; exact k6 c (by omega)
  obtain ⟨es, s', k1, k2, k3, k4, k5, k6⟩ := key
  exact ⟨es, s', by rw [hrun]; exact k1, k2, k3, k4.res, k4.not, k4.len, k5, k6⟩

end Verif.TcpServer
