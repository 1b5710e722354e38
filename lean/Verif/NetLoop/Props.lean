import Verif.NetLoop.Live

/-!
# Network loop: properties
-/

namespace Verif.NetLoop

/-- **C109.** If the rules are followed, nothing aborts and no freed object is used, whatever the order of tasks, callbacks and results. -/
theorem C109_no_abort_partial {s : St} (h : Reach s) (e : Ev) (hl : Legal s e) : s.step e ≠ .error .panic ∧ s.step e ≠ .error .ub := by
  have := good_step (reach_full h) e hl
  constructor <;> intro hc <;> rw [hc] at this <;> cases this

/-- **C109.** The owner of a task is notified once: a finished task was notified exactly once, and an unfinished one was not. -/
theorem C109_once {s : St} (h : Reach s) (t : Nat) (x : Task) (hx : s.tk t = some x) : (x.finished → x.notes = 1) ∧ (¬ x.finished → x.notes = 0) :=
  let g := (reach_full h).inv.task t x hx
  ⟨g.1, g.2.1⟩

/-- **C109.** The number of events that the loop can perform before it needs something from the user is bounded. -/
theorem C109_bounded {s : St} (h : Reach s) : ∃ N, ∀ es s', (∀ e ∈ es, internal e = true) → runs s es = .ok s' → es.length ≤ N := by
  refine ⟨s.meas, fun es s' hi hs => ?_⟩
  have := (runs_meas es h hi hs).1
  omega

/-- **C109.** A loop that cannot do anything has finished all tasks, so that `schedule_and_wait` returns; and if it is destroyed, the destructor has returned. -/
theorem C109_completed {s : St} (h : Reach s) (hq : Quiet s) : (∀ t x, s.tk t = some x → x.finished) ∧ (s.stopReq = true → s.ended = true) := by
  refine ⟨fun t x hx => ?_, fun hs => ?_⟩
  · by_cases hf : x.finished
    · exact hf
    · obtain ⟨e, s', hi, he⟩ := can_task (reach_full h) hx hf
      exact absurd he (hq e s' hi)
  · cases he : s.ended with
    | true => rfl
    | false =>
      obtain ⟨e, s', hi, he⟩ := can_dtor (reach_full h) hs he
      exact absurd he (hq e s' hi)

/-- **C109.** Every run of the loop reaches such a state: from any state, by events of the loop only. -/
theorem C109_completes {s : St} (h : Reach s) : ∃ es s', (∀ e ∈ es, internal e = true) ∧ runs s es = .ok s' ∧ Quiet s' ∧ Reach s' := by
  have H : ∀ n (s : St), Reach s → s.meas ≤ n → ∃ es s', (∀ e ∈ es, internal e = true) ∧ runs s es = .ok s' ∧ Quiet s' ∧ Reach s' := by
    intro n
    induction n with
    | zero =>
      intro s h hm
      refine ⟨[], s, fun e he => (by cases he), rfl, fun e s' hi hs => ?_, h⟩
      have := step_meas (reach_full h) hi hs
      omega
    | succ n ih =>
      intro s h hm
      by_cases hq : Quiet s
      · exact ⟨[], s, fun e he => (by cases he), rfl, hq, h⟩
      · unfold Quiet at hq
        obtain ⟨e, hq⟩ := Classical.not_forall.1 hq
        obtain ⟨s1, hq⟩ := Classical.not_forall.1 hq
        obtain ⟨hi, hs⟩ := Classical.not_imp.1 hq
        have hs : s.step e = .ok s1 := Classical.not_not.1 hs
        have := step_meas (reach_full h) hi hs
        obtain ⟨es, s', k1, k2, k3, k4⟩ := ih s1 (h.step e (internal_legal hi) hs) (by omega)
        refine ⟨e :: es, s', ?_, ?_, k3, k4⟩
        · intro e' he'
          rcases List.mem_cons.1 he' with rfl | he'
          · exact hi
          · exact k1 e' he'
        · simp only [runs, hs, bind, Except.bind]
          exact k2
  exact H s.meas s h (Nat.le_refl _)

/-- A port that can be used. -/
def Port.isOpen (y : Port) : Prop := y.life = .up ∨ y.life = .termd

/-- **C109.** `num_ports` is the number of open ports. -/
theorem C109_num {s : St} (h : Reach s) : ∃ l : List Nat, l.Nodup ∧ (∀ p, p ∈ l ↔ ∃ y, s.pt p = some y ∧ y.isOpen) ∧ s.numOpen = l.length := by
  have g := reach_full h
  refine ⟨s.opened, g.inv.oN, fun p => ⟨fun hp => ?_, fun ⟨y, hy, ho⟩ => (g.inv.port p y hy).1.2 ho⟩, g.num⟩
  obtain ⟨y, hy⟩ := g.inv.o1 p hp
  exact ⟨y, hy, (g.inv.port p y hy).1.1 hp⟩

/-- **C109.** A handle can be used until its removal is requested or the loop is destroyed. -/
theorem C109_handle {s : St} (h : Reach s) (p : Nat) (hh : s.isHandle p) (hr : ¬ s.removing p) (hs : s.stopReq = false) : ∃ y, s.pt p = some y ∧ y.isOpen := by
  obtain ⟨t, x, k, hx, hk, hf, hsu, hp⟩ := hh
  have g := reach_full h
  obtain ⟨y, hy⟩ := g.inv.pb t x p hx hp
  exact ⟨y, hy, g.inv.handle t x k p y hx hk hf hsu hp hy (fun t' x' hx' e => hr ⟨t', x', hx', e⟩) hs⟩

/-- **C109.** The handle of a finished task that succeeded is a port of the requested kind. A task that failed leaves no open port. -/
theorem C109_added {s : St} (h : Reach s) (t : Nat) (x : Task) (k : Kind) (hx : s.tk t = some x) (hk : x.req = .add k) (hf : x.finished) :
    (x.success = true → ∃ p y, x.port = some p ∧ s.pt p = some y ∧ y.kind = k) ∧ (x.success = false → ∀ p, x.port = some p → ∃ y, s.pt p = some y ∧ y.life = .closed) := by
  obtain ⟨_, _, g⟩ := (reach_full h).inv.task t x hx
  rw [hk] at g
  exact ⟨(g.2.2.2 hf).2, (g.2.2.2 hf).1⟩

/-- **C109.** Removal of a port succeeds, and when it is finished, the port is closed. -/
theorem C109_removed {s : St} (h : Reach s) (t : Nat) (x : Task) (p : Nat) (hx : s.tk t = some x) (hr : x.req = .remove p) (hf : x.finished) :
    x.success = true ∧ ∃ y, s.pt p = some y ∧ y.life = .closed := by
  obtain ⟨_, _, g⟩ := (reach_full h).inv.task t x hx
  rw [hr] at g
  obtain ⟨_, _, g3, y, g4, _, _, _, g8⟩ := g
  exact ⟨g3 (by rcases hf with e | e <;> rw [e] <;> simp), y, g4, g8 hf⟩

/-- **C109.** When the destructor has returned, all ports are closed. -/
theorem C109_destroyed {s : St} (h : Reach s) (he : s.ended = true) (p : Nat) (y : Port) (hy : s.pt p = some y) : y.life = .closed :=
  ended_closed h he p y hy

/-- Result of a run: the error, or what `f` says about the state. -/
def outcome (es : List Ev) (f : St → Bool) : Except Err Bool :=
  match runs .init es with
  | .ok s => .ok (f s)
  | .error e => .error e

def isOk (es : List Ev) (f : St → Bool) : Bool := match outcome es f with | .ok b => b | .error _ => false

def fails (es : List Ev) (e : Err) : Bool := match outcome es (fun _ => true) with | .ok _ => false | .error e' => decide (e = e')

/-- A run: two UDP ports and a server are opened, one of the UDP ports is started, a connection comes and goes, an address is resolved,
opening of a client fails while it is connecting, a port is removed, and the loop is destroyed. -/
def exRun : List Ev := [.schedule (.add .udp), .schedule (.add .server), .signal 0, .wake, .proc .ok, .proc .ok, .sleep, .signal 1, .wake, .sleep,
  .connOpen 1, .schedule (.start 0), .schedule .resolve, .schedule (.add .client), .signal 2, .signal 3, .wake, .proc (.result true), .proc .async, .proc .connFail, .sleep,
  .signal 4, .termDone 2, .resolved 3 true, .closeDone 2, .wake, .sleep, .connGone 1, .schedule (.remove 0), .signal 5, .wake, .proc .ok, .sleep, .closeDone 0,
  .drop 5, .destroy, .stopCb, .sleep, .closeDone 1, .finishDtor]

def lifeIs (s : St) (p : Nat) (l : Life) : Bool := match s.pt p with | some y => decide (y.life = l) | none => false

example : isOk exRun (fun s => s.ended && (s.numOpen == 0) && lifeIs s 0 .closed && lifeIs s 1 .closed && lifeIs s 2 .closed) = true := by decide +kernel

example : isOk (exRun.take 20) (fun s => (s.numOpen == 2) && lifeIs s 0 .up && lifeIs s 1 .up && lifeIs s 2 (.terming 4)) = true := by decide +kernel

/-- A loop with one task that waits. -/
def ex1 : St := ⟨upd (fun _ => none) 0 ⟨.add .udp, .pending, false, none, 0⟩, 1, fun _ => none, 0, [0], [], [], 0, true, [], false, false, true, false⟩

theorem ex1_runs : runs .init [.schedule (.add .udp), .signal 0] = .ok ex1 := rfl

theorem ex1_reach : Reach ex1 := .step (.step .init (.schedule (.add .udp)) rfl rfl) (.signal 0) trivial rfl

/-- A loop with one port. -/
def ex2 : St := ⟨upd ex1.tk 0 ⟨.add .udp, .done, true, some 0, 1⟩, 1, upd (fun _ => none) 0 ⟨.udp, .up, true, 0⟩, 1, [], [0], [], 1, false, [], true, false, true, false⟩

theorem ex2_step : ({ ex1 with awake := true, sig := false } : St).step (.proc .ok) = .ok ex2 := by
  simp [St.step, St.proc, ex1, upd_same, St.doAdd, St.finish, St.setTask, ex2, upd_upd]

theorem ex2_reach : Reach ex2 := .step (.step ex1_reach .wake trivial rfl) (.proc .ok) trivial ex2_step

/-- The handle of the port can be used. -/
example : ∃ s, Reach s ∧ s.isHandle 0 ∧ ¬ s.removing 0 ∧ s.stopReq = false := by
  refine ⟨ex2, ex2_reach, ⟨0, ⟨.add .udp, .done, true, some 0, 1⟩, .udp, rfl, rfl, Or.inl rfl, rfl, rfl⟩, ?_, rfl⟩
  rintro ⟨t, x, hx, hr⟩
  simp only [ex2, ex1] at hx
  rcases upd_cases hx with ⟨rfl, rfl⟩ | ⟨_, hx⟩
  · cases hr
  · rcases upd_cases hx with ⟨rfl, rfl⟩ | ⟨_, hx⟩
    · cases hr
    · cases hx

/-- It can be removed, and the loop can be destroyed. -/
example : Legal ex2 (.schedule (.remove 0)) ∧ Legal ex2 .destroy := by
  have ht : ∀ t x, ex2.tk t = some x → x = ⟨.add .udp, .done, true, some 0, 1⟩ := by
    intro t x hx
    simp only [ex2, ex1] at hx
    rcases upd_cases hx with ⟨rfl, rfl⟩ | ⟨h, hx⟩
    · rfl
    · rcases upd_cases hx with ⟨rfl, rfl⟩ | ⟨_, hx⟩
      · exact absurd rfl h
      · cases hx
  have hp : ∀ p y, ex2.pt p = some y → y = ⟨.udp, .up, true, 0⟩ := by
    intro p y hy
    simp only [ex2] at hy
    rcases upd_cases hy with ⟨rfl, rfl⟩ | ⟨h, hy⟩
    · rfl
    · cases hy
  refine ⟨⟨rfl, ⟨0, ⟨.add .udp, .done, true, some 0, 1⟩, .udp, rfl, rfl, Or.inl rfl, rfl, rfl⟩, ?_, ?_, ?_⟩, ?_, rfl, ?_⟩
  · rintro ⟨t, x, hx, hr⟩
    rw [ht t x hx] at hr
    cases hr
  · intro t x hx hr
    rw [ht t x hx]
    exact Or.inl rfl
  · intro y hy
    rw [hp 0 y hy]
    exact ⟨fun e => (by cases e), rfl⟩
  · intro t x hx
    rw [ht t x hx]
    exact Or.inl rfl
  · intro p y hy
    rw [hp p y hy]
    exact ⟨fun e => (by cases e), rfl⟩

/-- The loop after its destruction began: a port was opened after all ports were closed. -/
def ex3 : St := { ex2 with sig := true, awake := false, stopReq := true, sems := false }

theorem ex3_runs : runs ex1 [.destroy, .stopCb, .proc .ok, .sleep] = .ok ex3 := by
  simp [runs, bind, Except.bind, St.step, St.destroy, St.stopCb, St.closeAll, St.proc, ex1, upd_same, St.doAdd, St.finish, St.setTask, St.sleep, ex3, ex2, upd_upd]

theorem runs_append (s : St) (es fs : List Ev) : runs s (es ++ fs) = (runs s es >>= fun s => runs s fs) := by
  induction es generalizing s with
  | nil => rfl
  | cons e es ih =>
    simp only [List.cons_append, runs, bind, Except.bind]
    cases s.step e with
    | error e => rfl
    | ok s => exact ih s

/-- **C109** is false for a loop that is destroyed while a task is waiting, although the destructor does not forbid it: the port is opened after all ports were closed. The semaphores
are closed, nothing closes the port, and the destructor waits forever: no event of the loop is possible any more. -/
theorem C109_destroy_add_fails : ∃ s, runs .init [.schedule (.add .udp), .signal 0, .destroy, .stopCb, .proc .ok, .sleep] = .ok s ∧ s.ended = false ∧ Quiet s := by
  refine ⟨ex3, ?_, rfl, ?_⟩
  · have := runs_append .init [.schedule (.add .udp), .signal 0] [.destroy, .stopCb, .proc .ok, .sleep]
    rw [ex1_runs] at this
    exact this.trans ex3_runs
  · have hp : ∀ p y, ex3.pt p = some y → y.life = .up := by
      intro p y hy
      simp only [ex3, ex2] at hy
      rcases upd_cases hy with ⟨rfl, rfl⟩ | ⟨_, hy⟩
      · rfl
      · cases hy
    have ht : ∀ t x, ex3.tk t = some x → x.st ≠ .resolving := by
      intro t x hx
      simp only [ex3, ex2, ex1] at hx
      rcases upd_cases hx with ⟨rfl, rfl⟩ | ⟨_, hx⟩
      · simp
      · rcases upd_cases hx with ⟨rfl, rfl⟩ | ⟨_, hx⟩
        · simp
        · cases hx
    intro e s' hi hs
    cases e with
    | signal t => cases hs
    | wake => cases hs
    | sleep => cases hs
    | proc r => cases hs
    | stopCb => cases hs
    | closeDone p =>
      simp only [St.step, St.closeDone] at hs
      split at hs
      · rename_i y hy
        rw [hp p y hy] at hs
        cases hs
      · cases hs
    | termDone p =>
      simp only [St.step, St.termDone] at hs
      split at hs
      · rename_i y hy
        rw [hp p y hy] at hs
        cases hs
      · cases hs
    | resolved t b =>
      simp only [St.step, St.resolved] at hs
      split at hs
      · rename_i x hx
        rw [if_neg (ht t x hx)] at hs
        cases hs
      · cases hs
    | finishDtor =>
      have hn : ex3.noHandles = false := by decide +kernel
      simp [St.step, St.finishDtor, hn] at hs
    | _ => cases hi

/-- **C109** is false for the other rules too. The process is aborted if removal of a port is waiting while the loop is destroyed; if a port is removed twice;
if a server accepts a connection after its removal was requested; if a client is removed, or the loop is destroyed, while its connection is open; if a task is scheduled again;
if a task is destroyed before it is finished. A port that is started after its removal is undefined behaviour. -/
theorem C109_rules_fails :
    fails [.schedule (.add .udp), .signal 0, .wake, .proc .ok, .sleep, .schedule (.remove 0), .destroy, .stopCb, .proc .ok] .panic = true ∧
    fails [.schedule (.add .udp), .signal 0, .wake, .proc .ok, .schedule (.remove 0), .schedule (.remove 0), .proc .ok, .proc .ok] .panic = true ∧
    fails [.schedule (.add .server), .signal 0, .wake, .proc .ok, .schedule (.remove 0), .connOpen 0, .proc .ok] .panic = true ∧
    fails [.schedule (.add .client), .signal 0, .wake, .proc .ok, .schedule (.remove 0), .proc .ok] .panic = true ∧
    fails [.schedule (.add .client), .signal 0, .wake, .proc .ok, .sleep, .destroy, .stopCb] .panic = true ∧
    fails [.schedule .resolve, .signal 0, .wake, .proc (.result true), .again 0] .panic = true ∧
    fails [.schedule .resolve, .signal 0, .wake, .proc .async, .drop 0] .panic = true ∧
    fails [.schedule (.add .udp), .signal 0, .wake, .proc .ok, .schedule (.remove 0), .schedule (.start 0), .proc .ok, .proc (.result true)] .ub = true := by
  decide +kernel

end Verif.NetLoop
