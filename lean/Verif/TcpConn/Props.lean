import Verif.TcpConn.Race
import Verif.TcpConn.Ready

/-!
# C100: TCP connection

Theorems about runs of a connection that was made by the constructor. `Reach false` are all runs in which the
user respects the documented rules: it knows the connection from `connection_established` or `connection_refused`, it calls
`async_terminate` once, not while its own I/O call is in progress, and makes no I/O calls afterwards. `Reach true` are those of them in which a
termination does not come in the middle of a callback of the event loop.
-/

namespace Verif.TcpConn

/-- Steps from a world, oldest first; a step that is not possible gives `none`. -/
def W.run (w : W) : List L → Option W
  | [] => some w
  | l :: ls => (w.step l).bind fun v => v.run ls

theorem reach_run {s : Bool} : ∀ (ls ks : List L) (w w' : W), Reach false s ks w → w.run ls = some w' → Reach false s (ls.reverse ++ ks) w'
  | [], ks, w, w', h, hr => by cases hr; exact h
  | l :: ls, ks, w, w', h, hr => by
    simp only [W.run] at hr
    cases hs : w.step l with
    | none => rw [hs] at hr; cases hr
    | some v =>
      rw [hs] at hr
      have := reach_run ls (l :: ks) v w' (.step h (by simp) hs) hr
      simpa using this

instance (l : L) : Decidable (∃ n, l = L.term n) :=
  match l with
  | .term n => .isTrue ⟨n, rfl⟩
  | .open_ _ | .dial _ | .attach | .giveUp | .close | .poll .. | .endConnect _ | .net | .async .. | .pollClosed .. | .semClosed | .ready _ | .send | .begin_ _ | .busy _
  | .sys .. | .upd | .fail => .isFalse (by simp)

/-- Like `W.run`; a termination that would interrupt a callback gives `none`. -/
def W.qrun (w : W) : List L → Option W
  | [] => some w
  | l :: ls => if (∃ n, l = .term n) ∧ w.net ≠ [] then none else (w.step l).bind fun v => v.qrun ls

theorem reach_qrun {s : Bool} : ∀ (ls ks : List L) (w w' : W), Reach true s ks w → w.qrun ls = some w' → Reach true s (ls.reverse ++ ks) w'
  | [], ks, w, w', h, hr => by cases hr; exact h
  | l :: ls, ks, w, w', h, hr => by
    simp only [W.qrun] at hr
    split at hr
    · cases hr
    · rename_i hq
      cases hs : w.step l with
      | none => rw [hs] at hr; cases hr
      | some v =>
        rw [hs] at hr
        have := reach_qrun ls (l :: ks) v w' (.step h (by intro _ ht; by_contra hn; exact hq ⟨ht, hn⟩) hs) hr
        simpa using this

/-- A computed check of a result. -/
def someAnd {α : Type} (x : Option α) (p : α → Bool) : Bool := match x with | some a => p a | none => false

theorem of_someAnd {α : Type} {x : Option α} {p : α → Bool} (h : someAnd x p = true) : ∃ a, x = some a ∧ p a = true := by
  cases x with
  | none => cases h
  | some a => exact ⟨a, rfl, h⟩

/-- A client connects; the connection is established and reported. -/
def exClient : List L := [.open_ true, .dial .pending, .attach, .poll false true false, .endConnect true, .net, .net, .net]

/-- The peer resets the connection while the user terminates it. -/
def exRace : List L := exClient ++ [.poll true false false, .term true, .net, .net, .send, .net, .ready .rd, .net, .ready .wr, .net]

/-- A client that writes, is told that data can be read, and terminates the connection normally. -/
def exGood : List L := exClient ++ [.begin_ .wr, .busy .wr, .sys .wr .bytes, .upd, .poll false false true, .ready .rd, .net, .term true, .send, .async true true, .pollClosed true true,
  .close, .semClosed]

/-- **C100**: if termination does not come in the middle of a callback of the event loop, nothing panics. -/
theorem C100_no_abort_partial {s : Bool} {ls : List L} {w : W} (h : Reach true s ls w) : w.aborted = false := h.inv.alive

/-- **C100** fails for a termination at any time: a run in which the user respects all rules, and the process
aborts. The event loop has seen an error of the established connection, the user calls `async_terminate` from another thread, then
the loop replaces the state `Terminating` by `Broken`, and the callback that starts the termination panics. -/
theorem C100_no_abort_fails : ∃ (ls : List L) (w : W), Reach false false ls w ∧ w.aborted = true := by
  obtain ⟨w, h1, h2⟩ := of_someAnd (x := (W.new false).run (exRace ++ [.async true true])) (p := fun w => w.aborted) (by decide +kernel)
  exact ⟨_, w, reach_run _ [] _ w .new h1, h2⟩

/-- **C100**: in all runs, this is the only panic: in the callback that starts the termination, and only if the state is
`Broken`. -/
theorem C100_abort_only {s : Bool} {ls : List L} {w w' : W} {l : L} (h : Reach false s ls w) (hs : w.step l = some w') (ha : w'.aborted = true) :
    (∃ a b, l = .async a b) ∧ w.c.st = .broken := (h.ginv.step hs).2 ha

example : ∃ (ls : List L) (w w' : W), Reach false false ls w ∧ w.step (.async true true) = some w' ∧ w'.aborted = true := by
  obtain ⟨w, h1, h2⟩ := of_someAnd (x := (W.new false).run exRace) (p := fun w => someAnd (w.step (.async true true)) fun w' => w'.aborted) (by decide +kernel)
  obtain ⟨w', h3, h4⟩ := of_someAnd h2
  exact ⟨_, w, w', reach_run _ [] _ w .new h1, h3, h4⟩

theorem Inv.documented {s : Bool} {w : W} {e f t : Bool} (h : Inv s w e f t) : Documented w.cbs ∧ (s = true → Cb.refused ∉ w.cbs) := by
  cases h with
  | refused h => exact ⟨.inr ⟨[], .inl rfl, .inl rfl⟩, by simp [h]⟩
  | estab b se wr rd p k u ds hk hu f hf => exact ⟨.inr ⟨[], .inl rfl, .inr ⟨ds, by simp⟩⟩, by simp⟩
  | leaving _ _ _ _ _ hd _ _ _ _ _ _ _ _ _ _ _ _ hc _ =>
    cases hd with
    | false => simp only [Bool.false_eq_true, if_false] at hc; rw [hc.1]; exact ⟨.inl rfl, by simp⟩
    | true =>
      simp only [if_true] at hc
      rcases hc with ⟨rfl, hs⟩ | ⟨ds, rfl⟩
      · exact ⟨.inr ⟨[], .inl rfl, .inl rfl⟩, by simp [hs]⟩
      · exact ⟨.inr ⟨[], .inl rfl, .inr ⟨ds, by simp⟩⟩, by simp⟩
  | left _ _ _ _ _ _ _ _ _ _ hc =>
    rcases hc with ⟨rfl, _⟩ | ⟨rfl, hs⟩ | ⟨ds, rfl⟩
    · exact ⟨.inl rfl, by simp⟩
    · exact ⟨.inr ⟨[.terminated], .inr rfl, .inl rfl⟩, by simp [hs]⟩
    · exact ⟨.inr ⟨[.terminated], .inr rfl, .inr ⟨ds, rfl⟩⟩, by simp⟩
  | closing _ _ _ _ _ _ _ _ _ _ hc =>
    rcases hc with ⟨rfl, _⟩ | ⟨rfl, hs⟩ | ⟨ds, rfl⟩
    · exact ⟨.inl rfl, by simp⟩
    · exact ⟨.inr ⟨[.terminated], .inr rfl, .inl rfl⟩, by simp [hs]⟩
    · exact ⟨.inr ⟨[.terminated], .inr rfl, .inr ⟨ds, rfl⟩⟩, by simp⟩
  | goneT _ _ _ _ _ _ _ _ _ _ hc =>
    rcases hc with ⟨rfl, _⟩ | ⟨rfl, hs⟩ | ⟨ds, rfl⟩
    · exact ⟨.inl rfl, by simp⟩
    · exact ⟨.inr ⟨[.terminated], .inr rfl, .inl rfl⟩, by simp [hs]⟩
    · exact ⟨.inr ⟨[.terminated], .inr rfl, .inr ⟨ds, rfl⟩⟩, by simp⟩
  | _ => exact ⟨.inl rfl, by simp [W.new]⟩

/-- **C100**: in all runs, callbacks come in the documented order; the connection of a server is never refused. -/
theorem C100_callbacks {s : Bool} {ls : List L} {w : W} (h : Reach false s ls w) : Documented w.cbs ∧ (s = true → Cb.refused ∉ w.cbs) := by
  rcases h.ginv with ⟨e, f, t, hi⟩ | hr | hd
  · exact hi.documented
  · obtain ⟨_, _, _, _, _, _, _, _, _, ds⟩ := hr
    exact ⟨.inr ⟨[], .inl rfl, .inr ⟨ds, by simp⟩⟩, by simp⟩
  · obtain ⟨_, _, ds⟩ := hd
    exact ⟨.inr ⟨[], .inl rfl, .inr ⟨ds, by simp⟩⟩, by simp⟩

example : ∃ (ls : List L) (w : W), Reach true false ls w ∧ w.cbs = [.established, .io .rd, .terminated] := by
  obtain ⟨w, h1, h2⟩ := of_someAnd (x := (W.new false).qrun exGood) (p := fun w => w.cbs = [.established, .io .rd, .terminated]) (by decide +kernel)
  exact ⟨_, w, reach_qrun _ [] _ w .new h1, by simpa using h2⟩

/-- **C100**: if termination does not come in the middle of a callback, then after it was requested no callback is
made except `connection_terminated`, and that one only when the socket is closed and the connection becomes terminated. -/
theorem C100_last_callback_partial {s : Bool} {ls : List L} {w w' : W} {l : L} (h : Reach true s ls w) (ht : terminatedIn ls = true) (hs : w.step l = some w') :
    w'.cbs = w.cbs ∨ (w'.cbs = w.cbs ++ [.terminated] ∧ w'.c.st = .terminated ∧ w'.c.sock = false) := by
  have hi := h.inv
  rw [ht] at hi
  generalize establishedIn ls = e at hi
  generalize failedIn ls = f at hi
  cases hi with
  | leaving _ wf sock pi ps hd tH se wr rd u sp pc cbs f h1 h2 h3 h4 h5 =>
    have hfin : ∀ (ps : Bool) (x y : Bool) (ww : W),
      W.finish ⟨⟨s, .terminating, e, wf, sock, pi, ps, true, hd, tH, false, se, wr, rd⟩, .leaving, [], u, false, false, false, cbs, 0, 0, none, false⟩ x y = ww →
      ww.cbs = cbs ∨ (ww.cbs = cbs ++ [.terminated] ∧ ww.c.st = .terminated ∧ ww.c.sock = false) := by
      intro ps x y ww hw
      subst hw
      simp only [W.finish, Conn.finishTerminate, ne_eq, not_true_eq_false, if_false]
      generalize hr : Conn.disconnect ⟨s, .terminating, e, wf, sock, false, ps, true, hd, tH, false, se, wr, rd⟩ x y = r
      obtain ⟨wf', how, rfl⟩ : ∃ wf' how, r = (⟨s, .terminating, e, wf', false, false, ps, true, hd, tH, false, se, wr, rd⟩, how) := by
        subst hr
        simp only [Conn.disconnect]
        cases sock <;> cases e <;> cases wf <;> cases x <;> cases y <;> exact ⟨_, _, rfl⟩
      have hm : Conn.maybeSwitch ⟨s, .terminating, e, wf', false, false, ps, true, hd, tH, false, se, wr, rd⟩ .terminating .terminated =
          (⟨s, .terminated, e, wf', false, false, ps, true, hd, tH, false, se, wr, rd⟩, true) := by
        simp [Conn.maybeSwitch, Conn.flags]
      simp only [hm]
      cases hd <;> simp [Conn.report]
    cases l with
    | poll x y z => simp [W.step, W.poll] at hs; rw [← hs.2]; exact .inl rfl
    | send =>
      rcases h5 with ⟨n, rfl, rfl, rfl, rfl⟩ | ⟨rfl, _⟩
      · simp [W.step, W.send] at hs; subst hs; exact .inl rfl
      · simp [W.step, W.send] at hs
    | async x y =>
      rcases h5 with ⟨n, rfl, rfl, rfl, rfl⟩ | ⟨rfl, rfl, rfl, h6⟩
      · simp [W.step, W.async] at hs
      · cases pc with
        | true => simp [W.step, W.async] at hs
        | false =>
          cases pi with
          | false => simp [W.step, W.async] at hs; exact hfin ps x y w' hs
          | true => simp [W.step, W.async] at hs; subst hs; exact .inl rfl
    | pollClosed x y =>
      rcases h5 with ⟨n, rfl, rfl, rfl, rfl⟩ | ⟨rfl, rfl, rfl, h6⟩
      · simp [W.step, W.pollClosed] at hs
      · cases pc with
        | false => simp [W.step, W.pollClosed] at hs
        | true => simp [W.step, W.pollClosed] at hs; exact hfin ps x y w' hs
    | term n => rcases h5 with ⟨n, rfl, _⟩ | ⟨rfl, _⟩ <;> simp [W.step, W.term] at hs
    | begin_ d => rcases h5 with ⟨n, rfl, _⟩ | ⟨rfl, _⟩ <;> simp [W.step, W.begin_] at hs
    | busy d => rcases h5 with ⟨n, rfl, _⟩ | ⟨rfl, _⟩ <;> simp [W.step, W.busy] at hs
    | sys d r => rcases h5 with ⟨n, rfl, _⟩ | ⟨rfl, _⟩ <;> simp [W.step, W.sys] at hs
    | upd => rcases h5 with ⟨n, rfl, _⟩ | ⟨rfl, _⟩ <;> simp [W.step, W.upd] at hs
    | fail => rcases h5 with ⟨n, rfl, _⟩ | ⟨rfl, _⟩ <;> simp [W.step, W.fail] at hs
    | _ => tcp_simp at hs
  | left we wf tH se wr rd cbs how e f hc =>
    cases l with
    | close => tcp_simp at hs; subst hs; exact .inl rfl
    | _ => tcp_simp at hs
  | closing we wf tH se wr rd cbs how e f hc =>
    cases l with
    | semClosed => tcp_simp at hs; subst hs; exact .inl rfl
    | _ => tcp_simp at hs
  | goneT we wf tH se wr rd cbs how e f hc => cases l <;> tcp_simp at hs

example : ∃ (ls : List L) (w w' : W), Reach true false ls w ∧ terminatedIn ls = true ∧ w.step (.pollClosed true true) = some w' ∧ w'.cbs = w.cbs ++ [.terminated] := by
  obtain ⟨w, h1, h2⟩ := of_someAnd (x := (W.new false).qrun (exClient ++ [.term true, .send, .async true true]))
    (p := fun w => someAnd (w.step (.pollClosed true true)) fun w' => w'.cbs = w.cbs ++ [.terminated]) (by decide +kernel)
  obtain ⟨w', h3, h4⟩ := of_someAnd h2
  exact ⟨_, w, w', reach_qrun _ [] _ w .new h1, by decide, h3, by simpa using h4⟩

/-- **C100** fails for a termination at any time, even if all is done on the thread of the event loop: the user
terminates the connection in the callback that tells that it is writable, and then the loop makes the callback
that tells that it is readable. -/
theorem C100_last_callback_fails : ∃ (ls : List L) (w w' : W), Reach false false ls w ∧ terminatedIn ls = true ∧ w.step .net = some w' ∧
    w.cbs = [.established, .io .wr] ∧ w'.cbs = [.established, .io .wr, .io .rd] := by
  obtain ⟨w, h1, h2⟩ := of_someAnd (x := (W.new false).run (exClient ++ [.poll false true true, .ready .wr, .net, .term true, .send, .ready .rd]))
    (p := fun w => w.cbs = [.established, .io .wr] ∧ someAnd (w.step .net) fun w' => w'.cbs = [.established, .io .wr, .io .rd]) (by decide +kernel)
  simp only [decide_eq_true_eq] at h2
  obtain ⟨w', h3, h4⟩ := of_someAnd h2.2
  exact ⟨_, w, w', reach_run _ [] _ w .new h1, by decide, h3, h2.1, by simpa using h4⟩

/-- **C100**: if termination does not come in the middle of a callback, a requested termination gets done: when
the user and the event loop have nothing more to do, the connection is terminated (or even closed) and this was reported: to
the connection handler if it was attached, to the termination handler (once) if it was attached. -/
theorem C100_completes_partial {s : Bool} {ls : List L} {w : W} (h : Reach true s ls w) (ht : terminatedIn ls = true)
    (h1 : w.step .send = none) (h2 : ∀ a b, w.step (.async a b) = none) (h3 : ∀ a b, w.step (.pollClosed a b) = none) :
    (w.c.st = .terminated ∨ w.c.st = .closing ∨ w.c.st = .closed) ∧ w.c.sock = false ∧ (w.cbs ≠ [] → w.cbs.getLast? = some .terminated) ∧
      (w.cbs = [] → w.c.termH = true) ∧ w.termDone = (if w.c.termH then 1 else 0) := by
  have hi := h.inv
  rw [ht] at hi
  generalize establishedIn ls = e at hi
  generalize failedIn ls = f at hi
  have key : ∀ (cbs : List Cb) (tH : Bool), ((cbs = [] ∧ tH = true) ∨ (cbs = [.refused, .terminated] ∧ s = false) ∨ ∃ ds : List Dir, cbs = .established :: (ds.map Cb.io ++ [.terminated])) →
      (cbs ≠ [] → cbs.getLast? = some .terminated) ∧ (cbs = [] → tH = true) := by
    intro cbs tH hc
    rcases hc with ⟨rfl, h⟩ | ⟨rfl, _⟩ | ⟨ds, rfl⟩
    · exact ⟨by simp, fun _ => h⟩
    · exact ⟨by simp, by simp⟩
    · refine ⟨fun _ => ?_, by simp⟩
      rw [← List.cons_append, List.getLast?_append]
      rfl
  cases hi with
  | leaving _ wf sock pi ps hd tH se wr rd u sp pc cbs f a b c d h5 =>
    exfalso
    rcases h5 with ⟨n, rfl, rfl, rfl, rfl⟩ | ⟨rfl, rfl, rfl, h6⟩
    · simp [W.step, W.send] at h1
    · cases pc with
      | true => have := h3 true true; simp [W.step, W.pollClosed] at this
      | false =>
        have := h2 true true
        simp only [W.step, W.async] at this
        simp at this
        split at this <;> simp at this
  | left we wf tH se wr rd cbs how e f hc =>
    exact ⟨.inl rfl, rfl, (key _ _ hc).1, (key _ _ hc).2, rfl⟩
  | closing we wf tH se wr rd cbs how e f hc => exact ⟨.inr (.inl rfl), rfl, (key _ _ hc).1, (key _ _ hc).2, rfl⟩
  | goneT we wf tH se wr rd cbs how e f hc => exact ⟨.inr (.inr rfl), rfl, (key _ _ hc).1, (key _ _ hc).2, rfl⟩

/-- A server whose acceptor declines a connection. -/
def exDeclined : List L := [.open_ true, .dial .immediate, .giveUp, .async true true, .pollClosed true true]

example : ∃ (ls : List L) (w : W), Reach true true ls w ∧ terminatedIn ls = true ∧ w.cbs = [] ∧ w.termDone = 1 ∧ w.how = some .reset := by
  obtain ⟨w, h1, h2⟩ := of_someAnd (x := (W.new true).qrun exDeclined) (p := fun w => w.cbs = [] ∧ w.termDone = 1 ∧ w.how = some .reset) (by decide +kernel)
  simp only [decide_eq_true_eq] at h2
  exact ⟨_, w, reach_qrun _ [] _ w .new h1, by decide, h2⟩

/-- **C100**: in all runs, when the owner has closed the port, the socket and all handles are closed and the
destructor does not panic; the completion of the close is reported once, unless the port is closed at once (when it could not be
opened), and then no callback was made. -/
theorem C100_cleanup {s : Bool} {ls : List L} {w : W} (h : Reach false s ls w) (hg : w.stage = .gone) :
    w.c.destroyOk = true ∧ w.pollClosing = false ∧ w.semClosing = false ∧ w.semPending = false ∧ w.net = [] ∧
      (w.closeDone = 1 ∨ (w.closeDone = 0 ∧ w.termDone = 0 ∧ w.cbs = [])) := by
  rcases h.ginv with ⟨e, f, t, hi⟩ | hr | hd
  · cases hi <;> simp_all [Conn.destroyOk, W.new]
  · obtain ⟨⟩ := hr
    simp at hg
  · obtain ⟨⟩ := hd
    simp at hg

example : ∃ (ls : List L) (w : W), Reach false false ls w ∧ w.stage = .gone ∧ w.closeDone = 1 := by
  obtain ⟨w, h1, h2⟩ := of_someAnd (x := (W.new false).run exGood) (p := fun w => w.stage = .gone ∧ w.closeDone = 1) (by decide +kernel)
  simp only [decide_eq_true_eq] at h2
  exact ⟨_, w, reach_run _ [] _ w .new h1, h2⟩

/-- **C100**: if termination does not come in the middle of a callback, the socket is closed normally (after a shutdown, so that
the peer sees the end of the stream) if and only if the connection was established, has not failed, the termination was not requested as a failure, and the
shutdown works; otherwise it is closed with a reset. -/
theorem C100_graceful_partial {s : Bool} {ls : List L} {w w' : W} {l : L} {sh cl : Bool} {x : How} (h : Reach true s ls w)
    (hl : l = .async sh cl ∨ l = .pollClosed sh cl) (hs : w.step l = some w') (h0 : w.how = none) (h1 : w'.how = some x) :
    x = .graceful ↔ (establishedIn ls = true ∧ failedIn ls = false ∧ sh = true) := by
  have hi := h.inv
  generalize establishedIn ls = e at hi
  generalize failedIn ls = f at hi
  generalize terminatedIn ls = t at hi
  have hfin : ∀ (we wf sock pi ps hd tH se : Bool) (wr rd : Io) (u : Usr) (cbs : List Cb) (ww : W),
      W.finish ⟨⟨s, .terminating, we, wf, sock, pi, ps, true, hd, tH, false, se, wr, rd⟩, .leaving, [], u, false, false, false, cbs, 0, 0, none, false⟩ sh cl = ww →
      ww.how = some x → (x = .graceful ↔ (we = true ∧ wf = false ∧ sh = true)) := by
    intro we wf sock pi ps hd tH se wr rd u cbs ww hw hx
    subst hw
    cases sock
    · simp [W.finish, Conn.finishTerminate, Conn.disconnect, Conn.maybeSwitch, Conn.flags] at hx
    · cases we <;> cases wf <;> cases sh <;> cases cl <;>
        simp [W.finish, Conn.finishTerminate, Conn.disconnect, Conn.maybeSwitch, Conn.flags] at hx <;> subst hx <;> simp
  cases hi with
  | leaving _ wf sock pi ps hd tH se wr rd u sp pc cbs f a b c d h5 =>
    rcases h5 with ⟨n, rfl, rfl, rfl, rfl⟩ | ⟨rfl, rfl, rfl, h6⟩
    · rcases hl with rfl | rfl
      · simp [W.step, W.async] at hs
      · simp [W.step, W.pollClosed] at hs
    · rcases hl with rfl | rfl
      · cases pc with
        | true => simp [W.step, W.async] at hs
        | false =>
          cases pi with
          | true => simp [W.step, W.async] at hs; subst hs; cases h1
          | false => simp [W.step, W.async] at hs; exact hfin _ _ _ _ _ _ _ _ _ _ _ _ _ hs h1
      · cases pc with
        | false => simp [W.step, W.pollClosed] at hs
        | true => simp [W.step, W.pollClosed] at hs; exact hfin _ _ _ _ _ _ _ _ _ _ _ _ _ hs h1
  | connecting net _ _ _ hd => exfalso; rcases hl with rfl | rfl <;> tcp_simp at hs
  | estab b se wr rd p k u ds hk hu f hf => exfalso; rcases hl with rfl | rfl <;> simp [W.step, W.async, W.pollClosed] at hs
  | _ => exfalso; rcases hl with rfl | rfl <;> tcp_simp at hs

example : ∃ (ls : List L) (w w' : W), Reach true false ls w ∧ w.step (.pollClosed true true) = some w' ∧ w.how = none ∧ w'.how = some .graceful := by
  obtain ⟨w, h1, h2⟩ := of_someAnd (x := (W.new false).qrun (exClient ++ [.term true, .send, .async true true]))
    (p := fun w => w.how = none ∧ someAnd (w.step (.pollClosed true true)) fun w' => w'.how = some .graceful) (by decide +kernel)
  simp only [decide_eq_true_eq] at h2
  obtain ⟨w', h3, h4⟩ := of_someAnd h2.2
  exact ⟨_, w, w', reach_qrun _ [] _ w .new h1, h3, h2.1, by simpa using h4⟩

/-- **C100**: if termination does not come in the middle of a callback, and neither the user nor the event loop are in the middle
of a call, `is_failed` tells if the connection has failed. -/
theorem C100_is_failed {s : Bool} {ls : List L} {w : W} (h : Reach true s ls w) (hu : w.usr = .idle ∨ w.usr = .done) (hn : w.net = []) (x : Bool) (hx : w.c.isFailed = some x) :
    x = failedIn ls := by
  have hi := h.inv
  generalize establishedIn ls = e at hi
  generalize failedIn ls = f at hi
  generalize terminatedIn ls = t at hi
  cases hi with
  | estab b se wr rd p k u ds hk hu' f hf =>
    have hp : p = .none := by cases p <;> simp [Pre.ops] at hn ⊢
    subst hp
    have hb : x = b := by cases b <;> simp [Conn.isFailed, St.usable] at hx <;> simp [hx]
    rw [hb, hf]
    rcases hu with hu | hu
    · simp only at hu; subst hu; simp [Pre.failing, Usr.failing?]
    · simp only at hu; subst hu; simp [Usr.before] at hu'
  | leaving _ wf sock pi ps hd tH se wr rd u sp pc cbs f a b c d h5 =>
    rcases h5 with ⟨n, rfl, rfl, rfl, rfl⟩ | ⟨rfl, rfl, rfl, h6⟩
    · simp at hu
    · simpa [Conn.isFailed, St.usable] using hx.symm
  | connecting net _ _ _ hd =>
    simp only at hn
    subst hn
    cases hd
    simpa [Conn.isFailed, St.usable] using hx.symm
  | _ => first | (simp at hn; done) | (simp [Conn.isFailed, St.usable, W.new, Conn.new] at hx; done) | (simpa [Conn.isFailed, St.usable] using hx.symm)

example : ∃ (ls : List L) (w : W), Reach true false ls w ∧ w.usr = .idle ∧ w.net = [] ∧ w.c.isFailed = some true := by
  obtain ⟨w, h1, h2⟩ := of_someAnd (x := (W.new false).qrun (exClient ++ [.begin_ .wr, .busy .wr, .sys .wr .failure, .upd, .fail]))
    (p := fun w => w.usr = .idle ∧ w.net = [] ∧ w.c.isFailed = some true) (by decide +kernel)
  simp only [decide_eq_true_eq] at h2
  exact ⟨_, w, reach_qrun _ [] _ w .new h1, h2⟩

theorem GInv.idle {s : Bool} {w : W} (h : GInv s w) : (w.stage = .dialFailed ∨ w.stage = .dialed ∧ w.c.server = true) → w.usr = .idle := by
  rcases h with ⟨e, f, t, hi⟩ | hr | hd
  · cases hi <;> simp [W.new]
  · obtain ⟨⟩ := hr; simp
  · obtain ⟨⟩ := hd; simp

theorem Reach.ready {q s : Bool} {ls : List L} {w : W} (h : Reach q s ls w) (d : Dir) : Ready d w (ls.filter (L.about d)) := by
  induction h with
  | new => cases d <;> simp [Ready, W.new, Conn.new, Conn.io, Usr.in_]
  | @step ls w w' l h0 hq hs ih =>
    by_cases ha : l.about d = true
    · rw [List.filter_cons_of_pos ha]
      have hb : ¬ w.aborted = true := by
        intro hb
        simp [W.step, hb] at hs
      cases l with
      | ready e =>
        simp only [L.about, decide_eq_true_eq] at ha
        subst ha
        simp only [W.step, hb, W.ready] at hs
        simp only [Bool.false_eq_true, if_false] at hs
        split at hs
        · split at hs
          · simp only [Option.some.injEq] at hs; subst hs; exact io_setIo _ _ _
          · cases hs
        · cases hs
      | busy e =>
        simp only [L.about, decide_eq_true_eq] at ha
        subst ha
        simp only [W.step, hb, W.busy] at hs
        simp only [Bool.false_eq_true, if_false] at hs
        split at hs
        · simp only [Option.some.injEq] at hs; subst hs; exact ⟨io_setIo _ _ _, rfl⟩
        · cases hs
      | sys e r =>
        simp only [L.about, decide_eq_true_eq] at ha
        subst ha
        simp only [W.step, hb, W.sys] at hs
        simp only [Bool.false_eq_true, if_false] at hs
        split at hs
        · rename_i hu
          simp only [Option.some.injEq] at hs; subst hs
          have hin : w.usr.in_ e := .inl hu
          cases hf : ls.filter (L.about e) with
          | nil => rw [hf] at ih; exact absurd hin ih.2
          | cons a b =>
            rw [hf] at ih
            have hab : a.about e = true := by
              have : a ∈ ls.filter (L.about e) := by rw [hf]; simp
              exact (List.mem_filter.mp this).2
            cases a <;> simp only [L.about, Bool.false_eq_true] at hab
            · exact ⟨ih, fun _ => rfl⟩
            · exact .inl ⟨ih.1, rfl⟩
            · exfalso
              cases b with
              | nil => exact ih
              | cons a' b' =>
                cases a' <;> simp only [Ready] at ih
                · have := ih.2 hin; rw [hu] at this; cases this
                · rcases ih with ih | ih
                  · rw [hu] at ih; cases ih.2
                  · exact ih.2 hin
        · cases hs
      | _ => simp [L.about] at ha
    · simp only [Bool.not_eq_true] at ha
      rw [List.filter_cons_of_neg (by simp [ha])]
      by_cases hu : l = .upd
      · subst hu
        have hb : ¬ w.aborted = true := by
          intro hb
          simp [W.step, hb] at hs
        simp only [W.step, hb] at hs
        simp only [Bool.false_eq_true, if_false] at hs
        exact ih.upd hs
      · have := io_other (d := d) hs ha hu h0.ginv.idle
        exact ih.keep this.1 this.2

/-- **C100**: in all runs, readiness is not lost and not made up. `is_writable` and `is_readable` (`d` tells which one), when they do not
panic and the connection is established or broken: true if the event loop has reported readiness after the last system call or after the
last call has started; else, after a call has returned, true if and only if its system call has transferred data. -/
theorem C100_ready {s : Bool} {ls ks : List L} {w : W} {d : Dir} {b : Bool} (h : Reach false s ls w) (hb : w.c.isReady d = some b) (hst : w.c.st = .established ∨ w.c.st = .broken) :
    (∀ e, ls.filter (L.about d) = .ready e :: ks → b = true) ∧
    (∀ e r, ls.filter (L.about d) = .sys e r :: .ready e :: ks → b = true) ∧
    (∀ e r, ls.filter (L.about d) = .sys e r :: .busy e :: ks → w.usr ≠ .got d r → (b = true ↔ r = .bytes)) := by
  have hr := h.ready d
  have hb' : b = decide (w.c.io d ≠ .none) := by
    rcases hst with hst | hst <;> simp [Conn.isReady, hst, St.usable] at hb <;> simp [hb]
  refine ⟨?_, ?_, ?_⟩
  · intro e he
    rw [he] at hr
    rw [hb', (hr : w.c.io d = .avail)]; rfl
  · intro e r he
    rw [he] at hr
    rw [hb', (hr : w.c.io d = .avail ∧ _).1]; rfl
  · intro e r he hu
    rw [he] at hr
    rcases hr with hr | hr
    · exact absurd hr.2 hu
    · rw [hb', hr.1]
      cases r <;> simp

example : ∃ (ls : List L) (w : W), Reach false false ls w ∧ w.c.isReady .wr = some true ∧ w.c.st = .established ∧
    ls.filter (L.about .wr) = [.ready .wr, .sys .wr .wouldBlock, .busy .wr] := by
  obtain ⟨w, h1, h2⟩ := of_someAnd (x := (W.new false).run (exClient ++ [.begin_ .wr, .busy .wr, .sys .wr .wouldBlock, .poll false true false, .ready .wr, .upd]))
    (p := fun w => w.c.isReady .wr = some true ∧ w.c.st = .established) (by decide +kernel)
  simp only [decide_eq_true_eq] at h2
  exact ⟨_, w, reach_run _ [] _ w .new h1, h2.1, h2.2, by decide⟩

end Verif.TcpConn
