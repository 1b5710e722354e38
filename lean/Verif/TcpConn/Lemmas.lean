import Verif.TcpConn.Spec
import Mathlib.Tactic.ByContra
import Mathlib.Tactic.SplitIfs

/-!
# Invariant of a TCP connection
-/

namespace Verif.TcpConn

/-- Operations that report readiness. -/
def Micro.isIo : Micro → Bool
  | .setIo _ | .cbIo _ => true
  | _ => false

/-- The user is about to mark the connection as failed. -/
def Usr.failing? : Usr → Bool
  | .got .wr .streamEnd | .got _ .failure | .failing => true
  | _ => false

/-- The user has not called `async_terminate`. -/
def Usr.before : Usr → Bool
  | .sending _ | .done => false
  | _ => true

/-- First operations of a callback that has seen an error. -/
inductive Pre
  | none | sw | cas | rep
  deriving DecidableEq

/-- The operations. -/
def Pre.ops : Pre → List Micro
  | .none => []
  | .sw => [.sw .broken]
  | .cas => [.cas .established .broken]
  | .rep => [.rep .broken]

/-- The connection is going to be marked as failed. -/
def Pre.failing : Pre → Bool
  | .sw | .cas => true
  | _ => false

/-- Callback in progress while connecting. -/
inductive Dialing : List Micro → Bool → Bool → Prop
  | idle : Dialing [] false false
  | endc : Dialing [.endConn] false false
  | swR : Dialing [.sw .refused] false true
  | casR : Dialing [.cas .connecting .refused] false true
  | swE : Dialing [.sw .established] true false
  | casE : Dialing [.cas .connecting .established] true false

/-- Invariant of runs in which a termination does not interrupt a callback: the world, and whether
the connection was established, has failed, was terminated. -/
inductive Inv (s : Bool) : W → Bool → Bool → Bool → Prop
  | fresh : Inv s (W.new s) false false false
  | openFailed : Inv s ⟨⟨s, .opening, false, false, false, false, false, false, false, false, false, false, .none, .none⟩,
      .openFailed, [], .idle, false, false, false, [], 0, 0, none, false⟩ false false false
  | opened : Inv s ⟨⟨s, .opened, false, false, false, false, false, true, false, false, false, false, .none, .none⟩,
      .opened, [], .idle, false, false, false, [], 0, 0, none, false⟩ false false false
  | dialFailed (sock pi : Bool) (h : pi = true → sock = true) :
      Inv s ⟨⟨s, .connecting, false, false, sock, pi, false, true, false, false, false, false, .none, .none⟩,
      .dialFailed, [], .idle, false, false, false, [], 0, 0, none, false⟩ false false false
  | dialedP (h : s = false) : Inv s ⟨⟨s, .connecting, false, false, true, true, true, true, false, false, false, false, .none, .none⟩,
      .dialed, [], .idle, false, false, false, [], 0, 0, none, false⟩ false false false
  | dialedI : Inv s ⟨⟨s, .established, true, false, true, true, true, true, false, false, false, false, .none, .none⟩,
      .dialed, [], .idle, false, false, false, [], 0, 0, none, false⟩ true false false
  | connecting (net : List Micro) (e f : Bool) (h : s = false) (hd : Dialing net e f) :
      Inv s ⟨⟨s, .connecting, false, false, true, true, true, true, true, s, false, false, .none, .none⟩,
      .live, net, .idle, false, false, false, [], 0, 0, none, false⟩ e f false
  | repR (h : s = false) : Inv s ⟨⟨s, .refused, false, true, true, true, true, true, true, s, false, false, .none, .none⟩,
      .live, [.rep .refused], .idle, false, false, false, [], 0, 0, none, false⟩ false true false
  | repE (h : s = false) : Inv s ⟨⟨s, .established, true, false, true, true, true, true, true, s, false, false, .none, .none⟩,
      .live, [.rep .established], .idle, false, false, false, [], 0, 0, none, false⟩ true false false
  | refused (h : s = false) : Inv s ⟨⟨s, .refused, false, true, true, true, true, true, true, s, false, false, .none, .none⟩,
      .live, [], .idle, false, false, false, [.refused], 0, 0, none, false⟩ false true false
  | estab (b : Bool) (se : Bool) (wr rd : Io) (p : Pre) (k : List Micro) (u : Usr) (ds : List Dir)
      (hk : k.all Micro.isIo = true) (hu : u.before = true) (f : Bool) (hf : f = (b || p.failing || u.failing?)) :
      Inv s ⟨⟨s, if b then .broken else .established, true, b, true, true, true, true, true, s, false, se, wr, rd⟩,
      .live, p.ops ++ k, u, false, false, false, .established :: ds.map Cb.io, 0, 0, none, false⟩ true f false
  | leaving (we wf sock pi ps h tH se : Bool) (wr rd : Io) (u : Usr) (sp pc : Bool) (cbs : List Cb) (f : Bool)
      (hpi : pi = true → sock = true) (hps : ps = true → pi = true) (hwe : we = true → pi = true)
      (hc : if h then (cbs = [.refused] ∧ s = false) ∨ ∃ ds : List Dir, cbs = .established :: ds.map Cb.io else cbs = [] ∧ tH = true)
      (hu : (∃ n, u = .sending n ∧ sp = false ∧ pc = false ∧ f = (wf || !n)) ∨ (u = .done ∧ f = wf ∧ sp = !pc ∧ (pc = true → pi = true ∧ ps = false))) :
      Inv s ⟨⟨s, .terminating, we, wf, sock, pi, ps, true, h, tH, false, se, wr, rd⟩,
      .leaving, [], u, sp, pc, false, cbs, 0, 0, none, false⟩ we f true
  | left (we wf tH se : Bool) (wr rd : Io) (cbs : List Cb) (how : Option How) (e f : Bool)
      (hc : (cbs = [] ∧ tH = true) ∨ (cbs = [.refused, .terminated] ∧ s = false) ∨ ∃ ds : List Dir, cbs = .established :: (ds.map Cb.io ++ [.terminated])) :
      Inv s ⟨⟨s, .terminated, we, wf, false, false, false, true, false, tH, false, se, wr, rd⟩,
      .left, [], .done, false, false, false, cbs, if tH then 1 else 0, 0, how, false⟩ e f true
  | closing (we wf tH se : Bool) (wr rd : Io) (cbs : List Cb) (how : Option How) (e f : Bool)
      (hc : (cbs = [] ∧ tH = true) ∨ (cbs = [.refused, .terminated] ∧ s = false) ∨ ∃ ds : List Dir, cbs = .established :: (ds.map Cb.io ++ [.terminated])) :
      Inv s ⟨⟨s, .closing, we, wf, false, false, false, true, false, tH, true, se, wr, rd⟩,
      .closing, [], .done, false, false, true, cbs, if tH then 1 else 0, 0, how, false⟩ e f true
  | goneT (we wf tH se : Bool) (wr rd : Io) (cbs : List Cb) (how : Option How) (e f : Bool)
      (hc : (cbs = [] ∧ tH = true) ∨ (cbs = [.refused, .terminated] ∧ s = false) ∨ ∃ ds : List Dir, cbs = .established :: (ds.map Cb.io ++ [.terminated])) :
      Inv s ⟨⟨s, .closed, we, wf, false, false, false, false, false, tH, true, se, wr, rd⟩,
      .gone, [], .done, false, false, false, cbs, if tH then 1 else 0, 1, how, false⟩ e f true
  | goneO : Inv s ⟨⟨s, .closed, false, false, false, false, false, false, false, false, true, false, .none, .none⟩,
      .gone, [], .idle, false, false, false, [], 0, 0, none, false⟩ false false false

/-- How a step changes what is known about the history. -/
def nextF (l : L) (f t : Bool) : Bool := f || (l.isFailure && !t) || l.isTermFailure

def nextE (l : L) (e : Bool) : Bool := l.isEstablish || e

def nextT (l : L) (t : Bool) : Bool := l.isTerm || t

/-- All step functions. -/
macro "tcp_simp" "at" h:ident : tactic => `(tactic| simp [W.step, W.open_, W.dial, W.attach, W.giveUp, W.close, W.poll, W.endConnect, W.runNet, W.ready, W.async, W.pollClosed,
   W.semClosed, W.term, W.send, W.begin_, W.busy, W.sys, W.upd, W.fail, W.new, W.asyncTerminate, W.finish, W.abort, W.known,
   Conn.new, Conn.open_, Conn.dial, Conn.switch, Conn.maybeSwitch, Conn.flags, Conn.report, Conn.attachTerm, Conn.attachConn, Conn.asyncClose, Conn.disconnect,
   Conn.finishTerminate, Conn.io, Conn.setIo, St.usable, St.usableIo, Dial.ok, pollCb] at $h:ident)

macro "tcp_ghost" : tactic => `(tactic| simp [nextE, nextF, nextT, L.isFailure, L.isTerm, L.isTermFailure, L.isEstablish])

theorem step_fresh (s : Bool) (l : L) (w' : W) (h : (W.new s).step l = some w') : Inv s w' (nextE l false) (nextF l false false) (nextT l false) := by
  cases l with
  | open_ ok =>
    cases ok <;> tcp_simp at h <;> subst h <;> tcp_ghost
    · exact .openFailed
    · exact .opened
  | _ => tcp_simp at h

theorem step_openFailed (s : Bool) (l : L) (w' : W) (h : W.step ⟨⟨s, .opening, false, false, false, false, false, false, false, false, false, false, .none, .none⟩,
      .openFailed, [], .idle, false, false, false, [], 0, 0, none, false⟩ l = some w') : Inv s w' (nextE l false) (nextF l false false) (nextT l false) := by
  cases l with
  | close => tcp_simp at h; subst h; tcp_ghost; exact .goneO
  | _ => tcp_simp at h

theorem step_opened (s : Bool) (l : L) (w' : W) (h : W.step ⟨⟨s, .opened, false, false, false, false, false, true, false, false, false, false, .none, .none⟩,
      .opened, [], .idle, false, false, false, [], 0, 0, none, false⟩ l = some w') : Inv s w' (nextE l false) (nextF l false false) (nextT l false) := by
  cases l with
  | dial d =>
    cases d <;> tcp_simp at h
    · subst h; tcp_ghost; exact .dialFailed _ _ (by simp)
    · subst h; tcp_ghost; exact .dialFailed _ _ (by simp)
    · subst h; tcp_ghost; exact .dialFailed _ _ (by simp)
    · subst h; tcp_ghost; exact .dialFailed _ _ (by simp)
    · obtain ⟨h1, h⟩ := h; subst h; tcp_ghost; exact .dialedP h1
    · subst h; tcp_ghost; exact .dialedI
  | _ => tcp_simp at h

theorem step_dialFailed (s sock pi : Bool) (hp : pi = true → sock = true) (l : L) (w' : W)
    (h : W.step ⟨⟨s, .connecting, false, false, sock, pi, false, true, false, false, false, false, .none, .none⟩,
      .dialFailed, [], .idle, false, false, false, [], 0, 0, none, false⟩ l = some w') : Inv s w' (nextE l false) (nextF l false false) (nextT l false) := by
  cases l with
  | giveUp =>
    tcp_simp at h; subst h; tcp_ghost
    exact .leaving false true sock pi false false true false .none .none .done true false [] true hp (by simp) (by simp) (by simp) (.inr (by simp))
  | _ => tcp_simp at h

theorem step_dialedP (s : Bool) (hs : s = false) (l : L) (w' : W)
    (h : W.step ⟨⟨s, .connecting, false, false, true, true, true, true, false, false, false, false, .none, .none⟩,
      .dialed, [], .idle, false, false, false, [], 0, 0, none, false⟩ l = some w') : Inv s w' (nextE l false) (nextF l false false) (nextT l false) := by
  subst hs
  cases l with
  | attach =>
    tcp_simp at h; subst h; tcp_ghost
    exact .connecting [] false false rfl .idle
  | _ => tcp_simp at h

theorem step_dialedI (s : Bool) (l : L) (w' : W)
    (h : W.step ⟨⟨s, .established, true, false, true, true, true, true, false, false, false, false, .none, .none⟩,
      .dialed, [], .idle, false, false, false, [], 0, 0, none, false⟩ l = some w') : Inv s w' (nextE l true) (nextF l false false) (nextT l false) := by
  cases l with
  | attach =>
    cases s <;> tcp_simp at h <;> subst h <;> tcp_ghost
    · exact .estab false false .none .none .none [] .idle [] rfl rfl false rfl
    · exact .estab false false .none .none .none [] .idle [] rfl rfl false rfl
  | giveUp =>
    tcp_simp at h; obtain ⟨h0, h⟩ := h; subst h; tcp_ghost
    exact .leaving true true true true true false true false .none .none .done true false [] true (by simp) (by simp) (by simp) (by simp) (.inr (by simp))
  | _ => tcp_simp at h

theorem step_connecting (s : Bool) (net : List Micro) (e f : Bool) (hs : s = false) (hd : Dialing net e f) (l : L) (w' : W)
    (h : W.step ⟨⟨s, .connecting, false, false, true, true, true, true, true, s, false, false, .none, .none⟩,
      .live, net, .idle, false, false, false, [], 0, 0, none, false⟩ l = some w') : Inv s w' (nextE l e) (nextF l f false) (nextT l false) := by
  subst hs
  cases l with
  | poll a b c =>
    cases hd <;> cases a <;> cases b <;> tcp_simp at h <;> subst h <;> tcp_ghost
    · exact .connecting _ _ _ rfl .idle
    · exact .connecting _ _ _ rfl .endc
    · exact .connecting _ _ _ rfl .swR
    · exact .connecting _ _ _ rfl .swR
  | endConnect ok =>
    cases hd <;> cases ok <;> tcp_simp at h <;> subst h <;> tcp_ghost
    · exact .connecting _ _ _ rfl .swR
    · exact .connecting _ _ _ rfl .swE
  | net =>
    cases hd <;> tcp_simp at h <;> subst h <;> tcp_ghost
    · exact .connecting _ _ _ rfl .casR
    · exact .repR rfl
    · exact .connecting _ _ _ rfl .casE
    · exact .repE rfl
  | ready d => cases hd <;> tcp_simp at h
  | _ => cases hd <;> tcp_simp at h

theorem step_repR (s : Bool) (hs : s = false) (l : L) (w' : W) (h : W.step ⟨⟨s, .refused, false, true, true, true, true, true, true, s, false, false, .none, .none⟩,
      .live, [.rep .refused], .idle, false, false, false, [], 0, 0, none, false⟩ l = some w') : Inv s w' (nextE l false) (nextF l true false) (nextT l false) := by
  subst hs
  cases l with
  | net => tcp_simp at h; subst h; tcp_ghost; exact .refused rfl
  | _ => tcp_simp at h

theorem step_repE (s : Bool) (hs : s = false) (l : L) (w' : W) (h : W.step ⟨⟨s, .established, true, false, true, true, true, true, true, s, false, false, .none, .none⟩,
      .live, [.rep .established], .idle, false, false, false, [], 0, 0, none, false⟩ l = some w') : Inv s w' (nextE l true) (nextF l false false) (nextT l false) := by
  subst hs
  cases l with
  | net => tcp_simp at h; subst h; tcp_ghost; exact .estab false false .none .none .none [] .idle [] rfl rfl false rfl
  | _ => tcp_simp at h

theorem step_refused (s : Bool) (hs : s = false) (l : L) (w' : W) (h : W.step ⟨⟨s, .refused, false, true, true, true, true, true, true, s, false, false, .none, .none⟩,
      .live, [], .idle, false, false, false, [.refused], 0, 0, none, false⟩ l = some w') : Inv s w' (nextE l false) (nextF l true false) (nextT l false) := by
  subst hs
  cases l with
  | poll a b c => tcp_simp at h; subst h; tcp_ghost; exact .refused rfl
  | term n =>
    tcp_simp at h; subst h; tcp_ghost
    exact .leaving false true true true true true false false .none .none (.sending n) false false [.refused] true (by simp) (by simp) (by simp) (by simp) (.inl ⟨n, by simp⟩)
  | begin_ d => tcp_simp at h; subst h; tcp_ghost; exact .refused rfl
  | _ => tcp_simp at h

theorem estab_mk (s b se : Bool) (wr rd : Io) (p : Pre) (k net : List Micro) (u : Usr) (ds : List Dir) (cbs : List Cb) (f : Bool)
    (hn : net = p.ops ++ k) (hc : cbs = .established :: ds.map Cb.io) (hk : k.all Micro.isIo = true) (hu : u.before = true) (hf : f = (b || p.failing || u.failing?)) :
    Inv s ⟨⟨s, if b then .broken else .established, true, b, true, true, true, true, true, s, false, se, wr, rd⟩,
      .live, net, u, false, false, false, cbs, 0, 0, none, false⟩ true f false := by
  subst hn hc
  exact .estab b se wr rd p k u ds hk hu f hf

theorem known_estab (c : Conn) (st net u a b d cbs i j k x) : (W.mk c st net u a b d (.established :: cbs) i j k x).known = true := by
  simp [W.known]

theorem step_estab (s b se : Bool) (wr rd : Io) (p : Pre) (k : List Micro) (u : Usr) (ds : List Dir)
    (hk : k.all Micro.isIo = true) (hu : u.before = true) (f : Bool) (hf : f = (b || p.failing || u.failing?)) (l : L) (w' : W)
    (hq : (∃ n, l = .term n) → p.ops ++ k = [])
    (h : W.step ⟨⟨s, if b then .broken else .established, true, b, true, true, true, true, true, s, false, se, wr, rd⟩,
      .live, p.ops ++ k, u, false, false, false, .established :: ds.map Cb.io, 0, 0, none, false⟩ l = some w') :
    Inv s w' (nextE l true) (nextF l f false) (nextT l false) := by
  have e1 : ∀ l, nextE l true = true := by intro l; simp [nextE]
  rw [e1]
  cases l with
  | poll x y z =>
    have hn : p = .none ∧ k = [] := by
      cases p <;> simp [W.step, W.poll, Pre.ops] at h ⊢
      exact h.1
    obtain ⟨rfl, rfl⟩ := hn
    have h2 : w' = ⟨⟨s, if b then .broken else .established, true, b, true, true, true, true, true, s, false, se, wr, rd⟩,
      .live, pollCb (if b then .broken else .established) x y z, u, false, false, false, .established :: ds.map Cb.io, 0, 0, none, false⟩ := by
      simp [W.step, W.poll, Pre.ops] at h
      exact h.symm
    subst h2
    cases b with
    | true =>
      refine estab_mk s true se wr rd .none [] _ u ds _ _ (by cases x <;> cases y <;> cases z <;> rfl) rfl rfl hu ?_
      subst hf
      simp [nextF, L.isTermFailure, Pre.failing]
    | false =>
      cases x with
      | true => exact estab_mk s false se wr rd .sw _ _ u ds _ _ rfl rfl rfl hu (by simp [nextF, L.isTermFailure, Pre.failing, L.isFailure])
      | false =>
        refine estab_mk s false se wr rd .none (pollCb .established false y z) _ u ds _ _ rfl rfl (by cases y <;> cases z <;> rfl) hu ?_
        subst hf
        simp [nextF, L.isTermFailure, Pre.failing, L.isFailure]
  | net =>
    have hg : nextF .net f false = f := by simp [nextF, L.isFailure, L.isTermFailure]
    have ht : nextT .net false = false := rfl
    rw [hg, ht]
    cases p with
    | none =>
      cases k with
      | nil => simp [W.step, W.runNet, Pre.ops] at h
      | cons m k =>
        cases m <;> simp only [List.all_cons, Bool.and_eq_true, Micro.isIo, Bool.false_eq_true, false_and] at hk
        · simp [W.step, W.runNet, Pre.ops] at h
        · simp [W.step, W.runNet, Pre.ops] at h
          subst h
          exact estab_mk s b se wr rd .none k _ u (ds ++ [by assumption]) _ _ rfl (by simp) hk.2 hu hf
    | sw =>
      cases b with
      | true =>
        simp [W.step, W.runNet, Pre.ops] at h
        subst h
        exact estab_mk s true se wr rd .none k _ u ds _ _ rfl rfl hk hu (by simpa using hf)
      | false =>
        simp [W.step, W.runNet, Pre.ops] at h
        subst h
        exact estab_mk s false se wr rd .cas k _ u ds _ _ rfl rfl hk hu (by simpa [Pre.failing] using hf)
    | cas =>
      cases b with
      | true =>
        simp [W.step, W.runNet, Pre.ops, Conn.maybeSwitch, Conn.flags] at h
        subst h
        exact estab_mk s true se wr rd .sw k _ u ds _ _ rfl rfl hk hu (by simpa using hf)
      | false =>
        simp [W.step, W.runNet, Pre.ops, Conn.maybeSwitch, Conn.flags] at h
        subst h
        exact estab_mk s true se wr rd .rep k _ u ds _ _ rfl rfl hk hu (by simpa [Pre.failing] using hf)
    | rep =>
      simp [W.step, W.runNet, Pre.ops, Conn.report] at h
      subst h
      exact estab_mk s b se wr rd .none k _ u ds _ _ rfl rfl hk hu (by simpa [Pre.failing] using hf)
  | ready d =>
    have hg : nextF (.ready d) f false = f := by simp [nextF, L.isFailure, L.isTermFailure]
    have ht : nextT (.ready d) false = false := rfl
    rw [hg, ht]
    cases p with
    | none =>
      cases k with
      | nil => simp [W.step, W.ready, Pre.ops] at h
      | cons m k =>
        cases m <;> simp only [List.all_cons, Bool.and_eq_true, Micro.isIo, Bool.false_eq_true, false_and] at hk <;> simp [W.step, W.ready, Pre.ops] at h
        obtain ⟨rfl, h⟩ := h
        subst h
        rename_i d
        cases d
        · exact estab_mk s b se .avail rd .none k _ u ds _ _ rfl rfl hk.2 hu hf
        · exact estab_mk s b se wr .avail .none k _ u ds _ _ rfl rfl hk.2 hu hf
    | _ => simp [W.step, W.ready, Pre.ops] at h
  | term n =>
    have hn : p = .none ∧ k = [] := by
      have := hq ⟨n, rfl⟩
      cases p <;> simp [Pre.ops] at this ⊢
      exact this
    obtain ⟨rfl, rfl⟩ := hn
    have hi : u = .idle := by
      by_contra hne
      simp [W.step, W.term, hne] at h
    subst hi
    have hw : (nextF (.term n) f false) = (b || !n) := by
      subst hf
      cases n <;> simp [nextF, L.isTermFailure, Pre.failing, Usr.failing?, L.isFailure]
    rw [hw]
    have h2 : w' = ⟨⟨s, .terminating, true, b, true, true, true, true, true, s, false, se, wr, rd⟩,
      .leaving, [], .sending n, false, false, false, .established :: ds.map Cb.io, 0, 0, none, false⟩ := by
      cases b <;> simp [W.step, W.term, W.known, W.asyncTerminate, Conn.maybeSwitch, Conn.flags, Pre.ops, St.usable] at h <;> exact h.symm
    subst h2
    exact .leaving true b true true true true s se wr rd (.sending n) false false _ _ (by simp) (by simp) (by simp) (by simp) (.inl ⟨n, rfl, rfl, rfl, rfl⟩)
  | begin_ d =>
    have hg : nextF (.begin_ d) f false = f := by simp [nextF, L.isFailure, L.isTermFailure]
    have ht : nextT (.begin_ d) false = false := rfl
    rw [hg, ht]
    have hi : u = .idle := by
      by_contra hne
      simp [W.step, W.begin_, hne] at h
    subst hi
    cases b with
    | true =>
      simp [W.step, W.begin_, W.known, St.usableIo] at h
      subst h
      exact estab_mk s true se wr rd p k _ .idle ds _ _ rfl rfl hk rfl hf
    | false =>
      by_cases hd : d = .rd ∧ se = true
      · obtain ⟨rfl, rfl⟩ := hd
        simp [W.step, W.begin_, W.known, St.usableIo] at h
        subst h
        exact estab_mk s false true wr rd p k _ .idle ds _ _ rfl rfl hk rfl hf
      · have : w' = ⟨⟨s, .established, true, false, true, true, true, true, true, s, false, se, wr, rd⟩,
            .live, p.ops ++ k, .begun d, false, false, false, .established :: ds.map Cb.io, 0, 0, none, false⟩ := by
          simp [W.step, W.begin_, W.known, St.usableIo, hd] at h
          exact h.symm
        subst this
        exact estab_mk s false se wr rd p k _ (.begun d) ds _ _ rfl rfl hk rfl hf
  | busy d =>
    have hg : nextF (.busy d) f false = f := by simp [nextF, L.isFailure, L.isTermFailure]
    have ht : nextT (.busy d) false = false := rfl
    rw [hg, ht]
    by_cases hi : u = .begun d
    · subst hi
      simp [W.step, W.busy] at h
      subst h
      cases d
      · exact estab_mk s b se .busy rd p k _ (.busy .wr) ds _ _ rfl rfl hk rfl hf
      · exact estab_mk s b se wr .busy p k _ (.busy .rd) ds _ _ rfl rfl hk rfl hf
    · simp [W.step, W.busy, hi] at h
  | sys d r =>
    have ht : nextT (.sys d r) false = false := rfl
    rw [ht]
    by_cases hi : u = .busy d
    · subst hi
      simp [W.step, W.sys] at h
      subst h
      refine estab_mk s b se wr rd p k _ (.got d r) ds _ _ rfl rfl hk rfl ?_
      subst hf
      cases d <;> cases r <;> simp [nextF, L.isFailure, L.isTermFailure, Usr.failing?]
    · simp [W.step, W.sys, hi] at h
  | upd =>
    have hg : nextF .upd f false = f := by simp [nextF, L.isFailure, L.isTermFailure]
    have ht : nextT .upd false = false := rfl
    rw [hg, ht]
    cases u with
    | got d r =>
      simp only [W.step, W.upd] at h
      generalize hc : (if (Conn.mk s (if b = true then St.broken else St.established) true b true true true true true s false se wr rd).io d = Io.busy then
          (Conn.mk s (if b = true then St.broken else St.established) true b true true true true true s false se wr rd).setIo d (if r = Ret.bytes then Io.avail else Io.none)
          else Conn.mk s (if b = true then St.broken else St.established) true b true true true true true s false se wr rd) = c at h
      obtain ⟨wr', rd', hc'⟩ : ∃ wr' rd', c = Conn.mk s (if b = true then St.broken else St.established) true b true true true true true s false se wr' rd' := by
        subst hc
        cases d
        · cases wr <;> exact ⟨_, _, rfl⟩
        · cases rd <;> exact ⟨_, _, rfl⟩
      subst hc'
      cases r with
      | bytes =>
        simp at h; subst h
        exact estab_mk s b se wr' rd' p k _ .idle ds _ _ rfl rfl hk rfl (by cases d <;> simpa [Usr.failing?] using hf)
      | wouldBlock =>
        simp at h; subst h
        exact estab_mk s b se wr' rd' p k _ .idle ds _ _ rfl rfl hk rfl (by cases d <;> simpa [Usr.failing?] using hf)
      | streamEnd =>
        cases d with
        | wr =>
          simp at h; subst h
          exact estab_mk s b se wr' rd' p k _ .failing ds _ _ rfl rfl hk rfl (by simpa [Usr.failing?] using hf)
        | rd =>
          simp at h; subst h
          exact estab_mk s b true wr' rd' p k _ .idle ds _ _ rfl rfl hk rfl (by simpa [Usr.failing?] using hf)
      | failure =>
        simp at h; subst h
        exact estab_mk s b se wr' rd' p k _ .failing ds _ _ rfl rfl hk rfl (by cases d <;> simpa [Usr.failing?] using hf)
    | _ => simp [W.step, W.upd] at h
  | fail =>
    have hg : nextF .fail f false = f := by simp [nextF, L.isFailure, L.isTermFailure]
    have ht : nextT .fail false = false := rfl
    rw [hg, ht]
    cases u with
    | failing =>
      cases b with
      | true =>
        simp [W.step, W.fail, Conn.maybeSwitch, Conn.flags] at h
        subst h
        exact estab_mk s true se wr rd p k _ .idle ds _ _ rfl rfl hk rfl (by simpa using hf)
      | false =>
        simp [W.step, W.fail, Conn.maybeSwitch, Conn.flags] at h
        subst h
        exact estab_mk s true se wr rd p k _ .idle ds _ _ rfl rfl hk rfl (by simpa [Usr.failing?] using hf)
    | _ => simp [W.step, W.fail] at h
  | endConnect ok =>
    exfalso
    cases p <;> (try simp [W.step, W.endConnect, Pre.ops] at h)
    cases k with
    | nil => simp at h
    | cons m k => cases m <;> simp only [List.all_cons, Bool.and_eq_true, Micro.isIo, Bool.false_eq_true, false_and] at hk <;> simp at h
  | send =>
    exfalso
    cases u <;> simp [Usr.before] at hu <;> simp [W.step, W.send] at h
  | open_ ok => simp [W.step, W.open_] at h
  | dial d => simp [W.step, W.dial] at h
  | attach => simp [W.step, W.attach] at h
  | giveUp => simp [W.step, W.giveUp] at h
  | close => simp [W.step, W.close] at h
  | async x y => simp [W.step, W.async] at h
  | pollClosed x y => simp [W.step, W.pollClosed] at h
  | semClosed => simp [W.step, W.semClosed] at h

theorem step_leaving (s we wf sock pi ps hd tH se : Bool) (wr rd : Io) (u : Usr) (sp pc : Bool) (cbs : List Cb) (f : Bool)
      (hpi : pi = true → sock = true) (hps : ps = true → pi = true) (hwe : we = true → pi = true)
      (hc : if hd then (cbs = [.refused] ∧ s = false) ∨ ∃ ds : List Dir, cbs = .established :: ds.map Cb.io else cbs = [] ∧ tH = true)
      (hu : (∃ n, u = .sending n ∧ sp = false ∧ pc = false ∧ f = (wf || !n)) ∨ (u = .done ∧ f = wf ∧ sp = !pc ∧ (pc = true → pi = true ∧ ps = false))) (l : L) (w' : W)
    (h : W.step ⟨⟨s, .terminating, we, wf, sock, pi, ps, true, hd, tH, false, se, wr, rd⟩,
      .leaving, [], u, sp, pc, false, cbs, 0, 0, none, false⟩ l = some w') : Inv s w' (nextE l we) (nextF l f true) (nextT l true) := by
  have hfin : ∀ (u' : Usr) (x y z : Bool) (ww : W), (u' = .done) → (e f : Bool) →
      W.finish ⟨⟨s, .terminating, we, wf, sock, pi, false, true, hd, tH, false, se, wr, rd⟩, .leaving, [], u', false, false, false, cbs, 0, 0, none, false⟩ x y = ww →
      Inv s ww e f true := by
    intro u' x y z ww hu' e f hw
    subst hw hu'
    have hcb : ∀ l : List Cb, l = (if hd = true then [Cb.terminated] else []) → ((cbs ++ l = [] ∧ tH = true) ∨ (cbs ++ l = [.refused, .terminated] ∧ s = false) ∨ ∃ ds : List Dir, cbs ++ l = .established :: (ds.map Cb.io ++ [.terminated])) := by
      intro l hl
      subst hl
      cases hd with
      | false => simp at hc ⊢; exact .inl hc
      | true =>
        simp only [if_true] at hc ⊢
        rcases hc with ⟨hc, hs⟩ | ⟨ds, hc⟩
        · subst hc; exact .inr (.inl ⟨rfl, hs⟩)
        · subst hc; exact .inr (.inr ⟨ds, rfl⟩)
    simp only [W.finish, Conn.finishTerminate, ne_eq, not_true_eq_false, if_false]
    generalize hr : Conn.disconnect ⟨s, .terminating, we, wf, sock, false, false, true, hd, tH, false, se, wr, rd⟩ x y = r
    obtain ⟨wf', how, rfl⟩ : ∃ wf' how, r = (⟨s, .terminating, we, wf', false, false, false, true, hd, tH, false, se, wr, rd⟩, how) := by
      subst hr
      simp only [Conn.disconnect]
      cases sock <;> cases we <;> cases wf <;> cases x <;> cases y <;> exact ⟨_, _, rfl⟩
    have hm : Conn.maybeSwitch ⟨s, .terminating, we, wf', false, false, false, true, hd, tH, false, se, wr, rd⟩ .terminating .terminated =
        (⟨s, .terminated, we, wf', false, false, false, true, hd, tH, false, se, wr, rd⟩, true) := by
      simp [Conn.maybeSwitch, Conn.flags]
    simp only [hm]
    have := hcb _ (show Conn.report ⟨s, .terminating, we, wf', false, false, false, true, hd, tH, false, se, wr, rd⟩ .terminated = _ from by cases hd <;> rfl)
    have := Inv.left (s := s) we wf' tH se wr rd _ how e f this
    simpa using this
  cases l with
  | poll x y z =>
    have hw : w' = ⟨⟨s, .terminating, we, wf, sock, pi, ps, true, hd, tH, false, se, wr, rd⟩, .leaving, [], u, sp, pc, false, cbs, 0, 0, none, false⟩ := by
      simp [W.step, W.poll, pollCb] at h
      exact h.2.symm
    subst hw
    simp only [show nextE (.poll x y z) we = we from by simp [nextE, L.isEstablish], show nextF (.poll x y z) f true = f from by simp [nextF, L.isTermFailure], nextT, Bool.or_true]
    exact .leaving we wf sock pi ps hd tH se wr rd u sp pc cbs f hpi hps hwe hc hu
  | send =>
    rcases hu with ⟨n, rfl, rfl, rfl, rfl⟩ | ⟨rfl, _⟩
    · simp [W.step, W.send] at h
      subst h
      simp only [show nextE .send we = we from by simp [nextE, L.isEstablish], show nextF .send (wf || !n) true = (wf || !n) from by simp [nextF, L.isTermFailure], nextT, Bool.or_true]
      exact .leaving we _ sock pi ps hd tH se wr rd .done true false cbs _ hpi hps hwe hc (.inr ⟨rfl, rfl, rfl, by simp⟩)
    · simp [W.step, W.send] at h
  | async x y =>
    rcases hu with ⟨n, rfl, rfl, rfl, rfl⟩ | ⟨rfl, rfl, rfl, h4⟩
    · simp [W.step, W.async] at h
    · cases pc with
      | true => simp [W.step, W.async] at h
      | false =>
        cases pi with
        | false =>
          simp [W.step, W.async] at h
          have : ps = false := by cases ps <;> simp at hps ⊢
          subst this
          exact hfin _ x y true w' rfl _ _ h
        | true =>
          simp [W.step, W.async] at h
          subst h
          simp only [show nextE (.async x y) we = we from by simp [nextE, L.isEstablish], show nextF (.async x y) f true = f from by simp [nextF, L.isTermFailure], nextT, Bool.or_true]
          exact .leaving we _ sock true false hd tH se wr rd .done false true cbs _ hpi (by simp) hwe hc (.inr ⟨rfl, rfl, rfl, by simp⟩)
  | pollClosed x y =>
    rcases hu with ⟨n, rfl, rfl, rfl, rfl⟩ | ⟨rfl, rfl, rfl, h4⟩
    · simp [W.step, W.pollClosed] at h
    · cases pc with
      | false => simp [W.step, W.pollClosed] at h
      | true =>
        obtain ⟨rfl, rfl⟩ := h4 rfl
        simp [W.step, W.pollClosed] at h
        exact hfin _ x y true w' rfl _ _ h
  | term n => rcases hu with ⟨n, rfl, _⟩ | ⟨rfl, _⟩ <;> simp [W.step, W.term] at h
  | begin_ d => rcases hu with ⟨n, rfl, _⟩ | ⟨rfl, _⟩ <;> simp [W.step, W.begin_] at h
  | busy d => rcases hu with ⟨n, rfl, _⟩ | ⟨rfl, _⟩ <;> simp [W.step, W.busy] at h
  | sys d r => rcases hu with ⟨n, rfl, _⟩ | ⟨rfl, _⟩ <;> simp [W.step, W.sys] at h
  | upd => rcases hu with ⟨n, rfl, _⟩ | ⟨rfl, _⟩ <;> simp [W.step, W.upd] at h
  | fail => rcases hu with ⟨n, rfl, _⟩ | ⟨rfl, _⟩ <;> simp [W.step, W.fail] at h
  | _ => tcp_simp at h

theorem step_left (s we wf tH se : Bool) (wr rd : Io) (cbs : List Cb) (how : Option How) (e f : Bool)
      (hc : (cbs = [] ∧ tH = true) ∨ (cbs = [.refused, .terminated] ∧ s = false) ∨ ∃ ds : List Dir, cbs = .established :: (ds.map Cb.io ++ [.terminated])) (l : L) (w' : W)
    (h : W.step ⟨⟨s, .terminated, we, wf, false, false, false, true, false, tH, false, se, wr, rd⟩,
      .left, [], .done, false, false, false, cbs, if tH then 1 else 0, 0, how, false⟩ l = some w') : Inv s w' (nextE l e) (nextF l f true) (nextT l true) := by
  cases l with
  | close =>
    tcp_simp at h; subst h; tcp_ghost
    exact .closing we wf tH se wr rd cbs how e f hc
  | _ => tcp_simp at h

theorem step_closing (s we wf tH se : Bool) (wr rd : Io) (cbs : List Cb) (how : Option How) (e f : Bool)
      (hc : (cbs = [] ∧ tH = true) ∨ (cbs = [.refused, .terminated] ∧ s = false) ∨ ∃ ds : List Dir, cbs = .established :: (ds.map Cb.io ++ [.terminated])) (l : L) (w' : W)
    (h : W.step ⟨⟨s, .closing, we, wf, false, false, false, true, false, tH, true, se, wr, rd⟩,
      .closing, [], .done, false, false, true, cbs, if tH then 1 else 0, 0, how, false⟩ l = some w') : Inv s w' (nextE l e) (nextF l f true) (nextT l true) := by
  cases l with
  | semClosed =>
    tcp_simp at h; subst h; tcp_ghost
    exact .goneT we wf tH se wr rd cbs how e f hc
  | _ => tcp_simp at h

theorem Inv.step {s : Bool} {w w' : W} {e f t : Bool} {l : L} (hi : Inv s w e f t) (hq : (∃ n, l = .term n) → w.net = []) (h : w.step l = some w') :
    Inv s w' (nextE l e) (nextF l f t) (nextT l t) := by
  cases hi with
  | fresh => exact step_fresh s l w' h
  | openFailed => exact step_openFailed s l w' h
  | opened => exact step_opened s l w' h
  | dialFailed sock pi hp => exact step_dialFailed s sock pi hp l w' h
  | dialedP hs => exact step_dialedP s hs l w' h
  | dialedI => exact step_dialedI s l w' h
  | connecting net e f hs hd => exact step_connecting s net e f hs hd l w' h
  | repR hs => exact step_repR s hs l w' h
  | repE hs => exact step_repE s hs l w' h
  | refused hs => exact step_refused s hs l w' h
  | estab b se wr rd p k u ds hk hu f hf => exact step_estab s b se wr rd p k u ds hk hu f hf l w' hq h
  | leaving we wf sock pi ps hd tH se wr rd u sp pc cbs f h1 h2 h3 h4 h5 =>
    exact step_leaving s _ wf sock pi ps hd tH se wr rd u sp pc cbs f h1 h2 h3 h4 h5 l w' h
  | left we wf tH se wr rd cbs how e f hc => exact step_left s we wf tH se wr rd cbs how e f hc l w' h
  | closing we wf tH se wr rd cbs how e f hc => exact step_closing s we wf tH se wr rd cbs how e f hc l w' h
  | goneT we wf tH se wr rd cbs how e f hc => cases l <;> tcp_simp at h
  | goneO => cases l <;> tcp_simp at h

theorem Reach.inv {s : Bool} {ls : List L} {w : W} (h : Reach true s ls w) : Inv s w (establishedIn ls) (failedIn ls) (terminatedIn ls) := by
  induction h with
  | new => exact .fresh
  | step h0 hq hs ih =>
    have := ih.step (hq rfl) hs
    simpa [nextE, nextF, nextT, establishedIn, failedIn, terminatedIn] using this

end Verif.TcpConn
