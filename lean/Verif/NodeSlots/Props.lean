import Verif.NodeSlots.Hist

/-!
# C90: slots of a receiver; C91: slots of a sender
-/

namespace Verif.NodeSlots

/-- **C90** Whatever calls are made of `configure`, `bind`, `unlink` and `query`, with whatever
answers of the environment, provided that no interface of a slot is bound twice before the slot is
unlinked: every request to the other threads makes sense when it is made, no live port or pipeline
slot refers to one that is gone when a call returns, and once the receiver is closed no port and no
pipeline slot is left.  (Partial: see `C90_rebind_fails` for the proviso and
`C90_control_window_fails` for the time between the requests.) -/
theorem C90_receiver_partial (os : List Op) (ks : List Nat) (h : once [] os = true)
    (hks : ∀ k, (Node.new.run .receiver os).2.slot k ≠ none → k ∈ ks) :
    World.empty.legalAll ((Node.new.run .receiver os).1
        ++ (Node.new.run .receiver os).2.destroy .receiver ks)
      ∧ (World.empty.run (Node.new.run .receiver os).1).safe
      ∧ (World.empty.run ((Node.new.run .receiver os).1
          ++ (Node.new.run .receiver os).2.destroy .receiver ks)).clean := by
  obtain ⟨a, b, -⟩ := run_good (kd := .receiver) os [] J.new
    (fun _ => ⟨h, fun k i hk => by simp [Node.new, pOf] at hk⟩)
  obtain ⟨d, e, -⟩ := destroy_good (kd := .receiver) ks b hks
  exact ⟨(legalAll_append _ _ _).2 ⟨a, d⟩, b.safe, by rw [run_append]; exact e⟩

/-- **C90** If moreover the control interface is not used, no reference dangles at any moment
either, be it between two requests of one call. -/
theorem C90_no_control_partial (os : List Op) (ks : List Nat) (h : once [] os = true)
    (hc : noControl os = true)
    (hks : ∀ k, (Node.new.run .receiver os).2.slot k ≠ none → k ∈ ks) :
    World.empty.safeAll ((Node.new.run .receiver os).1
        ++ (Node.new.run .receiver os).2.destroy .receiver ks) := by
  obtain ⟨a, b, c⟩ := run_good (kd := .receiver) os [] J.new
    (fun _ => ⟨h, fun k i hk => by simp [Node.new, pOf] at hk⟩)
  obtain ⟨c1, c2⟩ := c (NC.empty _) hc
  obtain ⟨-, -, f⟩ := destroy_good (kd := .receiver) ks b hks
  exact (safeAll_append _ _ _).2 ⟨c1, f c2⟩

/-- Two slots, one of which fails to open its second port, is unlinked and bound again. -/
def sampleR : List Op :=
  [.configure 7 .source ⟨none, 3⟩ true, .attach 7 .source {}, .attach 7 .repair { port := false },
   .attach 2 .source {}, .unlink 7, .attach 7 .source {}, .attach 7 .repair {}, .query 2]

/-- The hypotheses of `C90_receiver_partial` and `C90_no_control_partial` hold for `sampleR`, and
there is something to clean up. -/
example : once [] sampleR = true ∧ noControl sampleR = true
    ∧ (Node.new.run .receiver sampleR).1 = [.createSlot (7, 0), .addPort (7, .source, 1),
        .recv (7, .source, 1) (7, 0), .removePort (7, .source, 1), .deleteSlot (7, 0),
        .createSlot (2, 3), .addPort (2, .source, 4), .recv (2, .source, 4) (2, 3),
        .createSlot (7, 5), .addPort (7, .source, 6), .recv (7, .source, 6) (7, 5),
        .addPort (7, .repair, 7), .recv (7, .repair, 7) (7, 5)] := by
  refine ⟨by decide, by decide, by decide⟩

/-- **C90 fails** for a second `bind` of an interface: `bind` does not check that the interface is
bound already.  The second call (all answers of the environment are good; the uri names another
port) opens a second port and forgets the first one, then the pipeline refuses the second endpoint
and the slot is cleaned up: the first port stays open with a reference to the deleted pipeline slot,
and neither `unlink` nor closing of the receiver removes it. -/
theorem C90_rebind_fails (k : Nat) (i : Iface) (hi : i ≠ .consolidated) (ks : List Nat) :
    (Node.new.step .receiver (.attach k i {})).2.2 = .ok
      ∧ ((Node.new.step .receiver (.attach k i {})).2.1.step .receiver (.attach k i {})).2.2 = .failed
      ∧ ¬ (World.empty.run (Node.new.run .receiver [.attach k i {}, .attach k i {}]).1).safe
      ∧ let r := Node.new.run .receiver [.attach k i {}, .attach k i {}, .unlink k]
        let w := World.empty.run (r.1 ++ r.2.destroy .receiver ks)
        w.ports (k, i, 1) = true ∧ w.recv (k, i, 1) = some (k, 0) ∧ w.slots (k, 0) = false := by
  have hd : ∀ n : Node, (∀ j, n.slot j = none) → n.destroy .receiver ks = [] := by
    intro n hn
    induction ks with
    | nil => rfl
    | cons a as ih => simp only [Node.destroy, hn a]; exact ih
  have hn : (Node.new.run .receiver [.attach k i {}, .attach k i {}, .unlink k]).2.destroy
      .receiver ks = [] := by
    refine hd _ fun j => ?_
    cases i <;> by_cases hj : j = k <;> simp [hj, Node.run, Node.step, Node.attach, Node.getSlot, Node.new, Node.set, Slot.fresh, Slot.attach,
      Slot.bind, Node.compatible, Slot.accepts, Slot.setPort, cleanup, portActs, slotActs, ifaces,
      Slot.broke, Node.unlink, World.run, World.act, World.empty]
  dsimp only
  rw [hn]
  refine ⟨?_, ?_, ?_, ?_⟩
  · cases i <;> simp [Node.run, Node.step, Node.attach, Node.getSlot, Node.new, Node.set, Slot.fresh, Slot.attach,
      Slot.bind, Node.compatible, Slot.accepts, Slot.setPort, cleanup, portActs, slotActs, ifaces,
      Slot.broke, Node.unlink, World.run, World.act, World.empty] at hi ⊢
  · cases i <;> simp [Node.run, Node.step, Node.attach, Node.getSlot, Node.new, Node.set, Slot.fresh, Slot.attach,
      Slot.bind, Node.compatible, Slot.accepts, Slot.setPort, cleanup, portActs, slotActs, ifaces,
      Slot.broke, Node.unlink, World.run, World.act, World.empty] at hi ⊢
  · intro h
    have := h.1 (k, i, 1) (k, 0)
    cases i <;> simp [Node.run, Node.step, Node.attach, Node.getSlot, Node.new, Node.set, Slot.fresh, Slot.attach,
      Slot.bind, Node.compatible, Slot.accepts, Slot.setPort, cleanup, portActs, slotActs, ifaces,
      Slot.broke, Node.unlink, World.run, World.act, World.empty] at hi this
  · cases i <;> simp [Node.run, Node.step, Node.attach, Node.getSlot, Node.new, Node.set, Slot.fresh, Slot.attach,
      Slot.bind, Node.compatible, Slot.accepts, Slot.setPort, cleanup, portActs, slotActs, ifaces,
      Slot.broke, Node.unlink, World.run, World.act, World.empty] at hi ⊢

example : Iface.source ≠ .consolidated := by decide

/-- **C90 fails** between the requests of one call once the control interface is used: `unlink` first
removes the ports, so the pipeline slot, still running, holds the outbound writer of a removed port
until it is deleted. -/
theorem C90_control_window_fails (k : Nat) :
    ¬ World.empty.safeAll (Node.new.run .receiver [.attach k .control {}, .unlink k]).1 := by
  intro h
  have e : (Node.new.run .receiver [.attach k .control {}, .unlink k]).1
      = [.createSlot (k, 0), .addPort (k, .control, 1), .send (k, 0) (k, .control, 1),
         .recv (k, .control, 1) (k, 0), .removePort (k, .control, 1)] ++ [.deleteSlot (k, 0)] := by
    simp [Node.run, Node.step, Node.attach, Node.getSlot, Node.new, Node.set, Slot.fresh, Slot.attach,
      Slot.bind, Node.compatible, Slot.accepts, Slot.setPort, cleanup, portActs, slotActs, ifaces,
      Slot.broke, Node.unlink, World.run, World.act, World.empty]
  rw [e] at h
  have := safe_of_all ((safeAll_append _ _ _).1 h).2
  have := this.2 (k, 0) (k, .control, 1)
  simp [Node.run, Node.step, Node.attach, Node.getSlot, Node.new, Node.set, Slot.fresh, Slot.attach,
      Slot.bind, Node.compatible, Slot.accepts, Slot.setPort, cleanup, portActs, slotActs, ifaces,
      Slot.broke, Node.unlink, World.run, World.act, World.empty] at this

/-- **C90, C91** A `bind`, `connect` or `configure` that fails leaves the slot marked broken (or absent,
when it could not be created); one that succeeds leaves it not broken. -/
theorem C90_failed (kd : Kind) (n : Node) (k : Nat) (i : Iface) (e : Env) (c : Cfg) (b : Bool)
    (sl : Slot) :
    ((n.step kd (.attach k i e)).2.1.slot k = some sl →
        ((n.step kd (.attach k i e)).2.2 = .failed ↔ sl.broken = true))
      ∧ ((n.step kd (.configure k i c b)).2.1.slot k = some sl →
        ((n.step kd (.configure k i c b)).2.2 = .failed ↔ sl.broken = true)) := by
  have hbr : ∀ s : Slot, ∀ compat g, (s.attach kd k i e compat g).2.1.broken = s.broken := by
    intro s compat g
    cases kd with
    | receiver => simp only [Slot.attach, Slot.bind]; repeat' split
                  all_goals rfl
    | sender =>
      simp only [Slot.attach, Slot.connect]
      split
      · rfl
      · split
        · rfl
        · split
          · rfl
          · repeat' split
            all_goals rfl
  constructor
  · intro h
    simp only [Node.step, Node.attach] at h ⊢
    cases hg : n.getSlot k e.create with
    | none =>
      rw [hg] at h
      simp only [Node.getSlot] at hg
      cases hs : n.slot k with
      | some s => simp [hs] at hg
      | none => simp [hs] at h
    | some r =>
      obtain ⟨as, n1, s⟩ := r
      rw [hg] at h
      obtain ⟨h1, -, -⟩ := getSlot_seen hg
      dsimp only at h ⊢
      by_cases hb : s.broken = true
      · rw [if_pos hb] at h ⊢
        rw [h1] at h; cases h; simp [hb]
      · rw [if_neg hb] at h ⊢
        have := hbr s (n1.compatible i e.proto) n1.next
        split at h
        · rename_i hok
          simp only [Node.set, if_true] at h
          cases h
          rw [if_pos hok]
          simp [this, hb]
        · rename_i hok
          simp only [Node.set, if_true] at h
          cases h
          rw [if_neg hok]
          simp [Slot.broke]
  · intro h
    simp only [Node.step, Node.configure] at h ⊢
    cases hg : n.getSlot k b with
    | none =>
      rw [hg] at h
      simp only [Node.getSlot] at hg
      cases hs : n.slot k with
      | some s => simp [hs] at hg
      | none => simp [hs] at h
    | some r =>
      obtain ⟨as, n1, s⟩ := r
      rw [hg] at h
      obtain ⟨h1, -, -⟩ := getSlot_seen hg
      dsimp only at h ⊢
      by_cases hb : s.broken = true
      · rw [if_pos hb] at h ⊢
        rw [h1] at h; cases h; simp [hb]
      · rw [if_neg hb] at h ⊢
        split at h
        · rename_i hok
          simp only [Node.set, if_true] at h
          cases h
          rw [if_pos hok]
          simp [Slot.broke]
        · rename_i hok
          simp only [Node.set, if_true] at h
          cases h
          rw [if_neg hok]
          simp [Slot.setPort, hb]

/-- Both outcomes occur. -/
example : (Node.new.step .receiver (.attach 1 .source { recv := false })).2.2 = .failed
    ∧ (Node.new.step .receiver (.attach 1 .source {})).2.2 = .ok := by decide

/-- **C90** A broken slot is out of use: nothing of it is live, `bind` and `configure` fail without any
request, and `unlink` succeeds; after `unlink` the slot can be bound again as if it were new. -/
theorem C90_broken (os : List Op) (h : once [] os = true) (k : Nat)
    (sl : Slot) (hk : (Node.new.run .receiver os).2.slot k = some sl) (hb : sl.broken = true) :
    let r := Node.new.run .receiver os
    let w := World.empty.run r.1
    (∀ g, w.slots (k, g) = false) ∧ (∀ i g, w.ports (k, i, g) = false)
      ∧ (∀ i e, r.2.step .receiver (.attach k i e) = ([], r.2, .failed))
      ∧ (∀ i c b, r.2.step .receiver (.configure k i c b) = ([], r.2, .failed))
      ∧ (r.2.step .receiver (.unlink k)).1 = [] ∧ (r.2.step .receiver (.unlink k)).2.2 = .ok
      ∧ (∀ i, i ≠ .consolidated → r.2.compatible i 0 = true →
          ((r.2.step .receiver (.unlink k)).2.1.step .receiver (.attach k i {})).2.2 = .ok) := by
  obtain ⟨-, b, -⟩ := run_good (kd := .receiver) os [] J.new
    (fun _ => ⟨h, fun k i hk => by simp [Node.new, pOf] at hk⟩)
  obtain ⟨n, hn⟩ : ∃ n, n = (Node.new.run .receiver os).2 := ⟨_, rfl⟩
  obtain ⟨w, hw⟩ : ∃ w, w = World.empty.run (Node.new.run .receiver os).1 := ⟨_, rfl⟩
  rw [← hn] at hk b
  rw [← hw] at b
  dsimp only
  rw [← hn, ← hw]
  have hd := ((b k).2 sl hk).dead hb
  have hK := (b k).1
  rw [hk] at hK
  have hp : ∀ i, (sl.ports i).handle = none := hd.2
  refine ⟨fun g => ?_, fun i g => ?_, fun i e => ?_, fun i c b => ?_, ?_, ?_, fun i hi hc => ?_⟩
  · have := hK.slots g
    simp [hOf, hd.1] at this
    exact this
  · have := hK.ports i g
    simp [pOf, hd.2] at this
    exact this
  · simp [Node.step, Node.attach, Node.getSlot, hk, hb]
  · simp [Node.step, Node.configure, Node.getSlot, hk, hb]
  · simp [Node.step, Node.unlink, hk, cleanup, portActs, slotActs, ifaces, hp, hd.1]
  · simp [Node.step, Node.unlink, hk]
  · have hc' : (Node.compatible { n.set k (some (Slot.fresh n.next)) with next := n.next + 1 } i 0)
        = true := hc
    cases i <;> simp [Node.step, Node.unlink, hk, Node.set, Node.attach, Node.getSlot, Slot.fresh,
      Slot.attach, Slot.bind, Slot.accepts, Node.compatible] at hi hc ⊢ <;> simp [hc]

/-- A broken slot is reached. -/
example : ∃ sl, (Node.new.run .receiver [.attach 4 .repair { resolve := false }]).2.slot 4 = some sl
    ∧ sl.broken = true := by
  exact ⟨_, rfl, rfl⟩

/-- **C90** `query` of a slot that is not broken never aborts the process. -/
theorem C90_query_partial (os : List Op) (h : once [] os = true) (k : Nat) :
    ((Node.new.run .receiver os).2.step .receiver (.query k)).2.2 = .abort
      ↔ ∃ sl, (Node.new.run .receiver os).2.slot k = some sl ∧ sl.broken = true := by
  obtain ⟨-, b, -⟩ := run_good (kd := .receiver) os [] J.new
    (fun _ => ⟨h, fun k i hk => by simp [Node.new, pOf] at hk⟩)
  obtain ⟨n, hn⟩ : ∃ n, n = (Node.new.run .receiver os).2 := ⟨_, rfl⟩
  rw [← hn] at b ⊢
  simp only [Node.step, Node.query]
  cases hs : n.slot k with
  | none => simp
  | some sl =>
    have wf := (b k).2 sl hs
    cases hb : sl.broken with
    | false => obtain ⟨x, hx⟩ := wf.live hb; simp [hx, hb]
    | true => simp [(wf.dead hb).1, hb]

/-- **C90 fails** for `roc_receiver_query` (and the same code is in the sender, `C91_query_fails`): after
a failed `bind` the slot is still in the map, its handle is NULL, and `query` panics. -/
theorem C90_query_fails (k : Nat) (i : Iface) :
    (Node.new.step .receiver (.attach k i { resolve := false })).2.2 = .failed
      ∧ ((Node.new.step .receiver (.attach k i { resolve := false })).2.1.step .receiver
          (.query k)).2.2 = .abort := by
  cases i <;> simp [Node.query, Node.run, Node.step, Node.attach, Node.getSlot, Node.new, Node.set, Slot.fresh, Slot.attach,
      Slot.bind, Node.compatible, Slot.accepts, Slot.setPort, cleanup, portActs, slotActs, ifaces,
      Slot.broke, Node.unlink, World.run, World.act, World.empty]

/-! ### Sender -/

/-- **C91** Whatever calls are made of `configure`, `connect`, `unlink` and `query`, with whatever
answers of the environment: every request to the other threads makes sense when it is made, no live
port or pipeline slot refers to one that is gone when a call returns, and once the sender is closed no
port and no pipeline slot is left. -/
theorem C91_sender (os : List Op) (ks : List Nat)
    (hks : ∀ k, (Node.new.run .sender os).2.slot k ≠ none → k ∈ ks) :
    World.empty.legalAll ((Node.new.run .sender os).1
        ++ (Node.new.run .sender os).2.destroy .sender ks)
      ∧ (World.empty.run (Node.new.run .sender os).1).safe
      ∧ (World.empty.run ((Node.new.run .sender os).1
          ++ (Node.new.run .sender os).2.destroy .sender ks)).clean := by
  obtain ⟨a, b, -⟩ := run_good (kd := .sender) os [] J.new (by simp)
  obtain ⟨d, e, -⟩ := destroy_good (kd := .sender) ks b hks
  exact ⟨(legalAll_append _ _ _).2 ⟨a, d⟩, b.safe, by rw [run_append]; exact e⟩

/-- **C91** If moreover the control interface is not used, no reference dangles at any moment
either, be it between two requests of one call. -/
theorem C91_no_control_partial (os : List Op) (ks : List Nat) (hc : noControl os = true)
    (hks : ∀ k, (Node.new.run .sender os).2.slot k ≠ none → k ∈ ks) :
    World.empty.safeAll ((Node.new.run .sender os).1
        ++ (Node.new.run .sender os).2.destroy .sender ks) := by
  obtain ⟨a, b, c⟩ := run_good (kd := .sender) os [] J.new (by simp)
  obtain ⟨c1, c2⟩ := c (NC.empty _) hc
  obtain ⟨-, -, f⟩ := destroy_good (kd := .sender) ks b hks
  exact (safeAll_append _ _ _).2 ⟨c1, f c2⟩

/-- Source and repair share a port, a second slot uses two, a connect is repeated. -/
def sampleS : List Op :=
  [.attach 1 .source {}, .attach 1 .repair {}, .configure 5 .repair ⟨some (false, 9), 0⟩ true,
   .attach 5 .source {}, .attach 5 .repair {}, .attach 1 .source {}, .unlink 1]

example : noControl sampleS = true ∧ (Node.new.run .sender sampleS).1
    = [.createSlot (1, 0), .addPort (1, .source, 1), .send (1, 0) (1, .source, 1),
       .send (1, 0) (1, .source, 1), .createSlot (5, 3), .addPort (5, .source, 4),
       .send (5, 3) (5, .source, 4), .addPort (5, .repair, 5), .send (5, 3) (5, .repair, 5),
       .deleteSlot (1, 0), .removePort (1, .source, 1)] := by
  refine ⟨by decide, by decide⟩

/-- **C91 fails** between the requests of one call once the control interface is used: `unlink` first
deletes the pipeline slot, so the port, still receiving, holds the inbound writer of a deleted
endpoint until it is removed. -/
theorem C91_control_window_fails (k : Nat) :
    ¬ World.empty.safeAll (Node.new.run .sender [.attach k .control {}, .unlink k]).1 := by
  intro h
  have e : (Node.new.run .sender [.attach k .control {}, .unlink k]).1
      = [.createSlot (k, 0), .addPort (k, .control, 1), .send (k, 0) (k, .control, 1),
         .recv (k, .control, 1) (k, 0), .deleteSlot (k, 0)] ++ [.removePort (k, .control, 1)] := by
    simp [Slot.connect, Slot.select, Port.setup, Node.run, Node.step, Node.attach, Node.getSlot, Node.new, Node.set, Slot.fresh, Slot.attach,
      Slot.bind, Node.compatible, Slot.accepts, Slot.setPort, cleanup, portActs, slotActs, ifaces,
      Slot.broke, Node.unlink, World.run, World.act, World.empty]
  rw [e] at h
  have := safe_of_all ((safeAll_append _ _ _).1 h).2
  have := this.1 (k, .control, 1) (k, 0)
  simp [Node.run, Node.step, Node.attach, Node.getSlot, Node.new, Node.set, Slot.fresh, Slot.attach,
      Slot.bind, Node.compatible, Slot.accepts, Slot.setPort, cleanup, portActs, slotActs, ifaces,
      Slot.broke, Node.unlink, World.run, World.act, World.empty] at this

/-- **C91** Sharing of ports: when the slot has an open port that was opened with the configuration
which interface `i` has, for the family of the new address, `connect` of `i` opens no port; its
endpoint writes to a live port of the slot that was opened with this configuration. -/
theorem C91_share (os : List Op) (k : Nat) (i j : Iface) (sl : Slot) (e : Env) (g : Nat)
    (hs : (Node.new.run .sender os).2.slot k = some sl) (hb : sl.broken = false)
    (hi : i ≠ .consolidated) (hij : j ≠ i) (h0 : (sl.ports i).handle = none)
    (hj : (sl.ports j).handle = some g) (ho : (sl.ports j).orig = (sl.ports i).cfg)
    (hf : (sl.ports j).cfg.addr.map Prod.fst = some e.family) (hep : sl.ep i = false)
    (he : e = { proto := e.proto, family := e.family })
    (hc : (Node.new.run .sender os).2.compatible i e.proto = true) :
    let r := (Node.new.run .sender os).2.step .sender (.attach k i e)
    r.2.2 = .ok ∧ (∀ p, Act.addPort p ∉ r.1)
      ∧ ∃ s x y, Act.send s (k, x, y) ∈ r.1 ∧ (sl.ports x).orig = (sl.ports i).cfg
          ∧ (World.empty.run (Node.new.run .sender os).1).ports (k, x, y) = true := by
  obtain ⟨-, b, -⟩ := run_good (kd := .sender) os [] J.new (by simp)
  obtain ⟨n, hn⟩ : ∃ n, n = (Node.new.run .sender os).2 := ⟨_, rfl⟩
  obtain ⟨w, hw⟩ : ∃ w, w = World.empty.run (Node.new.run .sender os).1 := ⟨_, rfl⟩
  rw [← hn] at hs b hc ⊢
  rw [← hw] at b ⊢
  -- the selected port
  have hsel : ∃ x, sl.select i e.family = x ∧ (sl.ports x).handle.isSome = true
      ∧ (sl.ports x).orig = (sl.ports i).cfg
      ∧ (sl.ports x).cfg.addr.map Prod.fst = some e.family := by
    unfold Slot.select
    rw [if_pos ⟨hi, h0⟩]
    cases hfi : ifaces.find? fun j =>
        decide (j ≠ i) && (sl.ports j).handle.isSome
          && decide ((sl.ports j).orig = (sl.ports i).cfg)
          && decide ((sl.ports j).cfg.addr.map Prod.fst = some e.family) with
    | some x =>
      have := List.find?_some hfi
      simp only [Bool.and_eq_true, decide_eq_true_eq] at this
      exact ⟨x, rfl, this.1.1.2, this.1.2, this.2⟩
    | none =>
      have := List.find?_eq_none.1 hfi j (by cases j <;> decide)
      simp [hij, hj, ho] at this
      simp [this] at hf
  obtain ⟨x, hx, hxs, hxo, hxf⟩ := hsel
  obtain ⟨y, hy⟩ := Option.isSome_iff_exists.1 hxs
  have hsetup : (sl.ports x).setup e.family = some (sl.ports x) := by
    unfold Port.setup
    have : (sl.ports x).cfg.addr.any (fun a => a.1 != e.family) = false := by
      cases ha : (sl.ports x).cfg.addr with
      | none => rfl
      | some a => rw [ha] at hxf; simp at hxf; simp [hxf]
    rw [if_neg (by simp [this]), hy]
  have hacc : sl.accepts i e = true := by
    rw [he]; simp [Slot.accepts, hi, hep]
  have hres : ∃ sl', sl.connect k i e true n.next
      = ([.send (k, sl.handle.getD 0) (k, x, y)]
          ++ (if i = .control then [.recv (k, x, y) (k, sl.handle.getD 0)] else []), sl', true) := by
    suffices h : (sl.connect k i e true n.next).1 = [.send (k, sl.handle.getD 0) (k, x, y)]
          ++ (if i = .control then [.recv (k, x, y) (k, sl.handle.getD 0)] else [])
        ∧ (sl.connect k i e true n.next).2.2 = true from
      ⟨(sl.connect k i e true n.next).2.1, Prod.ext h.1 (Prod.ext rfl h.2)⟩
    unfold Slot.connect
    have e1 : e.uri = true := by rw [he]
    have e2 : e.resolve = true := by rw [he]
    have e3 : e.send = true := by rw [he]
    have e4 : e.inbound = true := by rw [he]
    have e5 : e.recv = true := by rw [he]
    simp only [e1, e2, e3, e4, e5, hx, hsetup, hy, hacc, Bool.not_true, Bool.or_false,
      Bool.false_eq_true, if_false, Bool.and_true, Bool.and_false, decide_eq_true_eq,
      List.nil_append]
    by_cases hc : i = .control
    · simp only [hc, if_true, and_self]
    · simp only [hc, if_false, List.append_nil, and_self]
  obtain ⟨sl', hres⟩ := hres
  have hstep : (n.step .sender (.attach k i e)).1
      = [.send (k, sl.handle.getD 0) (k, x, y)]
          ++ (if i = .control then [.recv (k, x, y) (k, sl.handle.getD 0)] else [])
      ∧ (n.step .sender (.attach k i e)).2.2 = .ok := by
    simp only [Node.step, Node.attach, Node.getSlot, hs, hb, Slot.attach, hc, hres,
      Bool.false_eq_true, if_false, if_true, List.nil_append, and_self]
  dsimp only
  rw [hstep.1, hstep.2]
  refine ⟨rfl, ?_, (k, sl.handle.getD 0), x, y, by simp, hxo, ?_⟩
  · intro p hp
    split at hp <;> simp at hp
  · have := (b k).1
    rw [hs] at this
    exact (this.ports x y).2 hy

/-- The hypotheses hold for the second interface of a slot. -/
example : ∃ sl, (Node.new.run .sender [.attach 1 .source {}]).2.slot 1 = some sl ∧ sl.broken = false
    ∧ (sl.ports .repair).handle = none ∧ (sl.ports .source).handle = some 1
    ∧ (sl.ports .source).orig = (sl.ports .repair).cfg
    ∧ (sl.ports .source).cfg.addr.map Prod.fst = some false ∧ sl.ep .repair = false
    ∧ (Node.new.run .sender [.attach 1 .source {}]).2.compatible .repair 0 = true := by
  refine ⟨_, rfl, rfl, ?_, ?_, ?_, ?_, ?_, ?_⟩ <;> decide

/-- **C91 fails** for `configure` of a connected interface: "returns a negative value if slot is
already bound or connected" (sender.h:214), but when the interface shares the port of another one,
`configure` returns success, and the new configuration has no effect on the open port. -/
theorem C91_configure_fails (k : Nat) (c : Cfg) :
    let n := (Node.new.run .sender [.attach k .source {}, .attach k .repair {}]).2
    (n.step .sender (.configure k .repair c true)).2.2 = .ok
      ∧ (n.step .sender (.configure k .repair c true)).1 = []
      ∧ (n.step .sender (.configure k .source c true)).2.2 = .failed := by
  refine ⟨?_, ?_, ?_⟩ <;> simp [Slot.connect, Slot.select, Port.setup, Node.configure, Node.run, Node.step, Node.attach, Node.getSlot, Node.new, Node.set, Slot.fresh, Slot.attach,
      Slot.bind, Node.compatible, Slot.accepts, Slot.setPort, cleanup, portActs, slotActs, ifaces,
      Slot.broke, Node.unlink, World.run, World.act, World.empty]

/-- **C91 fails** for `roc_sender_query` after a failed `connect`, as `C90_query_fails`. -/
theorem C91_query_fails (k : Nat) (i : Iface) :
    (Node.new.step .sender (.attach k i { resolve := false })).2.2 = .failed
      ∧ ((Node.new.step .sender (.attach k i { resolve := false })).2.1.step .sender
          (.query k)).2.2 = .abort := by
  cases i <;> simp [Node.query, Slot.connect, Node.run, Node.step, Node.attach, Node.getSlot, Node.new, Node.set, Slot.fresh, Slot.attach,
      Slot.bind, Node.compatible, Slot.accepts, Slot.setPort, cleanup, portActs, slotActs, ifaces,
      Slot.broke, Node.unlink, World.run, World.act, World.empty]

end Verif.NodeSlots
