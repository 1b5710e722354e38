import Verif.SendTool.Model
import Verif.EncoderApi.Spec
import Mathlib.Tactic.Common

/-! # Endpoints on the command line of `roc-send`: the state after each loop -/

namespace Verif.SendTool

open ApiConfig (Iface Proto Fec)
open EncoderApi (protoIface protoFec)
open SenderSlots (Sink Slot Conf Ev Log Mon)

/-- Protocol of source endpoints of a scheme. -/
def sp : Fec → Proto
  | .none => .rtp
  | .rs8m => .rtpRs8mSource
  | .ldpc => .rtpLdpcSource

/-- Protocol of repair endpoints of a scheme. -/
def rp : Fec → Option Proto
  | .none => none
  | .rs8m => some .rs8mRepair
  | .ldpc => some .ldpcRepair

/-- Slot `j` when `a` slots have a source, `b` a repair and `c` a control endpoint. -/
def slotAt (f : Fec) (a b c : Nat) (mc : Nat → Bool) (j : Nat) : Slot where
  source := if j < a then some (sp f) else none
  repair := if j < b then rp f else none
  control := if j < c then some .rtcp else none
  writer := decide (j < a) && (decide (f = .none) || decide (j < b))
  mon := if j < a ∧ (f = .none ∨ j < b) then (if j < c ∧ mc j = false then .started else .stopped) else .none
  rtcp := decide (j < c)
  mcast := decide (j < c) && mc j

/-- The node when `a` slots have a source, `b` a repair and `c` a control endpoint. -/
def nodeAt (f : Fec) (a b c : Nat) (mc : Nat → Bool) : Node where
  sink := ⟨List.range a, slotAt f a b c mc, List.range (if f = .none then a else b), (if f = .none then a else b : Nat), a⟩
  slot := fun j => if j < a then some j else none
  used := fun i => match i with
    | .audioSource => if 0 < a then some (sp f) else none
    | .audioRepair => if 0 < b then rp f else none
    | .audioControl => if 0 < c then some .rtcp else none
    | .consolidated => none

theorem node_init (f : Fec) (mc : Nat → Bool) : Node.init = nodeAt f 0 0 0 mc := by
  have hs : (fun _ => Slot.empty) = slotAt f 0 0 0 mc := by
    funext j
    simp [slotAt, Slot.empty]
  have hu : (fun _ : Iface => (none : Option Proto)) = (nodeAt f 0 0 0 mc).used := by
    funext i
    cases i <;> simp [nodeAt]
  unfold Node.init Sink.init
  rw [hs, hu]
  simp [nodeAt]

theorem add_src (supp : Fec → Bool) (f : Fec) (a : Nat) (mc : Nat → Bool) (p : Proto) (m : Bool) (e : SenderSlots.Env) :
    let C := p = sp f ∧ (f = .none ∨ supp f = true) ∧ e.endpoint = true ∧ (f = .none → e.pipe = .ok)
    (C → Slot.add ⟨supp, f⟩ .empty .audioSource p m e = .added (slotAt f (a + 1) 0 0 mc a)) ∧
    (¬ C → ∃ s, Slot.add ⟨supp, f⟩ .empty .audioSource p m e = .refused s) := by
  obtain ⟨ep, pp, cm⟩ := e
  cases f <;> cases p <;> cases ep <;> cases pp <;> cases h1 : supp .rs8m <;> cases h2 : supp .ldpc <;>
    simp [Slot.add, Slot.checks, Slot.empty, EncoderApi.validate, EncoderApi.consistent, EncoderApi.pairOk, EncoderApi.hasComposer, protoIface, protoFec, sp, Slot.set,
      Slot.full, Slot.transport, Slot.startMonitor, slotAt, h1, h2]

theorem add_rep (supp : Fec → Bool) (f : Fec) (a b : Nat) (hb : b < a) (mc : Nat → Bool) (p : Proto) (m : Bool) (e : SenderSlots.Env) :
    let C := some p = rp f ∧ supp f = true ∧ e.endpoint = true ∧ e.pipe = .ok
    (C → Slot.add ⟨supp, f⟩ (slotAt f a b 0 mc b) .audioRepair p m e = .added (slotAt f a (b + 1) 0 mc b)) ∧
    (¬ C → ∃ s, Slot.add ⟨supp, f⟩ (slotAt f a b 0 mc b) .audioRepair p m e = .refused s) := by
  obtain ⟨ep, pp, cm⟩ := e
  cases f <;> cases p <;> cases ep <;> cases pp <;> cases h1 : supp .rs8m <;> cases h2 : supp .ldpc <;>
    simp [Slot.add, Slot.checks, EncoderApi.validate, EncoderApi.consistent, EncoderApi.pairOk, EncoderApi.hasComposer, protoIface, protoFec, sp, rp, Slot.set,
      Slot.full, Slot.transport, Slot.startMonitor, slotAt, h1, h2, hb]

theorem add_ctl (supp : Fec → Bool) (f : Fec) (a b c : Nat) (hc : c < a) (mc : Nat → Bool) (p : Proto) (e : SenderSlots.Env) :
    let C := p = .rtcp ∧ e.endpoint = true ∧ e.comm = true
    (C → Slot.add ⟨supp, f⟩ (slotAt f a b c mc c) .audioControl p (mc c) e = .added (slotAt f a b (c + 1) mc c)) ∧
    (¬ C → ∃ s, Slot.add ⟨supp, f⟩ (slotAt f a b c mc c) .audioControl p (mc c) e = .refused s) := by
  obtain ⟨ep, pp, cm⟩ := e
  by_cases hw : f = .none ∨ c < b
  · cases hm : mc c <;> cases p <;> cases ep <;> cases cm <;>
      simp [Slot.add, Slot.checks, EncoderApi.validate, EncoderApi.hasComposer, protoIface, protoFec, Slot.set, Slot.createControl, Slot.startMonitor, slotAt, hc, hw, hm]
  · cases hm : mc c <;> cases p <;> cases ep <;> cases cm <;>
      simp [Slot.add, Slot.checks, EncoderApi.validate, EncoderApi.hasComposer, protoIface, protoFec, Slot.set, Slot.createControl, Slot.startMonitor, slotAt, hc, hw, hm]

/-- What a pass of the loop over sources needs. -/
def SrcOk (supp : Fec → Bool) (f : Fec) (p : Proto) (e : CallEnv) : Prop :=
  p = sp f ∧ (f = .none ∨ supp f = true) ∧ e.slot = true ∧ e.identity = true ∧ e.node = true ∧ e.port = true ∧ e.add.endpoint = true ∧ (f = .none → e.add.pipe = .ok)

/-- What a pass of the loop over repair endpoints needs. -/
def RepOk (supp : Fec → Bool) (f : Fec) (p : Proto) (e : CallEnv) : Prop :=
  some p = rp f ∧ supp f = true ∧ e.port = true ∧ e.add.endpoint = true ∧ e.add.pipe = .ok

/-- What a pass of the loop over control endpoints needs. -/
def CtlOk (p : Proto) (e : CallEnv) : Prop := p = .rtcp ∧ e.port = true ∧ e.add.endpoint = true ∧ e.add.comm = true ∧ e.recv = true

theorem slots_src (f : Fec) (a : Nat) (mc : Nat → Bool) :
    SenderSlots.upd (SenderSlots.upd (slotAt f a 0 0 mc) a .empty) a (slotAt f (a + 1) 0 0 mc a) = slotAt f (a + 1) 0 0 mc := by
  funext j
  unfold SenderSlots.upd
  split
  · next h => rw [h]
  · next h =>
    have : (j < a + 1) = (j < a) := by simp only [eq_iff_iff]; omega
    simp [slotAt, this]

theorem slots_rep (f : Fec) (a b : Nat) (mc : Nat → Bool) :
    SenderSlots.upd (slotAt f a b 0 mc) b (slotAt f a (b + 1) 0 mc b) = slotAt f a (b + 1) 0 mc := by
  funext j
  unfold SenderSlots.upd
  split
  · next h => rw [h]
  · next h =>
    have : (j < b + 1) = (j < b) := by simp only [eq_iff_iff]; omega
    simp [slotAt, this]

theorem slots_ctl (f : Fec) (a b c : Nat) (mc : Nat → Bool) :
    SenderSlots.upd (slotAt f a b c mc) c (slotAt f a b (c + 1) mc c) = slotAt f a b (c + 1) mc := by
  funext j
  unfold SenderSlots.upd
  split
  · next h => rw [h]
  · next h =>
    have : (j < c + 1) = (j < c) := by simp only [eq_iff_iff]; omega
    simp [slotAt, this]

theorem connect_src (supp : Fec → Bool) (f : Fec) (a : Nat) (mc : Nat → Bool) (p : Proto) (m : Bool) (e : CallEnv) :
    (SrcOk supp f p e → (nodeAt f a 0 0 mc).connect ⟨supp, f⟩ a .audioSource (some (p, m)) e = .ok (nodeAt f (a + 1) 0 0 mc)) ∧
    (¬ SrcOk supp f p e → (nodeAt f a 0 0 mc).connect ⟨supp, f⟩ a .audioSource (some (p, m)) e =
      if e.slot = true ∧ e.identity = false then .abort else .exit) := by
  obtain ⟨es, ei, en, ept, ea, er⟩ := e
  have hl : ¬ a < a := Nat.lt_irrefl a
  cases es
  · simp [SrcOk, Node.connect, Node.getSlot, nodeAt, Sink.step]
  cases ei
  · simp [SrcOk, Node.connect, Node.getSlot, nodeAt, Sink.step]
  cases en
  · simp [SrcOk, Node.connect, Node.getSlot, nodeAt, Sink.step]
  obtain ⟨g, hg0⟩ : ∃ g, g = if f = .none then a else 0 := ⟨_, rfl⟩
  have hg : (nodeAt f a 0 0 mc).getSlot ⟨supp, f⟩ a ⟨true, true, true, ept, ea, er⟩ = .ok (⟨⟨List.range (a + 1), SenderSlots.upd (slotAt f a 0 0 mc) a .empty,
      List.range g, (g : Nat), a + 1⟩, fun j => if j < a + 1 then some j else none, (nodeAt f a 0 0 mc).used⟩, a) := by
    have : SenderSlots.upd (fun j => if j < a then some j else none) a (some a) = fun j => if j < a + 1 then some j else none := by
      funext j
      unfold SenderSlots.upd
      by_cases h : j = a
      · subst h; simp
      · have : (j < a + 1) = (j < a) := by simp only [eq_iff_iff]; omega
        simp [h, this]
    simp [Node.getSlot, nodeAt, Sink.step, this, List.range_succ, hg0]
  have ht : SenderSlots.upd (slotAt f a 0 0 mc) a .empty a = .empty := by simp [SenderSlots.upd]
  obtain ⟨h1, h2⟩ := add_src supp f a mc p m ea
  simp only [Node.connect, hg]
  simp only [Sink.step, List.mem_range, Nat.lt_succ_self, not_true_eq_false, if_false, ht]
  have hcomp : p = sp f → Node.compatible ⟨⟨List.range (a + 1), SenderSlots.upd (slotAt f a 0 0 mc) a .empty,
      List.range g, (g : Nat), a + 1⟩, fun j => if j < a + 1 then some j else none, (nodeAt f a 0 0 mc).used⟩ .audioSource p = true := by
    rintro rfl
    by_cases h : 0 < a <;> simp [Node.compatible, nodeAt, h]
  constructor
  · rintro ⟨a1, a2, -, -, -, a3, a4, a5⟩
    simp only at a3 a4 a5
    rw [hcomp a1, a3, h1 ⟨a1, a2, a4, a5⟩]
    simp only [Bool.true_eq_false, if_false, slots_src, Sink.connect]
    have hw : (slotAt f (a + 1) 0 0 mc a).writer = decide (f = .none) := by simp [slotAt]
    rw [hw]
    have hu : (fun j : Iface => if j = .audioSource then some p else (nodeAt f a 0 0 mc).used j) = (nodeAt f (a + 1) 0 0 mc).used := by
      funext i
      cases i <;> simp [nodeAt, a1]
    by_cases hf : f = .none
    · subst hf
      simp only [Node.use, hu]
      simp [nodeAt, List.range_succ, hg0]
    · simp only [Node.use, hu]
      simp [nodeAt, hf, hg0]
  · intro h
    simp only [Bool.true_eq_false, and_false, if_false]
    split
    · rfl
    split
    · rfl
    next hp =>
    have : ¬ (p = sp f ∧ (f = .none ∨ supp f = true) ∧ ea.endpoint = true ∧ (f = .none → ea.pipe = .ok)) := by
      rintro ⟨b1, b2, b3, b4⟩
      exact h ⟨b1, b2, rfl, rfl, rfl, by simpa using hp, b3, b4⟩
    obtain ⟨s, hs⟩ := h2 this
    rw [hs]

theorem connect_rep (supp : Fec → Bool) (f : Fec) (a b : Nat) (hb : b < a) (mc : Nat → Bool) (p : Proto) (m : Bool) (e : CallEnv) :
    (RepOk supp f p e → (nodeAt f a b 0 mc).connect ⟨supp, f⟩ b .audioRepair (some (p, m)) e = .ok (nodeAt f a (b + 1) 0 mc)) ∧
    (¬ RepOk supp f p e → (nodeAt f a b 0 mc).connect ⟨supp, f⟩ b .audioRepair (some (p, m)) e = .exit) := by
  have hg : (nodeAt f a b 0 mc).getSlot ⟨supp, f⟩ b e = .ok (nodeAt f a b 0 mc, b) := by
    simp [Node.getSlot, nodeAt, hb]
  obtain ⟨h1, h2⟩ := add_rep supp f a b hb mc p m e.add
  have hmem : b ∈ (nodeAt f a b 0 mc).sink.ids := by simp [nodeAt, hb]
  have hsl : (nodeAt f a b 0 mc).sink.slot b = slotAt f a b 0 mc b := rfl
  simp only [Node.connect, hg]
  simp only [Sink.step, hmem, not_true_eq_false, if_false, hsl]
  constructor
  · rintro ⟨a1, a2, a3, a4, a5⟩
    have hcomp : (nodeAt f a b 0 mc).compatible .audioRepair p = true := by
      by_cases h : 0 < b <;> simp [Node.compatible, nodeAt, h, ← a1]
    rw [hcomp, a3, h1 ⟨a1, a2, a4, a5⟩]
    simp only [Bool.true_eq_false, if_false, Sink.connect]
    have hf : f ≠ .none := by rintro rfl; cases a1
    have hw : (slotAt f a (b + 1) 0 mc b).writer = true := by simp [slotAt, hb]
    have hu : (fun j : Iface => if j = .audioRepair then some p else (nodeAt f a b 0 mc).used j) = (nodeAt f a (b + 1) 0 mc).used := by
      funext i
      cases i <;> simp [nodeAt, a1]
    simp only [Node.use, hu]
    have := slots_rep f a b mc
    simp [nodeAt, hf, this, hw, List.range_succ]
  · intro h
    split
    · rfl
    split
    · rfl
    next hp =>
    have : ¬ (some p = rp f ∧ supp f = true ∧ e.add.endpoint = true ∧ e.add.pipe = .ok) := by
      rintro ⟨b1, b2, b3, b4⟩
      exact h ⟨b1, b2, by simpa using hp, b3, b4⟩
    obtain ⟨s, hs⟩ := h2 this
    rw [hs]

theorem connect_ctl (supp : Fec → Bool) (f : Fec) (a b c : Nat) (hc : c < a) (mc : Nat → Bool) (p : Proto) (e : CallEnv) :
    (CtlOk p e → (nodeAt f a b c mc).connect ⟨supp, f⟩ c .audioControl (some (p, mc c)) e = .ok (nodeAt f a b (c + 1) mc)) ∧
    (¬ CtlOk p e → (nodeAt f a b c mc).connect ⟨supp, f⟩ c .audioControl (some (p, mc c)) e = .exit) := by
  have hg : (nodeAt f a b c mc).getSlot ⟨supp, f⟩ c e = .ok (nodeAt f a b c mc, c) := by
    simp [Node.getSlot, nodeAt, hc]
  obtain ⟨h1, h2⟩ := add_ctl supp f a b c hc mc p e.add
  have hmem : c ∈ (nodeAt f a b c mc).sink.ids := by simp [nodeAt, hc]
  have hsl : (nodeAt f a b c mc).sink.slot c = slotAt f a b c mc c := rfl
  simp only [Node.connect, hg]
  simp only [Sink.step, hmem, not_true_eq_false, if_false, hsl]
  constructor
  · rintro ⟨a1, a3, a4, a5, a6⟩
    have hcomp : (nodeAt f a b c mc).compatible .audioControl p = true := by
      by_cases h : 0 < c <;> simp [Node.compatible, nodeAt, h, a1]
    rw [hcomp, a3, h1 ⟨a1, a4, a5⟩]
    simp only [Bool.true_eq_false, if_false, Sink.connect, a6, and_false]
    have hu : (fun j : Iface => if j = .audioControl then some p else (nodeAt f a b c mc).used j) = (nodeAt f a b (c + 1) mc).used := by
      funext i
      cases i <;> simp [nodeAt, a1]
    simp only [Node.use, hu]
    have := slots_ctl f a b c mc
    simp [nodeAt, this]
  · intro h
    split
    · rfl
    split
    · rfl
    next hp =>
    by_cases hC : p = .rtcp ∧ e.add.endpoint = true ∧ e.add.comm = true
    · rw [h1 hC]
      have : e.recv = false := by
        cases hr : e.recv with
        | false => rfl
        | true => exact absurd ⟨hC.1, by simpa using hp, hC.2.1, hC.2.2, hr⟩ h
      simp [this]
    · obtain ⟨s, hs⟩ := h2 hC
      rw [hs]

end Verif.SendTool
