import Verif.EncoderApi.Spec

/-! # Encoder and decoder: lemmas -/

namespace Verif.EncoderApi

open ApiConfig (Iface Proto Fec ifaceFromUser protoFromUser)

/-- Endpoint of an interface. -/
def Slot.ep (s : Slot) : Iface → Option Proto
  | .audioSource => s.source
  | .audioRepair => s.repair
  | .audioControl => s.control
  | .consolidated => none

/-- Adds an endpoint. -/
def Slot.set (s : Slot) (i : Iface) (p : Proto) : Slot :=
  match i with
  | .audioSource => { s with source := some p }
  | .audioRepair => { s with repair := some p }
  | .audioControl => { s with control := some p }
  | .consolidated => s

/-- What an encoder allows, computed. -/
def encOk (supp : Fec → Bool) (scheme : Fec) (i : Iface) (p : Proto) : Bool :=
  (decide (i = .audioControl) && decide (p = .rtcp))
    || (decide (fits i p = some scheme) && (decide (scheme = .none) || supp scheme))

/-- Invariant of the slot of an encoder. -/
structure EncSlot (scheme : Fec) (monitor : Bool) (s : Slot) : Prop where
  ctl : ∀ p, s.control = some p → p = .rtcp
  src : ∀ p, s.source = some p → fits .audioSource p = some scheme
  rep : ∀ p, s.repair = some p → fits .audioRepair p = some scheme
  tr : s.transport = true → s.source.isSome ∧ (s.repair.isSome ∨ scheme = .none)
  rt : s.rtcp = true → s.control.isSome
  br : s.broken = true → (monitor = false ∧ s.transport = false) ∧ s.source.isSome ∧ (s.repair.isSome ∨ scheme = .none)

/-- The second part of `senderAdd`. -/
def encFinish (scheme : Fec) (monitor : Bool) (e : Env) (s : Slot) (i : Iface) : Res :=
  match i with
  | .audioControl => senderControl e s
  | _ => senderTransport scheme monitor e s

theorem senderAdd_eq {supp : Fec → Bool} {scheme : Fec} {monitor : Bool} {e : Env} {s : Slot} {i : Iface} {p : Proto}
    (h : EncSlot scheme monitor s) (hp : s.ep i = none) :
    senderAdd supp scheme monitor e s i p =
      if encOk supp scheme i p && e.endpoint then encFinish scheme monitor e (s.set i p) i else .fail s := by
  obtain ⟨ctl, src, rep, tr, rt, br⟩ := h
  obtain ⟨so, re, co, t, r, bk⟩ := s
  obtain ⟨ep, pl⟩ := e
  clear ctl tr br
  cases i with
  | consolidated => cases p <;> cases scheme <;> simp [senderAdd, encOk, fits]
  | audioSource =>
    simp only [Slot.ep] at hp
    subst hp
    cases re with
    | none =>
      cases p <;> cases scheme <;> cases ep <;>
        simp [senderAdd, encOk, fits, validate, protoIface, protoFec, consistent, hasComposer, encFinish, Slot.set] <;>
        first
          | (cases hs : supp .rs8m <;> simp)
          | (cases hs : supp .ldpc <;> simp)
    | some r =>
      have hr := rep r rfl
      cases r <;> simp [fits] at hr <;> subst hr <;>
        cases p <;> cases ep <;>
        simp [senderAdd, encOk, fits, validate, protoIface, protoFec, consistent, hasComposer, encFinish, Slot.set,
          pairOk] <;>
        first
          | (cases hs : supp .rs8m <;> simp)
          | (cases hs : supp .ldpc <;> simp)
  | audioRepair =>
    simp only [Slot.ep] at hp
    subst hp
    cases so with
    | none =>
      cases p <;> cases scheme <;> cases ep <;>
        simp [senderAdd, encOk, fits, validate, protoIface, protoFec, consistent, hasComposer, encFinish, Slot.set] <;>
        first
          | (cases hs : supp .rs8m <;> simp)
          | (cases hs : supp .ldpc <;> simp)
    | some r =>
      have hr := src r rfl
      cases r <;> simp [fits] at hr <;> subst hr <;>
        cases p <;> cases ep <;>
        simp [senderAdd, encOk, fits, validate, protoIface, protoFec, consistent, hasComposer, encFinish, Slot.set,
          pairOk] <;>
        first
          | (cases hs : supp .rs8m <;> simp)
          | (cases hs : supp .ldpc <;> simp)
  | audioControl =>
    simp only [Slot.ep] at hp
    subst hp
    cases p <;> cases scheme <;> cases ep <;>
      simp [senderAdd, encOk, fits, validate, protoIface, protoFec, hasComposer, encFinish, Slot.set]

/-- What a decoder allows, computed from the slot. -/
def decOk (supp : Fec → Bool) (s : Slot) (i : Iface) (p : Proto) : Bool :=
  (decide (i = .audioControl) && decide (p = .rtcp))
    || match fits i p with
      | none => false
      | some f => (decide (f = .none) || supp f)
        && s.source.all (fun q => decide (fits .audioSource q = some f))
        && s.repair.all (fun q => decide (fits .audioRepair q = some f))

/-- Invariant of the slot of a decoder. -/
structure DecSlot (s : Slot) : Prop where
  ctl : ∀ p, s.control = some p → p = .rtcp
  src : ∀ p, s.source = some p → ∃ f, fits .audioSource p = some f
  rep : ∀ p, s.repair = some p → ∃ f, fits .audioRepair p = some f
  tr : s.transport = false
  rt : s.rtcp = true → s.control.isSome

/-- The last part of `receiverAdd`. -/
def decFinish (e : Env) (s : Slot) (i : Iface) (p : Proto) : Res :=
  match i with
  | .audioControl => if e.pipeline then .ok { s with control := some p, rtcp := true } else .fail s
  | _ => .ok (s.set i p)

theorem receiverAdd_eq {supp : Fec → Bool} {e : Env} {s : Slot} {i : Iface} {p : Proto}
    (h : DecSlot s) (hp : s.ep i = none) :
    receiverAdd supp e s i p =
      if decOk supp s i p && e.endpoint then decFinish e s i p else .fail s := by
  obtain ⟨ctl, src, rep, tr, rt⟩ := h
  obtain ⟨so, re, co, t, r, bk⟩ := s
  obtain ⟨ep, pl⟩ := e
  clear ctl tr
  cases i with
  | consolidated => cases p <;> simp [receiverAdd, decOk, fits]
  | audioSource =>
    simp only [Slot.ep] at hp
    subst hp
    cases re with
    | none =>
      cases p <;> cases ep <;>
        simp [receiverAdd, decOk, fits, validate, protoIface, protoFec, hasParser, decFinish, Slot.set] <;>
        first
          | (cases hs : supp .rs8m <;> simp)
          | (cases hs : supp .ldpc <;> simp)
    | some r =>
      obtain ⟨f, hr⟩ := rep r rfl
      cases r <;> simp [fits] at hr <;> subst hr <;>
        cases p <;> cases ep <;>
        simp [receiverAdd, decOk, fits, validate, protoIface, protoFec, hasParser, decFinish, Slot.set,
          pairOk] <;>
        first
          | (cases hs : supp .rs8m <;> simp)
          | (cases hs : supp .ldpc <;> simp)
  | audioRepair =>
    simp only [Slot.ep] at hp
    subst hp
    cases so with
    | none =>
      cases p <;> cases ep <;>
        simp [receiverAdd, decOk, fits, validate, protoIface, protoFec, hasParser, decFinish, Slot.set] <;>
        first
          | (cases hs : supp .rs8m <;> simp)
          | (cases hs : supp .ldpc <;> simp)
    | some r =>
      obtain ⟨f, hr⟩ := src r rfl
      cases r <;> simp [fits] at hr <;> subst hr <;>
        cases p <;> cases ep <;>
        simp [receiverAdd, decOk, fits, validate, protoIface, protoFec, hasParser, decFinish, Slot.set,
          pairOk] <;>
        first
          | (cases hs : supp .rs8m <;> simp)
          | (cases hs : supp .ldpc <;> simp)
  | audioControl =>
    simp only [Slot.ep] at hp
    subst hp
    cases r with
    | true => have := rt rfl; simp at this
    | false =>
      cases p <;> cases ep <;> cases pl <;>
        simp [receiverAdd, decOk, fits, validate, protoIface, protoFec, hasParser, decFinish, receiverControl]

end Verif.EncoderApi
