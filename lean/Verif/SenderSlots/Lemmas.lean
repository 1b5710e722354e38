import Verif.SenderSlots.Spec

/-! # Slots of the sender pipeline: a single slot -/

namespace Verif.SenderSlots

open ApiConfig (Iface Proto Fec)
open EncoderApi (validate consistent pairOk hasComposer fits protoIface protoFec)

/-- Endpoint of an interface. -/
def Slot.ep (s : Slot) : Iface → Option Proto
  | .audioSource => s.source
  | .audioRepair => s.repair
  | .audioControl => s.control
  | .consolidated => none

/-- What is known of a slot; `h`: the endpoints that were returned. -/
structure SlotInv (c : Conf) (h : Iface → Option (Proto × Bool)) (s : Slot) : Prop where
  src : ∀ p, s.source = some p → fits .audioSource p = some c.scheme
  rep : ∀ p, s.repair = some p → fits .audioRepair p = some c.scheme
  ctl : ∀ p, s.control = some p → p = .rtcp
  hs : ∀ i p m, h i = some (p, m) → s.ep i = some p
  hm : ∀ p m, h .audioControl = some (p, m) → s.mcast = m
  rt : s.rtcp = (h .audioControl).isSome
  wr : s.writer = true ↔ (h .audioSource).isSome = true ∧ (c.scheme = .none ∨ (h .audioRepair).isSome = true)
  half1 : s.repair.isSome = true → (h .audioRepair).isSome = true ∨ s.source.isSome = true
  half2 : s.source.isSome = true → (h .audioSource).isSome = true ∨ s.repair.isSome = true ∨ c.scheme = .none
  mst : s.mon = .started ↔ s.writer = true ∧ s.rtcp = true ∧ s.mcast = false
  msp : s.mon = .stopped → s.writer = true
  mwr : s.writer = true → s.mon ≠ .bad ∧ s.mon ≠ .none
  mbd : s.mon = .bad → s.source.isSome = true ∧ (s.repair.isSome = true ∨ c.scheme = .none)

theorem SlotInv.empty (c : Conf) : SlotInv c (fun _ => none) .empty := by
  constructor <;> simp [Slot.empty]

/-- Allowed, computed. -/
def ok (c : Conf) (i : Iface) (p : Proto) : Bool :=
  (decide (i = .audioControl) && decide (p = .rtcp))
    || (decide (fits i p = some c.scheme) && (decide (c.scheme = .none) || c.supp c.scheme))

theorem ok_iff {c : Conf} {i : Iface} {p : Proto} : ok c i p = true ↔ Allowed c i p := by
  simp [ok, Allowed]

theorem checks_eq {c : Conf} {h : Iface → Option (Proto × Bool)} {s : Slot} (hi : SlotInv c h s) (i : Iface) (p : Proto)
    (e : Env) : s.checks c i p e = ((s.ep i).isNone && ok c i p && e.endpoint) := by
  have src := hi.src
  have rep := hi.rep
  clear hi
  obtain ⟨supp, scheme⟩ := c
  obtain ⟨so, re, co, w, m, r, mc⟩ := s
  obtain ⟨ep, pl, cm⟩ := e
  cases i with
  | consolidated => cases p <;> cases scheme <;> simp [Slot.checks, ok, fits]
  | audioSource =>
    cases so with
    | some q => simp [Slot.checks, Slot.ep]
    | none =>
      cases re with
      | none =>
        cases p <;> cases scheme <;> cases ep <;>
          simp [Slot.checks, Slot.ep, ok, fits, validate, protoIface, protoFec, consistent, hasComposer]
      | some r =>
        have hr := rep r rfl
        cases r <;> simp [fits] at hr <;> subst hr <;>
          cases p <;> cases ep <;>
          simp [Slot.checks, Slot.ep, ok, fits, validate, protoIface, protoFec, consistent, hasComposer, pairOk]
  | audioRepair =>
    cases re with
    | some q => simp [Slot.checks, Slot.ep]
    | none =>
      cases so with
      | none =>
        cases p <;> cases scheme <;> cases ep <;>
          simp [Slot.checks, Slot.ep, ok, fits, validate, protoIface, protoFec, consistent, hasComposer]
      | some r =>
        have hr := src r rfl
        cases r <;> simp [fits] at hr <;> subst hr <;>
          cases p <;> cases ep <;>
          simp [Slot.checks, Slot.ep, ok, fits, validate, protoIface, protoFec, consistent, hasComposer, pairOk]
  | audioControl =>
    cases p <;> cases scheme <;> cases ep <;>
      simp [Slot.checks, Slot.ep, ok, fits, validate, protoIface, protoFec, hasComposer]

/-- The history with one more endpoint. -/
def plus (h : Iface → Option (Proto × Bool)) (i : Iface) (x : Proto × Bool) : Iface → Option (Proto × Bool) :=
  fun j => if j = i then some x else h j

/-- What a call does to the slot. -/
def Good (c : Conf) (h : Iface → Option (Proto × Bool)) (s : Slot) (i : Iface) (p : Proto) (mc : Bool) (e : Env) :
    SRes → Prop
  | .refused s' => SlotInv c h s' ∧ s'.writer = s.writer ∧ s'.rtcp = s.rtcp
      ∧ (s.ep i = none → ok c i p = true → e ≠ .rich)
      ∧ (s.source.isSome → s'.source.isSome) ∧ (s.repair.isSome → s'.repair.isSome)
      ∧ ((s.ep i).isSome ∨ ok c i p = false → s' = s)
  | .added s' => SlotInv c (plus h i (p, mc)) s' ∧ s.ep i = none ∧ ok c i p = true ∧ i ≠ .consolidated
      ∧ (s.source.isSome → s'.source.isSome) ∧ (s.repair.isSome → s'.repair.isSome)
      ∧ (∀ j, j ≠ i → s'.ep j = s.ep j) ∧ (s.mon ≠ .bad → s'.mon ≠ .bad)
      ∧ (i = .audioControl → s'.writer = s.writer)
  | .abort => s.mon = .bad ∧ i = .audioControl ∧ p = .rtcp ∧ mc = false ∧ s.control = none

theorem add_good {c : Conf} {h : Iface → Option (Proto × Bool)} {s : Slot} (hi : SlotInv c h s) (i : Iface) (p : Proto)
    (mc : Bool) (e : Env) : Good c h s i p mc e (s.add c i p mc e) := by
  unfold Slot.add
  rw [checks_eq hi]
  cases hk : ((s.ep i).isNone && ok c i p && e.endpoint) with
  | false =>
    rw [if_pos rfl]
    refine ⟨hi, rfl, rfl, ?_, id, id, fun _ => rfl⟩
    rintro h1 h2 rfl
    rw [h1, h2] at hk; simp [Env.rich] at hk
  | true =>
    rw [if_neg (by simp)]
    simp only [Bool.and_eq_true, Option.isNone_iff_eq_none] at hk
    obtain ⟨⟨hep, hok⟩, hen⟩ := hk
    have hnone : h i = none := by
      cases hh : h i with
      | none => rfl
      | some x => have := hi.hs i x.1 x.2 hh; rw [hep] at this; simp at this
    obtain ⟨src, rep, ctl, hs, hm, rt, wr, half1, half2, mst, msp, mwr, mbd⟩ := hi
    obtain ⟨so, re, co, w, m, r, mm⟩ := s
    obtain ⟨supp, scheme⟩ := c
    obtain ⟨een, ep, ec⟩ := e
    dsimp only at hen src rep ctl hm rt wr half1 half2 mst msp mwr mbd
    subst hen
    cases i with
    | consolidated => simp [ok, fits] at hok
    | audioControl =>
      simp only [Slot.ep] at hep
      subst hep
      have hr : r = false := by rw [rt, hnone]; rfl
      subst hr
      have hp : p = .rtcp := by cases p <;> simp [ok, fits] at hok ⊢
      subst hp
      simp only [Slot.set, Slot.createControl]
      cases ec with
      | false =>
        refine ⟨⟨src, rep, by simp, ?_, by simp [hnone], rt, wr, half1, half2, ?_, msp, mwr, mbd⟩, rfl, rfl,
          by simp [Env.rich], id, id, by simp [Slot.ep, hok]⟩
        · intro j q m' hj
          have := hs j q m' hj
          cases j <;> first | exact this | (simp [Slot.ep] at this; done) | contradiction
        · simp_all
      | true =>
        have hinv : ∀ m', (m' = .started ↔ w = true ∧ mc = false) → (m' = .stopped → w = true) →
            (w = true → m' ≠ .bad ∧ m' ≠ .none) → (m' = .bad → m = .bad) →
            SlotInv ⟨supp, scheme⟩ (plus h .audioControl (.rtcp, mc)) ⟨so, re, some .rtcp, w, m', true, mc⟩ := by
          intro m' h1 h2 h3 h4
          refine ⟨src, rep, by simp, ?_, by simp [plus], by simp [plus], by simpa [plus] using wr,
            by simpa [plus] using half1, by simpa [plus] using half2, by simpa using h1, h2, h3, fun h5 => mbd (h4 h5)⟩
          intro j q m'' hj
          simp only [plus] at hj
          split at hj
          · subst_vars; simp at hj; simp [Slot.ep, hj]
          · have := hs j q m'' hj
            cases j <;> first | exact this | (simp [Slot.ep] at this; done) | contradiction
        have hrest : ∀ m', (m ≠ .bad → m' ≠ .bad) →
            SlotInv ⟨supp, scheme⟩ (plus h .audioControl (.rtcp, mc)) ⟨so, re, some .rtcp, w, m', true, mc⟩ →
            Good ⟨supp, scheme⟩ h ⟨so, re, none, w, m, false, mm⟩ .audioControl .rtcp mc ⟨true, ep, true⟩
              (.added ⟨so, re, some .rtcp, w, m', true, mc⟩) := by
          intro m' h1 h2
          refine ⟨h2, rfl, hok, by simp, id, id, ?_, h1, fun _ => rfl⟩
          intro j hj
          cases j <;> first | rfl | exact absurd rfl hj
        simp only [Slot.startMonitor]
        cases m with
        | none => exact hrest _ id (hinv _ (by simp; intro h5; exact absurd rfl (mwr h5).2) (by simp) mwr id)
        | started => simp at mst
        | bad =>
          cases mc with
          | true => exact hrest _ id (hinv _ (by simp) (by simp) mwr id)
          | false => exact ⟨rfl, rfl, rfl, rfl, rfl⟩
        | stopped =>
          have hw : w = true := msp rfl
          subst hw
          cases mc with
          | true => exact hrest _ id (hinv _ (by simp) msp mwr id)
          | false => exact hrest _ (by simp) (hinv _ (by simp) (by simp) (by simp) (by simp))
    | audioSource =>
      simp only [Slot.ep] at hep
      subst hep
      have hf : fits .audioSource p = some scheme := by simp [ok] at hok; exact hok.1
      have hw : w = false := by
        cases w with
        | false => rfl
        | true => have := (wr.1 rfl).1; rw [hnone] at this; simp at this
      subst hw
      have hsj : ∀ m', ∀ j q m'', plus h .audioSource (p, mc) j = some (q, m'') →
          Slot.ep ⟨some p, re, co, true, m', r, mm⟩ j = some q := by
        intro m' j q m'' hj
        simp only [plus] at hj
        split at hj
        · subst_vars; simp at hj; simp [Slot.ep, hj]
        · have := hs j q m'' hj
          cases j <;> first | exact this | (simp [Slot.ep] at this; done) | contradiction
      have hsj' : ∀ j q m'', h j = some (q, m'') → Slot.ep ⟨some p, re, co, false, m, r, mm⟩ j = some q := by
        intro j q m'' hj
        have := hs j q m'' hj
        cases j <;> first | exact this | (simp [Slot.ep] at this; done) | contradiction
      have hne : m ≠ .bad := by rintro rfl; simp at mbd
      by_cases hc : re.isSome = true ∨ scheme = .none
      · have hr : scheme = .none ∨ (h .audioRepair).isSome = true := by
          rcases hc with hc | hc
          · right
            rcases half1 hc with h5 | h5
            · exact h5
            · simp at h5
          · exact Or.inl hc
        rw [if_pos (by simp [Slot.full, Slot.set, hc])]
        simp only [Slot.set, Slot.transport]
        cases ep with
        | early =>
          refine ⟨⟨by simp [hf], rep, ctl, hsj', hm, rt, by simp [hnone], by simp, by intro _; exact Or.inr hc, by simpa using mst,
            by simpa using msp, by simp, fun _ => ⟨rfl, hc⟩⟩, rfl, rfl, by simp [Env.rich], by simp, id, by simp [Slot.ep, hok]⟩
        | badMonitor =>
          refine ⟨⟨by simp [hf], rep, ctl, hsj', hm, rt, by simp [hnone], by simp, by intro _; exact Or.inr hc, by simp,
            by simp, by simp, fun _ => ⟨rfl, hc⟩⟩, rfl, rfl, by simp [Env.rich], by simp, id, by simp [Slot.ep, hok]⟩
        | ok =>
          have hrest : ∀ m', (m' = .started ↔ r = true ∧ mm = false) → m' ≠ .bad → m' ≠ .none →
              Good ⟨supp, scheme⟩ h ⟨none, re, co, false, m, r, mm⟩ .audioSource p mc ⟨true, .ok, ec⟩
              (.added ⟨some p, re, co, true, m', r, mm⟩) := by
            intro m' h1 h2 h3
            refine ⟨⟨by simp [hf], rep, ctl, hsj m', by simpa [plus] using hm, by simpa [plus] using rt,
              by simpa [plus] using hr, by simp, by simp [plus], by simpa using h1,
              by simp, fun _ => ⟨h2, h3⟩, fun h5 => absurd h5 h2⟩, rfl, hok, by simp, by simp, id, ?_, fun _ => h2, by simp⟩
            intro j hj
            cases j <;> first | rfl | exact absurd rfl hj
          simp only [Slot.startMonitor]
          cases r <;> cases mm <;> exact hrest _ (by simp) (by simp) (by simp)
      · rw [if_neg (by simp [Slot.full, Slot.set]; simpa using hc)]
        simp only [Slot.set]
        refine ⟨⟨by simp [hf], rep, ctl, ?_, by simpa [plus] using hm, by simpa [plus] using rt,
              ?_, by simp, by simp [plus], by simpa using mst,
              by simpa using msp, by simp, fun h5 => absurd h5 hne⟩, rfl, hok, by simp, by simp, id, ?_, id, by simp⟩
        · intro j q m'' hj
          have := hsj m j q m'' hj
          cases j <;> simpa [Slot.ep] using this
        · simp only [plus]
          simp only [Bool.false_eq_true, false_iff, not_and]
          intro _ h5
          rcases h5 with h5 | h5
          · exact hc (Or.inr h5)
          · apply hc; left
            rw [if_neg (by simp)] at h5
            cases hh : h .audioRepair with
            | none => rw [hh] at h5; simp at h5
            | some x => have := hs .audioRepair x.1 x.2 hh; simp [Slot.ep] at this; rw [this]; rfl
        · intro j hj
          cases j <;> first | rfl | exact absurd rfl hj
    | audioRepair =>
      simp only [Slot.ep] at hep
      subst hep
      have hf : fits .audioRepair p = some scheme := by simp [ok] at hok; exact hok.1
      have hfn : scheme ≠ .none := by cases p <;> simp [fits] at hf <;> subst hf <;> simp
      have hw : w = false := by
        cases w with
        | false => rfl
        | true =>
          rcases (wr.1 rfl).2 with h5 | h5
          · exact absurd h5 hfn
          · rw [hnone] at h5; simp at h5
      subst hw
      have hsj : ∀ m', ∀ j q m'', plus h .audioRepair (p, mc) j = some (q, m'') →
          Slot.ep ⟨so, some p, co, true, m', r, mm⟩ j = some q := by
        intro m' j q m'' hj
        simp only [plus] at hj
        split at hj
        · subst_vars; simp at hj; simp [Slot.ep, hj]
        · have := hs j q m'' hj
          cases j <;> first | exact this | (simp [Slot.ep] at this; done) | contradiction
      have hsj' : ∀ j q m'', h j = some (q, m'') → Slot.ep ⟨so, some p, co, false, m, r, mm⟩ j = some q := by
        intro j q m'' hj
        have := hs j q m'' hj
        cases j <;> first | exact this | (simp [Slot.ep] at this; done) | contradiction
      have hne : m ≠ .bad := by rintro rfl; simp [hfn] at mbd
      by_cases hc : so.isSome = true
      · have hr : (h .audioSource).isSome = true := by
          rcases half2 hc with h5 | h5 | h5
          · exact h5
          · simp at h5
          · exact absurd h5 hfn
        rw [if_pos (by simp [Slot.full, Slot.set, hc])]
        simp only [Slot.set, Slot.transport]
        cases ep with
        | early =>
          refine ⟨⟨src, by simp [hf], ctl, hsj', hm, rt, by simp [hnone, hfn], fun _ => Or.inr hc, by simp, by simpa using mst,
            by simpa using msp, by simp, fun _ => ⟨hc, Or.inl rfl⟩⟩, rfl, rfl, by simp [Env.rich], id, by simp, by simp [Slot.ep, hok]⟩
        | badMonitor =>
          refine ⟨⟨src, by simp [hf], ctl, hsj', hm, rt, by simp [hnone, hfn], fun _ => Or.inr hc, by simp, by simp,
            by simp, by simp, fun _ => ⟨hc, Or.inl rfl⟩⟩, rfl, rfl, by simp [Env.rich], id, by simp, by simp [Slot.ep, hok]⟩
        | ok =>
          have hrest : ∀ m', (m' = .started ↔ r = true ∧ mm = false) → m' ≠ .bad → m' ≠ .none →
              Good ⟨supp, scheme⟩ h ⟨so, none, co, false, m, r, mm⟩ .audioRepair p mc ⟨true, .ok, ec⟩
              (.added ⟨so, some p, co, true, m', r, mm⟩) := by
            intro m' h1 h2 h3
            refine ⟨⟨src, by simp [hf], ctl, hsj m', by simpa [plus] using hm, by simpa [plus] using rt,
              by simpa [plus] using hr, by simp [plus], by simp, by simpa using h1,
              by simp, fun _ => ⟨h2, h3⟩, fun h5 => absurd h5 h2⟩, rfl, hok, by simp, id, by simp, ?_, fun _ => h2, by simp⟩
            intro j hj
            cases j <;> first | rfl | exact absurd rfl hj
          simp only [Slot.startMonitor]
          cases r <;> cases mm <;> exact hrest _ (by simp) (by simp) (by simp)
      · rw [if_neg (by simp [Slot.full, Slot.set]; simpa using hc)]
        simp only [Slot.set]
        refine ⟨⟨src, by simp [hf], ctl, ?_, by simpa [plus] using hm, by simpa [plus] using rt,
              ?_, by simp [plus], by simp, by simpa using mst,
              by simpa using msp, by simp, fun h5 => absurd h5 hne⟩, rfl, hok, by simp, id, by simp, ?_, id, by simp⟩
        · intro j q m'' hj
          have := hsj m j q m'' hj
          cases j <;> simpa [Slot.ep] using this
        · simp only [plus]
          simp only [Bool.false_eq_true, false_iff, not_and]
          intro h5
          exfalso
          apply hc
          rw [if_neg (by simp)] at h5
          cases hh : h .audioSource with
          | none => rw [hh] at h5; simp at h5
          | some x => have := hs .audioSource x.1 x.2 hh; simp [Slot.ep] at this; rw [this]; rfl
        · intro j hj
          cases j <;> first | rfl | exact absurd rfl hj

end Verif.SenderSlots
