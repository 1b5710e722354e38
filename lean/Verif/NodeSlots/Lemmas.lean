import Verif.NodeSlots.Spec

namespace Verif.NodeSlots

/-- Slot index an act belongs to. -/
def Act.key : Act → Nat
  | .createSlot s => s.1
  | .deleteSlot s => s.1
  | .addPort p => p.1
  | .removePort p => p.1
  | .send s _ => s.1
  | .recv p _ => p.1

/-- Acts that only the control interface needs. -/
def Act.ctl : Kind → Act → Bool
  | .receiver, .send _ _ => true
  | .sender, .recv _ _ => true
  | _, _ => false

def NC : Kind → World → Prop
  | .receiver, w => ∀ s p, w.send s p = false
  | .sender, w => ∀ p, w.recv p = none

structure KK (sr ss : Bool) (k : Nat) (h : Option Nat) (p : Iface → Option Nat) (w : World) :
    Prop where
  slots : ∀ g, w.slots (k, g) = true ↔ h = some g
  ports : ∀ i g, w.ports (k, i, g) = true ↔ p i = some g
  recv : ∀ i g s, w.recv (k, i, g) = some s →
    p i = some g ∧ ∃ h', s = (k, h') ∧ (sr = true → h = some h')
  send : ∀ g q, w.send (k, g) q = true →
    h = some g ∧ ∃ i g', q = (k, i, g') ∧ (ss = true → p i = some g')

abbrev K := KK true true

def safeK (k : Nat) (w : World) : Prop :=
  (∀ i g s, w.recv (k, i, g) = some s → w.slots s = true)
    ∧ (∀ g q, w.send (k, g) q = true → w.ports q = true)

def safeAllK (k : Nat) (w : World) : List Act → Prop
  | [] => safeK k w
  | a :: as => safeK k w ∧ safeAllK k (w.act a) as

theorem run_append (w : World) (as bs : List Act) : w.run (as ++ bs) = (w.run as).run bs := by
  induction as generalizing w with
  | nil => rfl
  | cons a as ih => exact ih _

theorem legalAll_append (w : World) (as bs : List Act) :
    w.legalAll (as ++ bs) ↔ w.legalAll as ∧ (w.run as).legalAll bs := by
  induction as generalizing w with
  | nil => simp [World.legalAll, World.run]
  | cons a as ih => simp [World.legalAll, World.run, ih, and_assoc]

theorem safeK_of_all {k w as} (h : safeAllK k w as) : safeK k w := by
  cases as with
  | nil => exact h
  | cons a as => exact h.1

theorem safeAllK_append (k : Nat) (w : World) (as bs : List Act) :
    safeAllK k w (as ++ bs) ↔ safeAllK k w as ∧ safeAllK k (w.run as) bs := by
  induction as generalizing w with
  | nil => exact ⟨fun h => ⟨safeK_of_all h, h⟩, fun h => h.2⟩
  | cons a as ih => simp [safeAllK, World.run, ih, and_assoc]

theorem safe_of_all {w : World} {as} (h : w.safeAll as) : w.safe := by
  cases as with
  | nil => exact h
  | cons a as => exact h.1

theorem safeAll_append (w : World) (as bs : List Act) :
    w.safeAll (as ++ bs) ↔ w.safeAll as ∧ (w.run as).safeAll bs := by
  induction as generalizing w with
  | nil => exact ⟨fun h => ⟨safe_of_all h, h⟩, fun h => h.2⟩
  | cons a as ih => simp [World.safeAll, World.run, ih, and_assoc]

theorem NC_act {kd : Kind} {w : World} {a : Act} (h : NC kd w) (ha : a.ctl kd = false) :
    NC kd (w.act a) := by
  cases kd <;> cases a <;> simp only [NC, World.act, Act.ctl] at h ha ⊢ <;>
    first
      | exact h
      | (intro x y; split <;> simp_all)
      | (intro x; split <;> simp_all)
      | simp at ha

theorem NC_run {kd : Kind} {w : World} {as : List Act} (h : NC kd w)
    (ha : ∀ a ∈ as, a.ctl kd = false) : NC kd (w.run as) := by
  induction as generalizing w with
  | nil => exact h
  | cons a as ih =>
    exact ih (NC_act h (ha a (by simp))) fun b hb => ha b (by simp [hb])

/-- Acts of one slot do not concern another. -/
theorem frame_act {sr ss k h p w} {a : Act} (hk : a.key ≠ k) (H : KK sr ss k h p w) :
    KK sr ss k h p (w.act a) := by
  have e1 : ∀ g, (w.act a).slots (k, g) = w.slots (k, g) := by
    intro g
    cases a <;> simp only [World.act, Act.key] at hk ⊢ <;>
      first | rfl | (rw [if_neg]; rintro rfl; exact hk rfl)
  have e2 : ∀ i g, (w.act a).ports (k, i, g) = w.ports (k, i, g) := by
    intro i g
    cases a <;> simp only [World.act, Act.key] at hk ⊢ <;>
      first | rfl | (rw [if_neg]; rintro rfl; exact hk rfl)
  have e3 : ∀ i g, (w.act a).recv (k, i, g) = w.recv (k, i, g) := by
    intro i g
    cases a <;> simp only [World.act, Act.key] at hk ⊢ <;>
      first | rfl | (rw [if_neg]; rintro rfl; exact hk rfl)
  have e4 : ∀ g q, (w.act a).send (k, g) q = w.send (k, g) q := by
    intro g q
    cases a <;> simp only [World.act, Act.key] at hk ⊢ <;>
      first
        | rfl
        | (rw [if_neg]; rintro rfl; exact hk rfl)
        | (rw [if_neg]; rintro ⟨rfl, _⟩; exact hk rfl)
  constructor
  · intro g; rw [e1]; exact H.slots g
  · intro i g; rw [e2]; exact H.ports i g
  · intro i g s; rw [e3]; exact H.recv i g s
  · intro g q; rw [e4]; exact H.send g q

theorem frame_run {sr ss k h p w} {as : List Act} (hk : ∀ a ∈ as, a.key ≠ k)
    (H : KK sr ss k h p w) : KK sr ss k h p (w.run as) := by
  induction as generalizing w with
  | nil => exact H
  | cons a as ih => exact ih (fun b hb => hk b (by simp [hb])) (frame_act (hk a (by simp)) H)

theorem K.safeK {k h p w} (H : K k h p w) : safeK k w := by
  constructor
  · intro i g s hs
    obtain ⟨_, h', rfl, hh⟩ := H.recv i g s hs
    exact (H.slots h').2 (hh rfl)
  · intro g q hq
    obtain ⟨_, i, g', rfl, hh⟩ := H.send g q hq
    exact (H.ports i g').2 (hh rfl)

/-- What a list of acts on one slot achieves. -/
structure Good (kd : Kind) (k : Nat) (w : World) (as : List Act) (h' : Option Nat)
    (p' : Iface → Option Nat) : Prop where
  legal : w.legalAll as
  fin : K k h' p' (w.run as)
  key : ∀ a ∈ as, a.key = k
  safe : NC kd w → (∀ a ∈ as, a.ctl kd = false) → safeAllK k w as

theorem Good.nil {kd k w h p} (H : K k h p w) : Good kd k w [] h p :=
  ⟨trivial, H, by simp, fun _ _ => H.safeK⟩

theorem Good.append {kd k w as bs h1 p1 h2 p2} (A : Good kd k w as h1 p1)
    (B : Good kd k (w.run as) bs h2 p2) : Good kd k w (as ++ bs) h2 p2 := by
  refine ⟨(legalAll_append _ _ _).2 ⟨A.legal, B.legal⟩, ?_, ?_, ?_⟩
  · rw [run_append]; exact B.fin
  · intro a ha
    rcases List.mem_append.1 ha with h | h
    · exact A.key a h
    · exact B.key a h
  · intro hn hc
    have ha : ∀ a ∈ as, a.ctl kd = false := fun a h => hc a (List.mem_append_left _ h)
    have hb : ∀ a ∈ bs, a.ctl kd = false := fun a h => hc a (List.mem_append_right _ h)
    exact (safeAllK_append _ _ _ _).2 ⟨A.safe hn ha, B.safe (NC_run hn ha) hb⟩

theorem Good.cons {kd k w a as h1 p1 h2 p2} (A : Good kd k w [a] h1 p1)
    (B : Good kd k (w.act a) as h2 p2) : Good kd k w (a :: as) h2 p2 :=
  Good.append (as := [a]) A B

theorem Good.one {kd k w a h p h' p'} (H : K k h p w) (L : w.legal a) (F : K k h' p' (w.act a))
    (hk : a.key = k) : Good kd k w [a] h' p' :=
  ⟨⟨L, trivial⟩, F, by simpa using hk, fun _ _ => ⟨H.safeK, F.safeK⟩⟩

/-- One handle of a slot's ports changed. -/
def upd (p : Iface → Option Nat) (i : Iface) (v : Option Nat) : Iface → Option Nat :=
  fun j => if j = i then v else p j

theorem Good.create {kd k w p} (g : Nat) (H : K k none p w) :
    Good kd k w [.createSlot (k, g)] (some g) p := by
  refine Good.one H ?_ ?_ rfl
  · have := H.slots g
    simp only [World.legal]
    cases hw : w.slots (k, g) with
    | false => rfl
    | true => simp [hw] at this
  · constructor
    · intro g'
      simp only [World.act, Prod.mk.injEq, true_and]
      split
      · rename_i e; subst e; simp
      · rename_i e; rw [H.slots]; simp; exact fun h => e h.symm
    · exact H.ports
    · intro i g' s hs
      obtain ⟨_, h', _, hh⟩ := H.recv i g' s hs
      simp at hh
    · intro g' q hq
      obtain ⟨hh, _⟩ := H.send g' q hq
      simp at hh

theorem Good.addPort {kd k w h p} (i : Iface) (g : Nat) (H : K k h p w) (hp : p i = none) :
    Good kd k w [.addPort (k, i, g)] h (upd p i (some g)) := by
  have h0 : ∀ g', w.ports (k, i, g') = false := by
    intro g'
    have := H.ports i g'
    cases hw : w.ports (k, i, g') with
    | false => rfl
    | true => simp [hw, hp] at this
  refine Good.one H (h0 g) ?_ rfl
  constructor
  · exact H.slots
  · intro j g'
    simp only [World.act, Prod.mk.injEq, true_and, upd]
    by_cases hj : j = i
    · subst hj
      simp only [true_and, if_true]
      split
      · rename_i e; subst e; simp
      · rename_i e; rw [h0]; simp; exact fun h => e h.symm
    · simp only [hj, false_and, if_false]; exact H.ports j g'
  · intro j g' s hs
    obtain ⟨h1, h2⟩ := H.recv j g' s hs
    refine ⟨?_, h2⟩
    have : j ≠ i := by rintro rfl; simp [hp] at h1
    simp [upd, this, h1]
  · intro g' q hq
    obtain ⟨h1, j, g2, rfl, h2⟩ := H.send g' q hq
    refine ⟨h1, j, g2, rfl, fun _ => ?_⟩
    have h3 := h2 rfl
    have : j ≠ i := by rintro rfl; simp [hp] at h3
    simp [upd, this, h3]

theorem Good.send {kd k w h p g i g'} (H : K k h p w) (hh : h = some g) (hp : p i = some g') :
    Good kd k w [.send (k, g) (k, i, g')] h p := by
  refine Good.one H ⟨(H.slots g).2 hh, (H.ports i g').2 hp⟩ ?_ rfl
  refine ⟨H.slots, H.ports, H.recv, ?_⟩
  intro x q hq
  simp only [World.act] at hq
  split at hq
  · rename_i e
    obtain ⟨e1, e2⟩ := e
    simp only [Prod.mk.injEq, true_and] at e1
    subst e1 e2
    exact ⟨hh, i, g', rfl, fun _ => hp⟩
  · exact H.send x q hq

theorem Good.recv {kd k w h p g i g'} (H : K k h p w) (hh : h = some g) (hp : p i = some g') :
    Good kd k w [.recv (k, i, g') (k, g)] h p := by
  refine Good.one H ⟨(H.ports i g').2 hp, (H.slots g).2 hh⟩ ?_ rfl
  refine ⟨H.slots, H.ports, ?_, H.send⟩
  intro j x s hq
  simp only [World.act] at hq
  split at hq
  · rename_i e
    simp only [Prod.mk.injEq, true_and] at e
    obtain ⟨e1, e2⟩ := e
    subst e1 e2
    cases hq
    exact ⟨hp, g, rfl, fun _ => hh⟩
  · exact H.recv j x s hq

/-! ### cleanup -/

theorem KK.weak {sr ss sr' ss' k h p w} (H : KK sr ss k h p w) (h1 : sr' = true → sr = true)
    (h2 : ss' = true → ss = true) : KK sr' ss' k h p w := by
  refine ⟨H.slots, H.ports, ?_, ?_⟩
  · intro i g s hs
    obtain ⟨a, h', b, c⟩ := H.recv i g s hs
    exact ⟨a, h', b, fun x => c (h1 x)⟩
  · intro g q hq
    obtain ⟨a, i, g', b, c⟩ := H.send g q hq
    exact ⟨a, i, g', b, fun x => c (h2 x)⟩

/-- Removal of a port, when nobody is promised that it stays. -/
theorem KK.remove {sr k h p w i g} (H : KK sr false k h p w) (hp : p i = some g) :
    w.legal (.removePort (k, i, g)) ∧
      KK sr false k h (upd p i none) (w.act (.removePort (k, i, g))) := by
  refine ⟨(H.ports i g).2 hp, H.slots, ?_, ?_, ?_⟩
  · intro j g'
    simp only [World.act, Prod.mk.injEq, true_and, upd]
    by_cases hj : j = i
    · subst hj
      simp only [true_and, if_true]
      split
      · simp
      · rename_i e
        have := H.ports j g'
        rw [this, hp]
        simp; exact fun h => e h.symm
    · simp only [hj, false_and, if_false]; exact H.ports j g'
  · intro j g' s hs
    simp only [World.act] at hs
    split at hs
    · cases hs
    · rename_i e
      obtain ⟨h1, h2⟩ := H.recv j g' s hs
      refine ⟨?_, h2⟩
      have : j ≠ i := by
        rintro rfl
        rw [hp] at h1
        cases h1
        exact e rfl
      simp [upd, this, h1]
  · intro g' q hq
    obtain ⟨h1, j, g2, h2, _⟩ := H.send g' q hq
    exact ⟨h1, j, g2, h2, by simp⟩

/-- Deletion of the pipeline slot, when nobody is promised that it stays. -/
theorem KK.delete {ss k p w g} (H : KK false ss k (some g) p w) :
    w.legal (.deleteSlot (k, g)) ∧ KK false true k none p (w.act (.deleteSlot (k, g))) := by
  refine ⟨(H.slots g).2 rfl, ?_, H.ports, ?_, ?_⟩
  · intro g'
    simp only [World.act, Prod.mk.injEq, true_and]
    split
    · simp
    · rename_i e
      rw [H.slots]
      simp; exact fun h => e h.symm
  · intro i g' s hs
    obtain ⟨a, h', b, _⟩ := H.recv i g' s hs
    exact ⟨a, h', b, by simp⟩
  · intro g' q hq
    simp only [World.act, Prod.mk.injEq, true_and] at hq
    split at hq
    · cases hq
    · rename_i e
      have := (H.send g' q hq).1
      cases this
      exact absurd rfl e

theorem KK.done {sr ss k w} (H : KK sr ss k none (fun _ => none) w) :
    K k none (fun _ => none) w := by
  refine ⟨H.slots, H.ports, ?_, ?_⟩
  · intro i g s hs
    have := (H.recv i g s hs).1
    simp at this
  · intro g q hq
    have := (H.send g q hq).1
    simp at this

theorem KK.done' {sr k w h} (H : KK sr false k h (fun _ => none) w) :
    KK false false k h (fun _ => none) w ∧ ∀ i g, w.recv (k, i, g) = none := by
  refine ⟨H.weak (by simp) (by simp), ?_⟩
  intro i g
  cases hs : w.recv (k, i, g) with
  | none => rfl
  | some s =>
    have := (H.recv i g s hs).1
    simp at this

/-- Handles of the ports of a slot. -/
def handles (sl : Slot) : Iface → Option Nat := fun i => (sl.ports i).handle

/-- Handles after removal of some interfaces. -/
def clear (p : Iface → Option Nat) (is : List Iface) : Iface → Option Nat :=
  fun j => if j ∈ is then none else p j

theorem portActs_key (k : Nat) (sl : Slot) (is : List Iface) :
    ∀ a ∈ portActs k sl is, a.key = k := by
  induction is with
  | nil => simp [portActs]
  | cons i is ih =>
    unfold portActs
    split
    · intro a ha
      rcases List.mem_cons.1 ha with rfl | h
      · rfl
      · exact ih a h
    · exact ih

theorem portActs_good {sr k h w} (sl : Slot) (q : Iface → Option Nat) (is : List Iface)
    (H : KK sr false k h q w) (hq : ∀ i ∈ is, q i = handles sl i) (hn : is.Nodup) :
    w.legalAll (portActs k sl is) ∧ KK sr false k h (clear q is) (w.run (portActs k sl is))
      ∧ (∀ P : World → Prop, (∀ w q, KK sr false k h q w → P w → safeK k w) →
          (∀ w j g, P w → P (w.act (.removePort (k, j, g)))) → P w →
          safeAllK k w (portActs k sl is) ∧ P (w.run (portActs k sl is))) := by
  induction is generalizing q w with
  | nil =>
    have : clear q [] = q := by funext j; simp [clear]
    rw [this]
    exact ⟨trivial, H, fun P hP _ hw => ⟨hP _ _ H hw, hw⟩⟩
  | cons i is ih =>
    have hi := hq i (by simp)
    have hnd := List.nodup_cons.1 hn
    unfold portActs
    split
    · rename_i g hg
      have hqi : q i = some g := by rw [hi]; exact hg
      obtain ⟨hl, hk⟩ := H.remove hqi
      obtain ⟨a, b, c⟩ := ih (upd q i none) hk (by
        intro j hj
        have : j ≠ i := by rintro rfl; exact hnd.1 hj
        simp only [upd, this, if_false]
        exact hq j (by simp [hj])) hnd.2
      have he : clear (upd q i none) is = clear q (i :: is) := by
        funext j
        by_cases h1 : j = i
        · subst h1; simp [clear, upd]
        · simp [clear, upd, h1]
      rw [he] at b
      exact ⟨⟨hl, a⟩, b, fun P hP hs hw =>
        ⟨⟨hP _ _ H hw, (c P hP hs (hs _ _ _ hw)).1⟩, (c P hP hs (hs _ _ _ hw)).2⟩⟩
    · rename_i hg
      have hqi : q i = none := by rw [hi]; exact hg
      obtain ⟨a, b, c⟩ := ih q H (fun j hj => hq j (by simp [hj])) hnd.2
      have he : clear q is = clear q (i :: is) := by
        funext j
        by_cases h1 : j = i
        · subst h1; simp [clear, hqi]
        · simp [clear, h1]
      rw [he] at b
      exact ⟨a, b, c⟩

theorem clear_all (p : Iface → Option Nat) : clear p ifaces = fun _ => none := by
  funext j
  cases j <;> simp [clear, ifaces]

theorem cleanup_good {kd k w} (sl : Slot) (H : K k sl.handle (handles sl) w) :
    Good kd k w (cleanup kd k sl) none (fun _ => none) := by
  have hnd : ifaces.Nodup := by decide
  have hs : ∀ a ∈ slotActs k sl, a.key = k := by
    unfold slotActs; split <;> simp [Act.key]
  cases kd with
  | receiver =>
    simp only [cleanup]
    obtain ⟨a, b, c⟩ := portActs_good sl (handles sl) ifaces (H.weak (sr' := true) (ss' := false)
      (by simp) (by simp)) (fun _ _ => rfl) hnd
    rw [clear_all] at b
    have c' := fun hn => c (fun w => NC .receiver w)
      (fun w q hk hn => ⟨fun i g s hr => by
          obtain ⟨_, h', rfl, hh⟩ := hk.recv i g s hr
          exact (hk.slots h').2 (hh rfl),
        fun g q hq => by have := hn (k, g) q; simp [hq] at this⟩)
      (fun w j g hn => NC_act hn rfl) hn
    obtain ⟨w1, hw1⟩ : ∃ w1, w1 = w.run (portActs k sl ifaces) := ⟨_, rfl⟩
    rw [← hw1] at b c'
    have hfin : w1.legalAll (slotActs k sl) ∧ K k none (fun _ => none) (w1.run (slotActs k sl)) := by
      unfold slotActs
      cases hh : sl.handle with
      | none => rw [hh] at b; exact ⟨trivial, b.done⟩
      | some g =>
        rw [hh] at b
        obtain ⟨h1, h2⟩ := b.done'.1.delete
        exact ⟨⟨h1, trivial⟩, h2.done⟩
    refine ⟨(legalAll_append _ _ _).2 ⟨a, hw1 ▸ hfin.1⟩, by rw [run_append, ← hw1]; exact hfin.2,
      ?_, ?_⟩
    · intro x hx
      rcases List.mem_append.1 hx with h | h
      · exact portActs_key _ _ _ x h
      · exact hs x h
    · intro hn _
      refine (safeAllK_append _ _ _ _).2 ⟨(c' hn).1, ?_⟩
      rw [← hw1]
      have hf := hfin.2
      have h0 : safeK k w1 := by
        constructor
        · intro i g s hr
          rw [(b.done').2] at hr
          cases hr
        · intro g q hq
          have := (c' hn).2 (k, g) q
          simp [hq] at this
      unfold slotActs at hf ⊢
      cases hh : sl.handle with
      | none => exact h0
      | some g => rw [hh] at hf; exact ⟨h0, K.safeK hf⟩
  | sender =>
    simp only [cleanup]
    have h1 : w.legalAll (slotActs k sl)
        ∧ KK false false k none (handles sl) (w.run (slotActs k sl))
        ∧ (NC .sender w → safeAllK k w (slotActs k sl)) := by
      unfold slotActs
      cases hh : sl.handle with
      | none => rw [hh] at H; exact ⟨trivial, H.weak (by simp) (by simp), fun _ => K.safeK H⟩
      | some g =>
        rw [hh] at H
        obtain ⟨h1, h2⟩ := (KK.weak (sr' := false) (ss' := true) H (by simp) (by simp)).delete
        refine ⟨⟨h1, trivial⟩, h2.weak (by simp) (by simp), fun hn => ⟨K.safeK H, ?_, ?_⟩⟩
        · intro i g' s hr
          have := hn (k, i, g')
          have hr' : w.recv (k, i, g') = some s := hr
          rw [this] at hr'; cases hr'
        · intro g' q hq
          have := (h2.send g' q hq).1
          cases this
    obtain ⟨w1, hw1⟩ : ∃ w1, w1 = w.run (slotActs k sl) := ⟨_, rfl⟩
    rw [← hw1] at h1
    obtain ⟨a, b, c⟩ := portActs_good sl (handles sl) ifaces h1.2.1 (fun _ _ => rfl) hnd
    rw [clear_all] at b
    have c' := fun hn => c (fun w => NC .sender w)
      (fun w q hk hn => ⟨fun i g s hr => (by rw [hn] at hr; cases hr),
        fun g q hq => (by have := (hk.send g q hq).1; cases this)⟩)
      (fun w j g hn => NC_act hn rfl) hn
    refine ⟨(legalAll_append _ _ _).2 ⟨h1.1, hw1 ▸ a⟩, by rw [run_append, ← hw1]; exact b.done,
      ?_, ?_⟩
    · intro x hx
      rcases List.mem_append.1 hx with h | h
      · exact hs x h
      · exact portActs_key _ _ _ x h
    · intro hn _
      refine (safeAllK_append _ _ _ _).2 ⟨h1.2.2 hn, ?_⟩
      rw [← hw1]
      refine (c' ?_).1
      rw [hw1]
      exact NC_run hn (by unfold slotActs; split <;> simp [Act.ctl])

end Verif.NodeSlots
