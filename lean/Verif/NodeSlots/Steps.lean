import Verif.NodeSlots.Lemmas

namespace Verif.NodeSlots

/-- A slot is broken exactly when it owns nothing. -/
structure Wf (sl : Slot) : Prop where
  live : sl.broken = false → ∃ h, sl.handle = some h
  dead : sl.broken = true → sl.handle = none ∧ ∀ i, handles sl i = none

def hOf (so : Option Slot) : Option Nat := so.bind Slot.handle
def pOf (so : Option Slot) : Iface → Option Nat := fun i => so.bind fun sl => handles sl i

/-- Node and world agree. -/
def J (n : Node) (w : World) : Prop :=
  ∀ k, K k (hOf (n.slot k)) (pOf (n.slot k)) w ∧ ∀ sl, n.slot k = some sl → Wf sl

theorem J.new : J Node.new World.empty := by
  intro k
  refine ⟨⟨?_, ?_, ?_, ?_⟩, ?_⟩ <;> simp [Node.new, World.empty, hOf, pOf]

theorem J.safe {n w} (H : J n w) : w.safe := by
  constructor
  · rintro ⟨k, i, g⟩ s _ hs
    exact (K.safeK (H k).1).1 i g s hs
  · rintro ⟨k, g⟩ p _ hp
    exact (K.safeK (H k).1).2 g p hp

theorem safe_of_K {w : World} (h : ∀ k, safeK k w) : w.safe := by
  constructor
  · rintro ⟨k, i, g⟩ s _ hs
    exact (h k).1 i g s hs
  · rintro ⟨k, g⟩ p _ hp
    exact (h k).2 g p hp

theorem safeAll_of_K {k : Nat} {w : World} {as : List Act} {n : Node}
    (H : ∀ j, j ≠ k → K j (hOf (n.slot j)) (pOf (n.slot j)) w)
    (hk : ∀ a ∈ as, a.key = k) (hs : safeAllK k w as) : w.safeAll as := by
  induction as generalizing w with
  | nil =>
    refine safe_of_K fun j => ?_
    by_cases hj : j = k
    · subst hj; exact hs
    · exact (H j hj).safeK
  | cons a as ih =>
    refine ⟨safe_of_K fun j => ?_, ih (fun j hj => frame_act ?_ (H j hj))
      (fun b hb => hk b (by simp [hb])) hs.2⟩
    · by_cases hj : j = k
      · subst hj; exact hs.1
      · exact (H j hj).safeK
    · rw [hk a (by simp)]; exact fun h => hj h.symm

/-- From one slot to the node. -/
theorem lift {kd k n n' w as} (H : J n w)
    (G : Good kd k w as (hOf (n'.slot k)) (pOf (n'.slot k)))
    (hw : ∀ sl, n'.slot k = some sl → Wf sl) (ho : ∀ j, j ≠ k → n'.slot j = n.slot j) :
    w.legalAll as ∧ J n' (w.run as)
      ∧ (NC kd w → (∀ a ∈ as, a.ctl kd = false) → w.safeAll as ∧ NC kd (w.run as)) := by
  refine ⟨G.legal, ?_, ?_⟩
  · intro j
    by_cases hj : j = k
    · subst hj; exact ⟨G.fin, hw⟩
    · rw [ho j hj]
      exact ⟨frame_run (fun a ha => by rw [G.key a ha]; exact fun h => hj h.symm) (H j).1, (H j).2⟩
  · intro hn hc
    exact ⟨safeAll_of_K (fun j _ => (H j).1) G.key (G.safe hn hc), NC_run hn hc⟩

theorem cleanup_ctl (kd : Kind) (k : Nat) (sl : Slot) : ∀ a ∈ cleanup kd k sl, a.ctl kd = false := by
  have h1 : ∀ is, ∀ a ∈ portActs k sl is, a.ctl kd = false := by
    intro is
    induction is with
    | nil => simp [portActs]
    | cons i is ih =>
      unfold portActs
      split
      · intro a ha
        rcases List.mem_cons.1 ha with rfl | h
        · cases kd <;> rfl
        · exact ih a h
      · exact ih
  have h2 : ∀ a ∈ slotActs k sl, a.ctl kd = false := by
    unfold slotActs
    split
    · intro a ha
      simp at ha
      subst ha
      cases kd <;> rfl
    · simp
  intro a ha
  cases kd <;> simp only [cleanup, List.mem_append] at ha <;> rcases ha with h | h <;>
    first | exact h1 _ a h | exact h2 a h

theorem broke_wf (sl : Slot) : Wf sl.broke :=
  ⟨by simp [Slot.broke], fun _ => ⟨rfl, fun i => by simp [handles, Slot.broke]⟩⟩

theorem broke_handles (sl : Slot) : handles sl.broke = fun _ => none := by
  funext i; simp [handles, Slot.broke]

theorem getSlot_good {kd n k c w as n1 sl} (H : J n w) (he : n.getSlot k c = some (as, n1, sl)) :
    Good kd k w as sl.handle (handles sl) ∧ Wf sl ∧ n1.slot k = some sl
      ∧ (∀ j, j ≠ k → n1.slot j = n.slot j) ∧ (∀ a ∈ as, a.ctl kd = false)
      ∧ (∀ i, handles sl i ≠ none → n.slot k = some sl) := by
  have hk := (H k).1
  unfold Node.getSlot at he
  cases hs : n.slot k with
  | some sl0 =>
    rw [hs] at he hk
    simp only [Option.some.injEq, Prod.mk.injEq] at he
    obtain ⟨rfl, rfl, rfl⟩ := he
    exact ⟨Good.nil hk, (H k).2 _ hs, hs, fun _ _ => rfl, by simp, fun _ _ => rfl⟩
  | none =>
    rw [hs] at he hk
    cases c with
    | false => simp at he
    | true =>
      simp only [if_true, Option.some.injEq, Prod.mk.injEq] at he
      obtain ⟨rfl, rfl, rfl⟩ := he
      refine ⟨?_, ⟨fun _ => ⟨_, rfl⟩, by simp [Slot.fresh]⟩, by simp [Node.set], ?_, ?_, ?_⟩
      · exact Good.create n.next hk
      · intro j hj; simp [Node.set, hj]
      · intro a ha; simp at ha; subst ha; cases kd <;> rfl
      · intro i hi; simp [handles, Slot.fresh] at hi

theorem setPort_handles (sl : Slot) (i : Iface) (p : Port) :
    handles (sl.setPort i p) = upd (handles sl) i p.handle := by
  funext j
  by_cases hj : j = i
  · subst hj; simp [handles, Slot.setPort, upd]
  · simp [handles, Slot.setPort, upd, hj]

theorem upd_same (p : Iface → Option Nat) (i : Iface) (v : Option Nat) (h : p i = v) :
    upd p i v = p := by
  funext j
  by_cases hj : j = i
  · subst hj; simp [upd, h]
  · simp [upd, hj]

/-- What `bind` / `connect` of a slot achieves. -/
structure Body (kd : Kind) (k : Nat) (i : Iface) (w : World) (sl : Slot)
    (r : List Act × Slot × Bool) : Prop where
  good : Good kd k w r.1 sl.handle (handles r.2.1)
  handle : r.2.1.handle = sl.handle
  broken : r.2.1.broken = sl.broken
  ctl : i ≠ .control → ∀ a ∈ r.1, a.ctl kd = false
  seen : kd = .receiver → ∀ j, handles r.2.1 j ≠ none → j = i ∨ handles sl j ≠ none

theorem bind_body {k i e c g w} (sl : Slot) (h : Nat) (hh : sl.handle = some h)
    (hi : handles sl i = none) (H : K k sl.handle (handles sl) w) :
    Body .receiver k i w sl (sl.bind k i e c g) := by
  have hp1 : handles (sl.setPort i { sl.ports i with handle := some g })
      = upd (handles sl) i (some g) := setPort_handles _ _ _
  have hseen : ∀ j, upd (handles sl) i (some g) j ≠ none → j = i ∨ handles sl j ≠ none := by
    intro j hj
    by_cases hji : j = i
    · exact .inl hji
    · simp [upd, hji] at hj; exact .inr hj
  have A : Good .receiver k w [.addPort (k, i, g)] sl.handle (upd (handles sl) i (some g)) :=
    Good.addPort i g H hi
  have hg : upd (handles sl) i (some g) i = some g := by simp [upd]
  have h0 : sl.handle.getD 0 = h := by rw [hh]; rfl
  unfold Slot.bind
  split
  · exact ⟨Good.nil H, rfl, rfl, by simp, fun _ j hj => .inr hj⟩
  simp only [h0]
  split
  · exact ⟨hp1 ▸ A, rfl, rfl, by simp [Act.ctl], fun _ => by rw [hp1]; exact hseen⟩
  split
  · exact ⟨hp1 ▸ A, rfl, rfl, by simp [Act.ctl], fun _ => by rw [hp1]; exact hseen⟩
  have B : Good .receiver k w
      (.addPort (k, i, g) :: (if i = .control then [.send (k, h) (k, i, g)] else []))
      sl.handle (upd (handles sl) i (some g)) := by
    by_cases hc : i = .control
    · rw [if_pos hc]
      exact Good.cons A (Good.send A.fin hh hg)
    · rw [if_neg hc]; exact A
  have hB : i ≠ .control → ∀ a ∈ Act.addPort (k, i, g) ::
      (if i = .control then [Act.send (k, h) (k, i, g)] else []), a.ctl .receiver = false := by
    intro hc; rw [if_neg hc]; simp [Act.ctl]
  split
  · exact ⟨hp1 ▸ B, rfl, rfl, hB, fun _ => by
      intro j hj; exact hseen j (hp1 ▸ hj)⟩
  · refine ⟨hp1 ▸ B.append (Good.recv B.fin hh hg), rfl, rfl, ?_, fun _ j hj => hseen j (hp1 ▸ hj)⟩
    intro hc a ha
    rcases List.mem_append.1 ha with h | h
    · exact hB hc a h
    · simp at h; subst h; rfl

theorem setup_handle {p p1 : Port} {f} (h : p.setup f = some p1) : p1.handle = p.handle := by
  unfold Port.setup at h
  split at h
  · cases h
  · split at h
    · cases h; rfl
    · rename_i hn
      simp only [Option.some.injEq] at h
      subst h
      rfl

theorem connect_body {k i e c g w} (sl : Slot) (h : Nat) (hh : sl.handle = some h)
    (H : K k sl.handle (handles sl) w) :
    Body .sender k i w sl (sl.connect k i e c g) := by
  have h0 : sl.handle.getD 0 = h := by rw [hh]; rfl
  unfold Slot.connect
  split
  · exact ⟨Good.nil H, rfl, rfl, by simp, by simp⟩
  simp only [h0]
  obtain ⟨j, hj⟩ : ∃ j, j = sl.select i e.family := ⟨_, rfl⟩
  rw [← hj]
  cases hs : (sl.ports j).setup e.family with
  | none => exact ⟨Good.nil H, rfl, rfl, by simp, by simp⟩
  | some p1 =>
    have hp1 := setup_handle hs
    have hpj : handles (sl.setPort j p1) = handles sl := by
      rw [setPort_handles, upd_same]
      exact hp1.symm
    dsimp only
    -- the rest once a port is open
    have main : ∀ (as : List Act) (p2 : Port) (x : Nat), p2.handle = some x →
        Good .sender k w as sl.handle (upd (handles sl) j (some x)) →
        (∀ a ∈ as, a.ctl .sender = false) →
        Body .sender k i w sl
          (if (!p2.writer && !e.send) = true then (as, sl.setPort j p2, false)
          else
            if (!sl.accepts i e) = true then (as, sl.setPort j { p2 with writer := true }, false)
            else
              if (decide (i = Iface.control) && e.inbound) = true then
                if (!e.recv) = true then
                  (as ++ [Act.send (k, h) (k, j, x)],
                    { sl.setPort j { p2 with writer := true } with
                      ep := fun y => if y = i then true else
                        (sl.setPort j { p2 with writer := true }).ep y }, false)
                else (as ++ [Act.send (k, h) (k, j, x)] ++ [Act.recv (k, j, x) (k, h)],
                    { sl.setPort j { p2 with writer := true } with
                      ep := fun y => if y = i then true else
                        (sl.setPort j { p2 with writer := true }).ep y }, true)
              else (as ++ [Act.send (k, h) (k, j, x)],
                    { sl.setPort j { p2 with writer := true } with
                      ep := fun y => if y = i then true else
                        (sl.setPort j { p2 with writer := true }).ep y }, true)) := by
      intro as p2 x hx A hctl
      have e1 : handles (sl.setPort j p2) = upd (handles sl) j (some x) := by
        rw [setPort_handles, hx]
      have e2 : handles (sl.setPort j { p2 with writer := true })
          = upd (handles sl) j (some x) := by rw [setPort_handles, hx]
      have e3 : handles { sl.setPort j { p2 with writer := true } with
                      ep := fun y => if y = i then true else
                        (sl.setPort j { p2 with writer := true }).ep y }
          = upd (handles sl) j (some x) := e2
      have hjx : upd (handles sl) j (some x) j = some x := by simp [upd]
      have B := A.append (Good.send (i := j) A.fin hh hjx)
      have hB : ∀ a ∈ as ++ [Act.send (k, h) (k, j, x)], a.ctl .sender = false := by
        intro a ha
        rcases List.mem_append.1 ha with h | h
        · exact hctl a h
        · simp at h; subst h; rfl
      split
      · exact ⟨by rw [e1]; exact A, rfl, rfl, fun _ => hctl, by simp⟩
      split
      · exact ⟨by rw [e2]; exact A, rfl, rfl, fun _ => hctl, by simp⟩
      split
      · rename_i hc
        split
        · exact ⟨by rw [e3]; exact B, rfl, rfl, fun _ => hB, by simp⟩
        · refine ⟨?_, rfl, rfl, ?_, by simp⟩
          · rw [e3]; exact B.append (Good.recv (i := j) B.fin hh hjx)
          · intro hi
            simp [hi] at hc
      · exact ⟨by rw [e3]; exact B, rfl, rfl, fun _ => hB, by simp⟩
    cases hx : p1.handle with
    | some x =>
      refine main [] p1 x hx ?_ (by simp)
      rw [upd_same _ _ _ (show handles sl j = some x from hp1.symm.trans hx)]
      exact Good.nil H
    | none =>
      cases hpe : e.port with
      | false =>
        simp only [Bool.false_eq_true, if_false]
        exact ⟨by rw [hpj]; exact Good.nil H, rfl, rfl, by simp, by simp⟩
      | true =>
        simp only [if_true]
        refine main [.addPort (k, j, g)] { p1 with handle := some g } g rfl ?_ (by simp [Act.ctl])
        exact Good.addPort j g H (hp1.symm.trans hx)

/-- Conditions on one call. -/
def opOk (kd : Kind) (n : Node) : Op → Prop
  | .attach k i _ => kd = .receiver → pOf (n.slot k) i = none
  | _ => True

def opNoCtl : Op → Prop
  | .attach _ i _ => i ≠ .control
  | _ => True

theorem step_good {kd n w} (o : Op) (H : J n w) (ho : opOk kd n o) :
    w.legalAll (n.step kd o).1 ∧ J (n.step kd o).2.1 (w.run (n.step kd o).1)
      ∧ (NC kd w → opNoCtl o → w.safeAll (n.step kd o).1 ∧ NC kd (w.run (n.step kd o).1)) := by
  cases o with
  | configure k i c create =>
    simp only [Node.step, Node.configure]
    cases hg : n.getSlot k create with
    | none => exact ⟨trivial, H, fun hn _ => ⟨H.safe, hn⟩⟩
    | some r =>
      obtain ⟨as, n1, sl⟩ := r
      obtain ⟨G, hwf, hsl, hoth, hctl, -⟩ := getSlot_good (kd := kd) H hg
      dsimp only
      split
      · obtain ⟨a, b, c⟩ := lift (n' := n1) H (by rw [hsl]; exact G)
          (by rw [hsl]; rintro _ ⟨⟩; exact hwf) hoth
        exact ⟨a, b, fun hn _ => c hn hctl⟩
      · rename_i hbr
        split
        · obtain ⟨a, b, c⟩ := lift (n' := n1.set k (some sl.broke)) H (k := k)
            (by
              simp only [Node.set, if_true]
              have := G.append (cleanup_good (kd := kd) sl G.fin)
              rw [show hOf (some sl.broke) = none from rfl,
                show pOf (some sl.broke) = fun _ => none from broke_handles sl]
              exact this)
            (by simp only [Node.set, if_true]; rintro _ ⟨⟩; exact broke_wf sl)
            (fun j hj => by simp [Node.set, hj, hoth j hj])
          refine ⟨a, b, fun hn _ => c hn ?_⟩
          intro x hx
          rcases List.mem_append.1 hx with h | h
          · exact hctl x h
          · exact cleanup_ctl _ _ _ x h
        · have hh : handles (sl.setPort i { sl.ports i with cfg := c }) = handles sl := by
            rw [setPort_handles, upd_same]; rfl
          obtain ⟨a, b, c⟩ := lift
            (n' := n1.set k (some (sl.setPort i { sl.ports i with cfg := c }))) H (k := k)
            (by
              simp only [Node.set, if_true]
              rw [show pOf (some (sl.setPort i { sl.ports i with cfg := c })) = handles sl from hh]
              exact G)
            (by
              simp only [Node.set, if_true]; rintro _ ⟨⟩
              exact ⟨hwf.live, fun h => ⟨(hwf.dead h).1, fun j => by rw [hh]; exact (hwf.dead h).2 j⟩⟩)
            (fun j hj => by simp [Node.set, hj, hoth j hj])
          exact ⟨a, b, fun hn _ => c hn hctl⟩
  | attach k i e =>
    simp only [Node.step, Node.attach]
    cases hg : n.getSlot k e.create with
    | none => exact ⟨trivial, H, fun hn _ => ⟨H.safe, hn⟩⟩
    | some r =>
      obtain ⟨as, n1, sl⟩ := r
      obtain ⟨G, hwf, hsl, hoth, hctl, hseen⟩ := getSlot_good (kd := kd) H hg
      dsimp only
      split
      · obtain ⟨a, b, c⟩ := lift (n' := n1) H (by rw [hsl]; exact G)
          (by rw [hsl]; rintro _ ⟨⟩; exact hwf) hoth
        exact ⟨a, b, fun hn _ => c hn hctl⟩
      · rename_i hbr
        obtain ⟨h, hh⟩ := hwf.live (by simpa using hbr)
        have hbody : Body kd k i (w.run as) sl
            (sl.attach kd k i e (n1.compatible i e.proto) n1.next) := by
          cases kd with
          | receiver =>
            refine bind_body sl h hh ?_ G.fin
            cases hne : handles sl i with
            | none => rfl
            | some v =>
              have := hseen i (by simp [hne])
              have h2 : pOf (n.slot k) i = none := ho rfl
              rw [this] at h2
              exact hne.symm.trans h2
          | sender => exact connect_body sl h hh G.fin
        obtain ⟨r, hr⟩ : ∃ r, r = sl.attach kd k i e (n1.compatible i e.proto) n1.next := ⟨_, rfl⟩
        rw [← hr] at hbody ⊢
        obtain ⟨bs, sl1, ok⟩ := r
        have hb1 : sl1.handle = sl.handle := hbody.handle
        have hb2 : sl1.broken = sl.broken := hbody.broken
        have hb3 : Good kd k (w.run as) bs sl1.handle (handles sl1) := by
          rw [hb1]; exact hbody.good
        have G2 := G.append hb3
        have hctl2 : i ≠ .control → ∀ a ∈ as ++ bs, a.ctl kd = false := by
          intro hi x hx
          rcases List.mem_append.1 hx with h | h
          · exact hctl x h
          · exact hbody.ctl hi x h
        cases ok with
        | true =>
          simp only [if_true]
          obtain ⟨a, b, c⟩ := lift
            (n' := { n1.set k (some sl1) with
              next := n1.next + 1, used := fun j => if j = i then some e.proto else n1.used j })
            H (k := k) (by simp only [Node.set, if_true]; exact G2)
            (by
              simp only [Node.set, if_true]; rintro _ ⟨⟩
              refine ⟨fun _ => ⟨h, by rw [hb1, hh]⟩, fun hd => ?_⟩
              rw [hb2] at hd; exact absurd hd hbr)
            (fun j hj => by simp [Node.set, hj, hoth j hj])
          exact ⟨a, b, fun hn hi => c hn (hctl2 hi)⟩
        | false =>
          simp only [Bool.false_eq_true, if_false]
          obtain ⟨a, b, c⟩ := lift
            (n' := { n1.set k (some sl1.broke) with next := n1.next + 1 })
            H (k := k) (by
              simp only [Node.set, if_true]
              have := G2.append (cleanup_good (kd := kd) sl1 G2.fin)
              rw [show hOf (some sl1.broke) = none from rfl,
                show pOf (some sl1.broke) = fun _ => none from broke_handles sl1]
              exact this)
            (by simp only [Node.set, if_true]; rintro _ ⟨⟩; exact broke_wf sl1)
            (fun j hj => by simp [Node.set, hj, hoth j hj])
          refine ⟨a, b, fun hn hi => c hn ?_⟩
          intro x hx
          rcases List.mem_append.1 hx with h | h
          · exact hctl2 hi x h
          · exact cleanup_ctl _ _ _ x h
  | unlink k =>
    simp only [Node.step, Node.unlink]
    cases hs : n.slot k with
    | none => exact ⟨trivial, H, fun hn _ => ⟨H.safe, hn⟩⟩
    | some sl =>
      have hk := (H k).1
      rw [hs] at hk
      obtain ⟨a, b, c⟩ := lift (n' := n.set k none) H (k := k)
        (by simp only [Node.set, if_true]; exact cleanup_good (kd := kd) sl hk)
        (by simp [Node.set]) (fun j hj => by simp [Node.set, hj])
      exact ⟨a, b, fun hn _ => c hn (cleanup_ctl _ _ _)⟩
  | query k =>
    simp only [Node.step, Node.query]
    cases hs : n.slot k with
    | none => exact ⟨trivial, H, fun hn _ => ⟨H.safe, hn⟩⟩
    | some sl => exact ⟨trivial, H, fun hn _ => ⟨H.safe, hn⟩⟩

end Verif.NodeSlots
