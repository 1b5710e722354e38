import Verif.TcpConn.Spec
import Mathlib.Tactic.ByContra

/-!
# Readiness of a direction of a TCP connection
-/

namespace Verif.TcpConn

theorem io_flags (c : Conn) (n : St) (d : Dir) : (c.flags n).io d = c.io d := by
  unfold Conn.flags
  by_cases h1 : n = .established
  · rw [if_pos h1]; cases d <;> rfl
  · rw [if_neg h1]
    by_cases h2 : n = .refused ∨ n = .broken
    · rw [if_pos h2]; cases d <;> rfl
    · rw [if_neg h2]

theorem io_maybeSwitch (c : Conn) (e n : St) (d : Dir) : (c.maybeSwitch e n).1.io d = c.io d := by
  have := io_flags c n d
  unfold Conn.maybeSwitch
  dsimp only
  split
  · exact this
  · split
    · cases d <;> exact this
    · exact this

theorem io_switch (c : Conn) (n : St) (d : Dir) : (c.switch n).1.io d = c.io d := by
  unfold Conn.switch
  split
  · rfl
  · exact io_maybeSwitch c _ n d

theorem io_of (c c' : Conn) (d : Dir) (h1 : c'.wr = c.wr) (h2 : c'.rd = c.rd) : c'.io d = c.io d := by
  cases d <;> assumption

theorem io_disconnect (c : Conn) (a b : Bool) (d : Dir) : (c.disconnect a b).1.io d = c.io d := by
  unfold Conn.disconnect
  cases c with
  | mk s st we wf sk pi ps si h t cl se wr rd => cases sk <;> cases we <;> cases wf <;> cases a <;> cases b <;> cases d <;> rfl

theorem io_finish (w : W) (a b : Bool) (d : Dir) : (w.finish a b).c.io d = w.c.io d ∧ (w.finish a b).usr = w.usr := by
  unfold W.finish
  cases hf : w.c.finishTerminate a b with
  | none => exact ⟨rfl, rfl⟩
  | some r =>
    obtain ⟨c, l, how⟩ := r
    refine ⟨?_, rfl⟩
    show c.io d = _
    unfold Conn.finishTerminate at hf
    split at hf
    · cases hf
    · dsimp only at hf
      split at hf
      · cases hf
      · simp only [Option.some.injEq, Prod.mk.injEq] at hf
        obtain ⟨rfl, _, _⟩ := hf
        refine (io_of _ _ d rfl rfl : _ = Conn.io (Conn.maybeSwitch (Conn.disconnect { w.c with pollInit := false } a b).1 .terminating .terminated).1 d).trans ?_
        rw [io_maybeSwitch, io_disconnect]
        exact io_of _ _ d rfl rfl

theorem io_term (w : W) (n : Bool) (d : Dir) : (w.asyncTerminate n).c.io d = w.c.io d ∧ ((w.asyncTerminate n).usr = w.usr ∨ (w.asyncTerminate n).usr = .sending n) := by
  unfold W.asyncTerminate
  split
  · exact ⟨rfl, .inl rfl⟩
  · exact ⟨io_maybeSwitch _ _ _ d, .inr rfl⟩

/-- The user is in the middle of a call that concerns `d`. -/
def Usr.in_ (u : Usr) (d : Dir) : Prop := u = .busy d ∨ ∃ r, u = .got d r

/-- Steps that do not concern a direction. -/
theorem io_other {w w' : W} {l : L} {d : Dir} (h : w.step l = some w') (ha : l.about d = false) (hu : l ≠ .upd)
    (hidle : (w.stage = .dialFailed ∨ w.stage = .dialed ∧ w.c.server = true) → w.usr = .idle) :
    w'.c.io d = w.c.io d ∧ (w'.usr = w.usr ∨ (¬ w.usr.in_ d ∧ ¬ w'.usr.in_ d)) := by
  unfold W.step at h
  split at h
  · cases h
  cases l with
  | open_ ok =>
    simp only [W.open_] at h
    split at h
    · cases ho : w.c.open_ ok with
      | none => simp only [ho, Option.some.injEq] at h; subst h; exact ⟨rfl, .inl rfl⟩
      | some r =>
        obtain ⟨c, l⟩ := r
        simp only [ho, Option.some.injEq] at h; subst h
        refine ⟨?_, .inl rfl⟩
        show c.io d = _
        unfold Conn.open_ at ho
        split at ho
        · cases ho
        · dsimp only at ho
          split at ho
          · simp only [Option.some.injEq, Prod.mk.injEq] at ho
            obtain ⟨rfl, _⟩ := ho
            rw [io_switch]
            exact (io_of _ _ d rfl rfl).trans (io_switch _ _ d)
          · simp only [Option.some.injEq] at ho
            have := congrArg Prod.fst ho
            simp only at this
            rw [← this, io_switch]
    · cases h
  | dial dl =>
    simp only [W.dial] at h
    split at h
    · cases ho : w.c.dial w.c.server dl with
      | none => simp only [ho, Option.some.injEq] at h; subst h; exact ⟨rfl, .inl rfl⟩
      | some r =>
        obtain ⟨c, l⟩ := r
        simp only [ho, Option.some.injEq] at h; subst h
        refine ⟨?_, .inl rfl⟩
        show c.io d = _
        unfold Conn.dial at ho
        rw [if_neg (by simp)] at ho
        split at ho
        · cases ho
        · have hs := io_switch w.c .connecting d
          cases dl with
          | noSocket =>
            simp only [Option.some.injEq] at ho
            have := congrArg Prod.fst ho
            simp only at this
            rw [← this, hs]
          | immediate =>
            simp only [Option.some.injEq, Prod.mk.injEq] at ho
            obtain ⟨rfl, _⟩ := ho
            rw [io_switch]
            exact (io_of _ _ d rfl rfl).trans hs
          | _ =>
            simp only [Option.some.injEq, Prod.mk.injEq] at ho
            obtain ⟨rfl, _⟩ := ho
            exact (io_of _ _ d rfl rfl).trans hs
    · cases h
  | attach =>
    simp only [W.attach] at h
    split at h
    · have key : ∀ c, (if w.c.server = true then w.c.attachTerm else some w.c) = some c → c.io d = w.c.io d := by
        intro c hc
        split at hc
        · unfold Conn.attachTerm at hc
          split at hc
          · cases hc
          · split at hc
            · cases hc
            · simp only [Option.some.injEq] at hc; subst hc; exact io_of _ _ d rfl rfl
        · simp only [Option.some.injEq] at hc; subst hc; rfl
      generalize (if w.c.server = true then w.c.attachTerm else some w.c) = o at h key
      cases o with
      | none => simp only [Option.some.injEq] at h; subst h; exact ⟨rfl, .inl rfl⟩
      | some c =>
        have := key c rfl
        cases hr : c.attachConn with
        | none => simp only [hr, Option.some.injEq] at h; subst h; exact ⟨rfl, .inl rfl⟩
        | some r =>
          obtain ⟨c2, l2⟩ := r
          simp only [hr, Option.some.injEq] at h; subst h
          unfold Conn.attachConn at hr
          split at hr
          · cases hr
          · split at hr
            · cases hr
            · simp only [Option.some.injEq, Prod.mk.injEq] at hr
              obtain ⟨rfl, _⟩ := hr
              exact ⟨(io_of _ _ d rfl rfl).trans this, .inl rfl⟩
    · cases h
  | giveUp =>
    simp only [W.giveUp] at h
    split at h
    · cases ho : w.c.attachTerm with
      | none => simp only [ho, Option.some.injEq] at h; subst h; exact ⟨rfl, .inl rfl⟩
      | some c =>
        simp only [ho] at h
        have hc : c.io d = w.c.io d := by
          unfold Conn.attachTerm at ho
          split at ho
          · cases ho
          · split at ho
            · cases ho
            · simp only [Option.some.injEq] at ho; subst ho; exact io_of _ _ d rfl rfl
        have ht := io_term { w with c := c } false d
        have hni : ∀ n, ¬ (Usr.in_ (.sending n) d) := by intro n; simp [Usr.in_]
        have hnd : ¬ (Usr.in_ .done d) := by simp [Usr.in_]
        have hii : ¬ w.usr.in_ d := by rw [hidle (by assumption)]; simp [Usr.in_]
        split at h
        · simp only [Option.some.injEq] at h; subst h
          refine ⟨ht.1.trans hc, .inr ⟨hii, ?_⟩⟩
          rcases ht.2 with h2 | h2
          · rw [h2]; exact hii
          · rw [h2]; exact hni _
        · unfold W.send at h
          split at h
          · simp only [Option.some.injEq] at h; subst h
            exact ⟨(io_of _ _ d rfl rfl).trans (ht.1.trans hc), .inr ⟨hii, hnd⟩⟩
          · cases h
    · cases h
  | close =>
    simp only [W.close] at h
    split at h
    · cases ho : w.c.asyncClose with
      | none => simp only [ho, Option.some.injEq] at h; subst h; exact ⟨rfl, .inl rfl⟩
      | some r =>
        obtain ⟨c, b⟩ := r
        simp only [ho, Option.some.injEq] at h; subst h
        refine ⟨?_, .inl rfl⟩
        show c.io d = _
        have h0 : (({ w.c with closeH := true }).switch .closing).1.io d = w.c.io d := (io_switch _ _ d).trans (io_of _ _ d rfl rfl)
        unfold Conn.asyncClose at ho
        split at ho
        · cases ho
        · split at ho
          · cases ho
          · dsimp only at ho
            split at ho
            · simp only [Option.some.injEq, Prod.mk.injEq] at ho
              obtain ⟨rfl, _⟩ := ho
              rw [io_switch]; exact h0
            · simp only [Option.some.injEq, Prod.mk.injEq] at ho
              obtain ⟨rfl, _⟩ := ho
              exact h0
    · cases h
  | poll a b c =>
    simp only [W.poll] at h
    split at h
    · simp only [Option.some.injEq] at h; subst h; exact ⟨rfl, .inl rfl⟩
    · cases h
  | endConnect ok =>
    simp only [W.endConnect] at h
    split at h
    · simp only [Option.some.injEq] at h; subst h; exact ⟨rfl, .inl rfl⟩
    · cases h
  | net =>
    simp only [W.runNet] at h
    split at h
    · split at h <;> (simp only [Option.some.injEq] at h; subst h; exact ⟨rfl, .inl rfl⟩)
    · simp only [Option.some.injEq] at h; subst h; exact ⟨io_maybeSwitch _ _ _ d, .inl rfl⟩
    · simp only [Option.some.injEq] at h; subst h; exact ⟨rfl, .inl rfl⟩
    · simp only [Option.some.injEq] at h; subst h; exact ⟨rfl, .inl rfl⟩
    · cases h
  | ready e =>
    simp only [L.about, decide_eq_false_iff_not] at ha
    simp only [W.ready] at h
    split at h
    · split at h
      · simp only [Option.some.injEq] at h; subst h
        refine ⟨?_, .inl rfl⟩
        cases e <;> cases d <;> first | rfl | exact absurd rfl ha
      · cases h
    · cases h
  | async a b =>
    simp only [W.async] at h
    split at h
    · split at h
      · simp only [Option.some.injEq] at h; subst h; exact ⟨rfl, .inl rfl⟩
      · split at h
        · simp only [Option.some.injEq] at h; subst h
          exact ⟨(io_finish _ a b d).1, .inl (io_finish _ a b d).2⟩
        · simp only [Option.some.injEq] at h; subst h; exact ⟨io_of _ _ d rfl rfl, .inl rfl⟩
    · cases h
  | pollClosed a b =>
    simp only [W.pollClosed] at h
    split at h
    · simp only [Option.some.injEq] at h; subst h
      exact ⟨(io_finish _ a b d).1, .inl (io_finish _ a b d).2⟩
    · cases h
  | semClosed =>
    simp only [W.semClosed] at h
    split at h
    · split at h
      · simp only [Option.some.injEq] at h; subst h; exact ⟨rfl, .inl rfl⟩
      · simp only [Option.some.injEq] at h; subst h
        exact ⟨(io_switch _ _ d).trans (io_of _ _ d rfl rfl), .inl rfl⟩
    · cases h
  | term n =>
    simp only [W.term] at h
    split at h
    · rename_i hx
      simp only [Option.some.injEq] at h; subst h
      have hii : ¬ w.usr.in_ d := by rw [hx.1]; simp [Usr.in_]
      refine ⟨(io_term w n d).1, .inr ⟨hii, ?_⟩⟩
      rcases (io_term w n d).2 with h2 | h2
      · rw [h2]; exact hii
      · rw [h2]; simp [Usr.in_]
    · cases h
  | send =>
    simp only [W.send] at h
    split at h
    · rename_i n hs
      simp only [Option.some.injEq] at h; subst h
      exact ⟨io_of _ _ d rfl rfl, .inr ⟨by rw [hs]; simp [Usr.in_], by simp [Usr.in_]⟩⟩
    · cases h
  | begin_ e =>
    simp only [W.begin_] at h
    split at h
    · rename_i hx
      split at h
      · simp only [Option.some.injEq] at h; subst h; exact ⟨rfl, .inl rfl⟩
      · split at h
        · simp only [Option.some.injEq] at h; subst h; exact ⟨rfl, .inl rfl⟩
        · split at h
          · simp only [Option.some.injEq] at h; subst h; exact ⟨rfl, .inl rfl⟩
          · simp only [Option.some.injEq] at h; subst h
            exact ⟨rfl, .inr ⟨by rw [hx.1]; simp [Usr.in_], by simp [Usr.in_]⟩⟩
    · cases h
  | busy e =>
    simp only [L.about, decide_eq_false_iff_not] at ha
    simp only [W.busy] at h
    split at h
    · rename_i hx
      simp only [Option.some.injEq] at h; subst h
      refine ⟨?_, .inr ⟨by rw [hx]; simp [Usr.in_], by simp [Usr.in_, ha]⟩⟩
      cases e <;> cases d <;> first | rfl | exact absurd rfl ha
    · cases h
  | sys e r =>
    simp only [L.about, decide_eq_false_iff_not] at ha
    simp only [W.sys] at h
    split at h
    · rename_i hx
      simp only [Option.some.injEq] at h; subst h
      exact ⟨rfl, .inr ⟨by rw [hx]; simp [Usr.in_, ha], by simp [Usr.in_, ha]⟩⟩
    · cases h
  | fail =>
    simp only [W.fail] at h
    split at h
    · rename_i hx
      simp only [Option.some.injEq] at h; subst h
      exact ⟨io_maybeSwitch _ _ _ d, .inr ⟨by rw [hx]; simp [Usr.in_], by simp [Usr.in_]⟩⟩
    · cases h
  | upd => exact absurd rfl hu

/-- What the last steps about a direction tell about its status. -/
def Ready (d : Dir) (w : W) : List L → Prop
  | [] => w.c.io d = .none ∧ ¬ w.usr.in_ d
  | .ready _ :: _ => w.c.io d = .avail
  | .busy _ :: _ => w.c.io d = .busy ∧ w.usr = .busy d
  | .sys _ r :: .ready _ :: _ => w.c.io d = .avail ∧ (w.usr.in_ d → w.usr = .got d r)
  | .sys _ r :: .busy _ :: _ => (w.c.io d = .busy ∧ w.usr = .got d r) ∨ (w.c.io d = (if r = .bytes then .avail else .none) ∧ ¬ w.usr.in_ d)
  | _ => False

theorem Ready.keep {d : Dir} {w w' : W} {ls : List L} (h : Ready d w ls) (h1 : w'.c.io d = w.c.io d)
    (h2 : w'.usr = w.usr ∨ (¬ w.usr.in_ d ∧ ¬ w'.usr.in_ d)) : Ready d w' ls := by
  have hin : w'.usr.in_ d → w.usr.in_ d ∧ w'.usr = w.usr := by
    intro hi
    rcases h2 with h2 | h2
    · exact ⟨h2 ▸ hi, h2⟩
    · exact absurd hi h2.2
  unfold Ready at h ⊢
  split
  · exact ⟨h1.trans h.1, fun hi => h.2 (hin hi).1⟩
  · exact h1.trans h
  · refine ⟨h1.trans h.1, ?_⟩
    rcases h2 with h2 | h2
    · rw [h2]; exact h.2
    · exact absurd (.inl h.2) h2.1
  · refine ⟨h1.trans h.1, fun hi => ?_⟩
    obtain ⟨a, b⟩ := hin hi
    rw [b]; exact h.2 a
  · rcases h with h | h
    · refine .inl ⟨h1.trans h.1, ?_⟩
      rcases h2 with h2 | h2
      · rw [h2]; exact h.2
      · exact absurd (.inr ⟨_, h.2⟩) h2.1
    · exact .inr ⟨h1.trans h.1, fun hi => h.2 (hin hi).1⟩
  · simp_all

theorem io_setIo (c : Conn) (d : Dir) (v : Io) : (c.setIo d v).io d = v := by cases d <;> rfl

theorem io_setIo_ne (c : Conn) (d e : Dir) (v : Io) (h : e ≠ d) : (c.setIo e v).io d = c.io d := by
  cases d <;> cases e <;> first | rfl | exact absurd rfl h

theorem Ready.upd {d : Dir} {w w' : W} {ls : List L} (h : Ready d w ls) (hs : w.upd = some w') : Ready d w' ls := by
  unfold W.upd at hs
  cases hu : w.usr with
  | got e r =>
    simp only [hu] at hs
    generalize hc : (if w.c.io e = Io.busy then w.c.setIo e (if r = Ret.bytes then Io.avail else Io.none) else w.c) = c at hs
    have hw : w'.c.io d = c.io d ∧ ¬ w'.usr.in_ d := by
      split at hs
      · simp only [Option.some.injEq] at hs; subst hs; exact ⟨rfl, by simp [Usr.in_]⟩
      · split at hs
        · simp only [Option.some.injEq] at hs; subst hs; exact ⟨io_of _ _ d rfl rfl, by simp [Usr.in_]⟩
        · simp only [Option.some.injEq] at hs; subst hs; exact ⟨rfl, by simp [Usr.in_]⟩
    by_cases he : e = d
    · subst he
      have hx : ¬ (w.c.io e = .busy) → w'.c.io e = w.c.io e := by
        intro hb
        rw [hw.1, ← hc, if_neg hb]
      have hy : w.c.io e = .busy → w'.c.io e = (if r = Ret.bytes then Io.avail else Io.none) := by
        intro hb
        rw [hw.1, ← hc, if_pos hb, io_setIo]
      unfold Ready at h ⊢
      split
      · exact absurd (.inr ⟨r, hu⟩) h.2
      · rw [hx (by rw [h]; simp)]; exact h
      · rw [hu] at h; cases h.2
      · exact ⟨by rw [hx (by rw [h.1]; simp)]; exact h.1, fun hi => absurd hi hw.2⟩
      · rcases h with h | h
        · rw [hu] at h
          cases h.2
          exact .inr ⟨hy h.1, hw.2⟩
        · exact absurd (.inr ⟨r, hu⟩) h.2
      · simp_all
    · refine h.keep ?_ (.inr ⟨by rw [hu]; simp [Usr.in_, he], hw.2⟩)
      rw [hw.1, ← hc]
      split
      · exact io_setIo_ne _ _ _ _ he
      · rfl
  | _ => simp [hu] at hs

end Verif.TcpConn
