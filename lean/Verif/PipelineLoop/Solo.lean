import Verif.PipelineLoop.Invariant
import Mathlib.Tactic.Tauto

/-!
# Pipeline loop: operations that do not overlap
-/

namespace Verif.PipelineLoop

theorem runs_append (s : G) (a b : List (Tid × Ch)) : runs s (a ++ b) = (runs s a).bind fun s' => runs s' b := by
  induction a generalizing s with
  | nil => rfl
  | cons x a ih =>
    obtain ⟨t, ch⟩ := x
    show (step s t ch).bind _ = Option.bind ((step s t ch).bind _) _
    cases step s t ch with
    | none => rfl
    | some s' => exact ih s'

theorem runs_reach {s s' : G} {l : List (Tid × Ch)} (h : Reach s) (hr : runs s l = some s') : Reach s' := by
  induction l generalizing s with
  | nil => injection hr with hr; subst hr; exact h
  | cons x l ih =>
    obtain ⟨t, ch⟩ := x
    cases hs : step s t ch with
    | none => simp only [runs, hs, Option.bind_none] at hr; cases hr
    | some s1 =>
      simp only [runs, hs, Option.bind_some] at hr
      exact ih (.step h hs) hr

theorem step_other {s s' : G} {t u : Tid} {ch : Ch} (hs : step s t ch = some s') (hu : u ≠ t) : s'.pc u = s.pc u := by
  suffices hh : ∃ (s0 : G) (p : PC), s' = s0.go t p ∧ s0.pc = s.pc by
    obtain ⟨s0, p, h1, h2⟩ := hh
    rw [h1, pc_go, if_neg hu, h2]
  clear hu
  unfold step at hs
  rcases t with i | j | _ <;> cases hpc : s.pc _ <;> rw [hpc] at hs <;> simp only [stepS, stepT, stepF, stepP] at hs
  all_goals (try split at hs)
  all_goals (try (injection hs with hs; subst hs))
  all_goals first
    | exact ⟨_, _, rfl, rfl⟩
    | (cases hs; done)
    | (split at hs <;> injection hs with hs <;> subst hs <;> exact ⟨_, _, rfl, rfl⟩)

theorem runs_other {s s' : G} {u : Tid} {l : List (Tid × Ch)} (hu : ∀ x ∈ l, u ≠ x.1) (hr : runs s l = some s') : s'.pc u = s.pc u := by
  induction l generalizing s with
  | nil => injection hr with hr; subst hr; rfl
  | cons x l ih =>
    obtain ⟨t, ch⟩ := x
    cases hs : step s t ch with
    | none => simp only [runs, hs, Option.bind_none] at hr; cases hr
    | some s1 =>
      simp only [runs, hs, Option.bind_some] at hr
      rw [ih (fun x hx => hu x (List.mem_cons_of_mem _ hx)) hr]
      exact step_other hs (hu (t, ch) List.mem_cons_self)

/-- What holds when a thread that runs alone is at a program counter: `p` pending tasks, `q` queued tasks, scheduler armed, state, pending frames. -/
def loc (p q : Nat) (a : Bool) (st : PSt) (f : Nat) : PC → Prop
  | .idle | .done => p = q ∧ (q ≠ 0 → a = true) ∧ (if a then st = .scheduled else st = .notScheduled) ∧ f = 0
  | .load1 | .allow | .tryLock | .exec | .decr | .pushCheck => p = 1 ∧ q = 0 ∧ (if a then st = .scheduled else st = .notScheduled) ∧ f = 0
  | .pushOnly => p = q + 1 ∧ q ≠ 0 ∧ a = true ∧ st = .scheduled ∧ f = 0
  | .chkFrames | .s0 | .s1 | .s2 => p = q ∧ (if a then st = .scheduled else st = .notScheduled) ∧ f = 0
  | .rdFrames => p = 0 ∧ q = 0 ∧ (if a then st = .scheduled else st = .notScheduled) ∧ f = 0
  | .unlockA n | .chkA n => p = 0 ∧ q = 0 ∧ (if a then st = .scheduled else st = .notScheduled) ∧ f = 0 ∧ n = 0
  | .s3 => p = q ∧ a = true ∧ st = .notScheduled ∧ f = 0
  | .s4 | .s5 => p = q ∧ a = true ∧ st = .scheduled ∧ f = 0
  | .c0 .lock | .c1 .lock => p = q ∧ (if a then st = .scheduled else st = .notScheduled) ∧ f = 1
  | .c2 .lock => p = q ∧ a = false ∧ f = 1
  | .c3 .lock => p = q ∧ a = false ∧ st = .notScheduled ∧ f = 1
  | .c0 .fin | .c1 .fin | .c2 .fin | .c3 .fin => False
  | .fLock | .fBody | .fStat0 | .fStat1 | .fUnlock | .fDec => p = q ∧ a = false ∧ st = .notScheduled ∧ f = 1
  | .fHand _ | .fDecr => p = q + 1 ∧ a = false ∧ st = .notScheduled ∧ f = 1
  | .fChk z => p = q ∧ a = false ∧ st = .notScheduled ∧ f = 0 ∧ z = true
  | .p1 | .p2 | .p3 => p = q ∧ a = false ∧ st = .scheduled ∧ f = 0
  | .p4 | .p5 | .p6 => p = q ∧ a = false ∧ st = .running ∧ f = 0
  | .pHand _ | .pDecr => p = q + 1 ∧ a = false ∧ st = .running ∧ f = 0
  | .p7 n | .p8 n => p = q ∧ a = false ∧ st = .running ∧ f = 0 ∧ n = 0
  | .p9 r => p = q ∧ a = false ∧ st = .running ∧ f = 0 ∧ (r = false → q = 0)
  | .p10 r => p = q ∧ a = false ∧ st = .notScheduled ∧ f = 0 ∧ (r = false → q = 0)

/-- Between operations. -/
def restPC (p : PC) : Prop := p = .idle ∨ p = .done

structure Solo (t : Tid) (s : G) : Prop where
  inv : Inv s
  others : ∀ u, u ≠ t → restPC (s.pc u)
  loc : loc s.pend s.queue.length s.armed s.pst s.frames (s.pc t)

theorem Solo.pm_none {t : Tid} {s : G} (h : Solo t s) (hc : crit (s.pc t) = false) : s.pm = none := by
  cases hm : s.pm with
  | none => rfl
  | some u =>
    have h1 := (h.inv.pm u).2 hm
    by_cases hu : u = t
    · rw [hu, hc] at h1; cases h1
    · rcases h.others u hu with h2 | h2 <;> rw [h2] at h1 <;> cases h1

theorem Solo.sm_none {t : Tid} {s : G} (h : Solo t s) (hc : critS (s.pc t) = false) : s.sm = none := by
  cases hm : s.sm with
  | none => rfl
  | some u =>
    have h1 := (h.inv.sm u).2 hm
    by_cases hu : u = t
    · rw [hu, hc] at h1; cases h1
    · rcases h.others u hu with h2 | h2 <;> rw [h2] at h1 <;> cases h1

theorem loc_go {s0 : G} {t : Tid} {p : PC} (h : loc s0.pend s0.queue.length s0.armed s0.pst s0.frames p) :
    loc (s0.go t p).pend (s0.go t p).queue.length (s0.go t p).armed (s0.go t p).pst (s0.go t p).frames ((s0.go t p).pc t) := by
  rw [pc_go, if_pos rfl]
  exact h

theorem Solo.step {t : Tid} {s s' : G} {ch : Ch} (h : Solo t s) (hl : ch.load = true) (hs : step s t ch = some s') : Solo t s' := by
  refine ⟨h.inv.step hs, fun u hu => by rw [step_other hs hu]; exact h.others u hu, ?_⟩
  have hk := h.inv.kind t
  have hloc := h.loc
  have hpm := h.pm_none
  have hsm := h.sm_none
  unfold PipelineLoop.step at hs
  rcases t with i | j | _ <;> cases hpc : s.pc _ <;> rw [hpc] at hs hk hloc hpm hsm <;> simp only [stepS, stepT, stepF, stepP] at hs <;> simp only [kindOk, Bool.false_eq_true] at hk
  all_goals (try (rename_i r; cases r))
  all_goals simp only [PipelineLoop.loc] at hloc
  all_goals (try simp only [crit, forall_const, Bool.true_eq_false, false_imp_iff] at hpm)
  all_goals (try simp only [critS, forall_const, Bool.true_eq_false, false_imp_iff] at hsm)
  all_goals (try split at hs)
  all_goals (try (injection hs with hs; subst hs))
  all_goals first
    | contradiction
    | (apply loc_go; simp_all [PipelineLoop.loc, fin]; done)
    | (apply loc_go; split_ifs <;> simp_all [PipelineLoop.loc, fin] <;> omega; done)
    | skip

end Verif.PipelineLoop
