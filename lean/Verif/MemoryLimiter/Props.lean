import Verif.MemoryLimiter.Model

/-! # C16: memory limiter -/

namespace Verif.MemoryLimiter

structure Inv (max : Nat) (s : State) : Prop where
  max_eq : s.max = max
  acq_eq : s.acq = s.total
  le : s.total ≤ max
  pc_start : ∀ t n, s.pc t = .start n → 0 < n ∧ max + n < 2 ^ 64
  pc_loaded : ∀ t n c, s.pc t = .loaded n c → 0 < n ∧ max + n < 2 ^ 64 ∧ c + n ≤ max
  noPanic : s.panicked = false

theorem inv_step {max : Nat} (hmax : 0 < max) (hmax2 : max < 2 ^ 64) {s : State} (h : Inv max s)
    (st : Step) (hl : s.legal st)
    (hok : ∀ t n, st = .call t n → max + n < 2 ^ 64) : Inv max (s.step st) := by
  cases st with
  | call t n =>
    unfold State.step
    simp only
    split
    · simp only [State.legal] at hl
      rw [if_neg (by omega)]
      refine ⟨h.max_eq, h.acq_eq, h.le, ?_, ?_, h.noPanic⟩
      · intro t' n' hp
        simp only [upd] at hp
        split at hp
        · simp only [Pc.start.injEq] at hp
          subst hp; exact ⟨hl.1, hok t n rfl⟩
        · exact h.pc_start t' n' hp
      · intro t' n' c hp
        simp only [upd] at hp
        split at hp
        · simp at hp
        · exact h.pc_loaded t' n' c hp
    · exact h
  | run t =>
    unfold State.step
    simp only
    split
    · exact h
    · rename_i n hpc
      have hs := h.pc_start t n hpc
      have hle := h.le
      split
      · refine ⟨h.max_eq, h.acq_eq, h.le, ?_, ?_, h.noPanic⟩
        · intro t' n' hp
          simp only [upd] at hp
          split at hp
          · simp at hp
          · exact h.pc_start t' n' hp
        · intro t' n' c hp
          simp only [upd] at hp
          split at hp
          · simp at hp
          · exact h.pc_loaded t' n' c hp
      · rename_i hc
        refine ⟨h.max_eq, h.acq_eq, h.le, ?_, ?_, h.noPanic⟩
        · intro t' n' hp
          simp only [upd] at hp
          split at hp
          · simp at hp
          · exact h.pc_start t' n' hp
        · intro t' n' c hp
          simp only [upd] at hp
          split at hp
          · simp only [Pc.loaded.injEq] at hp
            obtain ⟨rfl, rfl⟩ := hp
            have h1 := h.acq_eq
            have h2 := h.max_eq
            rw [h2] at hc
            refine ⟨hs.1, hs.2, ?_⟩
            have : (s.acq + n) % 2 ^ 64 = s.acq + n := Nat.mod_eq_of_lt (by omega)
            rw [this] at hc
            omega
          · exact h.pc_loaded t' n' c hp
    · rename_i n cur hpc
      have hs := h.pc_loaded t n cur hpc
      split
      · rename_i heq
        refine ⟨h.max_eq, ?_, ?_, ?_, ?_, h.noPanic⟩
        · simp only
          rw [Nat.mod_eq_of_lt (by omega), ← heq, h.acq_eq]
        · have := h.acq_eq
          simp only; omega
        · intro t' n' hp
          simp only [upd] at hp
          split at hp
          · simp at hp
          · exact h.pc_start t' n' hp
        · intro t' n' c hp
          simp only [upd] at hp
          split at hp
          · simp at hp
          · exact h.pc_loaded t' n' c hp
      · refine ⟨h.max_eq, h.acq_eq, h.le, ?_, ?_, h.noPanic⟩
        · intro t' n' hp
          simp only [upd] at hp
          split at hp
          · simp only [Pc.start.injEq] at hp
            subst hp; exact ⟨hs.1, hs.2.1⟩
          · exact h.pc_start t' n' hp
        · intro t' n' c hp
          simp only [upd] at hp
          split at hp
          · simp at hp
          · exact h.pc_loaded t' n' c hp
  | release n =>
    simp only [State.legal] at hl
    have h1 := h.acq_eq
    have h2 := h.le
    have hn : (s.acq + 2 ^ 64 - n) % 2 ^ 64 = s.acq - n := by omega
    have hp : (s.acq - n + n) % 2 ^ 64 = s.acq := by omega
    unfold State.step
    simp only [hn, hp]
    refine ⟨h.max_eq, by simp only; omega, by simp only; omega, h.pc_start, h.pc_loaded, ?_⟩
    simp only [h.noPanic, Bool.false_or, Bool.or_eq_false_iff, decide_eq_false_iff_not]
    omega

/-- **C16** (partial: requests that do not overflow `size_t` when added to the limit). For every
interleaving of any number of threads, the granted and unreleased bytes never exceed the
limit, the counter equals them, and nothing aborts. Missing: huge requests,
`C16_overflow_fails`. -/
theorem C16_limit_partial (max : Nat) (hmax : 0 < max) (hmax2 : max < 2 ^ 64) (s : State)
    (h : Reach max (fun n => max + n < 2 ^ 64) s) :
    s.total ≤ max ∧ s.acq = s.total ∧ s.panicked = false := by
  have : Inv max s := by
    induction h with
    | init =>
      exact ⟨rfl, rfl, Nat.zero_le _, fun _ _ h => by simp [State.init] at h,
        fun _ _ _ h => by simp [State.init] at h, rfl⟩
    | step st _ hl hok ih => exact inv_step hmax hmax2 ih st hl hok
  exact ⟨this.le, this.acq_eq, this.noPanic⟩

/-- A schedule as a list of steps. -/
def exec (s : State) (l : List Step) : State := l.foldl State.step s

instance (s : State) (st : Step) : Decidable (s.legal st) := by
  cases st <;> unfold State.legal <;> infer_instance

/-- All steps of a schedule are legal and all requests satisfy `ok`. -/
def Legal (ok : Nat → Prop) : State → List Step → Prop
  | _, [] => True
  | s, st :: l => s.legal st ∧ (match st with | .call _ n => ok n | _ => True) ∧ Legal ok (s.step st) l

theorem reach_exec {max : Nat} {ok : Nat → Prop} (l : List Step) : ∀ s, Reach max ok s →
    Legal ok s l → Reach max ok (exec s l) := by
  induction l with
  | nil => intro s h _; exact h
  | cons st l ih =>
    intro s h hl
    refine ih _ (Reach.step st h hl.1 ?_) hl.2.2
    rintro t n rfl
    exact hl.2.1

/-- Schedule in which a second thread's compare and exchange fails and is retried. -/
def exSchedule : List Step :=
  [.call 0 60, .call 1 50, .run 0, .run 1, .run 1, .run 0, .run 0, .release 20, .call 2 70, .run 2, .run 2]

/-- A concrete schedule meets the hypotheses, with a failed and a successful request. -/
theorem exReach : Reach 100 (fun n => 100 + n < 2 ^ 64) (exec (State.init 100) exSchedule) :=
  reach_exec _ _ .init (by
    refine ⟨?_, ?_, ?_, ?_, ?_, ?_, ?_, ?_, ?_, ?_, ?_, ?_, ?_, ?_, ?_, ?_, ?_, ?_, ?_, ?_, ?_, ?_, trivial⟩ <;>
      first | trivial | decide)

example : (exec (State.init 100) exSchedule).total = 100 := by decide
example := C16_limit_partial 100 (by decide) (by decide) _ exReach

/-- The completeness side: a request that fits when it is looked at and is not disturbed is
granted. -/
theorem C16_undisturbed_grant (s : State) (t n : Nat) (hn : 0 < n) (hidle : s.pc t = .idle)
    (hfit : s.max = 0 ∨ (s.acq + n) % 2 ^ 64 ≤ s.max) :
    (exec s [.call t n, .run t, .run t]).total = s.total + n := by
  simp only [exec, List.foldl_cons, List.foldl_nil]
  have h1 : s.step (.call t n) = { s with pc := upd s.pc t (.start n) } := by
    simp [State.step, hidle]; omega
  have h2 : ({ s with pc := upd s.pc t (.start n) } : State).step (.run t) =
      { s with pc := upd (upd s.pc t (.start n)) t (.loaded n s.acq) } := by
    have hp : (upd s.pc t (.start n)) t = .start n := by simp [upd]
    unfold State.step
    simp only [hp]
    rw [if_neg (by omega)]
  rw [h1, h2]
  unfold State.step
  have hp : (upd (upd s.pc t (.start n)) t (.loaded n s.acq)) t = .loaded n s.acq := by simp [upd]
  simp only [hp]
  rw [if_pos trivial]

example := C16_undisturbed_grant (State.init 100) 3 40 (by decide) rfl (by decide)

/-- **C16 fails**: with a limit of 100 and 1 byte in use, a request of 2^64 - 1 bytes passes the
check because the sum wraps to zero, and is granted. -/
theorem C16_overflow_fails :
    ∃ s, Reach 100 (fun _ => True) s ∧ s.total > 100 := by
  refine ⟨exec (State.init 100)
    [.call 0 1, .run 0, .run 0, .call 0 (2 ^ 64 - 1), .run 0, .run 0], ?_, by decide⟩
  exact reach_exec _ _ .init (by
    refine ⟨?_, ?_, ?_, ?_, ?_, ?_, ?_, ?_, ?_, ?_, ?_, ?_, trivial⟩ <;>
      first | trivial | decide)

end Verif.MemoryLimiter
