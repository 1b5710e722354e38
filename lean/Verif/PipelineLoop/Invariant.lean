import Verif.PipelineLoop.Model
import Mathlib.Tactic.SplitIfs
import Mathlib.Data.List.Perm.Subperm

/-!
# Pipeline loop: invariants of all interleavings
-/

namespace Verif.PipelineLoop

/-- Holds the pipeline mutex. -/
def crit : PC → Bool
  | .exec | .decr | .rdFrames | .unlockA _ | .fBody | .fHand _ | .fDecr | .fStat0 | .fStat1 | .fUnlock => true
  | .p3 | .p4 | .p5 | .p6 | .pHand _ | .pDecr | .p7 _ => true
  | _ => false

/-- Holds the scheduler mutex. -/
def critS : PC → Bool
  | .s2 | .s3 | .s4 | .c1 _ | .c2 _ | .c3 _ | .fStat1 => true
  | _ => false

/-- The task was neither executed nor put into the queue yet. -/
def hold : PC → Bool
  | .load1 | .allow | .pushOnly | .pushCheck | .tryLock | .exec => true
  | _ => false

/-- The task that was taken from the queue. -/
def hand : PC → Option Nat
  | .fHand i | .pHand i => some i
  | _ => none

/-- A task was executed but the counter was not decremented yet. -/
def undec : PC → Nat
  | .decr | .fDecr | .pDecr => 1
  | _ => 0

/-- Program counters of tasks, frames, and the scheduler's thread. -/
def kindOk : Tid → PC → Bool
  | .task _, .idle | .task _, .done | .task _, .load1 | .task _, .allow | .task _, .pushOnly | .task _, .pushCheck | .task _, .chkFrames
  | .task _, .tryLock | .task _, .exec | .task _, .decr | .task _, .rdFrames | .task _, .unlockA _ | .task _, .chkA _ => true
  | .frame _, .idle | .frame _, .fLock | .frame _, .fBody | .frame _, .fHand _ | .frame _, .fDecr | .frame _, .fStat0 | .frame _, .fStat1
  | .frame _, .fUnlock | .frame _, .fDec | .frame _, .fChk _ => true
  | .proc, .idle | .proc, .p1 | .proc, .p2 | .proc, .p3 | .proc, .p4 | .proc, .p5 | .proc, .p6 | .proc, .pHand _ | .proc, .pDecr | .proc, .p7 _
  | .proc, .p8 _ | .proc, .p9 _ | .proc, .p10 _ => true
  | _, .s0 | _, .s1 | _, .s2 | _, .s3 | _, .s4 | _, .s5 => true
  | _, .c0 .fin | _, .c1 .fin | _, .c2 .fin | _, .c3 .fin => true
  | .frame _, .c0 .lock | .frame _, .c1 .lock | .frame _, .c2 .lock | .frame _, .c3 .lock => true
  | _, _ => false

def handCnt (s : G) (i : Nat) : Nat := match s.pm with
  | none => 0
  | some t => if hand (s.pc t) = some i then 1 else 0

def undecCnt (s : G) : Nat := match s.pm with
  | none => 0
  | some t => undec (s.pc t)

structure Inv (s : G) : Prop where
  pm : ∀ t, crit (s.pc t) = true ↔ s.pm = some t
  sm : ∀ t, critS (s.pc t) = true ↔ s.sm = some t
  kind : ∀ t, kindOk t (s.pc t) = true
  cnt : ∀ i, s.queue.count i + s.executed.count i + handCnt s i + (if hold (s.pc (.task i)) = true then 1 else 0) = if s.pc (.task i) = .idle then 0 else 1
  pend : s.pend + s.executed.length = s.sched.length + undecCnt s
  sched : ∀ i, i ∈ s.sched ↔ s.pc (.task i) ≠ .idle
  nodup : s.sched.Nodup

theorem Inv.init : Inv init :=
  ⟨fun _ => by simp [PipelineLoop.init, crit], fun _ => by simp [PipelineLoop.init, critS], fun t => by cases t <;> rfl, fun _ => rfl, rfl,
    fun _ => by simp [PipelineLoop.init], List.nodup_nil⟩

theorem pc_go (s : G) (t u : Tid) (p : PC) : (s.go t p).pc u = if u = t then p else s.pc u := rfl

theorem Inv.exec_le {s : G} (h : Inv s) : s.executed.length ≤ s.sched.length := by
  have hn : s.executed.Nodup := by
    rw [List.nodup_iff_count]
    intro i
    have := h.cnt i
    split_ifs at this <;> omega
  have hs : s.executed ⊆ s.sched := by
    intro i hi
    rw [h.sched]
    intro hc
    have := h.cnt i
    rw [if_pos hc] at this
    have h2 : 0 < s.executed.count i := List.count_pos_iff.2 hi
    omega
  exact (List.subperm_of_subset hn hs).length_le

theorem lock_ok {c : PC → Bool} {pc : Tid → PC} {m m' : Option Tid} {t : Tid} {p : PC} (h : ∀ u, c (pc u) = true ↔ m = some u)
    (hc : (m' = m ∧ c p = c (pc t)) ∨ (m = none ∧ m' = some t ∧ c p = true) ∨ (c (pc t) = true ∧ m' = none ∧ c p = false)) :
    ∀ u, c (if u = t then p else pc u) = true ↔ m' = some u := by
  intro u
  rcases hc with ⟨rfl, h2⟩ | ⟨h1, rfl, h3⟩ | ⟨h1, rfl, h3⟩
  · by_cases hu : u = t
    · rw [if_pos hu, h2, h, hu]
    · rw [if_neg hu, h]
  · by_cases hu : u = t
    · rw [if_pos hu, h3, hu]; simp
    · rw [if_neg hu, h, h1]
      simp
      exact fun k => hu k.symm
  · rw [h] at h1
    by_cases hu : u = t
    · rw [if_pos hu, h3]; simp
    · rw [if_neg hu, h, h1]
      simp
      exact fun k => hu k.symm

theorem kind_ok {pc : Tid → PC} {t : Tid} {p : PC} (h : ∀ u, kindOk u (pc u) = true) (hp : kindOk t p = true) : ∀ u, kindOk u (if u = t then p else pc u) = true := by
  intro u
  by_cases hu : u = t
  · rw [if_pos hu, hu, hp]
  · rw [if_neg hu, h]

theorem pm_ok {s s0 : G} {t : Tid} {p : PC} (h : ∀ u, crit (s.pc u) = true ↔ s.pm = some u) (e : s0.pc = s.pc)
    (hc : (s0.pm = s.pm ∧ crit p = crit (s.pc t)) ∨ (s.pm = none ∧ s0.pm = some t ∧ crit p = true) ∨ (crit (s.pc t) = true ∧ s0.pm = none ∧ crit p = false)) :
    ∀ u, crit ((s0.go t p).pc u) = true ↔ (s0.go t p).pm = some u := by
  intro u
  rw [pc_go, e]
  exact lock_ok h hc u

theorem sm_ok {s s0 : G} {t : Tid} {p : PC} (h : ∀ u, critS (s.pc u) = true ↔ s.sm = some u) (e : s0.pc = s.pc)
    (hc : (s0.sm = s.sm ∧ critS p = critS (s.pc t)) ∨ (s.sm = none ∧ s0.sm = some t ∧ critS p = true) ∨ (critS (s.pc t) = true ∧ s0.sm = none ∧ critS p = false)) :
    ∀ u, critS ((s0.go t p).pc u) = true ↔ (s0.go t p).sm = some u := by
  intro u
  rw [pc_go, e]
  exact lock_ok h hc u

theorem kd_ok {s s0 : G} {t : Tid} {p : PC} (h : ∀ u, kindOk u (s.pc u) = true) (e : s0.pc = s.pc) (hp : kindOk t p = true) :
    ∀ u, kindOk u ((s0.go t p).pc u) = true := by
  intro u
  rw [pc_go, e]
  exact kind_ok h hp u

/-- The parts that only concern the mutexes and the kinds. -/
theorem inv_mutex {s s' : G} {t : Tid} {ch : Ch} (h : Inv s) (hs : step s t ch = some s') :
    (∀ t, crit (s'.pc t) = true ↔ s'.pm = some t) ∧ (∀ t, critS (s'.pc t) = true ↔ s'.sm = some t) ∧ (∀ t, kindOk t (s'.pc t) = true) := by
  have hk := h.kind t
  have hp := h.pm
  have hm := h.sm
  have hkall := h.kind
  unfold step at hs
  rcases t with i | j | _ <;> cases hpc : s.pc _ <;> rw [hpc] at hs hk <;> simp only [stepS, stepT, stepF, stepP] at hs <;> simp only [kindOk, Bool.false_eq_true] at hk
  all_goals (try (rename_i r; cases r))
  all_goals (try simp only [kindOk, Bool.false_eq_true] at hk)
  all_goals (try split at hs)
  all_goals (try (injection hs with hs; subst hs))
  all_goals (try (split at hs <;> injection hs with hs <;> subst hs))
  all_goals first
    | contradiction
    | (refine ⟨pm_ok hp rfl ?_, sm_ok hm rfl ?_, kd_ok hkall rfl ?_⟩ <;> first | (simp [hpc, crit, critS, kindOk, fin]; done) | (simp [hpc, crit, critS, kindOk, fin, *]; done) | (split_ifs <;> simp [hpc, crit, critS, kindOk, fin, *]; done))
    | skip

/-- A number that is attached to the thread that holds the pipeline mutex. -/
def weigh (w : PC → Nat) (s : G) : Nat := match s.pm with
  | none => 0
  | some t => w (s.pc t)

theorem weigh_upd {w : PC → Nat} (hw : ∀ p, crit p = false → w p = 0) {s s' : G} {t : Tid} {p : PC} (h : ∀ u, crit (s.pc u) = true ↔ s.pm = some u)
    (h' : ∀ u, crit (s'.pc u) = true ↔ s'.pm = some u) (e : ∀ u, s'.pc u = if u = t then p else s.pc u) :
    weigh w s' + w (s.pc t) = weigh w s + w p := by
  have et : s'.pc t = p := by rw [e, if_pos rfl]
  cases hc : crit (s.pc t) with
  | true =>
    have h1 := (h t).1 hc
    have e1 : weigh w s = w (s.pc t) := by unfold weigh; rw [h1]
    cases hp : crit p with
    | true =>
      have h2 := (h' t).1 (by rw [et]; exact hp)
      have e2 : weigh w s' = w p := by unfold weigh; rw [h2]; simp only; rw [et]
      omega
    | false =>
      have h2 : s'.pm = none := by
        cases hm : s'.pm with
        | none => rfl
        | some u =>
          have h3 := (h' u).2 hm
          rw [e] at h3
          by_cases hu : u = t
          · rw [if_pos hu, hp] at h3; cases h3
          · rw [if_neg hu, h, h1] at h3
            injection h3 with h3
            exact absurd h3.symm hu
      have e2 : weigh w s' = 0 := by unfold weigh; rw [h2]
      have := hw p hp
      omega
  | false =>
    have h1 := hw _ hc
    cases hp : crit p with
    | true =>
      have h2 := (h' t).1 (by rw [et]; exact hp)
      have e2 : weigh w s' = w p := by unfold weigh; rw [h2]; simp only; rw [et]
      have h3 : s.pm = none := by
        cases hm : s.pm with
        | none => rfl
        | some u =>
          have h3 := (h u).2 hm
          by_cases hu : u = t
          · rw [hu, hc] at h3; cases h3
          · have h4 := (h' u).1 (by rw [e, if_neg hu]; exact h3)
            rw [h2] at h4
            injection h4 with h4
            exact absurd h4.symm hu
      have e1 : weigh w s = 0 := by unfold weigh; rw [h3]
      omega
    | false =>
      have h2 := hw p hp
      have key : weigh w s' = weigh w s := by
        cases hm : s.pm with
        | none =>
          cases hm' : s'.pm with
          | none => unfold weigh; rw [hm, hm']
          | some u =>
            have h3 := (h' u).2 hm'
            rw [e] at h3
            by_cases hu : u = t
            · rw [if_pos hu, hp] at h3; cases h3
            · rw [if_neg hu, h, hm] at h3; cases h3
        | some u =>
          have h3 := (h u).2 hm
          have hu : u ≠ t := by rintro rfl; rw [hc] at h3; cases h3
          have h4 := (h' u).1 (by rw [e, if_neg hu]; exact h3)
          unfold weigh
          rw [hm, h4]
          simp only
          rw [e, if_neg hu]
      omega

theorem hand_weigh (i : Nat) (s : G) : handCnt s i = weigh (fun p => if hand p = some i then 1 else 0) s := rfl

theorem undec_weigh (s : G) : undecCnt s = weigh undec s := rfl

theorem hand_crit (i : Nat) : ∀ p, crit p = false → (if hand p = some i then 1 else 0) = 0 := by
  intro p hp
  cases p <;> simp_all [crit, hand]

theorem undec_crit : ∀ p, crit p = false → undec p = 0 := by
  intro p hp
  cases p <;> simp_all [crit, undec]

theorem hand_upd {s s0 : G} {t : Tid} {p : PC} (h : ∀ u, crit (s.pc u) = true ↔ s.pm = some u)
    (h' : ∀ u, crit ((s0.go t p).pc u) = true ↔ (s0.go t p).pm = some u) (e : s0.pc = s.pc) (i : Nat) :
    handCnt (s0.go t p) i + (if hand (s.pc t) = some i then 1 else 0) = handCnt s i + (if hand p = some i then 1 else 0) :=
  weigh_upd (w := fun p => if hand p = some i then 1 else 0) (hand_crit i) h h' (fun u => by rw [pc_go, e])

theorem undec_upd {s s0 : G} {t : Tid} {p : PC} (h : ∀ u, crit (s.pc u) = true ↔ s.pm = some u)
    (h' : ∀ u, crit ((s0.go t p).pc u) = true ↔ (s0.go t p).pm = some u) (e : s0.pc = s.pc) :
    undecCnt (s0.go t p) + undec (s.pc t) = undecCnt s + undec p :=
  weigh_upd undec_crit h h' (fun u => by rw [pc_go, e])

/-- How a step changes the counts of a task. -/
theorem cnt_ok {s s0 : G} {t : Tid} {p : PC} (h : Inv s) (h' : ∀ u, crit ((s0.go t p).pc u) = true ↔ (s0.go t p).pm = some u) (e : s0.pc = s.pc)
    (hc : ∀ i, s0.queue.count i + s0.executed.count i + (if hand p = some i then 1 else 0) + (if t = .task i ∧ hold p = true then 1 else 0) +
        (if t = .task i ∧ s.pc t ≠ .idle then 1 else 0) =
      s.queue.count i + s.executed.count i + (if hand (s.pc t) = some i then 1 else 0) + (if t = .task i ∧ hold (s.pc t) = true then 1 else 0) +
        (if t = .task i ∧ p ≠ .idle then 1 else 0)) :
    ∀ i, (s0.go t p).queue.count i + (s0.go t p).executed.count i + handCnt (s0.go t p) i + (if hold ((s0.go t p).pc (.task i)) = true then 1 else 0) =
      if (s0.go t p).pc (.task i) = .idle then 0 else 1 := by
  intro i
  have h1 := h.cnt i
  have h2 := hand_upd h.pm h' e i
  have h3 := hc i
  show s0.queue.count i + s0.executed.count i + _ + _ = _
  rw [pc_go, e]
  by_cases hu : Tid.task i = t
  · subst hu
    rw [if_pos rfl]
    simp only [true_and, ne_eq] at h3
    by_cases ha : s.pc (.task i) = .idle <;> by_cases hb : p = .idle <;>
      simp only [ha, hb, not_true_eq_false, not_false_eq_true, if_true, if_false] at h1 h2 h3 ⊢ <;> omega
  · rw [if_neg hu]
    have hu' : ¬ t = Tid.task i := fun k => hu k.symm
    simp [hu'] at h3
    omega

theorem pend_ok {s s0 : G} {t : Tid} {p : PC} (h : Inv s) (h' : ∀ u, crit ((s0.go t p).pc u) = true ↔ (s0.go t p).pm = some u) (e : s0.pc = s.pc)
    (hc : s0.pend + s0.executed.length + s.sched.length + undec (s.pc t) = s.pend + s.executed.length + s0.sched.length + undec p) :
    (s0.go t p).pend + (s0.go t p).executed.length = (s0.go t p).sched.length + undecCnt (s0.go t p) := by
  have h1 := h.pend
  have h2 := undec_upd h.pm h' e
  show s0.pend + s0.executed.length = s0.sched.length + _
  omega

theorem sched_ok {s s0 : G} {t : Tid} {p : PC} (h : Inv s) (e : s0.pc = s.pc)
    (hc : (s0.sched = s.sched ∧ ∀ i, t = .task i → s.pc t ≠ .idle ∧ p ≠ .idle) ∨ (∃ i, t = .task i ∧ s.pc t = .idle ∧ p ≠ .idle ∧ s0.sched = i :: s.sched)) :
    (∀ i, i ∈ (s0.go t p).sched ↔ (s0.go t p).pc (.task i) ≠ .idle) ∧ (s0.go t p).sched.Nodup := by
  show (∀ i, i ∈ s0.sched ↔ _) ∧ s0.sched.Nodup
  rcases hc with ⟨h1, h2⟩ | ⟨i, h1, h2, h3, h4⟩
  · rw [h1]
    refine ⟨fun i => ?_, h.nodup⟩
    rw [h.sched, pc_go, e]
    by_cases hu : Tid.task i = t
    · rw [if_pos hu]
      have := h2 i hu.symm
      rw [hu]
      exact ⟨fun _ => this.2, fun _ => this.1⟩
    · rw [if_neg hu]
  · rw [h4]
    subst h1
    refine ⟨fun k => ?_, List.nodup_cons.2 ⟨fun k => ?_, h.nodup⟩⟩
    · rw [List.mem_cons, h.sched, pc_go, e]
      by_cases hu : k = i
      · subst hu
        rw [if_pos rfl]
        exact ⟨fun _ => h3, fun _ => Or.inl rfl⟩
      · rw [if_neg (by simp [hu])]
        exact ⟨fun q => q.resolve_left hu, fun q => Or.inr q⟩
    · exact (h.sched i).1 k h2

theorem Inv.step {s s' : G} {t : Tid} {ch : Ch} (h : Inv s) (hs : step s t ch = some s') : Inv s' := by
  obtain ⟨m1, m2, m3⟩ := inv_mutex h hs
  suffices hh : (∀ i, s'.queue.count i + s'.executed.count i + handCnt s' i + (if hold (s'.pc (.task i)) = true then 1 else 0) = if s'.pc (.task i) = .idle then 0 else 1) ∧
      s'.pend + s'.executed.length = s'.sched.length + undecCnt s' ∧ (∀ i, i ∈ s'.sched ↔ s'.pc (.task i) ≠ .idle) ∧ s'.sched.Nodup from
    ⟨m1, m2, m3, hh.1, hh.2.1, hh.2.2.1, hh.2.2.2⟩
  have hk := h.kind t
  have hpos : undec (s.pc t) = 1 → 0 < s.pend := by
    intro hu
    have h1 := h.pend
    have h2 := h.exec_le
    have hcr : crit (s.pc t) = true := by
      cases hc : crit (s.pc t) with
      | true => rfl
      | false => have := undec_crit _ hc; omega
    have hun : undecCnt s = 1 := by
      unfold undecCnt
      rw [(h.pm t).1 hcr]
      exact hu
    omega
  unfold PipelineLoop.step at hs
  rcases t with i | j | _ <;> cases hpc : s.pc _ <;> rw [hpc] at hs hk hpos <;> simp only [stepS, stepT, stepF, stepP] at hs <;> simp only [kindOk, Bool.false_eq_true] at hk
  all_goals (try (rename_i r; cases r))
  all_goals (try simp only [kindOk, Bool.false_eq_true] at hk)
  all_goals (try simp only [undec, forall_const] at hpos)
  all_goals (try split at hs)
  all_goals (try (injection hs with hs; subst hs))
  all_goals (try (split at hs <;> injection hs with hs <;> subst hs))
  all_goals first
    | contradiction
    | (refine ⟨cnt_ok h m1 rfl (fun k => ?_), pend_ok h m1 rfl ?_, sched_ok h rfl ?_⟩ <;> first
        | (simp [hpc, hold, hand, undec, fin, List.count_cons, List.count_append]; done)
        | (simp [hpc, hold, hand, undec, fin, List.count_cons, List.count_append, *]; done)
        | (simp [hpc, hold, hand, undec, fin, List.count_cons, List.count_append, *]; omega; done)
        | (split_ifs <;> simp_all [hpc, hold, hand, undec, fin, List.count_cons, List.count_append] <;> omega; done))
    | skip

theorem Reach.inv {s : G} (h : Reach s) : Inv s := by
  induction h with
  | init => exact Inv.init
  | step _ hs ih => exact ih.step hs

end Verif.PipelineLoop
