import Verif.TaskQueue.Spec
import Mathlib.Tactic.SplitIfs
import Mathlib.Data.List.Nodup

namespace Verif.TaskQueue

/-- What concerns one task: its fields, membership in the queues, whether it runs, counters of the trace. -/
structure View where
  k : Task
  r : Bool
  s : Bool
  p : Bool
  x : Bool
  nS : Nat
  nD : Nat
  rq : Option Int
  ow : Bool
  pe : Bool
  rs : Bool

def State.view (s : State) (t : Nat) : View :=
  ⟨s.task t, decide (t ∈ s.ready), decide (t ∈ s.sleeping), decide (t ∈ s.paused), decide (s.pc = .exec t),
   nSched t s.tr, nDone t s.tr, lastReq t s.tr, owed t s.tr, pending t s.tr, wakened t s.tr⟩

structure TInv (v : View) : Prop where
  r : v.r = true ↔ v.k.st = .ready
  st : v.k.st = .ready ∨ v.k.st = .sleeping ∨ v.k.st = .processing ∨ v.k.st = .completed
  proc : v.k.st = .processing → v.x = true
  x : v.x = true → (v.k.st = .processing ∨ v.k.st = .ready) ∧ 0 ≤ v.k.effDl ∧ v.s = false ∧ v.k.succ = false ∧ v.k.cancelled = false
  s : v.s = true → (v.k.st = .sleeping ∨ v.k.st = .ready) ∧ 0 < v.k.effDl ∧ v.p = false ∧ v.k.paused = false
  slp : v.k.st = .sleeping → v.k.paused = false → v.s = true ∧ v.k.effDl = v.k.renDl ∧ v.k.effVer = v.k.renVer
  pau : v.k.paused = true → v.p = true ∧ 0 ≤ v.k.effDl ∧ v.k.st ≠ .completed
  fl : v.k.flagsOk = true
  ver : v.k.effVer ≤ v.k.renVer
  rdy : v.k.st = .ready → v.k.effVer < v.k.renVer ∨ 0 ≤ v.k.effDl
  ex : v.k.st ≠ .completed → v.k.exec = true ∧ v.rq = some v.k.renDl
  rq : v.k.exec = true → v.rq = some v.k.renDl
  ow : v.k.st = .completed → v.ow = false
  cnt : v.k.st ≠ .completed → v.nD + 1 + (if (v.x = true ∨ v.k.paused = true) ∧
    ((v.k.renVer ≠ v.k.effVer ∧ 0 ≤ v.k.renDl) ∨ (v.x = true ∧ v.k.st = .ready ∧ v.k.resumed = false)) then 1 else 0) ≤ v.nS
  cnt' : v.nD ≤ v.nS
  can : -1 ≤ v.k.renDl
  p : v.p = true → v.s = false
  rs : v.k.resumed = v.rs
  res : v.k.paused = true ∨ v.x = true → v.k.resumed = true → v.k.st = .ready
  neverRen : v.k.exec = false → v.k.st = .completed → v.pe = false
  pe1 : v.k.st = .completed → v.pe = true → v.k.renDl = -1
  pe2 : v.x = true ∨ v.k.paused = true → v.pe = true → v.k.effVer < v.k.renVer

structure GInv (s : State) : Prop where
  rnd : s.ready.Nodup
  snd : s.sleeping.Nodup
  pnd : s.paused.Nodup
  sorted : s.sleeping.Pairwise fun a b => (s.task a).effDl ≤ (s.task b).effDl
  size : s.size = s.ready.length
  now : 0 ≤ s.now
  tmr : s.pc = .asleep → (s.ready ≠ [] → s.timer = 0) ∧ ∀ t ∈ s.sleeping, 0 ≤ s.timer ∧ s.timer ≤ (s.task t).effDl
  starts : Obeys s.tr

structure Inv (s : State) : Prop where
  g : GInv s
  t : ∀ t, TInv (s.view t)

theorem mem_insertBy (dl : Nat → Int) (t i : Nat) (l : List Nat) : i ∈ insertBy dl t l ↔ i = t ∨ i ∈ l := by
  induction l with
  | nil => simp [insertBy]
  | cons x l ih =>
    unfold insertBy
    split
    · simp
    · simp only [List.mem_cons, ih]; tauto

theorem nodup_insertBy (dl : Nat → Int) (t : Nat) (l : List Nat) (h : t ∉ l) (hn : l.Nodup) :
    (insertBy dl t l).Nodup := by
  induction l with
  | nil => simp [insertBy]
  | cons x l ih =>
    simp only [List.mem_cons, not_or] at h
    unfold insertBy
    split
    · exact List.nodup_cons.2 ⟨by simp [h], hn⟩
    · rw [List.nodup_cons] at hn ⊢
      refine ⟨?_, ih h.2 hn.2⟩
      rw [mem_insertBy]
      rintro (c | c)
      · exact h.1 c.symm
      · exact hn.1 c

theorem sorted_insertBy (dl : Nat → Int) (t : Nat) (l : List Nat) (hs : l.Pairwise fun a b => dl a ≤ dl b) :
    (insertBy dl t l).Pairwise fun a b => dl a ≤ dl b := by
  induction l with
  | nil => simp [insertBy]
  | cons x l ih =>
    rw [List.pairwise_cons] at hs
    unfold insertBy
    split
    · rename_i h
      rw [List.pairwise_cons, List.pairwise_cons]
      refine ⟨?_, hs⟩
      intro a ha
      rcases List.mem_cons.1 ha with rfl | ha
      · omega
      · have := hs.1 a ha; omega
    · rename_i h
      rw [List.pairwise_cons]
      refine ⟨?_, ih hs.2⟩
      intro a ha
      rcases (mem_insertBy dl t a l).1 ha with rfl | ha
      · omega
      · exact hs.1 a ha

theorem pairwise_congr {l : List Nat} {f g : Nat → Int} (h : ∀ i ∈ l, f i = g i)
    (hs : l.Pairwise fun a b => f a ≤ f b) : l.Pairwise fun a b => g a ≤ g b :=
  hs.imp_of_mem fun ha hb hab => by rw [← h _ ha, ← h _ hb]; exact hab

theorem dropSleeping_eq (s : State) (t : Nat) (h : t ∈ s.sleeping → 0 < (s.task t).effDl) :
    s.dropSleeping t = some { s with sleeping := s.sleeping.erase t } := by
  unfold State.dropSleeping
  by_cases hm : t ∈ s.sleeping
  · rw [if_pos hm, if_neg (by have := h hm; omega)]
  · rw [if_neg hm, List.erase_of_not_mem hm]

theorem dropPaused_eq (s : State) (t : Nat) : s.dropPaused t = { s with paused := s.paused.erase t } := by
  unfold State.dropPaused
  by_cases hm : t ∈ s.paused
  · rw [if_pos hm]
  · rw [if_neg hm, List.erase_of_not_mem hm]

/-- Change of one task. -/
abbrev upd (f : Nat → Task) (t : Nat) (k : Task) : Nat → Task := fun i => if i = t then k else f i

theorem upd_upd (f : Nat → Task) (t : Nat) (a b : Task) : upd (upd f t a) t b = upd f t b := by
  funext i; unfold upd; split <;> rfl

theorem renew_cancel (s : State) (t : Nat) (dl : Int) (ver : Nat) (h1 : (s.task t).st = .ready) (h2 : dl < 0)
    (h3 : ¬ ((s.task t).effDl = -1 ∧ (s.task t).effVer = ver)) (h4 : t ∈ s.sleeping → 0 < (s.task t).effDl) :
    s.renew t dl ver = some ({ s with
      task := upd s.task t { s.task t with st := .completed, succ := false, paused := false, resumed := false, cancelled := true, effDl := -1, effVer := ver }
      sleeping := s.sleeping.erase t
      paused := s.paused.erase t
      tr := .done t true :: s.tr }, false) := by
  have hr : (s.task t).renewed dl = .cancelling := by unfold Task.renewed; simp [h2]
  unfold State.renew
  rw [if_neg (by simp [h1])]
  dsimp only
  rw [if_neg (by omega), hr]
  unfold State.cancelTask
  dsimp only
  rw [if_neg (by simpa [State.set] using h3), dropPaused_eq, dropSleeping_eq _ _ (by simpa [State.set] using h4)]
  simp only [Option.bind_some, State.complete, State.set, State.ev, if_true, Bool.false_eq_true, if_false, Option.map_some]
  refine congrArg some (congrArg (·, false) ?_)
  congr 1
  funext i; unfold upd; split <;> simp_all

theorem renew_paused (s : State) (t : Nat) (dl : Int) (ver : Nat) (h1 : (s.task t).st = .ready) (h2 : 0 ≤ dl)
    (h3 : (s.task t).paused = true) :
    s.renew t dl ver = some ({ s with
      task := upd s.task t { s.task t with st := if (s.task t).resumed then .processing else .sleeping } },
      (s.task t).resumed) := by
  have hr : (s.task t).renewed dl = if (s.task t).resumed then .processing else .sleeping := by
    unfold Task.renewed; rw [if_pos h3, if_neg (by omega)]
  unfold State.renew
  rw [if_neg (by simp [h1])]
  dsimp only
  rw [if_pos (by omega), if_pos h3, hr]
  rfl

theorem renew_now (s : State) (t : Nat) (ver : Nat) (h1 : (s.task t).st = .ready)
    (h3 : (s.task t).paused = false) (h4 : t ∈ s.sleeping → 0 < (s.task t).effDl) :
    s.renew t 0 ver = some ({ s with
      task := upd s.task t { s.task t with st := .processing, effDl := 0, effVer := ver }
      sleeping := s.sleeping.erase t
      paused := s.paused.erase t }, true) := by
  have hr : (s.task t).renewed 0 = .processing := by unfold Task.renewed; simp [h3]
  unfold State.renew
  rw [if_neg (by simp [h1])]
  dsimp only
  rw [if_pos (by omega), if_neg (by simp [h3]), hr]
  unfold State.reschedule
  rw [dropPaused_eq, dropSleeping_eq _ _ (by simpa [State.set] using h4)]
  simp only [Option.bind_some, State.set, if_true]
  refine congrArg some (congrArg (·, true) ?_)
  congr 1
  funext i; unfold upd; split <;> simp_all

theorem renew_later (s : State) (t : Nat) (dl : Int) (ver : Nat) (h1 : (s.task t).st = .ready) (h2 : 0 < dl)
    (h3 : (s.task t).paused = false) (h4 : t ∈ s.sleeping → 0 < (s.task t).effDl)
    (hn : s.sleeping.Nodup) (hp : s.paused.Nodup) :
    s.renew t dl ver = some ({ s with
      task := upd s.task t { s.task t with st := .sleeping, effDl := dl, effVer := ver }
      sleeping := insertBy (fun i => (upd s.task t { s.task t with st := .sleeping, effDl := dl, effVer := ver } i).effDl) t (s.sleeping.erase t)
      paused := s.paused.erase t }, false) := by
  have hr : (s.task t).renewed dl = .sleeping := by
    unfold Task.renewed; rw [if_neg (by simp [h3]), if_neg (by omega), if_neg (by omega)]
  unfold State.renew
  rw [if_neg (by simp [h1])]
  dsimp only
  rw [if_pos (by omega), if_neg (by simp [h3]), hr]
  unfold State.reschedule
  rw [dropPaused_eq, dropSleeping_eq _ _ (by simpa [State.set] using h4)]
  simp only [Option.bind_some, State.set, if_true]
  rw [if_neg (by omega)]
  unfold State.insertSleeping
  dsimp only
  rw [if_neg (by simp only [if_true]; omega), if_neg (by
    rintro (c | c)
    · exact absurd rfl (hn.mem_erase_iff.1 c).1
    · exact absurd rfl (hp.mem_erase_iff.1 c).1)]
  have hf : (fun i => if i = t then { s.task t with st := .sleeping, effDl := dl, effVer := ver } else (if i = t then { s.task t with st := .sleeping } else s.task i))
      = upd s.task t { s.task t with st := .sleeping, effDl := dl, effVer := ver } := by
    funext i; unfold upd; split <;> simp_all
  rw [Option.map_some]
  refine congrArg some (congrArg (·, false) ?_)
  rw [hf]
  congr 2
  funext i; unfold upd; split <;> simp_all

end Verif.TaskQueue
