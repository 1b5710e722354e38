import Verif.CsvDumper.Thread

/-!
# C115: Threads of the CSV dumper
-/

namespace Verif.CsvDumper

/-- States of the program, whatever the threads do. -/
def Reach (period : Int) (cap now : Nat) (s : St) : Prop := ∃ l, s = (St.init period cap now).run l

theorem run_append (s : St) (l m : List Step) : s.run (l ++ m) = (s.run l).run m :=
  List.foldl_append ..

theorem run_cons (s : St) (a : Step) (l : List Step) : s.run (a :: l) = (s.step a).run l := rfl

theorem run_inv {P : St → Prop} (hstep : ∀ s st, P s → P (s.step st)) (l : List Step) :
    ∀ s, P s → P (s.run l) := by
  induction l with
  | nil => exact fun s h => h
  | cons a l ih => exact fun s h => ih _ (hstep s a h)

/-! ### Mutual exclusion -/

/-- The thread holds the mutex. -/
def crit : Pc → Bool
  | .limit _ => true
  | .push _ _ => true
  | .unlock _ _ => true
  | _ => false

def LockInv (s : St) : Prop := ∀ i, crit (s.w i) = true ↔ s.owner = some i

theorem at_w (s : St) (i : Nat) (p : Pc) (j : Nat) : (s.at i p).w j = if j = i then p else s.w j := rfl

/-- A move that neither takes nor frees the mutex. -/
theorem lock_at {s t : St} {i : Nat} {p : Pc} (h : LockInv s) (hw : t.w = (s.at i p).w)
    (ho : t.owner = s.owner) (hc : crit p = crit (s.w i)) : LockInv t := by
  intro j
  rw [hw, at_w, ho]
  by_cases hj : j = i
  · rw [if_pos hj, hc, hj]; exact h i
  · rw [if_neg hj]; exact h j

theorem lock_same {s t : St} (h : LockInv s) (hw : t.w = s.w) (ho : t.owner = s.owner) :
    LockInv t := by
  intro j; rw [hw, ho]; exact h j

theorem lock_step (s : St) (st : Step) (h : LockInv s) : LockInv (s.step st) := by
  unfold St.step
  split
  · exact h
  cases st with
  | start i op =>
    simp only [St.start]
    split
    · rename_i hw; exact lock_at (i := i) (p := .post .stopped) h rfl rfl (by rw [hw]; rfl)
    · rename_i hw _
      split
      · exact lock_at (i := i) h rfl rfl (by rw [hw]; rfl)
      · exact lock_at (i := i) h rfl rfl (by rw [hw]; rfl)
    · exact h
  | adv i =>
    simp only [St.adv]
    split
    · exact h
    · rename_i op hw
      split
      · rename_i ho
        intro j
        show crit (if j = i then Pc.limit op else s.w j) = true ↔ some i = some j
        by_cases hj : j = i
        · simp [hj, crit]
        · rw [if_neg hj]
          constructor
          · intro hc; have := (h j).mp hc; rw [ho] at this; cases this
          · intro hc; exact absurd (Option.some.inj hc).symm hj
      · exact lock_at (i := i) h rfl rfl (by rw [hw]; rfl)
    · rename_i e hw
      split
      · exact lock_same h rfl rfl
      · split <;> exact lock_at (i := i) h rfl rfl (by rw [hw]; rfl)
    · rename_i t hw
      split
      · exact lock_same h rfl rfl
      · exact lock_at (i := i) h rfl rfl (by rw [hw]; rfl)
    · exact h
    · rename_i e g hw
      split <;> exact lock_at (i := i) h rfl rfl (by rw [hw]; rfl)
    · rename_i r p hw
      intro j
      show crit (if j = i then (if p = true then Pc.post r else Pc.ret r) else s.w j) = true ↔ none = some j
      by_cases hj : j = i
      · rw [if_pos hj]; cases p <;> simp [crit]
      · rw [if_neg hj]
        constructor
        · intro hc
          have h1 := (h j).mp hc
          have h2 := (h i).mp (by rw [hw]; rfl)
          rw [h1] at h2
          exact absurd (Option.some.inj h2) hj
        · intro hc; cases hc
    · rename_i r hw
      exact lock_at (i := i) h rfl rfl (by rw [hw]; rfl)
  | dump ok =>
    simp only [St.dump]
    repeat' split
    all_goals exact lock_same h rfl rfl
  | tick n => exact lock_same h rfl rfl

theorem lock_init (period : Int) (cap now : Nat) : LockInv (St.init period cap now) := by
  intro i; simp [St.init, crit]

theorem lock_reach {period : Int} {cap now : Nat} {s : St} (h : Reach period cap now s) : LockInv s := by
  obtain ⟨l, rfl⟩ := h
  exact run_inv lock_step l _ (lock_init period cap now)

/-! ### The queue -/

/-- The entry being written. -/
def inHand : DPc → List Entry
  | .got e => [e]
  | _ => []

structure QueueInv (s : St) : Prop where
  order : s.accepted.map Prod.fst = s.taken ++ s.q
  bound : s.q.length ≤ s.cap
  sub : (s.file ++ inHand s.d).Sublist s.taken
  count : s.taken.length = s.file.length + s.failed + (inHand s.d).length

theorem queue_same {s t : St} (h : QueueInv s) (h1 : t.accepted = s.accepted) (h2 : t.taken = s.taken)
    (h3 : t.q = s.q) (h4 : t.cap = s.cap) (h5 : t.file = s.file) (h6 : t.failed = s.failed)
    (h7 : inHand t.d = inHand s.d) : QueueInv t := by
  constructor
  · rw [h1, h2, h3]; exact h.order
  · rw [h3, h4]; exact h.bound
  · rw [h5, h7, h2]; exact h.sub
  · rw [h2, h5, h6, h7]; exact h.count

theorem queue_step (s : St) (st : Step) (h : QueueInv s) : QueueInv (s.step st) := by
  unfold St.step
  split
  · exact h
  cases st with
  | start i op =>
    simp only [St.start]
    repeat' split
    all_goals first | exact h | exact queue_same h rfl rfl rfl rfl rfl rfl rfl
  | adv i =>
    simp only [St.adv]
    split
    case h_6 e g hw =>
      split
      · rename_i hlt
        constructor
        · show (s.accepted ++ [(e, g)]).map Prod.fst = s.taken ++ (s.q ++ [e])
          rw [List.map_append, h.order, List.append_assoc]; rfl
        · show (s.q ++ [e]).length ≤ s.cap
          rw [List.length_append]; exact hlt
        · exact h.sub
        · exact h.count
      · exact queue_same h rfl rfl rfl rfl rfl rfl rfl
    all_goals (repeat' split)
    all_goals first | exact h | exact queue_same h rfl rfl rfl rfl rfl rfl rfl
  | dump ok =>
    simp only [St.dump]
    split
    · rename_i hd; split <;> exact queue_same h rfl rfl rfl rfl rfl rfl (by rw [hd]; rfl)
    · rename_i hd; split <;> exact queue_same h rfl rfl rfl rfl rfl rfl (by rw [hd]; rfl)
    · rename_i hd; split <;> exact queue_same h rfl rfl rfl rfl rfl rfl (by rw [hd]; rfl)
    · rename_i hd
      split
      · exact h
      · exact queue_same h rfl rfl rfl rfl rfl rfl (by rw [hd]; rfl)
    · rename_i hd
      split
      · exact queue_same h rfl rfl rfl rfl rfl rfl (by rw [hd]; rfl)
      · rename_i e q hq
        have hs := h.sub
        have hc := h.count
        rw [hd] at hs hc
        simp only [inHand, List.append_nil, List.length_nil, Nat.add_zero] at hs hc
        constructor
        · show s.accepted.map Prod.fst = (s.taken ++ [e]) ++ q
          rw [h.order, hq]; simp
        · show q.length ≤ s.cap
          have := h.bound
          rw [hq] at this
          simp at this
          omega
        · exact hs.append (List.Sublist.refl [e])
        · show (s.taken ++ [e]).length = s.file.length + s.failed + 1
          simp [hc]
    · rename_i e hd
      have hs := h.sub
      have hc := h.count
      rw [hd] at hs hc
      simp only [inHand, List.length_cons, List.length_nil] at hs hc
      split
      · refine ⟨h.order, h.bound, ?_, ?_⟩
        · show ((s.file ++ [e]) ++ []).Sublist s.taken
          simpa using hs
        · show s.taken.length = (s.file ++ [e]).length + s.failed + 0
          simp; omega
      · refine ⟨h.order, h.bound, ?_, ?_⟩
        · show (s.file ++ []).Sublist s.taken
          rw [List.append_nil]
          exact (List.sublist_append_left s.file [e]).trans hs
        · show s.taken.length = s.file.length + (s.failed + 1) + 0
          omega
    · exact h
  | tick n => exact queue_same h rfl rfl rfl rfl rfl rfl rfl

theorem queue_init (period : Int) (cap now : Nat) : QueueInv (St.init period cap now) := by
  constructor <;> simp [St.init, inHand]

theorem queue_reach {period : Int} {cap now : Nat} {s : St} (h : Reach period cap now s) : QueueInv s := by
  obtain ⟨l, rfl⟩ := h
  exact run_inv queue_step l _ (queue_init period cap now)

/-! ### The background thread -/

structure StopInv (s : St) : Prop where
  stopped : s.d = .topStop ∨ s.d = .closed → s.stop = true
  pend : ∀ i, s.w i = .post .stopped → s.stop = true
  unl : ∀ i b, s.w i ≠ .unlock .stopped b
  posted : s.posted = true → s.stop = true
  wait : s.posted = true → s.d = .wait → 0 < s.sem
  body : s.posted = true → s.d = .body → 0 < s.sem ∨ s.q ≠ []
  wake : s.d = .wait → s.q ≠ [] → 0 < s.sem ∨ ∃ i, s.w i = .unlock .pushed true ∨ s.w i = .post .pushed

theorem stop_at {s t : St} {i : Nat} {p : Pc} (h : StopInv s) (hw : t.w = (s.at i p).w)
    (hd : t.d = s.d) (hs : t.stop = s.stop) (hp : t.posted = s.posted) (hq : t.q = s.q)
    (hm : t.sem = s.sem) (hp1 : p ≠ .post .stopped) (hp2 : ∀ b, p ≠ .unlock .stopped b)
    (hi : s.w i ≠ .unlock .pushed true ∧ s.w i ≠ .post .pushed) : StopInv t := by
  constructor
  · rw [hd, hs]; exact h.stopped
  · intro j hj
    rw [hw, at_w] at hj
    rw [hs]
    by_cases e : j = i
    · rw [if_pos e] at hj; exact absurd hj hp1
    · rw [if_neg e] at hj; exact h.pend j hj
  · intro j b
    rw [hw, at_w]
    by_cases e : j = i
    · rw [if_pos e]; exact hp2 b
    · rw [if_neg e]; exact h.unl j b
  · rw [hp, hs]; exact h.posted
  · rw [hp, hd, hm]; exact h.wait
  · rw [hp, hd, hm, hq]; exact h.body
  · rw [hd, hm, hq]
    intro h1 h2
    rcases h.wake h1 h2 with h3 | ⟨j, h3⟩
    · exact Or.inl h3
    · refine Or.inr ⟨j, ?_⟩
      have e : j ≠ i := by
        intro e; subst e
        rcases h3 with h3 | h3
        · exact hi.1 h3
        · exact hi.2 h3
      rw [hw, at_w, if_neg e]; exact h3

theorem stop_same {s t : St} (h : StopInv s) (hw : t.w = s.w)
    (hd : t.d = s.d) (hs : t.stop = s.stop) (hp : t.posted = s.posted) (hq : t.q = s.q)
    (hm : t.sem = s.sem) : StopInv t := by
  constructor
  · rw [hd, hs]; exact h.stopped
  · rw [hw, hs]; exact h.pend
  · rw [hw]; exact h.unl
  · rw [hp, hs]; exact h.posted
  · rw [hp, hd, hm]; exact h.wait
  · rw [hp, hd, hm, hq]; exact h.body
  · rw [hd, hm, hq, hw]; exact h.wake

theorem refused_ne (op : Op) : op.refused ≠ .stopped ∧ op.refused ≠ .pushed := by
  cases op <;> simp [Op.refused]

theorem stop_step (s : St) (st : Step) (h : StopInv s) : StopInv (s.step st) := by
  unfold St.step
  split
  · exact h
  cases st with
  | start i op =>
    simp only [St.start]
    split
    · rename_i hw
      constructor
      · intro _; rfl
      · intro _ _; rfl
      · intro j b
        show (if j = i then Pc.post .stopped else s.w j) ≠ _
        by_cases e : j = i
        · rw [if_pos e]; simp
        · rw [if_neg e]; exact h.unl j b
      · intro _; rfl
      · exact h.wait
      · exact h.body
      · intro h1 h2
        rcases h.wake h1 h2 with h3 | ⟨j, h3⟩
        · exact Or.inl h3
        · refine Or.inr ⟨j, ?_⟩
          have e : j ≠ i := by
            intro e; subst e; rw [hw] at h3
            rcases h3 with h3 | h3 <;> cases h3
          show (if j = i then Pc.post .stopped else s.w j) = _ ∨ (if j = i then Pc.post .stopped else s.w j) = _
          rw [if_neg e]; exact h3
    · rename_i hw _
      split
      all_goals exact stop_at (i := i) h rfl rfl rfl rfl rfl rfl (by simp) (by simp) (by rw [hw]; simp)
    · exact h
  | adv i =>
    simp only [St.adv]
    split
    · exact h
    · rename_i op hw
      split
      all_goals exact stop_at (i := i) h rfl rfl rfl rfl rfl rfl (by simp) (by simp) (by rw [hw]; simp)
    · rename_i e hw
      split
      · exact stop_same h rfl rfl rfl rfl rfl rfl
      · split
        all_goals exact stop_at (i := i) h rfl rfl rfl rfl rfl rfl (by simp) (by simp) (by rw [hw]; simp)
    · rename_i t hw
      split
      · exact stop_same h rfl rfl rfl rfl rfl rfl
      · exact stop_at (i := i) h rfl rfl rfl rfl rfl rfl (by simp) (by simp) (by rw [hw]; simp)
    · exact h
    · rename_i e g hw
      split
      · have h' : StopInv (s.at i (.unlock .pushed true)) :=
          stop_at (i := i) h rfl rfl rfl rfl rfl rfl (by simp) (by simp) (by rw [hw]; simp)
        refine ⟨h'.stopped, h'.pend, h'.unl, h'.posted, h'.wait, ?_, ?_⟩
        · intro _ _; right; show s.q ++ [e] ≠ []; simp
        · intro _ _; right
          refine ⟨i, Or.inl ?_⟩
          show (if i = i then Pc.unlock .pushed true else s.w i) = _
          rw [if_pos rfl]
      · exact stop_at (i := i) h rfl rfl rfl rfl rfl rfl (by simp) (by simp) (by rw [hw]; simp)
    · rename_i r p hw
      have hr : r ≠ .stopped := by intro e; subst e; exact h.unl i p hw
      constructor
      · exact h.stopped
      · intro j hj
        have hj : (if j = i then (if p = true then Pc.post r else Pc.ret r) else s.w j) = .post .stopped := hj
        by_cases e : j = i
        · rw [if_pos e] at hj
          cases p
          · cases hj
          · exact absurd (by injection hj) hr
        · rw [if_neg e] at hj; exact h.pend j hj
      · intro j b
        show (if j = i then (if p = true then Pc.post r else Pc.ret r) else s.w j) ≠ _
        by_cases e : j = i
        · rw [if_pos e]; cases p <;> simp
        · rw [if_neg e]; exact h.unl j b
      · exact h.posted
      · exact h.wait
      · exact h.body
      · intro h1 h2
        rcases h.wake h1 h2 with h3 | ⟨j, h3⟩
        · exact Or.inl h3
        · refine Or.inr ⟨j, ?_⟩
          show (if j = i then (if p = true then Pc.post r else Pc.ret r) else s.w j) = _ ∨
            (if j = i then (if p = true then Pc.post r else Pc.ret r) else s.w j) = _
          by_cases e : j = i
          · rw [if_pos e]
            subst e
            rw [hw] at h3
            rcases h3 with h3 | h3
            · injection h3 with h4 h5
              subst h4; subst h5
              right; rfl
            · cases h3
          · rw [if_neg e]; exact h3
    · rename_i r hw
      constructor
      · exact h.stopped
      · intro j hj
        have hj : (if j = i then Pc.ret r else s.w j) = .post .stopped := hj
        by_cases e : j = i
        · rw [if_pos e] at hj; cases hj
        · rw [if_neg e] at hj; exact h.pend j hj
      · intro j b
        show (if j = i then Pc.ret r else s.w j) ≠ _
        by_cases e : j = i
        · rw [if_pos e]; simp
        · rw [if_neg e]; exact h.unl j b
      · intro hp
        have hp : (s.posted || decide (r = Ret.stopped)) = true := hp
        rw [Bool.or_eq_true, decide_eq_true_eq] at hp
        rcases hp with hp | hp
        · exact h.posted hp
        · exact h.pend i (by rw [hw, hp])
      · intro _ _; exact Nat.succ_pos _
      · intro _ _; exact Or.inl (Nat.succ_pos _)
      · intro _ _; exact Or.inl (Nat.succ_pos _)
  | dump ok =>
    have base : ∀ t : St, t.w = s.w → t.stop = s.stop → t.posted = s.posted → t.d = .drain ∨ t.d = .top ∨ (∃ e, t.d = .got e) →
        StopInv t := by
      intro t hw hs hp hd
      constructor
      · intro h1
        rcases hd with hd | hd | ⟨e, hd⟩ <;> rw [hd] at h1 <;> rcases h1 with h1 | h1 <;> cases h1
      · rw [hw, hs]; exact h.pend
      · rw [hw]; exact h.unl
      · rw [hp, hs]; exact h.posted
      · intro _ h1; rcases hd with hd | hd | ⟨e, hd⟩ <;> rw [hd] at h1 <;> cases h1
      · intro _ h1; rcases hd with hd | hd | ⟨e, hd⟩ <;> rw [hd] at h1 <;> cases h1
      · intro h1; rcases hd with hd | hd | ⟨e, hd⟩ <;> rw [hd] at h1 <;> cases h1
    simp only [St.dump]
    split
    · split
      · rename_i hs
        refine ⟨fun _ => hs, h.pend, h.unl, h.posted, fun _ h1 => ?_, fun _ h1 => ?_, fun h1 => ?_⟩ <;> cases h1
      · rename_i hs
        refine ⟨fun h1 => ?_, h.pend, h.unl, h.posted, fun _ h1 => ?_, fun h0 _ => ?_, fun h1 => ?_⟩
        · rcases h1 with h1 | h1 <;> cases h1
        · cases h1
        · exact absurd (h.posted h0) hs
        · cases h1
    · rename_i hd
      split
      · refine ⟨fun _ => h.stopped (Or.inl hd), h.pend, h.unl, h.posted, fun _ h1 => ?_, fun _ h1 => ?_, fun h1 => ?_⟩ <;> cases h1
      · rename_i hq
        refine ⟨fun h1 => ?_, h.pend, h.unl, h.posted, fun _ h1 => ?_, fun _ _ => Or.inr ?_, fun h1 => ?_⟩
        · rcases h1 with h1 | h1 <;> cases h1
        · cases h1
        · intro e
          have e : s.q = [] := e
          rw [e] at hq; exact hq rfl
        · cases h1
    · rename_i hd
      split
      · rename_i hq
        have hq : s.q = [] := by simpa using hq
        refine ⟨fun h1 => ?_, h.pend, h.unl, h.posted, fun h0 _ => ?_, fun _ h1 => ?_, fun _ h2 => absurd hq h2⟩
        · rcases h1 with h1 | h1 <;> cases h1
        · rcases h.body h0 hd with h1 | h1
          · exact h1
          · exact absurd hq h1
        · cases h1
      · exact base _ rfl rfl rfl (Or.inl rfl)
    · split
      · exact h
      · exact base _ rfl rfl rfl (Or.inl rfl)
    · split
      · exact base _ rfl rfl rfl (Or.inr (Or.inl rfl))
      · exact base _ rfl rfl rfl (Or.inr (Or.inr ⟨_, rfl⟩))
    · split
      · exact base _ rfl rfl rfl (Or.inl rfl)
      · exact base _ rfl rfl rfl (Or.inr (Or.inl rfl))
    · exact h
  | tick n => exact stop_same h rfl rfl rfl rfl rfl rfl

theorem stop_init (period : Int) (cap now : Nat) : StopInv (St.init period cap now) := by
  constructor <;> simp [St.init]

theorem stop_reach {period : Int} {cap now : Nat} {s : St} (h : Reach period cap now s) : StopInv s := by
  obtain ⟨l, rfl⟩ := h
  exact run_inv stop_step l _ (stop_init period cap now)

/-! ### The limiters -/

/-- Times at which entries of a type passed the limiter. -/
def timesOf (t : Char) (l : List (Char × Nat)) : List Nat := (l.filter fun p => p.1 == t).map Prod.snd

theorem timesOf_append (t : Char) (l m : List (Char × Nat)) :
    timesOf t (l ++ m) = timesOf t l ++ timesOf t m := by
  simp [timesOf]

/-- The limiter lets an entry pass when no other did in the same interval. -/
structure LimOk (P : Nat) (now : Nat) (times : List Nat) (st : Nat) (rl : RateLimiter.State) : Prop where
  per : rl.period = P
  pos : 0 < P
  pass : ∀ x, rl.pos ≤ x ↔ ∀ g ∈ times, (g - st) / P < x / P
  apart : times.Pairwise fun a b => (a - st) / P < (b - st) / P

structure LimInv (s : St) : Prop where
  lim : ∀ t st rl, s.lims t = some (st, rl) → LimOk s.period.toNat s.now (timesOf t s.grants) st rl
  fresh : ∀ t, s.lims t = none → timesOf t s.grants = []
  sub : (s.accepted.map fun p => (p.1.type, p.2)).Sublist s.grants
  pend : ∀ i e g, s.w i = .push e g →
    (s.accepted.map (fun p => (p.1.type, p.2)) ++ [(e.type, g)]).Sublist s.grants

theorem limiter_ok {s : St} (h : LimInv s) {t : Char} {st : Nat} {rl : RateLimiter.State}
    (hl : s.limiter t = some (st, rl)) : LimOk s.period.toNat s.now (timesOf t s.grants) st rl := by
  unfold St.limiter at hl
  split at hl
  · cases hl
  · split at hl
    · rename_i l hs
      injection hl with hl
      subst hl
      exact h.lim t st rl hs
    · rename_i hs
      rw [h.fresh t hs]
      unfold RateLimiter.State.init at hl
      by_cases hp : s.period ≤ 0
      · rw [if_pos hp] at hl; cases hl
      · rw [if_neg hp] at hl
        simp only [Option.map_some, Option.some.injEq, Prod.mk.injEq] at hl
        obtain ⟨rfl, rfl⟩ := hl
        refine ⟨rfl, by omega, fun x => ?_, List.Pairwise.nil⟩
        simp

theorem limok_grant {P now : Nat} {times : List Nat} {st : Nat} {rl : RateLimiter.State}
    (h : LimOk P now times st rl) (hp : rl.pos ≤ now - st) :
    LimOk P now (times ++ [now]) st { rl with pos := ((now - st) / rl.period + 1) * rl.period } := by
  refine ⟨h.per, h.pos, fun x => ?_, ?_⟩
  · show ((now - st) / rl.period + 1) * rl.period ≤ x ↔ _
    rw [h.per, ← Nat.le_div_iff_mul_le h.pos]
    constructor
    · intro hx g hg
      rcases List.mem_append.mp hg with hg | hg
      · have := (h.pass _).mp hp g hg; omega
      · rw [List.mem_singleton.mp hg]; omega
    · intro hx
      have := hx now (by simp)
      omega
  · rw [List.pairwise_append]
    refine ⟨h.apart, List.pairwise_singleton _ _, ?_⟩
    intro a ha b hb
    rw [List.mem_singleton.mp hb]
    exact (h.pass _).mp hp a ha

theorem lim_at {s t : St} {i : Nat} {p : Pc} (h : LimInv s) (hw : t.w = (s.at i p).w)
    (h1 : t.lims = s.lims) (h2 : t.period = s.period) (h3 : t.grants = s.grants)
    (h4 : t.accepted = s.accepted) (hp : ∀ e g, p ≠ .push e g) (hn : t.now = s.now) : LimInv t := by
  constructor
  · rw [h1, h2, h3, hn]; exact h.lim
  · rw [h1, h3]; exact h.fresh
  · rw [h3, h4]; exact h.sub
  · intro j e g hj
    rw [hw, at_w] at hj
    by_cases e : j = i
    · rw [if_pos e] at hj; exact absurd hj (hp _ _)
    · rw [if_neg e] at hj; rw [h3, h4]; exact h.pend j _ _ hj

theorem lim_same {s t : St} (h : LimInv s) (hw : t.w = s.w)
    (h1 : t.lims = s.lims) (h2 : t.period = s.period) (h3 : t.grants = s.grants)
    (h4 : t.accepted = s.accepted) : LimInv t := by
  constructor
  · rw [h1, h2, h3]
    intro c st rl hl
    have := h.lim c st rl hl
    exact ⟨this.per, this.pos, this.pass, this.apart⟩
  · rw [h1, h3]; exact h.fresh
  · rw [h3, h4]; exact h.sub
  · rw [hw, h3, h4]; exact h.pend

theorem lim_set {s : St} (h : LimInv s) {c : Char} {st : Nat} {rl : RateLimiter.State}
    (ho : LimOk s.period.toNat s.now (timesOf c s.grants) st rl) : LimInv (s.setLim c (st, rl)) := by
  constructor
  · intro t st' rl' hl
    have hl : (if t = c then some (st, rl) else s.lims t) = some (st', rl') := hl
    by_cases e : t = c
    · rw [if_pos e] at hl
      simp only [Option.some.injEq, Prod.mk.injEq] at hl
      obtain ⟨rfl, rfl⟩ := hl
      subst e
      exact ho
    · rw [if_neg e] at hl; exact h.lim t st' rl' hl
  · intro t hl
    have hl : (if t = c then some (st, rl) else s.lims t) = none := hl
    by_cases e : t = c
    · rw [if_pos e] at hl; cases hl
    · rw [if_neg e] at hl; exact h.fresh t hl
  · exact h.sub
  · exact h.pend

theorem lim_step (s : St) (st : Step) (hl : LockInv s) (h : LimInv s) : LimInv (s.step st) := by
  unfold St.step
  split
  · exact h
  cases st with
  | start i op =>
    simp only [St.start]
    repeat' split
    all_goals first
      | exact h
      | exact lim_at (i := i) h rfl rfl rfl rfl rfl (fun _ _ => nofun) rfl
  | adv i =>
    simp only [St.adv]
    split
    · exact h
    · split <;> exact lim_at (i := i) h rfl rfl rfl rfl rfl (fun _ _ => nofun) rfl
    · rename_i e hw
      split
      · exact lim_same h rfl rfl rfl rfl rfl
      · rename_i st rl hlim
        have ho := limiter_ok h hlim
        unfold RateLimiter.State.allow
        by_cases hp : s.now - st ≥ rl.pos
        · rw [if_pos hp]
          simp only
          have alone : ∀ j e' g', s.w j ≠ .push e' g' := by
            intro j e' g' hj
            have h1 := (hl j).mp (by rw [hj]; rfl)
            have h2 := (hl i).mp (by rw [hw]; rfl)
            rw [h1] at h2
            have : j = i := Option.some.inj h2
            rw [this, hw] at hj
            cases hj
          have hg := limok_grant ho hp
          constructor
          · intro t st' rl' hl'
            have hl' : (if t = e.type then some (st, _) else s.lims t) = some (st', rl') := hl'
            show LimOk s.period.toNat s.now (timesOf t (s.grants ++ [(e.type, s.now)])) st' rl'
            rw [timesOf_append]
            by_cases et : t = e.type
            · rw [if_pos et] at hl'
              simp only [Option.some.injEq, Prod.mk.injEq] at hl'
              obtain ⟨rfl, rfl⟩ := hl'
              subst et
              have : timesOf e.type [(e.type, s.now)] = [s.now] := by simp [timesOf]
              rw [this]
              exact hg
            · rw [if_neg et] at hl'
              have : timesOf t [(e.type, s.now)] = [] := by simp [timesOf, Ne.symm et]
              rw [this, List.append_nil]
              exact h.lim t st' rl' hl'
          · intro t hl'
            have hl' : (if t = e.type then some (st, _) else s.lims t) = none := hl'
            show timesOf t (s.grants ++ [(e.type, s.now)]) = []
            by_cases et : t = e.type
            · rw [if_pos et] at hl'; cases hl'
            · rw [if_neg et] at hl'
              have : timesOf t [(e.type, s.now)] = [] := by simp [timesOf, Ne.symm et]
              rw [timesOf_append, this, List.append_nil]
              exact h.fresh t hl'
          · exact h.sub.trans (List.sublist_append_left _ _)
          · intro j e' g' hj
            have hj : (if j = i then Pc.push e s.now else s.w j) = .push e' g' := hj
            by_cases ej : j = i
            · rw [if_pos ej] at hj
              injection hj with h1 h2
              subst h1; subst h2
              exact h.sub.append (List.Sublist.refl _)
            · rw [if_neg ej] at hj; exact absurd hj (alone j e' g')
        · rw [if_neg hp]
          simp only
          exact lim_at (i := i) (lim_set h ho) rfl rfl rfl rfl rfl (fun _ _ => nofun) rfl
    · rename_i t hw
      split
      · exact lim_same h rfl rfl rfl rfl rfl
      · rename_i st rl hlim
        exact lim_at (i := i) (lim_set h (limiter_ok h hlim)) rfl rfl rfl rfl rfl (fun _ _ => nofun) rfl
    · exact h
    · rename_i e g hw
      split
      · have hb := h.pend i e g hw
        constructor
        · exact h.lim
        · exact h.fresh
        · show ((s.accepted ++ [(e, g)]).map fun p => (p.1.type, p.2)).Sublist s.grants
          rw [List.map_append]; exact hb
        · intro j e' g' hj
          have hj : (if j = i then Pc.unlock .pushed true else s.w j) = .push e' g' := hj
          by_cases ej : j = i
          · rw [if_pos ej] at hj; cases hj
          · rw [if_neg ej] at hj
            have h1 := (hl j).mp (by rw [hj]; rfl)
            have h2 := (hl i).mp (by rw [hw]; rfl)
            rw [h1] at h2
            exact absurd (Option.some.inj h2) ej
      · exact lim_at (i := i) h rfl rfl rfl rfl rfl (fun _ _ => nofun) rfl
    · rename_i r p hw
      exact lim_at (i := i) h rfl rfl rfl rfl rfl (fun _ _ => by cases p <;> nofun) rfl
    · exact lim_at (i := i) h rfl rfl rfl rfl rfl (fun _ _ => nofun) rfl
  | dump ok =>
    simp only [St.dump]
    repeat' split
    all_goals exact lim_same h rfl rfl rfl rfl rfl
  | tick n => exact lim_same h rfl rfl rfl rfl rfl

theorem lim_init (period : Int) (cap now : Nat) : LimInv (St.init period cap now) := by
  constructor <;> simp [St.init, timesOf]

theorem lim_reach {period : Int} {cap now : Nat} {s : St} (h : Reach period cap now s) : LimInv s := by
  obtain ⟨l, rfl⟩ := h
  exact (run_inv (P := fun s => LockInv s ∧ LimInv s)
    (fun s st hs => ⟨lock_step s st hs.1, lim_step s st hs.1 hs.2⟩) l _
    ⟨lock_init period cap now, lim_init period cap now⟩).2

end Verif.CsvDumper
