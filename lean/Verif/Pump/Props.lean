import Verif.Pump.Spec

/-!
# Pump: properties (C88)
-/

namespace Verif.Pump

variable {α : Type}

theorem written_append (a b : List (Ev α)) : written (a ++ b) = written a ++ written b := by
  induction a with
  | nil => rfl
  | cons e a ih => cases e <;> simp only [List.cons_append, written, ih]

theorem readAll_append (a b : List (Ev α)) : readAll (a ++ b) = readAll a ++ readAll b := by
  induction a with
  | nil => rfl
  | cons e a ih =>
    cases e with
    | read s f => cases f <;> simp only [List.cons_append, readAll, ih]
    | _ => simp only [List.cons_append, readAll, ih]

/-- Choosing a source moves no frame. -/
theorem choose_quiet (c : Cfg) (s : St) (i : In α) :
    written (choose c s i).1 = [] ∧ readAll (choose c s i).1 = [] := by
  unfold choose
  split <;> split
  · split <;> exact ⟨rfl, rfl⟩
  · exact ⟨rfl, rfl⟩
  · exact ⟨rfl, rfl⟩
  · split
    · split <;> exact ⟨rfl, rfl⟩
    · exact ⟨rfl, rfl⟩

/-- Frames of a transfer. -/
theorem transfer_written (c : Cfg) (s : St) (i : In α) (src : Src) :
    written (transfer c s i src).1 = (i.frame src).toList ∧ readAll (transfer c s i src).1 = (i.frame src).toList := by
  unfold transfer
  cases i.frame src <;> exact ⟨rfl, rfl⟩

/-- The three ways an iteration can go. -/
theorem step_cases (c : Cfg) (s : St) (i : In α) :
    (i.stop = true ∧ step c s i = ([], .error .stopped))
    ∨ (i.stop = false ∧ (choose c s i).2 = none ∧ step c s i = ((choose c s i).1, .error .inactive))
    ∨ (i.stop = false ∧ ∃ src, (choose c s i).2 = some src
        ∧ step c s i = ((choose c s i).1 ++ (transfer c s i src).1, (transfer c s i src).2)) := by
  unfold step
  cases i.stop with
  | true => exact .inl ⟨rfl, rfl⟩
  | false =>
    rw [if_neg (by decide)]
    rcases choose c s i with ⟨es, _ | src⟩
    · exact .inr (.inl ⟨rfl, rfl, rfl⟩)
    · exact .inr (.inr ⟨rfl, src, rfl, rfl⟩)

/-- **C88.** The sink gets all frames that were read from the sources, each once, in the order in which they were
read, however often the pump switches between sources and however it ends. -/
theorem C88_order (c : Cfg) (is : List (In α)) :
    written (run c .init is).1 = readAll (run c .init is).1 := by
  have hstep : ∀ s (i : In α), written (step c s i).1 = readAll (step c s i).1 := by
    intro s i
    rcases step_cases c s i with ⟨_, h⟩ | ⟨_, _, h⟩ | ⟨_, src, _, h⟩ <;> rw [h]
    · rfl
    · exact (choose_quiet c s i).1.trans (choose_quiet c s i).2.symm
    · rw [written_append, readAll_append, (choose_quiet c s i).1, (choose_quiet c s i).2,
        (transfer_written c s i src).1, (transfer_written c s i src).2]
  have key : ∀ s, written (run c s is).1 = readAll (run c s is).1 := by
    induction is with
    | nil => exact fun _ => rfl
    | cons i is ih =>
      intro s
      simp only [run]
      cases h : (step c s i).2 with
      | error w => exact hstep s i
      | ok s' =>
        simp only [written_append, readAll_append]
        rw [hstep, ih]
  exact key _

deriving instance DecidableEq for Except

/-- A run that uses both sources: idle, active, idle again, and then the main source ends. -/
def sampleIns : List (In Nat) :=
  [⟨false, false, true, true, some 1, some 11, false⟩, ⟨false, true, true, true, some 2, some 12, false⟩,
    ⟨false, false, true, true, some 3, some 13, false⟩, ⟨false, false, true, true, some 4, none, false⟩,
    ⟨false, true, true, true, none, some 15, false⟩]

example : written (run ⟨true, false⟩ .init sampleIns).1 = [11, 2, 13]
    ∧ (run ⟨true, false⟩ .init sampleIns).2 = .error (.eof, true) := by decide

/-- Which source is chosen, if switching succeeds. -/
theorem choose_ok (c : Cfg) (s : St) (i : In α) (hb : c.backup = true) (h1 : i.resumeOk = true)
    (h2 : i.restartOk = true) :
    (choose c s i).2 = if i.act then some .main else if c.oneshot ∧ s.nbufs ≠ 0 then none else some .backup := by
  unfold choose
  cases i.act with
  | true =>
    rw [if_pos rfl, if_pos rfl]
    by_cases hc : s.cur = .backup
    · rw [if_pos ⟨hb, hc⟩, if_pos h1]
    · rw [if_neg (fun h => hc h.2)]
      cases h : s.cur with
      | main => rfl
      | backup => exact absurd h hc
  | false =>
    simp only [Bool.false_eq_true, if_false]
    by_cases ho : c.oneshot = true ∧ s.nbufs ≠ 0
    · rw [if_pos ho, if_pos ho]
    · rw [if_neg ho, if_neg ho]
      by_cases hc : s.cur = .backup
      · rw [if_neg (fun h => h.2 hc), hc]
      · rw [if_pos ⟨hb, hc⟩, if_pos h2]

/-- **C88.** With a backup source, and if sources can be resumed and restarted, the sink gets frames of the main source
while it is active, and of the backup source while it is not; the pump goes on until it is told to stop, the main source
ends, or, in oneshot mode, the main source becomes inactive after it was active. -/
theorem C88_source (c : Cfg) (is : List (In α)) (hb : c.backup = true) (h1 : ∀ i ∈ is, i.resumeOk = true)
    (h2 : ∀ i ∈ is, i.restartOk = true) :
    written (run c .init is).1 = (want c.oneshot false is).1
    ∧ ((∃ s, (run c .init is).2 = .ok s) ↔ (want c.oneshot false is).2 = true) := by
  have key : ∀ s b, (b = true ↔ s.nbufs ≠ 0) → written (run c s is).1 = (want c.oneshot b is).1
      ∧ ((∃ t, (run c s is).2 = .ok t) ↔ (want c.oneshot b is).2 = true) := by
    induction is with
    | nil => exact fun s b _ => ⟨rfl, ⟨fun _ => rfl, fun _ => ⟨s, rfl⟩⟩⟩
    | cons i is ih =>
      intro s b hs
      have ih' := ih (fun i hi => h1 i (List.mem_cons_of_mem _ hi)) (fun i hi => h2 i (List.mem_cons_of_mem _ hi))
      have hch := choose_ok c s i hb (h1 i List.mem_cons_self) (h2 i List.mem_cons_self)
      have hq := (choose_quiet c s i).1
      have hob : (c.oneshot = true ∧ s.nbufs ≠ 0) ↔ (c.oneshot = true ∧ b = true) := by rw [hs]
      rcases step_cases c s i with ⟨hst, h⟩ | ⟨hst, hn, h⟩ | ⟨hst, src, hsrc, h⟩
      · simp only [run, want, h, hst, if_true]
        exact ⟨rfl, by simp⟩
      · simp only [run, want, h, hst]
        rw [hn] at hch
        cases ha : i.act with
        | true => rw [ha, if_pos rfl] at hch; cases hch
        | false =>
          rw [ha, if_neg (by decide)] at hch
          by_cases ho : c.oneshot = true ∧ s.nbufs ≠ 0
          · rw [if_neg (by decide), if_neg (by decide), if_pos (hob.1 ho)]
            exact ⟨hq, by simp⟩
          · rw [if_neg ho] at hch
            cases hch
      · simp only [run, want, h, hst]
        rw [hsrc] at hch
        rw [if_neg (by decide)]
        cases ha : i.act with
        | true =>
          rw [ha, if_pos rfl] at hch
          cases hch
          rw [if_pos rfl]
          unfold transfer
          simp only [In.frame]
          cases hf : i.mainFrame with
          | none =>
            rw [if_neg (fun h => by cases h.2)]
            simp only [written_append, hq]
            exact ⟨rfl, by simp⟩
          | some f =>
            have := ih' ⟨.main, s.nbufs + 1⟩ true (by simp)
            simp only [written_append, hq, if_true, this.1]
            exact ⟨rfl, this.2⟩
        | false =>
          rw [ha, if_neg (by decide)] at hch
          rw [if_neg (by decide)]
          by_cases ho : c.oneshot = true ∧ s.nbufs ≠ 0
          · rw [if_pos ho] at hch; cases hch
          · rw [if_neg ho] at hch
            cases hch
            rw [if_neg (fun h => ho (hob.2 h))]
            unfold transfer
            simp only [In.frame]
            cases hf : i.backupFrame with
            | none =>
              simp only [hb, and_self, if_true]
              have := ih' ⟨.main, s.nbufs⟩ b hs
              simp only [written_append, hq, this.1]
              exact ⟨rfl, this.2⟩
            | some f =>
              have := ih' ⟨.backup, s.nbufs⟩ b hs
              have hne : ¬ Src.backup = Src.main := by decide
              simp only [written_append, hq, if_neg hne, this.1]
              exact ⟨rfl, this.2⟩
  exact key _ _ (by simp [St.init])

example : (∀ i ∈ sampleIns, i.resumeOk = true) ∧ (∀ i ∈ sampleIns, i.restartOk = true)
    ∧ want false false sampleIns = ([11, 2, 13], false) ∧ want true false sampleIns = ([11, 2], false) := by
  decide

/-- **C88.** If switching can fail, in any state the pump can be in: a frame of the main source is written while it is
inactive only if there is no backup source or it could not be restarted, and a frame of the backup source is written
while the main source is active only if that could not be resumed. (A frame is followed by `reclock` of
its source.) -/
theorem C88_choice (c : Cfg) (s : St) (i : In α) (src : Src) (h : .reclock src ∈ (step c s i).1) :
    (src = .main → i.act = true ∨ c.backup = false ∨ i.restartOk = false)
    ∧ (src = .backup → (c.backup = true → i.act = false ∨ i.resumeOk = false)) := by
  have hr : ∀ src, Ev.reclock src ∉ (choose c s i).1 := by
    intro src
    unfold choose
    split <;> split
    · split <;> simp
    · simp
    · simp
    · split
      · split <;> simp
      · simp
  rcases step_cases c s i with ⟨_, hs⟩ | ⟨_, _, hs⟩ | ⟨_, src', hsrc, hs⟩
  · rw [hs] at h; cases h
  · rw [hs] at h; exact absurd h (hr src)
  · rw [hs, List.mem_append] at h
    rcases h with h | h
    · exact absurd h (hr src)
    have he : src = src' := by
      unfold transfer at h
      cases hf : i.frame src' with
      | none => rw [hf] at h; simp at h
      | some f => rw [hf] at h; simpa using h
    subst he
    clear h hr hs
    unfold choose at hsrc
    rcases i with ⟨stop, act, resumeOk, restartOk, mf, bf, se⟩
    rcases c with ⟨backup, oneshot⟩
    rcases s with ⟨cur, n⟩
    cases src <;> cases act <;> cases resumeOk <;> cases restartOk <;> cases backup <;> cases cur <;>
      by_cases ho : oneshot = true ∧ n ≠ 0 <;> simp_all

/-- Both kinds of failures happen. -/
example : Ev.reclock .main ∈ (step ⟨true, false⟩ .init
      (⟨false, false, true, false, some 1, some 2, false⟩ : In Nat)).1
    ∧ Ev.reclock .backup ∈ (step ⟨true, false⟩ ⟨.backup, 0⟩
      (⟨false, true, false, true, some 1, some 2, false⟩ : In Nat)).1 := by
  decide

/-- **C88.** Without a backup source and not in oneshot mode, the sink gets frames of the main source, active or not, up
to its end. -/
theorem C88_alone (is : List (In α)) :
    written (run ⟨false, false⟩ .init is).1 = (wantAlone is).1
    ∧ ((∃ s, (run ⟨false, false⟩ .init is).2 = .ok s) ↔ (wantAlone is).2 = true) := by
  have hch : ∀ n (i : In α), choose ⟨false, false⟩ ⟨.main, n⟩ i = ([], some .main) := by
    intro n i
    unfold choose
    cases i.act <;> simp
  have key : ∀ n, written (run ⟨false, false⟩ ⟨.main, n⟩ is).1 = (wantAlone is).1
      ∧ ((∃ s, (run ⟨false, false⟩ ⟨.main, n⟩ is).2 = .ok s) ↔ (wantAlone is).2 = true) := by
    induction is with
    | nil => exact fun n => ⟨rfl, ⟨fun _ => rfl, fun _ => ⟨_, rfl⟩⟩⟩
    | cons i is ih =>
      intro n
      have hc := hch n i
      rcases step_cases ⟨false, false⟩ ⟨.main, n⟩ i with ⟨hst, h⟩ | ⟨hst, hn, h⟩ | ⟨hst, src, hsrc, h⟩
      · simp only [run, wantAlone, h, hst, if_true]
        exact ⟨rfl, by simp⟩
      · rw [hc] at hn; cases hn
      · rw [hc] at hsrc
        cases hsrc
        simp only [run, wantAlone, h, hst, hc, List.nil_append]
        rw [if_neg (by decide)]
        unfold transfer
        simp only [In.frame]
        cases hf : i.mainFrame with
        | none => exact ⟨rfl, by simp⟩
        | some f =>
          have := ih (n + 1)
          simp only [written_append, if_true, this.1]
          exact ⟨rfl, this.2⟩
  exact key 0

example : wantAlone sampleIns = ([1, 2, 3, 4], false) := by decide

/-- **C88 fails** in oneshot mode without a backup source (`roc-recv --oneshot`): an inactive main source that gives
silence makes the pump end after one frame, before the main source was active even once. -/
theorem C88_oneshot_fails (f g : α) (i : In α) (is : List (In α))
    (hi : i.stop = false ∧ i.act = false ∧ i.mainFrame = some f)
    (j : In α) (hj : j.stop = false ∧ j.act = false ∧ j.mainFrame = some g) :
    ∃ b, (run ⟨false, true⟩ .init (i :: j :: is)).2 = .error (.inactive, b)
      ∧ written (run ⟨false, true⟩ .init (i :: j :: is)).1 = [f] := by
  obtain ⟨h1, h2, h3⟩ := hi
  obtain ⟨h4, h5, h6⟩ := hj
  refine ⟨!j.stopEnd, ?_, ?_⟩ <;>
    simp [run, step, choose, transfer, In.frame, h1, h2, h3, h4, h5, St.init, written]

example : ∃ i : In Nat, i.stop = false ∧ i.act = false ∧ i.mainFrame = some 0 :=
  ⟨⟨false, false, true, true, some 0, none, false⟩, rfl, rfl, rfl⟩

/-- **C88.** Sources that are paused are not read, as long as the backup source does not end. (In full, that should
hold for every run; it does not.) -/
theorem C88_paused_partial (c : Cfg) (is : List (In α)) (h : ∀ i ∈ is, i.backupFrame.isSome = true) :
    proper false true (run c .init is).1 = true := by
  have key : ∀ s m b, (s.cur = .main → m = false) → (s.cur = .backup → b = false ∧ c.backup = true) →
      proper m b (run c s is).1 = true := by
    induction is with
    | nil => exact fun _ _ _ _ _ => rfl
    | cons i is ih =>
      intro s m b hm hb
      have ih' := ih (fun i hi => h i (List.mem_cons_of_mem _ hi))
      have hbf := h i List.mem_cons_self
      have tr : ∀ src m b, (src = Src.main → m = false) → (src = .backup → b = false ∧ c.backup = true) →
          proper m b (match (transfer c s i src).2 with
            | .error _ => (transfer c s i src).1
            | .ok s' => (transfer c s i src).1 ++ (run c s' is).1) = true := by
        intro src m b hm hb
        unfold transfer
        cases src with
        | main =>
          have hm := hm rfl
          subst hm
          cases hf : i.mainFrame with
          | none => simp [In.frame, hf, proper]
          | some f =>
            simp only [In.frame, hf, List.cons_append, List.nil_append, proper, if_true]
            exact ih' _ _ _ (fun _ => rfl) (fun h => by cases h)
        | backup =>
          have hb := hb rfl
          obtain ⟨hb, hc⟩ := hb
          subst hb
          cases hf : i.backupFrame with
          | none => rw [hf] at hbf; cases hbf
          | some f =>
            simp only [In.frame, hf, List.cons_append, List.nil_append, proper]
            exact ih' _ _ _ (fun h => by cases h) (fun _ => ⟨rfl, hc⟩)
      have run_eq : ∀ es src, choose c s i = (es, some src) → i.stop = false →
          (run c s (i :: is)).1 = es ++ (match (transfer c s i src).2 with
            | .error _ => (transfer c s i src).1
            | .ok s' => (transfer c s i src).1 ++ (run c s' is).1) := by
        intro es src hc hst
        simp only [run, step, hst, hc]
        rw [if_neg (by decide)]
        cases ht : (transfer c s i src).2 with
        | error w => rfl
        | ok s' => simp only [List.append_assoc]
      cases hst : i.stop with
      | true => simp [run, step, hst, proper]
      | false =>
        unfold choose at run_eq
        cases ha : i.act with
        | true =>
          rw [if_pos ha] at run_eq
          by_cases hc : c.backup = true ∧ s.cur = .backup
          · rw [if_pos hc] at run_eq
            by_cases ho : i.resumeOk = true
            · rw [if_pos ho] at run_eq
              rw [run_eq _ _ rfl hst]
              simp only [List.cons_append, List.nil_append, proper, if_true]
              exact tr _ _ _ (fun _ => rfl) (fun h => by cases h)
            · rw [if_neg ho] at run_eq
              rw [run_eq _ _ rfl hst]
              simp only [List.cons_append, List.nil_append, proper]
              exact tr _ _ _ hm hb
          · rw [if_neg hc] at run_eq
            rw [run_eq _ _ rfl hst]
            exact tr _ _ _ hm hb
        | false =>
          rw [if_neg (by rw [ha]; decide)] at run_eq
          by_cases hone : c.oneshot = true ∧ s.nbufs ≠ 0
          · simp [run, step, hst, choose, ha, hone, proper]
          · rw [if_neg hone] at run_eq
            by_cases hc : c.backup = true ∧ s.cur ≠ .backup
            · rw [if_pos hc] at run_eq
              by_cases ho : i.restartOk = true
              · rw [if_pos ho] at run_eq
                rw [run_eq _ _ rfl hst]
                simp only [List.cons_append, List.nil_append, proper, if_true]
                exact tr _ _ _ (fun h => by cases h) (fun _ => ⟨rfl, hc.1⟩)
              · rw [if_neg ho] at run_eq
                rw [run_eq _ _ rfl hst]
                simp only [List.cons_append, List.nil_append, proper]
                exact tr _ _ _ hm hb
            · rw [if_neg hc] at run_eq
              rw [run_eq _ _ rfl hst]
              exact tr _ _ _ hm hb
  exact key _ _ _ (fun _ => rfl) (fun h => by cases h)

/-- The first three iterations of the sample, which switch twice. -/
example : (∀ i ∈ sampleIns.take 3, i.backupFrame.isSome = true)
    ∧ Ev.pauseMain ∈ (run ⟨true, false⟩ .init (sampleIns.take 3)).1
    ∧ Ev.resumeMain true ∈ (run ⟨true, false⟩ .init (sampleIns.take 3)).1 := by decide

/-- **C88.** Only one source runs: the other one is paused when a source is read, as long as the backup source does not end.
(In full, that should hold for every run; it does not.) -/
theorem C88_one_partial (c : Cfg) (is : List (In α)) (h : ∀ i ∈ is, i.backupFrame.isSome = true) :
    alone false true (run c .init is).1 = true := by
  have key : ∀ s m b, (s.cur = .main → b = true) → (s.cur = .backup → m = true ∧ c.backup = true) →
      alone m b (run c s is).1 = true := by
    induction is with
    | nil => exact fun _ _ _ _ _ => rfl
    | cons i is ih =>
      intro s m b hm hb
      have ih' := ih (fun i hi => h i (List.mem_cons_of_mem _ hi))
      have hbf := h i List.mem_cons_self
      have tr : ∀ src m b, (src = Src.main → b = true) → (src = .backup → m = true ∧ c.backup = true) →
          alone m b (match (transfer c s i src).2 with
            | .error _ => (transfer c s i src).1
            | .ok s' => (transfer c s i src).1 ++ (run c s' is).1) = true := by
        intro src m b hm hb
        unfold transfer
        cases src with
        | main =>
          have hm := hm rfl
          subst hm
          cases hf : i.mainFrame with
          | none => simp [In.frame, hf, alone]
          | some f =>
            simp only [In.frame, hf, List.cons_append, List.nil_append, alone, if_true]
            exact ih' _ _ _ (fun _ => rfl) (fun h => by cases h)
        | backup =>
          have hb := hb rfl
          obtain ⟨hb, hc⟩ := hb
          subst hb
          cases hf : i.backupFrame with
          | none => rw [hf] at hbf; cases hbf
          | some f =>
            simp only [In.frame, hf, List.cons_append, List.nil_append, alone]
            exact ih' _ _ _ (fun h => by cases h) (fun _ => ⟨rfl, hc⟩)
      have run_eq : ∀ es src, choose c s i = (es, some src) → i.stop = false →
          (run c s (i :: is)).1 = es ++ (match (transfer c s i src).2 with
            | .error _ => (transfer c s i src).1
            | .ok s' => (transfer c s i src).1 ++ (run c s' is).1) := by
        intro es src hc hst
        simp only [run, step, hst, hc]
        rw [if_neg (by decide)]
        cases ht : (transfer c s i src).2 with
        | error w => rfl
        | ok s' => simp only [List.append_assoc]
      cases hst : i.stop with
      | true => simp [run, step, hst, alone]
      | false =>
        unfold choose at run_eq
        cases ha : i.act with
        | true =>
          rw [if_pos ha] at run_eq
          by_cases hc : c.backup = true ∧ s.cur = .backup
          · rw [if_pos hc] at run_eq
            by_cases ho : i.resumeOk = true
            · rw [if_pos ho] at run_eq
              rw [run_eq _ _ rfl hst]
              simp only [List.cons_append, List.nil_append, alone, if_true]
              exact tr _ _ _ (fun _ => rfl) (fun h => by cases h)
            · rw [if_neg ho] at run_eq
              rw [run_eq _ _ rfl hst]
              simp only [List.cons_append, List.nil_append, alone]
              exact tr _ _ _ hm hb
          · rw [if_neg hc] at run_eq
            rw [run_eq _ _ rfl hst]
            exact tr _ _ _ hm hb
        | false =>
          rw [if_neg (by rw [ha]; decide)] at run_eq
          by_cases hone : c.oneshot = true ∧ s.nbufs ≠ 0
          · simp [run, step, hst, choose, ha, hone, alone]
          · rw [if_neg hone] at run_eq
            by_cases hc : c.backup = true ∧ s.cur ≠ .backup
            · rw [if_pos hc] at run_eq
              by_cases ho : i.restartOk = true
              · rw [if_pos ho] at run_eq
                rw [run_eq _ _ rfl hst]
                simp only [List.cons_append, List.nil_append, alone, if_true]
                exact tr _ _ _ (fun h => by cases h) (fun _ => ⟨rfl, hc.1⟩)
              · rw [if_neg ho] at run_eq
                rw [run_eq _ _ rfl hst]
                simp only [List.cons_append, List.nil_append, alone]
                exact tr _ _ _ hm hb
            · rw [if_neg hc] at run_eq
              rw [run_eq _ _ rfl hst]
              exact tr _ _ _ hm hb
  exact key _ _ _ (fun _ => rfl) (fun h => by cases h)

/-- **C88 fails** when the backup source ends: it is not paused, and the main source is read. -/
theorem C88_one_fails (i j : In α) (hi : i.stop = false ∧ i.act = false ∧ i.restartOk = true ∧ i.backupFrame = none)
    (hj : j.stop = false ∧ j.act = true) : alone false true (run ⟨true, false⟩ .init [i, j]).1 = false := by
  obtain ⟨h1, h2, h3, h4⟩ := hi
  obtain ⟨h5, h6⟩ := hj
  cases hf : j.mainFrame <;>
    simp [run, step, choose, transfer, In.frame, h1, h2, h3, h4, h5, h6, hf, St.init, alone]

/-- **C88.** `run` ends in the first iteration that is stopped, finds the main source inactive (oneshot) or at its end. It returns true exactly
if it was not stopped until then. -/
theorem C88_result (c : Cfg) (s : St) (is : List (In α)) (w : Why) (r : Bool) (h : (run c s is).2 = .error (w, r)) :
    ∃ pre i post, is = pre ++ i :: post ∧ (∃ s', (run c s pre).2 = .ok s') ∧ (w = .stopped ↔ i.stop = true) ∧ (r = true ↔ i.stop = false ∧ i.stopEnd = false) := by
  induction is generalizing s with
  | nil => cases h
  | cons i is ih =>
    simp only [run] at h
    cases hs : (step c s i).2 with
    | ok s' =>
      rw [hs] at h
      obtain ⟨pre, j, post, e1, ⟨s2, e2⟩, e3⟩ := ih s' h
      refine ⟨i :: pre, j, post, by rw [e1]; rfl, ⟨s2, ?_⟩, e3⟩
      simp only [run, hs]
      exact e2
    | error w' =>
      rw [hs] at h
      injection h with h
      injection h with hw hr
      subst hw
      refine ⟨[], i, is, rfl, ⟨s, rfl⟩, ?_⟩
      have hst : w' = .stopped ↔ i.stop = true := by
        rcases step_cases c s i with ⟨h1, h2⟩ | ⟨h1, _, h2⟩ | ⟨h1, src, _, h2⟩ <;> rw [h2] at hs
        · injection hs with hs
          exact ⟨fun _ => h1, fun _ => hs.symm⟩
        · injection hs with hs
          rw [← hs, h1]
          simp
        · simp only [transfer] at hs
          split at hs
          · simp only at hs
            split at hs
            · cases hs
            · injection hs with hs
              rw [← hs, h1]
              simp
          · cases hs
      refine ⟨hst, ?_⟩
      by_cases hw : w' = .stopped
      · rw [if_pos hw] at hr
        have := hst.1 hw
        rw [← hr, this]
        simp
      · rw [if_neg hw] at hr
        have : i.stop = false := by
          cases e : i.stop with
          | false => rfl
          | true => exact absurd (hst.2 e) hw
        rw [← hr, this]
        cases i.stopEnd <;> simp

/-- A run that is stopped in its second iteration. -/
example : (run ⟨false, false⟩ .init [⟨false, true, true, true, some 1, none, false⟩, (⟨true, true, true, true, some 2, none, false⟩ : In Nat)]).2 = .error (.stopped, false) := rfl

/-- **C88 fails** when the backup source ends: the main source was paused, and if it is active at the next
iteration, it is read without being resumed. -/
theorem C88_paused_fails (i j : In α) (hi : i.stop = false ∧ i.act = false ∧ i.restartOk = true ∧ i.backupFrame = none)
    (hj : j.stop = false ∧ j.act = true) : proper false true (run ⟨true, false⟩ .init [i, j]).1 = false := by
  obtain ⟨h1, h2, h3, h4⟩ := hi
  obtain ⟨h5, h6⟩ := hj
  cases hf : j.mainFrame <;>
    simp [run, step, choose, transfer, In.frame, h1, h2, h3, h4, h5, h6, hf, St.init, proper]

example : ∃ i j : In Nat, (i.stop = false ∧ i.act = false ∧ i.restartOk = true ∧ i.backupFrame = none)
    ∧ (j.stop = false ∧ j.act = true) :=
  ⟨⟨false, false, true, true, some 1, none, false⟩, ⟨false, true, true, true, some 1, none, false⟩, by decide, by decide⟩

/-- **C88 fails** when the backup source is empty: while the main source is inactive, the pump restarts and reads the
backup source again and again, without end and without giving anything to the sink (whose clock would make it
wait). -/
theorem C88_busy_fails (i : In α) (hi : i.stop = false ∧ i.act = false ∧ i.restartOk = true ∧ i.backupFrame = none)
    (n : Nat) (o : Bool) : (run ⟨true, o⟩ .init (List.replicate n i)).2 = .ok .init
      ∧ written (run ⟨true, o⟩ .init (List.replicate n i)).1 = []
      ∧ (run ⟨true, o⟩ .init (List.replicate n i)).1.length = 3 * n := by
  obtain ⟨h1, h2, h3, h4⟩ := hi
  have hs : step ⟨true, o⟩ .init i = ([.restartBackup true, .pauseMain, .read .backup none], .ok .init) := by
    simp [step, choose, transfer, In.frame, h1, h2, h3, h4, St.init]
  induction n with
  | zero => exact ⟨rfl, rfl, rfl⟩
  | succ n ih =>
    simp only [List.replicate_succ, run, hs, written_append, ih.1, ih.2.1, List.length_append, ih.2.2]
    refine ⟨trivial, rfl, ?_⟩
    simp only [List.length_cons, List.length_nil]
    omega

example : ∃ i : In Nat, i.stop = false ∧ i.act = false ∧ i.restartOk = true ∧ i.backupFrame = none :=
  ⟨⟨false, false, true, true, some 1, none, false⟩, by decide⟩

end Verif.Pump
