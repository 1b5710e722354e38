import Verif.CsvDumper.PropsThread

/-!
# C115: What the interface of the CSV dumper promises
-/

namespace Verif.CsvDumper

theorem config_step (s : St) (st : Step) : (s.step st).period = s.period ∧ (s.step st).cap = s.cap := by
  unfold St.step
  split
  · exact ⟨rfl, rfl⟩
  cases st with
  | start i op => simp only [St.start]; repeat' split
                  all_goals exact ⟨rfl, rfl⟩
  | adv i => simp only [St.adv]; repeat' split
             all_goals exact ⟨rfl, rfl⟩
  | dump ok => simp only [St.dump]; repeat' split
               all_goals exact ⟨rfl, rfl⟩
  | tick n => exact ⟨rfl, rfl⟩

theorem config_reach {period : Int} {cap now : Nat} {s : St} (h : Reach period cap now s) :
    s.period = period ∧ s.cap = cap := by
  obtain ⟨l, rfl⟩ := h
  exact run_inv (P := fun s => s.period = period ∧ s.cap = cap)
    (fun s st hs => by rw [(config_step s st).1, (config_step s st).2]; exact hs) l _ ⟨rfl, rfl⟩

/-- The thread is between the lock and the unlock of the mutex. -/
def Holds (p : Pc) : Prop :=
  (∃ op, p = .limit op) ∨ (∃ e g, p = .push e g) ∨ ∃ r b, p = .unlock r b

theorem holds_crit {p : Pc} (h : Holds p) : crit p = true := by
  rcases h with ⟨_, rfl⟩ | ⟨_, _, rfl⟩ | ⟨_, _, rfl⟩ <;> rfl

/-- No two threads are inside at once, so that the limiters are not shared and the ring buffer has one
writer at a time. -/
theorem C115_exclusive {period : Int} {cap now : Nat} {s : St} (h : Reach period cap now s) {i j : Nat}
    (hi : Holds (s.w i)) (hj : Holds (s.w j)) : i = j := by
  have h1 := (lock_reach h i).mp (holds_crit hi)
  have h2 := (lock_reach h j).mp (holds_crit hj)
  rw [h1] at h2
  exact Option.some.inj h2

/-- Entries reach the file in the order in which they were accepted, none twice; at most `max_queued`
wait. Those that were accepted and are neither in the file nor waiting are the failed writes, and the
one in hand. -/
theorem C115_order {period : Int} {cap now : Nat} {s : St} (h : Reach period cap now s) :
    (s.file ++ s.q).Sublist (s.accepted.map Prod.fst) ∧ s.q.length ≤ cap ∧
    s.accepted.length ≤ s.file.length + s.q.length + s.failed + 1 := by
  have hq := queue_reach h
  refine ⟨?_, (config_reach h).2 ▸ hq.bound, ?_⟩
  · rw [hq.order]
    exact ((List.sublist_append_left _ _).trans hq.sub).append (List.Sublist.refl _)
  · have h1 := congrArg List.length hq.order
    rw [List.length_map, List.length_append] at h1
    have h2 := hq.count
    have h3 : (inHand s.d).length ≤ 1 := by unfold inHand; split <;> simp
    omega

theorem accepted_prefix (s : St) (st : Step) : s.accepted <+: (s.step st).accepted := by
  unfold St.step
  split
  · exact List.prefix_refl _
  cases st with
  | start i op => simp only [St.start]; repeat' split
                  all_goals exact List.prefix_refl _
  | adv i => simp only [St.adv]; repeat' split
             all_goals first | exact List.prefix_refl _ | exact List.prefix_append _ _
  | dump ok => simp only [St.dump]; repeat' split
               all_goals exact List.prefix_refl _
  | tick n => exact List.prefix_refl _

theorem taken_prefix (s : St) (st : Step) : s.taken <+: (s.step st).taken := by
  unfold St.step
  split
  · exact List.prefix_refl _
  cases st with
  | start i op => simp only [St.start]; repeat' split
                  all_goals exact List.prefix_refl _
  | adv i => simp only [St.adv]; repeat' split
             all_goals exact List.prefix_refl _
  | dump ok => simp only [St.dump]; repeat' split
               all_goals first | exact List.prefix_refl _ | exact List.prefix_append _ _
  | tick n => exact List.prefix_refl _

/-- The background thread ends with an empty buffer. -/
theorem closes_empty (s : St) (st : Step) (hd : s.d ≠ .closed) (hc : (s.step st).d = .closed) :
    (s.step st).q = [] := by
  unfold St.step at hc ⊢
  split at hc
  · exact absurd hc hd
  rename_i hp
  rw [if_neg hp]
  cases st with
  | start i op => simp only [St.start] at hc; repeat' split at hc
                  all_goals exact absurd hc hd
  | adv i => simp only [St.adv] at hc; repeat' split at hc
             all_goals exact absurd hc hd
  | dump ok =>
    simp only [St.dump] at hc ⊢
    split at hc
    · split at hc <;> cases hc
    · split at hc
      · rename_i hq
        rw [if_pos hq]
        simpa using hq
      · cases hc
    · split at hc <;> cases hc
    · split at hc
      · exact absurd hc hd
      · cases hc
    · split at hc <;> cases hc
    · split at hc <;> cases hc
    · rename_i h; exact absurd h hd
  | tick n => exact absurd hc hd

/-- Every entry accepted before `stop` was called has been taken from the buffer when the background
thread ends, and is in the file if no write to the file has failed. -/
theorem C115_flush {period : Int} {cap now : Nat} {s : St} (h : Reach period cap now s)
    (hs : s.stop = false) (l : List Step) (hc : (s.run l).d = .closed) :
    (s.accepted.map Prod.fst) <+: (s.run l).taken ∧
    ((s.run l).failed = 0 → (s.accepted.map Prod.fst) <+: (s.run l).file) := by
  have key : s.accepted.map Prod.fst <+: (s.run l).taken := by
    have hinv := run_inv (P := fun t => QueueInv t ∧ s.accepted <+: t.accepted ∧
        (t.d = .closed → s.accepted.map Prod.fst <+: t.taken)) (by
      intro t st ⟨h1, h2, h3⟩
      refine ⟨queue_step t st h1, h2.trans (accepted_prefix t st), fun hd => ?_⟩
      by_cases hd' : t.d = .closed
      · exact (h3 hd').trans (taken_prefix t st)
      · have hq := (queue_step t st h1).order
        rw [closes_empty t st hd' hd, List.append_nil] at hq
        rw [← hq]
        exact (h2.trans (accepted_prefix t st)).map _) l s
      ⟨queue_reach h, List.prefix_refl _, fun hd => by
        have := (stop_reach h).stopped (Or.inr hd)
        rw [hs] at this; cases this⟩
    exact hinv.2.2 hc
  refine ⟨key, fun hf => ?_⟩
  have hq : QueueInv (s.run l) := run_inv queue_step l s (queue_reach h)
  have h1 := hq.sub
  have h2 := hq.count
  rw [hc] at h1 h2
  simp only [inHand, List.append_nil, List.length_nil, Nat.add_zero] at h1 h2
  rw [hf, Nat.add_zero] at h2
  rw [h1.eq_of_length h2.symm]
  exact key

/-- Steps the background thread still makes. -/
def rank (s : St) : Nat :=
  match s.q.length, s.d with
  | 0, .closed => 0
  | 0, .topStop => 1
  | 0, .top => 2
  | 0, .drain => 3
  | 0, .wait => 4
  | 0, .got _ => 4
  | 0, .body => 5
  | _ + 1, .closed => 0
  | n + 1, .drain => 6 * n + 7
  | n + 1, .wait => 6 * n + 8
  | n + 1, .body => 6 * n + 8
  | n + 1, .topStop => 6 * n + 9
  | n + 1, .top => 6 * n + 10
  | n + 1, .got _ => 6 * n + 11

theorem rank_le (s : St) : rank s ≤ 6 * s.q.length + 5 := by
  unfold rank
  split <;> simp_all <;> omega

theorem rank_step {s : St} (h : StopInv s) (hp : s.posted = true) (ok : Bool) (hc : s.d ≠ .closed) :
    rank (s.dump ok) < rank s := by
  have hst := h.posted hp
  unfold St.dump
  split
  · rename_i hd
    rw [if_pos hst]
    unfold rank
    simp only [hd]
    cases hq : s.q.length <;> simp
  · rename_i hd
    cases hq : s.q with
    | nil => simp [rank, hd, hq]
    | cons e q => simp [rank, hd, hq]
  · rename_i hd
    cases hq : s.q with
    | nil => simp [rank, hd, hq]
    | cons e q => simp [rank, hd, hq]
  · rename_i hd
    have hw := h.wait hp hd
    rw [if_neg (by omega)]
    cases hq : s.q with
    | nil => simp [rank, hd, hq]
    | cons e q => simp [rank, hd, hq]
  · rename_i hd
    cases hq : s.q with
    | nil => simp [rank, hd, hq]
    | cons e q =>
      simp only
      cases q with
      | nil => simp [rank, hd, hq]
      | cons f q => simp [rank, hd, hq]; omega
  · rename_i e hd
    cases hq : s.q with
    | nil => cases ok <;> simp [rank, hd, hq]
    | cons f q => cases ok <;> simp [rank, hd, hq]
  · rename_i hd; exact absurd hd hc

theorem dump_posted (s : St) (ok : Bool) : (s.dump ok).posted = s.posted ∧
    (s.dump ok).panicked = s.panicked := by
  unfold St.dump
  repeat' split
  all_goals exact ⟨rfl, rfl⟩

theorem dump_closed (s : St) (oks : List Bool) : s.d = .closed → (s.run (oks.map .dump)).d = .closed := by
  induction oks generalizing s with
  | nil => exact fun h => h
  | cons ok oks ih =>
    intro h
    rw [List.map_cons, run_cons]
    apply ih
    unfold St.step
    split
    · exact h
    · simp only [St.dump, h]

theorem run_closes (oks : List Bool) : ∀ s : St, StopInv s → s.posted = true → s.panicked = false →
    rank s ≤ oks.length → (s.run (oks.map .dump)).d = .closed := by
  induction oks with
  | nil =>
    intro s h hp _ hr
    by_cases hc : s.d = .closed
    · exact hc
    · have := rank_step h hp true hc
      simp at hr
      omega
  | cons ok oks ih =>
    intro s h hp hn hr
    by_cases hc : s.d = .closed
    · exact dump_closed s _ hc
    · rw [List.map_cons, run_cons]
      have hs : s.step (.dump ok) = s.dump ok := by unfold St.step; rw [hn]; rfl
      have h1 := rank_step h hp ok hc
      have h2 := dump_posted s ok
      rw [List.length_cons] at hr
      rw [hs]
      exact ih _ (hs ▸ stop_step s (.dump ok) h) (by rw [h2.1, hp]) (by rw [h2.2, hn]) (by omega)

/-- After `stop` has returned the background thread never blocks, and it ends after a number of its own
steps bounded by the number of entries in the buffer, whether or not writing the file succeeds. -/
theorem C115_stops {period : Int} {cap now : Nat} {s : St} (h : Reach period cap now s)
    (hp : s.posted = true) (hn : s.panicked = false) :
    (s.d = .wait → 0 < s.sem) ∧
    ∀ oks : List Bool, 6 * s.q.length + 5 ≤ oks.length → (s.run (oks.map .dump)).d = .closed :=
  ⟨(stop_reach h).wait hp, fun oks hl =>
    run_closes oks s (stop_reach h) hp hn (Nat.le_trans (rank_le s) hl)⟩

/-- No wake-up is lost: the background thread sleeps on a nonempty buffer only while a call of `write`
that put an entry there has still to post the semaphore. -/
theorem C115_wakes {period : Int} {cap now : Nat} {s : St} (h : Reach period cap now s)
    (hd : s.d = .wait) (hs : s.sem = 0) (hr : ∀ i, ∃ r, s.w i = .ret r) : s.q = [] := by
  cases hq : s.q with
  | nil => rfl
  | cons e q =>
    rcases (stop_reach h).wake hd (by rw [hq]; simp) with h1 | ⟨i, h1⟩
    · omega
    · obtain ⟨r, hr⟩ := hr i
      rw [hr] at h1
      rcases h1 with h1 | h1 <;> cases h1

/-- Times at which the accepted entries of a type passed the limiter. -/
def acceptedTimes (s : St) (t : Char) : List Nat :=
  (s.accepted.filter fun p => p.1.type == t).map Prod.snd

theorem accepted_timesOf (s : St) (t : Char) :
    acceptedTimes s t = timesOf t (s.accepted.map fun p => (p.1.type, p.2)) := by
  unfold acceptedTimes timesOf
  rw [List.filter_map, List.map_map]
  rfl

/-- Of each type, no two entries are accepted in the same interval of the length `max_interval`,
counted from the first use of the type. -/
theorem C115_rate {period : Int} {cap now : Nat} {s : St} (h : Reach period cap now s) (t : Char) :
    ∃ start, (acceptedTimes s t).Pairwise fun a b =>
      (a - start) / period.toNat < (b - start) / period.toNat := by
  have hl := lim_reach h
  have hsub : (acceptedTimes s t).Sublist (timesOf t s.grants) := by
    rw [accepted_timesOf]
    exact (hl.sub.filter _).map _
  cases hlim : s.lims t with
  | none =>
    rw [hl.fresh t hlim] at hsub
    rw [List.sublist_nil.mp hsub]
    exact ⟨0, List.Pairwise.nil⟩
  | some l =>
    have := (hl.lim t l.1 l.2 hlim).apart
    rw [(config_reach h).1] at this
    exact ⟨l.1, this.sublist hsub⟩

/-- The call of `write` by a thread, run to its end without another thread in between. -/
def callWrite (i : Nat) (e : Entry) : List Step :=
  [.start i (.write e), .adv i, .adv i, .adv i, .adv i, .adv i]

/-- The call of `would_write`, run to its end. -/
def callWould (i : Nat) (t : Char) : List Step := [.start i (.would t), .adv i, .adv i, .adv i]

/-- The start of the intervals of a type: the first use of the type, which is now if there was none. -/
def startOf (s : St) (t : Char) : Nat :=
  match s.lims t with
  | some l => l.1
  | none => s.now

/-- No entry of the type passed the limiter in the current interval. -/
def Free (s : St) (t : Char) : Prop :=
  ∀ g ∈ timesOf t s.grants, (g - startOf s t) / s.period.toNat < (s.now - startOf s t) / s.period.toNat

theorem limiter_some {s : St} (h : LimInv s) {t : Char} (ht : t.isAlphanum = true) (hp : 0 < s.period) :
    ∃ rl, s.limiter t = some (startOf s t, rl) ∧ (rl.pos ≤ s.now - startOf s t ↔ Free s t) := by
  have : ∃ rl, s.limiter t = some (startOf s t, rl) := by
    unfold St.limiter startOf
    rw [if_neg (by simp [ht])]
    cases s.lims t with
    | some l => exact ⟨l.2, rfl⟩
    | none =>
      unfold RateLimiter.State.init
      rw [if_neg (by omega)]
      exact ⟨_, rfl⟩
  obtain ⟨rl, hrl⟩ := this
  exact ⟨rl, hrl, (limiter_ok h hrl).pass _⟩

theorem step_run {s : St} (hn : s.panicked = false) (st : Step) : s.step st = match st with
    | .start i op => s.start i op
    | .adv i => s.adv i
    | .dump ok => s.dump ok
    | .tick n => { s with now := s.now + n } := by
  unfold St.step; rw [hn]; rfl

theorem run_nil (s : St) : s.run [] = s := rfl

theorem step_adv {s : St} (i : Nat) (hn : s.panicked = false) : s.step (.adv i) = s.adv i :=
  step_run hn _

theorem at_self (s : St) (i : Nat) (p : Pc) : (s.at i p).w i = p := by
  rw [at_w, if_pos rfl]

theorem adv_ret {s : St} {i : Nat} {r : Ret} (h : s.w i = .ret r) : s.step (.adv i) = s := by
  unfold St.step
  split
  · rfl
  · simp only [St.adv, h]

theorem at_at (s : St) (i : Nat) (p p' : Pc) : (s.at i p).at i p' = s.at i p' := by
  unfold St.at
  congr 1
  funext j
  by_cases h : j = i <;> simp [h]

theorem run_adv_ret {s : St} {i : Nat} {r : Ret} (h : s.w i = .ret r) (n : Nat) :
    s.run (List.replicate n (.adv i)) = s := by
  induction n with
  | zero => rfl
  | succ n ih => rw [List.replicate_succ, run_cons, adv_ret h, ih]

/-- The limiter that is stored when it was asked at the time `now`. -/
def asked (s : St) (rl : RateLimiter.State) (st : Nat) : RateLimiter.State := (rl.allow (s.now - st)).1

theorem write_run {s : St} {i : Nat} {r : Ret} {e : Entry} (hn : s.panicked = false)
    (hw : s.w i = .ret r) (ho : s.owner = none) {st : Nat} {rl : RateLimiter.State}
    (hl : s.limiter e.type = some (st, rl)) :
    (s.stop = true → s.run (callWrite i e) = s.at i (.ret .skipped)) ∧
    (s.stop = false → ¬ rl.pos ≤ s.now - st → s.run (callWrite i e) =
      (s.setLim e.type (st, asked s rl st)).at i (.ret .skipped)) ∧
    (s.stop = false → rl.pos ≤ s.now - st → s.run (callWrite i e) =
      if s.q.length < s.cap then
        { (s.setLim e.type (st, asked s rl st)).at i (.ret .pushed) with
          grants := s.grants ++ [(e.type, s.now)], q := s.q ++ [e],
          accepted := s.accepted ++ [(e, s.now)], sem := s.sem + 1 }
      else
        { (s.setLim e.type (st, asked s rl st)).at i (.ret .full) with
          grants := s.grants ++ [(e.type, s.now)], sem := s.sem + 1 }) := by
  have hstart : s.step (.start i (.write e)) =
      if s.stop then s.at i (.ret .skipped) else s.at i (.lock (.write e)) := by
    rw [step_run hn]; simp only [St.start, hw]; rfl
  have hlock : ∀ _ : s.stop = false, (s.at i (.lock (.write e))).step (.adv i) =
      { s with owner := some i }.at i (.limit (.write e)) := by
    intro _
    refine (step_adv i (by exact hn)).trans ?_
    simp only [St.adv, at_self]
    show (match s.owner with
      | none => { (s.at i (.lock (.write e))) with owner := some i }.at i (.limit (.write e))
      | some _ => (s.at i (.lock (.write e))).at i (.ret _)) = _
    rw [ho]
    exact at_at { s with owner := some i } i _ _
  refine ⟨fun hs => ?_, fun hs hp => ?_, fun hs hp => ?_⟩
  · unfold callWrite
    rw [run_cons, hstart, if_pos hs]
    exact run_adv_ret (at_self _ _ _) 5
  · unfold callWrite
    rw [run_cons, hstart, if_neg (by simp [hs]), run_cons, hlock hs, run_cons]
    have h3 : (({ s with owner := some i } : St).at i (.limit (.write e))).step (.adv i) =
        (({ s with owner := some i } : St).setLim e.type (st, asked s rl st)).at i
          (.unlock .skipped false) := by
      refine (step_adv i (by exact hn)).trans ?_
      simp only [St.adv, at_self]
      have : (({ s with owner := some i } : St).at i (.limit (.write e))).limiter e.type = some (st, rl) := hl
      rw [this]
      have ha : rl.allow (s.now - st) = (asked s rl st, false) := by
        unfold asked RateLimiter.State.allow; rw [if_neg hp]
      show (match rl.allow (s.now - st) with | (rl', true) => _ | (rl', false) => _) = _
      rw [ha]
      exact at_at (({ s with owner := some i } : St).setLim e.type (st, asked s rl st)) i _ _
    rw [h3, run_cons]
    have h4 : ((({ s with owner := some i } : St).setLim e.type (st, asked s rl st)).at i
          (.unlock .skipped false)).step (.adv i) =
        (s.setLim e.type (st, asked s rl st)).at i (.ret .skipped) := by
      refine (step_adv i (by exact hn)).trans ?_
      simp only [St.adv, at_self]
      have := at_at (s.setLim e.type (st, asked s rl st)) i (.unlock .skipped false) (.ret .skipped)
      rw [← this, ← ho]
      rfl
    rw [h4]
    exact run_adv_ret (at_self _ _ _) 2
  · unfold callWrite
    rw [run_cons, hstart, if_neg (by simp [hs]), run_cons, hlock hs, run_cons]
    have h3 : (({ s with owner := some i } : St).at i (.limit (.write e))).step (.adv i) =
        (({ s with owner := some i, grants := s.grants ++ [(e.type, s.now)] } : St).setLim e.type
          (st, asked s rl st)).at i (.push e s.now) := by
      refine (step_adv i (by exact hn)).trans ?_
      simp only [St.adv, at_self]
      have : (({ s with owner := some i } : St).at i (.limit (.write e))).limiter e.type = some (st, rl) := hl
      rw [this]
      have ha : rl.allow (s.now - st) = (asked s rl st, true) := by
        unfold asked RateLimiter.State.allow; rw [if_pos hp]
      show (match rl.allow (s.now - st) with | (rl', true) => _ | (rl', false) => _) = _
      rw [ha]
      exact at_at (({ s with owner := some i, grants := s.grants ++ [(e.type, s.now)] } : St).setLim
        e.type (st, asked s rl st)) i _ _
    rw [h3, run_cons]
    by_cases hq : s.q.length < s.cap
    · rw [if_pos hq]
      have h4 : ((({ s with owner := some i, grants := s.grants ++ [(e.type, s.now)] } : St).setLim e.type
          (st, asked s rl st)).at i (.push e s.now)).step (.adv i) =
          (({ s with owner := some i, grants := s.grants ++ [(e.type, s.now)], q := s.q ++ [e], accepted := s.accepted ++ [(e, s.now)] } : St).setLim e.type
          (st, asked s rl st)).at i (.unlock .pushed true) := by
        refine (step_adv i (by exact hn)).trans ?_
        simp only [St.adv, at_self]
        refine (if_pos (by exact hq)).trans ?_
        exact at_at (({ s with owner := some i, grants := s.grants ++ [(e.type, s.now)], q := s.q ++ [e], accepted := s.accepted ++ [(e, s.now)] } : St).setLim e.type
          (st, asked s rl st)) i _ _
      rw [h4, run_cons]
      have h5 : ((({ s with owner := some i, grants := s.grants ++ [(e.type, s.now)], q := s.q ++ [e], accepted := s.accepted ++ [(e, s.now)] } : St).setLim e.type
          (st, asked s rl st)).at i (.unlock .pushed true)).step (.adv i) =
          (({ s with grants := s.grants ++ [(e.type, s.now)], q := s.q ++ [e], accepted := s.accepted ++ [(e, s.now)] } : St).setLim e.type
          (st, asked s rl st)).at i (.post .pushed) := by
        refine (step_adv i (by exact hn)).trans ?_
        simp only [St.adv, at_self]
        have := at_at (({ s with grants := s.grants ++ [(e.type, s.now)], q := s.q ++ [e], accepted := s.accepted ++ [(e, s.now)] } : St).setLim e.type
          (st, asked s rl st)) i (.unlock .pushed true) (.post .pushed)
        rw [← this, ← ho]
        rfl
      rw [h5, run_cons, run_nil]
      refine (step_adv i (by exact hn)).trans ?_
      simp only [St.adv, at_self]
      have := at_at (({ s with grants := s.grants ++ [(e.type, s.now)], q := s.q ++ [e], accepted := s.accepted ++ [(e, s.now)], sem := s.sem + 1 } : St).setLim e.type
          (st, asked s rl st)) i (.post .pushed) (.ret .pushed)
      have hpo : (s.posted || decide (Ret.pushed = Ret.stopped)) = s.posted := by simp
      refine Eq.trans ?_ this
      unfold St.at St.setLim
      simp only [hpo]
    · rw [if_neg hq]
      have h4 : ((({ s with owner := some i, grants := s.grants ++ [(e.type, s.now)] } : St).setLim e.type
          (st, asked s rl st)).at i (.push e s.now)).step (.adv i) =
          (({ s with owner := some i, grants := s.grants ++ [(e.type, s.now)] } : St).setLim e.type
          (st, asked s rl st)).at i (.unlock .full true) := by
        refine (step_adv i (by exact hn)).trans ?_
        simp only [St.adv, at_self]
        refine (if_neg (by exact hq)).trans ?_
        exact at_at (({ s with owner := some i, grants := s.grants ++ [(e.type, s.now)] } : St).setLim e.type
          (st, asked s rl st)) i _ _
      rw [h4, run_cons]
      have h5 : ((({ s with owner := some i, grants := s.grants ++ [(e.type, s.now)] } : St).setLim e.type
          (st, asked s rl st)).at i (.unlock .full true)).step (.adv i) =
          (({ s with grants := s.grants ++ [(e.type, s.now)] } : St).setLim e.type
          (st, asked s rl st)).at i (.post .full) := by
        refine (step_adv i (by exact hn)).trans ?_
        simp only [St.adv, at_self]
        have := at_at (({ s with grants := s.grants ++ [(e.type, s.now)] } : St).setLim e.type
          (st, asked s rl st)) i (.unlock .full true) (.post .full)
        rw [← this, ← ho]
        rfl
      rw [h5, run_cons, run_nil]
      refine (step_adv i (by exact hn)).trans ?_
      simp only [St.adv, at_self]
      have := at_at (({ s with grants := s.grants ++ [(e.type, s.now)], sem := s.sem + 1 } : St).setLim e.type
          (st, asked s rl st)) i (.post .full) (.ret .full)
      have hpo : (s.posted || decide (Ret.full = Ret.stopped)) = s.posted := by simp
      refine Eq.trans ?_ this
      unfold St.at St.setLim
      simp only [hpo]

/-- A call of `write`, while no other call is running: the entry is put into the buffer unless the
dumper was stopped, an entry of the type passed in the current interval, or the buffer is full. -/
theorem C115_accepts {period : Int} {cap now : Nat} {s : St} (h : Reach period cap now s)
    (hn : s.panicked = false) (hr : ∀ i, ∃ r, s.w i = .ret r) (hp : 0 < period) (i : Nat) {e : Entry}
    (ht : e.type.isAlphanum = true) :
    (s.run (callWrite i e)).panicked = false ∧
    (s.stop = false ∧ Free s e.type ∧ s.q.length < cap →
      (s.run (callWrite i e)).w i = .ret .pushed ∧ (s.run (callWrite i e)).q = s.q ++ [e]) ∧
    (¬ (s.stop = false ∧ Free s e.type ∧ s.q.length < cap) →
      (s.run (callWrite i e)).w i ≠ .ret .pushed ∧ (s.run (callWrite i e)).q = s.q) := by
  have hcfg := config_reach h
  have ho : s.owner = none := by
    cases hs : s.owner with
    | none => rfl
    | some j =>
      have := (lock_reach h j).mpr hs
      obtain ⟨r, hj⟩ := hr j
      rw [hj] at this
      cases this
  obtain ⟨r, hw⟩ := hr i
  obtain ⟨rl, hl, hfree⟩ := limiter_some (lim_reach h) ht (by rw [hcfg.1]; exact hp)
  obtain ⟨h1, h2, h3⟩ := write_run hn hw ho hl
  rw [← hfree, ← hcfg.2]
  cases hs : s.stop with
  | true =>
    rw [h1 hs]
    refine ⟨hn, fun hc => (by cases hc.1), fun _ => ⟨?_, rfl⟩⟩
    rw [at_self]; simp
  | false =>
    by_cases hpos : rl.pos ≤ s.now - startOf s e.type
    · rw [h3 hs hpos]
      by_cases hq : s.q.length < s.cap
      · rw [if_pos hq]
        exact ⟨hn, fun _ => ⟨at_self _ _ _, rfl⟩, fun hc => absurd ⟨rfl, hpos, hq⟩ hc⟩
      · rw [if_neg hq]
        refine ⟨hn, fun hc => absurd hc.2.2 hq, fun _ => ⟨?_, rfl⟩⟩
        show (St.at _ i (.ret .full)).w i ≠ _
        rw [at_self]; simp
    · rw [h2 hs hpos]
      refine ⟨hn, fun hc => absurd hc.2.1 hpos, fun _ => ⟨?_, rfl⟩⟩
      rw [at_self]; simp

/-! ### Examples -/

/-- An entry. -/
def m1 : Entry := ⟨'m', [.fin false 1500000]⟩

/-- Two calls of `write` and one of `stop`, with the background thread in between. -/
def sampleRun : List Step :=
  callWrite 0 m1 ++ [.dump true, .dump true, .dump true, .tick 5] ++ callWrite 0 m1 ++ [.tick 7] ++
  callWrite 0 m1 ++ [.start 1 .stop, .adv 1]

/-- Hypotheses of `C115_exclusive`, `C115_order`, `C115_flush`, `C115_stops`, `C115_rate`: the second call
falls into the interval of the first. -/
example : let s := (St.init 10 4 100).run sampleRun
    s.posted = true ∧ s.panicked = false ∧ s.q = [m1] ∧ s.taken = [m1] ∧ s.accepted = [(m1, 100), (m1, 112)] ∧
    (s.run ((List.replicate 11 true).map .dump)).file = [m1, m1] := by
  decide +kernel

example : Holds (((St.init 10 4 100).run [.start 3 (.write m1), .adv 3]).w 3) :=
  Or.inl ⟨.write m1, by decide +kernel⟩

/-- Hypotheses of `C115_wakes`. -/
example : let s := (St.init 10 4 100).run [.dump true, .dump true]
    s.d = .wait ∧ s.sem = 0 ∧ s.panicked = false := by
  decide +kernel

/-- Hypotheses of `C115_accepts`. -/
example : (∀ i, ∃ r, (St.init 10 4 100).w i = .ret r) ∧ m1.type.isAlphanum = true ∧
    ((St.init 10 4 100).run (callWrite 0 m1)).q = [m1] :=
  ⟨fun _ => ⟨.none, rfl⟩, by decide, by decide +kernel⟩

/-! ### What does not hold -/

/-- `would_write` says yes, the write that follows at once is dropped, because the buffer is full
(`csv_dumper.cpp:46` asks the limiter only). -/
theorem C115_would_write_fails : ∃ s : St, Reach 10 1 100 s ∧
    (s.run (callWould 0 'm')).w 0 = .ret (.would true) ∧
    (s.run (callWould 0 'm' ++ callWrite 0 m1)).w 0 = .ret .full ∧
    (s.run (callWould 0 'm' ++ callWrite 0 m1)).accepted = s.accepted :=
  ⟨_, ⟨callWrite 0 m1 ++ [.tick 10], rfl⟩, by decide +kernel, by decide +kernel, by decide +kernel⟩

/-- `csv_dumper.h:51` says that there is no limit when `max_interval` is zero; the first write of any
type ends the program instead. -/
theorem C115_no_limit_fails (i : Nat) (e : Entry) (ht : e.type.isAlphanum = true) (cap now : Nat) :
    ((St.init 0 cap now).run (callWrite i e)).panicked = true := by
  have : (St.init 0 cap now).run [.start i (.write e), .adv i, .adv i] =
      { ({ St.init 0 cap now with owner := some i }.at i (.limit (.write e))) with panicked := true } := by
    have h1 : (St.init 0 cap now).step (.start i (.write e)) = (St.init 0 cap now).at i (.lock (.write e)) := rfl
    have h2 : ((St.init 0 cap now).at i (.lock (.write e))).step (.adv i) =
        { St.init 0 cap now with owner := some i }.at i (.limit (.write e)) := by
      refine (step_adv i (by rfl)).trans ?_
      simp only [St.adv, at_self]
      exact at_at { St.init 0 cap now with owner := some i } i _ _
    rw [run_cons, h1, run_cons, h2, run_cons, run_nil]
    refine (step_adv i (by rfl)).trans ?_
    simp only [St.adv, at_self]
    have h3 : ((({ St.init 0 cap now with owner := some i } : St)).at i (.limit (.write e))).limiter e.type = none := by
      unfold St.limiter
      rw [if_neg (by simp [ht])]
      rfl
    rw [h3]
  have hs : ∀ (l : List Step) (s : St), s.panicked = true → (s.run l).panicked = true := by
    intro l
    induction l with
    | nil => exact fun s h => h
    | cons a l ih =>
      intro s h
      rw [run_cons]
      exact ih _ (by unfold St.step; rw [if_pos h]; exact h)
  have hsplit : callWrite i e = [.start i (.write e), .adv i, .adv i] ++ [.adv i, .adv i, .adv i] := rfl
  rw [hsplit, run_append, this]
  exact hs _ _ rfl

/-- Two threads: an entry is dropped although neither the rate limit nor the limit of the buffer is
exceeded, because the other thread holds the mutex. -/
theorem C115_contention_fails : ∃ s : St, Reach 10 4 100 s ∧ s.stop = false ∧ s.grants = [] ∧ s.q = [] ∧
    (s.run (callWrite 0 m1)).w 0 = .ret .skipped ∧ (s.run (callWrite 0 m1)).q = [] :=
  ⟨_, ⟨[.start 1 (.would 'x'), .adv 1], rfl⟩, by decide +kernel, by decide +kernel, by decide +kernel,
    by decide +kernel, by decide +kernel⟩

/-- The constructor does not initialise `file_` before `open_` asks whether it is null, and does not ask
whether the ring buffer has memory: it may end the program, or give an object that is valid and ends the program
at the first write. -/
theorem C115_construct_fails : (∀ alloc openOk, construct true alloc openOk = .panic) ∧
    construct false false true = .valid false ∧ firstWritePanics (construct false false true) = true :=
  ⟨fun _ _ => rfl, rfl, rfl⟩

end Verif.CsvDumper
