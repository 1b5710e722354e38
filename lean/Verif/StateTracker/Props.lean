import Verif.StateTracker.Model

/-!
# Activity of a receiver or sender: properties (C87)
-/

namespace Verif.StateTracker

/-- What always holds. -/
def Inv (s : St) : Prop := (s.pkts.length : Int) ≤ s.pending ∧ s.active = s.sessions

theorem inv_step (s t : St) (e : Ev) (h : Step s e (some t)) (hi : Inv s) : Inv t := by
  obtain ⟨h1, h2⟩ := hi
  cases h with
  | write ep good =>
    refine ⟨?_, h2⟩
    simp only [List.length_append, List.length_cons, List.length_nil]
    omega
  | push a b ep good h =>
    refine ⟨?_, h2⟩
    rw [h] at h1
    simp only [List.length_append, List.length_cons] at h1 ⊢
    exact h1
  | pop a b ep good h =>
    refine ⟨?_, h2⟩
    rw [h] at h1
    simp only [List.length_append, List.length_cons] at h1 ⊢
    exact h1
  | drop a b ep h =>
    refine ⟨?_, h2⟩
    rw [h] at h1
    simp only [List.length_append, List.length_cons] at h1 ⊢
    omega
  | route a b ep h =>
    refine ⟨?_, h2⟩
    rw [h] at h1
    simp only [List.length_append, List.length_cons] at h1 ⊢
    exact h1
  | done a b ep good h h0 =>
    refine ⟨?_, h2⟩
    rw [h] at h1
    simp only [List.length_append, List.length_cons] at h1 ⊢
    omega
  | create =>
    refine ⟨h1, ?_⟩
    simp only
    omega
  | remove h h0 =>
    refine ⟨h1, ?_⟩
    simp only
    omega
  | unlink ep h =>
    refine ⟨?_, h2⟩
    have := List.length_filter_le (fun p : Pkt => decide (p.ep ≠ ep)) s.pkts
    simp only
    omega

theorem inv_run (s t : St) (es : List Ev) (h : Run s es t) (hi : Inv s) : Inv t := by
  induction h with
  | nil => exact hi
  | cons s t u e es h _ ih => exact ih (inv_step s t e h hi)

theorem inv_init : Inv St.init := ⟨by decide, rfl⟩

/-- **C87.** In every interleaving of network threads and the pipeline thread, a receiver or sender is active
as long as it has a session or a packet that was written and is not handled; and no step
aborts. -/
theorem C87_active (s : St) (es : List Ev) (h : Run St.init es s) :
    (0 < s.sessions ∨ s.pkts ≠ [] → s.state = .active) ∧ ∀ e, ¬ Step s e none := by
  obtain ⟨h1, h2⟩ := inv_run _ _ _ h inv_init
  refine ⟨?_, ?_⟩
  · unfold St.state
    rintro (h | h)
    · rw [if_pos (by omega)]
    · have := List.length_pos_iff.2 h
      by_cases ha : s.active ≠ 0
      · rw [if_pos ha]
      · rw [if_neg ha, if_pos (by omega)]
  · intro e he
    cases he with
    | donePanic a b ep good h h0 =>
      rw [h] at h1
      simp only [List.length_append, List.length_cons] at h1
      omega
    | removePanic h h0 => omega

/-- A run without aborts can be made step by step; here, one packet is written, pulled and routed, it has made a
session, and another packet is being written. -/
theorem sample_run : Run St.init [.write 0 true, .push, .pop, .create, .write 0 true, .route, .done]
    ⟨1, 1, 1, [⟨0, true, .counted⟩]⟩ :=
  .cons _ _ _ _ _ (.write _ 0 true) <|
  .cons _ _ _ _ _ (.push _ [] [] 0 true rfl) <|
  .cons _ _ _ _ _ (.pop _ [] [] 0 true rfl) <|
  .cons _ _ _ _ _ (.create _) <|
  .cons _ _ _ _ _ (.write _ 0 true) <|
  .cons _ _ _ _ _ (.route _ [] _ 0 rfl) <|
  .cons _ _ _ _ _ (.done _ [] _ 0 true rfl (by decide)) <| .nil _

example : ∃ es s, Run St.init es s ∧ 0 < s.sessions ∧ s.pkts ≠ [] :=
  ⟨_, _, sample_run, by decide, by decide⟩

/-- An event that takes a packet away without counting it: a packet that cannot be parsed, or an endpoint that is
removed. -/
def Ev.clean : Ev → Bool
  | .drop => false
  | .unlink _ => false
  | _ => true

/-- **C87.** When there is nothing left to do, the receiver or sender is idle, if all packets could be parsed and no
endpoint was removed. (In full, that should hold for any run; it does not.) -/
theorem C87_idle_partial (s : St) (es : List Ev) (h : Run St.init es s) (hc : ∀ e ∈ es, e.clean = true)
    (h0 : s.sessions = 0) (h1 : s.pkts = []) : s.state = .idle := by
  have key : ∀ s es t, Run s es t → (∀ e ∈ es, e.clean = true) → s.pending = s.pkts.length →
      t.pending = t.pkts.length := by
    intro s es t h
    induction h with
    | nil => exact fun _ h => h
    | cons s t u e es hs _ ih =>
      intro hc hp
      refine ih (fun e he => hc e (List.mem_cons_of_mem _ he)) ?_
      have hce := hc e List.mem_cons_self
      cases hs with
      | write ep good =>
        simp only [List.length_append, List.length_cons, List.length_nil]
        omega
      | push a b ep good h =>
        rw [h] at hp
        simp only [List.length_append, List.length_cons] at hp ⊢
        exact hp
      | pop a b ep good h =>
        rw [h] at hp
        simp only [List.length_append, List.length_cons] at hp ⊢
        exact hp
      | drop a b ep h => cases hce
      | route a b ep h =>
        rw [h] at hp
        simp only [List.length_append, List.length_cons] at hp ⊢
        exact hp
      | done a b ep good h h0 =>
        rw [h] at hp
        simp only [List.length_append, List.length_cons] at hp ⊢
        omega
      | create => exact hp
      | remove h h0 => exact hp
      | unlink ep h => cases hce
  have hp := key _ _ _ h hc rfl
  have ha := (inv_run _ _ _ h inv_init).2
  unfold St.state
  rw [if_neg (by omega), if_neg (by rw [hp, h1]; simp)]

/-- A packet was handled, its session was made and removed. -/
example : ∃ es s, Run St.init es s ∧ (∀ e ∈ es, e.clean = true) ∧ es.length = 7 ∧ s.sessions = 0 ∧ s.pkts = [] :=
  ⟨[.write 0 true, .push, .pop, .create, .route, .done, .remove], ⟨0, 0, 0, []⟩,
    .cons _ _ _ _ _ (.write _ 0 true) <|
    .cons _ _ _ _ _ (.push _ [] [] 0 true rfl) <|
    .cons _ _ _ _ _ (.pop _ [] [] 0 true rfl) <|
    .cons _ _ _ _ _ (.create _) <|
    .cons _ _ _ _ _ (.route _ [] _ 0 rfl) <|
    .cons _ _ _ _ _ (.done _ [] _ 0 true rfl (by decide)) <|
    .cons _ _ _ _ _ (.remove _ (by decide) (by decide)) <| .nil _,
    by decide, rfl, rfl, rfl⟩

/-- Packets that were lost are counted forever. -/
theorem lost_run (s t : St) (es : List Ev) (h : Run s es t) (hi : Inv s)
    (hl : (s.pkts.length : Int) < s.pending) : (t.pkts.length : Int) < t.pending := by
  induction h with
  | nil => exact hl
  | cons s t u e es hs _ ih =>
    refine ih (inv_step s t e hs hi) ?_
    cases hs with
    | write ep good =>
      simp only [List.length_append, List.length_cons, List.length_nil]
      omega
    | push a b ep good h =>
      rw [h] at hl
      simp only [List.length_append, List.length_cons] at hl ⊢
      exact hl
    | pop a b ep good h =>
      rw [h] at hl
      simp only [List.length_append, List.length_cons] at hl ⊢
      exact hl
    | drop a b ep h =>
      rw [h] at hl
      simp only [List.length_append, List.length_cons] at hl ⊢
      omega
    | route a b ep h =>
      rw [h] at hl
      simp only [List.length_append, List.length_cons] at hl ⊢
      exact hl
    | done a b ep good h h0 =>
      rw [h] at hl
      simp only [List.length_append, List.length_cons] at hl ⊢
      omega
    | create => exact hl
    | remove h h0 => exact hl
    | unlink ep h =>
      have := List.length_filter_le (fun p : Pkt => decide (p.ep ≠ ep)) s.pkts
      simp only
      omega

theorem lost_active (s : St) (hl : (s.pkts.length : Int) < s.pending) : s.state = .active := by
  unfold St.state
  by_cases ha : s.active ≠ 0
  · rw [if_pos ha]
  · rw [if_neg ha, if_pos (by omega)]

/-- **C87 fails** after a packet that cannot be parsed: it is counted when it is written, and not when it is thrown
away. From then on, whatever happens, the receiver or sender is never idle again (so
a backup source of `roc-recv` is never played), although all packets are handled and all sessions are removed. -/
theorem C87_bad_packet_fails (s t u : St) (es es' : List Ev) (h : Run St.init es s)
    (hd : Step s .drop (some t)) (h' : Run t es' u) : u.state = .active := by
  have hi := inv_run _ _ _ h inv_init
  refine lost_active u (lost_run t u es' h' (inv_step s t _ hd hi) ?_)
  obtain ⟨h1, _⟩ := hi
  cases hd with
  | drop a b ep h =>
    rw [h] at h1
    simp only [List.length_append, List.length_cons] at h1 ⊢
    omega

/-- One packet that cannot be parsed, and nothing else. -/
example : ∃ s t, Run St.init [.write 0 false, .push, .pop] s ∧ Step s .drop (some t) ∧ t.pkts = []
    ∧ t.sessions = 0 :=
  ⟨_, _, .cons _ _ _ _ _ (.write _ 0 false) <| .cons _ _ _ _ _ (.push _ [] [] 0 false rfl) <|
    .cons _ _ _ _ _ (.pop _ [] [] 0 false rfl) <| .nil _, .drop _ [] [] 0 rfl, rfl, rfl⟩

/-- **C87 fails** also after an endpoint was removed while a packet was in its queue. -/
theorem C87_unlink_fails (s t u : St) (es es' : List Ev) (ep : Nat) (h : Run St.init es s)
    (hq : ∃ p ∈ s.pkts, p.ep = ep) (hd : Step s (.unlink ep) (some t)) (h' : Run t es' u) :
    u.state = .active := by
  have hi := inv_run _ _ _ h inv_init
  refine lost_active u (lost_run t u es' h' (inv_step s t _ hd hi) ?_)
  obtain ⟨h1, _⟩ := hi
  obtain ⟨p, hp, hpe⟩ := hq
  cases hd with
  | unlink _ h =>
    have : (s.pkts.filter (fun p : Pkt => decide (p.ep ≠ ep))).length < s.pkts.length := by
      apply List.length_filter_lt_length_iff_exists.2
      exact ⟨p, hp, by simp [hpe]⟩
    simp only
    omega

/-- One packet is in the queue when its endpoint is removed. -/
example : ∃ s t, Run St.init [.write 3 true, .push] s ∧ (∃ p ∈ s.pkts, p.ep = 3)
    ∧ Step s (.unlink 3) (some t) ∧ t.pkts = [] ∧ t.sessions = 0 :=
  ⟨_, _, .cons _ _ _ _ _ (.write _ 3 true) <| .cons _ _ _ _ _ (.push _ [] [] 3 true rfl) <| .nil _,
    ⟨⟨3, true, .queued⟩, by decide, rfl⟩, .unlink _ 3 (by decide), rfl, rfl⟩

end Verif.StateTracker
