import Verif.Rtt.Model

/-! # C27: round-trip time and clock offset -/

namespace Verif.Rtt

/-- A real exchange between two peers: departure time of the report, its network delay, processing
time at the remote peer, network delay of the reply. All delays are non-negative. -/
structure Exchange where
  departure : Int
  delay1 : Nat
  processing : Nat
  delay2 : Nat
deriving DecidableEq, Repr

/-- What the two peers measure when the remote clock is ahead of the local one by `theta`. -/
def measured (theta : Int) (e : Exchange) : Report :=
  { localReport := e.departure
    remoteReport := e.departure + e.delay1 + theta
    remoteReply := e.departure + e.delay1 + e.processing + theta
    localReply := e.departure + e.delay1 + e.processing + e.delay2 }

/-- The exchange that departed last (the first of equals), among those departing after time `t`. -/
def newest (t : Int) : List Exchange → Option Exchange → Option Exchange
  | [], acc => acc
  | e :: es, acc => if t < e.departure then newest e.departure es (some e) else newest t es acc

/-- The estimate describes one exchange: the round-trip time is exactly the sum of its two network
delays, and the clock offset is off by at most half of it (rounded up to whole nanoseconds). -/
def Describes (theta : Int) (s : St) : Option Exchange → Prop
  | none => s.hasMetrics = false
  | some e => s.hasMetrics = true ∧ s.rtt = e.delay1 + e.delay2 ∧
      2 * (s.offset - theta).natAbs ≤ e.delay1 + e.delay2 + 1

theorem update_measured (s : St) (theta : Int) (e : Exchange) :
    update s (measured theta e) =
      if e.departure ≤ s.lastReport then s
      else { offset := (2 * theta + (e.delay1 - e.delay2)).tdiv 2, rtt := e.delay1 + e.delay2,
             hasMetrics := true,
             firstReport := if s.firstReport = 0 then e.departure else s.firstReport,
             lastReport := e.departure } := by
  unfold update measured
  simp only
  rw [if_neg (by omega)]
  split
  · rfl
  · rw [if_neg (by omega)]
    congr 1
    · congr 1; omega
    · omega

theorem describes_fold (theta : Int) (es : List Exchange) :
    ∀ (s : St) (acc : Option Exchange), Describes theta s acc →
      Describes theta (es.foldl (fun s e => update s (measured theta e)) s)
        (newest s.lastReport es acc) := by
  induction es with
  | nil => intro s acc h; exact h
  | cons e es ih =>
    intro s acc h
    rw [List.foldl_cons, update_measured]
    unfold newest
    by_cases hc : s.lastReport < e.departure
    · rw [if_pos hc, if_neg (by omega)]
      refine ih _ (some e) ⟨rfl, rfl, ?_⟩
      simp only
      have := Int.tdiv_eq_ediv (a := 2 * theta + (e.delay1 - e.delay2)) (b := 2)
      have h2 : Int.sign 2 = 1 := rfl
      rw [h2] at this
      rw [this]
      split <;> omega
    · rw [if_neg hc, if_pos (by omega)]
      exact ih s acc h

/-- **C27**. For every constant clock offset and every sequence of exchanges with arbitrary
non-negative delays, reported in any order, the estimate always describes the newest exchange
reported so far: older reports are ignored, the round-trip time is exact, and the offset
error is at most half of it. (Before any exchange with positive departure time there are no
metrics.) -/
theorem C27_estimate (theta : Int) (es : List Exchange) :
    Describes theta (es.foldl (fun s e => update s (measured theta e)) init) (newest 0 es none) :=
  describes_fold theta es init none rfl

/-- Three exchanges, the middle one out of order; remote clock 1000 ahead. -/
example : (([⟨10, 5, 1, 8⟩, ⟨7, 1, 1, 1⟩, ⟨30, 4, 0, 7⟩] : List Exchange).foldl
      (fun s e => update s (measured 1000 e)) init) = ⟨998, 11, true, 10, 30⟩ ∧
    newest 0 [⟨10, 5, 1, 8⟩, ⟨7, 1, 1, 1⟩, ⟨30, 4, 0, 7⟩] none = some ⟨30, 4, 0, 7⟩ := by decide

/-- **C27** (arbitrary reports). Whatever the peer reports, the published round-trip time is
non-negative, departure times never go back, and metrics never disappear. -/
theorem C27_non_negative (rs : List Report) :
    0 ≤ (rs.foldl update init).rtt := by
  suffices h : ∀ s : St, 0 ≤ s.rtt → 0 ≤ (rs.foldl update s).rtt from h init (by decide)
  induction rs with
  | nil => intro s h; exact h
  | cons r rs ih =>
    intro s h
    apply ih
    unfold update
    split
    · exact h
    · split
      · exact h
      · dsimp only
        split
        · exact h
        · simp only; omega

/-- Garbage from the peer: reply "before" the report, negative round trip. -/
example : ([⟨10, 50, 20, 30⟩, ⟨10, 0, 1000, 20⟩, ⟨5, 100, 101, 9⟩] : List Report).foldl update init =
    ⟨93, 3, true, 5, 5⟩ := by decide

theorem C27_monotone (s : St) (r : Report) :
    update s r = s ∨ (s.lastReport < (update s r).lastReport ∧
      (update s r).lastReport = r.localReport ∧ (update s r).hasMetrics = true) := by
  unfold update
  split
  · exact Or.inl rfl
  · split
    · exact Or.inl rfl
    · dsimp only
      split
      · exact Or.inl rfl
      · exact Or.inr ⟨by simp only; omega, rfl, rfl⟩

example : (update init ⟨5, 100, 101, 9⟩).lastReport = 5 := by decide

/-- **C27** (no overflow). With timestamps in [0, 2^62) (146 years), every intermediate result of the
computation fits into a signed 64-bit integer. -/
theorem C27_no_overflow (r : Report)
    (h1 : 0 ≤ r.localReport ∧ r.localReport < 2 ^ 62) (h2 : 0 ≤ r.remoteReport ∧ r.remoteReport < 2 ^ 62)
    (h3 : 0 ≤ r.remoteReply ∧ r.remoteReply < 2 ^ 62) (h4 : 0 ≤ r.localReply ∧ r.localReply < 2 ^ 62) :
    let fits := fun x : Int => -(2 ^ 63) ≤ x ∧ x < 2 ^ 63
    fits (r.remoteReport - r.localReport) ∧ fits (r.remoteReply - r.localReply) ∧
    fits ((r.remoteReport - r.localReport) + (r.remoteReply - r.localReply)) ∧
    fits (r.localReply - r.localReport) ∧ fits (r.remoteReply - r.remoteReport) ∧
    fits ((r.localReply - r.localReport) - (r.remoteReply - r.remoteReport)) := by
  simp only
  omega

example := C27_no_overflow ⟨5, 100, 101, 9⟩ (by decide) (by decide) (by decide) (by decide)

end Verif.Rtt
