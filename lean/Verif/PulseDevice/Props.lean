import Verif.PulseDevice.Model

/-
C122: PulseAudio sink and source.
-/

namespace Verif.PulseDevice

section
variable {S : Type}

/-- Device whose flags and timeout make sense. -/
structure Dev.Wf (d : Dev S) : Prop where
  done : d.opened = true → d.openDone = true
  low : minTimeout ≤ d.timeout
  high : d.timeout ≤ maxTimeout

/-- All samples of fragments in order. -/
def flat (z : S) (q : List (Frag S)) : List S := (q.map (Frag.samples z)).flatten

/-- Recorded samples the user did not get yet. -/
def pend (z : S) (d : Dev S) : List S :=
  if d.fragSize = 0 then flat z d.queue
  else (match d.fragPtr with
    | some (_, mem) => mem
    | none => List.replicate d.fragSize z) ++ flat z d.queue.tail

/-- An open source with a usable fragment. -/
structure Dev.Source (z : S) (d : Dev S) : Prop where
  wf : d.Wf
  opened : d.opened = true
  lock : d.lock = 0
  none : d.fragSize = 0 → d.fragFlag = false
  some : d.fragSize ≠ 0 → d.fragFlag = true ∧ d.queue ≠ [] ∧
    ∀ g mem, d.fragPtr = some (g, mem) → g = d.gen ∧ mem.length = d.fragSize
  queue : ∀ f ∈ d.queue, f.samples z ≠ []

/-- The server gives fragments that are not empty, and libpulse reports no errors. -/
def Step.Good (z : S) (st : Step S) : Prop :=
  st.peekOk = true ∧ st.dropOk = true ∧ ∀ f ∈ st.arrive, f.samples z ≠ []

/-- The device has space, and libpulse accepts. -/
def Step.Space (st : Step S) : Prop :=
  st.writeOk = true ∧ ∃ n os e, 0 < n ∧ st.obs = ⟨some n, e⟩ :: os

/-! ## Waiting -/

theorem wait_bounds (t : Int) (ex : Bool) (os : List Obs) (hl : minTimeout ≤ t)
    (hh : t ≤ maxTimeout) :
    minTimeout ≤ (waitStream t ex os).2 ∧ (waitStream t ex os).2 ≤ maxTimeout := by
  induction os generalizing ex with
  | nil => exact ⟨hl, hh⟩
  | cons o os ih =>
    unfold waitStream
    cases o.avail with
    | none => exact ⟨hl, hh⟩
    | some n =>
      dsimp only
      split
      · unfold minTimeout maxTimeout at *
        split
        · split <;> constructor <;> omega
        · exact ⟨hl, hh⟩
      · split
        · exact ⟨hl, hh⟩
        · exact ih o.expired

theorem wait_pos (t : Int) (ex : Bool) (os : List Obs) {n : Nat} {t' : Int}
    (h : waitStream t ex os = (.avail n, t')) : 0 < n := by
  induction os generalizing ex with
  | nil => simp [waitStream] at h
  | cons o os ih =>
    unfold waitStream at h
    cases ha : o.avail with
    | none => simp [ha] at h
    | some m =>
      simp only [ha] at h
      split at h
      · simp at h
      · split at h
        · rename_i hm
          simp only [Prod.mk.injEq, WaitRes.avail.injEq] at h
          have : m ≠ 0 := by simpa using hm
          omega
        · exact ih _ h

/-- **C122 (wait).** A wait during which nothing could be exchanged for a while, but the
timer did not expire before the last round of these, ends with the space or data that is
there then, even if the timer has expired by that time. -/
theorem C122_wait (t : Int) (zs : List Obs) (ex : Bool) (n : Nat) (e : Bool) (os : List Obs)
    (hz : ∀ o ∈ zs, o.avail = some 0) (hn : n ≠ 0) (hx : zs ≠ [] → ex = false)
    (he : ∀ o ∈ zs.dropLast, o.expired = false) :
    waitStream t ex (zs ++ ⟨some n, e⟩ :: os) = (.avail n, t) := by
  induction zs generalizing ex with
  | nil => simp [waitStream, hn]
  | cons o zs ih =>
    have h0 := hz o List.mem_cons_self
    have h1 := hx (by simp)
    subst h1
    rw [List.cons_append, waitStream]
    simp only [h0, Bool.and_false, Bool.false_eq_true, if_false, bne_self_eq_false]
    refine ih o.expired (fun x hx => hz x (List.mem_cons_of_mem _ hx)) (fun hne => ?_)
      (fun x hx => he x ?_)
    · exact he o (by
        cases zs with
        | nil => exact absurd rfl hne
        | cons a l => simp)
    · cases zs with
      | nil => cases hx
      | cons a l => simp only [List.dropLast_cons_cons]; exact List.mem_cons_of_mem _ hx

/-- Non-vacuity: the timer expires in the second round, and there is space in the third. -/
example : waitStream 7 false [⟨some 0, false⟩, ⟨some 0, true⟩, ⟨some 5, true⟩] = (.avail 5, 7) :=
  C122_wait 7 [⟨some 0, false⟩, ⟨some 0, true⟩] false 5 true [] (by simp) (by decide) (by simp) (by simp)

/-- **C122 (timeout).** For every requested latency the timeout starts between 50
milliseconds and 2 seconds; every wait keeps it there, and one that expires doubles it up
to 2 seconds. -/
theorem C122_timeout (latency t : Int) (ex : Bool) (os : List Obs)
    (h : minTimeout ≤ t ∧ t ≤ maxTimeout) :
    (minTimeout ≤ initTimeout latency ∧ initTimeout latency ≤ maxTimeout) ∧
    (minTimeout ≤ (waitStream t ex os).2 ∧ (waitStream t ex os).2 ≤ maxTimeout) ∧
    ((waitStream t ex os).1 = .expired → (waitStream t ex os).2 = min (2 * t) maxTimeout) ∧
    ((waitStream t ex os).1 ≠ .expired → (waitStream t ex os).2 = t) := by
  refine ⟨?_, wait_bounds t ex os h.1 h.2, ?_, ?_⟩
  · have hd : defaultLatency = 60000000 := rfl
    simp only [initTimeout, minTimeout, maxTimeout, hd]
    constructor <;> repeat' split <;> omega
  · induction os generalizing ex with
    | nil => intro h; simp [waitStream] at h
    | cons o os ih =>
      unfold waitStream
      cases o.avail with
      | none => intro h; simp at h
      | some n =>
        dsimp only
        split
        · intro _
          have : maxTimeout = 2000000000 := rfl
          have : minTimeout = 50000000 := rfl
          dsimp only
          split
          · split <;> omega
          · omega
        · split
          · intro h; simp at h
          · exact ih o.expired
  · induction os generalizing ex with
    | nil => intro _; rfl
    | cons o os ih =>
      unfold waitStream
      cases o.avail with
      | none => intro _; rfl
      | some n =>
        dsimp only
        split
        · intro h; exact absurd rfl h
        · split
          · intro _; rfl
          · exact ih o.expired

/-! ## Sink -/

theorem failed_ok (d : Dev S) (o : Opens) (hw : d.Wf) (hl : d.lock = 1) :
    (failed d o).2 = .done false ∧ (failed d o).1.Wf ∧ (failed d o).1.lock = 0 ∧
    (failed d o).1.out = d.out ∧ (failed d o).1.chunks = d.chunks := by
  unfold failed restart openDev closeDev
  cases h1 : d.openDone <;> cases o.created <;> cases o.connected <;> simp [hl] <;>
    exact ⟨fun h => (by simp_all), hw.low, hw.high⟩

/-- One round of `write`. -/
theorem write_step (d : Dev S) (xs : List S) (st : Step S) (sts : List (Step S))
    (hx : xs.isEmpty = false) (ho : d.opened = true) :
    write d xs (st :: sts) =
      match waitStream d.timeout false st.obs with
      | (.pending, t) => ({ d with timeout := t }, .blocked)
      | (.broken, t) => failed { d with timeout := t, lock := d.lock + 1 } st.reopen
      | (.expired, t) => failed { d with timeout := t, lock := d.lock + 1 } st.reopen
      | (.avail n, t) =>
        let k := if xs.length > n then n else xs.length
        if st.writeOk then
          write { d with timeout := t, out := d.out ++ xs.take k,
                         chunks := d.chunks ++ [(k, n)] } (xs.drop k) sts
        else failed { d with timeout := t, lock := d.lock + 1 } st.reopen := by
  rw [write, if_neg (by simp [hx]), if_neg (by simp [ho])]
  rfl

/-- **C122 (sink).** While the device is open, `write` gives the server the samples of the
frame in order: all of them if it returns normally, a proper prefix if the stream failed
and was restarted. It never hangs or touches released memory, and releases the lock. -/
theorem C122_write (d : Dev S) (xs : List S) (sts : List (Step S)) (hw : d.Wf)
    (ho : d.opened = true) (hl : d.lock = 0) :
    let r := write d xs sts
    r.2 ≠ .hang ∧ r.2 ≠ .released ∧ r.1.Wf ∧ r.1.lock = 0 ∧
    ∃ k, k ≤ xs.length ∧ r.1.out = d.out ++ xs.take k ∧
      (r.2 = .done true → k = xs.length ∧ r.1.opened = true) ∧
      (r.2 = .done false → k < xs.length) := by
  induction sts generalizing d xs with
  | nil =>
    unfold write
    cases xs with
    | nil =>
      exact ⟨fun h => (by cases h), fun h => (by cases h), hw, hl, 0, Nat.le_refl _,
        by simp, fun _ => ⟨rfl, ho⟩, fun h => (by cases h)⟩
    | cons x xs =>
      simp only [List.isEmpty_cons, ho, Bool.not_true, Bool.false_eq_true, if_false]
      exact ⟨fun h => (by cases h), fun h => (by cases h), hw, hl, 0, Nat.zero_le _,
        by simp, fun h => (by cases h), fun h => (by cases h)⟩
  | cons st sts ih =>
    cases hx : xs with
    | nil =>
      unfold write
      exact ⟨fun h => (by cases h), fun h => (by cases h), hw, hl, 0, Nat.le_refl _,
        by simp, fun _ => ⟨rfl, ho⟩, fun h => (by cases h)⟩
    | cons x ys =>
      have hpos : 0 < xs.length := by rw [hx]; simp
      rw [← hx]
      have hne : xs.isEmpty = false := by rw [hx]; rfl
      rw [write_step d xs st sts hne ho]
      have hb := wait_bounds d.timeout false st.obs hw.low hw.high
      have fin : ∀ e : Dev S, e.Wf → e.lock = 1 → e.out = d.out →
          (let r := failed e st.reopen
          r.2 ≠ .hang ∧ r.2 ≠ .released ∧ r.1.Wf ∧ r.1.lock = 0 ∧
          ∃ k, k ≤ xs.length ∧ r.1.out = d.out ++ xs.take k ∧
            (r.2 = .done true → k = xs.length ∧ r.1.opened = true) ∧
            (r.2 = .done false → k < xs.length)) := by
        intro e he hel heo
        obtain ⟨f1, f2, f3, f4, -⟩ := failed_ok e st.reopen he hel
        refine ⟨by rw [f1]; exact fun h => (by cases h), by rw [f1]; exact fun h => (by cases h),
          f2, f3, 0, Nat.zero_le _, by rw [f4, heo]; simp, ?_, fun _ => hpos⟩
        rw [f1]; exact fun h => (by cases h)
      rcases hws : waitStream d.timeout false st.obs with ⟨w, t⟩
      rw [hws] at hb
      cases w with
      | pending =>
        exact ⟨fun h => (by cases h), fun h => (by cases h), ⟨hw.done, hb.1, hb.2⟩, hl, 0,
          Nat.zero_le _, by simp, fun h => (by cases h), fun h => (by cases h)⟩
      | broken => exact fin _ ⟨hw.done, hb.1, hb.2⟩ (by simp [hl]) rfl
      | expired => exact fin _ ⟨hw.done, hb.1, hb.2⟩ (by simp [hl]) rfl
      | avail n =>
        dsimp only
        generalize hk : (if xs.length > n then n else xs.length) = k
        have hkl : k ≤ xs.length := by rw [← hk]; split <;> omega
        cases st.writeOk with
        | false => exact fin _ ⟨hw.done, hb.1, hb.2⟩ (by simp [hl]) rfl
        | true =>
          rw [if_pos rfl]
          obtain ⟨g1, g2, g3, g4, j, g5, g6, g7, g8⟩ :=
            ih { d with timeout := t, out := d.out ++ xs.take k,
                        chunks := d.chunks ++ [(k, n)] } (xs.drop k)
              ⟨hw.done, hb.1, hb.2⟩ ho hl
          rw [List.length_drop] at g5 g7 g8
          refine ⟨g1, g2, g3, g4, k + j, by omega, ?_, ?_, ?_⟩
          · rw [g6, List.append_assoc, List.take_add]
          · intro h; obtain ⟨a, b⟩ := g7 h; exact ⟨by omega, b⟩
          · intro h; have := g8 h; omega

/-- **C122 (sink, sizes).** Every piece given to the server is not empty and has at most as
many samples as there were writable bytes. -/
theorem C122_chunks_partial (d : Dev S) (xs : List S) (sts : List (Step S)) (hw : d.Wf)
    (ho : d.opened = true) (hl : d.lock = 0) :
    ∃ l, (write d xs sts).1.chunks = d.chunks ++ l ∧ ∀ c ∈ l, 0 < c.1 ∧ c.1 ≤ c.2 := by
  induction sts generalizing d xs with
  | nil =>
    refine ⟨[], ?_, fun c h => (by cases h)⟩
    unfold write
    cases xs.isEmpty <;> simp [ho]
  | cons st sts ih =>
    cases hx : xs.isEmpty with
    | true => exact ⟨[], by simp [write, hx], fun c h => (by cases h)⟩
    | false =>
      rw [write_step d xs st sts hx ho]
      have hpos : 0 < xs.length := by
        cases xs with
        | nil => simp at hx
        | cons => simp
      have hb := wait_bounds d.timeout false st.obs hw.low hw.high
      have fin : ∀ e : Dev S, e.Wf → e.lock = 1 → e.chunks = d.chunks →
          ∃ l, (failed e st.reopen).1.chunks = d.chunks ++ l ∧
            ∀ c ∈ l, 0 < c.1 ∧ c.1 ≤ c.2 := by
        intro e he hel heo
        obtain ⟨-, -, -, -, f5⟩ := failed_ok e st.reopen he hel
        exact ⟨[], by rw [f5, heo]; simp, fun c h => (by cases h)⟩
      rcases hws : waitStream d.timeout false st.obs with ⟨w, t⟩
      rw [hws] at hb
      cases w with
      | pending => exact ⟨[], by simp, fun c h => (by cases h)⟩
      | broken => exact fin _ ⟨hw.done, hb.1, hb.2⟩ (by simp [hl]) rfl
      | expired => exact fin _ ⟨hw.done, hb.1, hb.2⟩ (by simp [hl]) rfl
      | avail n =>
        have hn := wait_pos _ _ _ hws
        dsimp only
        generalize hk : (if xs.length > n then n else xs.length) = k
        cases st.writeOk with
        | false => exact fin _ ⟨hw.done, hb.1, hb.2⟩ (by simp [hl]) rfl
        | true =>
          rw [if_pos rfl]
          obtain ⟨l, g1, g2⟩ :=
            ih { d with timeout := t, out := d.out ++ xs.take k,
                        chunks := d.chunks ++ [(k, n)] } (xs.drop k)
              ⟨hw.done, hb.1, hb.2⟩ ho hl
          refine ⟨(k, n) :: l, by rw [g1]; simp, ?_⟩
          intro c hc
          rcases List.mem_cons.mp hc with rfl | hc
          · dsimp only; rw [← hk]; split <;> constructor <;> omega
          · exact g2 c hc

/-- **C122 (sink, sizes, what fails).** The size of writable space is in bytes, but is
compared to a number of samples: for a long frame the sink writes four times as much as
the server has space for (a sample has four bytes). -/
theorem C122_overfill_fails (d : Dev S) (n : Nat) (xs : List S) (st : Step S) (e : Bool)
    (ho : d.opened = true) (hn : 0 < n) (hx : n ≤ xs.length)
    (hs : st.obs = [⟨some n, e⟩]) (hk : st.writeOk = true) :
    (n, n) ∈ (write d xs [st]).1.chunks ∧ n < 4 * n := by
  refine ⟨?_, by omega⟩
  have hne : xs.isEmpty = false := by
    cases xs with
    | nil => simp at hx; omega
    | cons => rfl
  have hn0 : n ≠ 0 := by omega
  have hws : waitStream d.timeout false st.obs = (.avail n, d.timeout) := by
    simp [hs, waitStream, hn0]
  have hk2 : (if xs.length > n then n else xs.length) = n := by split <;> omega
  rw [write_step d xs st [] hne ho, hws]
  dsimp only
  rw [hk2, hk, if_pos rfl, write]
  cases (xs.drop n).isEmpty <;> simp [ho]

/-- **C122 (sink, progress).** If the server has space in every round, a write returns
normally within as many rounds as the frame has samples. -/
theorem C122_write_returns (d : Dev S) (xs : List S) (sts : List (Step S)) (hw : d.Wf)
    (ho : d.opened = true) (hs : ∀ st ∈ sts, st.Space) (hlen : xs.length ≤ sts.length) :
    (write d xs sts).2 = .done true := by
  induction sts generalizing d xs with
  | nil =>
    have : xs = [] := List.eq_nil_of_length_eq_zero (by simpa using hlen)
    subst this; rfl
  | cons st sts ih =>
    cases hx : xs.isEmpty with
    | true => simp [write, hx]
    | false =>
      obtain ⟨hk, n, os, e, hn, hobs⟩ := hs st (by simp)
      have hn0 : n ≠ 0 := by omega
      have hws : waitStream d.timeout false st.obs = (.avail n, d.timeout) := by
        simp [hobs, waitStream, hn0]
      have hpos : 0 < xs.length := by
        cases xs with
        | nil => simp at hx
        | cons => simp
      rw [write_step d xs st sts hx ho, hws]
      dsimp only
      rw [hk, if_pos rfl]
      refine ih _ _ ⟨hw.done, hw.low, hw.high⟩ ho (fun s h => hs s (by simp [h])) ?_
      rw [List.length_drop]
      simp only [List.length_cons] at hlen
      split <;> omega

/-- **C122 (closed device, what fails).** After `pause`, the first write or read of a frame
that is not empty returns with the lock of the main loop still held, and then `resume` never
returns, whatever the server does, if it can connect. -/
theorem C122_closed_fails (z : S) (d : Dev S) (xs : List S) (n : Nat) (sts : List (Step S))
    (o : Opens) (hx : xs ≠ []) (hn : n ≠ 0) (ho : o.created = true ∧ o.connected = true) :
    (write (pause d) xs sts).2 = .done false ∧
    (write (pause d) xs sts).1.lock = d.lock + 1 ∧
    (resume (write (pause d) xs sts).1 o).2 = .hang ∧
    (read z (pause d) n sts).2.1 = .done false ∧
    (read z (pause d) n sts).1.lock = d.lock + 1 ∧
    (resume (read z (pause d) n sts).1 o).2 = .hang := by
  have hp : (pause d).opened = false ∧ (pause d).lock = d.lock ∧ (pause d).openDone = false := by
    unfold pause closeDev; cases d.openDone <;> simp
  have hne : xs.isEmpty = false := by cases xs <;> simp_all
  have h1 : write (pause d) xs sts
      = ({ pause d with lock := (pause d).lock + 1 }, .done false) := by
    cases sts <;> simp [write, hne, hp.1]
  have h2 : read z (pause d) n sts
      = ({ pause d with lock := (pause d).lock + 1 }, .done false, []) := by
    cases sts <;> simp [read, hn, hp.1]
  have h3 : (resume { pause d with lock := (pause d).lock + 1 } o).2 = .hang := by
    simp [resume, openDev, hp.2.2, ho.1, ho.2]
  rw [h1, h2]
  exact ⟨rfl, by simp [hp.2.1], h3, rfl, by simp [hp.2.1], h3⟩

/-! ## Source -/

theorem flat_append (z : S) (a b : List (Frag S)) : flat z (a ++ b) = flat z a ++ flat z b := by
  simp [flat]

theorem flat_cons (z : S) (f : Frag S) (b : List (Frag S)) :
    flat z (f :: b) = f.samples z ++ flat z b := by
  simp [flat]

/-- Arrival of fragments. -/
theorem arrive_ok (z : S) (d : Dev S) (a : List (Frag S)) (h : d.Source z)
    (ha : ∀ f ∈ a, f.samples z ≠ []) :
    ({ d with queue := d.queue ++ a, total := d.total ++ flat z a } : Dev S).Source z ∧
    pend z ({ d with queue := d.queue ++ a, total := d.total ++ flat z a } : Dev S)
      = pend z d ++ flat z a := by
  refine ⟨⟨⟨h.wf.done, h.wf.low, h.wf.high⟩, h.opened, h.lock, h.none, ?_, ?_⟩, ?_⟩
  · intro hs
    obtain ⟨s1, s2, s3⟩ := h.some hs
    exact ⟨s1, by simp [s2], s3⟩
  · intro f hf
    rcases List.mem_append.mp hf with hf | hf
    · exact h.queue f hf
    · exact ha f hf
  · unfold pend
    dsimp only
    by_cases hs : d.fragSize = 0
    · rw [if_pos hs, if_pos hs, flat_append]
    · rw [if_neg hs, if_neg hs]
      obtain ⟨-, s2, -⟩ := h.some hs
      rw [List.tail_append_of_ne_nil s2, flat_append, List.append_assoc]

/-- Result of `peek`. -/
theorem peek_ok (z : S) (d : Dev S) (h : d.Source z) (hs : d.fragSize = 0) :
    (peek d).Source z ∧ pend z (peek d) = pend z d ∧ (peek d).total = d.total := by
  have hwf : ∀ (a : Option (Nat × List S)) (b : Nat) (c : Bool),
      ({ d with fragPtr := a, fragSize := b, fragFlag := c } : Dev S).Wf :=
    fun _ _ _ => ⟨h.wf.done, h.wf.low, h.wf.high⟩
  have hpd : pend z d = flat z d.queue := by unfold pend; rw [if_pos hs]
  rcases hq : d.queue with _ | ⟨f, q⟩
  · have : peek d = { d with fragPtr := none, fragSize := 0, fragFlag := false } := by
      simp [peek, hq]
    rw [this]
    exact ⟨⟨hwf _ _ _, h.opened, h.lock, fun _ => rfl, fun h => absurd rfl h, h.queue⟩,
      by rw [hpd]; unfold pend; rw [if_pos rfl], rfl⟩
  · have hf := h.queue f (by rw [hq]; simp)
    cases f with
    | data l =>
      have hl : l.length ≠ 0 := by
        intro h0
        exact hf (by simpa [Frag.samples] using h0)
      have : peek d = { d with
          fragPtr := some (d.gen, l), fragSize := l.length, fragFlag := l.length != 0 } := by
        simp [peek, hq]
      rw [this]
      refine ⟨⟨hwf _ _ _, h.opened, h.lock, fun h0 => absurd h0 hl, fun _ => ⟨?_, ?_, ?_⟩,
        h.queue⟩, ?_, rfl⟩
      · simpa using hl
      · dsimp only; rw [hq]; simp
      · intro g mem hg
        simp only [Option.some.injEq, Prod.mk.injEq] at hg
        obtain ⟨rfl, rfl⟩ := hg
        exact ⟨rfl, rfl⟩
      · rw [hpd]
        unfold pend
        rw [if_neg hl]
        dsimp only
        rw [hq, flat_cons]; rfl
    | hole n =>
      have hl : n ≠ 0 := by
        intro h0
        exact hf (by simp [Frag.samples, h0])
      have : peek d = { d with fragPtr := none, fragSize := n, fragFlag := n != 0 } := by
        simp [peek, hq]
      rw [this]
      refine ⟨⟨hwf _ _ _, h.opened, h.lock, fun h0 => absurd h0 hl, fun _ => ⟨?_, ?_, ?_⟩,
        h.queue⟩, ?_, rfl⟩
      · simpa using hl
      · dsimp only; rw [hq]; simp
      · intro g mem hg; cases hg
      · rw [hpd]
        unfold pend
        rw [if_neg hl]
        dsimp only
        rw [hq, flat_cons]; rfl

/-- Result of `fetch`. -/
theorem fetch_ok (z : S) (d : Dev S) (st : Step S) (h : d.Source z) (hp : st.peekOk = true) :
    (∃ d', fetch d st = .got d' [] ∧ d'.Source z ∧ pend z d' = pend z d ∧
      d'.total = d.total) ∨
    (∃ d', fetch d st = .blocked d' ∧ d'.Source z ∧ pend z d' = pend z d ∧
      d'.total = d.total) := by
  unfold fetch
  by_cases hs : d.fragSize = 0
  · rw [if_pos hs]
    have hb := wait_bounds d.timeout false st.obs h.wf.low h.wf.high
    rcases hws : waitStream d.timeout false st.obs with ⟨w, t⟩
    rw [hws] at hb
    have h1 : ({ d with timeout := t } : Dev S).Source z :=
      ⟨⟨h.wf.done, hb.1, hb.2⟩, h.opened, h.lock, h.none, h.some, h.queue⟩
    have hpd : pend z ({ d with timeout := t } : Dev S) = pend z d := rfl
    obtain ⟨k1, k2, k3⟩ := peek_ok z _ h1 hs
    rw [hpd] at k2
    cases w with
    | pending => exact Or.inr ⟨_, rfl, h1, hpd, rfl⟩
    | broken => left; simp only [hp, Bool.not_true, Bool.false_eq_true, if_false]; exact ⟨_, rfl, k1, k2, k3⟩
    | expired => left; simp only [hp, Bool.not_true, Bool.false_eq_true, if_false]; exact ⟨_, rfl, k1, k2, k3⟩
    | avail n => left; simp only [hp, Bool.not_true, Bool.false_eq_true, if_false]; exact ⟨_, rfl, k1, k2, k3⟩
  · rw [if_neg hs]
    exact Or.inl ⟨d, rfl, h, rfl, rfl⟩

/-- Result of `copy`. -/
theorem copy_ok (z : S) (d : Dev S) (n : Nat) (st : Step S) (h : d.Source z)
    (hp : st.dropOk = true) :
    ∃ d' l, copy z d n st = .got d' l ∧ d'.Source z ∧ d'.total = d.total ∧
      l.length ≤ n ∧ pend z d = l ++ pend z d' := by
  unfold copy
  by_cases hs : d.fragSize = 0
  · -- nothing to copy
    have hk : (if n > d.fragSize then d.fragSize else n) = 0 := by split <;> omega
    have hf := h.none hs
    rw [hk]
    cases hptr : d.fragPtr with
    | none =>
      simp only [hs, hf, Nat.sub_zero, List.replicate_zero, Bool.and_false,
        Bool.false_eq_true, if_false]
      refine ⟨_, _, rfl, ⟨⟨h.wf.done, h.wf.low, h.wf.high⟩, h.opened, h.lock, fun _ => rfl,
        fun h0 => absurd rfl h0, h.queue⟩, rfl, by simp, ?_⟩
      unfold pend; rw [if_pos hs, if_pos rfl]; rfl
    | some p =>
      obtain ⟨g, mem⟩ := p
      simp only [hs, hf, Nat.sub_zero, List.take_zero, List.drop_zero, Bool.and_false,
        Bool.false_eq_true, if_false, ne_eq, not_true_eq_false, false_and]
      refine ⟨_, _, rfl, ⟨⟨h.wf.done, h.wf.low, h.wf.high⟩, h.opened, h.lock, fun _ => rfl,
        fun h0 => absurd rfl h0, h.queue⟩, rfl, by simp, ?_⟩
      unfold pend; rw [if_pos hs, if_pos rfl]; rfl
  · obtain ⟨s1, s2, s3⟩ := h.some hs
    generalize hk : (if n > d.fragSize then d.fragSize else n) = k
    have hk1 : k ≤ d.fragSize := by rw [← hk]; split <;> omega
    have hk2 : k ≤ n := by rw [← hk]; split <;> omega
    have hqt : ∀ f ∈ d.queue.tail, f.samples z ≠ [] := fun f hf => h.queue f
      (List.mem_of_mem_tail hf)
    cases hptr : d.fragPtr with
    | none =>
      have hpd : pend z d = List.replicate d.fragSize z ++ flat z d.queue.tail := by
        unfold pend; rw [if_neg hs, hptr]
      dsimp only
      by_cases he : d.fragSize - k = 0
      · have hek : d.fragSize = k := by omega
        simp only [he, s1, beq_self_eq_true, Bool.and_self, if_true, hp]
        refine ⟨_, _, rfl, ⟨⟨h.wf.done, h.wf.low, h.wf.high⟩, h.opened, h.lock, fun _ => rfl,
          fun h0 => absurd rfl h0, hqt⟩, rfl, by simpa using hk2, ?_⟩
        rw [hpd, hek]
        unfold pend; rw [if_pos rfl]
      · have he2 : (d.fragSize - k == 0 && d.fragFlag) = false := by simp [he]
        simp only [he2, Bool.false_eq_true, if_false]
        refine ⟨_, _, rfl, ⟨⟨h.wf.done, h.wf.low, h.wf.high⟩, h.opened, h.lock,
          fun h0 => absurd h0 he, fun _ => ⟨s1, s2, ?_⟩, h.queue⟩, rfl, by simpa using hk2, ?_⟩
        · intro g mem hg; cases hg
        · rw [hpd]
          unfold pend; rw [if_neg he]
          dsimp only
          rw [← List.append_assoc, List.replicate_append_replicate]
          congr 2; omega
    | some p =>
      obtain ⟨g, mem⟩ := p
      obtain ⟨hg, hm⟩ := s3 g mem hptr
      have hpd : pend z d = mem ++ flat z d.queue.tail := by
        unfold pend; rw [if_neg hs, hptr]
      dsimp only
      rw [if_neg (by intro h; exact h.2 hg)]
      by_cases he : d.fragSize - k = 0
      · have hek : d.fragSize = k := by omega
        simp only [he, s1, beq_self_eq_true, Bool.and_self, if_true, hp]
        refine ⟨_, _, rfl, ⟨⟨h.wf.done, h.wf.low, h.wf.high⟩, h.opened, h.lock, fun _ => rfl,
          fun h0 => absurd rfl h0, hqt⟩, rfl, ?_, ?_⟩
        · rw [List.length_take]; omega
        · rw [hpd, List.take_of_length_le (by omega)]
          unfold pend; rw [if_pos rfl]
      · have he2 : (d.fragSize - k == 0 && d.fragFlag) = false := by simp [he]
        simp only [he2, Bool.false_eq_true, if_false]
        refine ⟨_, _, rfl, ⟨⟨h.wf.done, h.wf.low, h.wf.high⟩, h.opened, h.lock,
          fun h0 => absurd h0 he, fun _ => ⟨s1, s2, ?_⟩, h.queue⟩, rfl, ?_, ?_⟩
        · intro g' mem' hg'
          simp only [Option.some.injEq, Prod.mk.injEq] at hg'
          obtain ⟨rfl, rfl⟩ := hg'
          exact ⟨hg, by rw [List.length_drop, hm]⟩
        · rw [List.length_take]; omega
        · rw [hpd]
          unfold pend; rw [if_neg he]
          dsimp only
          rw [← List.append_assoc, List.take_append_drop]

/-- One round of `read`. -/
theorem read_step (z : S) (d : Dev S) (n : Nat) (st : Step S) (sts : List (Step S))
    (hn : n ≠ 0) (ho : d.opened = true) :
    read z d n (st :: sts) =
      match readStream z d n st with
      | .blocked d => (d, .blocked, [])
      | .released d => (d, .released, [])
      | .fail d =>
        let (d, r) := failed { d with lock := d.lock + 1 } st.reopen
        (d, r, [])
      | .got d l =>
        let (d, r, m) := read z d (n - l.length) sts
        (d, r, l ++ m) := by
  rw [read, if_neg hn, if_neg (by simp [ho])]
  rfl

/-- **C122 (source).** While the device is open and libpulse reports no errors, the samples
that reads give to the user are the recorded samples in order, holes being silence: none is
lost, repeated or made up, across fragments and frames of any sizes. A read that returns
fills the frame. -/
theorem C122_read_partial (z : S) (d : Dev S) (n : Nat) (sts : List (Step S)) (h : d.Source z)
    (hs : ∀ st ∈ sts, st.Good z) (given : List S) (ht : d.total = given ++ pend z d) :
    let r := read z d n sts
    (r.2.1 = .done true ∨ r.2.1 = .blocked) ∧ r.1.Source z ∧
    r.1.total = given ++ r.2.2 ++ pend z r.1 ∧ r.2.2.length ≤ n ∧
    (r.2.1 = .done true → r.2.2.length = n) := by
  induction sts generalizing d n given with
  | nil =>
    by_cases hn : n = 0
    · have e : read z d n [] = (d, .done true, []) := by rw [read, if_pos hn]
      rw [e]
      exact ⟨Or.inl rfl, h, by simpa using ht, by simp, fun _ => hn.symm⟩
    · have e : read z d n [] = (d, .blocked, []) := by
        rw [read, if_neg hn, if_neg (by simp [h.opened])]
      rw [e]
      exact ⟨Or.inr rfl, h, by simpa using ht, by simp, fun h => (by cases h)⟩
  | cons st sts ih =>
    by_cases hn : n = 0
    · have e : read z d n (st :: sts) = (d, .done true, []) := by rw [read, if_pos hn]
      rw [e]
      exact ⟨Or.inl rfl, h, by simpa using ht, by simp, fun _ => hn.symm⟩
    rw [read_step z d n st sts hn h.opened]
    obtain ⟨g1, g2, g3⟩ := hs st (by simp)
    obtain ⟨a1, a2⟩ := arrive_ok z d st.arrive h g3
    unfold readStream
    dsimp only
    have hfl : (st.arrive.map (Frag.samples z)).flatten = flat z st.arrive := rfl
    rw [hfl]
    rcases fetch_ok z _ st a1 g1 with ⟨d1, f1, f2, f3, f4⟩ | ⟨d1, f1, f2, f3, f4⟩
    · rw [f1]
      dsimp only
      obtain ⟨d2, l, c1, c2, c3, c4, c5⟩ := copy_ok z d1 n st f2 g2
      rw [c1]
      dsimp only
      have htot : d2.total = (given ++ l) ++ pend z d2 := by
        rw [c3, f4]
        dsimp only
        rw [ht, List.append_assoc, ← a2, ← f3, c5, List.append_assoc]
      obtain ⟨i1, i2, i3, i4, i5⟩ := ih d2 (n - l.length) c2
        (fun s h => hs s (by simp [h])) (given ++ l) htot
      refine ⟨i1, i2, ?_, ?_, ?_⟩
      · rw [i3]; simp
      · have e4 := i4
        change (l ++ _).length ≤ _
        rw [List.length_append]
        exact Nat.le_trans (Nat.add_le_add_left e4 _) (by omega)
      · intro h
        have e5 := i5 h
        change (l ++ _).length = _
        rw [List.length_append, e5]; omega
    · rw [f1]
      dsimp only
      refine ⟨Or.inr rfl, f2, ?_, by simp, fun h => (by cases h)⟩
      rw [f4, f3, a2]
      dsimp only
      rw [ht]; simp

/-- A device that was just opened is such a source. -/
theorem C122_opened (z : S) (latency : Int) (o : Opens)
    (ho : o.created = true ∧ o.connected = true ∧ o.ready = true) :
    let r := openDev (init latency : Dev S) o
    r.2 = .done true ∧ r.1.Source z ∧ r.1.total = [] ++ pend z r.1 := by
  obtain ⟨h1, h2, h3⟩ := ho
  have ht := (C122_timeout latency minTimeout false [] ⟨by decide, by decide⟩).1
  have : openDev (init latency : Dev S) o = ({ (init latency : Dev S) with
        ctx := true, openDone := true, opened := true, gen := 1, queue := [] }, .done true) := by
    simp [openDev, init, h1, h2, h3]
  rw [this]
  exact ⟨rfl, ⟨⟨fun _ => rfl, ht.1, ht.2⟩, rfl, rfl, fun _ => rfl, fun h => absurd rfl h,
    fun f hf => (by cases hf)⟩, rfl⟩

/-- **C122 (open).** A device that was opened successfully stays as it is if it is resumed
again: the stream and what was recorded are not lost. -/
theorem C122_resume_again (d : Dev S) (o o' : Opens) (h : (resume d o).2 = .done true)
    (hw : d.openDone = false → d.opened = false) :
    resume (resume d o).1 o' = ((resume d o).1, .done true) := by
  unfold resume openDev at *
  cases hd : d.openDone with
  | true =>
    simp only [hd, if_true] at h ⊢
    simp only [Ret.done.injEq] at h
    simp [h]
  | false =>
    have := hw hd
    simp only [hd, Bool.false_eq_true, if_false] at h ⊢
    cases hc : o.created with
    | false => simp [hc, this] at h
    | true =>
      cases hn : o.connected with
      | false => simp [hc, hn, this] at h
      | true =>
        by_cases hl : d.lock = 0
        · simp [hc, hn, hl] at h ⊢
          exact h
        · simp [hc, hn, hl] at h

/-- Non-vacuity: a device that was opened, and then is resumed although its server is gone. -/
example : resume (resume (init 0 : Dev Nat) ⟨true, true, true⟩).1 ⟨false, false, false⟩
    = ((resume (init 0 : Dev Nat) ⟨true, true, true⟩).1, .done true) :=
  C122_resume_again _ _ _ (by decide) (fun _ => rfl)

/-- **C122 (source, what fails).** If a source is paused and resumed, or restarted, while a
part of a fragment is not read yet, then the next read accesses memory of the old stream,
which was released with it. -/
theorem C122_stale_fails (z : S) (d : Dev S) (o : Opens) (n : Nat) (st : Step S)
    (sts : List (Step S)) (h : d.Source z) (hf : d.fragSize ≠ 0) (mem : List S)
    (hm : d.fragPtr = some (d.gen, mem)) (hn : n ≠ 0)
    (ho : o.created = true ∧ o.connected = true ∧ o.ready = true) :
    (resume (pause d) o).2 = .done true ∧
    (read z (resume (pause d) o).1 n (st :: sts)).2.1 = .released ∧
    (restart d o).2 = .done true ∧
    (read z (restart d o).1 n (st :: sts)).2.1 = .released := by
  obtain ⟨h1, h2, h3⟩ := ho
  have hd := h.wf.done h.opened
  have hr : restart d o = ({ d with
        ctx := true, openDone := true, opened := true, gen := d.gen + 1, queue := [] },
      .done true) := by
    simp [restart, openDev, closeDev, hd, h.lock, h1, h2, h3]
  have hp : resume (pause d) o = restart d o := rfl
  rw [hp, hr]
  have hk : (if n > d.fragSize then d.fragSize else n) ≠ 0 := by split <;> omega
  have : (read z { d with
        ctx := true, openDone := true, opened := true, gen := d.gen + 1, queue := [] } n (st :: sts)).2.1 = .released := by
    rw [read_step _ _ _ _ _ hn rfl]
    simp only [readStream, fetch, hf, if_false, copy, hm]
    rw [if_pos ⟨hk, by omega⟩]
  exact ⟨rfl, this, rfl, this⟩

/-- **C122 (source, what fails).** A source whose server stops sending never restarts the
stream, unlike the sink: however many times the wait expires, the read does not return. -/
theorem C122_starve_fails (z : S) (d : Dev S) (n : Nat) (sts : List (Step S)) (hn : n ≠ 0)
    (ho : d.opened = true) (hq : d.queue = []) (hf : d.fragSize = 0)
    (hs : ∀ st ∈ sts, st.arrive = [] ∧ st.peekOk = true ∧
      st.obs = [⟨some 0, true⟩, ⟨some 0, true⟩]) :
    (read z d n sts).2.1 = .blocked := by
  induction sts generalizing d with
  | nil => simp [read, hn, ho]
  | cons st sts ih =>
    obtain ⟨s1, s2, s3⟩ := hs st (by simp)
    rw [read_step z d n st sts hn ho]
    have hw : ∃ t, waitStream d.timeout false st.obs = (.expired, t) := by
      simp [s3, waitStream]
    obtain ⟨t, hw⟩ := hw
    have hk : (if n > 0 then 0 else n) = 0 := by split <;> omega
    have : readStream z d n st = .got { d with
        timeout := t, fragPtr := none, fragSize := 0, fragFlag := false } [] := by
      simp [readStream, fetch, peek, hf, hw, s1, s2, hq, copy, hk]
    rw [this]
    dsimp only
    simp only [List.length_nil, Nat.sub_zero]
    exact ih _ ho hq rfl (fun s h => hs s (by simp [h]))

/-- A sink in the same situation restarts the stream. -/
theorem C122_sink_restarts (d : Dev S) (xs : List S) (st : Step S) (sts : List (Step S))
    (hw : d.Wf) (ho : d.opened = true) (hl : d.lock = 0) (hx : xs ≠ [])
    (hr : st.reopen.created = true ∧ st.reopen.connected = true ∧ st.reopen.ready = true)
    (hs : st.obs = [⟨some 0, true⟩, ⟨some 0, true⟩]) :
    (write d xs (st :: sts)).2 = .done false ∧
    (write d xs (st :: sts)).1.gen = d.gen + 1 ∧
    (write d xs (st :: sts)).1.opened = true ∧
    (write d xs (st :: sts)).1.timeout = min (2 * d.timeout) maxTimeout := by
  have hne : xs.isEmpty = false := by cases xs <;> simp_all
  have ht := C122_timeout 0 d.timeout false st.obs ⟨hw.low, hw.high⟩
  have he : (waitStream d.timeout false st.obs).1 = .expired := by simp [hs, waitStream]
  have ht2 := ht.2.2.1 he
  rcases hws : waitStream d.timeout false st.obs with ⟨w, t⟩
  rw [hws] at he ht2
  dsimp only at he ht2
  subst he
  have hd := hw.done ho
  obtain ⟨r1, r2, r3⟩ := hr
  rw [write_step d xs st sts hne ho, hws]
  simp [failed, restart, openDev, closeDev, hd, hl, r1, r2, r3, ht2]

/-- `n` attempts to resume, all of which cannot connect. -/
def attempts (d : Dev S) : Nat → Dev S
  | 0 => d
  | n + 1 => (resume (attempts d n) ⟨true, false, false⟩).1

/-- **C122 (contexts, what fails).** Each attempt to open a device that cannot connect
leaves its context behind: after `n + 1` attempts `n` contexts are lost, and closing the
device releases not even the last one. -/
theorem C122_leak_fails (d : Dev S) (n : Nat) (ho : d.openDone = false) (hc : d.ctx = false) :
    (attempts d (n + 1)).leaked = d.leaked + n ∧
    (closeDev (attempts d (n + 1))).ctx = true := by
  have key : ∀ n, (attempts d (n + 1)).leaked = d.leaked + n ∧
      (attempts d (n + 1)).ctx = true ∧ (attempts d (n + 1)).openDone = false := by
    intro n
    induction n with
    | zero => simp [attempts, resume, openDev, ho, hc]
    | succ n ih =>
      obtain ⟨i1, i2, i3⟩ := ih
      rw [attempts]
      simp [resume, openDev, i1, i2, i3]
      omega
  obtain ⟨k1, k2, k3⟩ := key n
  exact ⟨k1, by simp [closeDev, k2, k3]⟩

end

/-! ## Concrete cases -/

/-- Everything can be opened. -/
def exO : Opens := ⟨true, true, true⟩

/-- An open device. -/
def exD : Dev Nat := (openDev (init 0) exO).1

/-- Space for three bytes, two fragments arrive. -/
def exS : Step Nat := ⟨[⟨some 0, false⟩, ⟨some 3, false⟩], [.data [1, 2, 3], .hole 2], true, true,
  true, exO⟩

example : exD.Wf ∧ exD.opened = true ∧ exD.lock = 0 ∧ exD.timeout = 120000000 :=
  ⟨(C122_opened 0 0 exO ⟨rfl, rfl, rfl⟩).2.1.wf, rfl, rfl, by decide⟩

/-- A frame of five samples is written in two pieces. -/
example : (write exD [1, 2, 3, 4, 5] [exS, exS]).2 = .done true ∧
    (write exD [1, 2, 3, 4, 5] [exS, exS]).1.out = [1, 2, 3, 4, 5] ∧
    (write exD [1, 2, 3, 4, 5] [exS, exS]).1.chunks = [(3, 3), (2, 3)] := by
  decide +kernel

/-- A read of four samples out of a fragment and a hole; one sample is left. -/
example : (read 0 exD 4 [exS, exS]).2 = (.done true, [1, 2, 3, 0]) ∧
    (read 0 exD 4 [exS, exS]).1.fragSize = 1 := by
  decide +kernel

example : exS.Good 0 := ⟨rfl, rfl, by decide⟩

/-- A read of two samples leaves a part of the fragment; after a pause the next read
accesses released memory. -/
example : (read 0 exD 2 [exS]).1.fragPtr = some (exD.gen, [3]) ∧
    (read 0 (resume (pause (read 0 exD 2 [exS]).1) exO).1 1 [exS]).2.1 = .released := by
  decide +kernel

/-- Three failed attempts. -/
example : (attempts (init 0 : Dev Nat) 3).leaked = 2 := by decide +kernel

end Verif.PulseDevice
