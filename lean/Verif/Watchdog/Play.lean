import Verif.Watchdog.Drops

/-!
# Watchdog: whole sessions
-/

namespace Verif.Watchdog

/-- Conditions on parameters and frames. -/
structure Ok (c : Cfg) (dmax : Nat) (fs : List Fr) : Prop where
  valid : c.valid = true
  dpos : 0 < dmax
  dm : dmax ≤ 2147483648
  window : c.window < 2147483648
  durs : ∀ f ∈ fs, f.dur ≤ dmax
  blank : c.maxBlank + dmax ≤ m32
  drops : c.maxDrops + dmax ≤ m32
  warmup : c.warmup + dmax ≤ m32

theorem Ok.prefix {c : Cfg} {dmax : Nat} {a b : List Fr} (h : Ok c dmax (a ++ b)) : Ok c dmax a :=
  { h with durs := fun f hf => h.durs f (List.mem_append_left _ hf) }

theorem Ok.wpos {c : Cfg} {dmax : Nat} {a : List Fr} (h : Ok c dmax a) (h0 : c.maxDrops ≠ 0) : 0 < c.window := by
  have := h.valid
  unfold Cfg.valid at this
  simp at this
  have := (this.resolve_left h0).1
  omega

theorem Ok.last {c : Cfg} {dmax : Nat} {a : List Fr} {f : Fr} (h : Ok c dmax (a ++ [f])) : f.dur ≤ dmax := h.durs f (by simp)

/-- The invariant of a live session. -/
structure Inv (c : Cfg) (dmax : Nat) (fs : List Fr) (s : St) : Prop where
  curr : s.curr = dur fs % m32
  blank : c.maxBlank ≠ 0 → BInv c dmax fs s
  drops : c.maxDrops ≠ 0 → ∃ Ld C u v, DInv c fs s Ld C u v ∧ dur fs < Ld + c.maxDrops

theorem Inv.init {c : Cfg} {dmax : Nat} (_ : Ok c dmax []) : Inv c dmax [] (St.init c) := by
  refine ⟨rfl, fun h0 => ⟨fun h' => ?_, fun _ => ⟨?_, rfl, Or.inl ?_⟩⟩, fun h0 => ⟨0, 0, [], [], DInv.init c, ?_⟩⟩
  · cases h'
  · show decide (c.warmup ≠ 0) = decide (0 < c.warmup)
    rw [decide_eq_decide]; omega
  · show 0 < _; omega
  · show 0 < _; omega

theorem drop_step {c : Cfg} {dmax : Nat} {fs : List Fr} {s : St} {f : Fr} {Ld C : Nat} {u v : List Fr} (hok : Ok c dmax (fs ++ [f])) (h0 : c.maxDrops ≠ 0)
    (hc : s.curr = dur fs % m32) (h : DInv c fs s Ld C u v) :
    ∃ Ld' C' u' v', DInv c (fs ++ [f]) (feed c s f) Ld' C' u' v' ∧ Ld ≤ Ld' ∧
      ((Ld' = Ld ∧ C' = C ∧ u' = u) ∨
        ((u' = fs ∨ u' = fs ++ [f]) ∧ c.window ≤ dur (v ++ [f]) ∧ 0 < f.dur ∧ C' = dur (fs ++ [f]) ∧ Ld' = if Both (v ++ [f]) then Ld else dur (fs ++ [f]))) := by
  have hw0 := hok.wpos h0
  have hd := hok.last
  have hm := hok.dm
  by_cases hx : crosses c s f
  · obtain ⟨q1, q2, u', v', q3, q4⟩ := close h h0 hc hw0 hok.window (by omega) hx
    refine ⟨_, _, u', v', q4, ?_, Or.inr ⟨q3, q1, q2, rfl, rfl⟩⟩
    have := h.ldle
    have := dur_snoc fs f
    split_ifs <;> omega
  · exact ⟨Ld, C, u, v ++ [f], stay h h0 hc hw0 hok.window (by omega) hx, Nat.le_refl _, Or.inl ⟨rfl, rfl, rfl⟩⟩

theorem drop_check {c : Cfg} {dmax : Nat} {fs : List Fr} {s : St} {f : Fr} {Ld Ld' C' : Nat} {u' v' : List Fr} (hok : Ok c dmax (fs ++ [f]))
    (hc : s.curr = dur fs % m32) (hlt : dur fs < Ld + c.maxDrops) (hle : Ld ≤ Ld') (h : DInv c (fs ++ [f]) (feed c s f) Ld' C' u' v') :
    ((s.curr + f.dur) % m32 + m32 - (feed c s f).lastDrops) % m32 = dur (fs ++ [f]) - Ld' := by
  have hsn := dur_snoc fs f
  have hP : (s.curr + f.dur) % m32 = dur (fs ++ [f]) % m32 := by rw [hc, hsn]; simp only [m32]; omega
  have hd := hok.last
  have hdr := hok.drops
  have := h.ldle
  rw [hP, h.ld]
  exact mod_sub h.ldle (by omega)

theorem Inv.step {c : Cfg} {dmax : Nat} {fs : List Fr} {s : St} {f : Fr} (hok : Ok c dmax (fs ++ [f])) (h : Inv c dmax fs s) (ha : (feed c s f).alive = true) :
    Inv c dmax (fs ++ [f]) (feed c s f) := by
  rw [feed_alive, Bool.and_eq_true, Bool.and_eq_true, decide_eq_true_iff, decide_eq_true_iff] at ha
  obtain ⟨⟨_, ha1⟩, ha2⟩ := ha
  refine ⟨?_, fun h0 => ?_, fun h0 => ?_⟩
  · rw [feed_curr, h.curr, dur_snoc]; simp only [m32]; omega
  · obtain ⟨b1, b2⟩ := blank_step (f := f) (h.blank h0) h.curr h0 hok.last hok.blank hok.warmup hok.dm hok.dpos
    exact b2 (b1.1 (ha2.resolve_left h0))
  · obtain ⟨Ld, C, u, v, d, hlt⟩ := h.drops h0
    obtain ⟨Ld', C', u', v', d', hle, _⟩ := drop_step hok h0 h.curr d
    refine ⟨Ld', C', u', v', d', ?_⟩
    have k := drop_check hok h.curr hlt hle d'
    have := ha1.resolve_left h0
    have := d'.ldle
    omega

theorem Inv.play {c : Cfg} {dmax : Nat} {fs : List Fr} (hok : Ok c dmax fs) (ha : (play c fs).alive = true) : Inv c dmax fs (play c fs) := by
  induction fs using List.reverseRecOn with
  | nil => exact Inv.init hok
  | append_singleton fs f ih =>
    have h1 := play_alive_prefix c fs [f] ha
    rw [play_snoc, if_pos h1] at ha ⊢
    exact Inv.step hok (ih hok.prefix h1) ha

/-- What is alive and what is dead after a frame. -/
theorem alive_iff {c : Cfg} {dmax : Nat} {fs : List Fr} {f : Fr} (hok : Ok c dmax (fs ++ [f])) (ha : (play c fs).alive = true) :
    (play c (fs ++ [f])).alive = true ↔ ¬ NoPlayback c (fs ++ [f]) ∧
      (c.maxDrops = 0 ∨ ((dur (fs ++ [f])) % m32 + m32 - (play c (fs ++ [f])).lastDrops) % m32 < c.maxDrops) := by
  have hi := Inv.play hok.prefix ha
  rw [play_snoc, if_pos ha]
  have hP : ((play c fs).curr + f.dur) % m32 = dur (fs ++ [f]) % m32 := by rw [hi.curr, dur_snoc]; simp only [m32]; omega
  by_cases h0 : c.maxBlank = 0
  · have hn : ¬ NoPlayback c (fs ++ [f]) := fun h => h.1 h0
    rw [feed_alive, ha, Bool.true_and, Bool.and_eq_true, decide_eq_true_iff, decide_eq_true_iff, hP]
    exact ⟨fun h => ⟨hn, h.1⟩, fun h => ⟨h.2, Or.inl h0⟩⟩
  · obtain ⟨b1, _⟩ := blank_step (f := f) (hi.blank h0) hi.curr h0 hok.last hok.blank hok.warmup hok.dm hok.dpos
    rw [hP] at b1
    rw [feed_alive, ha, Bool.true_and, Bool.and_eq_true, decide_eq_true_iff, decide_eq_true_iff, hP, b1]
    exact ⟨fun h => ⟨h.2.resolve_left h0, h.1⟩, fun h => ⟨h.2, Or.inr h.1⟩⟩

/-- What holds of the drop check after a frame, even if it has ended the session. -/
theorem drop_after {c : Cfg} {dmax : Nat} {a b : List Fr} {f : Fr} (hok : Ok c dmax (a ++ b ++ [f])) (h0 : c.maxDrops ≠ 0)
    (ha : (play c (a ++ b)).alive = true)
    (Q : Nat → Nat → List Fr → List Fr → List Fr → Prop)
    (base : ∀ s Ld C u v, DInv c a s Ld C u v → Q Ld C u v [])
    (step : ∀ s b' f' Ld C u v Ld' C' u' v', (∃ z, b ++ [f] = b' ++ [f'] ++ z) → Ok c dmax (a ++ b' ++ [f']) → DInv c (a ++ b') s Ld C u v → Q Ld C u v b' → DInv c (a ++ b' ++ [f']) (feed c s f') Ld' C' u' v' → Ld ≤ Ld' →
      ((Ld' = Ld ∧ C' = C ∧ u' = u) ∨ ((u' = a ++ b' ∨ u' = a ++ b' ++ [f']) ∧ c.window ≤ dur (v ++ [f']) ∧ 0 < f'.dur ∧ C' = dur (a ++ b' ++ [f']) ∧
        Ld' = if Both (v ++ [f']) then Ld else dur (a ++ b' ++ [f']))) → Q Ld' C' u' v' (b' ++ [f'])) :
    ∃ Ld C u v, DInv c (a ++ b ++ [f]) (play c (a ++ b ++ [f])) Ld C u v ∧ Q Ld C u v (b ++ [f]) ∧
      (dur (a ++ b ++ [f]) % m32 + m32 - (play c (a ++ b ++ [f])).lastDrops) % m32 = dur (a ++ b ++ [f]) - Ld := by
  have pre : ∀ b', (∃ z, b = b' ++ z) → Ok c dmax (a ++ b') → (play c (a ++ b')).alive = true →
      ∃ Ld C u v, DInv c (a ++ b') (play c (a ++ b')) Ld C u v ∧ Q Ld C u v b' ∧ dur (a ++ b') < Ld + c.maxDrops := by
    intro b'
    induction b' using List.reverseRecOn with
    | nil =>
      intro _ hok ha
      rw [List.append_nil] at *
      obtain ⟨Ld, C, u, v, d, hlt⟩ := (Inv.play hok ha).drops h0
      exact ⟨Ld, C, u, v, d, base _ _ _ _ _ d, hlt⟩
    | append_singleton b' f' ih =>
      intro hz hok ha
      rw [← List.append_assoc] at *
      have h1 := play_alive_prefix c (a ++ b') [f'] ha
      obtain ⟨z, hz⟩ := hz
      obtain ⟨Ld, C, u, v, d, q, hlt⟩ := ih ⟨[f'] ++ z, by rw [hz, List.append_assoc]⟩ hok.prefix h1
      have hi := Inv.play hok.prefix h1
      have hal := (alive_iff hok h1).1 ha
      rw [play_snoc, if_pos h1] at ha hal ⊢
      obtain ⟨Ld', C', u', v', d', hle, hor⟩ := drop_step hok h0 hi.curr d
      have k := drop_check hok hi.curr hlt hle d'
      have hP : ((play c (a ++ b')).curr + f'.dur) % m32 = dur (a ++ b' ++ [f']) % m32 := by rw [hi.curr, dur_snoc]; simp only [m32]; omega
      rw [hP] at k
      have h3 := hal.2.resolve_left h0
      have := d'.ldle
      exact ⟨Ld', C', u', v', d', step _ _ _ _ _ _ _ _ _ _ _ ⟨z ++ [f], by rw [hz, List.append_assoc]⟩ hok d q d' hle hor, by omega⟩
  obtain ⟨Ld, C, u, v, d, q, hlt⟩ := pre b ⟨[], by simp⟩ hok.prefix ha
  have hi := Inv.play hok.prefix ha
  obtain ⟨Ld', C', u', v', d', hle, hor⟩ := drop_step hok h0 hi.curr d
  have k := drop_check hok hi.curr hlt hle d'
  have hP : ((play c (a ++ b)).curr + f.dur) % m32 = dur (a ++ b ++ [f]) % m32 := by rw [hi.curr, dur_snoc]; simp only [m32]; omega
  rw [hP] at k
  rw [play_snoc, if_pos ha]
  exact ⟨Ld', C', u', v', d', step _ _ _ _ _ _ _ _ _ _ _ ⟨[], by simp⟩ hok d q d' hle hor, k⟩

end Verif.Watchdog
