import Verif.Watchdog.Play

/-!
# C39: the watchdog ends sessions
-/

namespace Verif.Watchdog

theorem run_foldl (c : Cfg) (h : List (Option Fr)) : ∀ s : St, (run c s h).2 = (frames h).foldl (fun s f => if s.alive then feed c s f else s) s := by
  induction h with
  | nil => intro s; rfl
  | cons o h ih =>
    intro s
    show (run c (read c s o).2 h).2 = _
    rw [ih]
    cases o with
    | none =>
      have e : (read c s none).2 = s := by unfold read; split_ifs <;> rfl
      rw [e]; rfl
    | some f =>
      have e : (read c s (some f)).2 = if s.alive then feed c s f else s := by
        unfold read
        cases s.alive <;> rfl
      rw [e]; rfl

theorem run_play (c : Cfg) (h : List (Option Fr)) : (run c (St.init c) h).2 = play c (frames h) := run_foldl c h _

theorem Sane.ok {c : Cfg} {dmax : Nat} {h : List (Option Fr)} (s : Sane c dmax h) : Ok c dmax (frames h) :=
  ⟨s.valid, s.dpos, s.dm, s.window, s.durs, s.blank, s.drops, s.warmup⟩

theorem frames_append (a b : List (Option Fr)) : frames (a ++ b) = frames a ++ frames b := List.filterMap_append

/-- The session is alive after the calls. -/
def aliveAfter (c : Cfg) (h : List (Option Fr)) : Bool := (run c (St.init c) h).2.alive

theorem DInv.lt' {c : Cfg} {fs gs : List Fr} {s : St} {Ld C : Nat} {u v : List Fr} (h : DInv c fs s Ld C u v) (hw0 : 0 < c.window) (hle : dur fs ≤ dur gs) :
    dur fs < C + longest c gs := by
  unfold longest
  split_ifs with hg
  · have h1 := ws_add (w := c.window) (dur fs)
    have h2 : dur fs % m32 % c.window < c.window := Nat.mod_lt _ hw0
    rcases h.near with n | ⟨n, _⟩
    · omega
    · have h3 : ws c.window (dur fs) = 0 := by
        have := ws_le c.window (dur fs)
        simp only [m32] at *
        omega
      omega
  · exact h.lt hw0

theorem Both.mono {a b x y : List Fr} (h : Both a) (e : b = x ++ a ++ y) : Both b := by
  obtain ⟨⟨f, hf, h1⟩, ⟨g, hg, h2⟩⟩ := h
  subst e
  exact ⟨⟨f, by simp [hf], h1⟩, ⟨g, by simp [hg], h2⟩⟩

/-- If a part without one of the flags is long enough, the session was seen healthy after the beginning of that part. -/
theorem seen {c : Cfg} {dmax : Nat} {a b y z : List Fr} {f : Fr} (hok : Ok c dmax (a ++ b ++ [f])) (h0 : c.maxDrops ≠ 0)
    (ha : (play c (a ++ b)).alive = true) (hyz : b ++ [f] = y ++ z) (hy : 2 * longest c (a ++ b ++ [f]) + dmax ≤ dur y) (hn : ¬ Both y) :
    ∃ Ld, dur a < Ld ∧ Ld ≤ dur (a ++ b ++ [f]) ∧ (dur (a ++ b ++ [f]) % m32 + m32 - (play c (a ++ b ++ [f])).lastDrops) % m32 = dur (a ++ b ++ [f]) - Ld := by
  have hw0 := hok.wpos h0
  obtain ⟨G, hG⟩ : ∃ G, G = a ++ b ++ [f] := ⟨_, rfl⟩
  obtain ⟨Ld, C, u, v, d, q, k⟩ := drop_after hok h0 ha
    (fun Ld C u _ b' => dur a < Ld ∨ ((∃ z', y = b' ++ z') ∧
      (((∃ t, u = a ++ t) ∧ C ≤ dur a + longest c G + dmax) ∨ C ≤ dur a)))
    (by
      intro s Ld C u v d
      exact Or.inr ⟨⟨y, rfl⟩, Or.inr d.cle⟩)
    (by
      intro s b' f' Ld C u v Ld' C' u' v' hz hok' d q d' hle hor
      have hsn := dur_snoc (a ++ b') f'
      have hab := dur_append a b'
      obtain ⟨zz, hz⟩ := hz
      have hle' : dur (a ++ b') ≤ dur G := by
        have e : G = a ++ b' ++ ([f'] ++ zz) := by rw [hG, List.append_assoc, hz]; simp
        rw [e, dur_append (a ++ b')]; omega
      have hlt := d.lt' hw0 hle'
      have hfd := hok'.last
      rcases q with q | ⟨⟨z', hz'⟩, q⟩
      · exact Or.inl (by omega)
      · -- the part is not over
        have hnz : z' ≠ [] := by
          rintro rfl
          rw [List.append_nil] at hz'
          rw [hz', ← hG] at hy
          rcases q with ⟨_, q⟩ | q <;> omega
        obtain ⟨g, z'', rfl⟩ := List.exists_cons_of_ne_nil hnz
        have hg : g = f' := by
          rw [hyz, hz', List.append_assoc, List.append_assoc] at hz
          have := List.append_cancel_left hz
          simp at this
          exact this.1
        subst hg
        have hpre : ∃ z', y = b' ++ [g] ++ z' := ⟨z'', by rw [hz']; simp⟩
        rcases hor with ⟨e1, e2, e3⟩ | ⟨e1, e2, e3, e4, e5⟩
        · rw [e1, e2, e3]
          exact Or.inr ⟨hpre, q⟩
        · rcases q with ⟨⟨t, ht⟩, q⟩ | q
          · -- a whole window of the part
            left
            have hs := d.split
            rw [ht, List.append_assoc] at hs
            have hb' := List.append_cancel_left hs
            have hnb : ¬ Both (v ++ [g]) := by
              intro hb
              refine hn (hb.mono (x := t) (y := z'') ?_)
              rw [hz', hb']
              simp
            rw [if_neg hnb] at e5
            omega
          · right
            refine ⟨hpre, Or.inl ⟨?_, by omega⟩⟩
            rcases e1 with e1 | e1
            · exact ⟨b', e1⟩
            · exact ⟨b' ++ [g], by rw [e1, List.append_assoc]⟩)
  refine ⟨Ld, ?_, d.ldle, k⟩
  rcases q with q | ⟨⟨z', hz'⟩, q⟩
  · exact q
  · have hlt := d.lt' (gs := a ++ b ++ [f]) hw0 (Nat.le_refl _)
    have e : dur (a ++ b ++ [f]) = dur a + dur (b ++ [f]) := by rw [List.append_assoc, dur_append]
    have e2 : dur y = dur (b ++ [f]) + dur z' := by rw [hz', dur_append]
    have e3 : dur (b ++ [f]) = dur y + dur z := by rw [hyz, dur_append]
    rw [hG] at q
    rcases q with ⟨_, q⟩ | q <;> omega

/-- **C39**: a frame ends the session only if there was no playback, or choppy playback, for the timeout. -/
theorem C39_dead_only_if {c : Cfg} {dmax : Nat} {h : List (Option Fr)} {f : Fr} (hs : Sane c dmax (h ++ [some f])) (ha : aliveAfter c h = true)
    (hd : aliveAfter c (h ++ [some f]) = false) : NoPlayback c (frames h ++ [f]) ∨ Choppy c dmax (frames h ++ [f]) := by
  have hok := hs.ok
  unfold aliveAfter at ha hd
  rw [run_play] at ha hd
  rw [frames_append, show frames [some f] = [f] from rfl] at hd hok
  obtain ⟨fs, hfs⟩ : ∃ fs, fs = frames h := ⟨_, rfl⟩
  rw [← hfs] at ha hd hok ⊢
  by_cases hnp : NoPlayback c (fs ++ [f])
  · exact Or.inl hnp
  · right
    have hiff := alive_iff hok ha
    have hdead : ¬ (c.maxDrops = 0 ∨ (dur (fs ++ [f]) % m32 + m32 - (play c (fs ++ [f])).lastDrops) % m32 < c.maxDrops) := by
      intro k
      rw [hiff.2 ⟨hnp, k⟩] at hd
      cases hd
    rw [not_or] at hdead
    obtain ⟨h0, hge⟩ := hdead
    refine ⟨h0, ?_, ?_⟩
    · obtain ⟨Ld, C, u, v, d, _, k⟩ := drop_after (a := []) (b := fs) hok h0 ha (fun _ _ _ _ _ => True) (fun _ _ _ _ _ _ => trivial) (by intros; trivial)
      rw [List.nil_append] at k
      omega
    · intro x y z e hx hy
      by_contra hn
      -- `x` is a prefix of the frames before the last one
      have hyne : y ≠ [] := by
        rintro rfl
        have : dur [] = 0 := rfl
        have := hok.dpos
        omega
      obtain ⟨b, hb, hyz⟩ : ∃ b, fs = x ++ b ∧ b ++ [f] = y ++ z := by
        have hne : y ++ z ≠ [] := by simp [hyne]
        obtain ⟨b, g, hbg⟩ : ∃ b g, y ++ z = b ++ [g] := ⟨(y ++ z).dropLast, (y ++ z).getLast hne, (List.dropLast_concat_getLast hne).symm⟩
        rw [List.append_assoc, hbg, ← List.append_assoc] at e
        obtain ⟨e1, e2⟩ := List.append_inj' e rfl
        cases e2
        exact ⟨b, e1, hbg.symm⟩
      rw [hb] at hok ha hge hx hy
      obtain ⟨Ld, q1, q2, k⟩ := seen hok h0 ha hyz hy hn
      omega

/-- **C39**: no later than with the first frame after the timeout, a session without playback is over. -/
theorem C39_no_playback_dead {c : Cfg} {dmax : Nat} {h : List (Option Fr)} {f : Fr} (hs : Sane c dmax (h ++ [some f])) (hn : NoPlayback c (frames h ++ [f])) :
    aliveAfter c (h ++ [some f]) = false := by
  have hok := hs.ok
  unfold aliveAfter
  rw [run_play]
  rw [frames_append, show frames [some f] = [f] from rfl] at hok ⊢
  cases ha : (play c (frames h)).alive with
  | false => rw [play_dead c _ _ ha, ha]
  | true =>
    have := alive_iff hok ha
    cases hb : (play c (frames h ++ [f])).alive with
    | false => rfl
    | true => exact absurd hn (this.1 hb).1

/-- **C39**: a session whose playback has been choppy for the timeout, plus two windows and a frame, is over. -/
theorem C39_choppy_dead {c : Cfg} {dmax : Nat} {h : List (Option Fr)} {a b : List Fr} (hs : Sane c dmax h) (h0 : c.maxDrops ≠ 0) (hab : frames h = a ++ b)
    (hb : AllChoppy c b) (hl : c.maxDrops + longest c (frames h) + dmax ≤ dur b) : aliveAfter c h = false := by
  have hok := hs.ok
  unfold aliveAfter
  rw [run_play]
  rw [hab] at hok hl ⊢
  have hw0 := hok.wpos h0
  have hbne : b ≠ [] := by
    rintro rfl
    have : dur [] = 0 := rfl
    have := hok.dpos
    omega
  obtain ⟨b, f, rfl⟩ : ∃ b' g, b = b' ++ [g] := ⟨b.dropLast, b.getLast hbne, (List.dropLast_concat_getLast hbne).symm⟩
  rw [← List.append_assoc] at hok ⊢ hl
  cases ha : (play c (a ++ b)).alive with
  | false => rw [play_dead c _ _ ha, ha]
  | true =>
    obtain ⟨G, hG⟩ : ∃ G, G = a ++ b ++ [f] := ⟨_, rfl⟩
    obtain ⟨Ld, C, u, v, d, q, k⟩ := drop_after hok h0 ha
      (fun Ld C u _ _ => (C ≤ dur a ∧ Ld ≤ dur a) ∨ ((∃ t, u = a ++ t) ∧ Ld ≤ dur a + longest c G + dmax))
      (by
        intro s Ld C u v d
        exact Or.inl ⟨d.cle, d.ldle⟩)
      (by
        intro s b' f' Ld C u v Ld' C' u' v' hz hok' d q d' hle hor
        have hsn := dur_snoc (a ++ b') f'
        obtain ⟨zz, hz⟩ := hz
        have hle' : dur (a ++ b') ≤ dur G := by
          have e : G = a ++ b' ++ ([f'] ++ zz) := by rw [hG, List.append_assoc, hz]; simp
          rw [e, dur_append (a ++ b')]; omega
        have hlt := d.lt' hw0 hle'
        have hfd := hok'.last
        rcases hor with ⟨e1, e2, e3⟩ | ⟨e1, e2, e3, e4, e5⟩
        · rw [e1, e2, e3]; exact q
        · have hu : ∃ t, u' = a ++ t := by
            rcases e1 with e1 | e1
            · exact ⟨b', e1⟩
            · exact ⟨b' ++ [f'], by rw [e1, List.append_assoc]⟩
          right
          refine ⟨hu, ?_⟩
          rcases q with ⟨q1, q2⟩ | ⟨⟨t, ht⟩, q⟩
          · have := d'.ldle
            omega
          · have hs := d.split
            rw [ht, List.append_assoc] at hs
            have hb' := List.append_cancel_left hs
            have hboth : Both (v ++ [f']) := hb t _ zz (by rw [hz, hb']; simp) e2
            rw [if_pos hboth] at e5
            omega)
    cases hd : (play c (a ++ b ++ [f])).alive with
    | false => rfl
    | true =>
      have h3 := ((alive_iff hok ha).1 hd).2.resolve_left h0
      have e : dur (a ++ b ++ [f]) = dur a + dur (b ++ [f]) := by rw [List.append_assoc, dur_append]
      rw [hG] at q
      rcases q with ⟨_, q⟩ | ⟨_, q⟩ <;> omega

/-- **C39**: a session is not ended while it has playback and is complete, or has no drops. Missing for the full statement: if the timeout
is shorter than two windows, only the first 2³² samples are covered (see `C39_wrap_fails`). -/
theorem C39_healthy_partial {c : Cfg} {dmax : Nat} {h : List (Option Fr)} (hs : Sane c dmax h)
    (hp : ∀ a b, frames h = a ++ b → ¬ NoPlayback c a)
    (hq : (∀ f ∈ frames h, f.notComplete = false) ∨ (∀ f ∈ frames h, f.drops = false))
    (hw : 2 * c.window ≤ c.maxDrops ∨ dur (frames h) < m32) : aliveAfter c h = true := by
  have hok := hs.ok
  unfold aliveAfter
  rw [run_play]
  obtain ⟨fs, hfs⟩ : ∃ fs, fs = frames h := ⟨_, rfl⟩
  rw [← hfs] at hok hp hq hw ⊢
  have hlw : ∀ gs, dur gs ≤ dur fs → c.maxDrops ≠ 0 → longest c gs ≤ c.maxDrops := by
    intro gs hg h0
    unfold longest
    have hv := hok.valid
    unfold Cfg.valid at hv
    simp at hv
    have hv := hv.resolve_left h0
    split_ifs
    · exact hv.2
    · rcases hw with hw | hw
      · exact hw
      · exact absurd (Nat.lt_of_le_of_lt hg hw) ‹_›
  have main : ∀ a b, fs = a ++ b → (play c a).alive = true := by
    intro a
    induction a using List.reverseRecOn with
    | nil => intro b _; rfl
    | append_singleton a f ih =>
      intro b e
      have ha := ih ([f] ++ b) (by rw [e, List.append_assoc])
      have hok' : Ok c dmax (a ++ [f]) := by rw [e] at hok; exact hok.prefix
      refine (alive_iff hok' ha).2 ⟨hp _ _ e, ?_⟩
      by_cases h0 : c.maxDrops = 0
      · exact Or.inl h0
      · right
        have hw0 := hok'.wpos h0
        obtain ⟨Ld, C, u, v, d, q, k⟩ := drop_after (a := []) (b := a) hok' h0 ha (fun Ld C _ _ _ => Ld = C ∨ C = 0)
          (by
            intro s Ld C u v d
            right
            have := d.cle
            have e : dur [] = 0 := rfl
            omega)
          (by
            intro s b' f' Ld C u v Ld' C' u' v' hz hok' d q d' hle hor
            rcases hor with ⟨e1, e2, e3⟩ | ⟨e1, e2, e3, e4, e5⟩
            · rw [e1, e2]; exact q
            · left
              have hnb : ¬ Both (v ++ [f']) := by
                rintro ⟨⟨x, hx, hx'⟩, ⟨y, hy, hy'⟩⟩
                obtain ⟨zz, hz⟩ := hz
                have hsub : ∀ g ∈ v ++ [f'], g ∈ fs := by
                  intro g hg
                  have : g ∈ a ++ [f] := by
                    rw [hz]
                    have hs := d.split
                    rw [List.nil_append] at hs
                    rw [hs]
                    simp at hg ⊢
                    tauto
                  rw [e]
                  exact List.mem_append_left _ this
                rcases hq with hq | hq
                · rw [hq x (hsub x hx)] at hx'; cases hx'
                · rw [hq y (hsub y hy)] at hy'; cases hy'
              rw [if_neg hnb] at e5
              omega)
        rw [List.nil_append] at d k
        have hle : dur (a ++ [f]) ≤ dur fs := by rw [e, dur_append (a ++ [f])]; omega
        have hlt := d.lt' (gs := a ++ [f]) hw0 (Nat.le_refl _)
        have := hlw (a ++ [f]) hle h0
        have := d.ldle
        rcases q with q | q <;> omega
  have := main fs [] (by simp)
  exact this

/-- **C39**: once over, a session stays over: reads give nothing. -/
theorem C39_stays_dead {c : Cfg} {h : List (Option Fr)} (hd : aliveAfter c h = false) (h' : List (Option Fr)) :
    aliveAfter c (h ++ h') = false ∧ ∀ r ∈ (run c (run c (St.init c) h).2 h').1, r = false := by
  unfold aliveAfter at hd
  constructor
  · unfold aliveAfter
    rw [run_play] at hd ⊢
    rw [frames_append, play_dead c _ _ hd, hd]
  · revert hd
    generalize (run c (St.init c) h).2 = s
    intro hd
    induction h' with
    | nil => intro r hr; cases hr
    | cons o h' ih =>
      intro r hr
      have e : read c s o = (false, s) := by unfold read; rw [if_pos hd]
      have hr : r ∈ (read c s o).1 :: (run c (read c s o).2 h').1 := hr
      rw [e] at hr
      rcases List.mem_cons.1 hr with hr | hr
      · exact hr
      · exact ih r hr

/-! ## A healthy session that is ended -/

/-- 200 ms at 44100 Hz as the timeout and the window. -/
def wc : Cfg := ⟨0, 8820, 8820, 0⟩

/-- 10 ms of normal playback. -/
def wf : Fr := ⟨441, true, false, false⟩

def wst (n : Nat) : St := ⟨441 * n, 0, 8820 * (n / 20), false, false, false, true⟩

theorem sdiff_small {a b : Nat} (ha : a < b + 10000) (hb : b < a + 10000) : sdiff a b = (a : Int) - b := by
  unfold sdiff
  rw [Int.emod_eq_of_lt (by omega) (by omega)]
  omega

theorem wst_step (n : Nat) (hn : n < 9739140) : feed wc (wst n) wf = wst (n + 1) := by
  have hmod : (441 * n + 441) % m32 = 441 * (n + 1) := by simp only [m32]; omega
  have hdiv : 441 * n / 8820 = n / 20 := by omega
  have hwe : windowEnd wc (wst n) = n / 20 * 8820 + 8820 := by
    unfold windowEnd
    show (441 * n / 8820 * 8820 + 8820) % m32 = _
    rw [hdiv]
    simp only [m32]
    omega
  obtain ⟨k, r, hk, hr, hnk⟩ : ∃ k r, n = 20 * k + r ∧ r < 20 ∧ n / 20 = k := ⟨n / 20, n % 20, by omega, by omega, rfl⟩
  have hsd : sdiff (n / 20 * 8820 + 8820) (441 * (n + 1)) = 8379 - 441 * (r : Int) := by
    rw [sdiff_small (by omega) (by omega), hnk, hk]
    push_cast
    omega
  unfold feed
  have e0 : ((wst n).curr + wf.dur) % m32 = 441 * (n + 1) := hmod
  have eb : ∀ k, updateBlank wc (wst n) wf k = wst n := fun _ => rfl
  rw [e0, eb]
  have eu : updateDrops wc (wst n) wf (441 * (n + 1)) = { wst n with lastDrops := 8820 * ((n + 1) / 20) } := by
    unfold updateDrops
    rw [if_neg (by decide), hwe]
    by_cases hx : sdiff (n / 20 * 8820 + 8820) (441 * (n + 1)) ≤ 0
    · rw [if_pos hx]
      have hx' : r = 19 := by rw [hsd] at hx; omega
      have e1 : 441 * (n + 1) % wc.window = 0 := by show 441 * (n + 1) % 8820 = 0; omega
      have e2 : 441 * (n + 1) = 8820 * ((n + 1) / 20) := by omega
      rw [e2]
      simp [wst, wf]
    · rw [if_neg hx]
      have hx' : (n + 1) / 20 = n / 20 := by rw [hsd] at hx; omega
      rw [hx']
      rfl
  rw [eu]
  have ec : checkDrops wc { wst n with lastDrops := 8820 * ((n + 1) / 20), curr := 441 * (n + 1) } = true := by
    unfold checkDrops
    rw [decide_eq_true_iff]
    right
    show (441 * (n + 1) + m32 - 8820 * ((n + 1) / 20)) % m32 < 8820
    have h1 : (n + 1) / 20 * 20 ≤ n + 1 := by omega
    have h2 : n + 1 < (n + 1) / 20 * 20 + 20 := by omega
    have h3 : 441 * (n + 1) + m32 - 8820 * ((n + 1) / 20) = 441 * (n + 1 - (n + 1) / 20 * 20) + m32 := by omega
    rw [h3, Nat.add_mod_right]
    have := Nat.mod_le (441 * (n + 1 - (n + 1) / 20 * 20)) m32
    omega
  show updateWarm wc { wst n with lastDrops := 8820 * ((n + 1) / 20), curr := 441 * (n + 1), alive := true && checkDrops wc { wst n with lastDrops := 8820 * ((n + 1) / 20), curr := 441 * (n + 1) } && true } = _
  rw [ec]
  rfl

theorem wplay (n : Nat) (hn : n ≤ 9739140) : play wc (List.replicate n wf) = wst n := by
  induction n with
  | zero => rfl
  | succ n ih =>
    rw [List.replicate_succ', play_snoc, ih (by omega), if_pos (show (wst n).alive = true from rfl)]
    exact wst_step n (by omega)

theorem wframes (n : Nat) : frames (List.replicate n (some wf)) = List.replicate n wf := by
  unfold frames
  induction n with
  | zero => rfl
  | succ n ih => rw [List.replicate_succ, List.replicate_succ]; simp [ih]

theorem wdead (n : Nat) (hn : n = 9739140) : aliveAfter wc (List.replicate (n + 20) (some wf)) = false := by
  unfold aliveAfter
  rw [run_play, wframes, ← List.replicate_append_replicate]
  unfold play
  rw [List.foldl_append]
  have := wplay n (by omega)
  unfold play at this
  rw [this, hn]
  decide +kernel

/-- **C39** fails in general: a valid watchdog whose window equals the timeout ends a session of perfectly normal playback after about 27 hours,
when the position wraps: the window in which it wraps is longer than the timeout. -/
theorem C39_wrap_fails : wc.valid = true ∧ ∃ n, (∀ f ∈ frames (List.replicate n (some wf)), f = wf) ∧ aliveAfter wc (List.replicate n (some wf)) = false :=
  ⟨by decide, 9739140 + 20, fun f h => by rw [wframes] at h; exact List.eq_of_mem_replicate h, wdead _ rfl⟩

/-! ## Concrete cases -/

/-- One second without playback, two seconds of choppy playback in windows of 0.3 s, 0.1 s of warm-up, at 1000 Hz. -/
def ec : Cfg := ⟨1000, 2000, 300, 100⟩

def good : Fr := ⟨100, true, false, false⟩
def blankFr : Fr := ⟨100, false, true, false⟩
def choppy : Fr := ⟨100, true, true, true⟩

theorem sane_of (h : List (Option Fr)) (hd : ∀ f ∈ frames h, f.dur ≤ 100) : Sane ec 100 h :=
  ⟨by decide, by decide, by decide, by decide, hd, by decide, by decide, by decide⟩

/-- A session that ends for lack of playback: the hypotheses of `C39_dead_only_if` and `C39_no_playback_dead` hold. -/
example : Sane ec 100 (some good :: List.replicate 9 (some blankFr) ++ [some blankFr]) ∧ aliveAfter ec (some good :: List.replicate 9 (some blankFr)) = true ∧
    aliveAfter ec (some good :: List.replicate 9 (some blankFr) ++ [some blankFr]) = false ∧
    NoPlayback ec (frames (some good :: List.replicate 9 (some blankFr)) ++ [blankFr]) :=
  ⟨sane_of _ (by decide), by decide, by decide, by unfold NoPlayback; decide⟩

/-- A session that ends because it is choppy. -/
example : aliveAfter ec (List.replicate 3 (some good) ++ List.replicate 19 (some choppy)) = true ∧ aliveAfter ec (List.replicate 3 (some good) ++ List.replicate 20 (some choppy)) = false := by decide

theorem choppy_all (n : Nat) : AllChoppy ec (List.replicate n choppy) := by
  intro x y z e hy
  have hne : y ≠ [] := by
    rintro rfl
    have e1 : dur [] = 0 := rfl
    have e2 : ec.window = 300 := rfl
    omega
  obtain ⟨g, ys, rfl⟩ := List.exists_cons_of_ne_nil hne
  have hg : g = choppy := List.eq_of_mem_replicate (n := n) (by rw [e]; simp)
  subst hg
  exact ⟨⟨choppy, by simp, rfl⟩, ⟨choppy, by simp, rfl⟩⟩

/-- The hypotheses of `C39_choppy_dead`. -/
example : Sane ec 100 (List.replicate 24 (some choppy)) ∧ frames (List.replicate 24 (some choppy)) = [] ++ List.replicate 24 choppy ∧
    ec.maxDrops + longest ec (frames (List.replicate 24 (some choppy))) + 100 ≤ dur (List.replicate 24 choppy) :=
  ⟨sane_of _ (by decide), by decide, by decide⟩

/-- The hypotheses of `C39_healthy_partial` for normal playback of any length. -/
example (n : Nat) : Sane ec 100 (List.replicate n (some good)) ∧ (∀ a b, frames (List.replicate n (some good)) = a ++ b → ¬ NoPlayback ec a) ∧
    (∀ f ∈ frames (List.replicate n (some good)), f.notComplete = false) ∧ 2 * ec.window ≤ ec.maxDrops := by
  have hf : frames (List.replicate n (some good)) = List.replicate n good := by
    unfold frames
    induction n with
    | zero => rfl
    | succ n ih => rw [List.replicate_succ, List.replicate_succ]; simp [ih]
  rw [hf]
  refine ⟨sane_of _ ?_, ?_, ?_, by decide⟩
  · rw [hf]; intro f h; rw [List.eq_of_mem_replicate h]; decide
  · intro a b e h
    have hall : ∀ f ∈ a, f = good := fun f h => List.eq_of_mem_replicate (n := n) (by rw [e]; exact List.mem_append_left _ h)
    rcases List.eq_nil_or_concat a with rfl | ⟨a', g, rfl⟩
    · exact absurd h (by unfold NoPlayback; decide)
    · have hg : g = good := hall g (by simp)
      subst hg
      have h2 := h.2
      rw [if_pos (by simp [good]), show a'.concat good = a' ++ [good] from by simp, trailing_snoc, if_pos (show good.notBlank = true from rfl)] at h2
      exact absurd h2 (by decide)
  · intro f h; rw [List.eq_of_mem_replicate h]; rfl

end Verif.Watchdog
