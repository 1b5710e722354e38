import Verif.Watchdog.Spec
import Mathlib.Tactic.SplitIfs
import Mathlib.Tactic.Linarith
import Mathlib.Data.List.Induction

/-!
# Watchdog: invariants
-/

namespace Verif.Watchdog

theorem dur_append (a b : List Fr) : dur (a ++ b) = dur a + dur b := by
  induction a with
  | nil => simp [dur]
  | cons f a ih => show f.dur + dur (a ++ b) = f.dur + dur a + dur b; rw [ih]; omega

theorem dur_single (f : Fr) : dur [f] = f.dur := rfl

theorem dur_snoc (a : List Fr) (f : Fr) : dur (a ++ [f]) = dur a + f.dur := by rw [dur_append, dur_single]

/-- Feed frames until the session is dead. -/
def play (c : Cfg) (fs : List Fr) : St := fs.foldl (fun s f => if s.alive then feed c s f else s) (St.init c)

theorem play_snoc (c : Cfg) (fs : List Fr) (f : Fr) : play c (fs ++ [f]) = if (play c fs).alive then feed c (play c fs) f else play c fs := by
  unfold play
  rw [List.foldl_append]
  rfl

theorem play_dead (c : Cfg) (fs gs : List Fr) (h : (play c fs).alive = false) : play c (fs ++ gs) = play c fs := by
  induction gs using List.reverseRecOn with
  | nil => rw [List.append_nil]
  | append_singleton gs f ih =>
    rw [← List.append_assoc, play_snoc, ih, h, if_neg Bool.false_ne_true]

theorem play_alive_prefix (c : Cfg) (fs gs : List Fr) (h : (play c (fs ++ gs)).alive = true) : (play c fs).alive = true := by
  cases hd : (play c fs).alive with
  | true => rfl
  | false => rw [play_dead c fs gs hd, hd] at h; cases h

/-! ## Fields after a frame -/

section fields
variable (c : Cfg) (s : St) (f : Fr)

theorem updateBlank_curr (n : Nat) : (updateBlank c s f n).curr = s.curr := by unfold updateBlank; split_ifs <;> rfl
theorem updateBlank_lastDrops (n : Nat) : (updateBlank c s f n).lastDrops = s.lastDrops := by unfold updateBlank; split_ifs <;> rfl
theorem updateBlank_fI (n : Nat) : (updateBlank c s f n).fIncomplete = s.fIncomplete := by unfold updateBlank; split_ifs <;> rfl
theorem updateBlank_fD (n : Nat) : (updateBlank c s f n).fDrops = s.fDrops := by unfold updateBlank; split_ifs <;> rfl
theorem updateBlank_alive (n : Nat) : (updateBlank c s f n).alive = s.alive := by unfold updateBlank; split_ifs <;> rfl
theorem updateDrops_lastBlank (n : Nat) : (updateDrops c s f n).lastBlank = s.lastBlank := by unfold updateDrops; split_ifs <;> rfl
theorem updateDrops_inWarm (n : Nat) : (updateDrops c s f n).inWarm = s.inWarm := by unfold updateDrops; split_ifs <;> rfl
theorem updateDrops_alive (n : Nat) : (updateDrops c s f n).alive = s.alive := by unfold updateDrops; split_ifs <;> rfl

theorem feed_curr : (feed c s f).curr = (s.curr + f.dur) % m32 := rfl

theorem feed_lastBlank : (feed c s f).lastBlank = if c.maxBlank = 0 then s.lastBlank else if f.notBlank then (s.curr + f.dur) % m32 else s.lastBlank := by
  show (updateDrops c (updateBlank c s f _) f _).lastBlank = _
  rw [updateDrops_lastBlank]
  unfold updateBlank
  split_ifs <;> rfl

/-- `in_warmup_` when the timeout is checked. -/
def warmNow : Bool := if c.maxBlank = 0 then s.inWarm else if f.notBlank then false else s.inWarm

theorem feed_inWarm : (feed c s f).inWarm = (warmNow c s f && decide ((s.curr + f.dur) % m32 < c.warmup)) := by
  show ((updateDrops c (updateBlank c s f _) f _).inWarm && _) = _
  rw [updateDrops_inWarm]
  unfold updateBlank warmNow
  split_ifs <;> rfl

/-- A window ends. -/
def crosses : Prop := sdiff (windowEnd c s) ((s.curr + f.dur) % m32) ≤ 0

instance : Decidable (crosses c s f) := by unfold crosses; infer_instance

theorem windowEnd_blank (n : Nat) : windowEnd c (updateBlank c s f n) = windowEnd c s := by unfold windowEnd; rw [updateBlank_curr]

theorem feed_lastDrops (h : c.maxDrops ≠ 0) : (feed c s f).lastDrops =
    if crosses c s f then (if (s.fIncomplete || f.notComplete) && (s.fDrops || f.drops) then s.lastDrops else (s.curr + f.dur) % m32) else s.lastDrops := by
  show (updateDrops c (updateBlank c s f _) f _).lastDrops = _
  unfold updateDrops
  rw [if_neg h, updateBlank_lastDrops, updateBlank_fI, updateBlank_fD]
  rw [windowEnd_blank]
  by_cases hx : crosses c s f
  · rw [if_pos hx, if_pos (show sdiff _ _ ≤ 0 from hx)]
  · rw [if_neg hx, if_neg (show ¬ sdiff _ _ ≤ 0 from hx)]

theorem feed_fI (h : c.maxDrops ≠ 0) : (feed c s f).fIncomplete =
    if crosses c s f then (if (s.curr + f.dur) % m32 % c.window = 0 then false else f.notComplete) else (s.fIncomplete || f.notComplete) := by
  show (updateDrops c (updateBlank c s f _) f _).fIncomplete = _
  unfold updateDrops
  rw [if_neg h, updateBlank_lastDrops, updateBlank_fI, updateBlank_fD]
  rw [windowEnd_blank]
  by_cases hx : crosses c s f
  · rw [if_pos hx, if_pos (show sdiff _ _ ≤ 0 from hx)]
  · rw [if_neg hx, if_neg (show ¬ sdiff _ _ ≤ 0 from hx)]

theorem feed_fD (h : c.maxDrops ≠ 0) : (feed c s f).fDrops =
    if crosses c s f then (if (s.curr + f.dur) % m32 % c.window = 0 then false else f.drops) else (s.fDrops || f.drops) := by
  show (updateDrops c (updateBlank c s f _) f _).fDrops = _
  unfold updateDrops
  rw [if_neg h, updateBlank_lastDrops, updateBlank_fI, updateBlank_fD]
  rw [windowEnd_blank]
  by_cases hx : crosses c s f
  · rw [if_pos hx, if_pos (show sdiff _ _ ≤ 0 from hx)]
  · rw [if_neg hx, if_neg (show ¬ sdiff _ _ ≤ 0 from hx)]

theorem feed_alive : (feed c s f).alive =
    (s.alive && decide (c.maxDrops = 0 ∨ ((s.curr + f.dur) % m32 + m32 - (feed c s f).lastDrops) % m32 < c.maxDrops) &&
      decide (c.maxBlank = 0 ∨ warmNow c s f = true ∨ ((s.curr + f.dur) % m32 + m32 - (feed c s f).lastBlank) % m32 < c.maxBlank)) := by
  have e : warmNow c s f = (updateDrops c (updateBlank c s f ((s.curr + f.dur) % m32)) f ((s.curr + f.dur) % m32)).inWarm := by
    rw [updateDrops_inWarm]
    unfold updateBlank warmNow
    split_ifs <;> rfl
  rw [e]
  show ((updateDrops c (updateBlank c s f _) f _).alive && _ && _) = _
  rw [updateDrops_alive, updateBlank_alive]
  rfl

end fields

/-! ## Playback -/

structure BInv (c : Cfg) (dmax : Nat) (fs : List Fr) (s : St) : Prop where
  some : fs.any (·.notBlank) = true → s.inWarm = false ∧ s.lastBlank = (dur fs - dur (trailing fs)) % m32 ∧ dur (trailing fs) ≤ dur fs ∧ dur (trailing fs) < c.maxBlank
  none : fs.any (·.notBlank) = false → s.inWarm = decide (dur fs < c.warmup) ∧ s.lastBlank = c.warmup ∧ (dur fs < c.warmup + c.maxBlank ∨ dur fs < c.warmup + dmax)

theorem trailing_snoc (fs : List Fr) (f : Fr) : trailing (fs ++ [f]) = if f.notBlank then [] else f :: trailing fs := by
  unfold trailing
  rw [List.reverse_append]
  show List.takeWhile _ (f :: fs.reverse) = _
  rw [List.takeWhile_cons]
  cases f.notBlank <;> rfl

theorem dur_trailing (fs : List Fr) : dur (trailing fs) ≤ dur fs := by
  induction fs using List.reverseRecOn with
  | nil => exact Nat.le_refl _
  | append_singleton fs f ih =>
    rw [trailing_snoc, dur_snoc]
    split_ifs
    · exact Nat.zero_le _
    · show f.dur + dur (trailing fs) ≤ _
      omega

theorem mod_sub {a b : Nat} (h : b ≤ a) (hn : a - b < m32) : (a % m32 + m32 - b % m32) % m32 = a - b := by
  simp only [m32] at *
  omega

/-- The check of the playback timeout tells about the frames. -/
theorem blank_step {c : Cfg} {dmax : Nat} {fs : List Fr} {s : St} {f : Fr} (hb : BInv c dmax fs s) (hcurr : s.curr = dur fs % m32) (h0 : c.maxBlank ≠ 0)
    (hd : f.dur ≤ dmax) (hmb : c.maxBlank + dmax ≤ m32) (hw : c.warmup + dmax ≤ m32) (hmax : dmax ≤ 2147483648) (hpos : 0 < dmax) :
    ((warmNow c s f = true ∨ ((s.curr + f.dur) % m32 + m32 - (feed c s f).lastBlank) % m32 < c.maxBlank) ↔ ¬ NoPlayback c (fs ++ [f])) ∧
    (¬ NoPlayback c (fs ++ [f]) → BInv c dmax (fs ++ [f]) (feed c s f)) := by
  have hP : (s.curr + f.dur) % m32 = dur (fs ++ [f]) % m32 := by rw [hcurr, dur_snoc]; simp only [m32]; omega
  have hlb := feed_lastBlank c s f
  rw [if_neg h0] at hlb
  have hwn : warmNow c s f = if f.notBlank then false else s.inWarm := by unfold warmNow; rw [if_neg h0]
  have hiw := feed_inWarm c s f
  have hany : (fs ++ [f]).any (·.notBlank) = (fs.any (·.notBlank) || f.notBlank) := by
    rw [List.any_append]; simp
  have htr := trailing_snoc fs f
  have hdt := dur_trailing (fs ++ [f])
  have hsn := dur_snoc fs f
  have hdl : (fs ++ [f]).dropLast = fs := List.dropLast_concat
  rw [hP] at hlb hiw ⊢
  cases hnb : f.notBlank with
  | true =>
    rw [hnb] at hlb hwn hany htr
    rw [if_pos rfl] at hlb hwn htr
    rw [Bool.or_true] at hany
    have hnp : ¬ NoPlayback c (fs ++ [f]) := by
      rintro ⟨_, h⟩
      rw [if_pos hany, htr] at h
      have : dur [] = 0 := rfl
      omega
    have hmod := mod_sub (a := dur (fs ++ [f])) (b := dur (fs ++ [f])) (Nat.le_refl _) (by simp [m32])
    refine ⟨⟨fun _ => hnp, fun _ => Or.inr ?_⟩, fun _ => ⟨fun _ => ⟨?_, ?_, hdt, ?_⟩, fun h => ?_⟩⟩
    · rw [hlb, hmod]; omega
    · rw [hiw, hwn]; rfl
    · rw [hlb, htr]; rfl
    · rw [htr]; show 0 < _; omega
    · rw [hany] at h; cases h
  | false =>
    rw [hnb] at hlb hwn hany htr
    rw [if_neg Bool.false_ne_true] at hlb hwn htr
    rw [Bool.or_false] at hany
    cases ha : fs.any (·.notBlank) with
    | true =>
      obtain ⟨b1, b2, b3, b4⟩ := hb.some ha
      rw [ha] at hany
      have hdtr : dur (trailing (fs ++ [f])) = f.dur + dur (trailing fs) := by rw [htr]; rfl
      have hmod := mod_sub (a := dur (fs ++ [f])) (b := dur fs - dur (trailing fs)) (by omega) (by simp only [m32] at *; omega)
      have e : dur (fs ++ [f]) - (dur fs - dur (trailing fs)) = dur (trailing (fs ++ [f])) := by omega
      have hnp : NoPlayback c (fs ++ [f]) ↔ c.maxBlank ≤ dur (trailing (fs ++ [f])) := by
        unfold NoPlayback
        rw [if_pos hany]
        exact ⟨fun h => h.2, fun h => ⟨h0, h⟩⟩
      rw [hnp, hlb, b2, hmod, e, hwn, b1]
      refine ⟨⟨fun h => ?_, fun h => Or.inr (by omega)⟩, fun h => ⟨fun _ => ⟨?_, ?_, hdt, by omega⟩, fun h => ?_⟩⟩
      · rcases h with h | h
        · cases h
        · omega
      · rw [hiw, hwn, b1]; rfl
      · rw [hlb, b2]
        congr 1
        omega
      · rw [hany] at h; cases h
    | false =>
      obtain ⟨b1, b2, b3⟩ := hb.none ha
      rw [ha] at hany
      have hnp : NoPlayback c (fs ++ [f]) ↔ c.warmup ≤ dur fs ∧ c.warmup + c.maxBlank ≤ dur (fs ++ [f]) := by
        unfold NoPlayback
        rw [if_neg (by rw [hany]; simp), hdl]
        exact ⟨fun h => h.2, fun h => ⟨h0, h⟩⟩
      have hiw' : ¬ (c.warmup ≤ dur fs ∧ c.warmup + c.maxBlank ≤ dur (fs ++ [f])) → (feed c s f).inWarm = decide (dur (fs ++ [f]) < c.warmup) := by
        intro h
        rw [hiw, hwn, b1]
        by_cases h1 : dur fs < c.warmup
        · have hlt : dur (fs ++ [f]) < m32 := by simp only [m32] at *; omega
          rw [decide_eq_true h1, Bool.true_and, Nat.mod_eq_of_lt hlt]
        · rw [decide_eq_false h1, Bool.false_and, eq_comm, decide_eq_false_iff_not]
          omega
      rw [hnp, hlb, b2, hwn, b1, decide_eq_true_iff]
      constructor
      · by_cases h1 : dur fs < c.warmup
        · exact ⟨fun _ h => absurd h1 (by omega), fun _ => Or.inl h1⟩
        · -- the warm-up is over
          have hwm : c.warmup = c.warmup % m32 := by simp only [m32] at *; omega
          have hmod := mod_sub (a := dur (fs ++ [f])) (b := c.warmup) (by omega) (by simp only [m32] at *; omega)
          rw [← hwm] at hmod
          rw [hmod]
          constructor
          · intro h; omega
          · intro h; right; omega
      · intro h
        refine ⟨fun h' => ?_, fun _ => ⟨hiw' h, hlb.trans b2, ?_⟩⟩
        · rw [hany] at h'; cases h'
        · omega

end Verif.Watchdog
