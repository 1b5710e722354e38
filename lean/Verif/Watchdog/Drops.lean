import Verif.Watchdog.Lemmas

/-!
# Watchdog: windows
-/

namespace Verif.Watchdog

/-- Begin of the window that contains a position. -/
def ws (w P : Nat) : Nat := P - P % m32 % w

theorem ws_le (w P : Nat) : ws w P ≤ P := Nat.sub_le _ _

theorem ws_add {w : Nat} (P : Nat) : ws w P + P % m32 % w = P := by
  unfold ws
  have h1 : P % m32 % w ≤ P % m32 := Nat.mod_le _ _
  have h2 : P % m32 ≤ P := Nat.mod_le _ _
  omega

theorem crosses_iff {c : Cfg} {s : St} {f : Fr} {P : Nat} (hc : s.curr = P % m32) (hw0 : 0 < c.window) (hw : c.window < 2147483648) (hd : f.dur ≤ 2147483648) :
    crosses c s f ↔ c.window ≤ P % m32 % c.window + f.dur := by
  unfold crosses windowEnd sdiff
  rw [hc]
  have h1 : P % m32 / c.window * c.window + P % m32 % c.window = P % m32 := Nat.div_add_mod' _ _
  have h2 : P % m32 % c.window < c.window := Nat.mod_lt _ hw0
  have h3 : P % m32 < m32 := Nat.mod_lt _ (by simp [m32])
  generalize P % m32 / c.window * c.window = q at *
  generalize P % m32 % c.window = t at *
  generalize P % m32 = p at *
  simp only [m32] at *
  omega

/-- The state of the drop check. `C`: where the last window was closed; `u`: the frames that are no longer counted, `v`: those that are. -/
structure DInv (c : Cfg) (fs : List Fr) (s : St) (Ld C : Nat) (u v : List Fr) : Prop where
  split : fs = u ++ v
  fI : s.fIncomplete = v.any (·.notComplete)
  fD : s.fDrops = v.any (·.drops)
  ule : dur u ≤ ws c.window (dur fs)
  ld : s.lastDrops = Ld % m32
  ldle : Ld ≤ dur fs
  cle : C ≤ dur fs
  near : ws c.window (dur fs) ≤ C ∨ (ws c.window (dur fs) % m32 = 0 ∧ ws c.window (dur fs) < C + c.window)

theorem DInv.lt {c : Cfg} {fs : List Fr} {s : St} {Ld C : Nat} {u v : List Fr} (h : DInv c fs s Ld C u v) (hw0 : 0 < c.window) : dur fs < C + 2 * c.window := by
  have h1 := ws_add (w := c.window) (dur fs)
  have h2 : dur fs % m32 % c.window < c.window := Nat.mod_lt _ hw0
  rcases h.near with h | ⟨_, h⟩ <;> omega

theorem DInv.init (c : Cfg) : DInv c [] (St.init c) 0 0 [] [] :=
  ⟨rfl, rfl, rfl, Nat.zero_le _, rfl, Nat.le_refl _, Nat.le_refl _, Or.inl (ws_le _ _)⟩

theorem both_iff (v : List Fr) : (v.any (·.notComplete) && v.any (·.drops)) = true ↔ Both v := by
  rw [Bool.and_eq_true, List.any_eq_true, List.any_eq_true]
  rfl

theorem mod_le_sub {x w : Nat} (h : w ≤ x) (hw : 0 < w) : x % w ≤ x - w := by
  have h1 := Nat.div_add_mod x w
  have h2 : 1 ≤ x / w := (Nat.le_div_iff_mul_le hw).2 (by omega)
  have h3 : w * 1 ≤ w * (x / w) := Nat.mul_le_mul_left w h2
  omega

/-- A frame that does not close the window. -/
theorem stay {c : Cfg} {fs : List Fr} {s : St} {Ld C : Nat} {u v : List Fr} {f : Fr} (h : DInv c fs s Ld C u v) (h0 : c.maxDrops ≠ 0)
    (hc : s.curr = dur fs % m32) (hw0 : 0 < c.window) (hw : c.window < 2147483648) (hd : f.dur ≤ 2147483648) (hx : ¬ crosses c s f) :
    DInv c (fs ++ [f]) (feed c s f) Ld C u (v ++ [f]) := by
  have hiff := crosses_iff (P := dur fs) hc hw0 hw hd
  have hlt : dur fs % m32 % c.window + f.dur < c.window := by
    rw [hiff] at hx; omega
  have hsn := dur_snoc fs f
  have hws := ws_add (w := c.window) (dur fs)
  have key : ws c.window (dur (fs ++ [f])) = ws c.window (dur fs) ∨
      (ws c.window (dur (fs ++ [f])) % m32 = 0 ∧ ws c.window (dur fs) ≤ ws c.window (dur (fs ++ [f])) ∧
        ws c.window (dur (fs ++ [f])) ≤ dur (fs ++ [f]) ∧ ws c.window (dur fs) % m32 ≠ 0) := by
    have hp : dur fs % m32 < m32 := Nat.mod_lt _ (by simp [m32])
    have htp : dur fs % m32 % c.window ≤ dur fs % m32 := Nat.mod_le _ _
    by_cases hwrap : dur fs % m32 + f.dur < m32
    · left
      have e1 : dur (fs ++ [f]) % m32 = dur fs % m32 + f.dur := by rw [hsn]; simp only [m32] at *; omega
      have e2 : dur (fs ++ [f]) % m32 % c.window = dur fs % m32 % c.window + f.dur := by
        rw [e1, Nat.add_mod, ← Nat.mod_eq_of_lt hlt]
        have hf : f.dur % c.window = f.dur := Nat.mod_eq_of_lt (by omega)
        rw [hf]
      have := ws_add (w := c.window) (dur (fs ++ [f]))
      rw [e2] at this
      omega
    · right
      have e1 : dur (fs ++ [f]) % m32 = dur fs % m32 + f.dur - m32 := by rw [hsn]; simp only [m32] at *; omega
      have e2 : dur (fs ++ [f]) % m32 % c.window = dur fs % m32 + f.dur - m32 := by
        rw [e1]; exact Nat.mod_eq_of_lt (by omega)
      have h3 := ws_add (w := c.window) (dur (fs ++ [f]))
      rw [e2] at h3
      generalize dur fs % m32 % c.window = t at *
      generalize ws c.window (dur (fs ++ [f])) = a at *
      generalize ws c.window (dur fs) = b at *
      generalize dur fs = P at *
      simp only [m32] at *
      omega
  have hmono : ws c.window (dur fs) ≤ ws c.window (dur (fs ++ [f])) := by rcases key with k | k <;> omega
  refine ⟨by rw [h.split, List.append_assoc], ?_, ?_, by have := h.ule; omega, ?_, by have := h.ldle; omega, by have := h.cle; omega, ?_⟩
  · rw [feed_fI c s f h0, if_neg hx, h.fI, List.any_append]; simp
  · rw [feed_fD c s f h0, if_neg hx, h.fD, List.any_append]; simp
  · rw [feed_lastDrops c s f h0, if_neg hx, h.ld]
  · rcases key with k | ⟨k1, k2, k3, k4⟩
    · rw [k]; exact h.near
    · right
      refine ⟨k1, ?_⟩
      rcases h.near with n | ⟨n, _⟩
      · omega
      · exact absurd n k4

/-- A frame that closes the window. -/
theorem close {c : Cfg} {fs : List Fr} {s : St} {Ld C : Nat} {u v : List Fr} {f : Fr} (h : DInv c fs s Ld C u v) (h0 : c.maxDrops ≠ 0)
    (hc : s.curr = dur fs % m32) (hw0 : 0 < c.window) (hw : c.window < 2147483648) (hd : f.dur ≤ 2147483648) (hx : crosses c s f) :
    c.window ≤ dur (v ++ [f]) ∧ 0 < f.dur ∧
    ∃ u' v', (u' = fs ∨ u' = fs ++ [f]) ∧
      DInv c (fs ++ [f]) (feed c s f) (if Both (v ++ [f]) then Ld else dur (fs ++ [f])) (dur (fs ++ [f])) u' v' := by
  have hiff := crosses_iff (P := dur fs) hc hw0 hw hd
  have hge : c.window ≤ dur fs % m32 % c.window + f.dur := hiff.1 hx
  have hsn := dur_snoc fs f
  have hws := ws_add (w := c.window) (dur fs)
  have htw : dur fs % m32 % c.window < c.window := Nat.mod_lt _ hw0
  have hnext : (s.curr + f.dur) % m32 = dur (fs ++ [f]) % m32 := by rw [hc, hsn]; simp only [m32]; omega
  have hu := h.ule
  have hspl : dur fs = dur u + dur v := by rw [← dur_append, ← h.split]
  have hle : ws c.window (dur (fs ++ [f])) ≤ dur (fs ++ [f]) := ws_le _ _
  refine ⟨by rw [dur_snoc]; omega, by omega, ?_⟩
  have hb : ((s.fIncomplete || f.notComplete) && (s.fDrops || f.drops)) = true ↔ Both (v ++ [f]) := by
    rw [← both_iff, List.any_append, List.any_append, h.fI, h.fD]; simp
  have hld : (feed c s f).lastDrops = (if Both (v ++ [f]) then Ld else dur (fs ++ [f])) % m32 := by
    rw [feed_lastDrops c s f h0, if_pos hx]
    by_cases q : Both (v ++ [f])
    · rw [if_pos (hb.2 q), if_pos q, h.ld]
    · rw [if_neg (fun k => q (hb.1 k)), if_neg q, hnext]
  have hldle : (if Both (v ++ [f]) then Ld else dur (fs ++ [f])) ≤ dur (fs ++ [f]) := by
    have := h.ldle
    split_ifs <;> omega
  by_cases ha : dur (fs ++ [f]) % m32 % c.window = 0
  · refine ⟨fs ++ [f], [], Or.inr rfl, by simp, ?_, ?_, ?_, hld, hldle, Nat.le_refl _, Or.inl hle⟩
    · rw [feed_fI c s f h0, if_pos hx, if_pos (by rw [hnext]; exact ha)]; rfl
    · rw [feed_fD c s f h0, if_pos hx, if_pos (by rw [hnext]; exact ha)]; rfl
    · have := ws_add (w := c.window) (dur (fs ++ [f])); omega
  · refine ⟨fs, [f], Or.inl rfl, rfl, ?_, ?_, ?_, hld, hldle, Nat.le_refl _, Or.inl hle⟩
    · rw [feed_fI c s f h0, if_pos hx, if_neg (by rw [hnext]; exact ha)]; simp
    · rw [feed_fD c s f h0, if_pos hx, if_neg (by rw [hnext]; exact ha)]; simp
    · have h3 := ws_add (w := c.window) (dur (fs ++ [f]))
      have hp : dur fs % m32 < m32 := Nat.mod_lt _ (by simp [m32])
      have hsmall : dur (fs ++ [f]) % m32 % c.window ≤ f.dur := by
        by_cases hwrap : dur fs % m32 + f.dur < m32
        · have e1 : dur (fs ++ [f]) % m32 = dur fs % m32 + f.dur := by rw [hsn]; simp only [m32] at *; omega
          have e2 : (dur fs % m32 + f.dur) % c.window = (dur fs % m32 % c.window + f.dur) % c.window := by
            rw [Nat.mod_add_mod]
          rw [e1, e2]
          have := mod_le_sub hge hw0
          omega
        · have e1 : dur (fs ++ [f]) % m32 = dur fs % m32 + f.dur - m32 := by rw [hsn]; simp only [m32] at *; omega
          have := Nat.mod_le (dur (fs ++ [f]) % m32) c.window
          omega
      omega

end Verif.Watchdog
