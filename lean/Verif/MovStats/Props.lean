import Verif.MovStats.Lemmas

/-! # C13: moving statistics -/

namespace Verif.MovStats

theorem sum_run (win : Nat) (hw : 0 < win) (xs : List Int) :
    ∃ s0, State.init win = some s0 ∧
      SumInv (xs.foldl State.add s0) (window win xs) ∧ (xs.foldl State.add s0).win = win := by
  refine ⟨⟨win, fun _ => 0, fun _ => 0, 0, 0, 0, false, [], 0, [], 0⟩,
    by simp [State.init]; omega, ?_⟩
  have key : ∀ (r : List Int),
      SumInv (r.reverse.foldl State.add ⟨win, fun _ => 0, fun _ => 0, 0, 0, 0, false, [], 0, [], 0⟩)
        (window win r.reverse) ∧
      (r.reverse.foldl State.add ⟨win, fun _ => 0, fun _ => 0, 0, 0, 0, false, [], 0, [], 0⟩).win = win := by
    intro r
    induction r with
    | nil =>
      have hnil : window win ([] : List Int).reverse = [] := by simp [window]
      rw [hnil]
      exact ⟨⟨⟨hw, fun _ => ⟨rfl, by simp, by simp⟩, by simp⟩,
        ⟨hw, fun _ => ⟨rfl, by simp, by simp⟩, by simp⟩, rfl, rfl⟩, rfl⟩
    | cons x r ih =>
      rw [List.reverse_cons, List.foldl_append, ← next_window win _ x hw]
      have := ih.1.add x
      rw [ih.2] at this
      exact ⟨this, ih.2⟩
  have := key xs.reverse
  rwa [List.reverse_reverse] at this

/-- **C13** (sum, average, variance). After any sequence of samples the moving sum, the sum of squares,
the average (truncated integer division) and the numerator of the variance are those of the
last `min n win` samples. -/
theorem C13_sum_avg_var (win : Nat) (hw : 0 < win) (xs : List Int) :
    ∃ s0, State.init win = some s0 ∧
      let s := xs.foldl State.add s0
      let W := window win xs
      s.movsum = W.sum ∧ s.count = min xs.length win ∧
      s.avg = (if xs = [] then 0 else W.sum.tdiv ((min xs.length win : Nat) : Int)) ∧
      s.varNum = (min xs.length win : Nat) * (W.map (fun x => x * x)).sum - W.sum * W.sum := by
  obtain ⟨s0, h0, h1, h2⟩ := sum_run win hw xs
  refine ⟨s0, h0, ?_⟩
  intro s W
  have hlen : W.length = min xs.length win := by
    show (window win xs).length = _
    unfold window; rw [List.length_drop]; omega
  have hcount : s.count = min xs.length win := by
    rw [← hlen]
    unfold State.count
    cases hf : s.full with
    | false => simp; exact ((h1.buf.growing hf).1).symm
    | true => simp only [if_true]; exact ((h1.buf.isFull hf).1).symm
  refine ⟨h1.sum, hcount, ?_, ?_⟩
  · unfold State.avg
    rw [hcount]
    by_cases hx : xs = []
    · subst hx; simp
    · have : 0 < xs.length := List.length_pos_iff.mpr hx
      rw [if_neg (by omega), if_neg hx, h1.sum]
  · unfold State.varNum
    rw [hcount, h1.sum, h1.sum2]

/-- **C13** (minimum and maximum; partial). If none of the first `win` samples is zero, the moving
maximum and minimum are the greatest and least of the last `min n win` samples. Missing: zero
samples while the window fills up (`C13_max_fails`). -/
theorem C13_min_max_partial (win : Nat) (hw : 0 < win) (xs : List Int) (hne : xs ≠ [])
    (h0 : 0 ∉ xs.take win) :
    ∃ s0, State.init win = some s0 ∧
      let s := xs.foldl State.add s0
      IsMax (window win xs) s.currMax ∧ IsMin (window win xs) s.currMin ∧
      s.qmax.length ≤ win ∧ s.qmin.length ≤ win := by
  obtain ⟨s0, hs0, _, _⟩ := sum_run win hw []
  refine ⟨s0, hs0, ?_⟩
  have key : ∀ r : List Int, 0 ∉ r.reverse.take win →
      WedgeInv (r.reverse.foldl State.add s0) (window win r.reverse) := by
    intro r
    induction r with
    | nil =>
      intro _
      unfold State.init at hs0
      rw [if_neg (by omega), Option.some.injEq] at hs0
      subst hs0
      have hnil : window win ([] : List Int).reverse = [] := by simp [window]
      rw [hnil]
      exact ⟨rfl, rfl, by simp, by simp⟩
    | cons x r ih =>
      intro hz
      rw [List.reverse_cons] at hz
      rw [List.reverse_cons, List.foldl_append, ← next_window win _ x hw]
      have hz' : 0 ∉ r.reverse.take win := by
        intro hc
        apply hz
        rw [List.take_append]
        exact List.mem_append_left _ hc
      obtain ⟨s1, hs1, a, b⟩ := sum_run win hw r.reverse
      rw [hs0] at hs1
      obtain rfl := Option.some.inj hs1
      have := (ih hz').add a x (by
        intro hlt hc
        apply hz'
        rw [b] at hlt
        unfold window at hlt hc
        rw [List.length_drop] at hlt
        have h1 : r.reverse.length - win = 0 := by omega
        rw [h1, List.drop_zero] at hc
        rw [List.take_of_length_le (by omega)]
        exact hc)
      rw [b] at this
      exact this
  have hk := key xs.reverse (by simpa using h0)
  rw [List.reverse_reverse] at hk
  have hwne : window win xs ≠ [] := by
    intro hc
    have := congrArg List.length hc
    unfold window at this
    rw [List.length_drop] at this
    have : 0 < xs.length := List.length_pos_iff.mpr hne
    simp at *; omega
  have hwl : (window win xs).length ≤ win := by
    unfold window; rw [List.length_drop]; omega
  have hm := wedge_head total_max (hk.max hwne)
  have hn := wedge_head total_min (hk.min hwne)
  refine ⟨⟨hm.1, fun x hx => by simpa using hm.2 x hx⟩, ⟨hn.1, fun x hx => by simpa using hn.2 x hx⟩, ?_, ?_⟩
  · rw [hk.qmax]; exact Nat.le_trans (wedge_length _) hwl
  · rw [hk.qmin]; exact Nat.le_trans (wedge_length _) hwl

example := C13_sum_avg_var 3 (by decide) [5, 1, 0, 2, -4]
example := C13_min_max_partial 3 (by decide) [5, 1, 2, 0, 2, -4] (by decide) (by decide)

/-- **C13 fails**: with window 3, after the samples 0 and -1 the reported maximum is -1 (the
value 0, still in the window, is taken for the zero that fills the empty buffer). -/
theorem C13_max_fails :
    ∃ s0, State.init 3 = some s0 ∧
      (([0, -1] : List Int).foldl State.add s0).currMax = -1 ∧ window 3 [0, -1] = [0, -1] :=
  ⟨_, rfl, by decide, by decide⟩

/-- **C13 fails** for the window extension: after extending a window of 2 to 4 and adding three
samples, the statistics cover two samples (wrapping at the old length), not three. -/
theorem C13_extend_window_fails :
    ∃ s0 s1, State.init 2 = some s0 ∧ s0.extendWin 4 = some s1 ∧
      (([10, 20, 30] : List Int).foldl State.add s1).movsum = 50 ∧
      (([10, 20, 30] : List Int).foldl State.add s1).count = 2 :=
  ⟨_, _, rfl, rfl, by decide, by decide⟩

end Verif.MovStats
