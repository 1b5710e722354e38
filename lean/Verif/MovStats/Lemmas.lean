import Verif.MovStats.Spec

namespace Verif.MovStats

/-- Monotonic wedge of a window: the elements that are not worse than any later one. `ge a b`
means that `a` is at least as good as `b`. -/
def wedge (ge : Int → Int → Bool) : List Int → List Int
  | [] => []
  | x :: xs => if xs.all (ge x) then x :: wedge ge xs else wedge ge xs

/-- What the proofs need about the order. -/
structure Total (ge worse : Int → Int → Bool) : Prop where
  worse_iff : ∀ a b, worse a b = !ge a b
  refl : ∀ a, ge a a = true
  trans : ∀ a b c, ge a b = true → ge b c = true → ge a c = true
  total : ∀ a b, ge a b = true ∨ ge b a = true
  antisymm : ∀ a b, ge a b = true → ge b a = true → a = b

variable {ge worse : Int → Int → Bool}

theorem wedge_mem {l : List Int} {y : Int} (h : y ∈ wedge ge l) : y ∈ l := by
  induction l with
  | nil => simp [wedge] at h
  | cons x xs ih =>
    unfold wedge at h
    split at h
    · rcases List.mem_cons.mp h with h | h
      · simp [h]
      · simp [ih h]
    · simp [ih h]

theorem wedge_length (l : List Int) : (wedge ge l).length ≤ l.length := by
  induction l with
  | nil => simp [wedge]
  | cons x xs ih => unfold wedge; split <;> simp <;> omega

theorem wedge_ne_nil {l : List Int} (h : l ≠ []) : wedge ge l ≠ [] := by
  induction l with
  | nil => exact absurd rfl h
  | cons x xs ih =>
    unfold wedge
    split
    · simp
    · rename_i hall
      exact ih (by rintro rfl; simp at hall)

/-- The head of the wedge is the best element of the window. -/
theorem wedge_head (T : Total ge worse) {l : List Int} {m : Int} (h : (wedge ge l).head? = some m) :
    m ∈ l ∧ ∀ x ∈ l, ge m x = true := by
  induction l with
  | nil => simp [wedge] at h
  | cons x xs ih =>
    unfold wedge at h
    split at h
    · rename_i hall
      simp only [List.head?_cons, Option.some.injEq] at h
      subst h
      rw [List.all_eq_true] at hall
      refine ⟨by simp, fun y hy => ?_⟩
      rcases List.mem_cons.mp hy with rfl | hy
      · exact T.refl _
      · exact hall y hy
    · rename_i hall
      obtain ⟨h1, h2⟩ := ih h
      refine ⟨by simp [h1], fun y hy => ?_⟩
      rcases List.mem_cons.mp hy with rfl | hy
      · simp only [List.all_eq_true, Classical.not_forall, Bool.not_eq_true] at hall
        obtain ⟨z, hz, hzz⟩ := hall
        have := (T.total y z).resolve_left (by simp [hzz])
        exact T.trans _ _ _ (h2 z hz) this
      · exact h2 y hy

/-- Appending: everything worse than the new element leaves the wedge. -/
theorem wedge_append (l : List Int) (x : Int) :
    wedge ge (l ++ [x]) = (wedge ge l).filter (fun y => ge y x) ++ [x] := by
  induction l with
  | nil => simp [wedge]
  | cons y l ih =>
    simp only [List.cons_append, wedge]
    by_cases h1 : l.all (ge y) = true
    · by_cases h2 : ge y x = true
      · rw [if_pos (by simp [List.all_append, h1, h2]), if_pos h1, ih]
        simp [h2]
      · rw [if_neg (by simp [List.all_append, h2]), if_pos h1, ih]
        simp [h2]
    · rw [if_neg (by simp [List.all_append, h1]), if_neg h1, ih]

/-- Elements of the wedge are ordered from best to worst. -/
theorem wedge_sorted (l : List Int) : (wedge ge l).Pairwise (fun a b => ge a b = true) := by
  induction l with
  | nil => simp [wedge]
  | cons x xs ih =>
    unfold wedge
    split
    · rename_i hall
      rw [List.all_eq_true] at hall
      exact List.pairwise_cons.mpr ⟨fun y hy => hall y (wedge_mem hy), ih⟩
    · exact ih

/-- On an ordered queue the pop loop is a filter. -/
theorem popBackWhile_eq (T : Total ge worse) (x : Int) (q : List Int)
    (h : q.Pairwise (fun a b => ge a b = true)) :
    popBackWhile (fun b => worse b x) q = q.filter (fun y => ge y x) := by
  unfold popBackWhile
  have key : ∀ r : List Int, r.Pairwise (fun a b => ge b a = true) →
      r.dropWhile (fun b => worse b x) = r.filter (fun y => ge y x) := by
    intro r
    induction r with
    | nil => simp
    | cons y r ih =>
      intro hr
      rw [List.pairwise_cons] at hr
      simp only [List.dropWhile_cons, List.filter_cons, T.worse_iff]
      by_cases hy : ge y x = true
      · simp only [hy, Bool.not_true, Bool.false_eq_true, if_false, if_true, List.cons.injEq, true_and]
        symm
        rw [List.filter_eq_self]
        intro z hz
        exact T.trans _ _ _ (hr.1 z hz) hy
      · have hy' : ge y x = false := by simpa using hy
        simp only [hy', Bool.not_false, if_true, Bool.false_eq_true, if_false]
        have := ih hr.2
        simp only [T.worse_iff] at this
        exact this
  rw [key _ (by rw [List.pairwise_reverse]; exact h), List.filter_reverse, List.reverse_reverse]

/-- Removing the oldest element of the window: the head of the wedge goes exactly if it has
the same value. -/
theorem wedge_pop (T : Total ge worse) (w : Int) (l : List Int) :
    wedge ge l = if (wedge ge (w :: l)).head? = some w then (wedge ge (w :: l)).tail
      else wedge ge (w :: l) := by
  by_cases hall : l.all (ge w) = true
  · simp [wedge, hall]
  · have hw : wedge ge (w :: l) = wedge ge l := by simp [wedge, hall]
    rw [hw]
    rw [if_neg]
    intro hh
    have := (wedge_head T hh).2
    exact hall (by rw [List.all_eq_true]; exact this)

/-- One `slide` step when the outgoing value is the oldest element of a full window. -/
theorem slide_full (T : Total ge worse) (w : Int) (l : List Int) (curr x : Int)
    (hc : (wedge ge (w :: l)).head? = some curr) :
    let r := slide worse (wedge ge (w :: l)) curr x w
    r.1 = wedge ge (l ++ [x]) ∧ (wedge ge (l ++ [x])).head? = some r.2 := by
  intro r
  have hr : r = slide worse (wedge ge (w :: l)) curr x w := rfl
  unfold slide at hr
  rw [if_neg (wedge_ne_nil (by simp))] at hr
  have hpop := wedge_pop T w l
  have hsort := wedge_sorted (ge := ge) l
  rw [wedge_append]
  by_cases hh : (wedge ge (w :: l)).head? = some w
  · rw [if_pos hh] at hpop
    rw [if_pos hh] at hr
    simp only at hr
    rw [← hpop, popBackWhile_eq T x _ hsort] at hr
    rw [hr]
    refine ⟨rfl, ?_⟩
    simp only
    cases hf : (wedge ge l).filter (fun y => ge y x) with
    | nil => simp
    | cons y ys =>
      simp only [List.cons_append, List.head?_cons, reduceCtorEq, if_false]
      cases hwl : wedge ge l with
      | nil => rw [hwl] at hf; simp at hf
      | cons z zs =>
        rw [hwl] at hf hsort
        simp only [List.head?_cons]
        rw [List.filter_cons] at hf
        split at hf
        · simp only [List.cons.injEq] at hf; rw [hf.1]
        · rename_i hzx
          exfalso
          have hy : y ∈ zs.filter (fun y => ge y x) := by rw [hf]; simp
          rw [List.mem_filter] at hy
          exact hzx (T.trans _ _ _ ((List.pairwise_cons.mp hsort).1 y hy.1) hy.2)
  · rw [if_neg hh] at hpop
    rw [if_neg hh] at hr
    simp only at hr
    rw [← hpop, popBackWhile_eq T x _ hsort] at hr
    rw [← hpop] at hc
    rw [hr]
    refine ⟨rfl, ?_⟩
    simp only
    cases hf : (wedge ge l).filter (fun y => ge y x) with
    | nil => simp
    | cons y ys =>
      simp only [List.cons_append, List.head?_cons, reduceCtorEq, if_false]
      cases hwl : wedge ge l with
      | nil => rw [hwl] at hf; simp at hf
      | cons z zs =>
        rw [hwl] at hf hsort hc
        simp only [List.head?_cons] at hc
        rw [List.filter_cons] at hf
        split at hf
        · simp only [List.cons.injEq] at hf; rw [← hf.1]; exact hc
        · rename_i hzx
          exfalso
          have hy : y ∈ zs.filter (fun y => ge y x) := by rw [hf]; simp
          rw [List.mem_filter] at hy
          exact hzx (T.trans _ _ _ ((List.pairwise_cons.mp hsort).1 y hy.1) hy.2)

/-- One `slide` step while the window is not full and the outgoing value does not occur in it. -/
theorem slide_grow (T : Total ge worse) (l : List Int) (curr x w : Int)
    (hc : l ≠ [] → (wedge ge l).head? = some curr) (hw : w ∉ l) :
    let r := slide worse (wedge ge l) curr x w
    r.1 = wedge ge (l ++ [x]) ∧ (wedge ge (l ++ [x])).head? = some r.2 := by
  by_cases hl : l = []
  · subst hl; simp [wedge, slide]
  · intro r
    have hr : r = slide worse (wedge ge l) curr x w := rfl
    have hc := hc hl
    unfold slide at hr
    have hsort := wedge_sorted (ge := ge) l
    rw [if_neg (wedge_ne_nil hl), if_neg (by
      intro hh
      exact hw (wedge_head T hh).1)] at hr
    simp only at hr
    rw [popBackWhile_eq T x _ hsort] at hr
    rw [wedge_append, hr]
    refine ⟨rfl, ?_⟩
    simp only
    cases hf : (wedge ge l).filter (fun y => ge y x) with
    | nil => simp
    | cons y ys =>
      simp only [List.cons_append, List.head?_cons, reduceCtorEq, if_false]
      cases hwl : wedge ge l with
      | nil => rw [hwl] at hf; simp at hf
      | cons z zs =>
        rw [hwl] at hf hsort hc
        simp only [List.head?_cons] at hc
        rw [List.filter_cons] at hf
        split at hf
        · simp only [List.cons.injEq] at hf; rw [← hf.1]; exact hc
        · rename_i hzx
          exfalso
          have hy : y ∈ zs.filter (fun y => ge y x) := by rw [hf]; simp
          rw [List.mem_filter] at hy
          exact hzx (T.trans _ _ _ ((List.pairwise_cons.mp hsort).1 y hy.1) hy.2)

/-- The orders for maximum and minimum. -/
theorem total_max : Total (fun a b => decide (b ≤ a)) (fun b x => decide (b < x)) where
  worse_iff a b := by rw [← decide_not, decide_eq_decide]; omega
  refl a := by simp
  trans a b c h1 h2 := by simp at *; omega
  total a b := by simp; omega
  antisymm a b h1 h2 := by simp at *; omega

theorem total_min : Total (fun a b => decide (a ≤ b)) (fun b x => decide (b > x)) where
  worse_iff a b := by rw [← decide_not, decide_eq_decide]; omega
  refl a := by simp
  trans a b c h1 h2 := by simp at *; omega
  total a b := by simp; omega
  antisymm a b h1 h2 := by simp at *; omega

/-- Ring buffer content: the window `W`, oldest first. -/
structure Buf (win : Nat) (f : Nat → Int) (idx : Nat) (full : Bool) (W : List Int) : Prop where
  idx_lt : idx < win
  growing : full = false → W.length = idx ∧ (∀ j (h : j < W.length), f j = W[j]) ∧
    ∀ j, idx ≤ j → f j = 0
  isFull : full = true → W.length = win ∧ ∀ j (h : j < W.length), f ((idx + j) % win) = W[j]

theorem mod_wrap {x n : Nat} (h : x < 2 * n) : x % n = if x < n then x else x - n := by
  split
  · exact Nat.mod_eq_of_lt ‹_›
  · rw [Nat.mod_eq_sub_mod (by omega), Nat.mod_eq_of_lt (by omega)]

/-- The next window. -/
def next (win : Nat) (W : List Int) (x : Int) : List Int :=
  if W.length < win then W ++ [x] else W.tail ++ [x]

theorem Buf.add {win : Nat} {f : Nat → Int} {idx : Nat} {full : Bool} {W : List Int}
    (h : Buf win f idx full W) (x : Int) :
    Buf win (upd f idx x) (if idx + 1 = win then 0 else idx + 1)
      (if idx + 1 = win then true else full) (next win W x) := by
  have hlt := h.idx_lt
  cases full with
  | false =>
    obtain ⟨h1, h2, h3⟩ := h.growing rfl
    have hn : next win W x = W ++ [x] := by unfold next; rw [if_pos (by omega)]
    rw [hn]
    by_cases hw : idx + 1 = win
    · rw [if_pos hw, if_pos hw]
      refine ⟨by omega, by simp, fun _ => ⟨by simp; omega, fun j hj => ?_⟩⟩
      simp only [List.length_append, List.length_singleton] at hj
      rw [Nat.zero_add, Nat.mod_eq_of_lt (by omega)]
      unfold upd
      by_cases hj' : j < W.length
      · rw [if_neg (by omega), List.getElem_append_left hj', h2 j hj']
      · have : j = W.length := by omega
        subst this
        simp [h1]
    · rw [if_neg hw, if_neg hw]
      refine ⟨by omega, fun _ => ⟨by simp; omega, fun j hj => ?_, fun j hj => ?_⟩, by simp⟩
      · simp only [List.length_append, List.length_singleton] at hj
        unfold upd
        by_cases hj' : j < W.length
        · rw [if_neg (by omega), List.getElem_append_left hj', h2 j hj']
        · have : j = W.length := by omega
          subst this
          simp [h1]
      · unfold upd
        rw [if_neg (by omega)]
        exact h3 j (by omega)
  | true =>
    obtain ⟨h1, h2⟩ := h.isFull rfl
    have hn : next win W x = W.tail ++ [x] := by unfold next; rw [if_neg (by omega)]
    rw [hn]
    have hfull : (if idx + 1 = win then true else true) = true := by simp
    rw [hfull]
    refine ⟨by split <;> omega, by simp, fun _ => ⟨by simp; omega, fun j hj => ?_⟩⟩
    simp only [List.length_append, List.length_tail, List.length_singleton] at hj
    unfold upd
    rw [mod_wrap (by split <;> omega)]
    by_cases hj' : j < W.tail.length
    · rw [List.getElem_append_left hj', List.getElem_tail, ← h2 (j + 1) (by simp at hj'; omega)]
      rw [List.length_tail] at hj'
      rw [mod_wrap (x := idx + (j + 1)) (by omega)]
      rw [if_neg (by split <;> split <;> omega)]
      congr 1
      split <;> split <;> split <;> omega
    · rw [List.length_tail] at hj'
      rw [if_pos (by split <;> split <;> omega)]
      rw [List.getElem_append_right (by rw [List.length_tail]; omega)]
      simp

/-- The outgoing value. -/
theorem Buf.old {win : Nat} {f : Nat → Int} {idx : Nat} {full : Bool} {W : List Int}
    (h : Buf win f idx full W) :
    (W.length < win ∧ f idx = 0) ∨ (∃ w l, W = w :: l ∧ W.length = win ∧ f idx = w) := by
  cases full with
  | false =>
    obtain ⟨h1, h2, h3⟩ := h.growing rfl
    exact Or.inl ⟨by have := h.idx_lt; omega, h3 idx (Nat.le_refl _)⟩
  | true =>
    obtain ⟨h1, h2⟩ := h.isFull rfl
    right
    cases W with
    | nil => have := h.idx_lt; simp at h1; omega
    | cons w l =>
      refine ⟨w, l, rfl, h1, ?_⟩
      have := h2 0 (by simp)
      rw [Nat.add_zero, Nat.mod_eq_of_lt h.idx_lt] at this
      simpa using this

theorem next_window (win : Nat) (xs : List Int) (x : Int) (hw : 0 < win) :
    next win (window win xs) x = window win (xs ++ [x]) := by
  unfold next window
  rw [List.length_drop, List.length_append, List.length_singleton]
  by_cases h : xs.length < win
  · rw [if_pos (by omega)]
    have h1 : xs.length - win = 0 := by omega
    have h2 : xs.length + 1 - win = 0 := by omega
    rw [h1, h2]; simp
  · rw [if_neg (by omega), List.tail_drop]
    have h1 : xs.length + 1 - win = xs.length - win + 1 := by omega
    rw [h1, List.drop_append_of_le_length (by omega)]

/-- Sum part of the state invariant. -/
structure SumInv (s : State) (W : List Int) : Prop where
  buf : Buf s.win s.buf s.idx s.full W
  buf2 : Buf s.win s.buf2 s.idx s.full (W.map (fun x => x * x))
  sum : s.movsum = W.sum
  sum2 : s.movsum2 = (W.map (fun x => x * x)).sum

theorem SumInv.add {s : State} {W : List Int} (h : SumInv s W) (x : Int) :
    SumInv (s.add x) (next s.win W x) := by
  have hb := h.buf.add x
  have hb2 := h.buf2.add (x * x)
  have hmap : (next s.win W x).map (fun x => x * x) =
      next s.win (W.map (fun x => x * x)) (x * x) := by
    unfold next; rw [List.length_map]; split <;> simp [List.map_tail]
  refine ⟨hb, by rw [hmap]; exact hb2, ?_, ?_⟩
  · show s.movsum + (x - s.buf s.idx) = _
    rw [h.sum]
    unfold next
    rcases h.buf.old with ⟨h1, h2⟩ | ⟨w, l, rfl, h1, h2⟩
    · rw [if_pos h1, h2]; simp
    · rw [if_neg (by omega), h2]; simp; omega
  · show s.movsum2 + (x * x - s.buf2 s.idx) = _
    rw [h.sum2, hmap]
    unfold next
    rcases h.buf2.old with ⟨h1, h2⟩ | ⟨w, l, hw, h1, h2⟩
    · rw [if_pos h1, h2]; simp
    · rw [if_neg (by omega), h2, hw]; simp; omega

/-- Wedge part of the state invariant. -/
structure WedgeInv (s : State) (W : List Int) : Prop where
  qmax : s.qmax = wedge (fun a b => decide (b ≤ a)) W
  qmin : s.qmin = wedge (fun a b => decide (a ≤ b)) W
  max : W ≠ [] → (wedge (fun a b => decide (b ≤ a)) W).head? = some s.currMax
  min : W ≠ [] → (wedge (fun a b => decide (a ≤ b)) W).head? = some s.currMin

theorem WedgeInv.add {s : State} {W : List Int} (hs : SumInv s W) (h : WedgeInv s W) (x : Int)
    (h0 : W.length < s.win → 0 ∉ W) : WedgeInv (s.add x) (next s.win W x) := by
  unfold next
  rcases hs.buf.old with ⟨h1, h2⟩ | ⟨w, l, hw, h1, h2⟩
  · rw [if_pos h1]
    have a := slide_grow total_max W s.currMax x (s.buf s.idx) h.max (by rw [h2]; exact h0 h1)
    have b := slide_grow total_min W s.currMin x (s.buf s.idx) h.min (by rw [h2]; exact h0 h1)
    rw [← h.qmax] at a
    rw [← h.qmin] at b
    exact ⟨a.1, b.1, fun _ => a.2, fun _ => b.2⟩
  · rw [if_neg (by omega)]
    have hm := h.max
    have hn := h.min
    have hq1 := h.qmax
    have hq2 := h.qmin
    subst hw
    have a := slide_full total_max w l s.currMax x (hm (by simp))
    have b := slide_full total_min w l s.currMin x (hn (by simp))
    rw [← hq1] at a
    rw [← hq2] at b
    rw [← h2] at a b
    exact ⟨a.1, b.1, fun _ => a.2, fun _ => b.2⟩

end Verif.MovStats
