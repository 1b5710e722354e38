import Verif.StringBuffer.Model

/-!
# String buffer: properties (C135)
-/

namespace Verif.StringBuffer

/-- The string after a call with the given result. -/
def after (text : List Nat) : Op → Bool → List Nat
  | .clear, _ => []
  | .assign _ t, true => t
  | .assign _ _, false => []
  | .extend _ n fill, true => text ++ fill ++ List.replicate (n - fill.length) 0
  | .extend _ _ _, false => []
  | .grow _ _, _ => text

/-- The string after calls. -/
def afterAll : List Nat → List (Op × Bool) → List Nat
  | text, [] => text
  | text, (o, r) :: l => afterAll (after text o r) l

/-- Characters which a call may need. -/
def Op.size : Op → Nat
  | .clear => 0
  | .assign _ t => t.length
  | .extend _ n _ => n
  | .grow _ n => n

/-- The caller of `extend` stores no more characters than it asked for. -/
def Op.fair : Op → Prop
  | .extend _ n fill => fill.length ≤ n
  | _ => True

/-- The answer of the arena to a call. -/
def Op.fits : Op → Bool
  | .clear => true
  | .assign fit _ => fit
  | .extend fit _ _ => fit
  | .grow fit _ => fit

/-- A terminated string. -/
def Holds (b : Buf) (text : List Nat) : Prop := b.data = text ++ [0] ∧ 1 ≤ b.cap

theorem grow_some {fit : Bool} {n : Nat} {b b' : Buf} (h : grow fit n b = some b') : b'.data = b.data ∧ b.cap ≤ b'.cap := by
  unfold grow at h
  split at h
  · cases h; exact ⟨rfl, Nat.le_refl _⟩
  · split at h
    · cases h; exact ⟨rfl, by dsimp only; omega⟩
    · cases h

theorem grow_fit {fit : Bool} (n : Nat) (b : Buf) (h : fit = true ∨ n ≤ 32) : ∃ b', grow fit n b = some b' := by
  unfold grow embedded
  split
  · exact ⟨_, rfl⟩
  · rw [if_pos (by rcases h with h | h <;> simp [h])]
    exact ⟨_, rfl⟩

theorem clear_spec {b : Buf} {text : List Nat} (h : Holds b text) : ∃ b', clear false b = some b' ∧ Holds b' [] := by
  obtain ⟨h1, h2⟩ := h
  have hl : b.data.length = text.length + 1 := by rw [h1]; simp
  have hg : grow false 1 b = some b := by
    unfold grow
    rw [if_pos h2]
  have hr : resize false 1 b = some { b with data := b.data.take 1 ++ List.replicate (1 - b.data.length) 0 } := by
    unfold resize
    rw [hg]
  have ht : b.data.take 1 ++ List.replicate (1 - b.data.length) 0 = [b.data.headD 0] := by
    rw [show 1 - b.data.length = 0 by omega]
    cases hb : b.data with
    | nil => rw [hb] at hl; simp at hl
    | cons a l => simp
  unfold clear
  rw [hr]
  dsimp only
  rw [ht, if_pos (by simp)]
  exact ⟨_, rfl, by simp [Holds], h2⟩

theorem init_spec : ∃ b, init = some b ∧ Holds b [] := ⟨_, rfl, rfl, by decide⟩

theorem resize_spec {fit : Bool} {n : Nat} {b b' : Buf} (h : resize fit n b = some b') :
    b'.data = b.data.take n ++ List.replicate (n - b.data.length) 0 ∧ b.cap ≤ b'.cap := by
  unfold resize at h
  split at h
  · rename_i b1 hg
    obtain ⟨g1, g2⟩ := grow_some hg
    cases h
    dsimp only
    rw [g1]
    exact ⟨rfl, g2⟩
  · cases h

theorem resize_fit {fit : Bool} (n : Nat) (b : Buf) (h : fit = true ∨ n ≤ 32) : ∃ b', resize fit n b = some b' := by
  obtain ⟨b1, hg⟩ := grow_fit n b h
  unfold resize
  rw [hg]
  exact ⟨_, rfl⟩

theorem assign_ok {fit : Bool} {t : List Nat} {b b1 : Buf} {text : List Nat} (h : Holds b text) (hs : t.length + 1 < 2 ^ 64)
    (hr : resize fit ((t.length + 1) % 2 ^ 64) b = some b1) : ∃ b', assign fit t b = some (b', true) ∧ Holds b' t := by
  obtain ⟨r1, r2⟩ := resize_spec hr
  rw [Nat.mod_eq_of_lt hs] at r1
  have hl : b1.data.length = t.length + 1 := by
    rw [r1, List.length_append, List.length_take, List.length_replicate]
    omega
  have hd : ∃ x, b1.data.drop t.length = [x] := by
    apply List.length_eq_one_iff.1
    rw [List.length_drop]
    omega
  obtain ⟨x, hx⟩ := hd
  unfold assign
  rw [hr]
  dsimp only
  rw [hx, if_pos (by simp)]
  refine ⟨_, rfl, ?_, Nat.le_trans h.2 r2⟩
  dsimp only
  rw [List.set_append_right _ _ (Nat.le_refl _)]
  simp

theorem extend_ok {fit : Bool} {n : Nat} {fill : List Nat} {b b1 : Buf} {text : List Nat} (h : Holds b text) (hs : text.length + 1 + n < 2 ^ 64)
    (hf : fill.length ≤ n) (hr : (if 0 < n then resize fit ((b.data.length + n) % 2 ^ 64) b else some b) = some b1) :
    ∃ b', extend fit n fill b = some (b', true) ∧ Holds b' (text ++ fill ++ List.replicate (n - fill.length) 0) := by
  have hbl : b.data.length = text.length + 1 := by rw [h.1]; simp
  have hd : b1.data = text ++ List.replicate (n + 1) 0 ∧ 1 ≤ b1.cap := by
    by_cases hn : 0 < n
    · rw [if_pos hn] at hr
      obtain ⟨r1, r2⟩ := resize_spec hr
      refine ⟨?_, Nat.le_trans h.2 r2⟩
      rw [r1, Nat.mod_eq_of_lt (by omega), List.take_of_length_le (by omega), h.1]
      rw [show text.length + 1 = (text ++ [0]).length by simp] at hbl
      rw [Nat.add_sub_cancel_left, List.append_assoc]
      congr 1
    · rw [if_neg hn] at hr
      cases hr
      have : n = 0 := by omega
      subst this
      exact ⟨h.1, h.2⟩
  unfold extend
  dsimp only
  rw [hr]
  dsimp only
  rw [if_neg (by rw [hd.1]; simp)]
  refine ⟨_, rfl, ?_, hd.2⟩
  dsimp only
  rw [hbl, hd.1, Nat.add_sub_cancel, List.take_left, List.drop_append, List.drop_eq_nil_of_le (by omega), Nat.add_sub_cancel_left, List.nil_append,
    List.drop_replicate, List.append_assoc (text ++ fill)]
  congr 1
  rw [show n + 1 - fill.length = (n - fill.length) + 1 by omega, List.replicate_succ']

theorem step_spec {b : Buf} {text : List Nat} (h : Holds b text) (o : Op) (hf : o.fair) (hs : text.length + 1 + o.size < 2 ^ 64) :
    ∃ b' r, step b o = some (b', r) ∧ Holds b' (after text o r) ∧ (after text o r).length ≤ text.length + o.size ∧ (o.fits = true → r = true) ∧
      (text.length + 1 + o.size ≤ 32 → r = true) := by
  cases o with
  | clear =>
    obtain ⟨b', h1, h2⟩ := clear_spec h
    exact ⟨b', true, by simp only [step, h1], h2, by simp [after], fun _ => rfl, fun _ => rfl⟩
  | assign fit t =>
    change text.length + 1 + t.length < 2 ^ 64 at hs
    cases hr : resize fit ((t.length + 1) % 2 ^ 64) b with
    | some b1 =>
      obtain ⟨b', h1, h2⟩ := assign_ok h (by omega) hr
      exact ⟨b', true, h1, h2, by simp only [after, Op.size]; omega, fun _ => rfl, fun _ => rfl⟩
    | none =>
      obtain ⟨b', h1, h2⟩ := clear_spec h
      refine ⟨b', false, ?_, h2, by simp [after], ?_, ?_⟩
      · simp only [step, assign]; rw [hr]; dsimp only; rw [h1]
      · intro e
        obtain ⟨b2, e2⟩ := resize_fit (fit := fit) ((t.length + 1) % 2 ^ 64) b (Or.inl e)
        rw [hr] at e2; cases e2
      · intro e
        change text.length + 1 + t.length ≤ 32 at e
        obtain ⟨b2, e2⟩ := resize_fit (fit := fit) ((t.length + 1) % 2 ^ 64) b (Or.inr (by omega))
        rw [hr] at e2; cases e2
  | extend fit n fill =>
    change text.length + 1 + n < 2 ^ 64 at hs
    change fill.length ≤ n at hf
    have hbl : b.data.length = text.length + 1 := by rw [h.1]; simp
    cases hr : (if 0 < n then resize fit ((b.data.length + n) % 2 ^ 64) b else some b) with
    | some b1 =>
      obtain ⟨b', h1, h2⟩ := extend_ok h hs hf hr
      exact ⟨b', true, h1, h2, by simp only [after, Op.size, List.length_append, List.length_replicate]; omega, fun _ => rfl, fun _ => rfl⟩
    | none =>
      obtain ⟨b', h1, h2⟩ := clear_spec h
      have hn : 0 < n := by
        apply Nat.pos_of_ne_zero
        intro e
        rw [if_neg (by omega)] at hr
        cases hr
      refine ⟨b', false, ?_, h2, by simp [after], ?_, ?_⟩
      · simp only [step, extend]; rw [hr]; dsimp only; rw [h1]
      · intro e
        obtain ⟨b2, e2⟩ := resize_fit (fit := fit) ((b.data.length + n) % 2 ^ 64) b (Or.inl e)
        rw [if_pos hn, e2] at hr; cases hr
      · intro e
        change text.length + 1 + n ≤ 32 at e
        obtain ⟨b2, e2⟩ := resize_fit (fit := fit) ((b.data.length + n) % 2 ^ 64) b (Or.inr (by omega))
        rw [if_pos hn, e2] at hr; cases hr
  | grow fit n =>
    change text.length + 1 + n < 2 ^ 64 at hs
    cases hr : grow fit ((n + 1) % 2 ^ 64) b with
    | some b1 =>
      obtain ⟨g1, g2⟩ := grow_some hr
      exact ⟨b1, true, by simp only [step, hr], ⟨by rw [g1]; exact h.1, Nat.le_trans h.2 g2⟩, by simp [after], fun _ => rfl, fun _ => rfl⟩
    | none =>
      refine ⟨b, false, by simp only [step, hr], h, by simp [after], ?_, ?_⟩
      · intro e
        obtain ⟨b2, e2⟩ := grow_fit (fit := fit) ((n + 1) % 2 ^ 64) b (Or.inl e)
        rw [hr] at e2; cases e2
      · intro e
        change text.length + 1 + n ≤ 32 at e
        obtain ⟨b2, e2⟩ := grow_fit (fit := fit) ((n + 1) % 2 ^ 64) b (Or.inr (by omega))
        rw [hr] at e2; cases e2

theorem run_spec (ops : List Op) : ∀ (b : Buf) (text : List Nat), Holds b text → (∀ o ∈ ops, o.fair) → text.length + 1 + (ops.map Op.size).sum < 2 ^ 64 →
    ∃ b' rs, run ops b = some (b', rs) ∧ rs.length = ops.length ∧ Holds b' (afterAll text (ops.zip rs)) ∧
      (afterAll text (ops.zip rs)).length ≤ text.length + (ops.map Op.size).sum ∧ ((∀ o ∈ ops, o.fits = true) → ∀ r ∈ rs, r = true) ∧
      (text.length + 1 + (ops.map Op.size).sum ≤ 32 → ∀ r ∈ rs, r = true) := by
  induction ops with
  | nil => intro b text h _ _; exact ⟨b, [], rfl, rfl, h, Nat.le_refl _, by simp, by simp⟩
  | cons o l ih =>
    intro b text h hf hs
    rw [List.map_cons, List.sum_cons] at hs ⊢
    obtain ⟨b1, r, e1, e2, e3, e4, e5⟩ := step_spec h o (hf o (List.mem_cons_self ..)) (by omega)
    obtain ⟨b', rs, g1, g2, g3, g4, g5, g6⟩ := ih b1 _ e2 (fun x hx => hf x (List.mem_cons_of_mem _ hx)) (by omega)
    refine ⟨b', r :: rs, ?_, by simp [g2], g3, ?_, ?_, ?_⟩
    · rw [run, e1]; dsimp only; rw [g1]
    · rw [List.zip_cons_cons, afterAll]; omega
    · intro hfit x hx
      rcases List.mem_cons.1 hx with rfl | hx
      · exact e4 (hfit o (List.mem_cons_self ..))
      · exact g5 (fun y hy => hfit y (List.mem_cons_of_mem _ hy)) x hx
    · intro h32 x hx
      rcases List.mem_cons.1 hx with rfl | hx
      · exact e5 (by omega)
      · exact g6 (by omega) x hx

/-- **C135** (string buffer). The constructor needs no memory of the arena. After any calls, whatever the arena answers, the buffer holds a string and its
terminating zero, and no call aborts: the text of the last successful `assign` with the characters added by `extend`, or the empty string after `clear` and after
a failure of `assign` or `extend`. `len` is its length. Calls fail only if the arena does, and not at all as long as 32 characters are enough. -/
theorem C135_string (ops : List Op) (hf : ∀ o ∈ ops, o.fair) (hs : (ops.map Op.size).sum + 1 < 2 ^ 64) :
    ∃ b0 b rs, init = some b0 ∧ run ops b0 = some (b, rs) ∧ rs.length = ops.length ∧ b.data = afterAll [] (ops.zip rs) ++ [0] ∧
      len b = (afterAll [] (ops.zip rs)).length ∧ ((∀ o ∈ ops, o.fits = true) → ∀ r ∈ rs, r = true) ∧
      ((ops.map Op.size).sum + 1 ≤ 32 → ∀ r ∈ rs, r = true) := by
  obtain ⟨b0, h0, h1⟩ := init_spec
  obtain ⟨b, rs, g1, g2, g3, g4, g5, g6⟩ := run_spec ops b0 [] h1 hf (by simp only [List.length_nil]; omega)
  refine ⟨b0, b, rs, h0, g1, g2, g3.1, ?_, g5, fun h => g6 (by simp only [List.length_nil]; omega)⟩
  simp only [List.length_nil] at g4
  rw [len, g3.1, List.length_append, List.length_singleton]
  omega

theorem extend_wraps (t : List Nat) (n : Nat) (hn : n + 1 = 2 ^ 64) (ht : t ≠ []) (hs : t.length + 1 < 2 ^ 64) :
    ∃ b0 b, init = some b0 ∧ run [.assign true t, .extend true n []] b0 = some (b, [true, true]) ∧ b.data = t ∧ len b = t.length - 1 := by
  obtain ⟨b0, h0, h1⟩ := init_spec
  obtain ⟨b1, hr⟩ := resize_fit (fit := true) ((t.length + 1) % 2 ^ 64) b0 (Or.inl rfl)
  obtain ⟨b2, e1, e2⟩ := assign_ok h1 hs hr
  have hl : b2.data.length = t.length + 1 := by rw [e2.1]; simp
  have htl : 0 < t.length := List.length_pos_iff.2 ht
  have hm : (b2.data.length + n) % 2 ^ 64 = t.length := by omega
  obtain ⟨b3, hr3⟩ := resize_fit (fit := true) ((b2.data.length + n) % 2 ^ 64) b2 (Or.inl rfl)
  obtain ⟨d1, -⟩ := resize_spec hr3
  have hd : b3.data = t := by
    rw [d1, hm, hl, show t.length - (t.length + 1) = 0 by omega, e2.1]
    simp
  have hx : extend true n [] b2 = some ({ b3 with data := t }, true) := by
    unfold extend
    dsimp only
    rw [if_pos (by omega), hr3]
    dsimp only
    rw [if_neg (by rw [hd]; omega), hl, hd]
    simp
  refine ⟨b0, { b3 with data := t }, h0, ?_, rfl, ?_⟩
  · simp only [run, step]
    rw [e1]
    dsimp only
    rw [hx]
  · rw [len]
    dsimp only
    omega

/-- **C135 fails** for the guarantee that the string is always terminated: the size in `extend` wraps around. After `assign` of a text which is not empty,
`extend(SIZE_MAX)` reports success, although it removed the terminating zero from the array; `len` is one less than before. -/
theorem C135_extend_fails (t : List Nat) (ht : t ≠ []) (hs : t.length + 1 < 2 ^ 64) :
    ∃ b0 b, init = some b0 ∧ run [.assign true t, .extend true (2 ^ 64 - 1) []] b0 = some (b, [true, true]) ∧ b.data = t ∧ len b = t.length - 1 :=
  extend_wraps t (2 ^ 64 - 1) (by decide) ht hs

/-! ### Cases -/

/-- Three calls with one failure of the arena. -/
example : ∃ b0 b rs, init = some b0 ∧ run [.assign true [97, 98], .extend true 2 [99], .assign false (List.replicate 40 97)] b0 = some (b, rs) ∧
    rs = [true, true, false] ∧ b.data = [0] := ⟨_, _, _, rfl, rfl, rfl, rfl⟩

/-- They meet the hypotheses of `C135_string`. -/
example : (∀ o ∈ [Op.assign true [97, 98], .extend true 2 [99], .assign false (List.replicate 40 97)], o.fair) ∧
    ([Op.assign true [97, 98], .extend true 2 [99], .assign false (List.replicate 40 97)].map Op.size).sum + 1 < 2 ^ 64 := by
  refine ⟨?_, by decide⟩
  intro o ho
  simp only [List.mem_cons, List.not_mem_nil, or_false] at ho
  rcases ho with rfl | rfl | rfl <;> simp [Op.fair]

example : ∃ b0 b, init = some b0 ∧ run [.assign true [97], .extend true (2 ^ 64 - 1) []] b0 = some (b, [true, true]) ∧ b.data = [97] ∧ len b = 0 :=
  C135_extend_fails [97] (by decide) (by decide)

end Verif.StringBuffer
