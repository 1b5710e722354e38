import Verif.Slice.Lemmas

/-!
# Slice: properties
-/

namespace Verif.Slice

variable {α : Type}

theorem bind_ok {β γ : Type} {x : Except Err β} {f : β → Except Err γ} {c : γ} (h : (x >>= f) = .ok c) : ∃ a, x = .ok a ∧ f a = .ok c := by
  cases x with
  | error e => cases h
  | ok a => exact ⟨a, rfl, h⟩

theorem bind_err {β γ : Type} {x : Except Err β} {f : β → Except Err γ} {e : Err} (h : (x >>= f) = .error e) :
    x = .error e ∨ ∃ a, x = .ok a ∧ f a = .error e := by
  cases x with
  | error e' => cases h; exact Or.inl rfl
  | ok a => exact Or.inr ⟨a, rfl, h⟩

theorem sl_err {w : World α} {i : Nat} {e : Err} (h : w.sl i = .error e) : e = .bad := by
  unfold World.sl at h
  split at h
  · cases h
  · cases h; rfl

theorem cap_ok {w : World α} (h : Inv w) {i : Nat} {s : Sl} (hs : w.has i s) : w.cap s = .ok (w.whole s).length ∧ s.size ≤ (w.whole s).length := by
  unfold World.cap World.whole
  cases hb : s.buf with
  | none => exact ⟨rfl, by rw [h.null i s hs hb]; simp⟩
  | some b =>
    obtain ⟨c, h1, h2⟩ := live_of h hs hb
    have hm : w.mem b = .ok c := mem_eq.2 ⟨_, h1⟩
    simp only [hm, List.length_drop]
    exact ⟨rfl, by omega⟩

/-- `reslice` succeeds or panics. -/
theorem reslice_eq {w : World α} (h : Inv w) {i : Nat} {s : Sl} (hs : w.has i s) (lo hi : Nat) :
    w.reslice i lo hi = if lo ≤ hi ∧ hi ≤ (w.whole s).length then .ok (if s.buf.isSome then w.put i (some ⟨s.buf, s.off + lo, hi - lo⟩) else w) else .error .panic := by
  unfold World.reslice
  rw [sl_eq.2 hs]
  show (do let cap ← w.cap s; _) = _
  rw [(cap_ok h hs).1]
  show (if lo > hi then _ else _) = _
  by_cases h1 : lo > hi
  · rw [if_pos h1, if_neg (by omega)]
  · rw [if_neg h1]
    by_cases h2 : hi > (w.whole s).length
    · rw [if_pos h2, if_neg (by omega)]
    · rw [if_neg h2]
      have hc : lo ≤ hi ∧ hi ≤ (w.whole s).length := ⟨by omega, by omega⟩
      simp only [hc, and_self, if_true]
      by_cases h3 : s.buf.isSome = true
      · simp [h3]
      · simp [h3]

theorem sub_eq {w : World α} (h : Inv w) {i : Nat} {s : Sl} (hs : w.has i s) (lo hi : Nat) :
    (lo ≤ hi ∧ hi ≤ s.size → ∃ w' : World α, w.sub i lo hi = .ok (w'.add ⟨s.buf, s.off + lo, hi - lo⟩) ∧ Inv (w'.add ⟨s.buf, s.off + lo, hi - lo⟩) ∧ w'.sls = w.sls ∧
      ∀ b c, w'.live b c ↔ w.live b c) ∧ (¬ (lo ≤ hi ∧ hi ≤ s.size) → w.sub i lo hi = .error .panic) := by
  unfold World.sub
  rw [sl_eq.2 hs]
  refine ⟨fun hr => ?_, fun hr => ?_⟩
  · obtain ⟨w', h1, h2, h3, h4⟩ := inv_add h ⟨s.buf, s.off + lo, hi - lo⟩ (fun b hb => ⟨h.bound i s b hs hb, cnt_pos hs hb⟩)
      (fun b c hb hl => by have := h.inside i s b c hs hb hl; simp only; omega) (fun hb => by have := h.null i s hs hb; simp only; omega)
    refine ⟨w', ?_, h2, h3, h4⟩
    show (if lo > hi then _ else if hi > s.size then _ else _) = _
    rw [if_neg (by omega), if_neg (by omega)]
    simp only at h1
    rw [h1]
    rfl
  · show (if lo > hi then _ else if hi > s.size then _ else _) = _
    by_cases h1 : lo > hi
    · rw [if_pos h1]
    · rw [if_neg h1, if_pos (by omega)]

theorem part_eq {w : World α} (h : Inv w) {i : Nat} {s : Sl} (hs : w.has i s) {b : Nat} (hb : s.buf = some b) (lo hi : Nat) :
    ∃ c, w.live b c ∧ (lo ≤ hi ∧ hi ≤ c.length → ∃ w' : World α, w.part i lo hi = .ok (w'.add ⟨some b, lo, hi - lo⟩) ∧ Inv (w'.add ⟨some b, lo, hi - lo⟩) ∧ w'.sls = w.sls ∧
      ∀ b c, w'.live b c ↔ w.live b c) ∧ (¬ (lo ≤ hi ∧ hi ≤ c.length) → w.part i lo hi = .error .panic) := by
  obtain ⟨c, h1, _⟩ := live_of h hs hb
  have hm : w.mem b = .ok c := mem_eq.2 ⟨_, h1⟩
  refine ⟨c, ⟨_, h1⟩, ?_⟩
  unfold World.part
  rw [sl_eq.2 hs]
  refine ⟨fun hr => ?_, fun hr => ?_⟩
  · obtain ⟨w', h1, h2, h3, h4⟩ := inv_add h ⟨some b, lo, hi - lo⟩ (fun d hd => ⟨h.bound i s d hs (hb.trans hd), cnt_pos hs (hb.trans hd)⟩)
      (fun d e hd hl => by
        simp only at hd
        injection hd with hd
        subst hd
        have : w.mem b = .ok e := mem_eq.2 hl
        rw [hm] at this
        injection this with this
        subst this
        simp only
        omega) (fun hb => by cases hb)
    refine ⟨w', ?_, h2, h3, h4⟩
    simp only [bind, Except.bind, hb, hm]
    rw [if_neg (by omega), if_neg (by omega)]
    simp only at h1
    rw [h1]
  · simp only [bind, Except.bind, hb, hm]
    by_cases h1 : lo > hi
    · rw [if_pos h1]
    · rw [if_neg h1, if_pos (by omega)]

theorem extend_eq {w : World α} (h : Inv w) {i : Nat} {s : Sl} (hs : w.has i s) (n : Nat) :
    w.extend i n = if s.buf.isSome ∧ n ≠ 0 ∧ (s.size + n) % M ≤ (w.whole s).length
      then .ok (w.put i (some ⟨s.buf, s.off, (s.size + n) % M⟩), s.off + s.size) else .error .panic := by
  unfold World.extend
  rw [sl_eq.2 hs]
  show (if s.buf = none then _ else if n = 0 then _ else _) = _
  by_cases h1 : s.buf = none
  · rw [if_pos h1, if_neg (by simp [h1])]
  · rw [if_neg h1]
    have h1' : s.buf.isSome = true := by cases hb : s.buf <;> simp_all
    by_cases h2 : n = 0
    · rw [if_pos h2, if_neg (by simp [h2])]
    · rw [if_neg h2, reslice_eq h hs, h1']
      by_cases h3 : (s.size + n) % M ≤ (w.whole s).length
      · have hc1 : 0 ≤ (s.size + n) % M ∧ (s.size + n) % M ≤ (w.whole s).length := ⟨by omega, h3⟩
        have hc2 : (true = true) ∧ n ≠ 0 ∧ (s.size + n) % M ≤ (w.whole s).length := ⟨rfl, h2, h3⟩
        rw [if_pos hc1, if_pos hc2]
        rfl
      · rw [if_neg (fun hc => h3 hc.2), if_neg (fun hc => h3 hc.2.2)]
        rfl

theorem whole_some {w : World α} {s : Sl} {b : Nat} {c : List α} (hb : s.buf = some b) (hl : w.live b c) : w.whole s = c.drop s.off := by
  unfold World.whole
  simp only [hb, mem_eq.2 hl]

theorem inv_reslice {w : World α} (h : Inv w) {i : Nat} {s : Sl} (hs : w.has i s) {lo hi : Nat} (h1 : lo ≤ hi) (h2 : hi ≤ (w.whole s).length) :
    Inv (w.put i (some ⟨s.buf, s.off + lo, hi - lo⟩)) := by
  apply inv_move h hs
  · rfl
  · intro b c hb hl
    rw [whole_some (s := s) hb hl, List.length_drop] at h2
    have := h.inside i s b c hs hb hl
    simp only
    omega
  · intro hb
    unfold World.whole at h2
    simp only at hb
    rw [hb] at h2
    simp at h2
    simp only
    omega

/-- Writing through a slice. -/
theorem set_ok {w w' : World α} {i k : Nat} {x : α} (hw : w.set i k x = .ok w') : ∃ s b c n, w.has i s ∧ s.buf = some b ∧ w.bufs[b]? = some ⟨some c, n⟩ ∧
    k ≤ s.size ∧ s.off + k < c.length ∧ w' = { w with bufs := w.bufs.set b ⟨some (c.set (s.off + k) x), n⟩ } := by
  unfold World.set World.index at hw
  obtain ⟨⟨b, j⟩, h1, h2⟩ := bind_ok hw
  obtain ⟨s, hs, h1⟩ := bind_ok h1
  cases hb : s.buf with
  | none => rw [hb] at h1; cases h1
  | some d =>
    rw [hb] at h1
    simp only at h1
    by_cases hk : k > s.size
    · rw [if_pos hk] at h1; cases h1
    · rw [if_neg hk] at h1
      injection h1 with h1
      injection h1 with h1 h3
      subst h1 h3
      simp only at h2
      split at h2
      · rename_i c n hc
        split at h2
        · rename_i hlt
          injection h2 with h2
          exact ⟨s, d, c, n, sl_eq.1 hs, hb, hc, by omega, hlt, h2.symm⟩
        · cases h2
      · cases h2

theorem live_set {w : World α} {b : Nat} {c d : List α} {n : Nat} (hc : w.bufs[b]? = some ⟨some c, n⟩) (b' : Nat) (e : List α) :
    ({ w with bufs := w.bufs.set b ⟨some d, n⟩ } : World α).live b' e ↔ (b' = b ∧ e = d) ∨ (b' ≠ b ∧ w.live b' e) := by
  have hlt : b < w.bufs.length := by
    by_cases hl : b < w.bufs.length
    · exact hl
    · rw [List.getElem?_eq_none (by omega)] at hc; cases hc
  unfold World.live
  simp only [List.getElem?_set, hlt, if_true]
  by_cases h : b = b'
  · subst h
    simp
    exact eq_comm
  · have h' : ¬ b' = b := fun e => h e.symm
    simp [h, h']

theorem inv_set {w w' : World α} (h : Inv w) {i k : Nat} {x : α} (hw : w.set i k x = .ok w') : Inv w' := by
  obtain ⟨s, b, c, n, h1, h2, h3, h4, h5, rfl⟩ := set_ok hw
  have hlt : b < w.bufs.length := h.bound i s b h1 h2
  refine ⟨?_, ?_, ?_, ?_⟩
  · intro b' y hy
    simp only [List.getElem?_set, hlt, if_true] at hy
    by_cases hb : b = b'
    · subst hb
      simp only [if_true, Option.some.injEq] at hy
      subst hy
      have := h.bufs b _ h3
      simpa using this
    · simp only [hb, if_false] at hy
      exact h.bufs b' y hy
  · intro j t b' ht hb
    simp only [List.length_set]
    exact h.bound j t b' ht hb
  · intro j t b' e ht hb hl
    rcases (live_set h3 b' e).1 hl with ⟨rfl, rfl⟩ | ⟨_, hl⟩
    · rw [List.length_set]
      exact h.inside j t b' c ht hb ⟨n, h3⟩
    · exact h.inside j t b' e ht hb hl
  · intro j t ht hb
    exact h.null j t ht hb

theorem inv_step {w w' : World α} (h : Inv w) (o : Op α) (hs : w.step o = .ok w') : Inv w' := by
  cases o with
  | null =>
    obtain ⟨w'', h1, h2, _⟩ := inv_add h ⟨none, 0, 0⟩ (by simp) (by simp) (by simp)
    simp only [World.acquire] at h1
    injection h1 with h1
    subst h1
    simp only [World.step] at hs
    injection hs with hs
    subst hs
    exact h2
  | alloc c =>
    simp only [World.step] at hs
    injection hs with hs
    subst hs
    exact inv_alloc h c
  | part i lo hi =>
    simp only [World.step] at hs
    obtain ⟨s, h1, h2⟩ := bind_ok (id hs)
    have h1 := sl_eq.1 h1
    cases hb : s.buf with
    | none => rw [hb] at h2; cases h2
    | some b =>
      obtain ⟨c, _, e1, e2⟩ := part_eq h h1 hb lo hi
      by_cases hr : lo ≤ hi ∧ hi ≤ c.length
      · obtain ⟨w'', g1, g2, _⟩ := e1 hr
        rw [g1] at hs
        injection hs with hs
        subst hs
        exact g2
      · rw [e2 hr] at hs
        cases hs
  | copy i =>
    simp only [World.step, World.copy] at hs
    obtain ⟨s, h1, h2⟩ := bind_ok hs
    have h1 := sl_eq.1 h1
    obtain ⟨w'', g1, g2, _⟩ := inv_add h s (fun b hb => ⟨h.bound i s b h1 hb, cnt_pos h1 hb⟩) (fun b c hb hl => h.inside i s b c h1 hb hl) (fun hb => h.null i s h1 hb)
    rw [g1] at h2
    injection h2 with h2
    subst h2
    exact g2
  | assign i j =>
    simp only [World.step, World.assign] at hs
    obtain ⟨s, h1, h2⟩ := bind_ok hs
    obtain ⟨t, h3, h4⟩ := bind_ok h2
    have h1 := sl_eq.1 h1
    have h3 := sl_eq.1 h3
    by_cases hb : s.buf = t.buf
    · rw [if_pos hb] at h4
      injection h4 with h4
      subst h4
      exact inv_move h h1 t hb.symm (fun b c hb hl => h.inside j t b c h3 hb hl) (fun hb => h.null j t h3 hb)
    · rw [if_neg hb] at h4
      obtain ⟨w1, w2, g1, g2, _, g4, _⟩ := inv_assign h h1 h3 hb
      rw [g1] at h4
      change (do let w ← w1.acquire t.buf; _) = _ at h4
      rw [g2] at h4
      injection h4 with h4
      subst h4
      exact g4
  | destroy i =>
    simp only [World.step, World.destroy] at hs
    obtain ⟨s, h1, h2⟩ := bind_ok hs
    have h1 := sl_eq.1 h1
    obtain ⟨w1, g1, _, g3, _⟩ := inv_destroy h h1
    rw [g1] at h2
    injection h2 with h2
    subst h2
    exact g3
  | reslice i lo hi =>
    simp only [World.step] at hs
    obtain ⟨s, h1, _⟩ := bind_ok (id hs)
    have h1 := sl_eq.1 h1
    rw [reslice_eq h h1] at hs
    by_cases hr : lo ≤ hi ∧ hi ≤ (w.whole s).length
    · rw [if_pos hr] at hs
      injection hs with hs
      subst hs
      split
      · exact inv_reslice h h1 hr.1 hr.2
      · exact h
    · rw [if_neg hr] at hs; cases hs
  | extend i n =>
    simp only [World.step] at hs
    cases he : w.extend i n with
    | error e => rw [he] at hs; cases hs
    | ok r =>
      rw [he] at hs
      injection hs with hs
      subst hs
      obtain ⟨s, h1, _⟩ := bind_ok (id he)
      have h1 := sl_eq.1 h1
      rw [extend_eq h h1] at he
      split at he
      · rename_i hr
        injection he with he
        subst he
        have := inv_reslice h h1 (Nat.zero_le _) hr.2.2
        exact this
      · cases he
  | sub i lo hi =>
    simp only [World.step] at hs
    obtain ⟨s, h1, _⟩ := bind_ok (id hs)
    have h1 := sl_eq.1 h1
    obtain ⟨e1, e2⟩ := sub_eq h h1 lo hi
    by_cases hr : lo ≤ hi ∧ hi ≤ s.size
    · obtain ⟨w'', g1, g2, _⟩ := e1 hr
      rw [g1] at hs
      injection hs with hs
      subst hs
      exact g2
    · rw [e2 hr] at hs
      cases hs
  | get i k =>
    simp only [World.step] at hs
    cases he : w.get i k with
    | error e => rw [he] at hs; cases hs
    | ok r =>
      rw [he] at hs
      injection hs with hs
      subst hs
      exact h
  | set i k x => exact inv_set h hs

theorem reach_inv {w : World α} (h : Reach w) : Inv w := by
  induction h with
  | init => exact inv_init
  | step _ o hs ih => exact inv_step ih o hs

/-- **C108**: a slice always lies inside of a buffer that is not returned to its pool: it is null and empty, or its elements are elements of the buffer. -/
theorem C108_inside {w : World α} (h : Reach w) (i : Nat) (s : Sl) (hs : w.has i s) :
    (s.buf = none ∧ s.size = 0) ∨ ∃ b c, s.buf = some b ∧ w.live b c ∧ s.off + s.size ≤ c.length ∧ (w.view s).length = s.size := by
  have hi := reach_inv h
  cases hb : s.buf with
  | none => exact Or.inl ⟨rfl, hi.null i s hs hb⟩
  | some b =>
    obtain ⟨c, h1, h2⟩ := live_of hi hs hb
    refine Or.inr ⟨b, c, rfl, ⟨_, h1⟩, h2, ?_⟩
    unfold World.view
    simp only [hb, mem_eq.2 ⟨_, h1⟩, List.length_take, List.length_drop]
    omega

/-- **C108**: a buffer is returned to the pool exactly when the last slice that refers to it is gone. -/
theorem C108_freed {w : World α} (h : Reach w) (b : Nat) (hb : b < w.bufs.length) :
    (∃ c, w.live b c) ↔ ∃ i s, w.has i s ∧ s.buf = some b := by
  have hi := reach_inv h
  obtain ⟨x, hx⟩ : ∃ x, w.bufs[b]? = some x := ⟨_, List.getElem?_eq_getElem hb⟩
  obtain ⟨h1, h2⟩ := hi.bufs b x hx
  constructor
  · rintro ⟨c, n, hc⟩
    rw [hx] at hc
    injection hc with hc
    subst hc
    have := h2.1 rfl
    unfold cnt at this
    obtain ⟨o, ho, hr⟩ := List.countP_pos_iff.1 this
    obtain ⟨i, hil, hio⟩ := List.mem_iff_getElem.1 ho
    cases o with
    | none => simp [refers] at hr
    | some s =>
      refine ⟨i, s, ?_, by simpa [refers] using hr⟩
      unfold World.has
      rw [List.getElem?_eq_getElem hil, hio]
  · rintro ⟨i, s, hs, hsb⟩
    obtain ⟨c, h3, _⟩ := live_of hi hs hsb
    exact ⟨c, _, h3⟩

/-- Views depend only on live buffers. -/
theorem view_eq {w w' : World α} {s : Sl} (h : ∀ b c, s.buf = some b → w.live b c → w'.live b c) (hl : ∀ b, s.buf = some b → ∃ c, w.live b c) :
    w'.view s = w.view s ∧ w'.whole s = w.whole s := by
  unfold World.view World.whole
  cases hb : s.buf with
  | none => exact ⟨rfl, rfl⟩
  | some b =>
    obtain ⟨c, hc⟩ := hl b hb
    simp [mem_eq.2 hc, mem_eq.2 (h b c hb hc)]

theorem live_ex {w : World α} (h : Inv w) {i : Nat} {s : Sl} (hs : w.has i s) : ∀ b, s.buf = some b → ∃ c, w.live b c := by
  intro b hb
  obtain ⟨c, h1, _⟩ := live_of h hs hb
  exact ⟨c, _, h1⟩

/-- **C108**: `reslice` panics exactly for a range that is not inside of the capacity; otherwise the slice is that part of the memory from its old beginning to the end of the buffer. -/
theorem C108_reslice {w : World α} (h : Reach w) (i : Nat) (s : Sl) (hs : w.has i s) (lo hi : Nat) :
    (lo ≤ hi ∧ hi ≤ (w.whole s).length → ∃ w' t, w.step (.reslice i lo hi) = .ok w' ∧ w'.has i t ∧ t.size = hi - lo ∧
      w'.view t = ((w.whole s).take hi).drop lo ∧ w'.whole t = (w.whole s).drop lo) ∧
    (¬ (lo ≤ hi ∧ hi ≤ (w.whole s).length) → w.step (.reslice i lo hi) = .error .panic) := by
  have hinv := reach_inv h
  simp only [World.step, reslice_eq hinv hs]
  refine ⟨fun hr => ?_, fun hr => by rw [if_neg hr]⟩
  rw [if_pos hr]
  cases hb : s.buf with
  | none =>
    have hw : w.whole s = [] := by unfold World.whole; simp [hb]
    have hz := hinv.null i s hs hb
    rw [hw] at hr
    simp at hr
    refine ⟨w, s, rfl, hs, by omega, ?_, ?_⟩
    · rw [hw]; unfold World.view; simp [hb]
    · rw [hw]; simp
  | some b =>
    obtain ⟨c, hc⟩ := live_ex hinv hs b hb
    rw [whole_some hb hc] at hr ⊢
    refine ⟨_, ⟨some b, s.off + lo, hi - lo⟩, rfl, (has_put (lt_of_has hs)).2 (Or.inl ⟨rfl, rfl⟩), rfl, ?_, ?_⟩
    · show (match (some b : Option Nat) with | none => [] | some b => match w.mem b with | .ok c => (c.drop (s.off + lo)).take (hi - lo) | .error _ => []) = _
      simp only [mem_eq.2 hc]
      rw [List.drop_take, List.drop_drop]
    · show (match (some b : Option Nat) with | none => [] | some b => match w.mem b with | .ok c => c.drop (s.off + lo) | .error _ => []) = _
      simp only [mem_eq.2 hc]
      rw [List.drop_drop]

/-- **C108**: `subslice` panics exactly for a range that is not inside of the slice; otherwise the new slice has that part of its elements. -/
theorem C108_sub {w : World α} (h : Reach w) (i : Nat) (s : Sl) (hs : w.has i s) (lo hi : Nat) :
    (lo ≤ hi ∧ hi ≤ s.size → ∃ w' t, w.step (.sub i lo hi) = .ok w' ∧ w'.has w.sls.length t ∧ t.size = hi - lo ∧ w'.view t = ((w.view s).take hi).drop lo) ∧
    (¬ (lo ≤ hi ∧ hi ≤ s.size) → w.step (.sub i lo hi) = .error .panic) := by
  have hinv := reach_inv h
  obtain ⟨e1, e2⟩ := sub_eq hinv hs lo hi
  refine ⟨fun hr => ?_, fun hr => e2 hr⟩
  obtain ⟨w', g1, g2, g3, g4⟩ := e1 hr
  refine ⟨_, _, g1, has_add.2 (Or.inr ⟨by rw [g3], rfl⟩), rfl, ?_⟩
  unfold World.view
  cases hb : s.buf with
  | none => simp
  | some b =>
    obtain ⟨c, hc⟩ := live_ex hinv hs b hb
    have h1 : (w'.add ⟨some b, s.off + lo, hi - lo⟩).mem b = .ok c := mem_eq.2 ((g4 b c).2 hc)
    simp only [h1, mem_eq.2 hc]
    rw [List.take_take, Nat.min_eq_left hr.2, List.drop_take, List.drop_drop]

/-- **C108**: `extend` (by less than the address space) panics exactly if the slice is null, nothing is added, or there is no room; otherwise the old elements stay,
the next elements of the buffer follow, and the result points to the first of them. -/
theorem C108_extend_partial {w : World α} (h : Reach w) (i : Nat) (s : Sl) (hs : w.has i s) (n : Nat) (hM : s.size + n < M) :
    (s.buf.isSome ∧ n ≠ 0 ∧ s.size + n ≤ (w.whole s).length → ∃ w' t, w.extend i n = .ok (w', s.off + s.size) ∧ w'.has i t ∧ t.size = s.size + n ∧
      w'.view t = w.view s ++ ((w.whole s).drop s.size).take n) ∧
    (¬ (s.buf.isSome ∧ n ≠ 0 ∧ s.size + n ≤ (w.whole s).length) → w.extend i n = .error .panic) := by
  have hinv := reach_inv h
  rw [extend_eq hinv hs, Nat.mod_eq_of_lt hM]
  refine ⟨fun hr => ?_, fun hr => by rw [if_neg hr]⟩
  rw [if_pos hr]
  obtain ⟨b, hb⟩ := Option.isSome_iff_exists.1 hr.1
  obtain ⟨c, hc⟩ := live_ex hinv hs b hb
  refine ⟨_, ⟨s.buf, s.off, s.size + n⟩, rfl, (has_put (lt_of_has hs)).2 (Or.inl ⟨rfl, rfl⟩), rfl, ?_⟩
  rw [whole_some hb hc]
  have h1 : w.view s = (c.drop s.off).take s.size := by unfold World.view; simp only [hb, mem_eq.2 hc]
  have h2 : (w.put i (some ⟨s.buf, s.off, s.size + n⟩)).view ⟨s.buf, s.off, s.size + n⟩ = (c.drop s.off).take (s.size + n) := by
    unfold World.view
    have : (w.put i (some ⟨s.buf, s.off, s.size + n⟩)).mem b = .ok c := mem_eq.2 hc
    simp only [hb] at this ⊢
    simp only [this]
  rw [h1, h2, List.take_add]

/-- **C108**: `operator[]` with an index below the size returns that element, and panics if the index is larger than the size. -/
theorem C108_get {w : World α} (h : Reach w) (i : Nat) (s : Sl) (hs : w.has i s) (k : Nat) :
    (∀ hk : k < (w.view s).length, w.get i k = .ok (w.view s)[k]) ∧ (s.size < k → w.get i k = .error .panic) := by
  have hinv := reach_inv h
  refine ⟨fun hk => ?_, fun hk => ?_⟩
  · unfold World.get World.index
    rw [sl_eq.2 hs]
    cases hb : s.buf with
    | none => unfold World.view at hk; simp [hb] at hk
    | some b =>
      obtain ⟨c, hc⟩ := live_ex hinv hs b hb
      have h1 : w.view s = (c.drop s.off).take s.size := by unfold World.view; simp only [hb, mem_eq.2 hc]
      have h2 := hinv.inside i s b c hs hb hc
      have hk' := hk
      rw [h1, List.length_take, List.length_drop] at hk'
      have h3 : c[s.off + k]? = some ((w.view s)[k]) := by
        rw [← List.getElem?_eq_getElem hk, h1, List.getElem?_take, if_pos (by omega), List.getElem?_drop]
      simp only [bind, Except.bind, hb]
      rw [if_neg (by omega)]
      simp only [mem_eq.2 hc, h3]
  · unfold World.get World.index
    rw [sl_eq.2 hs]
    cases hb : s.buf with
    | none => simp only [bind, Except.bind, hb]
    | some b =>
      simp only [bind, Except.bind, hb]
      rw [if_pos hk]

/-- **C108**: slices share memory: a write to element `k` of a slice changes that element in all slices that have it, and nothing else. -/
theorem C108_set {w : World α} (h : Reach w) (i : Nat) (s : Sl) (hs : w.has i s) (k : Nat) (hk : k < s.size) (x : α) :
    ∃ w', w.step (.set i k x) = .ok w' ∧ w'.sls = w.sls ∧ ∀ j u, w.has j u →
      w'.view u = if u.buf = s.buf ∧ u.off ≤ s.off + k then (w.view u).set (s.off + k - u.off) x else w.view u := by
  have hinv := reach_inv h
  cases hb : s.buf with
  | none => have := hinv.null i s hs hb; omega
  | some b =>
    obtain ⟨c, h1, h2⟩ := live_of hinv hs hb
    refine ⟨{ w with bufs := w.bufs.set b ⟨some (c.set (s.off + k) x), cnt w.sls b⟩ }, ?_, rfl, ?_⟩
    · simp only [World.step, World.set, World.index, sl_eq.2 hs, bind, Except.bind, hb]
      rw [if_neg (by omega)]
      simp only [h1]
      rw [if_pos (by omega)]
    · intro j u hu
      cases hub : u.buf with
      | none =>
        simp only [World.view, hub]
        rw [if_neg (by simp)]
      | some d =>
        obtain ⟨e, he⟩ := live_ex hinv hu d hub
        by_cases hd : d = b
        · subst hd
          have hce : c = e := by
            obtain ⟨n, he⟩ := he
            rw [h1] at he
            injection he with he
            injection he with he _
            injection he
          subst hce
          have hm : ({ w with bufs := w.bufs.set d ⟨some (c.set (s.off + k) x), cnt w.sls d⟩ } : World α).mem d = .ok (c.set (s.off + k) x) :=
            mem_eq.2 ((live_set h1 d _).2 (Or.inl ⟨rfl, rfl⟩))
          have hv : w.view u = (c.drop u.off).take u.size := by unfold World.view; simp only [hub, mem_eq.2 he]
          have hv' : ({ w with bufs := w.bufs.set d ⟨some (c.set (s.off + k) x), cnt w.sls d⟩ } : World α).view u = ((c.set (s.off + k) x).drop u.off).take u.size := by
            unfold World.view; simp only [hub, hm]
          rw [hv, hv', List.drop_set]
          by_cases ho : u.off ≤ s.off + k
          · rw [if_neg (by omega), if_pos (by simpa using ho), List.take_set]
          · rw [if_pos (by omega), if_neg (fun hc => ho hc.2)]
        · rw [if_neg (by intro hc; injection hc.1 with hc; exact hd hc)]
          refine (view_eq (fun b' c' hb' hc' => ?_) (live_ex hinv hu)).1
          rw [hub] at hb'
          injection hb' with hb'
          subst hb'
          exact (live_set h1 _ _).2 (Or.inr ⟨hd, hc'⟩)

/-- **C108**: a copy of a slice, and a slice to which it is assigned, have the same elements. -/
theorem C108_copy {w : World α} (h : Reach w) (i : Nat) (s : Sl) (hs : w.has i s) :
    (∃ w', w.step (.copy i) = .ok w' ∧ w'.has w.sls.length s ∧ w'.view s = w.view s) ∧
    ∀ j t, w.has j t → ∃ w', w.step (.assign j i) = .ok w' ∧ w'.has j s ∧ w'.view s = w.view s := by
  have hinv := reach_inv h
  refine ⟨?_, fun j t ht => ?_⟩
  · obtain ⟨w', g1, _, g3, g4⟩ := inv_add hinv s (fun b hb => ⟨hinv.bound i s b hs hb, cnt_pos hs hb⟩) (fun b c hb hl => hinv.inside i s b c hs hb hl)
      (fun hb => hinv.null i s hs hb)
    refine ⟨w'.add s, ?_, has_add.2 (Or.inr ⟨by rw [g3], rfl⟩), (view_eq (fun b c _ hl => (g4 b c).2 hl) (live_ex hinv hs)).1⟩
    simp only [World.step, World.copy, sl_eq.2 hs, bind, Except.bind, g1]
  · by_cases hb : t.buf = s.buf
    · refine ⟨w.put j (some s), ?_, (has_put (lt_of_has ht)).2 (Or.inl ⟨rfl, rfl⟩), rfl⟩
      simp only [World.step, World.assign, sl_eq.2 hs, sl_eq.2 ht, bind, Except.bind]
      rw [if_pos hb]
    · obtain ⟨w1, w2, g1, g2, g3, g4, g5⟩ := inv_assign hinv ht hs hb
      have hj : j < w2.sls.length := by rw [g3]; exact lt_of_has ht
      refine ⟨w2.put j (some s), ?_, (has_put hj).2 (Or.inl ⟨rfl, rfl⟩),
        (view_eq (fun b c hsb hl => (g5 b c).2 ⟨hl, fun htb => absurd (htb.trans hsb.symm) hb⟩) (live_ex hinv hs)).1⟩
      simp only [World.step, World.assign, sl_eq.2 hs, sl_eq.2 ht, bind, Except.bind]
      rw [if_neg hb]
      simp only [g1, g2]

/-- The slice that an operation changes. -/
def target : Op α → Option Nat
  | .assign i _ => some i
  | .destroy i => some i
  | .reslice i _ _ => some i
  | .extend i _ => some i
  | _ => none

/-- Not a write of an element. -/
def isSet : Op α → Bool
  | .set _ _ _ => true
  | _ => false

/-- **C108**: an operation on one slice (other than a write of an element) does not change any other slice. -/
theorem C108_others {w w' : World α} (h : Reach w) (o : Op α) (hs : w.step o = .ok w') (ho : isSet o = false) (j : Nat) (u : Sl) (hu : w.has j u)
    (hj : target o ≠ some j) : w'.has j u ∧ w'.view u = w.view u := by
  have hinv := reach_inv h
  have same : ∀ (w1 : World α) (s : Sl), w1.sls = w.sls → (∀ b c, (w1.add s).live b c ↔ w.live b c) → (w1.add s).has j u ∧ (w1.add s).view u = w.view u := by
    intro w1 s g1 g2
    refine ⟨has_add.2 (Or.inl ?_), (view_eq (fun b c _ hl => (g2 b c).2 hl) (live_ex hinv hu)).1⟩
    unfold World.has
    rw [g1]
    exact hu
  cases o with
  | null =>
    simp only [World.step] at hs
    injection hs with hs
    subst hs
    exact same w _ rfl (fun b c => Iff.rfl)
  | alloc c =>
    simp only [World.step] at hs
    injection hs with hs
    subst hs
    refine ⟨(has_add (w := w) (s := ⟨some w.bufs.length, 0, c.length⟩)).2 (Or.inl hu), (view_eq (fun b d hb hl => ?_) (live_ex hinv hu)).1⟩
    obtain ⟨n, hl⟩ := hl
    refine ⟨n, ?_⟩
    show (w.bufs ++ [_])[b]? = _
    rw [List.getElem?_append_left (hinv.bound j u b hu hb)]
    exact hl
  | part i lo hi =>
    simp only [World.step] at hs
    obtain ⟨s, h1, h2⟩ := bind_ok (id hs)
    have h1 := sl_eq.1 h1
    cases hb : s.buf with
    | none => rw [hb] at h2; cases h2
    | some b =>
      obtain ⟨c, _, e1, e2⟩ := part_eq hinv h1 hb lo hi
      by_cases hr : lo ≤ hi ∧ hi ≤ c.length
      · obtain ⟨w'', g1, _, g3, g4⟩ := e1 hr
        rw [g1] at hs
        injection hs with hs
        subst hs
        exact same w'' _ g3 g4
      · rw [e2 hr] at hs
        cases hs
  | copy i =>
    simp only [World.step, World.copy] at hs
    obtain ⟨s, h1, h2⟩ := bind_ok hs
    have h1 := sl_eq.1 h1
    obtain ⟨w'', g1, _, g3, g4⟩ := inv_add hinv s (fun b hb => ⟨hinv.bound i s b h1 hb, cnt_pos h1 hb⟩) (fun b c hb hl => hinv.inside i s b c h1 hb hl)
      (fun hb => hinv.null i s h1 hb)
    rw [g1] at h2
    injection h2 with h2
    subst h2
    exact same w'' _ g3 g4
  | assign i k =>
    have hij : j ≠ i := fun e => hj (by rw [e]; rfl)
    simp only [World.step, World.assign] at hs
    obtain ⟨s, h1, h2⟩ := bind_ok hs
    obtain ⟨t, h3, h4⟩ := bind_ok h2
    have h1 := sl_eq.1 h1
    have h3 := sl_eq.1 h3
    by_cases hb : s.buf = t.buf
    · rw [if_pos hb] at h4
      injection h4 with h4
      subst h4
      exact ⟨(has_put (lt_of_has h1)).2 (Or.inr ⟨hij, hu⟩), rfl⟩
    · rw [if_neg hb] at h4
      obtain ⟨w1, w2, g1, g2, g3, _, g5⟩ := inv_assign hinv h1 h3 hb
      rw [g1] at h4
      change (do let w ← w1.acquire t.buf; _) = _ at h4
      rw [g2] at h4
      injection h4 with h4
      subst h4
      have hi2 : i < w2.sls.length := by rw [g3]; exact lt_of_has h1
      refine ⟨(has_put hi2).2 (Or.inr ⟨hij, ?_⟩), (view_eq (fun b c hb hl => (g5 b c).2 ⟨hl, fun hsb => ?_⟩) (live_ex hinv hu)).1⟩
      · unfold World.has; rw [g3]; exact hu
      · have hc := cnt_put h1 none b
        have hp : 0 < cnt (w.put i none).sls b := cnt_pos (w := w.put i none) ((has_put (lt_of_has h1)).2 (Or.inr ⟨hij, hu⟩)) hb
        rw [hsb] at hc
        simp [dec, refers] at hc
        omega
  | destroy i =>
    have hij : j ≠ i := fun e => hj (by rw [e]; rfl)
    simp only [World.step, World.destroy] at hs
    obtain ⟨s, h1, h2⟩ := bind_ok hs
    have h1 := sl_eq.1 h1
    obtain ⟨w1, g1, g2, _, g4⟩ := inv_destroy hinv h1
    rw [g1] at h2
    injection h2 with h2
    subst h2
    have hi2 : i < w1.sls.length := by rw [g2]; exact lt_of_has h1
    refine ⟨(has_put hi2).2 (Or.inr ⟨hij, ?_⟩), (view_eq (fun b c hb hl => (g4 b c).2 ⟨hl, fun hsb => ?_⟩) (live_ex hinv hu)).1⟩
    · unfold World.has; rw [g2]; exact hu
    · have hc := cnt_put h1 none b
      have hp : 0 < cnt (w.put i none).sls b := cnt_pos (w := w.put i none) ((has_put (lt_of_has h1)).2 (Or.inr ⟨hij, hu⟩)) hb
      rw [hsb] at hc
      simp [dec, refers] at hc
      omega
  | reslice i lo hi =>
    have hij : j ≠ i := fun e => hj (by rw [e]; rfl)
    simp only [World.step] at hs
    obtain ⟨s, h1, _⟩ := bind_ok (id hs)
    have h1 := sl_eq.1 h1
    rw [reslice_eq hinv h1] at hs
    by_cases hr : lo ≤ hi ∧ hi ≤ (w.whole s).length
    · rw [if_pos hr] at hs
      injection hs with hs
      subst hs
      split
      · exact ⟨(has_put (lt_of_has h1)).2 (Or.inr ⟨hij, hu⟩), rfl⟩
      · exact ⟨hu, rfl⟩
    · rw [if_neg hr] at hs; cases hs
  | extend i n =>
    have hij : j ≠ i := fun e => hj (by rw [e]; rfl)
    simp only [World.step] at hs
    cases he : w.extend i n with
    | error e => rw [he] at hs; cases hs
    | ok r =>
      rw [he] at hs
      injection hs with hs
      subst hs
      obtain ⟨s, h1, _⟩ := bind_ok (id he)
      have h1 := sl_eq.1 h1
      rw [extend_eq hinv h1] at he
      split at he
      · injection he with he
        subst he
        exact ⟨(has_put (lt_of_has h1)).2 (Or.inr ⟨hij, hu⟩), rfl⟩
      · cases he
  | sub i lo hi =>
    simp only [World.step] at hs
    obtain ⟨s, h1, _⟩ := bind_ok (id hs)
    have h1 := sl_eq.1 h1
    obtain ⟨e1, e2⟩ := sub_eq hinv h1 lo hi
    by_cases hr : lo ≤ hi ∧ hi ≤ s.size
    · obtain ⟨w'', g1, _, g3, g4⟩ := e1 hr
      rw [g1] at hs
      injection hs with hs
      subst hs
      exact same w'' _ g3 g4
    · rw [e2 hr] at hs
      cases hs
  | get i k =>
    simp only [World.step] at hs
    cases he : w.get i k with
    | error e => rw [he] at hs; cases hs
    | ok r =>
      rw [he] at hs
      injection hs with hs
      subst hs
      exact ⟨hu, rfl⟩
  | set i k x => cases ho

/-- **C108**: operations on slices that exist do not touch memory that they should not, except for an index that is equal to the size. -/
theorem C108_safe_partial {w : World α} (h : Reach w) (o : Op α) (hs : w.step o = .error .ub) :
    ∃ i s, w.has i s ∧ (o = .get i s.size ∨ ∃ x, o = .set i s.size x) := by
  have hinv := reach_inv h
  cases o with
  | null => cases hs
  | alloc c => cases hs
  | part i lo hi =>
    simp only [World.step] at hs
    rcases bind_err (id hs) with h1 | ⟨s, h1, h2⟩
    · cases sl_err h1
    · have h1 := sl_eq.1 h1
      cases hb : s.buf with
      | none => rw [hb] at h2; cases h2
      | some b =>
        obtain ⟨c, _, e1, e2⟩ := part_eq hinv h1 hb lo hi
        by_cases hr : lo ≤ hi ∧ hi ≤ c.length
        · obtain ⟨w'', g1, _⟩ := e1 hr
          rw [g1] at hs
          cases hs
        · rw [e2 hr] at hs
          cases hs
  | copy i =>
    simp only [World.step, World.copy] at hs
    rcases bind_err hs with h1 | ⟨s, h1, h2⟩
    · cases sl_err h1
    · have h1 := sl_eq.1 h1
      obtain ⟨w'', g1, _⟩ := inv_add hinv s (fun b hb => ⟨hinv.bound i s b h1 hb, cnt_pos h1 hb⟩) (fun b c hb hl => hinv.inside i s b c h1 hb hl)
        (fun hb => hinv.null i s h1 hb)
      rw [g1] at h2
      cases h2
  | assign i k =>
    simp only [World.step, World.assign] at hs
    rcases bind_err hs with h1 | ⟨s, h1, h2⟩
    · cases sl_err h1
    · rcases bind_err h2 with h3 | ⟨t, h3, h4⟩
      · cases sl_err h3
      · have h1 := sl_eq.1 h1
        have h3 := sl_eq.1 h3
        by_cases hb : s.buf = t.buf
        · rw [if_pos hb] at h4
          cases h4
        · rw [if_neg hb] at h4
          obtain ⟨w1, w2, g1, g2, _⟩ := inv_assign hinv h1 h3 hb
          rw [g1] at h4
          change (do let w ← w1.acquire t.buf; _) = _ at h4
          rw [g2] at h4
          cases h4
  | destroy i =>
    simp only [World.step, World.destroy] at hs
    rcases bind_err hs with h1 | ⟨s, h1, h2⟩
    · cases sl_err h1
    · have h1 := sl_eq.1 h1
      obtain ⟨w1, g1, _⟩ := inv_destroy hinv h1
      rw [g1] at h2
      cases h2
  | reslice i lo hi =>
    simp only [World.step] at hs
    rcases bind_err (id hs) with h1 | ⟨s, h1, _⟩
    · cases sl_err h1
    · have h1 := sl_eq.1 h1
      rw [reslice_eq hinv h1] at hs
      split at hs <;> cases hs
  | extend i n =>
    simp only [World.step] at hs
    cases he : w.extend i n with
    | ok r => rw [he] at hs; cases hs
    | error e =>
      rw [he] at hs
      injection hs with hs
      subst hs
      rcases bind_err (id he) with h1 | ⟨s, h1, _⟩
      · cases sl_err h1
      · have h1 := sl_eq.1 h1
        rw [extend_eq hinv h1] at he
        split at he <;> cases he
  | sub i lo hi =>
    simp only [World.step] at hs
    rcases bind_err (id hs) with h1 | ⟨s, h1, _⟩
    · cases sl_err h1
    · have h1 := sl_eq.1 h1
      obtain ⟨e1, e2⟩ := sub_eq hinv h1 lo hi
      by_cases hr : lo ≤ hi ∧ hi ≤ s.size
      · obtain ⟨w'', g1, _⟩ := e1 hr
        rw [g1] at hs
        cases hs
      · rw [e2 hr] at hs
        cases hs
  | get i k =>
    simp only [World.step] at hs
    cases he : w.get i k with
    | ok r => rw [he] at hs; cases hs
    | error e =>
      rw [he] at hs
      injection hs with hs
      subst hs
      rcases bind_err (id he) with h1 | ⟨⟨b, j⟩, h1, _⟩
      · rcases bind_err h1 with h2 | ⟨s, _, h2⟩
        · cases sl_err h2
        · split at h2
          · cases h2
          · split at h2 <;> cases h2
      · obtain ⟨s, h1, _⟩ := bind_ok h1
        have h1 := sl_eq.1 h1
        refine ⟨i, s, h1, Or.inl ?_⟩
        have hlen : s.buf = none ∨ (w.view s).length = s.size := by
          rcases C108_inside h i s h1 with ⟨h3, _⟩ | ⟨_, _, _, _, _, h3⟩
          · exact Or.inl h3
          · exact Or.inr h3
        obtain ⟨g1, g2⟩ := C108_get h i s h1 k
        rcases Nat.lt_trichotomy k s.size with h3 | h3 | h3
        · rcases hlen with h4 | h4
          · have := hinv.null i s h1 h4
            omega
          · rw [g1 (by omega)] at he
            cases he
        · rw [h3]
        · rw [g2 h3] at he
          cases he
  | set i k x =>
    simp only [World.step] at hs
    rcases bind_err (id hs) with h1 | ⟨⟨b, j⟩, h1, _⟩
    · rcases bind_err h1 with h2 | ⟨s, _, h2⟩
      · cases sl_err h2
      · split at h2
        · cases h2
        · split at h2 <;> cases h2
    · obtain ⟨s, h1, h2⟩ := bind_ok h1
      have h1 := sl_eq.1 h1
      refine ⟨i, s, h1, Or.inr ⟨x, ?_⟩⟩
      rcases Nat.lt_trichotomy k s.size with h3 | h3 | h3
      · obtain ⟨w', g1, _⟩ := C108_set h i s h1 k h3 x
        rw [show w.set i k x = w.step (.set i k x) from rfl, g1] at hs
        cases hs
      · rw [h3]
      · exfalso
        split at h2
        · cases h2
        · rw [if_pos h3] at h2
          cases h2

/-- Worlds of a history. -/
def runs (w : World α) : List (Op α) → Except Err (World α)
  | [] => .ok w
  | o :: os => w.step o >>= fun w => runs w os

theorem reach_runs (os : List (Op α)) : ∀ {w w' : World α}, Reach w → runs w os = .ok w' → Reach w' := by
  induction os with
  | nil => intro w w' h hr; simp only [runs] at hr; injection hr with hr; exact hr ▸ h
  | cons o os ih =>
    intro w w' h hr
    obtain ⟨w1, h1, h2⟩ := bind_ok hr
    exact ih (.step h o h1) h2

/-- The world of an example: a buffer of 4 elements, a subslice with elements 1 and 2. -/
def exW : World Nat := ⟨[⟨some [10, 11, 12, 13], 2⟩], [some ⟨some 0, 0, 4⟩, some ⟨some 0, 1, 2⟩]⟩

theorem exW_reach : Reach exW := reach_runs [.alloc [10, 11, 12, 13], .sub 0 1 3] .init rfl

/-- A result that is the error `e`. -/
def errIs {β : Type} (r : Except Err β) (e : Err) : Bool :=
  match r with
  | .ok _ => false
  | .error x => decide (x = e)

/-- A result for which `f` holds. -/
def okAnd {β : Type} (r : Except Err β) (f : β → Bool) : Bool :=
  match r with
  | .ok x => f x
  | .error _ => false

/-- **C108 is false** for an index that is equal to the size: it is not detected; an element that is not in the slice is returned and can be changed,
and if the slice ends with the buffer, the access is outside of the buffer. -/
theorem C108_index_fails : exW.has 1 ⟨some 0, 1, 2⟩ ∧ exW.has 0 ⟨some 0, 0, 4⟩ ∧ okAnd (exW.get 1 2) (fun x => decide (x = 13)) = true ∧
    okAnd (exW.set 1 2 99) (fun w => decide (w.bufs = [⟨some [10, 11, 12, 99], 2⟩])) = true ∧
    errIs (exW.get 0 4) .ub = true ∧ errIs (exW.set 0 4 1) .ub = true := by
  refine ⟨rfl, rfl, ?_⟩
  decide +kernel

/-- **C108 is false** for a number that overflows `size_t`: `extend` by `2^64 - 1` does not panic, it makes the slice shorter. -/
theorem C108_extend_fails : okAnd (exW.extend 1 (2 ^ 64 - 1)) (fun r => decide (r.1.sls[1]? = some (some ⟨some 0, 1, 1⟩) ∧ r.2 = 3)) = true := by
  decide +kernel

/-- Cases of the theorems in the example: the subslice can be extended by one element, not by two; it can be moved to the end; the buffer stays until both slices are gone. -/
example : exW.view ⟨some 0, 1, 2⟩ = [11, 12] ∧ exW.whole ⟨some 0, 1, 2⟩ = [11, 12, 13] ∧ okAnd (exW.extend 1 1) (fun r => decide (r.1.view ⟨some 0, 1, 3⟩ = [11, 12, 13])) = true ∧
    errIs (exW.extend 1 2) .panic = true ∧ okAnd (exW.reslice 1 2 3) (fun w => decide (w.view ⟨some 0, 3, 1⟩ = [13])) = true ∧
    okAnd (exW.sub 1 1 2) (fun w => decide (w.sls[2]? = some (some ⟨some 0, 2, 1⟩))) = true ∧
    okAnd (runs exW [.destroy 0]) (fun w => decide (w.bufs = [⟨some [10, 11, 12, 13], 1⟩])) = true ∧
    okAnd (runs exW [.destroy 0, .destroy 1]) (fun w => decide (w.bufs = [⟨none, 0⟩])) = true ∧
    okAnd (runs exW [.alloc [7], .assign 2 1, .set 0 1 5]) (fun w => decide (w.view ⟨some 0, 1, 2⟩ = [5, 12])) = true := by
  decide +kernel

end Verif.Slice
