import Verif.Slice.Spec

/-!
# Slice: invariant
-/

namespace Verif.Slice

variable {α : Type}

/-- The slice refers to buffer `b`. -/
def refers (b : Nat) : Option Sl → Bool
  | some s => decide (s.buf = some b)
  | none => false

/-- Number of slices that refer to a buffer. -/
def cnt (sls : List (Option Sl)) (b : Nat) : Nat := sls.countP (refers b)

/-- Counters are `f`, and a buffer is live iff its counter is not zero. -/
def BufsOk (bufs : List (Buf α)) (f : Nat → Nat) : Prop := ∀ b x, bufs[b]? = some x → x.refs = f b ∧ (x.cells.isSome = true ↔ 0 < f b)

/-- The invariant. -/
structure Inv (w : World α) : Prop where
  bufs : BufsOk w.bufs (cnt w.sls)
  bound : ∀ i s b, w.has i s → s.buf = some b → b < w.bufs.length
  inside : ∀ i s b c, w.has i s → s.buf = some b → w.live b c → s.off + s.size ≤ c.length
  null : ∀ i s, w.has i s → s.buf = none → s.size = 0

theorem cnt_pos {w : World α} {i : Nat} {s : Sl} {b : Nat} (h : w.has i s) (hb : s.buf = some b) : 0 < cnt w.sls b := by
  unfold cnt
  rw [List.countP_pos_iff]
  exact ⟨some s, List.mem_of_getElem? h, by simp [refers, hb]⟩

theorem live_of {w : World α} (h : Inv w) {i : Nat} {s : Sl} {b : Nat} (hs : w.has i s) (hb : s.buf = some b) :
    ∃ c, w.bufs[b]? = some ⟨some c, cnt w.sls b⟩ ∧ s.off + s.size ≤ c.length := by
  have h1 := h.bound i s b hs hb
  obtain ⟨x, hx⟩ : ∃ x, w.bufs[b]? = some x := ⟨_, List.getElem?_eq_getElem h1⟩
  obtain ⟨h2, h3⟩ := h.bufs b x hx
  obtain ⟨c, hc⟩ := Option.isSome_iff_exists.1 (h3.2 (cnt_pos hs hb))
  obtain ⟨xc, xr⟩ := x
  simp only at h2 hc
  subst h2 hc
  exact ⟨c, hx, h.inside i s b c hs hb ⟨_, hx⟩⟩

theorem sl_eq {w : World α} {i : Nat} {s : Sl} : w.sl i = .ok s ↔ w.has i s := by
  unfold World.sl World.has
  split
  · rename_i t ht
    rw [ht]
    simp
  · rename_i ht
    constructor
    · intro h; cases h
    · intro h; exact absurd h (ht s)

theorem mem_eq {w : World α} {b : Nat} {c : List α} : w.mem b = .ok c ↔ w.live b c := by
  unfold World.mem World.live
  split
  · rename_i d n hd
    rw [hd]
    simp
  · rename_i hd
    constructor
    · intro h; cases h
    · rintro ⟨n, h⟩; exact absurd h (hd c n)

/-- One more reference. -/
def inc (f : Nat → Nat) : Option Nat → Nat → Nat
  | none => f
  | some b => fun x => if x = b then f x + 1 else f x

/-- One reference less. -/
def dec (f : Nat → Nat) : Option Nat → Nat → Nat
  | none => f
  | some b => fun x => if x = b then f x - 1 else f x

theorem acquire_ok {w : World α} {f : Nat → Nat} (h : BufsOk w.bufs f) (o : Option Nat) (ho : ∀ b, o = some b → b < w.bufs.length ∧ 0 < f b) :
    ∃ w', w.acquire o = .ok w' ∧ w'.sls = w.sls ∧ BufsOk w'.bufs (inc f o) ∧ w'.bufs.length = w.bufs.length ∧ ∀ b c, w'.live b c ↔ w.live b c := by
  cases o with
  | none => exact ⟨w, rfl, rfl, h, rfl, fun _ _ => Iff.rfl⟩
  | some b =>
    obtain ⟨h1, h2⟩ := ho b rfl
    obtain ⟨⟨xc, xr⟩, hx⟩ : ∃ x, w.bufs[b]? = some x := ⟨_, List.getElem?_eq_getElem h1⟩
    obtain ⟨h3, h4⟩ := h b _ hx
    obtain ⟨c, hc⟩ := Option.isSome_iff_exists.1 (h4.2 h2)
    simp only at h3 hc
    subst hc
    refine ⟨{ w with bufs := w.bufs.set b ⟨some c, xr + 1⟩ }, by simp only [World.acquire, hx], rfl, ?_, by simp, ?_⟩
    · intro b' x hb'
      simp only [List.getElem?_set, h1, if_true] at hb'
      by_cases hbb : b = b'
      · subst hbb
        simp only [if_true, Option.some.injEq] at hb'
        subst hb'
        simp [inc, h3]
      · simp only [hbb, if_false] at hb'
        simp only [inc]
        rw [if_neg (fun e => hbb e.symm)]
        exact h b' x hb'
    · intro b' d
      unfold World.live
      simp only [List.getElem?_set, h1, if_true]
      by_cases hbb : b = b'
      · subst hbb
        simp [hx]
      · simp [hbb]

theorem release_ok {w : World α} {f : Nat → Nat} (h : BufsOk w.bufs f) (o : Option Nat) (ho : ∀ b, o = some b → b < w.bufs.length ∧ 0 < f b) :
    ∃ w', w.release o = .ok w' ∧ w'.sls = w.sls ∧ BufsOk w'.bufs (dec f o) ∧ w'.bufs.length = w.bufs.length ∧
      ∀ b c, w'.live b c ↔ w.live b c ∧ (o = some b → 1 < f b) := by
  cases o with
  | none => exact ⟨w, rfl, rfl, h, rfl, fun _ _ => by simp⟩
  | some b =>
    obtain ⟨h1, h2⟩ := ho b rfl
    obtain ⟨⟨xc, xr⟩, hx⟩ : ∃ x, w.bufs[b]? = some x := ⟨_, List.getElem?_eq_getElem h1⟩
    obtain ⟨h3, h4⟩ := h b _ hx
    obtain ⟨c, hc⟩ := Option.isSome_iff_exists.1 (h4.2 h2)
    simp only at h3 hc
    subst hc
    obtain ⟨n, rfl⟩ : ∃ n, xr = n + 1 := ⟨xr - 1, by omega⟩
    refine ⟨{ w with bufs := w.bufs.set b ⟨if n = 0 then none else some c, n⟩ }, by simp only [World.release, hx], rfl, ?_, by simp, ?_⟩
    · intro b' x hb'
      simp only [List.getElem?_set, h1, if_true] at hb'
      by_cases hbb : b = b'
      · subst hbb
        simp only [if_true, Option.some.injEq] at hb'
        subst hb'
        simp only [dec, if_true]
        refine ⟨by omega, ?_⟩
        by_cases hn : n = 0
        · simp [hn]; omega
        · simp [hn]; omega
      · simp only [hbb, if_false] at hb'
        simp only [dec]
        rw [if_neg (fun e => hbb e.symm)]
        exact h b' x hb'
    · intro b' d
      unfold World.live
      simp only [List.getElem?_set, h1, if_true]
      by_cases hbb : b = b'
      · subst hbb
        by_cases hn : n = 0
        · simp [hx, hn]
          omega
        · simp [hx, hn]
          omega
      · simp [hbb]

theorem cnt_append (l : List (Option Sl)) (s : Sl) (b : Nat) : cnt (l ++ [some s]) b = inc (cnt l) s.buf b := by
  unfold cnt
  rw [List.countP_append]
  cases hs : s.buf with
  | none => simp [inc, refers, hs]
  | some d =>
    simp only [inc, List.countP_cons, List.countP_nil, refers, hs, Option.some.injEq, decide_eq_true_eq]
    by_cases hd : d = b
    · simp [hd]
    · have hd' : ¬ b = d := fun e => hd e.symm
      simp [hd, hd']

theorem has_add {w : World α} {s t : Sl} {i : Nat} : (w.add s).has i t ↔ w.has i t ∨ (i = w.sls.length ∧ t = s) := by
  unfold World.has World.add
  simp only
  by_cases h1 : i < w.sls.length
  · rw [List.getElem?_append_left h1]
    constructor
    · exact Or.inl
    · rintro (h | ⟨h, _⟩)
      · exact h
      · omega
  · rw [List.getElem?_append_right (by omega), List.getElem?_eq_none (by omega : w.sls.length ≤ i)]
    by_cases h2 : i = w.sls.length
    · subst h2
      simp
      exact eq_comm
    · have : i - w.sls.length ≠ 0 := by omega
      obtain ⟨k, hk⟩ : ∃ k, i - w.sls.length = k + 1 := ⟨i - w.sls.length - 1, by omega⟩
      simp [hk, h2]

theorem has_put {w : World α} {o : Option Sl} {t : Sl} {i j : Nat} (hi : i < w.sls.length) : (w.put i o).has j t ↔ (j = i ∧ o = some t) ∨ (j ≠ i ∧ w.has j t) := by
  unfold World.has World.put
  simp only [List.getElem?_set, hi, if_true]
  by_cases h : i = j
  · subst h
    simp
  · have h' : ¬ j = i := fun e => h e.symm
    simp [h, h']

theorem lt_of_has {w : World α} {i : Nat} {s : Sl} (h : w.has i s) : i < w.sls.length := by
  unfold World.has at h
  by_cases hl : i < w.sls.length
  · exact hl
  · rw [List.getElem?_eq_none (by omega)] at h
    cases h

theorem cnt_put {w : World α} {i : Nat} {s : Sl} (h : w.has i s) (o : Option Sl) (b : Nat) :
    cnt (w.put i o).sls b = dec (cnt w.sls) s.buf b + (if refers b o = true then 1 else 0) := by
  have hi := lt_of_has h
  unfold cnt World.put
  simp only
  rw [List.countP_set hi]
  have hg : w.sls[i] = some s := by
    have : w.sls[i]? = some (some s) := h
    rw [List.getElem?_eq_getElem hi] at this
    exact Option.some.inj this
  rw [hg]
  congr 1
  cases hs : s.buf with
  | none => simp [dec, refers, hs]
  | some d =>
    simp only [dec, refers, hs, Option.some.injEq, decide_eq_true_eq]
    by_cases hd : d = b
    · simp [hd]
    · have hd' : ¬ b = d := fun e => hd e.symm
      simp [hd, hd']

/-- A new slice that refers to a live buffer. -/
theorem inv_add {w : World α} (h : Inv w) (s : Sl) (ho : ∀ b, s.buf = some b → b < w.bufs.length ∧ 0 < cnt w.sls b)
    (hin : ∀ b c, s.buf = some b → w.live b c → s.off + s.size ≤ c.length) (hn : s.buf = none → s.size = 0) :
    ∃ w', w.acquire s.buf = .ok w' ∧ Inv (w'.add s) ∧ w'.sls = w.sls ∧ ∀ b c, (w'.add s).live b c ↔ w.live b c := by
  obtain ⟨w', h1, h2, h3, h4, h5⟩ := acquire_ok h.bufs s.buf ho
  refine ⟨w', h1, ⟨?_, ?_, ?_, ?_⟩, h2, h5⟩
  · intro b x hb
    have := h3 b x hb
    rw [← cnt_append w.sls s b, ← h2] at this
    exact this
  · intro i t b ht hb
    show b < w'.bufs.length
    rw [h4]
    rcases has_add.1 ht with ht | ⟨_, rfl⟩
    · unfold World.has at ht
      rw [h2] at ht
      exact h.bound i t b ht hb
    · exact (ho b hb).1
  · intro i t b c ht hb hl
    have hl' : w.live b c := (h5 b c).1 hl
    rcases has_add.1 ht with ht | ⟨_, rfl⟩
    · unfold World.has at ht
      rw [h2] at ht
      exact h.inside i t b c ht hb hl'
    · exact hin b c hb hl'
  · intro i t ht hb
    rcases has_add.1 ht with ht | ⟨_, rfl⟩
    · unfold World.has at ht
      rw [h2] at ht
      exact h.null i t ht hb
    · exact hn hb

/-- A slice that moves in its buffer. -/
theorem inv_move {w : World α} (h : Inv w) {i : Nat} {s : Sl} (hs : w.has i s) (t : Sl) (hb : t.buf = s.buf)
    (hin : ∀ b c, t.buf = some b → w.live b c → t.off + t.size ≤ c.length) (hn : t.buf = none → t.size = 0) : Inv (w.put i (some t)) := by
  have hi := lt_of_has hs
  refine ⟨?_, ?_, ?_, ?_⟩
  · intro b x hx
    have := h.bufs b x hx
    have hc : cnt (w.put i (some t)).sls b = cnt w.sls b := by
      rw [cnt_put hs]
      cases hsb : s.buf with
      | none => simp [dec, refers, hb, hsb]
      | some d =>
        simp only [dec, refers, hb, hsb, Option.some.injEq, decide_eq_true_eq]
        by_cases hd : b = d
        · subst hd
          have := cnt_pos hs hsb
          simp
          omega
        · have hd' : ¬ d = b := fun e => hd e.symm
          simp [hd, hd']
    rw [hc]
    exact this
  · intro j u b hu hub
    rcases (has_put hi).1 hu with ⟨_, h1⟩ | ⟨_, h1⟩
    · injection h1 with h1
      subst h1
      exact h.bound i s b hs (by rw [← hb, hub])
    · exact h.bound j u b h1 hub
  · intro j u b c hu hub hl
    rcases (has_put hi).1 hu with ⟨_, h1⟩ | ⟨_, h1⟩
    · injection h1 with h1
      subst h1
      exact hin b c hub hl
    · exact h.inside j u b c h1 hub hl
  · intro j u hu hub
    rcases (has_put hi).1 hu with ⟨_, h1⟩ | ⟨_, h1⟩
    · injection h1 with h1
      subst h1
      exact hn hub
    · exact h.null j u h1 hub

theorem inv_init : Inv (World.init : World α) :=
  ⟨by intro b x h; simp [World.init] at h, by intro i s b h; simp [World.has, World.init] at h, by intro i s b c h; simp [World.has, World.init] at h,
    by intro i s h; simp [World.has, World.init] at h⟩

theorem inv_alloc {w : World α} (h : Inv w) (c : List α) : Inv (w.alloc c) := by
  have hfresh : cnt w.sls w.bufs.length = 0 := by
    unfold cnt
    rw [List.countP_eq_zero]
    intro o ho
    cases o with
    | none => simp [refers]
    | some s =>
      obtain ⟨i, hi, hs⟩ := List.mem_iff_getElem.1 ho
      have hh : w.has i s := by
        unfold World.has
        rw [List.getElem?_eq_getElem hi, hs]
      simp only [refers, decide_eq_true_eq]
      intro hb
      exact absurd (h.bound i s _ hh hb) (by omega)
  have hhas : ∀ i t, (w.alloc c).has i t → w.has i t ∨ t = ⟨some w.bufs.length, 0, c.length⟩ := by
    intro i t ht
    rcases (has_add (w := w) (s := ⟨some w.bufs.length, 0, c.length⟩)).1 ht with h1 | ⟨_, h1⟩
    · exact Or.inl h1
    · exact Or.inr h1
  have hbuf : ∀ b x, (w.alloc c).bufs[b]? = some x → (b < w.bufs.length ∧ w.bufs[b]? = some x) ∨ (b = w.bufs.length ∧ x = ⟨some c, 1⟩) := by
    intro b x hx
    simp only [World.alloc] at hx
    by_cases hb : b < w.bufs.length
    · rw [List.getElem?_append_left hb] at hx
      exact Or.inl ⟨hb, hx⟩
    · rw [List.getElem?_append_right (by omega)] at hx
      by_cases hb2 : b = w.bufs.length
      · subst hb2
        simp at hx
        exact Or.inr ⟨rfl, hx.symm⟩
      · obtain ⟨k, hk⟩ : ∃ k, b - w.bufs.length = k + 1 := ⟨b - w.bufs.length - 1, by omega⟩
        simp [hk] at hx
  refine ⟨?_, ?_, ?_, ?_⟩
  · intro b x hx
    have hc : cnt (w.alloc c).sls b = inc (cnt w.sls) (some w.bufs.length) b := cnt_append w.sls ⟨some w.bufs.length, 0, c.length⟩ b
    rw [hc]
    rcases hbuf b x hx with ⟨hb, h1⟩ | ⟨rfl, rfl⟩
    · simp only [inc]
      rw [if_neg (by omega)]
      exact h.bufs b x h1
    · simp [inc, hfresh]
  · intro i t b ht hb
    simp only [World.alloc, List.length_append, List.length_cons, List.length_nil]
    rcases hhas i t ht with h1 | rfl
    · have := h.bound i t b h1 hb
      omega
    · simp only [Option.some.injEq] at hb
      omega
  · rintro i t b d ht hb ⟨n, hl⟩
    rcases hhas i t ht with h1 | rfl
    · have hlt := h.bound i t b h1 hb
      rcases hbuf b _ hl with ⟨_, h2⟩ | ⟨h2, _⟩
      · exact h.inside i t b d h1 hb ⟨n, h2⟩
      · omega
    · simp only [Option.some.injEq] at hb
      rcases hbuf b _ hl with ⟨h2, _⟩ | ⟨_, h2⟩
      · omega
      · injection h2 with h2 _
        injection h2 with h2
        subst h2
        simp
  · intro i t ht hb
    rcases hhas i t ht with h1 | rfl
    · exact h.null i t h1 hb
    · simp at hb

theorem inv_destroy {w : World α} (h : Inv w) {i : Nat} {s : Sl} (hs : w.has i s) :
    ∃ w', w.release s.buf = .ok w' ∧ w'.sls = w.sls ∧ Inv (w'.put i none) ∧ ∀ b c, w'.live b c ↔ w.live b c ∧ (s.buf = some b → 1 < cnt w.sls b) := by
  obtain ⟨w', h1, h2, h3, h4, h5⟩ := release_ok h.bufs s.buf (fun b hb => ⟨h.bound i s b hs hb, cnt_pos hs hb⟩)
  have hs' : w'.has i s := by unfold World.has; rw [h2]; exact hs
  have hi := lt_of_has hs'
  have hold : ∀ j t, (w'.put i none).has j t → w.has j t := by
    intro j t ht
    rcases (has_put hi).1 ht with ⟨_, h6⟩ | ⟨_, h6⟩
    · cases h6
    · unfold World.has at h6
      rw [h2] at h6
      exact h6
  refine ⟨w', h1, h2, ⟨?_, ?_, ?_, ?_⟩, h5⟩
  · intro b x hx
    have := h3 b x hx
    have hc : cnt (w'.put i none).sls b = dec (cnt w.sls) s.buf b := by
      rw [cnt_put hs', h2]
      simp [refers]
    rw [hc]
    exact this
  · intro j t b ht hb
    show b < w'.bufs.length
    rw [h4]
    exact h.bound j t b (hold j t ht) hb
  · intro j t b c ht hb hl
    exact h.inside j t b c (hold j t ht) hb ((h5 b c).1 hl).1
  · intro j t ht hb
    exact h.null j t (hold j t ht) hb

theorem inv_assign {w : World α} (h : Inv w) {i j : Nat} {s t : Sl} (hs : w.has i s) (ht : w.has j t) (hne : s.buf ≠ t.buf) :
    ∃ w1 w2, w.release s.buf = .ok w1 ∧ w1.acquire t.buf = .ok w2 ∧ w2.sls = w.sls ∧ Inv (w2.put i (some t)) ∧
      ∀ b c, w2.live b c ↔ w.live b c ∧ (s.buf = some b → 1 < cnt w.sls b) := by
  obtain ⟨w1, h1, h2, h3, h4, h5⟩ := release_ok h.bufs s.buf (fun b hb => ⟨h.bound i s b hs hb, cnt_pos hs hb⟩)
  have hdec : ∀ b, t.buf = some b → dec (cnt w.sls) s.buf b = cnt w.sls b := by
    intro b hb
    cases hsb : s.buf with
    | none => rfl
    | some d =>
      simp only [dec]
      rw [if_neg]
      intro hbd
      subst hbd
      exact hne (hsb.trans hb.symm)
  obtain ⟨w2, g1, g2, g3, g4, g5⟩ := acquire_ok h3 t.buf (fun b hb => ⟨by rw [h4]; exact h.bound j t b ht hb, by rw [hdec b hb]; exact cnt_pos ht hb⟩)
  have h25 : w2.sls = w.sls := g2.trans h2
  have hs' : w2.has i s := by unfold World.has; rw [h25]; exact hs
  have hi := lt_of_has hs'
  have hold : ∀ k u, (w2.put i (some t)).has k u → ∃ k, w.has k u := by
    intro k u hu
    rcases (has_put hi).1 hu with ⟨_, h6⟩ | ⟨_, h6⟩
    · injection h6 with h6
      exact ⟨j, h6 ▸ ht⟩
    · unfold World.has at h6
      rw [h25] at h6
      exact ⟨k, h6⟩
  have hlive : ∀ b c, w2.live b c ↔ w.live b c ∧ (s.buf = some b → 1 < cnt w.sls b) := fun b c => (g5 b c).trans (h5 b c)
  refine ⟨w1, w2, h1, g1, h25, ⟨?_, ?_, ?_, ?_⟩, hlive⟩
  · intro b x hx
    have := g3 b x hx
    have hc : cnt (w2.put i (some t)).sls b = inc (dec (cnt w.sls) s.buf) t.buf b := by
      rw [cnt_put hs', h25]
      cases htb : t.buf with
      | none => simp [refers, htb, inc]
      | some d =>
        simp only [refers, htb, inc, Option.some.injEq, decide_eq_true_eq]
        by_cases hd : b = d
        · simp [hd]
        · have hd' : ¬ d = b := fun e => hd e.symm
          simp [hd, hd']
    rw [hc]
    exact this
  · intro k u b hu hb
    obtain ⟨k', hk'⟩ := hold k u hu
    show b < w2.bufs.length
    rw [g4, h4]
    exact h.bound k' u b hk' hb
  · intro k u b c hu hb hl
    obtain ⟨k', hk'⟩ := hold k u hu
    exact h.inside k' u b c hk' hb ((hlive b c).1 hl).1
  · intro k u hu hb
    obtain ⟨k', hk'⟩ := hold k u hu
    exact h.null k' u hk' hb

end Verif.Slice
