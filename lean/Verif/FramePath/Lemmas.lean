import Verif.FramePath.Model

/-!
# Frames between the API and the pipeline: specification and lemmas
-/

namespace Verif.FramePath

/-- Durations of the sub-frames: full ones, and the rest; `m` zero: no limit. -/
def chunks (d m : Nat) : List Nat :=
  if m = 0 then [d] else List.replicate (d / m) m ++ (if d % m = 0 then [] else [d % m])

/-- Where pieces of these durations begin. -/
def starts : Nat → List Nat → List Nat
  | _, [] => []
  | q, d :: ds => q :: starts (q + d) ds

/-- Union of sets of flags. -/
def orAll : Nat → List Nat → Nat
  | x, [] => x
  | x, y :: ys => orAll (x ||| y) ys

/-- Flags that were there before every piece. -/
def flagsBefore : Nat → List Nat → List Nat
  | _, [] => []
  | x, y :: ys => x :: flagsBefore (x ||| y) ys

/-- The pipeline does not change the size of the frame, and timestamps are not negative. -/
structure Pipe.Fine {σ α : Type} (p : Pipe σ α) : Prop where
  len : ∀ s f, (p.imp s f).2.1.bytes.length = f.bytes.length
  cts : ∀ s f, 0 ≤ f.cts → 0 ≤ (p.imp s f).2.1.cts

theorem chunks_sum (d m : Nat) : (chunks d m).sum = d := by
  unfold chunks
  split
  · simp
  · rw [List.sum_append, List.sum_replicate_nat]
    have h := Nat.div_add_mod d m
    split
    · rename_i h1 h2; simp only [List.sum_nil]; rw [h2] at h; rw [Nat.mul_comm]; omega
    · simp only [List.sum_cons, List.sum_nil]; rw [Nat.mul_comm]; omega

theorem chunks_mem {d m x : Nat} (hd : 0 < d) (h : x ∈ chunks d m) : 0 < x ∧ (m ≠ 0 → x ≤ m) := by
  unfold chunks at h
  split at h
  · rename_i h1; simp only [List.mem_singleton] at h; subst h; exact ⟨hd, fun h2 => absurd h1 h2⟩
  · rename_i h1
    have hlt := Nat.mod_lt d (Nat.pos_of_ne_zero h1)
    rw [List.mem_append] at h
    rcases h with h | h
    · obtain ⟨_, rfl⟩ := List.mem_replicate.1 h; exact ⟨Nat.pos_of_ne_zero h1, fun _ => Nat.le_refl _⟩
    · split at h
      · simp at h
      · rename_i h2
        simp only [List.mem_singleton] at h
        subst h
        exact ⟨Nat.pos_of_ne_zero h2, fun _ => Nat.le_of_lt hlt⟩

theorem chunks_one {d m : Nat} (hd : 0 < d) (h : m = 0 ∨ d ≤ m) : chunks d m = [d] := by
  unfold chunks
  by_cases hm : m = 0
  · rw [if_pos hm]
  · rw [if_neg hm]
    by_cases he : d = m
    · subst he; rw [Nat.div_self hd, Nat.mod_self]; rfl
    · have hlt : d < m := by omega
      rw [Nat.div_eq_of_lt hlt, Nat.mod_eq_of_lt hlt, if_neg (by omega)]; rfl

theorem chunks_cons {d m : Nat} (hm : m ≠ 0) (h : m < d) : chunks d m = m :: chunks (d - m) m := by
  obtain ⟨e, rfl⟩ : ∃ e, d = e + m := ⟨d - m, by omega⟩
  unfold chunks
  rw [if_neg hm, if_neg hm, Nat.add_div_right _ (Nat.pos_of_ne_zero hm), Nat.add_mod_right, Nat.add_sub_cancel]
  rfl

theorem bytes_add (c : Conf) (a b : Nat) : c.bytes (a + b) = c.bytes a + c.bytes b := by
  unfold Conf.bytes
  rw [Nat.add_mul, Nat.add_mul]

theorem bytes_le (c : Conf) {a b : Nat} (h : a ≤ b) : c.bytes a ≤ c.bytes b := by
  obtain ⟨e, rfl⟩ := Nat.exists_eq_add_of_le h
  rw [bytes_add]; exact Nat.le_add_right _ _

theorem glue {α : Type} (b x : List α) (P S : Nat) (h : P + S ≤ b.length) (hx : x.length = S) :
    (b.take P ++ x ++ b.drop (P + S)).length = b.length ∧ (b.take P ++ x ++ b.drop (P + S)).take (P + S) = b.take P ++ x
      ∧ ∀ n, P + S ≤ n → (b.take P ++ x ++ b.drop (P + S)).drop n = b.drop n := by
  have hl : (b.take P ++ x).length = P + S := by rw [List.length_append, List.length_take, hx]; omega
  refine ⟨?_, ?_, ?_⟩
  · rw [List.length_append, hl, List.length_drop]; omega
  · rw [← hl, List.take_left]
  · intro n hn
    rw [List.drop_append, List.drop_eq_nil_of_le (by omega), hl, List.nil_append, List.drop_drop]
    congr 1; omega

/-- What the loop did. -/
structure Ran {σ α : Type} (c : Conf) (p : Pipe σ α) (f : Frame α) (pos fd : Nat) (o : Out σ α) : Prop where
  len : o.left.length = o.given.length
  ne : o.given ≠ []
  durs : o.given.map (·.dur) <+: chunks (fd - pos) c.maxSub
  all : o.ok = true → o.given.map (·.dur) = chunks (fd - pos) c.maxSub
  old : (o.given.map (·.bytes)).flatten = (f.bytes.drop (c.bytes pos)).take (c.bytes (o.given.map (·.dur)).sum)
  lens : o.left.map (·.bytes.length) = o.given.map fun g => c.bytes g.dur
  bytes : o.frame.bytes = f.bytes.take (c.bytes pos) ++ (o.left.map (·.bytes)).flatten
    ++ f.bytes.drop (c.bytes (pos + (o.given.map (·.dur)).sum))
  flags : o.frame.flags = orAll f.flags (o.left.map (·.flags))
  dur : o.frame.dur = pos + (o.given.map (·.dur)).sum
  cts : (pos ≠ 0 → o.frame.cts = f.cts) ∧ (pos = 0 → some o.frame.cts = (o.left.map (·.cts)).head?)
  gcts : o.given.map (·.cts) = (starts pos (o.given.map (·.dur))).map fun q =>
    let b := if q = 0 then f.cts else o.frame.cts
    if b ≠ 0 then b + c.ns q else 0
  gfl : o.given.map (·.flags) = flagsBefore f.flags (o.left.map (·.flags))
  good : (∀ s g, (p.imp s g).2.2 = true) → o.ok = true
  same : (∀ s g, (p.imp s g).2.1 = g) → o.left = o.given
  last : ∃ s g, o.given.getLast? = some g ∧ (p.imp s g).2.2 = o.ok

theorem loop_ran {σ α : Type} (c : Conf) (p : Pipe σ α) (hp : p.Fine) (hns : ∀ n, 0 ≤ c.ns n) (fd : Nat) :
    ∀ (n : Nat) (s : σ) (f : Frame α) (pos : Nat), pos < fd → fd - pos < n → c.bytes fd ≤ f.bytes.length → 0 ≤ f.cts →
      (c.maxSub = 0 → pos = 0) → ∃ o, loop c p n s f pos fd = .ok o ∧ Ran c p f pos fd o := by
  intro n
  induction n with
  | zero => intro s f pos h1 h2; omega
  | succ n ih =>
    intro s f pos h1 h2 h3 h4 h5
    -- duration of the sub-frame
    obtain ⟨sd, hsd, hsd0, hsdle, hsdm⟩ : ∃ sd, (if c.maxSub ≠ 0 then min (fd - pos) c.maxSub else fd) = sd ∧ 0 < sd ∧ pos + sd ≤ fd
        ∧ (pos + sd ≠ fd → c.maxSub ≠ 0 ∧ sd = c.maxSub ∧ c.maxSub < fd - pos) := by
      by_cases hm : c.maxSub = 0
      · have := h5 hm
        exact ⟨fd, by rw [if_neg (by simpa using hm)], by omega, by omega, fun h => by omega⟩
      · exact ⟨min (fd - pos) c.maxSub, by rw [if_pos hm], by omega, by omega, fun h => ⟨hm, by omega, by omega⟩⟩
    have hfit : c.bytes pos + c.bytes sd ≤ f.bytes.length := by
      rw [← bytes_add]; exact Nat.le_trans (bytes_le c hsdle) h3
    obtain ⟨g, hg⟩ : ∃ g : Frame α, g = ⟨(f.bytes.drop (c.bytes pos)).take (c.bytes sd), f.flags, sd,
      if f.cts ≠ 0 then f.cts + c.ns pos else 0⟩ := ⟨_, rfl⟩
    have hgc : 0 ≤ g.cts := by rw [hg]; simp only; have := hns pos; split <;> omega
    have hgl : g.bytes.length = c.bytes sd := by rw [hg]; simp only [List.length_take, List.length_drop]; omega
    have hl := hp.len s g
    have hc := hp.cts s g hgc
    have hnext : next c p s f pos fd = .ok ((p.imp s g).1,
        { bytes := f.bytes.take (c.bytes pos) ++ (p.imp s g).2.1.bytes ++ f.bytes.drop (c.bytes pos + c.bytes sd)
          flags := f.flags ||| (p.imp s g).2.1.flags
          dur := pos + sd
          cts := if pos = 0 then (p.imp s g).2.1.cts else f.cts },
        pos + sd, (p.imp s g).2.2, g, (p.imp s g).2.1) := by
      unfold next
      simp only [hsd]
      rw [if_neg (by omega), if_neg (by omega), if_neg (by have := hns pos; omega), ← hg]
    obtain ⟨s', l, ok, himp⟩ : ∃ s' l ok, p.imp s g = (s', l, ok) := ⟨_, _, _, rfl⟩
    rw [himp] at hnext hl hc
    simp only at hnext hl hc
    obtain ⟨q1, q2, q3⟩ := glue f.bytes l.bytes (c.bytes pos) (c.bytes sd) hfit (hl.trans hgl)
    rw [loop, hnext]
    simp only
    have hgd : g.dur = sd := by rw [hg]
    have hgb : g.bytes = (f.bytes.drop (c.bytes pos)).take (c.bytes sd) := by rw [hg]
    have hgt : g.cts = if f.cts ≠ 0 then f.cts + c.ns pos else 0 := by rw [hg]
    by_cases hend : (!ok) = true ∨ pos + sd = fd
    · rw [if_pos hend]
      refine ⟨_, rfl, ⟨rfl, by simp, ?_, ?_, ?_, ?_, ?_, ?_, ?_, ⟨?_, ?_⟩, ?_, ?_, ?_, ?_, ?_⟩⟩
      · simp only [List.map_cons, List.map_nil, hgd]
        by_cases he : pos + sd = fd
        · rw [chunks_one (by omega) (by by_cases hm : c.maxSub = 0 <;> [left; right] <;>
            first | exact hm | (rw [if_pos hm] at hsd; omega))]
          rw [show fd - pos = sd by omega]
          exact List.prefix_refl _
        · obtain ⟨m1, m2, m3⟩ := hsdm he
          rw [chunks_cons m1 m3, m2]
          exact ⟨_, rfl⟩
      · intro hok
        simp only at hok
        have he : pos + sd = fd := by rcases hend with h | h; · rw [hok] at h; simp at h
                                      · exact h
        simp only [List.map_cons, List.map_nil, hgd]
        rw [chunks_one (by omega) (by by_cases hm : c.maxSub = 0 <;> [left; right] <;>
            first | exact hm | (rw [if_pos hm] at hsd; omega))]
        rw [show fd - pos = sd by omega]
      · simp [hgd, hgb]
      · simp [hgd, hl, hgl]
      · simp only [List.map_cons, List.map_nil, List.flatten_cons, List.flatten_nil, List.append_nil, List.sum_cons, List.sum_nil,
          hgd, Nat.add_zero, bytes_add]
      · rfl
      · simp [hgd]
      · intro h; simp only; rw [if_neg h]
      · intro h; simp only [h, if_true]; rfl
      · simp only [List.map_cons, List.map_nil, starts, hgt]
        by_cases h0 : pos = 0
        · simp [h0]
        · simp [h0]
      · simp only [List.map_cons, List.map_nil, flagsBefore, hg]
      · intro h; have := h s g; rw [himp] at this; exact this
      · intro h; have := h s g; rw [himp] at this; simp only at this; rw [this]
      · exact ⟨s, g, rfl, by rw [himp]⟩
    · rw [if_neg hend]
      have hne : pos + sd ≠ fd := fun h => hend (Or.inr h)
      obtain ⟨m1, m2, m3⟩ := hsdm hne
      obtain ⟨o, ho, hr⟩ := ih (p.tasks s') { bytes := f.bytes.take (c.bytes pos) ++ l.bytes ++ f.bytes.drop (c.bytes pos + c.bytes sd)
                                              flags := f.flags ||| l.flags
                                              dur := pos + sd
                                              cts := if pos = 0 then l.cts else f.cts } (pos + sd) (by omega) (by omega)
        (by simp only [q1]; exact h3) (by simp only; split <;> omega) (fun h => absurd h m1)
      simp only [ho]
      obtain ⟨r1, r2, r3, r4, r5, r6, r7, r8, r9, ⟨r10, _⟩, r11, r12, r13, r14, r15⟩ := hr
      have r10 := r10 (by omega)
      simp only at r5 r7 r8 r10 r11
      have hch : chunks (fd - pos) c.maxSub = sd :: chunks (fd - (pos + sd)) c.maxSub := by
        rw [chunks_cons m1 m3, m2, Nat.sub_sub]
      refine ⟨_, rfl, ⟨by simp [r1], by simp, ?_, ?_, ?_, ?_, ?_, ?_, ?_, ⟨?_, ?_⟩, ?_, ?_, ?_, ?_, ?_⟩⟩
      · simp only [List.map_cons, hgd, hch]
        exact (List.prefix_cons_inj sd).2 r3
      · intro hok
        simp only [List.map_cons, hgd, hch]
        rw [r4 hok]
      · simp only [List.map_cons, List.flatten_cons, List.sum_cons, r5, hgd, hgb, bytes_add]
        rw [q3 _ (Nat.le_refl _), List.take_add, List.drop_drop]
      · simp only [List.map_cons, r6, hl, hgl, hgd]
      · simp only [List.map_cons, List.flatten_cons, List.sum_cons, r7, hgd]
        rw [bytes_add c pos sd, q2, q3 _ (by rw [bytes_add, bytes_add]; omega), List.append_assoc, List.append_assoc, List.append_assoc,
          List.append_assoc, Nat.add_assoc]
      · simp only [List.map_cons, r8]; rfl
      · simp only [List.map_cons, List.sum_cons, r9, hgd]; omega
      · intro h; simp only [r10]; rw [if_neg h]
      · intro h; simp only [r10, h, if_true]; rfl
      · simp only [List.map_cons, starts, r11, hgd]
        congr 1
        · rw [hgt, r10]
          by_cases h0 : pos = 0
          · simp [h0]
          · simp [h0]
        · apply List.map_congr_left
          intro q hq
          have hq0 : q ≠ 0 := by
            have : ∀ (ds : List Nat) (a : Nat), q ∈ starts a ds → a ≤ q := by
              intro ds
              induction ds with
              | nil => intro a h; simp [starts] at h
              | cons d ds ih =>
                intro a h
                simp only [starts, List.mem_cons] at h
                rcases h with rfl | h
                · exact Nat.le_refl _
                · have := ih _ h; omega
            have := this _ _ hq
            omega
          simp only [if_neg hq0]
      · simp only [List.map_cons, flagsBefore, r12]
        rw [hg]
      · exact fun h => r13 h
      · intro h; have := h s g; rw [himp] at this; simp only at this; rw [this]; simp only [r14 h]
      · obtain ⟨s1, g1, e1, e2⟩ := r15
        exact ⟨s1, g1, by rw [List.getLast?_cons_of_ne_nil r2]; exact e1, e2⟩

/-- The source below is a stream: a frame gets the next samples, whatever its size. -/
structure Stream {σ α : Type} (c : Conf) (p : Pipe σ α) (rd : σ → Nat → σ × List α) : Prop where
  imp : ∀ s f n, f.bytes.length = c.bytes n → (p.imp s f).1 = (rd s n).1 ∧ (p.imp s f).2.1.bytes = (rd s n).2
    ∧ (p.imp s f).2.2 = true ∧ (p.imp s f).2.1.dur ≠ 0
  tasks : ∀ s, p.tasks s = s
  zero : ∀ s, rd s 0 = (s, [])
  len : ∀ s n, (rd s n).2.length = c.bytes n
  add : ∀ s n m, rd s (n + m) = ((rd (rd s n).1 m).1, (rd s n).2 ++ (rd (rd s n).1 m).2)

theorem loop_stream {σ α : Type} {c : Conf} {p : Pipe σ α} {rd : σ → Nat → σ × List α} (hs : Stream c p rd) (fd : Nat) :
    ∀ (n : Nat) (s : σ) (f : Frame α) (pos : Nat) (o : Out σ α), pos < fd → (c.maxSub = 0 → pos = 0) →
      c.bytes fd ≤ f.bytes.length → loop c p n s f pos fd = .ok o →
      o.ok = true ∧ o.st = (rd s (fd - pos)).1 ∧ (o.left.map (·.bytes)).flatten = (rd s (fd - pos)).2 := by
  intro n
  induction n with
  | zero => intro s f pos o _ _ _ h; simp [loop] at h
  | succ n ih =>
    intro s f pos o h1 h5 h3 h
    rw [loop] at h
    unfold next at h
    simp only at h
    generalize hsd : (if c.maxSub ≠ 0 then min (fd - pos) c.maxSub else fd) = sd at h
    have hle : pos + sd ≤ fd := by
      rw [← hsd]
      split
      · omega
      · rename_i hm; have := h5 (by simpa using hm); omega
    by_cases e1 : f.bytes.length < c.bytes pos + c.bytes sd
    · rw [if_pos e1] at h; simp at h
    rw [if_neg e1] at h
    by_cases e2 : sd = 0
    · rw [if_pos e2] at h; simp at h
    rw [if_neg e2] at h
    by_cases e3 : f.cts ≠ 0 ∧ f.cts + c.ns pos < 0
    · rw [if_pos e3] at h; simp at h
    rw [if_neg e3] at h
    simp only at h
    generalize hg : (⟨(f.bytes.drop (c.bytes pos)).take (c.bytes sd), f.flags, sd,
      if f.cts ≠ 0 then f.cts + c.ns pos else 0⟩ : Frame α) = g at h
    have hgl : g.bytes.length = c.bytes sd := by rw [← hg]; simp only [List.length_take, List.length_drop]; omega
    obtain ⟨i1, i2, i3, _⟩ := hs.imp s g sd hgl
    obtain ⟨s', l, ok, himp⟩ : ∃ s' l ok, p.imp s g = (s', l, ok) := ⟨_, _, _, rfl⟩
    rw [himp] at i1 i2 i3 h
    simp only at i1 i2 i3 h
    subst i3
    have hll : l.bytes.length = c.bytes sd := by rw [i2, hs.len]
    by_cases he : pos + sd = fd
    · rw [if_pos (Or.inr he)] at h
      simp only [Except.ok.injEq] at h
      subst h
      simp only [hs.tasks, List.map_cons, List.map_nil, List.flatten_cons, List.flatten_nil, List.append_nil]
      rw [show fd - pos = sd by omega]
      exact ⟨trivial, i1, i2⟩
    · rw [if_neg (by simp [he])] at h
      rcases hl : loop c p n (p.tasks s') { bytes := f.bytes.take (c.bytes pos) ++ l.bytes ++ f.bytes.drop (c.bytes pos + c.bytes sd)
                                            flags := f.flags ||| l.flags
                                            dur := pos + sd
                                            cts := if pos = 0 then l.cts else f.cts } (pos + sd) fd with e | o'
      · rw [hl] at h; simp at h
      · rw [hl] at h
        simp only [Except.ok.injEq] at h
        subst h
        have hm : c.maxSub ≠ 0 := by
          intro hm
          have := h5 hm
          rw [if_neg (by simpa using hm)] at hsd
          omega
        obtain ⟨j0, j1, j2⟩ := ih _ _ _ _ (by omega) (fun h => absurd h hm)
          (by simp only; rw [(glue f.bytes l.bytes (c.bytes pos) (c.bytes sd) (by omega) hll).1]; exact h3) hl
        have ha := hs.add s sd (fd - (pos + sd))
        rw [show sd + (fd - (pos + sd)) = fd - pos by omega] at ha
        rw [ha]
        simp only [List.map_cons, List.flatten_cons, j0, j1, j2, hs.tasks, i1, i2, true_and]

end Verif.FramePath
