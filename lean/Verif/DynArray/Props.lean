import Verif.DynArray.Lemmas

/-!
# Dynamic array: properties
-/

namespace Verif.DynArray

variable {α : Type}

theorem get_rep {p : Par α} {a : Arr α} {l : List α} (h : Rep p a l) (i : Nat) :
    (l.length ≤ i → a.get i = .error .panic) ∧ ∀ hi : i < l.length, a.get i = .ok l[i] := by
  obtain ⟨k, hk⟩ := h.cells
  have hs := h.size
  refine ⟨fun hi => by unfold Arr.get; rw [if_pos (by omega)], fun hi => ?_⟩
  unfold Arr.get
  rw [if_neg (by omega), hk]
  exact load_full l k i hi

theorem elems_rep {p : Par α} {a : Arr α} {l : List α} (h : Rep p a l) : a.elems = l.map .ok := by
  unfold Arr.elems
  apply List.ext_getElem
  · simp [h.size]
  · intro i h1 h2
    simp only [List.getElem_map, List.getElem_range]
    exact (get_rep h i).2 (by simpa using h2)

/-- Effect of one operation. -/
theorem step_rep {p : Par α} (hp : 0 < p.sz) {a : Arr α} {l : List α} (h : Rep p a l) (o : Op α) (hs : Small p a.size o) :
    (Bad l o → a.step p o = .error .panic) ∧
    (¬ Bad l o → ∃ b r done m, a.step p o = .ok (b, r) ∧ listStep p.dflt l o done = some (m, r) ∧ Rep p b m ∧
      (done = false → (∃ v, o = .push false v) ∨ (∃ n, o = .resize false n) ∨ (∃ n, o = .grow false n) ∨ ∃ n, o = .growExp false n)) := by
  obtain ⟨k, hk⟩ := h.cells
  have hsz := h.size
  cases o with
  | push f v =>
    cases v with
    | elem i => exact absurd hs (by simp [Small])
    | val x =>
      refine ⟨fun hb => absurd hb (by simp [Bad]), fun _ => ?_⟩
      obtain ⟨b, ok, e1, e2, e3⟩ := push_rep hp h f x hs
      simp only [Arr.step, e1]
      cases ok with
      | true => exact ⟨b, .ok true, true, l ++ [x], rfl, rfl, e2 rfl, by simp⟩
      | false => exact ⟨b, .ok false, false, l, rfl, rfl, (e3 rfl).2.2, fun _ => Or.inl ⟨_, by rw [(e3 rfl).1]⟩⟩
  | resize f n =>
    refine ⟨fun hb => absurd hb (by simp [Bad]), fun _ => ?_⟩
    obtain ⟨b, ok, e1, e2, e3⟩ := resize_rep hp h f n hs
    simp only [Arr.step, e1]
    cases ok with
    | true => exact ⟨b, .ok true, true, _, rfl, rfl, e2 rfl, by simp⟩
    | false => exact ⟨b, .ok false, false, l, rfl, rfl, (e3 rfl).2.2.2, fun _ => Or.inr (Or.inl ⟨_, by rw [(e3 rfl).1]⟩)⟩
  | clear =>
    refine ⟨fun hb => absurd hb (by simp [Bad]), fun _ => ?_⟩
    obtain ⟨b, ok, e1, e2, e3⟩ := resize_rep hp h false 0 (by unfold M; omega)
    simp only [Arr.step, e1]
    cases ok with
    | true =>
      have := e2 rfl
      simp only [List.take_zero, Nat.zero_sub, List.replicate_zero, List.append_nil] at this
      exact ⟨b, .unit, true, [], rfl, rfl, this, by simp⟩
    | false => exact absurd (e3 rfl).2.1 (by omega)
  | grow f n =>
    refine ⟨fun hb => absurd hb (by simp [Bad]), fun _ => ?_⟩
    obtain ⟨b, ok, e1, e2, _, e4, _⟩ := grow_rep hp h f n hs
    simp only [Arr.step, e1]
    cases ok with
    | true => exact ⟨b, .ok true, true, l, rfl, rfl, e2, by simp⟩
    | false => exact ⟨b, .ok false, false, l, rfl, rfl, e2, fun _ => Or.inr (Or.inr (Or.inl ⟨_, by rw [(e4 rfl).1]⟩))⟩
  | growExp f n =>
    refine ⟨fun hb => absurd hb (by simp [Bad]), fun _ => ?_⟩
    obtain ⟨b, ok, e1, e2, _, e4⟩ := growExp_rep hp h f n hs
    simp only [Arr.step, e1]
    cases ok with
    | true => exact ⟨b, .ok true, true, l, rfl, rfl, e2, by simp⟩
    | false => exact ⟨b, .ok false, false, l, rfl, rfl, e2, fun _ => Or.inr (Or.inr (Or.inr ⟨_, by rw [(e4 rfl).1]⟩))⟩
  | pop =>
    refine ⟨fun hb => ?_, fun hb => ?_⟩
    · simp only [Bad] at hb
      simp only [Arr.step, Arr.pop]
      rw [if_pos (by rw [hsz, hb]; rfl)]
      rfl
    · simp only [Bad] at hb
      obtain ⟨m, x, rfl⟩ : ∃ m x, l = m ++ [x] := ⟨l.dropLast, l.getLast hb, (List.dropLast_concat_getLast hb).symm⟩
      have hlen : a.size = m.length + 1 := by simpa using hsz
      have hf := h.fits
      have h1 : destroy a.data.cells (a.size - 1) = .ok (full m (k + 1)) := by
        rw [hk, hlen]
        exact destroy_full m x k
      have hr := rep_put h (m := m) (k := k + 1) (null_cap h (by omega)) (by omega) (by rw [hk, full_length]; simp; omega) a.copies
      refine ⟨{ a with data := a.data.put (full m (k + 1)), size := m.length }, .unit, true, m, ?_, ?_, hr, by simp⟩
      · simp only [Arr.step, Arr.pop]
        rw [if_neg (by omega), h1, hlen]
        rfl
      · simp only [listStep]
        rw [if_neg hb, List.dropLast_concat]
  | set i x =>
    refine ⟨fun hb => ?_, fun hb => ?_⟩
    · simp only [Bad] at hb
      simp only [Arr.step, Arr.put]
      rw [if_pos (by omega)]
      rfl
    · simp only [Bad, Nat.not_le] at hb
      have hf := h.fits
      have h1 : a.data.cells.set i (some x) = full (l.set i x) k := by
        rw [hk]
        unfold full
        rw [List.set_append]
        simp only [List.length_map, hb, if_true, List.map_set]
      have hr := rep_put h (m := l.set i x) (k := k) (null_cap h (by omega)) (by simp; omega) (by rw [hk, full_length]; simp) a.copies
      refine ⟨{ a with data := a.data.put (full (l.set i x) k), size := (l.set i x).length }, .unit, true, l.set i x, ?_, ?_, hr, by simp⟩
      · simp only [Arr.step, Arr.put]
        rw [if_neg (by omega), h1, hk, load_full l k i hb, List.length_set, ← hsz]
        rfl
      · simp only [listStep]
        rw [if_pos hb]
  | get i =>
    refine ⟨fun hb => ?_, fun hb => ?_⟩
    · simp only [Bad] at hb
      simp only [Arr.step, (get_rep h i).1 hb]
      rfl
    · simp only [Bad, Nat.not_le] at hb
      refine ⟨a, .val l[i], true, l, ?_, ?_, h, by simp⟩
      · simp only [Arr.step, (get_rep h i).2 hb]
        rfl
      · simp [listStep, hb]
  | front =>
    refine ⟨fun hb => ?_, fun hb => ?_⟩
    · simp only [Bad] at hb
      simp only [Arr.step, Arr.front]
      rw [if_pos (by rw [hsz, hb]; rfl)]
      rfl
    · simp only [Bad] at hb
      have hl : 0 < l.length := List.length_pos_iff.2 hb
      refine ⟨a, .val l[0], true, l, ?_, ?_, h, by simp⟩
      · simp only [Arr.step, Arr.front]
        rw [if_neg (by omega), hk, load_full l k 0 hl]
        rfl
      · simp [listStep, List.head?_eq_getElem?, hl]
  | back =>
    refine ⟨fun hb => ?_, fun hb => ?_⟩
    · simp only [Bad] at hb
      simp only [Arr.step, Arr.back]
      rw [if_pos (by rw [hsz, hb]; rfl)]
      rfl
    · simp only [Bad] at hb
      have hl : 0 < l.length := List.length_pos_iff.2 hb
      refine ⟨a, .val (l[l.length - 1]'(by omega)), true, l, ?_, ?_, h, by simp⟩
      · simp only [Arr.step, Arr.back]
        rw [if_neg (by omega), hk, hsz, load_full l k (l.length - 1) (by omega)]
        rfl
      · simp [listStep, List.getLast?_eq_getElem?]

theorem run_rep {p : Par α} (hp : 0 < p.sz) (ops : List (Op α)) : ∀ (a : Arr α) (l : List α), Rep p a l → AllSmall p a ops →
    (∃ b rs m, a.run p ops = .ok (b, rs) ∧ ListRun p.dflt l ops rs m ∧ Rep p b m) ∨
    (∃ pre o post b rs m, ops = pre ++ o :: post ∧ a.run p pre = .ok (b, rs) ∧ ListRun p.dflt l pre rs m ∧ Bad m o ∧ a.run p ops = .error .panic) := by
  induction ops with
  | nil => intro a l h _; exact Or.inl ⟨a, [], l, rfl, ⟨rfl, rfl⟩, h⟩
  | cons o os ih =>
    intro a l h hs
    obtain ⟨s1, s2⟩ := step_rep hp h o hs.1
    by_cases hb : Bad l o
    · refine Or.inr ⟨[], o, os, a, [], l, rfl, rfl, ⟨rfl, rfl⟩, hb, ?_⟩
      simp only [Arr.run, s1 hb]
    · obtain ⟨b, r, done, m, e1, e2, e3, e4⟩ := s2 hb
      rcases ih b m e3 (hs.2 b r e1) with ⟨c, rs, n, f1, f2, f3⟩ | ⟨pre, o', post, c, rs, n, f1, f2, f3, f4, f5⟩
      · refine Or.inl ⟨c, r :: rs, n, ?_, ⟨done, r, rs, m, rfl, e2, f2, e4⟩, f3⟩
        simp only [Arr.run, e1, f1]
      · refine Or.inr ⟨o :: pre, o', post, c, r :: rs, n, by rw [f1]; rfl, ?_, ⟨done, r, rs, m, rfl, e2, f3, e4⟩, f4, ?_⟩
        · simp only [Arr.run, e1, f2]
        · simp only [Arr.run, e1, f5]

/-- **C107**: an array behaves as a list. Every sequence of operations returns what a list returns, and leaves the elements of the list, or it panics at the first
operation on an element that does not exist; nothing is read or written outside of objects of the array. An operation that reports a failure
was refused memory, and changes nothing. -/
theorem C107_list (p : Par α) (hp : 0 < p.sz) (ops : List (Op α)) (h : AllSmall p Arr.init ops) :
    (∃ a rs l, Arr.init.run p ops = .ok (a, rs) ∧ ListRun p.dflt [] ops rs l ∧ a.elems = l.map .ok) ∨
    (∃ pre o post a rs l, ops = pre ++ o :: post ∧ Arr.init.run p pre = .ok (a, rs) ∧ ListRun p.dflt [] pre rs l ∧ Bad l o ∧
      Arr.init.run p ops = .error .panic) := by
  rcases run_rep hp ops Arr.init [] (rep_init p) h with ⟨b, rs, m, h1, h2, h3⟩ | h1
  · exact Or.inl ⟨b, rs, m, h1, h2, elems_rep h3⟩
  · exact Or.inr h1

/-- **C107**: when an array is destroyed, every element it has is destroyed, and no memory of the arena is lost. -/
theorem C107_destroyed (p : Par α) (hp : 0 < p.sz) (ops : List (Op α)) (h : AllSmall p Arr.init ops) (a : Arr α) (rs : List (Ret α))
    (hr : Arr.init.run p ops = .ok (a, rs)) : ∃ d, a.drop p = .ok (d, 0) ∧ ∀ c ∈ d.cells, c = none := by
  rcases run_rep hp ops Arr.init [] (rep_init p) h with ⟨b, rs', m, h1, h2, h3⟩ | ⟨_, _, _, _, _, _, _, _, _, _, h1⟩
  · rw [hr] at h1
    injection h1 with h1
    injection h1 with h1 _
    subst h1
    obtain ⟨b, ok, e1, e2, e3⟩ := resize_rep hp h3 false 0 (by unfold M; omega)
    cases ok with
    | false => exact absurd (e3 rfl).2.1 (by omega)
    | true =>
      have hb := e2 rfl
      simp only [List.take_zero, Nat.zero_sub, List.replicate_zero, List.append_nil] at hb
      refine ⟨b.data, ?_, ?_⟩
      · unfold Arr.drop
        rw [e1]
        show Except.ok (b.data, b.live - b.data.blocks) = _
        rw [hb.live]
        simp
      · obtain ⟨k, hk⟩ := hb.cells
        intro c hc
        rw [hk] at hc
        simp only [full, List.map_nil, List.nil_append] at hc
        exact List.eq_of_mem_replicate hc
  · rw [hr] at h1
    cases h1

/-- Operations that do not ask for an explicit size. -/
def Plain : Op α → Bool
  | .resize _ _ => false
  | .grow _ _ => false
  | .growExp _ _ => false
  | _ => true

/-- A `push_back`. -/
def isPush : Op α → Bool
  | .push _ _ => true
  | _ => false

/-- What is known about the number of copies after `n` pushes: `q` elements were moved by the last growth. -/
def Amort (a : Arr α) (n : Nat) : Prop := ∃ q, a.copies ≤ 6 * q + n ∧ q ≤ n ∧ a.size ≤ n ∧ 6 * q ≤ 5 * a.cap

theorem nextCapacity_one (cap : Nat) (h : cap < 2 ^ 63) : ∃ d, nextCapacity cap (cap + 1) = some d ∧ cap < d ∧ 6 * cap ≤ 5 * d := by
  unfold nextCapacity
  have hM : M + 1 = (M - 1) + 1 + 1 := by unfold M; omega
  rw [hM, nextLoop, if_pos (by omega)]
  by_cases hc : cap < 1024
  · simp only [hc, decide_true]
    have hs : nextStep true cap = if cap = 0 then 2 else cap * 2 := by
      unfold nextStep
      simp only [if_true]
      split
      · rfl
      · rw [Nat.mod_eq_of_lt (by unfold M; omega)]
    rw [hs, nextLoop, if_neg (by split <;> omega)]
    refine ⟨_, rfl, ?_, ?_⟩ <;> split <;> omega
  · simp only [hc, decide_false]
    have hs : nextStep false cap = cap + cap / 4 := by
      unfold nextStep
      simp only [Bool.false_eq_true, if_false]
      rw [Nat.mod_eq_of_lt (by unfold M; omega)]
    rw [hs, nextLoop, if_neg (by omega)]
    exact ⟨_, rfl, by omega, by omega⟩

theorem push_amort {p : Par α} (hp : 0 < p.sz) {a b : Arr α} {l : List α} (h : Rep p a l) (f : Bool) (x : α) (ok : Bool) (n : Nat)
    (hs : 2 * (a.size + 1) * p.sz < M) (he : a.push p f (.val x) = .ok (b, ok)) (hn : Amort a n) : Amort b (n + 1) := by
  obtain ⟨q, q1, q2, q3, q4⟩ := hn
  have h2 : 2 * (a.size + 1) ≤ 2 * (a.size + 1) * p.sz := Nat.le_mul_of_pos_right _ hp
  have hM : 2 * (a.size + 1) < 2 ^ 64 := by unfold M at hs; omega
  -- the array after `grow_exp`
  obtain ⟨g, gok, g1, g2⟩ : ∃ g gok, a.growExp p f (a.size + 1) = .ok (g, gok) ∧ g.size = a.size ∧
      ∃ q, g.copies ≤ 6 * q + n ∧ q ≤ n ∧ 6 * q ≤ 5 * g.cap := by
    unfold Arr.growExp
    by_cases hc : a.size + 1 ≤ a.cap
    · rw [if_pos hc]
      exact ⟨a, true, rfl, rfl, q, q1, q2, q4⟩
    · rw [if_neg hc]
      have hf := h.fits
      have hcap : a.cap = a.size := by omega
      obtain ⟨d, d1, d2, d3⟩ := nextCapacity_one a.cap (by omega)
      have d4 : d ≤ 2 * (a.size + 1) := by
        obtain ⟨d', e1, _, e3⟩ := nextCapacity_spec a.cap (a.cap + 1) (by omega) (by omega)
        rw [d1] at e1
        injection e1 with e1
        omega
      rw [hcap] at d1
      have d5 : d * p.sz ≤ 2 * (a.size + 1) * p.sz := Nat.mul_le_mul_right _ d4
      obtain ⟨g, gok, e1, e2, _, e4, e5, e6⟩ := grow_rep hp h f d (by omega)
      rw [hcap, d1]
      simp only
      refine ⟨g, gok, e1, by rw [e2.size, h.size], ?_⟩
      cases gok with
      | false =>
        rw [(e4 rfl).2]
        exact ⟨q, q1, q2, q4⟩
      | true =>
        simp only [if_true] at e6
        refine ⟨a.cap, ?_, by omega, by omega⟩
        rw [if_pos (by omega)] at e5
        omega
  obtain ⟨g2, q', r1, r2, r3⟩ := g2
  unfold Arr.push at he
  rw [Nat.mod_eq_of_lt (by unfold M; omega), g1] at he
  cases gok with
  | false =>
    change Except.ok (g, false) = _ at he
    injection he with he
    injection he with he _
    subst he
    exact ⟨q', by omega, by omega, by omega, r3⟩
  | true =>
    change (do let c ← construct g.data.cells g.size x; Except.ok (({ g with data := g.data.put c, size := g.size + 1, copies := g.copies + 1 } : Arr α), true)) = _ at he
    cases hc : construct g.data.cells g.size x with
    | error e => rw [hc] at he; cases he
    | ok c =>
      rw [hc] at he
      change Except.ok (({ g with data := g.data.put c, size := g.size + 1, copies := g.copies + 1 } : Arr α), true) = _ at he
      injection he with he
      injection he with he _
      subst he
      exact ⟨q', by show g.copies + 1 ≤ _; omega, by omega, by show g.size + 1 ≤ _; omega, r3⟩

theorem resize_zero_amort {p : Par α} {a b : Arr α} {ok : Bool} (he : a.resize p false 0 = .ok (b, ok)) {n : Nat} (hn : Amort a n) : Amort b n := by
  obtain ⟨q, q1, q2, q3, q4⟩ := hn
  unfold Arr.resize at he
  have hg : a.grow p false 0 = .ok (a, true) := by unfold Arr.grow; rw [if_pos (Nat.zero_le _)]
  rw [hg] at he
  change (do
    let c ← createLoop p.dflt (0 - a.size) a.size a.data.cells
    let c ← destroyLoop 0 (a.size - 0) c
    Except.ok (({ a with data := a.data.put c, size := 0 } : Arr α), true)) = _ at he
  rw [Nat.zero_sub] at he
  change (do
    let c ← destroyLoop 0 (a.size - 0) a.data.cells
    Except.ok (({ a with data := a.data.put c, size := 0 } : Arr α), true)) = _ at he
  cases hd : destroyLoop 0 (a.size - 0) a.data.cells with
  | error e => rw [hd] at he; cases he
  | ok c =>
    rw [hd] at he
    change Except.ok (({ a with data := a.data.put c, size := 0 } : Arr α), true) = _ at he
    injection he with he
    injection he with he _
    subst he
    exact ⟨q, q1, q2, Nat.zero_le _, q4⟩

theorem step_amort {p : Par α} (hp : 0 < p.sz) {a b : Arr α} {l : List α} (h : Rep p a l) (o : Op α) (r : Ret α) (n : Nat) (ho : Plain o = true)
    (hs : Small p a.size o) (he : a.step p o = .ok (b, r)) (hn : Amort a n) : Amort b (n + if isPush o = true then 1 else 0) := by
  have keep : ∀ (c : Arr α), c.copies = a.copies → c.size ≤ a.size → c.cap = a.cap → Amort c n := by
    intro c c1 c2 c3
    obtain ⟨q, q1, q2, q3, q4⟩ := hn
    exact ⟨q, by omega, q2, by omega, by omega⟩
  cases o with
  | push f v =>
    cases v with
    | elem i => exact absurd hs (by simp [Small])
    | val x =>
      simp only [isPush, if_true]
      cases hp1 : a.push p f (.val x) with
      | error e => simp only [Arr.step, hp1] at he; cases he
      | ok r1 =>
        simp only [Arr.step, hp1, Except.map] at he
        injection he with he
        injection he with he _
        subst he
        exact push_amort hp h f x r1.2 n hs hp1 hn
  | resize f n => cases ho
  | grow f n => cases ho
  | growExp f n => cases ho
  | clear =>
    simp only [isPush, Bool.false_eq_true, if_false, Nat.add_zero]
    cases hp1 : a.resize p false 0 with
    | error e => simp only [Arr.step, hp1] at he; cases he
    | ok r1 =>
      simp only [Arr.step, hp1, Except.map] at he
      injection he with he
      injection he with he _
      subst he
      exact resize_zero_amort (ok := r1.2) hp1 hn
  | pop =>
    simp only [isPush, Bool.false_eq_true, if_false, Nat.add_zero]
    simp only [Arr.step, Arr.pop] at he
    by_cases h0 : a.size = 0
    · rw [if_pos h0] at he; cases he
    · rw [if_neg h0] at he
      cases hd : destroy a.data.cells (a.size - 1) with
      | error e => rw [hd] at he; cases he
      | ok c =>
        rw [hd] at he
        change Except.ok (({ a with data := a.data.put c, size := a.size - 1 } : Arr α), Ret.unit) = _ at he
        injection he with he
        injection he with he _
        subst he
        exact keep _ rfl (Nat.sub_le _ _) rfl
  | set i x =>
    simp only [isPush, Bool.false_eq_true, if_false, Nat.add_zero]
    simp only [Arr.step, Arr.put] at he
    by_cases h0 : i ≥ a.size
    · rw [if_pos h0] at he; cases he
    · rw [if_neg h0] at he
      cases hd : load a.data.cells i with
      | error e => rw [hd] at he; cases he
      | ok c =>
        rw [hd] at he
        change Except.ok (({ a with data := a.data.put (a.data.cells.set i (some x)) } : Arr α), Ret.unit) = _ at he
        injection he with he
        injection he with he _
        subst he
        exact keep _ rfl (Nat.le_refl _) rfl
  | get i =>
    simp only [isPush, Bool.false_eq_true, if_false, Nat.add_zero]
    cases hd : a.get i with
    | error e => simp only [Arr.step, hd] at he; cases he
    | ok c =>
      simp only [Arr.step, hd, Except.map] at he
      injection he with he
      injection he with he _
      subst he
      exact hn
  | front =>
    simp only [isPush, Bool.false_eq_true, if_false, Nat.add_zero]
    cases hd : a.front with
    | error e => simp only [Arr.step, hd] at he; cases he
    | ok c =>
      simp only [Arr.step, hd, Except.map] at he
      injection he with he
      injection he with he _
      subst he
      exact hn
  | back =>
    simp only [isPush, Bool.false_eq_true, if_false, Nat.add_zero]
    cases hd : a.back with
    | error e => simp only [Arr.step, hd] at he; cases he
    | ok c =>
      simp only [Arr.step, hd, Except.map] at he
      injection he with he
      injection he with he _
      subst he
      exact hn

theorem run_amort {p : Par α} (hp : 0 < p.sz) (ops : List (Op α)) : ∀ (a b : Arr α) (l : List α) (rs : List (Ret α)) (n : Nat), Rep p a l →
    AllSmall p a ops → (∀ o ∈ ops, Plain o = true) → Amort a n → a.run p ops = .ok (b, rs) → Amort b (n + ops.countP isPush) := by
  induction ops with
  | nil =>
    intro a b l rs n _ _ _ hn hr
    simp only [Arr.run] at hr
    injection hr with hr
    injection hr with hr _
    subst hr
    exact hn
  | cons o os ih =>
    intro a b l rs n h hs hpl hn hr
    obtain ⟨s1, s2⟩ := step_rep hp h o hs.1
    by_cases hb : Bad l o
    · simp only [Arr.run, s1 hb] at hr
      cases hr
    · obtain ⟨c, r, done, m, e1, _, e3, _⟩ := s2 hb
      simp only [Arr.run, e1] at hr
      cases hr2 : c.run p os with
      | error e => rw [hr2] at hr; cases hr
      | ok x =>
        rw [hr2] at hr
        simp only at hr
        injection hr with hr
        injection hr with hr _
        have h1 := step_amort hp h o r n (hpl o (by simp)) hs.1 e1 hn
        have h2 := ih c x.1 m x.2 _ e3 (hs.2 c r e1) (fun o ho => hpl o (by simp [ho])) h1 hr2
        rw [hr] at h2
        rw [List.countP_cons]
        have e : n + (List.countP isPush os + if isPush o = true then 1 else 0) = n + (if isPush o = true then 1 else 0) + List.countP isPush os := by omega
        rw [e]
        exact h2

/-- **C107**: `push_back` has amortized constant cost: `n` of them, mixed in any way with removals and accesses, copy at most `7 n` elements. -/
theorem C107_amortized (p : Par α) (hp : 0 < p.sz) (ops : List (Op α)) (h : AllSmall p Arr.init ops) (hpl : ∀ o ∈ ops, Plain o = true)
    (a : Arr α) (rs : List (Ret α)) (hr : Arr.init.run p ops = .ok (a, rs)) : a.copies ≤ 7 * ops.countP isPush := by
  obtain ⟨q, h1, h2, _⟩ := run_amort hp ops Arr.init a [] rs 0 (rep_init p) h hpl ⟨0, by simp [Arr.init], by omega, by simp [Arr.init], by omega⟩ hr
  omega

/-- **C107**: pushing a copy of an element of the same array works if no growth is needed. -/
theorem C107_alias_partial (p : Par α) (hp : 0 < p.sz) (ops : List (Op α)) (h : AllSmall p Arr.init ops) (a : Arr α) (rs : List (Ret α))
    (hr : Arr.init.run p ops = .ok (a, rs)) (i : Nat) (hi : i < a.size) (hc : a.size < a.cap) (hM : a.size + 1 < M) (fit : Bool) :
    ∃ x, a.get i = .ok x ∧ a.push p fit (.elem i) = a.push p fit (.val x) := by
  rcases run_rep hp ops Arr.init [] (rep_init p) h with ⟨b, rs', m, h1, h2, h3⟩ | ⟨_, _, _, _, _, _, _, _, _, _, h1⟩
  · rw [hr] at h1
    injection h1 with h1
    injection h1 with h1 _
    subst h1
    have hi' : i < m.length := by rw [← h3.size]; exact hi
    refine ⟨m[i], (get_rep h3 i).2 hi', ?_⟩
    obtain ⟨k, hk⟩ := h3.cells
    unfold Arr.push Arr.growExp
    rw [Nat.mod_eq_of_lt hM, if_pos (by omega)]
    have e1 : (Arg.elem i).get a a = .ok m[i] := by
      simp only [Arg.get]
      rw [if_neg (by simp), hk, load_full m k i hi']
    show (do let x ← (Arg.elem i).get a a; _) = (do let x ← (Arg.val m[i]).get a a; _)
    rw [e1]
    rfl
  · rw [hr] at h1
    cases h1

/-- Parameters for the examples: elements of 8 bytes, two embedded elements. -/
def ex : Par Nat := ⟨2, 8, 0⟩

/-- A run that needs `f` of its result. -/
def okAnd {β : Type} (r : Except Err β) (f : β → Bool) : Bool :=
  match r with
  | .ok x => f x
  | .error _ => false

/-- A run that ends with the error `e`. -/
def errIs {β : Type} (r : Except Err β) (e : Err) : Bool :=
  match r with
  | .ok _ => false
  | .error x => decide (x = e)

/-- **C107 is false** for a reference to an element: `a.push_back(a[0])` reads a destroyed object when the array grows. -/
theorem C107_alias_fails : errIs (Arr.init.run ex [.push true (.val 5), .push true (.val 6), .push true (.elem 0)]) .ub = true := by
  decide +kernel

/-- **C107 is false** for sizes that do not fit `size_t`: `grow` succeeds with a block that is too small, and `push_back` writes outside of it. -/
theorem C107_overflow_fails :
    okAnd (Arr.init.run ex [.grow true (2 ^ 61 + 1), .push true (.val 5)]) (fun r => decide (r.2 = [.ok true, .ok true])) = true ∧
    errIs (Arr.init.run ex [.grow true (2 ^ 61 + 1), .push true (.val 5), .push true (.val 6)]) .ub = true := by
  decide +kernel

theorem nextLoop_hang (n : Nat) (hn : 2 ^ 63 < n) (f : Nat) : ∀ c, (c = 0 ∨ ∃ k, k < 64 ∧ c = 2 ^ k) → nextLoop true n f c = none := by
  induction f with
  | zero => intro c _; rfl
  | succ f ih =>
    intro c hc
    have hle : c ≤ 2 ^ 63 := by
      rcases hc with rfl | ⟨k, hk, rfl⟩
      · omega
      · exact Nat.pow_le_pow_right (by omega) (by omega)
    rw [nextLoop, if_pos (by omega)]
    apply ih
    unfold nextStep
    simp only [if_true]
    rcases hc with rfl | ⟨k, hk, rfl⟩
    · exact Or.inr ⟨1, by omega, rfl⟩
    · rw [if_neg (by have := Nat.two_pow_pos k; omega)]
      by_cases h63 : k = 63
      · subst h63
        left
        decide
      · right
        refine ⟨k + 1, by omega, ?_⟩
        rw [← Nat.pow_succ]
        apply Nat.mod_eq_of_lt
        unfold M
        exact Nat.pow_lt_pow_right (by omega) (by omega)

/-- **C107 is false** for huge sizes: `grow_exp` of an empty array never returns if more than `2^63` elements are requested, instead of reporting that there is no memory. -/
theorem C107_hang_fails (p : Par α) (fit : Bool) (n : Nat) (hn : 2 ^ 63 < n) : Arr.init.growExp p fit n = .error .hang := by
  unfold Arr.growExp
  rw [if_neg (by simp [Arr.init]; omega)]
  have : nextCapacity (Arr.init : Arr α).cap n = none := nextLoop_hang n hn _ _ (Or.inl rfl)
  rw [this]

/-- Operations of the example below. -/
def exOps : List (Op Nat) :=
  [.push true (.val 5), .push true (.val 6), .push false (.val 7), .push true (.val 7), .pop, .resize true 4, .set 2 9, .get 2, .back]

/-- Conditions of the theorems for a concrete run: two elements in the embedded memory, a refused growth, a growth, and a change of size. -/
example : okAnd (Arr.init.run ex exOps) (fun r => decide (r.1.elems.map Except.toOption = [some 5, some 6, some 9, some 0] ∧
    r.2 = [.ok true, .ok true, .ok false, .ok true, .unit, .ok true, .unit, .val 9, .val 0] ∧ r.1.copies = 5 ∧ r.1.live = 1)) = true := by
  decide +kernel

/-- No operation asks for more than `n` elements, and nothing is pushed by reference. -/
def Lim (n : Nat) : Op α → Prop
  | .push _ (.elem _) => False
  | .resize _ k => k ≤ n
  | .grow _ k => k ≤ n
  | .growExp _ k => k ≤ n
  | _ => True

/-- The condition of the theorems holds for all sequences of operations with ordinary sizes. -/
theorem allSmall_of {p : Par α} (hp : 0 < p.sz) (ops : List (Op α)) : ∀ (n : Nat) (a : Arr α) (l : List α), Rep p a l → l.length ≤ n →
    (∀ o ∈ ops, Lim n o) → 2 * (n + ops.length + 1) * p.sz < M → AllSmall p a ops := by
  induction ops with
  | nil => intros; trivial
  | cons o os ih =>
    intro n a l h hl ho hM
    simp only [List.length_cons] at hM
    have hmono : ∀ k, k ≤ 2 * (n + (os.length + 1) + 1) → k * p.sz < M := fun k hk => by
      have := Nat.mul_le_mul_right p.sz hk
      omega
    have hs : Small p a.size o := by
      have := ho o (by simp)
      have hsz := h.size
      cases o with
      | push f v =>
        cases v with
        | val x => exact hmono _ (by omega)
        | elem i => exact this
      | resize f k => have : k ≤ n := this; exact hmono _ (by omega)
      | grow f k => have : k ≤ n := this; exact hmono _ (by omega)
      | growExp f k => have : k ≤ n := this; exact hmono _ (by omega)
      | pop => trivial
      | clear => trivial
      | set i x => trivial
      | get i => trivial
      | front => trivial
      | back => trivial
    refine ⟨hs, fun b r hb => ?_⟩
    obtain ⟨s1, s2⟩ := step_rep hp h o hs
    by_cases hbad : Bad l o
    · rw [s1 hbad] at hb
      cases hb
    · obtain ⟨c, r', done, m, e1, e2, e3, _⟩ := s2 hbad
      rw [e1] at hb
      injection hb with hb
      injection hb with hb _
      subst hb
      have hm : m.length ≤ n + 1 := by
        have hlim := ho o (by simp)
        cases o with
        | push f v =>
          cases v with
          | val x =>
            simp only [listStep, Option.some.injEq, Prod.mk.injEq] at e2
            rw [← e2.1]
            split <;> simp <;> omega
          | elem i => exact absurd hlim (by simp [Lim])
        | resize f k =>
          have hk : k ≤ n := hlim
          simp only [listStep, Option.some.injEq, Prod.mk.injEq] at e2
          rw [← e2.1]
          split
          · simp; omega
          · omega
        | grow f k =>
          simp only [listStep, Option.some.injEq, Prod.mk.injEq] at e2
          rw [← e2.1]; omega
        | growExp f k =>
          simp only [listStep, Option.some.injEq, Prod.mk.injEq] at e2
          rw [← e2.1]; omega
        | pop =>
          simp only [listStep] at e2
          split at e2
          · cases e2
          · simp only [Option.some.injEq, Prod.mk.injEq] at e2
            rw [← e2.1]; simp; omega
        | clear =>
          simp only [listStep, Option.some.injEq, Prod.mk.injEq] at e2
          rw [← e2.1]; simp
        | set i x =>
          simp only [listStep] at e2
          split at e2
          · simp only [Option.some.injEq, Prod.mk.injEq] at e2
            rw [← e2.1]; simp; omega
          · cases e2
        | get i =>
          simp only [listStep, Option.map_eq_some_iff, Prod.mk.injEq] at e2
          obtain ⟨_, _, e2, _⟩ := e2
          rw [← e2]; omega
        | front =>
          simp only [listStep, Option.map_eq_some_iff, Prod.mk.injEq] at e2
          obtain ⟨_, _, e2, _⟩ := e2
          rw [← e2]; omega
        | back =>
          simp only [listStep, Option.map_eq_some_iff, Prod.mk.injEq] at e2
          obtain ⟨_, _, e2, _⟩ := e2
          rw [← e2]; omega
      refine ih (n + 1) c m e3 hm (fun x hx => ?_) (by have : n + 1 + os.length + 1 = n + (os.length + 1) + 1 := by omega
                                                       rw [this]; exact hM)
      have := ho x (by simp [hx])
      cases x with
      | push f v => cases v <;> simp_all [Lim]
      | resize f k => have : k ≤ n := this; show k ≤ n + 1; omega
      | grow f k => have : k ≤ n := this; show k ≤ n + 1; omega
      | growExp f k => have : k ≤ n := this; show k ≤ n + 1; omega
      | pop => trivial
      | clear => trivial
      | set i x => trivial
      | get i => trivial
      | front => trivial
      | back => trivial

/-- Conditions of the theorems for the operations of the example: also after the first two pushes (`C107_alias_partial`: there is room after `resize` and `pop`). -/
example : AllSmall ex Arr.init exOps := by
  refine allSmall_of (by decide) exOps 4 Arr.init [] (rep_init ex) (by simp) ?_ (by decide)
  intro o ho
  simp only [exOps, List.mem_cons, List.not_mem_nil, or_false] at ho
  rcases ho with rfl | rfl | rfl | rfl | rfl | rfl | rfl | rfl | rfl <;> simp [Lim]

/-- A state with room for one more element, where an element can be pushed by reference. -/
example : okAnd (Arr.init.run ex [.push true (.val 5), .push true (.val 6), .push true (.val 7)]) (fun r => decide (r.1.size < r.1.cap) &&
    okAnd (r.1.push ex true (.elem 0)) (fun r => decide (r.1.elems.map Except.toOption = [some 5, some 6, some 7, some 5]))) = true := by
  decide +kernel

/-- Operations of `C107_amortized`: 9 pushes, with a removal in between. -/
example : (∀ o ∈ (.pop :: List.replicate 9 (.push true (.val 1)) : List (Op Nat)), Plain o = true) ∧
    okAnd (Arr.init.run ex (List.replicate 5 (.push true (.val 1)) ++ .pop :: List.replicate 4 (.push true (.val 1)))) (fun r => decide (r.1.copies = 15)) = true := by
  decide +kernel

end Verif.DynArray
