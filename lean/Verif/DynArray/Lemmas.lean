import Verif.DynArray.Spec

/-!
# Dynamic array: invariant
-/

namespace Verif.DynArray

variable {α : Type}

/-- Cells with the objects of `l` in the beginning. -/
def full (l : List α) (k : Nat) : List (Option α) := l.map some ++ List.replicate k none

theorem full_length (l : List α) (k : Nat) : (full l k).length = l.length + k := by simp [full]

theorem full_get (l : List α) (k i : Nat) (h : i < l.length) : (full l k)[i]? = some (some l[i]) := by
  unfold full
  rw [List.getElem?_append_left (by simpa using h)]
  simp [h]

theorem full_end (l : List α) (k : Nat) : (full l (k + 1))[l.length]? = some none := by
  unfold full
  rw [List.getElem?_append_right (by simp)]
  simp

theorem load_full (l : List α) (k i : Nat) (h : i < l.length) : load (full l k) i = .ok l[i] := by
  simp only [load, full_get l k i h]

theorem construct_full (l : List α) (k : Nat) (x : α) : construct (full l (k + 1)) l.length x = .ok (full (l ++ [x]) k) := by
  simp only [construct, full_end]
  congr 1
  unfold full
  simp [List.set_append, List.replicate_succ]

theorem destroy_full (l : List α) (x : α) (k : Nat) : destroy (full (l ++ [x]) k) l.length = .ok (full l (k + 1)) := by
  have h := full_get (l ++ [x]) k l.length (by simp)
  simp only [destroy, h]
  congr 1
  unfold full
  simp [List.set_append, List.replicate_succ]

theorem createLoop_full (x : α) (n : Nat) : ∀ (l : List α) (k : Nat), n ≤ k →
    createLoop x n l.length (full l k) = .ok (full (l ++ List.replicate n x) (k - n)) := by
  induction n with
  | zero => intro l k _; simp [createLoop]
  | succ n ih =>
    intro l k hk
    obtain ⟨k, rfl⟩ : ∃ j, k = j + 1 := ⟨k - 1, by omega⟩
    simp only [createLoop, construct_full]
    have h := ih (l ++ [x]) k (by omega)
    simp only [List.length_append, List.length_cons, List.length_nil, Nat.zero_add] at h
    show createLoop x n (l.length + 1) (full (l ++ [x]) k) = _
    rw [h, List.append_assoc, Nat.add_sub_add_right]
    rfl

theorem destroyLoop_full (lo n : Nat) : ∀ (l : List α) (k : Nat), lo + n = l.length →
    destroyLoop lo n (full l k) = .ok (full (l.take lo) (k + n)) := by
  induction n with
  | zero =>
    intro l k h
    simp only [destroyLoop, Nat.add_zero] at *
    rw [List.take_of_length_le (by omega)]
  | succ n ih =>
    intro l k h
    have hne : l ≠ [] := by intro h0; rw [h0] at h; simp at h
    obtain ⟨m, x, rfl⟩ : ∃ m x, l = m ++ [x] := ⟨l.dropLast, l.getLast hne, (List.dropLast_concat_getLast hne).symm⟩
    simp only [List.length_append, List.length_cons, List.length_nil, Nat.zero_add] at h
    have hm : lo + n = m.length := by omega
    simp only [destroyLoop, hm, destroy_full]
    show destroyLoop lo n (full m (k + 1)) = _
    rw [ih m (k + 1) hm, List.take_append_of_le_length (by omega)]
    congr 2
    omega

theorem copyLoop_full (l : List α) (j : Nat) (k : Nat) : ∀ (n c : Nat), n + k = l.length → k ≤ c →
    copyLoop (full l j) k n (full (l.take n) c) = .ok (full l (c - k)) := by
  induction k with
  | zero =>
    intro n c h _
    simp only [copyLoop, Nat.add_zero] at *
    rw [List.take_of_length_le (by omega)]
    rfl
  | succ k ih =>
    intro n c h hc
    obtain ⟨c, rfl⟩ : ∃ j, c = j + 1 := ⟨c - 1, by omega⟩
    have hn : n < l.length := by omega
    simp only [copyLoop, load_full l j n hn]
    have h1 := construct_full (l.take n) c l[n]
    rw [List.length_take, Nat.min_eq_left (by omega), List.take_append_getElem hn] at h1
    show (do let c ← construct (full (l.take n) (c + 1)) n l[n]; copyLoop (full l j) k (n + 1) c) = _
    rw [h1]
    show copyLoop (full l j) k (n + 1) (full (l.take (n + 1)) c) = _
    rw [ih (n + 1) c (by omega) (by omega), Nat.add_sub_add_right]

/-- The array has the elements of `l`. -/
structure Rep (p : Par α) (a : Arr α) (l : List α) : Prop where
  size : a.size = l.length
  cells : ∃ k, a.data.cells = full l k
  cap : a.cap ≤ a.data.cells.length
  fits : a.size ≤ a.cap
  emb : ∀ c, a.data = .emb c → c.length = p.emb
  heap : ∀ c, a.data = .heap c → p.emb < a.cap
  live : a.live = a.data.blocks

theorem rep_init (p : Par α) : Rep p Arr.init [] :=
  ⟨rfl, ⟨0, rfl⟩, by simp [Arr.init, Data.cells], by simp [Arr.init], by simp [Arr.init], by simp [Arr.init], rfl⟩

theorem put_cells {d : Data α} {c : List (Option α)} (h : d ≠ .null) : (d.put c).cells = c := by
  cases d <;> simp_all [Data.put, Data.cells]

theorem put_blocks (d : Data α) (c : List (Option α)) : (d.put c).blocks = d.blocks := by cases d <;> rfl

/-- Growth: the elements stay, the capacity is enough or nothing changes. -/
theorem grow_rep {p : Par α} {a : Arr α} {l : List α} (hp : 0 < p.sz) (h : Rep p a l) (fit : Bool) (n : Nat) (hn : n * p.sz < M) :
    ∃ b ok, a.grow p fit n = .ok (b, ok) ∧ Rep p b l ∧ (ok = true → n ≤ b.cap) ∧ (ok = false → fit = false ∧ b = a) ∧
      b.copies ≤ a.copies + (if a.cap < n then a.size else 0) ∧ b.cap = (if ok = true then max a.cap n else a.cap) := by
  unfold Arr.grow
  by_cases h1 : n ≤ a.cap
  · rw [if_pos h1]
    exact ⟨a, true, rfl, h, fun _ => h1, by simp, by simp, by simp; omega⟩
  · rw [if_neg h1]
    obtain ⟨k, hk⟩ := h.cells
    have hmod : n * p.sz % M / p.sz = n := by rw [Nat.mod_eq_of_lt hn, Nat.mul_div_cancel _ hp]
    have hsz := h.size
    have hfit := h.fits
    have hmove : ∀ d : Data α, d ≠ .null → d.cells = full [] d.cells.length → n ≤ d.cells.length → (∀ c, d = .emb c → c.length = p.emb) →
        (∀ c, d = .heap c → p.emb < n) →
        ∃ b ok, (do
          let c ← copyLoop a.data.cells a.size 0 d.cells
          let _ ← destroyLoop 0 a.size a.data.cells
          Except.ok ({ a with data := d.put c, cap := n, live := a.live + d.blocks - a.data.blocks, copies := a.copies + a.size }, true)) = Except.ok (b, ok) ∧
          Rep p b l ∧ (ok = true → n ≤ b.cap) ∧ (ok = false → fit = false ∧ b = a) ∧
          b.copies ≤ a.copies + (if a.cap < n then a.size else 0) ∧ b.cap = (if ok = true then max a.cap n else a.cap) := by
      intro d hd hc hlen he hh
      have e1 : copyLoop a.data.cells a.size 0 d.cells = .ok (full l (d.cells.length - a.size)) := by
        rw [hc, hk, hsz]
        have := copyLoop_full l k l.length 0 d.cells.length (by omega) (by omega)
        simpa [full_length] using this
      have e2 : destroyLoop 0 a.size a.data.cells = .ok (full (l.take 0) (k + a.size)) := by
        rw [hk]
        exact destroyLoop_full 0 a.size l k (by omega)
      rw [e1, e2]
      refine ⟨_, true, rfl, ⟨hsz, ⟨_, put_cells hd⟩, ?_, ?_, ?_, ?_, ?_⟩, by simp, by simp, ?_, ?_⟩
      · show n ≤ (d.put _).cells.length
        rw [put_cells hd, full_length]
        omega
      · show a.size ≤ n
        omega
      · intro c hc2
        cases d with
        | null => exact absurd rfl hd
        | emb c0 =>
          simp only [Data.put, Data.emb.injEq] at hc2
          rw [← hc2, full_length, ← he c0 rfl]
          simp only [Data.cells] at *
          omega
        | heap c0 => simp [Data.put] at hc2
      · intro c hc2
        cases d with
        | null => exact absurd rfl hd
        | emb c0 => simp [Data.put] at hc2
        | heap c0 => exact hh c0 rfl
      · show a.live + d.blocks - a.data.blocks = (d.put _).blocks
        rw [put_blocks, h.live]
        omega
      · show a.copies + a.size ≤ _
        rw [if_pos (by omega)]
        omega
      · show n = _
        rw [if_pos rfl]
        omega
    unfold allocate
    by_cases h2 : n ≤ p.emb
    · rw [if_pos h2]
      by_cases h3 : (Data.emb (List.replicate p.emb none)).moved a.data = true
      · simp only [h3, if_true]
        exact hmove _ (by simp) (by simp [full, Data.cells]) (by simpa [Data.cells] using h2) (by intro c hc; cases hc; simp) (by intro c hc; cases hc)
      · simp only [h3]
        obtain ⟨c0, hc0⟩ : ∃ c, a.data = .emb c := by
          cases hd : a.data with
          | null => rw [hd] at h3; exact absurd rfl h3
          | emb c => exact ⟨c, rfl⟩
          | heap c => rw [hd] at h3; exact absurd rfl h3
        refine ⟨_, true, rfl, ⟨hsz, ⟨k, hk⟩, ?_, ?_, h.emb, ?_, h.live⟩, by simp, by simp, by simp, ?_⟩
        · show n ≤ a.data.cells.length
          have := h.emb c0 hc0
          rw [hc0]
          simp only [Data.cells]
          omega
        · show a.size ≤ n
          omega
        · intro c hc
          rw [hc0] at hc
          cases hc
        · show n = _
          rw [if_pos rfl]
          omega
    · rw [if_neg h2]
      by_cases h3 : fit = true
      · rw [if_pos h3, hmod]
        have h4 : (Data.heap (List.replicate n (none : Option α))).moved a.data = true := rfl
        simp only [h4, if_true]
        exact hmove _ (by simp) (by simp [full, Data.cells]) (by simp [Data.cells]) (by intro c hc; cases hc) (by intro c hc; omega)
      · rw [if_neg h3]
        exact ⟨a, false, rfl, h, by simp, fun _ => ⟨by simpa using h3, rfl⟩, by simp, by simp⟩

/-- While nothing wraps, the loop of `next_capacity_` ends with at least the requested number, and less than twice of it. -/
theorem nextLoop_spec (exp : Bool) (n : Nat) (hn : n < 2 ^ 63) (h0 : 0 < n) : ∀ (f c : Nat), (exp = false → 4 ≤ c) → n + 2 ≤ f + c → c ≤ 2 * n →
    ∃ d, nextLoop exp n (f + 1) c = some d ∧ n ≤ d ∧ d ≤ 2 * n ∧ c ≤ d := by
  intro f
  induction f with
  | zero =>
    intro c _ h1 h2
    simp only [nextLoop]
    rw [if_neg (by omega)]
    exact ⟨c, rfl, by omega, h2, by omega⟩
  | succ f ih =>
    intro c he h1 h2
    rw [nextLoop]
    by_cases h3 : n > c
    · rw [if_pos h3]
      have hs : c < nextStep exp c ∧ nextStep exp c ≤ 2 * n ∧ (exp = false → 4 ≤ nextStep exp c) := by
        unfold nextStep M
        cases exp with
        | false => have := he rfl; simp only [Bool.false_eq_true, if_false]; rw [Nat.mod_eq_of_lt (by omega)]; exact ⟨by omega, by omega, fun _ => by omega⟩
        | true =>
          simp only [if_true]
          split
          · exact ⟨by omega, by omega, by simp⟩
          · rw [Nat.mod_eq_of_lt (by omega)]
            exact ⟨by omega, by omega, by simp⟩
      obtain ⟨d, d1, d2, d3, d4⟩ := ih (nextStep exp c) hs.2.2 (by omega) hs.2.1
      exact ⟨d, d1, d2, d3, by omega⟩
    · rw [if_neg h3]
      exact ⟨c, rfl, by omega, h2, by omega⟩

theorem nextCapacity_spec (cap n : Nat) (hn : n < 2 ^ 63) (h : cap < n) :
    ∃ d, nextCapacity cap n = some d ∧ n ≤ d ∧ d ≤ 2 * n := by
  obtain ⟨d, h1, h2, h3, _⟩ := nextLoop_spec (decide (cap < 1024)) n hn (by omega) M cap (by simp; omega) (by unfold M; omega) (by omega)
  exact ⟨d, h1, h2, h3⟩

theorem growExp_rep {p : Par α} {a : Arr α} {l : List α} (hp : 0 < p.sz) (h : Rep p a l) (fit : Bool) (n : Nat) (hn : 2 * n * p.sz < M) :
    ∃ b ok, a.growExp p fit n = .ok (b, ok) ∧ Rep p b l ∧ (ok = true → n ≤ b.cap) ∧ (ok = false → fit = false ∧ b = a) := by
  unfold Arr.growExp
  by_cases h1 : n ≤ a.cap
  · rw [if_pos h1]
    exact ⟨a, true, rfl, h, fun _ => h1, by simp⟩
  · rw [if_neg h1]
    have h2 : 2 * n ≤ 2 * n * p.sz := Nat.le_mul_of_pos_right _ hp
    obtain ⟨d, d1, d2, d3⟩ := nextCapacity_spec a.cap n (by unfold M at hn; omega) (by omega)
    rw [d1]
    have h3 : d * p.sz ≤ 2 * n * p.sz := Nat.mul_le_mul_right _ d3
    obtain ⟨b, ok, e1, e2, e3, e4, _⟩ := grow_rep hp h fit d (by omega)
    exact ⟨b, ok, e1, e2, fun ho => by have := e3 ho; omega, e4⟩

theorem null_cap {p : Par α} {a : Arr α} {l : List α} (h : Rep p a l) (hc : 0 < a.cap) : a.data ≠ .null := by
  intro h0
  have := h.cap
  rw [h0] at this
  simp [Data.cells] at this
  omega

/-- The same array with other elements in the same memory. -/
theorem rep_put {p : Par α} {a : Arr α} {l m : List α} {k : Nat} (h : Rep p a l) (hc : a.data ≠ .null) (hm : m.length ≤ a.cap)
    (hk : m.length + k = a.data.cells.length) (n : Nat) : Rep p { a with data := a.data.put (full m k), size := m.length, copies := n } m := by
  refine ⟨rfl, ⟨k, put_cells hc⟩, ?_, hm, ?_, ?_, ?_⟩
  · show a.cap ≤ _
    rw [put_cells hc, full_length, hk]
    exact h.cap
  · intro c hcc
    cases hd : a.data with
    | null => exact absurd hd hc
    | emb c0 =>
      rw [hd] at hcc hk
      simp only [Data.put, Data.emb.injEq] at hcc
      simp only [Data.cells] at hk
      rw [← hcc, full_length, hk, h.emb c0 hd]
    | heap c0 => rw [hd] at hcc; simp [Data.put] at hcc
  · intro c hcc
    cases hd : a.data with
    | null => exact absurd hd hc
    | emb c0 => rw [hd] at hcc; simp [Data.put] at hcc
    | heap c0 => exact h.heap c0 hd
  · show a.live = _
    rw [put_blocks]
    exact h.live

theorem push_rep {p : Par α} {a : Arr α} {l : List α} (hp : 0 < p.sz) (h : Rep p a l) (fit : Bool) (x : α) (hn : 2 * (a.size + 1) * p.sz < M) :
    ∃ b ok, a.push p fit (.val x) = .ok (b, ok) ∧ (ok = true → Rep p b (l ++ [x])) ∧ (ok = false → fit = false ∧ b = a ∧ Rep p b l) := by
  unfold Arr.push
  have h2 : 2 * (a.size + 1) ≤ 2 * (a.size + 1) * p.sz := Nat.le_mul_of_pos_right _ hp
  rw [Nat.mod_eq_of_lt (by unfold M at *; omega)]
  obtain ⟨b, ok, e1, e2, e3, e4⟩ := growExp_rep hp h fit (a.size + 1) hn
  rw [e1]
  cases ok with
  | false => exact ⟨b, false, rfl, by simp, fun _ => ⟨(e4 rfl).1, (e4 rfl).2, e2⟩⟩
  | true =>
    obtain ⟨k, hk⟩ := e2.cells
    have hs := e2.size
    have hs0 := h.size
    have h3 := e3 rfl
    have hc := e2.cap
    rw [hk, full_length] at hc
    obtain ⟨k, rfl⟩ : ∃ j, k = j + 1 := ⟨k - 1, by omega⟩
    have h4 : construct b.data.cells b.size x = .ok (full (l ++ [x]) k) := by rw [hk, hs]; exact construct_full l k x
    refine ⟨{ b with data := b.data.put (full (l ++ [x]) k), size := (l ++ [x]).length, copies := b.copies + 1 }, true, ?_, ?_, by simp⟩
    · show (do let c ← construct b.data.cells b.size x; Except.ok (({ b with data := b.data.put c, size := b.size + 1, copies := b.copies + 1 } : Arr α), true)) = _
      rw [h4, hs]
      simp only [List.length_append, List.length_cons, List.length_nil, Nat.zero_add]
      rfl
    · intro _
      refine rep_put e2 (null_cap e2 (by omega)) ?_ ?_ _
      · simp only [List.length_append, List.length_cons, List.length_nil]
        omega
      · rw [hk, full_length]
        simp only [List.length_append, List.length_cons, List.length_nil]
        omega

theorem resize_rep {p : Par α} {a : Arr α} {l : List α} (hp : 0 < p.sz) (h : Rep p a l) (fit : Bool) (n : Nat) (hn : n * p.sz < M) :
    ∃ b ok, a.resize p fit n = .ok (b, ok) ∧ (ok = true → Rep p b (l.take n ++ List.replicate (n - l.length) p.dflt)) ∧
      (ok = false → fit = false ∧ a.cap < n ∧ b = a ∧ Rep p b l) := by
  unfold Arr.resize
  obtain ⟨b, ok, e1, e2, e3, e4, _, e6⟩ := grow_rep hp h fit n hn
  rw [e1]
  cases ok with
  | false =>
    refine ⟨b, false, rfl, by simp, fun _ => ⟨(e4 rfl).1, ?_, (e4 rfl).2, e2⟩⟩
    by_cases hcap : n ≤ a.cap
    · unfold Arr.grow at e1
      rw [if_pos hcap] at e1
      simp at e1
    · omega
  | true =>
    obtain ⟨k, hk⟩ := e2.cells
    have hs := e2.size
    have h3 := e3 rfl
    have hc := e2.cap
    rw [hk, full_length] at hc
    have hlen : (l ++ List.replicate (n - l.length) p.dflt).length = max l.length n := by simp; omega
    have c1 : createLoop p.dflt (n - b.size) b.size b.data.cells = .ok (full (l ++ List.replicate (n - l.length) p.dflt) (k - (n - l.length))) := by
      rw [hk, hs]
      exact createLoop_full p.dflt (n - l.length) l k (by omega)
    have c2 : destroyLoop n (b.size - n) (full (l ++ List.replicate (n - l.length) p.dflt) (k - (n - l.length))) =
        .ok (full (l.take n ++ List.replicate (n - l.length) p.dflt) (k - (n - l.length) + (l.length - n))) := by
      by_cases hle : n ≤ l.length
      · have h0 : n - l.length = 0 := by omega
        rw [h0, hs]
        simp only [List.replicate_zero, List.append_nil]
        exact destroyLoop_full n (l.length - n) l _ (by omega)
      · have h0 : b.size - n = 0 := by omega
        have h1 : l.length - n = 0 := by omega
        rw [h0, h1, List.take_of_length_le (by omega)]
        rfl
    have hl2 : (l.take n ++ List.replicate (n - l.length) p.dflt).length = n := by simp; omega
    refine ⟨{ b with data := b.data.put (full (l.take n ++ List.replicate (n - l.length) p.dflt) (k - (n - l.length) + (l.length - n))), size := n }, true, ?_, ?_, by simp⟩
    · show (do
        let c ← createLoop p.dflt (n - b.size) b.size b.data.cells
        let c ← destroyLoop n (b.size - n) c
        Except.ok (({ b with data := b.data.put c, size := n } : Arr α), true)) = _
      rw [c1]
      show (do
        let c ← destroyLoop n (b.size - n) _
        Except.ok (({ b with data := b.data.put c, size := n } : Arr α), true)) = _
      rw [c2]
      rfl
    · intro _
      by_cases hnull : b.data = .null
      · have h0 := e2.cap
        rw [hnull] at h0
        simp only [Data.cells, List.length_nil] at h0
        have hn0 : n = 0 := by omega
        have hl0 : l = [] := List.length_eq_zero_iff.1 (by have := e2.fits; omega)
        subst hn0 hl0
        refine ⟨by simp, ⟨0, ?_⟩, ?_, ?_, ?_, ?_, ?_⟩
        · show (b.data.put _).cells = _
          rw [hnull]; rfl
        · show b.cap ≤ _
          omega
        · show 0 ≤ _
          omega
        · intro c hcc
          simp only [hnull, Data.put] at hcc
          cases hcc
        · intro c hcc
          simp only [hnull, Data.put] at hcc
          cases hcc
        · show b.live = _
          rw [put_blocks]
          exact e2.live
      · have := rep_put e2 hnull (m := l.take n ++ List.replicate (n - l.length) p.dflt) (k := k - (n - l.length) + (l.length - n)) (by omega) ?_ b.copies
        · rw [hl2] at this
          exact this
        · rw [hk, full_length, hl2]
          omega

end Verif.DynArray
