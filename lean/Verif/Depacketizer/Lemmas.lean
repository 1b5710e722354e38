import Verif.Depacketizer.Spec
import Mathlib.Tactic.SplitIfs
import Mathlib.Tactic.Linarith

/-!
# Depacketizer: invariant
-/

namespace Verif.Depacketizer

variable {α : Type}

/-- The result is good. -/
def Sat {β : Type} (P : β → Prop) : Except Fault β → Prop
  | .ok a => P a
  | .error _ => False

theorem Sat.bind {β γ : Type} {P : β → Prop} {Q : γ → Prop} {x : Except Fault β} {g : β → Except Fault γ}
    (h : Sat P x) (hg : ∀ a, P a → Sat Q (g a)) : Sat Q (x.bind g) := by
  cases x with
  | ok a => exact hg a h
  | error f => exact h

theorem Sat.mono {β : Type} {P Q : β → Prop} {x : Except Fault β} (h : Sat P x) (hg : ∀ a, P a → Q a) : Sat Q x := by
  cases x with
  | ok a => exact hg a h
  | error f => exact h

theorem Sat.elim {β : Type} {P : β → Prop} {x : Except Fault β} (h : Sat P x) : ∃ a, x = .ok a ∧ P a := by
  cases x with
  | ok a => exact ⟨a, rfl, h⟩
  | error f => exact absurd h id

/-- A sane packet. -/
def POk (p : Pkt α) : Prop := p.ts < m32 ∧ 0 < p.samples.length ∧ p.samples.length < 2147483648

/-- The current packet: `x` is when it was obtained, `D` is the position of its next sample. -/
structure Held (f0 pos : Nat) (dp : Nat) (rem : List α) (x : Nat × Pkt α) (D : Nat) : Prop where
  le : pos ≤ D
  lt : D < pos + 2147483648
  dp : dp = (f0 + D) % m32
  at_ : D = pos ∨ (D : Int) = start f0 x
  ge : start f0 x ≤ D
  stop : (D : Int) + rem.length = stop f0 x
  rem : rem = x.2.samples.drop (D - start f0 x).toNat

structure Inv (f0 : Nat) (s : St α) : Prop where
  first : s.first = false
  ts : s.ts = (f0 + s.pos) % m32
  none : s.pkt = none → ∀ x ∈ s.got, stop f0 x ≤ s.pos
  some : ∀ dp rem, s.pkt = some (dp, rem) → ∃ done x D, s.got = done ++ [x] ∧ (∀ y ∈ done, stop f0 y ≤ s.pos) ∧ Held f0 s.pos dp rem x D
  tpos : ∀ x ∈ s.got, x.1 ≤ s.pos

theorem sdiff_ahead {f0 pos D : Nat} (h1 : pos ≤ D) (h2 : D < pos + 2147483648) :
    sdiff ((f0 + D) % m32) ((f0 + pos) % m32) = D - pos ∧ ((f0 + pos) % m32 ≠ (f0 + D) % m32 → sdiff ((f0 + pos) % m32) ((f0 + D) % m32) < 0) := by
  unfold sdiff
  simp only [m32]
  omega

theorem eq_ahead {f0 pos D : Nat} (h1 : pos ≤ D) (h2 : D < pos + 2147483648) (h : (f0 + pos) % m32 = (f0 + D) % m32) : D = pos := by
  simp only [m32] at h
  omega

/-- Past packets give nothing. -/
theorem sampleAt_past {f0 : Nat} {x : Nat × Pkt α} {pos i : Nat} (h : stop f0 x ≤ pos) (hi : pos ≤ i) : sampleAt f0 i x = none := by
  unfold sampleAt
  split_ifs with hc
  · apply List.getElem?_eq_none
    have : start f0 x = stop f0 x - x.2.samples.length := rfl
    omega
  · rfl

theorem findSome_none {β γ : Type} {g : β → Option γ} {l : List β} (h : ∀ x ∈ l, g x = none) : l.findSome? g = none := by
  rw [List.findSome?_eq_none_iff]; exact h

/-- Nothing is expected when all packets are past. -/
theorem expected_none {f0 : Nat} {s : St α} (hi : Inv f0 s) (hp : s.pkt = none) {i : Nat} (h : s.pos ≤ i) : expected f0 s.got i = none :=
  findSome_none (fun x hx => sampleAt_past (hi.none hp x hx) h)

theorem expected_gap {f0 : Nat} {s : St α} {done : List (Nat × Pkt α)} {x : Nat × Pkt α} {dp D : Nat} {rem : List α} (hg : s.got = done ++ [x])
    (hd : ∀ y ∈ done, stop f0 y ≤ s.pos) (hh : Held f0 s.pos dp rem x D) {i : Nat} (h : s.pos ≤ i) (hlt : i < D) :
    expected f0 s.got i = none ∧ (i : Int) < start f0 x := by
  have h1 : (D : Int) = start f0 x := by
    rcases hh.at_ with h1 | h1
    · omega
    · exact h1
  refine ⟨?_, by omega⟩
  unfold expected
  rw [hg]
  apply findSome_none
  intro y hy
  rcases List.mem_append.mp hy with hy | hy
  · exact sampleAt_past (hd y hy) h
  · rw [List.mem_singleton.mp hy]
    unfold sampleAt
    rw [if_neg (by omega)]

theorem expected_play {f0 : Nat} {s : St α} {done : List (Nat × Pkt α)} {x : Nat × Pkt α} {dp : Nat} {rem : List α} (hg : s.got = done ++ [x])
    (hd : ∀ y ∈ done, stop f0 y ≤ s.pos) (hx : x.1 ≤ s.pos) (hh : Held f0 s.pos dp rem x s.pos) (j : Nat) :
    expected f0 s.got (s.pos + j) = rem[j]? := by
  unfold expected
  rw [hg, List.findSome?_append, findSome_none (fun y hy => sampleAt_past (hd y hy) (by omega))]
  have h1 := hh.ge
  simp only [List.findSome?_cons, List.findSome?_nil, Option.none_or]
  have : sampleAt f0 (s.pos + j) x = rem[j]? := by
    unfold sampleAt
    rw [if_pos ⟨by omega, by omega⟩, hh.rem, List.getElem?_drop]
    congr 1
    omega
  rw [this]
  cases rem[j]? <;> rfl

/-- Later packets do not change what is expected. -/
theorem expected_append {f0 : Nat} {got ev : List (Nat × Pkt α)} {i : Nat} (h : ∀ x ∈ ev, i < x.1) : expected f0 (got ++ ev) i = expected f0 got i := by
  unfold expected
  rw [List.findSome?_append, findSome_none (l := ev)]
  · cases List.findSome? (sampleAt f0 i) got <;> rfl
  · intro x hx
    unfold sampleAt
    rw [if_neg (by have := h x hx; omega)]

/-- Samples are the expected ones, and silence has a reason. -/
structure Chunk (f0 : Nat) (got : List (Nat × Pkt α)) (q : List (Pkt α)) (pos : Nat) (out : List (Option α)) : Prop where
  val : ∀ j, j < out.length → out[j]? = some (expected f0 got (pos + j))
  why : ∀ j, out[j]? = some none → q = [] ∨ ∃ x ∈ got, x.1 ≤ pos + j ∧ ((pos + j : Nat) : Int) < start f0 x

/-- Result of reading a part. -/
structure Post (f0 : Nat) (s : St α) (q : List (Pkt α)) (r : Part α) : Prop where
  inv : Inv f0 r.1
  pos : r.1.pos = s.pos + r.2.2.1.length
  ev : ∃ ev, r.1.got = s.got ++ ev ∧ ev.map (·.2) ++ r.2.1 = q ∧ ∀ x ∈ ev, s.pos ≤ x.1 ∧ x.1 ≤ r.1.pos
  chunk : Chunk f0 r.1.got r.2.1 s.pos r.2.2.1

theorem move_pos {s : St α} (h : s.first = false) (n : Nat) : (s.move n).pos = s.pos + n := by
  unfold St.move
  rw [h]; rfl

theorem move_ts {f0 : Nat} {s : St α} (h : s.ts = (f0 + s.pos) % m32) (n : Nat) : (s.move n).ts = (f0 + (s.pos + n)) % m32 := by
  show (s.ts + n) % m32 = _
  rw [h]
  simp only [m32]
  omega

theorem getElem?_replicate_lt {β : Type} {n j : Nat} {a : β} (h : j < n) : (List.replicate n a)[j]? = some a := by
  rw [List.getElem?_replicate, if_pos h]

/-- No packet. -/
theorem post_blank {f0 : Nat} {s : St α} (hi : Inv f0 s) (hp : s.pkt = none) (per : Int) (n : Nat) (info : Info) :
    Post f0 s [] ((blank per s n info).1, [], List.replicate n none, (blank per s n info).2) := by
  have hpos := move_pos hi.first n
  have hpos' : (blank per s n info).1.pos = s.pos + n := hpos
  refine ⟨⟨hi.first, ?_, ?_, ?_, ?_⟩, ?_, ⟨[], by simp [blank, St.move], rfl, fun x hx => by cases hx⟩, ⟨?_, fun _ _ => Or.inl rfl⟩⟩
  · rw [hpos']; exact move_ts hi.ts n
  · intro _ x hx
    rw [hpos']
    have := hi.none hp x hx
    push_cast; omega
  · intro dp rem h
    have h : s.pkt = some (dp, rem) := h
    rw [hp] at h; cases h
  · intro x hx
    rw [hpos']
    have := hi.tpos x hx
    omega
  · show (blank per s n info).1.pos = s.pos + (List.replicate n none).length
    rw [hpos', List.length_replicate]
  · intro j hj
    have hj : j < (List.replicate n (none : Option α)).length := hj
    rw [List.length_replicate] at hj
    show (List.replicate n none)[j]? = some (expected f0 s.got (s.pos + j))
    rw [getElem?_replicate_lt hj, expected_none hi hp (by omega)]

/-- State after silence before a packet. -/
theorem inv_gap {f0 : Nat} {s : St α} (hi : Inv f0 s) {dp : Nat} {rem : List α} (hp : s.pkt = some (dp, rem))
    {done : List (Nat × Pkt α)} {x : Nat × Pkt α} {D : Nat} (hg : s.got = done ++ [x])
    (hd : ∀ y ∈ done, stop f0 y ≤ s.pos) (hh : Held f0 s.pos dp rem x D) {m : Nat} (hm : s.pos + m ≤ D) :
    Inv f0 (s.move m) ∧ (∀ y ∈ done, stop f0 y ≤ (s.move m).pos) ∧ Held f0 (s.move m).pos dp rem x D := by
  have hpos := move_pos hi.first m
  have a1 : ∀ y ∈ done, stop f0 y ≤ (s.move m).pos := by
    intro y hy
    rw [hpos]
    have := hd y hy
    push_cast; omega
  have a2 : Held f0 (s.move m).pos dp rem x D := by
    rw [hpos]
    have h1 := hh.le
    have h2 := hh.lt
    refine ⟨hm, by omega, hh.dp, ?_, hh.ge, hh.stop, hh.rem⟩
    rcases hh.at_ with h3 | h3
    · exact Or.inl (by omega)
    · exact Or.inr h3
  refine ⟨⟨hi.first, ?_, ?_, ?_, ?_⟩, a1, a2⟩
  · rw [hpos]; exact move_ts hi.ts m
  · intro h
    have h : s.pkt = none := h
    rw [hp] at h; cases h
  · intro dp' rem' h
    have h : s.pkt = some (dp', rem') := h
    rw [hp] at h
    injection h with h
    injection h with h1 h2
    rw [← h1, ← h2]
    exact ⟨done, x, D, hg, a1, a2⟩
  · intro y hy
    rw [hpos]
    have := hi.tpos y hy
    omega

/-- State after playing samples of the packet. -/
theorem inv_play {f0 : Nat} {s : St α} (hi : Inv f0 s) {dp : Nat} {rem : List α}
    {done : List (Nat × Pkt α)} {x : Nat × Pkt α} (hg : s.got = done ++ [x])
    (hd : ∀ y ∈ done, stop f0 y ≤ s.pos) (hh : Held f0 s.pos dp rem x s.pos) (per : Int) (n : Nat) (info : Info) :
    Inv f0 (play per s dp rem (min n rem.length) n info).1 ∧ (play per s dp rem (min n rem.length) n info).1.pos = s.pos + min n rem.length := by
  obtain ⟨k, hk⟩ : ∃ k, k = min n rem.length := ⟨_, rfl⟩
  rw [← hk]
  have hpos : (play per s dp rem k n info).1.pos = s.pos + k := move_pos hi.first k
  refine ⟨⟨hi.first, ?_, ?_, ?_, ?_⟩, hpos⟩
  · rw [hpos]; exact move_ts hi.ts k
  · intro h y hy
    rw [hpos]
    have h : (if k < n then none else some ((dp + k) % m32, rem.drop k)) = none := h
    have hkn : k < n := by
      by_cases hkn : k < n
      · exact hkn
      · rw [if_neg hkn] at h; cases h
    have hkl : k = rem.length := by omega
    have hy : y ∈ s.got := hy
    rw [hg] at hy
    rcases List.mem_append.mp hy with hy | hy
    · have := hd y hy
      push_cast; omega
    · rw [List.mem_singleton.mp hy]
      have := hh.stop
      push_cast; omega
  · intro dp' rem' h
    have h : (if k < n then none else some ((dp + k) % m32, rem.drop k)) = some (dp', rem') := h
    have hkn : ¬ k < n := by
      intro hkn
      rw [if_pos hkn] at h; cases h
    rw [if_neg hkn] at h
    injection h with h
    injection h with h1 h2
    refine ⟨done, x, s.pos + k, hg, ?_, ?_⟩
    · intro y hy
      rw [hpos]
      have := hd y hy
      push_cast; omega
    · rw [hpos, ← h1, ← h2]
      have e1 := hh.ge
      have e2 := hh.stop
      refine ⟨Nat.le_refl _, by omega, ?_, Or.inl rfl, by push_cast; omega, ?_, ?_⟩
      · rw [hh.dp]; simp only [m32]; omega
      · rw [List.length_drop]; push_cast; omega
      · have e3 := hh.rem
        rw [e3, List.drop_drop]
        congr 1
        push_cast; omega
  · intro y hy
    rw [hpos]
    have := hi.tpos y hy
    omega

theorem post_consumeNow {f0 : Nat} {s : St α} (hi : Inv f0 s) {dp : Nat} {rem : List α} {done : List (Nat × Pkt α)} {x : Nat × Pkt α} (hg : s.got = done ++ [x])
    (hd : ∀ y ∈ done, stop f0 y ≤ s.pos) (hh : Held f0 s.pos dp rem x s.pos) (per : Int) (q : List (Pkt α)) (n : Nat) (info : Info) :
    Post f0 s q (consumeNow per s q dp rem n info) := by
  unfold consumeNow
  obtain ⟨h1, h2⟩ := inv_play hi hg hd hh per n info
  have hlen : ((rem.take n).map some).length = min n rem.length := by rw [List.length_map, List.length_take]
  have hx : x.1 ≤ s.pos := hi.tpos x (by rw [hg]; simp)
  refine ⟨h1, ?_, ⟨[], by simp [play, St.move], rfl, fun x hx => by cases hx⟩, ⟨?_, ?_⟩⟩
  · show (play per s dp rem (min n rem.length) n info).1.pos = s.pos + ((rem.take n).map some).length
    rw [h2, hlen]
  · intro j hj
    have hj : j < ((rem.take n).map some).length := hj
    rw [hlen] at hj
    show ((rem.take n).map some)[j]? = some (expected f0 s.got (s.pos + j))
    rw [expected_play hg hd hx hh j, List.getElem?_map, List.getElem?_take_of_lt (by omega)]
    rw [List.getElem?_eq_getElem (by omega)]
    rfl
  · intro j hj
    have hj : ((rem.take n).map some)[j]? = some none := hj
    rw [List.getElem?_map] at hj
    cases h : (rem.take n)[j]? with
    | none => rw [h] at hj; cases hj
    | some a => rw [h] at hj; cases hj

theorem post_consume {f0 : Nat} {s : St α} (hi : Inv f0 s) {dp : Nat} {rem : List α} (hp : s.pkt = some (dp, rem)) {done : List (Nat × Pkt α)} {x : Nat × Pkt α} {D : Nat}
    (hg : s.got = done ++ [x]) (hd : ∀ y ∈ done, stop f0 y ≤ s.pos) (hh : Held f0 s.pos dp rem x D) (per : Int) (q : List (Pkt α)) (n : Nat) (info : Info) :
    Post f0 s q (consume per s q dp rem (min (D - s.pos) n) n info) := by
  obtain ⟨m, hm⟩ : ∃ m, m = min (D - s.pos) n := ⟨_, rfl⟩
  rw [← hm]
  have hle := hh.le
  have hpos := move_pos hi.first m
  obtain ⟨g1, g2, g3⟩ := inv_gap hi hp hg hd hh (m := m) (by omega)
  have hx : x.1 ≤ s.pos := hi.tpos x (by rw [hg]; simp)
  have hgap : ∀ j, j < m → expected f0 s.got (s.pos + j) = none ∧ ((s.pos + j : Nat) : Int) < start f0 x := fun j hj => expected_gap hg hd hh (by omega) (by omega)
  have hmem : x ∈ s.got := by rw [hg]; simp
  unfold consume
  by_cases hn : n - m > 0
  · rw [if_pos hn]
    have hDm : D = (s.move m).pos := by rw [hpos]; omega
    have g3' := g3
    rw [hDm] at g3'
    have hpp := post_consumeNow g1 (x := x) (done := done) hg g2 g3' per q (n - m) (gap per s m info).2
    have hlen : ((rem.take (n - m)).map some).length = min (n - m) rem.length := by rw [List.length_map, List.length_take]
    refine ⟨hpp.inv, ?_, ⟨[], by simp [play, gap, St.move], rfl, fun x hx => by cases hx⟩, ⟨?_, ?_⟩⟩
    · have := hpp.pos
      rw [hpos] at this
      show (consumeNow per (s.move m) q dp rem (n - m) (gap per s m info).2).1.pos = s.pos + (List.replicate m none ++ (rem.take (n - m)).map some).length
      rw [this, List.length_append, List.length_replicate]
      show s.pos + m + ((rem.take (n - m)).map some).length = _
      omega
    · intro j hj
      have hj : j < (List.replicate m none ++ (rem.take (n - m)).map some).length := hj
      show (List.replicate m none ++ (rem.take (n - m)).map some)[j]? = some (expected f0 s.got (s.pos + j))
      rw [List.length_append, List.length_replicate] at hj
      by_cases hjm : j < m
      · rw [List.getElem?_append_left (by rw [List.length_replicate]; exact hjm), getElem?_replicate_lt hjm, (hgap j hjm).1]
      · rw [List.getElem?_append_right (by rw [List.length_replicate]; omega), List.length_replicate]
        have := hpp.chunk.val (j - m) (by show j - m < ((rem.take (n - m)).map some).length; omega)
        rw [hpos] at this
        have e : s.pos + m + (j - m) = s.pos + j := by omega
        rw [e] at this
        exact this
    · intro j hj
      have hj : (List.replicate m none ++ (rem.take (n - m)).map some)[j]? = some none := hj
      by_cases hjm : j < m
      · exact Or.inr ⟨x, hmem, by omega, (hgap j hjm).2⟩
      · rw [List.getElem?_append_right (by rw [List.length_replicate]; omega), List.getElem?_map] at hj
        cases h : (rem.take (n - m))[j - (List.replicate m (none : Option α)).length]? with
        | none => rw [h] at hj; cases hj
        | some a => rw [h] at hj; cases hj
  · rw [if_neg hn]
    refine ⟨g1, ?_, ⟨[], by simp [gap, St.move], rfl, fun x hx => by cases hx⟩, ⟨?_, ?_⟩⟩
    · show (s.move m).pos = s.pos + (List.replicate m none).length
      rw [hpos, List.length_replicate]
    · intro j hj
      have hj : j < (List.replicate m (none : Option α)).length := hj
      rw [List.length_replicate] at hj
      show (List.replicate m none)[j]? = some (expected f0 s.got (s.pos + j))
      rw [getElem?_replicate_lt hj, (hgap j hj).1]
    · intro j hj
      have hj : (List.replicate m (none : Option α))[j]? = some none := hj
      have hjm : j < m := by
        rcases Nat.lt_or_ge j m with h | h
        · exact h
        · rw [List.getElem?_eq_none (by rw [List.length_replicate]; exact h)] at hj; cases hj
      exact Or.inr ⟨x, hmem, by omega, (hgap j hjm).2⟩

theorem post_readPart {f0 : Nat} {s : St α} (hi : Inv f0 s) (per : Int) (q : List (Pkt α)) (hq : s.pkt = none → q = []) (n : Nat) (info : Info) :
    Sat (Post f0 s q) (readPart per s q n info) := by
  unfold readPart
  cases hp : s.pkt with
  | none =>
    rw [hq hp]
    exact post_blank hi hp per n info
  | some y =>
    obtain ⟨dp, rem⟩ := y
    obtain ⟨done, x, D, hg, hd, hh⟩ := hi.some dp rem hp
    show Sat _ (if s.ts ≠ dp then _ else _)
    obtain ⟨e1, e2⟩ := sdiff_ahead (f0 := f0) hh.le hh.lt
    by_cases h1 : s.ts ≠ dp
    · rw [if_pos h1]
      rw [hi.ts, hh.dp] at h1
      rw [if_neg (by rw [hi.ts, hh.dp]; exact not_not.mpr (e2 h1))]
      have e3 : (sdiff dp s.ts).toNat = D - s.pos := by rw [hi.ts, hh.dp, e1]; omega
      rw [e3]
      exact post_consume hi hp hg hd hh per q n info
    · rw [if_neg h1]
      rw [not_not] at h1
      rw [hi.ts, hh.dp] at h1
      have hD := eq_ahead hh.le hh.lt h1
      rw [hD] at hh
      exact post_consumeNow hi hg hd hh per q n info

/-- The loop of `update_packet_`, after the stream has started. -/
theorem fetch_spec {f0 pos : Nat} {ts : Nat} (hts : ts = (f0 + pos) % m32) (q : List (Pkt α)) (hq : ∀ p ∈ q, POk p) :
    ∃ ev r q' d, fetch false ts pos q = (ev, r, q', d) ∧ ev.map (·.2) ++ q' = q ∧ (∀ x ∈ ev, x.1 = pos) ∧
      (r = none → q' = [] ∧ ∀ x ∈ ev, stop f0 x ≤ pos) ∧
      (∀ p, r = some p → POk p ∧ ∃ ev0, ev = ev0 ++ [(pos, p)] ∧ (∀ x ∈ ev0, stop f0 x ≤ pos) ∧ sdiff ts ((p.ts + p.samples.length) % m32) < 0) := by
  induction q with
  | nil => exact ⟨[], none, [], 0, rfl, rfl, (fun x hx => by cases hx), (fun _ => ⟨rfl, (fun x hx => by cases hx)⟩), (fun p hp => by cases hp)⟩
  | cons p q ih =>
    obtain ⟨ev, r, q', d, i1, i2, i3, i4, i5⟩ := ih (fun p hp => hq p (List.mem_cons_of_mem _ hp))
    unfold fetch
    rw [if_neg Bool.false_ne_true]
    by_cases h1 : sdiff ts ((p.ts + p.samples.length) % m32) < 0
    · rw [if_pos h1]
      refine ⟨[(pos, p)], some p, q, 0, rfl, rfl, ?_, (fun c => by cases c), ?_⟩
      · intro x hx
        rw [List.mem_singleton.mp hx]
      · intro p' hp'
        rw [← Option.some.inj hp']
        exact ⟨hq p List.mem_cons_self, [], rfl, (fun x hx => by cases hx), h1⟩
    · rw [if_neg h1, i1]
      have hst : stop f0 (pos, p) ≤ pos := by
        unfold stop
        rw [← hts]
        show (pos : Int) - sdiff ts ((p.ts + p.samples.length) % m32) ≤ pos
        omega
      refine ⟨(pos, p) :: ev, r, q', d + 1, rfl, ?_, ?_, ?_, ?_⟩
      · show p :: (ev.map (·.2) ++ q') = _
        rw [i2]
      · intro x hx
        rcases List.mem_cons.mp hx with hx | hx
        · rw [hx]
        · exact i3 x hx
      · intro hr
        refine ⟨(i4 hr).1, ?_⟩
        intro x hx
        rcases List.mem_cons.mp hx with hx | hx
        · rw [hx]; exact hst
        · exact (i4 hr).2 x hx
      · intro p' hp'
        obtain ⟨j1, ev0, j2, j3, j4⟩ := i5 p' hp'
        refine ⟨j1, (pos, p) :: ev0, by rw [j2]; rfl, ?_, j4⟩
        intro x hx
        rcases List.mem_cons.mp hx with hx | hx
        · rw [hx]; exact hst
        · exact j3 x hx

theorem accept_arith {f0 pos ts L pts : Nat} (hts : ts = (f0 + pos) % m32) (hL : 0 < L) (hL2 : L < 2147483648) (hp : pts < m32)
    (h : sdiff ts ((pts + L) % m32) < 0) :
    sdiff pts ts = - sdiff ts ((pts + L) % m32) - L ∧ sdiff ts pts = L + sdiff ts ((pts + L) % m32) ∧ - sdiff ts ((pts + L) % m32) ≤ 2147483648 := by
  unfold sdiff at *
  simp only [m32] at *
  omega

/-- A packet is accepted, after the stream has started. -/
theorem inv_accept {f0 : Nat} {s : St α} (hf : s.first = false) (hts : s.ts = (f0 + s.pos) % m32) {ev0 : List (Nat × Pkt α)} {p : Pkt α} (hp : POk p)
    (hg : s.got = ev0 ++ [(s.pos, p)]) (he : ∀ y ∈ ev0, stop f0 y ≤ s.pos) (htp : ∀ x ∈ s.got, x.1 ≤ s.pos)
    (hlt : sdiff s.ts ((p.ts + p.samples.length) % m32) < 0) (per : Int) :
    Sat (fun r => Inv f0 r ∧ r.got = s.got ∧ r.pos = s.pos ∧ r.pkt.isSome = true) (accept per s p) := by
  obtain ⟨a1, a2, a3⟩ := accept_arith hts hp.2.1 hp.2.2 hp.1 hlt
  have hst : startTs s p = s.ts := by unfold startTs; rw [hf]; rfl
  obtain ⟨v, hv⟩ : ∃ v, v = sdiff s.ts ((p.ts + p.samples.length) % m32) := ⟨_, rfl⟩
  rw [← hv] at a1 a2 a3 hlt
  have hstop : stop f0 (s.pos, p) = s.pos - v := by
    unfold stop
    rw [← hts, hv]
  have hstart : start f0 (s.pos, p) = s.pos - v - p.samples.length := by
    unfold start
    rw [hstop]
  obtain ⟨p1, p2, p3⟩ := hp
  unfold accept
  rw [hst, a1, a2]
  by_cases h1 : -v - (p.samples.length : Int) < 0
  · rw [if_pos h1, if_neg (by omega)]
    refine ⟨⟨rfl, hts, ?_, ?_, htp⟩, rfl, rfl, rfl⟩
    · intro h; cases h
    · intro dp rem h
      injection h with h
      injection h with h2 h3
      refine ⟨ev0, (s.pos, p), s.pos, hg, he, ?_⟩
      refine ⟨Nat.le_refl _, by show s.pos < s.pos + _; omega, ?_, Or.inl rfl, by rw [hstart]; show _ ≤ (s.pos : Int); omega, ?_, ?_⟩
      · rw [← h2]
        show _ = (f0 + s.pos) % m32
        rw [← hts]
        have hts2 : s.ts < m32 := by rw [hts]; exact Nat.mod_lt _ (by simp [m32])
        unfold sdiff at a1
        simp only [m32] at *
        omega
      · rw [← h3, hstop, List.length_drop]
        show (s.pos : Int) + _ = _
        omega
      · rw [← h3, hstart]
        congr 1
        show _ = ((s.pos : Int) - _).toNat
        omega
  · rw [if_neg h1]
    refine ⟨⟨rfl, hts, ?_, ?_, htp⟩, rfl, rfl, rfl⟩
    · intro h; cases h
    · intro dp rem h
      injection h with h
      injection h with h2 h3
      refine ⟨ev0, (s.pos, p), s.pos + (-v - (p.samples.length : Int)).toNat, hg, he, ?_⟩
      refine ⟨by show s.pos ≤ _; omega, by show _ < s.pos + _; omega, ?_, Or.inr (by rw [hstart]; push_cast; omega), by rw [hstart]; push_cast; omega, ?_, ?_⟩
      · rw [← h2]
        have hts2 : s.ts < m32 := by rw [hts]; exact Nat.mod_lt _ (by simp [m32])
        unfold sdiff at a1
        simp only [m32] at *
        omega
      · rw [← h3, hstop]; push_cast; omega
      · rw [← h3, hstart]
        have : (((s.pos + (-v - (p.samples.length : Int)).toNat : Nat) : Int) - ((s.pos : Int) - v - p.samples.length)).toNat = 0 := by push_cast; omega
        rw [this]; rfl

/-- `update_packet_` after the stream has started. -/
theorem inv_update {f0 : Nat} {s : St α} (hi : Inv f0 s) (per : Int) (q : List (Pkt α)) (hq : ∀ p ∈ q, POk p) :
    Sat (fun u => Inv f0 u.1 ∧ u.1.pos = s.pos ∧ (u.1.pkt = none → u.2.1 = []) ∧ (s.pkt = none → u.1.pkt = none ∨ u.2.1.length < q.length) ∧ (s.pkt.isSome = true → u.1 = s ∧ u.2.1 = q) ∧
      ∃ ev, u.1.got = s.got ++ ev ∧ ev.map (·.2) ++ u.2.1 = q ∧ ∀ x ∈ ev, x.1 = s.pos) (update per s q) := by
  unfold update
  rcases Option.eq_none_or_eq_some s.pkt with hp | ⟨y, hp⟩
  rotate_left
  · rw [if_pos (by rw [hp]; rfl)]
    exact ⟨hi, rfl, (fun c => by have c : s.pkt = none := c; rw [hp] at c; cases c), (fun c => by rw [hp] at c; cases c), (fun _ => ⟨rfl, rfl⟩), [], by simp, rfl, (fun x hx => by cases hx)⟩
  · rw [if_neg (by rw [hp]; simp)]
    obtain ⟨ev, r, q', d, i1, i2, i3, i4, i5⟩ := fetch_spec hi.ts q hq
    have i1 : fetch s.first s.ts s.pos q = (ev, r, q', d) := by rw [hi.first]; exact i1
    rw [i1]
    have hno : ¬ s.pkt.isSome = true := by rw [hp]; simp
    have hgot : ∀ x ∈ s.got ++ ev, x.1 ≤ s.pos := by
      intro x hx
      rcases List.mem_append.mp hx with hx | hx
      · exact hi.tpos x hx
      · rw [i3 x hx]
    cases r with
    | none =>
      obtain ⟨j1, j2⟩ := i4 rfl
      refine ⟨⟨hi.first, hi.ts, ?_, ?_, hgot⟩, rfl, fun _ => j1, fun _ => Or.inl hp, fun c => absurd c hno, ev, rfl, i2, i3⟩
      · intro _ x hx
        rcases List.mem_append.mp hx with hx | hx
        · exact hi.none hp x hx
        · exact j2 x hx
      · intro dp rem h
        have h : s.pkt = some (dp, rem) := h
        rw [hp] at h; cases h
    | some p =>
      obtain ⟨j1, ev0, j2, j3, j4⟩ := i5 p rfl
      show Sat _ ((accept per { s with got := s.got ++ ev } p).bind _)
      refine (inv_accept (f0 := f0) (s := { s with got := s.got ++ ev }) (ev0 := s.got ++ ev0) hi.first hi.ts j1 (by rw [j2, List.append_assoc]) ?_ hgot j4 per).bind ?_
      · intro x hx
        rcases List.mem_append.mp hx with hx | hx
        · exact hi.none hp x hx
        · exact j3 x hx
      · intro t ht
        refine ⟨ht.1, ht.2.2.1, ?_, fun _ => Or.inr ?_, fun c => absurd c hno, ev, ht.2.1, i2, i3⟩
        · intro c
          have := ht.2.2.2
          have c : t.pkt = none := c
          rw [c] at this; cases this
        · have := congrArg List.length i2
          rw [List.length_append, List.length_map, j2, List.length_append] at this
          simp only [List.length_cons, List.length_nil] at this
          show q'.length < q.length
          omega

theorem Post.comp {f0 : Nat} {s : St α} {q : List (Pkt α)} {r r' : Part α} (h : Post f0 s q r) (h' : Post f0 r.1 r.2.1 r') :
    Post f0 s q (r'.1, r'.2.1, r.2.2.1 ++ r'.2.2.1, r'.2.2.2) := by
  obtain ⟨ev, e1, e2, e3⟩ := h.ev
  obtain ⟨ev', e1', e2', e3'⟩ := h'.ev
  have hp := h.pos
  have hp' := h'.pos
  refine ⟨h'.inv, ?_, ⟨ev ++ ev', ?_, ?_, ?_⟩, ⟨?_, ?_⟩⟩
  · show r'.1.pos = s.pos + (r.2.2.1 ++ r'.2.2.1).length
    rw [List.length_append, hp', hp]; omega
  · show r'.1.got = _
    rw [e1', e1, List.append_assoc]
  · show (ev ++ ev').map (·.2) ++ r'.2.1 = q
    rw [List.map_append, List.append_assoc, e2', e2]
  · intro x hx
    show _ ∧ x.1 ≤ r'.1.pos
    rcases List.mem_append.mp hx with hx | hx
    · have := e3 x hx; omega
    · have := e3' x hx; omega
  · intro j hj
    have hj : j < (r.2.2.1 ++ r'.2.2.1).length := hj
    rw [List.length_append] at hj
    show (r.2.2.1 ++ r'.2.2.1)[j]? = some (expected f0 r'.1.got (s.pos + j))
    by_cases hl : j < r.2.2.1.length
    · rw [List.getElem?_append_left hl, h.chunk.val j hl, e1', expected_append]
      intro x hx
      have := e3' x hx; omega
    · rw [List.getElem?_append_right (by omega), h'.chunk.val _ (by omega), hp]
      congr 2
      omega
  · intro j hj
    have hj : (r.2.2.1 ++ r'.2.2.1)[j]? = some none := hj
    by_cases hl : j < r.2.2.1.length
    · rw [List.getElem?_append_left hl] at hj
      rcases h.chunk.why j hj with h1 | ⟨x, hx, h1⟩
      · left
        show r'.2.1 = []
        rw [h1] at e2'
        exact (List.append_eq_nil_iff.mp e2').2
      · right
        refine ⟨x, ?_, h1⟩
        show x ∈ r'.1.got
        rw [e1']
        exact List.mem_append_left _ hx
    · rw [List.getElem?_append_right (by omega)] at hj
      have e : r.1.pos + (j - r.2.2.1.length) = s.pos + j := by omega
      rcases h'.chunk.why _ hj with h1 | ⟨x, hx, h1⟩
      · exact Or.inl h1
      · rw [e] at h1
        exact Or.inr ⟨x, hx, h1⟩

/-- A part is short only if the packet has ended. -/
theorem readPart_len {per : Int} {s : St α} {q : List (Pkt α)} {n : Nat} {info : Info} {r : Part α} (h : readPart per s q n info = .ok r) :
    r.2.2.1.length ≤ n ∧ (r.2.2.1.length < n → r.1.pkt = none) ∧ r.2.1 = q ∧ (s.pkt = none → r.2.2.1.length = n) := by
  have hnow : ∀ (s : St α) dp rem n info, (consumeNow per s q dp rem n info).2.2.1.length ≤ n ∧ ((consumeNow per s q dp rem n info).2.2.1.length < n → (consumeNow per s q dp rem n info).1.pkt = none) := by
    intro s dp rem n info
    have e : (consumeNow per s q dp rem n info).2.2.1.length = min n rem.length := by
      show ((rem.take n).map some).length = _
      rw [List.length_map, List.length_take]
    rw [e]
    refine ⟨by omega, ?_⟩
    intro hl
    show (if min n rem.length < n then none else some _) = none
    rw [if_pos hl]
  unfold readPart at h
  cases hp : s.pkt with
  | none =>
    rw [hp] at h
    have h := Except.ok.inj h
    rw [← h]
    show (List.replicate n none).length ≤ n ∧ ((List.replicate n none).length < n → _) ∧ _
    rw [List.length_replicate]
    exact ⟨Nat.le_refl _, fun c => absurd c (by omega), rfl, fun _ => rfl⟩
  | some y =>
    obtain ⟨dp, rem⟩ := y
    rw [hp] at h
    have h : (if s.ts ≠ dp then if ¬ sdiff s.ts dp < 0 then Except.error Fault.panic else Except.ok (consume per s q dp rem (min (sdiff dp s.ts).toNat n) n info)
      else Except.ok (consumeNow per s q dp rem n info)) = Except.ok r := h
    by_cases h1 : s.ts ≠ dp
    · rw [if_pos h1] at h
      by_cases h2 : sdiff s.ts dp < 0
      · rw [if_neg (not_not.mpr h2)] at h
        have h := Except.ok.inj h
        rw [← h]
        obtain ⟨m, hm⟩ : ∃ m, m = min (sdiff dp s.ts).toNat n := ⟨_, rfl⟩
        rw [← hm]
        unfold consume
        by_cases hn : n - m > 0
        · rw [if_pos hn]
          have := hnow (gap per s m info).1 dp rem (n - m) (gap per s m info).2
          have e : (List.replicate m none ++ (rem.take (n - m)).map some).length = m + ((rem.take (n - m)).map some).length := by
            rw [List.length_append, List.length_replicate]
          have a1 : ((rem.take (n - m)).map some).length ≤ n - m := this.1
          show (List.replicate m none ++ (rem.take (n - m)).map some).length ≤ n ∧ ((List.replicate m none ++ (rem.take (n - m)).map some).length < n → _) ∧ _
          rw [e]
          refine ⟨by omega, fun hl => this.2 ?_, rfl, fun c => by cases c⟩
          show ((rem.take (n - m)).map some).length < n - m
          omega
        · rw [if_neg hn]
          show (List.replicate m none).length ≤ n ∧ ((List.replicate m none).length < n → _) ∧ _
          rw [List.length_replicate]
          exact ⟨by omega, fun c => absurd c (by omega), rfl, fun c => by cases c⟩
      · rw [if_pos h2] at h
        cases h
    · rw [if_neg h1] at h
      have h := Except.ok.inj h
      rw [← h]
      exact ⟨(hnow s dp rem n info).1, (hnow s dp rem n info).2, rfl, fun c => by cases c⟩

/-- The measure of the loop. -/
def held (s : St α) : Nat := if s.pkt.isSome then 1 else 0

theorem post_readSamples {f0 : Nat} {s : St α} (hi : Inv f0 s) (per : Int) (q : List (Pkt α)) (hq : ∀ p ∈ q, POk p) (n : Nat) (info : Info) :
    Sat (fun r => Post f0 s q r ∧ r.2.2.1.length ≤ n ∧ (r.2.2.1.length < n → 2 * r.2.1.length + held r.1 < 2 * q.length + held s)) (readSamples per s q n info) := by
  unfold readSamples
  refine (inv_update hi per q hq).bind ?_
  rintro u ⟨u1, u2, u3, u4, u5, ev, u6, u7, u8⟩
  obtain ⟨r, hr, hpost⟩ := (post_readPart u1 per u.2.1 u3 n { info with dropped := info.dropped + u.2.2 }).elim
  rw [hr]
  obtain ⟨l1, l2, l3, l4⟩ := readPart_len hr
  obtain ⟨ev', e1, e2, e3⟩ := hpost.ev
  refine ⟨⟨hpost.inv, by rw [hpost.pos, u2], ⟨ev ++ ev', by rw [e1, u6, List.append_assoc], by rw [List.map_append, List.append_assoc, e2, u7], ?_⟩, ?_⟩, l1, ?_⟩
  · have := hpost.pos
    intro x hx
    rcases List.mem_append.mp hx with hx | hx
    · have := u8 x hx; omega
    · have := e3 x hx; omega
  · have := hpost.chunk
    rw [u2] at this
    exact this
  · intro hl
    have hz : held r.1 = 0 := by unfold held; rw [l2 hl]; rfl
    rw [hz, l3]
    rcases Option.eq_none_or_eq_some s.pkt with hp | ⟨y, hp⟩
    · have : u.1.pkt ≠ none := by
        intro c
        have := l4 c
        omega
      have := (u4 hp).resolve_left this
      omega
    · have h1 : held s = 1 := by unfold held; rw [hp]; rfl
      have := (u5 (by rw [hp]; rfl)).2
      rw [h1, this]
      omega

theorem post_refl {f0 : Nat} {s : St α} (hi : Inv f0 s) (q : List (Pkt α)) (info : Info) : Post f0 s q (s, q, [], info) :=
  ⟨hi, rfl, ⟨[], by simp, rfl, (fun x hx => by cases hx)⟩, ⟨(fun j hj => by cases hj), (fun j hj => by cases hj)⟩⟩

theorem post_loop {f0 : Nat} (per : Int) (fuel : Nat) {s : St α} (hi : Inv f0 s) (q : List (Pkt α)) (hq : ∀ p ∈ q, POk p) (n : Nat) (info : Info)
    (hf : 2 * q.length + held s + 1 < fuel) :
    Sat (fun r => Post f0 s q r ∧ r.2.2.1.length = n) (loop per fuel s q n info) := by
  induction fuel generalizing s q n info with
  | zero => omega
  | succ fuel ih =>
    unfold loop
    by_cases hn : n = 0
    · rw [if_pos hn, hn]
      exact ⟨post_refl hi q info, rfl⟩
    · rw [if_neg hn]
      refine (post_readSamples hi per q hq n info).bind ?_
      rintro r ⟨r1, r2, r3⟩
      obtain ⟨ev, e1, e2, e3⟩ := r1.ev
      have hq' : ∀ p ∈ r.2.1, POk p := fun p hp => hq p (by rw [← e2]; exact List.mem_append_right _ hp)
      by_cases hl : r.2.2.1.length < n
      · have := r3 hl
        refine (ih r1.inv r.2.1 hq' (n - r.2.2.1.length) r.2.2.2 (by omega)).bind ?_
        rintro r' ⟨g1, g2⟩
        refine ⟨r1.comp g1, ?_⟩
        show (r.2.2.1 ++ r'.2.2.1).length = n
        rw [List.length_append, g2]; omega
      · have h0 : n - r.2.2.1.length = 0 := by omega
        rw [h0]
        obtain ⟨fu, hfu⟩ : ∃ fu, fuel = fu + 1 := ⟨fuel - 1, by omega⟩
        rw [hfu]
        unfold loop
        rw [if_pos rfl]
        refine ⟨r1.comp (post_refl r1.inv r.2.1 r.2.2.2), ?_⟩
        show (r.2.2.1 ++ []).length = n
        rw [List.append_nil]; omega

end Verif.Depacketizer
