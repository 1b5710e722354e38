import Verif.FecFlow.Sender
import Verif.FecReader.FlowRun

/-!
# FEC from end to end: what is received
-/

namespace Verif.FecFlow

open FecReader (Fec Call Dlv Enough Arrives diff Close InOrder DUni cnt)

/-- Source packet `i`, with the unwrapped number of its block. -/
def annS (first k r size : Nat) (tags : List Nat) (i : Nat) : Nat × Fec :=
  (first % 65536 + i / k, ⟨tags[i]?.getD 0, true, (first + i / k) % 65536, i % k, k, k + r, size⟩)

/-- Repair packet `i`, with the unwrapped number of its block. -/
def annR (first k r size : Nat) (i : Nat) : Nat × Fec :=
  (first % 65536 + i / r, ⟨0, true, (first + i / r) % 65536, k + i % r, k, k + r, size⟩)

/-- Delivered packets, with the unwrapped numbers of their blocks. -/
def Net.dlv (first k r size : Nat) (tags : List Nat) (d : Net) : Dlv :=
  ⟨d.srcs.map (annS first k r size tags), d.reps.map (annR first k r size), d.dec⟩

theorem filterMap_range {α β : Type} (l : List Nat) (f : Nat → Option α) (g : α → β) (h : Nat → β) (hf : ∀ i ∈ l, (f i).map g = some (h i)) :
    (l.filterMap f).map g = l.map h := by
  induction l with
  | nil => rfl
  | cons i l ih =>
    have hi := hf i List.mem_cons_self
    have ih := ih (fun j hj => hf j (List.mem_cons_of_mem _ hj))
    cases hfi : f i with
    | none => rw [hfi] at hi; cases hi
    | some a =>
      rw [hfi, Option.map_some, Option.some.injEq] at hi
      rw [List.filterMap_cons_some hfi, List.map_cons, List.map_cons, ih, hi]

theorem call_eq {first k r size tot : Nat} {tags : List Nat} {out : List FecWriter.Pkt}
    (h1 : ∀ i : Nat, (sources out)[i]? = tags[i]?.map (fun t => .source t (i % k) ((first + i / k) % FecWriter.m16) k (k + r)))
    (h2 : repairs out = (List.range (tags.length / k * r)).map (fun q => .repair (k + q % r) ((first + q / r) % FecWriter.m16) k (k + r)))
    {d : Net} (hs : ∀ i ∈ d.srcs, i < tags.length) (hr : ∀ i ∈ d.reps, i < tags.length / k * r) :
    d.call size tot out = (d.dlv first k r size tags).call tot := by
  unfold Net.call Dlv.call Net.dlv
  dsimp only
  rw [List.map_map, List.map_map]
  congr 1
  · apply filterMap_range
    intro i hi
    have := hs i hi
    rw [h1, List.getElem?_eq_getElem this]
    show some _ = some (((annS first k r size tags i).2, tot))
    unfold annS
    rw [List.getElem?_eq_getElem this]
    rfl
  · apply filterMap_range
    intro i hi
    have := hr i hi
    rw [h2, List.getElem?_map, List.getElem?_range this]
    rfl

theorem arrives_of {w tot cur b i : Nat} (hw : w < 32768) {d : Dlv} (c1 : Close w cur d.srcs) (c2 : Close w cur d.reps) {x : Nat × Fec} (hb : cur ≤ b)
    (hx : x ∈ d.srcs ∨ x ∈ d.reps) (h1 : x.1 = b) (h2 : x.2.esi = i) : Arrives (d.call tot) cur b i := by
  have hcl : x.1 ≤ cur + w ∧ cur ≤ x.1 + w ∧ x.2.sbn = x.1 % 65536 := hx.elim (c1 x) (c2 x)
  have hdf := FecReader.diff_close hw hcl
  exact ⟨x.2, tot, hx.imp (fun h => List.mem_map.mpr ⟨x, h, rfl⟩) (fun h => List.mem_map.mpr ⟨x, h, rfl⟩), by omega, by omega, h2⟩

theorem enough_of {k w tot : Nat} (hw : w < 32768) (ds : List Dlv) : ∀ (v : Nat) (held : Nat → Nat → Prop),
    (∀ (j : Nat) (d : Dlv), ds[j]? = some d → Close w ((v + j) / k) d.srcs ∧ Close w ((v + j) / k) d.reps) →
    (∀ (j : Nat) (d : Dlv), ds[j]? = some d → ∃ g, d.dec ((v + j) / k) = some g ∧ ∀ i, (g i).isSome = true) →
    (∀ j : Nat, j < ds.length → ∃ l : List Nat, l.Nodup ∧ k ≤ l.length ∧ ∀ i ∈ l, held ((v + j) / k) i ∨
      ∃ (m : Nat) (d : Dlv) (x : Nat × Fec), m ≤ j ∧ ds[m]? = some d ∧ (x ∈ d.srcs ∨ x ∈ d.reps) ∧ x.1 = (v + j) / k ∧ x.2.esi = i) →
    Enough k v held (ds.map (·.call tot)) := by
  induction ds with
  | nil => intro _ _ _ _ _; trivial
  | cons d ds ih =>
    intro v held hc hd he
    obtain ⟨c1, c2⟩ := hc 0 d rfl
    rw [Nat.add_zero] at c1 c2
    refine ⟨?_, ?_, ?_⟩
    · obtain ⟨l, l1, l2, l3⟩ := he 0 (by rw [List.length_cons]; omega)
      refine ⟨l, l1, l2, fun i hi => (l3 i hi).imp id ?_⟩
      rintro ⟨m, d', x, m1, m2, m3, m4, m5⟩
      have : m = 0 := by omega
      subst this
      cases m2
      exact arrives_of hw c1 c2 (Nat.le_refl _) m3 m4 m5
    · obtain ⟨g, g1, g2⟩ := hd 0 d rfl
      exact ⟨g, g1, g2⟩
    · refine ih (v + 1) _ (fun j e hj => ?_) (fun j e hj => ?_) (fun j hj => ?_)
      · have := hc (j + 1) e hj
        rw [show v + (j + 1) = v + 1 + j from by omega] at this
        exact this
      · have := hd (j + 1) e hj
        rw [show v + (j + 1) = v + 1 + j from by omega] at this
        exact this
      · obtain ⟨l, l1, l2, l3⟩ := he (j + 1) (by rw [List.length_cons]; omega)
        rw [show v + (j + 1) = v + 1 + j from by omega] at l3
        refine ⟨l, l1, l2, fun i hi => ?_⟩
        rcases l3 i hi with l3 | ⟨m, d', x, m1, m2, m3, m4, m5⟩
        · exact Or.inl (Or.inl l3)
        · cases m with
          | zero =>
            cases m2
            exact Or.inl (Or.inr (arrives_of hw c1 c2 (Nat.div_le_div_right (by omega)) m3 m4 m5))
          | succ m => exact Or.inr ⟨m, d', x, by omega, m2, m3, m4, m5⟩

/-- Position in a block, among source packets and then repair packets, of every delivered packet of block `b`. -/
theorem symbols {k r b : Nat} (hk : 0 < k) {ss rs : List Nat} (hs : ss.Pairwise (· < ·)) (hr : rs.Pairwise (· < ·)) :
    ∃ l : List Nat, l.Nodup ∧ l.length = ss.countP (fun i => decide (i / k = b)) + rs.countP (fun i => decide (i / r = b)) ∧
      ∀ i ∈ l, (∃ q ∈ ss, q / k = b ∧ i = q % k) ∨ ∃ q ∈ rs, q / r = b ∧ i = k + q % r := by
  refine ⟨(ss.filter (fun i => decide (i / k = b))).map (· % k) ++ (rs.filter (fun i => decide (i / r = b))).map (fun q => k + q % r), ?_, ?_, ?_⟩
  · rw [List.nodup_append]
    refine ⟨?_, ?_, ?_⟩
    · show List.Pairwise _ _
      rw [List.pairwise_map]
      refine List.Pairwise.imp_of_mem ?_ (hs.filter _)
      intro x y hx hy hxy he
      have hx := of_decide_eq_true (List.mem_filter.mp hx).2
      have hy := of_decide_eq_true (List.mem_filter.mp hy).2
      have e1 := Nat.div_add_mod x k
      have e2 := Nat.div_add_mod y k
      rw [hx, he] at e1
      rw [hy] at e2
      omega
    · show List.Pairwise _ _
      rw [List.pairwise_map]
      refine List.Pairwise.imp_of_mem ?_ (hr.filter _)
      intro x y hx hy hxy he
      have hx := of_decide_eq_true (List.mem_filter.mp hx).2
      have hy := of_decide_eq_true (List.mem_filter.mp hy).2
      have e1 := Nat.div_add_mod x r
      have e2 := Nat.div_add_mod y r
      have he : x % r = y % r := by omega
      rw [hx, he] at e1
      rw [hy] at e2
      omega
    · intro x hx y hy he
      obtain ⟨p, _, hp⟩ := List.mem_map.mp hx
      obtain ⟨q, _, hq⟩ := List.mem_map.mp hy
      have := Nat.mod_lt p hk
      omega
  · rw [List.length_append, List.length_map, List.length_map, List.countP_eq_length_filter, List.countP_eq_length_filter]
  · intro i hi
    rcases List.mem_append.mp hi with hi | hi
    · obtain ⟨q, hq, rfl⟩ := List.mem_map.mp hi
      obtain ⟨h1, h2⟩ := List.mem_filter.mp hq
      exact Or.inl ⟨q, h1, of_decide_eq_true h2, rfl⟩
    · obtain ⟨q, hq, rfl⟩ := List.mem_map.mp hi
      obtain ⟨h1, h2⟩ := List.mem_filter.mp hq
      exact Or.inr ⟨q, h1, of_decide_eq_true h2, rfl⟩

theorem mem_take_flat {f : Net → List Nat} {ds : List Net} {n q : Nat} (h : q ∈ (ds.take n).flatMap f) : ∃ (m : Nat) (d : Net), m < n ∧ ds[m]? = some d ∧ q ∈ f d := by
  obtain ⟨d, hd, hq⟩ := List.mem_flatMap.mp h
  obtain ⟨m, hm⟩ := List.mem_iff_getElem?.mp hd
  rw [List.getElem?_take] at hm
  split_ifs at hm with hmn
  exact ⟨m, d, hmn, hm, hq⟩

theorem take_flat_sublist (f : Net → List Nat) (ds : List Net) (n : Nat) : List.Sublist ((ds.take n).flatMap f) (ds.flatMap f) := by
  conv => rhs; rw [← List.take_append_drop n ds, List.flatMap_append]
  exact List.sublist_append_left _ _

end Verif.FecFlow
