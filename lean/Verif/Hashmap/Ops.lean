import Verif.Hashmap.Lemmas

/-! Every operation keeps the invariant. -/

namespace Verif.Hashmap

variable {κ : Type} [DecidableEq κ]

theorem flatten_replicate_nil {α : Type} (n : Nat) : (List.replicate n ([] : List α)).flatten = [] := by
  rw [List.flatten_eq_nil_iff]
  intro b hb
  exact (List.mem_replicate.1 hb).2

theorem replicate_idx (n : Nat) : ∀ i b, (List.replicate n ([] : List (Node κ)))[i]? = some b → ∀ m ∈ b,
    m.hash % (List.replicate n ([] : List (Node κ))).length = i := by
  intro i b hb m hm
  have := (List.mem_replicate.1 (List.mem_of_getElem? hb)).2
  rw [this] at hm; simp at hm

/-- `realloc_buckets_` of a full table without pending migration. -/
theorem realloc_spec {hf : κ → Nat} {s : State κ} (h : Inv hf s) (hfull : s.size = capacity s.curr.length)
    (hpos : s.pos = 0) {n : Nat} (hn : s.curr.length < n) (ok : Bool) :
    ∃ s', s.realloc n ok = some (s', ok) ∧ Inv hf s' ∧ s'.all = s.all ∧ (ok = true → s'.size < capacity s'.curr.length) ∧
      s'.prealloc = s.prealloc ∧ (ok = false → s' = s) ∧ s'.pos = 0 := by
  have hr := h.full hfull
  have hpf : s.prev.flatten = [] := by
    have := h.remain
    rw [hr] at this
    exact List.length_eq_zero_iff.1 this.symm
  unfold State.realloc
  rw [if_neg (by omega), if_neg (by simp [hpos]), if_neg (by simp [hr])]
  cases ok with
  | false => exact ⟨s, by simp, h, rfl, by simp, rfl, fun _ => rfl, hpos⟩
  | true =>
    simp only [Bool.not_true, Bool.false_eq_true, if_false]
    have hcap : s.size < capacity n := by rw [hfull]; exact capacity_lt hn
    by_cases hc : s.curr.length ≠ 0
    · simp only [if_pos hc]
      rw [if_pos (by simpa using hcap)]
      refine ⟨_, rfl, ?_, rfl, fun _ => by simpa using hcap, rfl, by simp, rfl⟩
      have hperm := h.perm
      rw [hpf, List.append_nil] at hperm
      refine { size := h.size, perm := ?_, hash := h.hash, keys := h.keys, ids := h.ids, currIdx := replicate_idx n,
               prevIdx := h.currIdx, remain := ?_, posEmpty := ?_, posLt := ?_, posZero := ?_, cap := ?_, full := ?_ }
      · simp only [flatten_replicate_nil, List.nil_append]; exact hperm
      · simp only; rw [h.size]; exact hperm.length_eq.symm
      · intro j hj; simp at hj
      · intro _; simp only; omega
      · intro _; rfl
      · simp only [List.length_replicate]; omega
      · intro e; simp only [List.length_replicate] at e; omega
    · simp only [if_neg hc]
      rw [if_pos (by simpa using hcap)]
      have hc0 : s.curr = [] := by
        rw [← List.length_eq_zero_iff]; simpa using hc
      refine ⟨_, rfl, ?_, rfl, fun _ => by simpa using hcap, rfl, by simp, hpos⟩
      have hperm := h.perm
      rw [hc0] at hperm
      refine { size := h.size, perm := ?_, hash := h.hash, keys := h.keys, ids := h.ids, currIdx := replicate_idx n,
               prevIdx := h.prevIdx, remain := h.remain, posEmpty := h.posEmpty, posLt := h.posLt, posZero := h.posZero,
               cap := ?_, full := ?_ }
      · simpa only [flatten_replicate_nil, List.nil_append, List.flatten_nil] using hperm
      · simp only [List.length_replicate]; omega
      · intro e; simp only [List.length_replicate] at e; omega

/-- `grow`. -/
theorem grow_spec {hf : κ → Nat} {s : State κ} (h : Inv hf s) (hpos : s.size = capacity s.curr.length → s.pos = 0)
    (ok : Bool) : ∃ s' r, s.grow ok = some (s', r) ∧ Inv hf s' ∧ s'.all = s.all ∧
      (r = true → s'.size < capacity s'.curr.length) ∧ (r = false → s' = s) ∧ (s.pos = 0 → s'.pos = 0) := by
  unfold State.grow
  have hcap := h.cap
  rw [if_neg (by omega)]
  by_cases hfull : s.size = capacity s.curr.length
  · rw [if_pos hfull]
    have hg := growCount_eq s.prealloc s.curr.length (s.size + 1)
    rw [← hfull] at hg
    rw [hg]
    simp only
    obtain ⟨s', h1, h2, h3, h4, h5, h6, h7⟩ := realloc_spec h hfull (hpos hfull) (nextCount_gt s.prealloc s.curr.length) ok
    exact ⟨s', ok, h1, h2, h3, h4, h6, fun _ => h7⟩
  · rw [if_neg hfull]
    exact ⟨s, true, rfl, h, rfl, fun _ => by omega, by simp, id⟩

/-- `grow` when the previous migration was abandoned. -/
theorem grow_panic {hf : κ → Nat} {s : State κ} (h : Inv hf s) (hfull : s.size = capacity s.curr.length) (hpos : s.pos ≠ 0)
    (ok : Bool) : s.grow ok = none := by
  unfold State.grow
  have hcap := h.cap
  rw [if_neg (by omega), if_pos hfull]
  have hg := growCount_eq s.prealloc s.curr.length (s.size + 1)
  rw [← hfull] at hg
  rw [hg]
  simp only [State.realloc]
  rw [if_neg (by have := nextCount_gt s.prealloc s.curr.length; omega), if_pos hpos]

/-- The part of `insert` after a possible growth. -/
def State.insertTail (s : State κ) (n : Node κ) : Option (State κ × Bool) :=
  if s.contains n.id then none
  else if (s.find n.hash n.key).isSome then none
  else
    match bucketInsert s.curr n with
    | none => none
    | some curr =>
      match ({ s with curr := curr, all := s.all ++ [n], size := s.size + 1 } : State κ).proceed true with
      | none => none
      | some s => some (s, true)

theorem insert_eq (s : State κ) (n : Node κ) (ok : Bool) :
    s.insert n ok = if s.size ≥ capacity s.curr.length then
      (match s.grow ok with
        | none => none
        | some (s, false) => some (s, false)
        | some (s, true) => s.insertTail n) else s.insertTail n := by
  unfold State.insert
  by_cases hc : s.size ≥ capacity s.curr.length
  · rw [if_pos hc, if_pos hc]
    rcases s.grow ok with _ | ⟨s', _ | _⟩ <;> rfl
  · rw [if_neg hc, if_neg hc]
    rfl

theorem insertTail_spec {hf : κ → Nat} {s : State κ} (h : Inv hf s) (hroom : s.size < capacity s.curr.length)
    {n : Node κ} (hh : n.hash = hf n.key) (hfresh : ∀ m ∈ s.all, m.id ≠ n.id ∧ m.key ≠ n.key) :
    ∃ s', s.insertTail n = some (s', true) ∧ Inv hf s' ∧ s'.all = s.all ++ [n] ∧
      ((s.remain = 0 → s.pos = 0) → s'.remain = 0 → s'.pos = 0) := by
  have hcl : 0 < s.curr.length := by
    rcases Nat.eq_zero_or_pos s.curr.length with e | e
    · rw [e] at hroom; simp [capacity] at hroom
    · exact e
  unfold State.insertTail
  have hnc : ¬ s.contains n.id = true := by
    rw [contains_iff h.toCore]
    rintro ⟨m, hm, e⟩
    exact (hfresh m hm).1 e
  rw [if_neg hnc]
  have hnf : (s.find n.hash n.key).isSome = false := by
    rw [hh, find_spec h.toCore, Option.isSome_eq_false_iff, Option.isNone_iff_eq_none, List.find?_eq_none]
    intro m hm e
    simp only [decide_eq_true_eq] at e
    exact (hfresh m hm).2 e
  rw [if_neg (by rw [hnf]; simp)]
  unfold bucketInsert
  rw [if_neg (by omega)]
  simp only
  have hmod := flatten_modify s.curr (i := n.hash % s.curr.length) (Nat.mod_lt _ hcl) n
  have hcore : Core hf { s with curr := s.curr.modify (n.hash % s.curr.length) (· ++ [n]), all := s.all ++ [n],
                                size := s.size + 1 } := by
    refine { size := ?_, perm := ?_, hash := ?_, keys := ?_, ids := ?_, currIdx := ?_, prevIdx := h.prevIdx,
             remain := h.remain, posEmpty := h.posEmpty, posLt := h.posLt, posZero := h.posZero, cap := ?_ }
    · simp [h.size]
    · refine (List.Perm.append_right _ hmod).trans ?_
      simp only [List.cons_append]
      refine (List.Perm.cons n h.perm).trans ?_
      exact (List.perm_append_singleton n s.all).symm
    · intro m hm
      rw [List.mem_append, List.mem_singleton] at hm
      rcases hm with hm | rfl
      · exact h.hash m hm
      · exact hh
    · rw [List.map_append, List.map_singleton, List.nodup_append]
      refine ⟨h.keys, by simp, ?_⟩
      intro a ha b hb
      rw [List.mem_singleton] at hb
      subst hb
      obtain ⟨m, hm, rfl⟩ := List.mem_map.1 ha
      exact (hfresh m hm).2
    · rw [List.map_append, List.map_singleton, List.nodup_append]
      refine ⟨h.ids, by simp, ?_⟩
      intro a ha b hb
      rw [List.mem_singleton] at hb
      subst hb
      obtain ⟨m, hm, rfl⟩ := List.mem_map.1 ha
      exact (hfresh m hm).1
    · simp only [List.length_modify]
      exact modify_idx h.currIdx n
    · simp only [List.length_modify]; omega
  obtain ⟨s', h1, h2, h3, h4, h5, h6, h7, h8, h9, h10⟩ := proceed_spec hcore true (by simpa using hcl)
  rw [h1]
  refine ⟨s', rfl, ⟨h2, ?_⟩, h3, ?_⟩
  · intro e
    apply h9 rfl
    simp only [List.length_modify] at h5 ⊢
    rw [h4, h5] at e
    exact e
  · intro hs hz
    by_cases hr : s.remain = 0
    · rw [h8 hr]; exact hs hr
    · exact h7 hr hz

theorem without_flatten (bs : Buckets κ) (id : Nat) : (without bs id).flatten = bs.flatten.filter (·.id ≠ id) := by
  unfold without
  rw [List.filter_flatten]

theorem without_idx {bs : Buckets κ} (hidx : ∀ i b, bs[i]? = some b → ∀ n ∈ b, n.hash % bs.length = i) (id : Nat) :
    ∀ i b, (without bs id)[i]? = some b → ∀ n ∈ b, n.hash % (without bs id).length = i := by
  intro i b hb n hn
  unfold without at hb ⊢
  rw [List.getElem?_map] at hb
  cases hbi : bs[i]? with
  | none => rw [hbi] at hb; simp at hb
  | some b0 =>
    rw [hbi] at hb
    simp only [Option.map_some, Option.some.injEq] at hb
    subst hb
    rw [List.length_map]
    exact hidx i b0 hbi n (List.mem_of_mem_filter hn)

theorem count_id {l : List (Node κ)} (h : (l.map (·.id)).Nodup) {n : Node κ} (hn : n ∈ l) :
    (l.filter (fun m => decide (m.id ≠ n.id))).length + 1 = l.length := by
  induction l with
  | nil => simp at hn
  | cons a l ih =>
    rw [List.map_cons, List.nodup_cons] at h
    rcases List.mem_cons.1 hn with rfl | hn
    · rw [List.filter_cons_of_neg (by simp), List.length_cons]
      congr 2
      rw [List.filter_eq_self]
      intro m hm
      simp only [ne_eq, decide_eq_true_eq]
      intro e
      exact h.1 (List.mem_map.2 ⟨m, hm, e⟩)
    · have hne : a.id ≠ n.id := by
        intro e
        exact h.1 (List.mem_map.2 ⟨n, hn, e.symm⟩)
      rw [List.filter_cons_of_pos (by simpa using hne), List.length_cons, List.length_cons, ih h.2 hn]

theorem filter_absent {l : List (Node κ)} {id : Nat} (h : l.any (fun m => decide (m.id = id)) = false) :
    l.filter (fun m => decide (m.id ≠ id)) = l := by
  rw [List.filter_eq_self]
  intro m hm
  rw [List.any_eq_false] at h
  have := h m hm
  simpa using this

theorem remove_spec {hf : κ → Nat} {s : State κ} (h : Inv hf s) {id : Nat} (hid : ∃ n ∈ s.all, n.id = id) (skip : Bool) :
    ∃ s', s.remove id skip = some s' ∧ Inv hf s' ∧ s'.all = s.all.filter (fun m => decide (m.id ≠ id)) ∧
      ((s.remain = 0 → s.pos = 0) → ¬ (s.remain = 1 ∧ s.pos ≠ 0 ∧ ∃ n ∈ s.prev.flatten, n.id = id) → skip = false →
        s'.remain = 0 → s'.pos = 0) := by
  obtain ⟨n, hn, rfl⟩ := hid
  have hcl : 0 < s.curr.length := by
    rcases Nat.eq_zero_or_pos s.curr.length with e | e
    · have := h.cap
      rw [e, h.size] at this
      simp [capacity] at this
      rw [this] at hn
      simp at hn
    · exact e
  unfold State.remove
  have hcont : s.contains n.id = true := (contains_iff h.toCore _).2 ⟨n, hn, rfl⟩
  rw [hcont]
  simp only [Bool.not_true, Bool.false_eq_true, if_false]
  obtain ⟨inPrev, hip⟩ : ∃ b, b = s.prev.flatten.any (fun m => decide (m.id = n.id)) := ⟨_, rfl⟩
  have hcount : (s.all.filter (fun m => decide (m.id ≠ n.id))).length + 1 = s.all.length := count_id h.ids hn
  have hpids : (s.prev.flatten.map (·.id)).Nodup := by
    have h1 : ((s.curr.flatten ++ s.prev.flatten).map (·.id)).Nodup := (h.perm.map _).nodup_iff.2 h.ids
    rw [List.map_append, List.nodup_append] at h1
    exact h1.2.1
  have hrem : s.remain = (s.prev.flatten.filter (fun m => decide (m.id ≠ n.id))).length + if inPrev = true then 1 else 0 := by
    rw [h.remain]
    cases inPrev with
    | true =>
      obtain ⟨m, hm, hme⟩ := List.any_eq_true.1 hip.symm
      simp only [decide_eq_true_eq] at hme
      have := count_id hpids hm
      rw [hme] at this
      simp only [if_true]; omega
    | false =>
      rw [filter_absent hip.symm]; simp
  rw [← hip]
  have hnp : ¬ (inPrev && decide (s.remain = 0)) = true := by
    intro e
    simp only [Bool.and_eq_true, decide_eq_true_eq] at e
    rw [e.1] at hrem
    simp at hrem; omega
  rw [if_neg hnp]
  have hcore : Core hf { s with
        curr := without s.curr n.id
        prev := without s.prev n.id
        remain := if inPrev then s.remain - 1 else s.remain
        all := s.all.filter (fun m => decide (m.id ≠ n.id))
        size := s.size - 1 } := by
    refine { size := ?_, perm := ?_, hash := ?_, keys := ?_, ids := ?_, currIdx := without_idx h.currIdx _,
             prevIdx := without_idx h.prevIdx _, remain := ?_, posEmpty := ?_, posLt := ?_, posZero := ?_, cap := ?_ }
    · simp only; rw [h.size]; omega
    · simp only [without_flatten]
      rw [← List.filter_append]
      exact h.perm.filter _
    · intro m hm; exact h.hash m (List.mem_of_mem_filter hm)
    · exact List.Nodup.sublist (List.Sublist.map _ List.filter_sublist) h.keys
    · exact List.Nodup.sublist (List.Sublist.map _ List.filter_sublist) h.ids
    · simp only [without_flatten]
      rw [hrem]
      cases inPrev <;> simp
    · intro j hj b hb
      unfold without at hb
      rw [List.getElem?_map] at hb
      cases hbi : s.prev[j]? with
      | none => rw [hbi] at hb; simp at hb
      | some b0 =>
        rw [hbi] at hb
        simp only [Option.map_some, Option.some.injEq] at hb
        rw [h.posEmpty j hj b0 hbi] at hb
        rw [← hb]; rfl
    · intro hne
      simp only [without, List.length_map]
      exact h.posLt (by rintro e; apply hne; simp [without, e])
    · intro e
      apply h.posZero
      simpa [without] using e
    · have := h.cap
      simp only [without, List.length_map]; omega
  have hlt : s.size - 1 < capacity s.curr.length := by
    have h1 := h.cap
    have h2 := h.size
    omega
  cases skip with
  | true =>
    simp only [if_true]
    refine ⟨_, rfl, ⟨hcore, ?_⟩, rfl, by simp⟩
    intro e
    simp only [without, List.length_map] at e; omega
  | false =>
    simp only [Bool.false_eq_true, if_false]
    obtain ⟨s', h1, h2, h3, h4, h5, h6, h7, h8, h9, h10⟩ := proceed_spec hcore false (by simpa [without] using hcl)
    refine ⟨s', h1, ⟨h2, ?_⟩, h3, ?_⟩
    · intro e
      rw [h4, h5] at e
      simp only [without, List.length_map] at e; omega
    · intro hset hnot _ hz
      by_cases hr : (if inPrev = true then s.remain - 1 else s.remain) = 0
      · have e := h8 hr
        rw [e]
        simp only
        cases hb : inPrev with
        | false =>
          rw [hb] at hr
          exact hset (by simpa using hr)
        | true =>
          rw [hb] at hr
          simp only [if_true] at hr
          have h1r : s.remain = 1 := by rw [hb] at hrem; simp only [if_true] at hrem; omega
          by_contra hp
          apply hnot
          refine ⟨h1r, hp, ?_⟩
          rw [hb] at hip
          obtain ⟨m, hm, hme⟩ := List.any_eq_true.1 hip.symm
          exact ⟨m, hm, by simpa using hme⟩
      · exact h7 hr hz

end Verif.Hashmap
