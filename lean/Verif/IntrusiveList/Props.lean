import Verif.IntrusiveList.Lemmas

/-! # C53: intrusive lists are sequences -/

namespace Verif.IntrusiveList

/-- All lists empty. -/
def empty : Abs := fun _ => []

/-- A mixed history over two lists. -/
def sampleOps : List Op :=
  [.pushBack 0 10, .pushFront 0 11, .insertAfter 0 12 11, .insertBefore 0 13 10, .pushBack 1 20,
   .remove 0 12, .pushBack 1 12, .popFront 0]

/-- **C53 (sequences).** Every history of legal calls succeeds, on any number of lists sharing
elements. Afterwards, for each list, walking forward from `front()` gives exactly the predicted
sequence and walking backward from `back()` gives its reverse; `size()`, `contains()`, `front()` and
`back()` agree with the sequence as well. -/
theorem C53_sequences (ops : List Op) (ha : AllowedRun empty ops) :
    ∃ h, run init ops = some h ∧ ∀ l,
      (∀ fuel, (effects empty ops l).length ≤ fuel →
        forward h l fuel (front h l) = (effects empty ops l).map .elem ∧
        backward h l fuel (back h l) = (effects empty ops l).reverse.map .elem) ∧
      h.size l = (effects empty ops l).length ∧
      (∀ n, contains h l n = true ↔ n ∈ effects empty ops l) ∧
      front h l = (effects empty ops l).head?.map .elem ∧
      back h l = (effects empty ops l).getLast?.map .elem := by
  obtain ⟨h, e, r⟩ := run_refines ops init empty init_refines ha
  refine ⟨h, e, fun l => ?_⟩
  obtain ⟨xs, hxs⟩ : ∃ xs, xs = effects empty ops l := ⟨_, rfl⟩
  rw [← hxs]
  have hsz : h.size l = xs.length := by rw [hxs]; exact r.size l
  have hfront : front h l = xs.head?.map .elem := by
    unfold front
    cases xs with
    | nil => rw [hsz]; simp
    | cons n post =>
      rw [hsz, linked_next h (r.linked l), ← hxs]
      simp [nodes]
  have hback : back h l = xs.getLast?.map .elem := by
    unfold back
    rcases List.eq_nil_or_concat xs with hp | ⟨p, b, hp⟩
    · rw [hsz, hp]; simp
    · rw [List.concat_eq_append] at hp
      rw [hsz, linked_prev h _ _ (r.linked l), ← hxs, hp]
      simp [nodes]
  refine ⟨fun fuel hf => ⟨?_, ?_⟩, hsz, fun n => ?_, hfront, hback⟩
  · rw [hfront]
    cases xs with
    | nil => cases fuel <;> rfl
    | cons n post =>
      exact forward_eq r post [] n fuel (by rw [← hxs]; rfl) (by simp at hf; omega)
  · rw [hback]
    rcases List.eq_nil_or_concat xs with hp | ⟨p, b, hp⟩
    · subst hp; cases fuel <;> rfl
    · rw [List.concat_eq_append] at hp
      subst hp
      have := backward_eq r p.length p [] b fuel rfl hxs.symm (by simp at hf; omega)
      simpa [nodes] using this
  · rw [contains, beq_iff_eq, r.owner l n, hxs]

example : AllowedRun empty sampleOps := by
  simp [AllowedRun, sampleOps, Allowed, effect, upd, empty, Free, putBefore, putAfter]
  refine ⟨?_, ?_, ?_, ?_⟩ <;> intro l <;> repeat' split <;> simp
example : effects empty sampleOps 0 = [13, 10] ∧ effects empty sampleOps 1 = [20, 12] := by
  simp [effects, sampleOps, effect, upd, empty, putBefore, putAfter]

/-- **C53 (elements are shared by no two lists).** After any legal history an element is at most
once in at most one list. -/
theorem C53_exclusive (ops : List Op) (ha : AllowedRun empty ops) :
    (∀ l, (effects empty ops l).Nodup) ∧
    ∀ l l' n, n ∈ effects empty ops l → n ∈ effects empty ops l' → l = l' := by
  obtain ⟨h, _, r⟩ := run_refines ops init empty init_refines ha
  exact ⟨r.nodup, r.disjoint⟩

/-- The call inserts after an element that is not a member. -/
def AfterStranger (s : Abs) : Op → Prop
  | .insertAfter l n a => Free s n ∧ a ∉ s l
  | _ => False

/-- **C53 (misuse is detected, partial).** After any legal history, a call that violates its
requirements (element already in a list, wrong list, empty list) is stopped by a panic before
anything is changed. Missing: `insert_after` with a reference element which is not in the list, see
`C53_insert_after_fails`. -/
theorem C53_misuse_partial (ops : List Op) (ha : AllowedRun empty ops) (op : Op)
    (hbad : ¬ Allowed (effects empty ops) op) (hns : ¬ AfterStranger (effects empty ops) op) :
    run init (ops ++ [op]) = none := by
  obtain ⟨h, e, r⟩ := run_refines ops init empty init_refines ha
  obtain ⟨s, hs⟩ : ∃ s, s = effects empty ops := ⟨_, rfl⟩
  rw [← hs] at r hbad hns
  have hrun : ∀ (ops : List Op) (h0 h1 : Heap), run h0 ops = some h1 →
      run h0 (ops ++ [op]) = step h1 op := by
    intro ops
    induction ops with
    | nil => intro h0 h1 he; simp [run] at he; subst he; simp only [List.nil_append, run]; cases step h0 op <;> rfl
    | cons o ops ih =>
      intro h0 h1 he
      simp only [List.cons_append, run] at he ⊢
      cases hst : step h0 o with
      | none => rw [hst] at he; simp at he
      | some h2 => rw [hst] at he; exact ih h2 h1 he
  rw [hrun ops init h e]
  have hins : ∀ l n t, ¬ Free s n → insert h l (.elem n) t = none := by
    intro l n t hf
    unfold insert
    rw [if_pos (fun ho => hf ((owner_free r).mp ho))]
  cases op with
  | pushBack l n => exact hins l n _ hbad
  | pushFront l n =>
    simp only [step, pushFront]
    cases h.next (.head l) with
    | none => rfl
    | some x => exact hins l n x hbad
  | insertBefore l n b =>
    by_cases hf : Free s n
    · have hb : b ∉ s l := fun hb => hbad ⟨hf, hb⟩
      simp only [step, insertBefore, insert]
      rw [if_pos (c := h.owner (.elem b) ≠ some l) (fun ho => hb ((r.owner l b).mp ho))]
      split <;> rfl
    · exact hins l n _ hf
  | insertAfter l n a =>
    by_cases hf : Free s n
    · by_cases hb : a ∈ s l
      · exact absurd ⟨hf, hb⟩ hbad
      · exact absurd ⟨hf, hb⟩ hns
    · simp only [step, insertAfter]
      cases h.next (.elem a) with
      | none => rfl
      | some x => exact hins l n x hf
  | popFront l =>
    have hs0 : s l = [] := Classical.byContradiction hbad
    simp [step, popFront, r.size l, hs0]
  | popBack l =>
    have hs0 : s l = [] := Classical.byContradiction hbad
    simp [step, popBack, r.size l, hs0]
  | remove l n =>
    simp only [step, remove]
    rw [if_pos (fun ho => hbad ((r.owner l n).mp ho))]

example : ¬ Allowed (effects empty sampleOps) (.pushBack 0 12) := by
  simp only [Allowed, Free, not_forall]
  exact ⟨1, by simp [effects, sampleOps, effect, upd, empty, putBefore, putAfter]⟩
example : ¬ Allowed (effects empty sampleOps) (.popBack 2) := by
  simp [Allowed, effects, sampleOps, effect, upd, empty]

/-- **C53 (misuse that goes unnoticed).** `remove()` leaves the `next` pointer of the removed element
in place, and `insert_after` reads it without checking membership of the reference element: after
removing `1` from `[1, 2]`, `insert_after(3, 1)` is accepted and puts `3` at the front. -/
theorem C53_insert_after_fails :
    let ops : List Op := [.pushBack 0 1, .pushBack 0 2, .remove 0 1]
    AllowedRun empty ops ∧ ¬ Allowed (effects empty ops) (.insertAfter 0 3 1) ∧
    ∃ h, run init (ops ++ [.insertAfter 0 3 1]) = some h ∧
      forward h 0 5 (front h 0) = [.elem 3, .elem 2] := by
  refine ⟨?_, ?_, ?_⟩
  · simp [AllowedRun, Allowed, effect, upd, empty, Free]
  · simp [Allowed, effects, effect, upd, empty]
  · have hs : (run init ([.pushBack 0 1, .pushBack 0 2, .remove 0 1] ++ [.insertAfter 0 3 1])).isSome := by
      decide
    obtain ⟨h, hh⟩ := Option.isSome_iff_exists.mp hs
    refine ⟨h, hh, ?_⟩
    have : (run init ([.pushBack 0 1, .pushBack 0 2, .remove 0 1] ++ [.insertAfter 0 3 1])).map
        (fun h => forward h 0 5 (front h 0)) = some [.elem 3, .elem 2] := by decide
    rw [hh] at this
    simpa using this

end Verif.IntrusiveList
