import Verif.ChannelMatrix.Model
import Mathlib.Algebra.Order.BigOperators.Group.Finset
import Mathlib.Algebra.BigOperators.Ring.Finset
import Mathlib.Algebra.BigOperators.Field
import Mathlib.Tactic.Positivity

/-! # Lemmas on mask closures and on normalized matrices -/

namespace Verif.ChannelMatrix

/-- The distinct masks used by the tables. -/
def masks : List Nat :=
  [0x10004, 0x1000e, 0x10011, 0x10015, 0x1001f, 0x10291, 0x10295, 0x1029f, 0x102f5, 0x102ff,
   0x10395, 0x1039f, 0x13295, 0x1329f, 0x132f5, 0x132ff, 0x1ce95, 0x1ce9f, 0x1cef5, 0x1ceff]

theorem tables_masks : ∀ t ∈ tables, t.inMask ∈ masks ∧ t.outMask ∈ masks := by decide +kernel

theorem sub_iff (a m : Nat) : sub a m = true ↔ ∀ i, a.testBit i = true → m.testBit i = true := by
  unfold sub
  rw [beq_iff_eq]
  constructor
  · intro h i hi
    have : (a &&& m).testBit i = true := by rw [h]; exact hi
    rw [Nat.testBit_and] at this
    simp only [Bool.and_eq_true] at this
    exact this.2
  · intro h
    apply Nat.eq_of_testBit_eq
    intro i
    rw [Nat.testBit_and]
    cases hc : a.testBit i with
    | false => simp
    | true => rw [h i hc]; rfl

/-- Intersection of all table masks that contain `o`. -/
def closure (ms : List Nat) (o : Nat) : Nat :=
  ms.foldl (fun acc m => if sub o m then acc &&& m else acc) 0x1ffff

theorem fold_le (ms : List Nat) (o acc : Nat) :
    sub (ms.foldl (fun acc m => if sub o m then acc &&& m else acc) acc) acc = true ∧
    (∀ m ∈ ms, sub o m = true →
      sub (ms.foldl (fun acc m => if sub o m then acc &&& m else acc) acc) m = true) ∧
    (sub o acc = true → sub o (ms.foldl (fun acc m => if sub o m then acc &&& m else acc) acc) = true) := by
  induction ms generalizing acc with
  | nil =>
    refine ⟨by simp [sub], ?_, by simp⟩
    intro m hm; simp at hm
  | cons a ms ih =>
    rw [List.foldl_cons]
    obtain ⟨h1, h2, h3⟩ := ih (if sub o a then acc &&& a else acc)
    rw [sub_iff] at h1
    refine ⟨?_, ?_, ?_⟩
    · rw [sub_iff]
      intro i hi
      have := h1 i hi
      split at this
      · rw [Nat.testBit_and] at this
        simp only [Bool.and_eq_true] at this
        exact this.1
      · exact this
    · intro m hm hs
      rcases List.mem_cons.1 hm with rfl | hm'
      · rw [sub_iff]
        intro i hi
        have := h1 i hi
        rw [if_pos hs, Nat.testBit_and] at this
        simp only [Bool.and_eq_true] at this
        exact this.2
      · exact h2 m hm' hs
    · intro ho
      apply h3
      split
      · rename_i hs
        rw [sub_iff] at *
        intro i hi
        rw [Nat.testBit_and, ho i hi, hs i hi]; rfl
      · exact ho

theorem sub_closure {o m : Nat} (ho : o < 2 ^ 17) (hm : m ∈ masks) :
    sub (closure masks o) m = sub o m := by
  obtain ⟨_, h2, h3⟩ := fold_le masks o 0x1ffff
  have hself : sub o (closure masks o) = true := by
    apply h3
    rw [sub_iff]
    intro i hi
    have : i < 17 := by
      by_contra hc
      have := Nat.testBit_lt_two_pow (x := o) (i := i) (lt_of_lt_of_le ho (Nat.pow_le_pow_right (by decide) (by omega)))
      rw [this] at hi; exact absurd hi (by simp)
    rw [show (0x1ffff : Nat) = 2 ^ 17 - 1 by decide, Nat.testBit_two_pow_sub_one]
    simpa using this
  rw [Bool.eq_iff_iff]
  constructor
  · intro h
    rw [sub_iff] at *
    intro i hi; exact h i (hself i hi)
  · intro h; exact h2 m hm h

/-- The family of intersections of table masks. -/
def family : List Nat := 0x1ffff :: 0x10000 :: masks

theorem family_closed : ∀ f ∈ family, ∀ m ∈ masks, f &&& m ∈ family := by decide +kernel

theorem closure_mem (o : Nat) : closure masks o ∈ family := by
  have : ∀ (ms : List Nat) acc, (∀ m ∈ ms, m ∈ masks) → acc ∈ family →
      ms.foldl (fun acc m => if sub o m then acc &&& m else acc) acc ∈ family := by
    intro ms
    induction ms with
    | nil => intro acc _ h; exact h
    | cons a ms ih =>
      intro acc hm h
      rw [List.foldl_cons]
      apply ih
      · intro m hm'; exact hm m (List.mem_cons_of_mem _ hm')
      · split
        · exact family_closed acc h a (hm a (by simp))
        · exact h
  exact this masks _ (fun m h => h) (by simp [family])

theorem table_mask_closure : ∀ m ∈ masks, closure masks m = m := by decide +kernel

/-- Table selection depends on the sets only through the masks that contain them. -/
def Agree (a b : Nat) : Prop := ∀ m ∈ masks, sub a m = sub b m

theorem clusterCovers_agree {o o' : Nat} (h : Agree o o') (i : Nat) (ts : List Table)
    (hts : ∀ t ∈ ts, t.inMask ∈ masks ∧ t.outMask ∈ masks) : clusterCovers i o ts = clusterCovers i o' ts := by
  induction ts with
  | nil => rfl
  | cons t ts ih =>
    unfold clusterCovers
    rw [h _ (hts t (by simp)).2, ih (fun t' h' => hts t' (List.mem_cons_of_mem _ h'))]

theorem canDownmix_agree {c c' o o' : Nat} (hc : Agree c c') (h : Agree o o') (ts : List Table)
    (hts : ∀ t ∈ ts, t.inMask ∈ masks ∧ t.outMask ∈ masks) : canDownmix c o ts = canDownmix c' o' ts := by
  induction ts with
  | nil => rfl
  | cons t ts ih =>
    unfold canDownmix
    rw [hc _ (hts t (by simp)).1, ih (fun t' h' => hts t' (List.mem_cons_of_mem _ h')),
      clusterCovers_agree h _ _ hts]

theorem find_congr {α : Type} {p q : α → Bool} (l : List α) (h : ∀ x ∈ l, p x = q x) : l.find? p = l.find? q := by
  induction l with
  | nil => rfl
  | cons a l ih =>
    rw [List.find?_cons, List.find?_cons, h a (by simp), ih (fun x hx => h x (List.mem_cons_of_mem _ hx))]

theorem upLoop_agree {c c' o o' : Nat} (hc : Agree c c') (h : Agree o o') (fuel : Nat) (best : Option Table) :
    upLoop tables c fuel o best = upLoop tables c' fuel o' best := by
  induction fuel generalizing o o' best with
  | zero => rfl
  | succ fuel ih =>
    have hf : tables.find? (upOk c o) = tables.find? (upOk c' o') := by
      apply find_congr
      intro t ht
      unfold upOk
      rw [hc _ (tables_masks t ht).2, h _ (tables_masks t ht).1, h _ (tables_masks t ht).2]
    unfold upLoop
    rw [hf]
    split
    · rfl
    · exact ih (fun m hm => rfl) _

theorem select_agree {c c' o o' : Nat} (hc : Agree c c') (h : Agree o o') (fuel : Nat) :
    select tables fuel c o = select tables fuel c' o' := by
  have hf : tables.find? (downOk c o) = tables.find? (downOk c' o') := by
    apply find_congr
    intro t ht
    unfold downOk
    rw [hc _ (tables_masks t ht).1, h _ (tables_masks t ht).2, hc _ (tables_masks t ht).2]
  unfold select nextDownmix nextUpmix
  rw [canDownmix_agree hc h tables tables_masks, hf, upLoop_agree hc h]

/-- Only the termination of the outer loop. -/
def ends (ts : List Table) : Nat → Nat → Nat → Bool
  | 0, _, _ => false
  | fuel + 1, cur, out =>
    match select ts (fuel + 1) cur out with
    | none => false
    | some none => true
    | some (some (_, _, actual)) => ends ts fuel actual out

theorem ends_iff (ts : List Table) (fuel cur out : Nat) (acc : Option Mat) :
    (buildLoop ts fuel cur out acc).isSome = ends ts fuel cur out := by
  induction fuel generalizing cur acc with
  | zero => rfl
  | succ fuel ih =>
    unfold buildLoop ends
    rcases select ts (fuel + 1) cur out with _ | _ | ⟨t, d, a⟩
    · rfl
    · rfl
    · exact ih _ _

theorem ends_agree {c c' o o' : Nat} (hc : Agree c c') (h : Agree o o') (fuel : Nat) :
    ends tables fuel c o = ends tables fuel c' o' := by
  induction fuel generalizing c c' with
  | zero => rfl
  | succ fuel ih =>
    unfold ends
    rw [select_agree hc h]
    split
    · rfl
    · rfl
    · exact ih (fun m _ => rfl)

/-- The finite core: among the intersections of table masks other than the bare low frequency
channel, table selection always ends. -/
theorem ends_family : ∀ c ∈ family, c ≠ 0x10000 → ∀ o ∈ family, o ≠ 0x10000 → ends tables 8 c o = true := by
  decide +kernel

/-! ## Matrices -/

/-- Nonnegative entries. -/
def NN (m : Mat) : Prop := ∀ o i, 0 ≤ m o i

/-- Nonnegative entries, every row sums up to at most one. -/
def Good (m : Mat) : Prop := NN m ∧ ∀ o, ∑ i ∈ Finset.range chanMax, m o i ≤ 1

theorem normalize_good {m : Mat} (h : NN m) : Good (normalize m) := by
  constructor
  · intro o i
    unfold normalize
    split
    · exact h o i
    · exact div_nonneg (h o i) (Finset.sum_nonneg fun k _ => h o k)
  · intro o
    unfold normalize
    by_cases h0 : ∑ k ∈ Finset.range chanMax, m o k = 0
    · simp only [h0, if_true]; exact zero_le_one
    · simp only [h0, if_false]
      rw [← Finset.sum_div, div_self h0]

theorem rulesMat_nn (rs : List Rule) : NN (rulesMat rs) := by
  unfold rulesMat
  generalize rs.takeWhile (fun r => r.2.2 ≠ 0) = l
  have : ∀ (l : List Rule) (m : Mat), NN m → NN (l.foldl
      (fun m r o i => if o = r.1 ∧ i = r.2.1 then (r.2.2 : ℚ) / 10000000 else m o i) m) := by
    intro l
    induction l with
    | nil => intro m h; exact h
    | cons a l ih =>
      intro m h
      rw [List.foldl_cons]
      apply ih
      intro o i
      dsimp only
      split
      · positivity
      · exact h o i
  exact this l _ (fun _ _ => le_refl 0)

theorem fromTable_good (t : Table) (d : Bool) (cin cout : Nat) : Good (fromTable t d cin cout) := by
  unfold fromTable
  have h := (normalize_good (rulesMat_nn t.rules)).1
  apply normalize_good
  intro o i
  dsimp only
  split
  · split
    · exact h o i
    · exact h i o
  · exact le_refl 0

theorem combine_good {a b : Mat} (ha : NN a) (hb : NN b) : Good (combine a b) := by
  unfold combine
  apply normalize_good
  intro o i
  dsimp only
  split
  · exact Finset.sum_nonneg fun k _ => mul_nonneg (hb o k) (ha k i)
  · exact le_refl 0

theorem diag_good : Good diag := by
  constructor
  · intro o i; unfold diag; split <;> simp
  · intro o
    unfold diag
    by_cases ho : o < chanMax
    · simp [ho]
    · simp [ho]

theorem buildLoop_good (ts : List Table) (fuel cur out : Nat) (acc : Option Mat)
    (hacc : ∀ m, acc = some m → Good m) (m : Mat) (h : buildLoop ts fuel cur out acc = some (some m)) :
    Good m := by
  induction fuel generalizing cur acc with
  | zero => simp [buildLoop] at h
  | succ fuel ih =>
    unfold buildLoop at h
    rcases hs : select ts (fuel + 1) cur out with _ | _ | ⟨t, d, a⟩
    · simp [hs] at h
    · simp only [hs, Option.some.injEq] at h; exact hacc m h
    · simp only [hs] at h
      refine ih _ _ ?_ h
      intro m' hm'
      simp only [Option.some.injEq] at hm'
      subst hm'
      cases acc with
      | none => exact fromTable_good _ _ _ _
      | some m0 => exact combine_good (hacc m0 rfl).1 (fromTable_good _ _ _ _).1

theorem buildMap_good {fuel cin cout : Nat} {m : Mat} (h : buildMap fuel cin cout = some m) : Good m := by
  unfold buildMap at h
  split at h
  · simp only [Option.some.injEq] at h; subst h; exact diag_good
  · rw [Option.map_eq_some_iff] at h
    obtain ⟨o, ho, hm⟩ := h
    subst hm
    cases o with
    | none => exact diag_good
    | some m0 => exact buildLoop_good _ _ _ _ none (by simp) m0 ho

theorem sum_list (f : Nat → ℚ) (L : List Nat) (n : Nat) (h : L.length ≤ n) :
    ∑ ii ∈ Finset.range n, (match L[ii]? with | some i => f i | none => 0) = (L.map f).sum := by
  induction L generalizing n with
  | nil => simp
  | cons a L ih =>
    obtain ⟨k, rfl⟩ : ∃ k, n = k + 1 := ⟨n - 1, by simp at h; omega⟩
    rw [Finset.sum_range_succ']
    simp only [List.getElem?_cons_succ, List.getElem?_cons_zero, List.map_cons, List.sum_cons]
    rw [ih k (by simp at h; omega), add_comm]

theorem indexMat_good {m : Mat} (h : Good m) (inL outL : List Nat) (hn : inL.Nodup)
    (hlt : ∀ i ∈ inL, i < chanMax) : Good (indexMat inL outL m) := by
  constructor
  · intro o i
    unfold indexMat
    split
    · exact h.1 _ _
    · exact le_refl 0
  · intro oi
    unfold indexMat
    cases ho : outL[oi]? with
    | none => simp
    | some o =>
      have hsub : inL.toFinset ⊆ Finset.range chanMax := by
        intro x hx; rw [List.mem_toFinset] at hx; exact Finset.mem_range.2 (hlt x hx)
      have hlen : inL.length ≤ chanMax := by
        rw [← List.toFinset_card_of_nodup hn]
        simpa using Finset.card_le_card hsub
      calc ∑ ii ∈ Finset.range chanMax, (match some o, inL[ii]? with | some o, some i => m o i | _, _ => 0)
          = ∑ ii ∈ Finset.range chanMax, (match inL[ii]? with | some i => m o i | none => 0) := by
            apply Finset.sum_congr rfl
            intro ii _
            cases inL[ii]? <;> rfl
        _ = (inL.map (m o)).sum := sum_list (m o) inL chanMax hlen
        _ = ∑ i ∈ inL.toFinset, m o i := (List.sum_toFinset (m o) hn).symm
        _ ≤ ∑ i ∈ Finset.range chanMax, m o i :=
            Finset.sum_le_sum_of_subset_of_nonneg hsub (fun i _ _ => h.1 o i)
        _ ≤ 1 := h.2 o

theorem testBit_maskOf (l : List Nat) (k : Nat) : (maskOf l).testBit k = decide (k ∈ l) := by
  unfold maskOf
  have : ∀ (l : List Nat) (m : Nat), (l.foldl (fun m ch => m ||| 2 ^ ch) m).testBit k
      = (m.testBit k || decide (k ∈ l)) := by
    intro l
    induction l with
    | nil => simp
    | cons a l ih =>
      intro m
      rw [List.foldl_cons, ih, Nat.testBit_or, Nat.testBit_two_pow]
      by_cases h : k = a
      · subst h; simp
      · have h' : ¬ a = k := fun e => h e.symm
        simp [h, h']
  rw [this]; simp

theorem maskOf_lt (l : List Nat) (h : ∀ i ∈ l, i < 17) : maskOf l < 2 ^ 17 := by
  apply Nat.lt_pow_two_of_testBit
  intro i hi
  rw [testBit_maskOf, decide_eq_false_iff_not]
  intro hc
  have := h i hc
  omega

end Verif.ChannelMatrix
