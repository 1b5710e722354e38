import Verif.SortedQueue.Spec
import Verif.Units.Lemmas

namespace Verif.SortedQueue

variable {P : Type} {cmp : P → P → Int} {pos : P → Int} {S : P → Prop}

/-- The list is strictly descending by position. -/
def Desc (pos : P → Int) (l : List P) : Prop := l.Pairwise (fun a b => pos b < pos a)

theorem insert_none (h : Ordered cmp pos S) {p : P} (hp : S p) :
    ∀ {l : List P}, (∀ x ∈ l, S x) → insert cmp p l = none → ∃ x ∈ l, pos x = pos p
  | [], _, hi => by simp [insert] at hi
  | x :: xs, hl, hi => by
    have hx := h p x hp (hl x (by simp))
    unfold insert at hi
    split at hi
    · have := insert_none (l := xs) h hp (fun y hy => hl y (by simp [hy])) (by simpa using hi)
      obtain ⟨y, hy, e⟩ := this
      exact ⟨y, by simp [hy], e⟩
    · split at hi
      · exact ⟨x, by simp, by have := hx.2.mp (by assumption); omega⟩
      · simp at hi

theorem insert_some (h : Ordered cmp pos S) {p : P} (hp : S p) :
    ∀ {l l' : List P}, (∀ x ∈ l, S x) → Desc pos l → insert cmp p l = some l' →
      l'.Perm (p :: l) ∧ Desc pos l' ∧ (∀ x ∈ l, pos x ≠ pos p)
  | [], l', _, _, hi => by
    simp [insert] at hi; subst hi
    exact ⟨.refl _, by simp [Desc], by simp⟩
  | x :: xs, l', hl, hd, hi => by
    have hx := h p x hp (hl x (by simp))
    unfold insert at hi
    have hd' : (∀ y ∈ xs, pos y < pos x) ∧ Desc pos xs := by
      simpa [Desc] using hd
    split at hi
    · rename_i hlt
      simp only [Option.map_eq_some_iff] at hi
      obtain ⟨l2, h2, rfl⟩ := hi
      have ⟨ih1, ih2, ih3⟩ := insert_some h hp (fun y hy => hl y (by simp [hy])) hd'.2 h2
      have hpx : pos p < pos x := hx.1.mp hlt
      refine ⟨(ih1.cons x).trans (List.Perm.swap ..), ?_, ?_⟩
      · simp only [Desc, List.pairwise_cons]
        refine ⟨fun y hy => ?_, ih2⟩
        have := ih1.mem_iff.mp hy
        simp only [List.mem_cons] at this
        rcases this with rfl | hy'
        · exact hpx
        · exact hd'.1 y hy'
      · intro y hy
        simp only [List.mem_cons] at hy
        rcases hy with rfl | hy
        · omega
        · exact ih3 y hy
    · split at hi
      · simp at hi
      · rename_i hnlt hne
        simp only [Option.some.injEq] at hi
        subst hi
        have hpx : pos x < pos p := by
          have h1 : ¬ pos p < pos x := fun hh => hnlt (hx.1.mpr hh)
          have h2 : ¬ pos p = pos x := fun hh => hne (hx.2.mpr hh)
          omega
        refine ⟨.refl _, ?_, ?_⟩
        · simp only [Desc, List.pairwise_cons]
          refine ⟨?_, hd'⟩
          intro y hy
          simp only [List.mem_cons] at hy
          rcases hy with rfl | hy
          · exact hpx
          · have := hd'.1 y hy; omega
        · intro y hy
          simp only [List.mem_cons] at hy
          rcases hy with rfl | hy
          · omega
          · have := hd'.1 y hy; omega

theorem write_maxSize (q : Queue P) (p : P) : (q.write cmp p).maxSize = q.maxSize := by
  unfold Queue.write; split
  · rfl
  · dsimp only; split <;> rfl

theorem read_maxSize (q : Queue P) : q.read.2.maxSize = q.maxSize := by
  unfold Queue.read; split <;> rfl

/-- What `write` does to the list. -/
theorem write_list (h : Ordered cmp pos S) {q : Queue P} {p : P} (hp : S p)
    (hl : ∀ x ∈ q.list, S x) (hd : Desc pos q.list) :
    Desc pos (q.write cmp p).list ∧
    (((q.write cmp p).list.Perm (p :: q.list) ∧ ∀ x ∈ q.list, pos x ≠ pos p) ∨
     ((q.write cmp p).list = q.list ∧
       ((∃ x ∈ q.list, pos x = pos p) ∨ (q.maxSize > 0 ∧ q.list.length = q.maxSize)))) := by
  unfold Queue.write
  split
  · rename_i hfull
    exact ⟨hd, .inr ⟨rfl, .inr hfull⟩⟩
  · dsimp only
    split
    · rename_i hi
      exact ⟨hd, .inr ⟨rfl, .inl (insert_none h hp hl hi)⟩⟩
    · rename_i l hi
      have ⟨h1, h2, h3⟩ := insert_some h hp hl hd hi
      exact ⟨h2, .inl ⟨h1, h3⟩⟩

theorem read_cases (q : Queue P) :
    (q.list = [] ∧ q.read = (none, q)) ∨
    (∃ p l, q.list = l ++ [p] ∧ q.read = (some p, { q with list := l })) := by
  unfold Queue.read
  rcases List.eq_nil_or_concat q.list with h | ⟨l, p, h⟩
  · left; simp [h]
  · right; refine ⟨p, l, ?_⟩; simp [h]

/-- Main invariant of a call sequence. -/
theorem run_inv (h : Ordered cmp pos S) (ops : List (Op P)) :
    ∀ (q : Queue P), (∀ x ∈ q.list, S x) → Desc pos q.list → (∀ p ∈ writes ops, S p) →
      (∀ x ∈ (run cmp q ops).1.list, S x) ∧ Desc pos (run cmp q ops).1.list ∧
      ∃ dropped, ((run cmp q ops).2 ++ (run cmp q ops).1.list ++ dropped).Perm (q.list ++ writes ops) ∧
        (q.maxSize = 0 → ∀ d ∈ dropped, ∃ p ∈ (run cmp q ops).2 ++ (run cmp q ops).1.list, pos p = pos d) := by
  induction ops with
  | nil => intro q hl hd _; exact ⟨hl, hd, [], by simp [run, writes], by simp⟩
  | cons op ops ih =>
    intro q hl hd hw
    cases op with
    | write p =>
      simp only [run, writes]
      have hp : S p := hw p (by simp [writes])
      have ⟨hd', hc⟩ := write_list (cmp := cmp) h hp hl hd
      have hl' : ∀ x ∈ (q.write cmp p).list, S x := by
        intro x hx
        rcases hc with ⟨hperm, _⟩ | ⟨he, _⟩
        · have := hperm.mem_iff.mp hx
          simp only [List.mem_cons] at this
          rcases this with rfl | hx
          · exact hp
          · exact hl x hx
        · exact hl x (he ▸ hx)
      obtain ⟨i1, i2, dropped, i3, i4⟩ := ih (q.write cmp p) hl' hd' (fun x hx => hw x (by simp [writes, hx]))
      refine ⟨i1, i2, ?_⟩
      rcases hc with ⟨hperm, _⟩ | ⟨he, hwhy⟩
      · refine ⟨dropped, i3.trans ?_, ?_⟩
        · refine (hperm.append_right _).trans ?_
          simpa using (List.perm_middle (l₁ := q.list) (l₂ := writes ops) (a := p)).symm
        · intro hm; exact i4 (by rw [write_maxSize]; exact hm)
      · refine ⟨p :: dropped, ?_, ?_⟩
        · rw [he] at i3
          refine List.perm_middle.trans ?_
          refine (i3.cons p).trans ?_
          exact (List.perm_middle (l₁ := q.list) (l₂ := writes ops) (a := p)).symm
        · intro hm d hdm
          simp only [List.mem_cons] at hdm
          rcases hdm with rfl | hdm
          · rcases hwhy with ⟨x, hx, hxp⟩ | ⟨hf, _⟩
            · -- the equal packet is queued, so it ends up in the output or in the queue
              rw [he] at i3
              have hx' : x ∈ (run cmp (q.write cmp d) ops).2 ++ (run cmp (q.write cmp d) ops).1.list ++ dropped :=
                i3.mem_iff.mpr (by simp [hx])
              simp only [List.mem_append] at hx'
              rcases hx' with hx' | hx'
              · exact ⟨x, by simpa using hx', hxp⟩
              · obtain ⟨y, hy, hyx⟩ := i4 (by rw [write_maxSize]; exact hm) x hx'
                exact ⟨y, hy, hyx.trans hxp⟩
            · omega
          · exact i4 (by rw [write_maxSize]; exact hm) d hdm
    | read =>
      simp only [run, writes]
      rcases read_cases q with ⟨hnil, hr⟩ | ⟨p, l, hlp, hr⟩
      · have := ih q hl hd (fun x hx => hw x (by simpa [writes] using hx))
        simpa [hr] using this
      · have hl' : ∀ x ∈ l, S x := fun x hx => hl x (by simp [hlp, hx])
        have hd' : Desc pos l := by
          rw [hlp] at hd; exact (List.pairwise_append.mp hd).1
        obtain ⟨i1, i2, dropped, i3, i4⟩ :=
          ih { q with list := l } hl' hd' (fun x hx => hw x (by simpa [writes] using hx))
        simp only [hr]
        refine ⟨i1, i2, dropped, ?_, ?_⟩
        · simp only [Option.toList_some, List.cons_append, List.nil_append]
          refine (i3.cons p).trans ?_
          rw [hlp]
          simpa using (List.perm_middle (l₁ := l) (l₂ := writes ops) (a := p)).symm
        · intro hm d hdm
          obtain ⟨y, hy, e⟩ := i4 hm d hdm
          refine ⟨y, ?_, e⟩
          simp only [Option.toList_some, List.cons_append, List.nil_append, List.mem_cons]
          exact .inr hy

end Verif.SortedQueue

namespace Verif.SortedQueue

variable {P : Type} {cmp : P → P → Int} {pos : P → Int} {S : P → Prop}

/-- `latest` of a queue without size limit is at or after every packet written. -/
theorem run_latest (h : Ordered cmp pos S) (ops : List (Op P)) :
    ∀ (q : Queue P), q.maxSize = 0 → (∀ x, q.latest = some x → S x) → (∀ p ∈ writes ops, S p) →
      (∀ x, q.latest = some x → ∃ y, (run cmp q ops).1.latest = some y ∧ pos x ≤ pos y) ∧
      (∀ p ∈ writes ops, ∃ y, (run cmp q ops).1.latest = some y ∧ pos p ≤ pos y) ∧
      (∀ y, (run cmp q ops).1.latest = some y → q.latest = some y ∨ y ∈ writes ops) := by
  induction ops with
  | nil => intro q _ _ _; exact ⟨fun x hx => ⟨x, hx, by omega⟩, by simp [writes], fun y hy => .inl hy⟩
  | cons op ops ih =>
    intro q hm hS hw
    cases op with
    | read =>
      simp only [run, writes]
      have hlat : q.read.2.latest = q.latest := by unfold Queue.read; split <;> rfl
      have := ih q.read.2 (by rw [read_maxSize]; exact hm) (by rw [hlat]; exact hS)
        (fun x hx => hw x (by simpa [writes] using hx))
      rw [hlat] at this
      exact this
    | write p =>
      simp only [run, writes]
      have hp : S p := hw p (by simp [writes])
      have hlat : ∃ z, (q.write cmp p).latest = some z ∧ S z ∧ pos p ≤ pos z ∧
          (∀ x, q.latest = some x → pos x ≤ pos z) ∧ (q.latest = some z ∨ z = p) := by
        unfold Queue.write
        rw [if_neg (by omega)]
        dsimp only
        cases hq : q.latest with
        | none =>
          refine ⟨p, ?_, hp, by omega, by simp, .inr rfl⟩
          split <;> rfl
        | some l =>
          have hl := h l p (hS l hq) hp
          by_cases hc : cmp l p ≤ 0
          · refine ⟨p, ?_, hp, by omega, ?_, .inr rfl⟩
            · simp only [hc, if_true]; split <;> rfl
            · intro x hx; cases hx; omega
          · refine ⟨l, ?_, hS l hq, ?_, ?_, .inl rfl⟩
            · simp only [hc, if_false]; split <;> rfl
            · omega
            · intro x hx; cases hx; omega
      obtain ⟨z, hz, hzS, hpz, hqz, hzz⟩ := hlat
      have ⟨i1, i2, i3⟩ := ih (q.write cmp p) (by rw [write_maxSize]; exact hm)
        (by intro x hx; rw [hz] at hx; cases hx; exact hzS) (fun x hx => hw x (by simp [writes, hx]))
      obtain ⟨y, hy, hzy⟩ := i1 z hz
      refine ⟨fun x hx => ⟨y, hy, by have := hqz x hx; omega⟩, ?_, ?_⟩
      · intro x hx
        simp only [List.mem_cons] at hx
        rcases hx with rfl | hx
        · exact ⟨y, hy, by omega⟩
        · exact i2 x hx
      · intro y' hy'
        rcases i3 y' hy' with h1 | h1
        · rw [hz] at h1; cases h1
          rcases hzz with h2 | h2
          · exact .inl h2
          · right; simp [h2]
        · right; simp [h1]

theorem run_size (ops : List (Op P)) : ∀ (q : Queue P), 0 < q.maxSize → q.list.length ≤ q.maxSize →
    (run cmp q ops).1.list.length ≤ q.maxSize := by
  have hins : ∀ (p : P) (l l' : List P), insert cmp p l = some l' → l'.length = l.length + 1 := by
    intro p l
    induction l with
    | nil => intro l' h; simp [insert] at h; simp [← h]
    | cons x xs ih =>
      intro l' h
      unfold insert at h
      split at h
      · simp only [Option.map_eq_some_iff] at h
        obtain ⟨l2, h2, rfl⟩ := h
        simp [ih l2 h2]
      · split at h
        · simp at h
        · simp at h; simp [← h]
  induction ops with
  | nil => intro q _ h; simpa [run] using h
  | cons op ops ih =>
    intro q h0 h
    cases op with
    | write p =>
      simp only [run]
      have := ih (q.write cmp p) (by rw [write_maxSize]; exact h0) (by
        rw [write_maxSize]
        unfold Queue.write
        split
        · exact h
        · rename_i hf
          dsimp only
          split
          · exact h
          · rename_i l hl
            have := hins _ _ _ hl
            simp only [this]
            omega)
      rwa [write_maxSize] at this
    | read =>
      simp only [run]
      have := ih q.read.2 (by rw [read_maxSize]; exact h0) (by
        rw [read_maxSize]
        rcases read_cases q with ⟨_, hr⟩ | ⟨p, l, hl, hr⟩
        · simpa [hr] using h
        · rw [hr]; simp [hl] at h; simp; omega)
      rwa [read_maxSize] at this

/-- Reading `n` times without writing in between. -/
def readMany : Nat → Queue P → List P
  | 0, _ => []
  | n + 1, q => q.read.1.toList ++ readMany n q.read.2

theorem readMany_eq : ∀ (n : Nat) (q : Queue P), readMany n q = q.list.reverse.take n
  | 0, q => by simp [readMany]
  | n + 1, q => by
    rcases read_cases q with ⟨h, hr⟩ | ⟨p, l, h, hr⟩
    · simp [readMany, hr, readMany_eq n q, h]
    · simp only [readMany, hr, readMany_eq n, h, List.reverse_append]
      simp

end Verif.SortedQueue
