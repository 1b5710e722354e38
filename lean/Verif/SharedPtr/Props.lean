import Verif.SharedPtr.Model
import Mathlib.Data.List.Nodup
import Mathlib.Tactic.Linarith

/-!
# Shared pointers: property C131
-/

namespace Verif.SharedPtr

/-- Number of pointers to an object. -/
def refs (s : St) (o : Nat) : Nat := s.ptrs.countP fun x => decide (x.2 = o)

structure Inv (own : Nat → Option Nat) (s : St) (l : List Nat) : Prop where
  cells : (s.ptrs.map (·.1)).Nodup
  alive : ∀ x ∈ s.ptrs, s.live x.2 = true
  cnt : ∀ o, s.live o = true → s.cnt o = refs s o
  pos : ∀ o, s.live o = true → 0 < refs s o
  mem : ∀ x ∈ s.ptrs, ∀ o, own x.1 = some o → s.live o = true ∨ x.1 ∈ l
  max : ∀ o, s.live o = true → s.cnt o ≤ maxCounter

theorem inv_init (own : Nat → Option Nat) : Inv own .init [] := by
  refine ⟨by simp [St.init], by simp [St.init], ?_, ?_, by simp [St.init], ?_⟩ <;> simp [St.init]

theorem refs_erase (s : St) (x : Nat × Nat) (hx : x ∈ s.ptrs) (o : Nat) (s' : St) (h : s'.ptrs = s.ptrs.erase x) :
    refs s' o = refs s o - (if x.2 = o then 1 else 0) := by
  unfold refs
  rw [h, (List.perm_cons_erase hx).countP_eq, List.countP_cons]
  simp

theorem refs_pos (s : St) (x : Nat × Nat) (hx : x ∈ s.ptrs) : 0 < refs s x.2 := by
  unfold refs
  rw [List.countP_pos_iff]
  exact ⟨x, hx, by simp⟩

theorem get_some {s : St} {c o : Nat} (h : s.get c = some o) : (c, o) ∈ s.ptrs := by
  unfold St.get at h
  cases hf : s.ptrs.find? fun x => decide (x.1 = c) with
  | none => rw [hf] at h; cases h
  | some x =>
    rw [hf] at h
    simp only [Option.map_some] at h
    injection h with h
    have h1 := List.mem_of_find?_eq_some hf
    have h2 := List.find?_some hf
    simp only [decide_eq_true_eq] at h2
    rw [← h2, ← h]
    exact h1

theorem get_none {s : St} {c : Nat} (h : s.get c = none) : ∀ x ∈ s.ptrs, x.1 ≠ c := by
  unfold St.get at h
  rw [Option.map_eq_none_iff, List.find?_eq_none] at h
  intro x hx
  have := h x hx
  simpa using this

theorem get_mem {s : St} (hc : (s.ptrs.map (·.1)).Nodup) {c o : Nat} (h : (c, o) ∈ s.ptrs) : s.get c = some o := by
  cases hg : s.get c with
  | none => exact absurd rfl (get_none hg _ h)
  | some p =>
    have h1 := get_some hg
    have := List.inj_on_of_nodup_map hc h1 h rfl
    rw [(Prod.mk.inj this).2]

/-- Releasing never fails and keeps the invariant; pointers outside of objects and not in the list stay. -/
theorem drop_spec (own : Nat → Option Nat) (s : St) (l : List Nat) (h : Inv own s l) :
    ∃ s', drop own s l = .ok s' ∧ Inv own s' [] ∧ (∀ x ∈ s'.ptrs, x ∈ s.ptrs) ∧ (∀ x ∈ s.ptrs, x.1 ∉ l → own x.1 = none → x ∈ s'.ptrs) ∧
      (∀ c ∈ l, ∀ x ∈ s'.ptrs, x.1 ≠ c) ∧ s'.ptrs.length ≤ s.ptrs.length := by
  induction s, l using drop.induct own with
  | case1 s => exact ⟨s, by rw [drop], h, fun _ hx => hx, fun _ hx _ _ => hx, by simp, le_rfl⟩
  | case2 s c l hf ih =>
    have hno : ∀ x ∈ s.ptrs, x.1 ≠ c := by
      intro x hx
      have := List.find?_eq_none.1 hf x hx
      simpa using this
    have h' : Inv own s l := ⟨h.cells, h.alive, h.cnt, h.pos, fun x hx o ho => by
      rcases h.mem x hx o ho with a | a
      · exact Or.inl a
      · rcases List.mem_cons.1 a with a | a
        · exact absurd a (hno x hx)
        · exact Or.inr a, h.max⟩
    obtain ⟨s', a1, a2, a3, a4, a5, a6⟩ := ih h'
    refine ⟨s', ?_, a2, a3, ?_, ?_, a6⟩
    · rw [drop]; split
      · exact a1
      · rename_i y hy; rw [hf] at hy; cases hy
    · intro x hx hl ho; exact a4 x hx (fun hm => hl (List.mem_cons_of_mem _ hm)) ho
    · intro d hd
      rcases List.mem_cons.1 hd with rfl | hd
      · intro x hx; exact hno x (a3 x hx)
      · exact a5 d hd
  | case3 s c l x hf hl =>
    have := h.alive x (List.mem_of_find?_eq_some hf)
    rw [hl] at this; cases this
  | case4 s c l x hf hl hn =>
    have hx := List.mem_of_find?_eq_some hf
    have hlv := h.alive x hx
    have e := h.cnt _ hlv
    have p := h.pos _ hlv
    have m := h.max _ hlv
    omega
  | case5 s c l x hf hl hn h0 ih =>
    have hx := List.mem_of_find?_eq_some hf
    have hxc : x.1 = c := by simpa using List.find?_some hf
    have hlv := h.alive x hx
    have e := h.cnt _ hlv
    have hnd : s.ptrs.Nodup := List.Nodup.of_map _ h.cells
    have hmem : ∀ y, y ∈ s.ptrs.erase x ↔ y ≠ x ∧ y ∈ s.ptrs := fun y => hnd.mem_erase_iff
    have href : ∀ (s' : St) o, s'.ptrs = s.ptrs.erase x → refs s' o = refs s o - (if x.2 = o then 1 else 0) := fun s' o hs' => refs_erase s x hx o s' hs'
    have hne : ∀ y ∈ s.ptrs.erase x, y.2 ≠ x.2 := by
      intro y hy hyx
      have z := href ⟨s.ptrs.erase x, s.cnt, s.live⟩ x.2 rfl
      rw [if_pos rfl] at z
      have := refs_pos ⟨s.ptrs.erase x, s.cnt, s.live⟩ y hy
      rw [hyx] at this
      omega
    have h' : Inv own ⟨s.ptrs.erase x, upd s.cnt x.2 (-1), upd s.live x.2 false⟩
        (((s.ptrs.erase x).filter fun y => decide (own y.1 = some x.2)).map (·.1) ++ l) := by
      refine ⟨?_, ?_, ?_, ?_, ?_, ?_⟩
      · exact h.cells.sublist (List.Sublist.map _ List.erase_sublist)
      · intro y hy
        simp only [upd, if_neg (hne y hy)]
        exact h.alive y ((hmem y).1 hy).2
      · intro o ho
        simp only [upd] at ho ⊢
        split_ifs at ho ⊢ with ho1
        rw [href _ o rfl, if_neg (Ne.symm ho1)]
        simpa using h.cnt o ho
      · intro o ho
        simp only [upd] at ho
        split_ifs at ho with ho1
        rw [href _ o rfl, if_neg (Ne.symm ho1)]
        simpa using h.pos o ho
      · intro y hy o ho
        by_cases ho1 : o = x.2
        · right
          rw [List.mem_append]; left
          rw [List.mem_map]
          exact ⟨y, List.mem_filter.2 ⟨hy, by simp [ho, ho1]⟩, rfl⟩
        · simp only [upd, if_neg ho1]
          rcases h.mem y ((hmem y).1 hy).2 o ho with a | a
          · exact Or.inl a
          · right
            rw [List.mem_append]; right
            rcases List.mem_cons.1 a with a | a
            · exfalso
              have := List.inj_on_of_nodup_map h.cells ((hmem y).1 hy).2 hx (by rw [a, hxc])
              exact ((hmem y).1 hy).1 this
            · exact a
      · intro o ho
        simp only [upd] at ho ⊢
        split_ifs at ho ⊢ with ho1
        exact h.max o ho
    obtain ⟨s', a1, a2, a3, a4, a5, a6⟩ := ih h'
    refine ⟨s', ?_, a2, fun y hy => ((hmem y).1 (a3 y hy)).2, ?_, ?_, ?_⟩
    · rw [drop]; split
      · rename_i hy; rw [hf] at hy; cases hy
      · rename_i y hy
        rw [hf] at hy; injection hy with hy; subst hy
        rw [if_neg hl, if_neg hn, if_pos h0]
        exact a1
    · intro y hy hyl ho
      have hyx : y ≠ x := by
        intro e; apply hyl; rw [e, hxc]; simp
      refine a4 y ((hmem y).2 ⟨hyx, hy⟩) ?_ ho
      rw [List.mem_append]
      rintro (hm | hm)
      · rw [List.mem_map] at hm
        obtain ⟨z, hz, hzy⟩ := hm
        have := (List.mem_filter.1 hz).2
        rw [hzy, ho] at this
        simp at this
      · exact hyl (List.mem_cons_of_mem _ hm)
    · intro d hd y hy
      rcases List.mem_cons.1 hd with rfl | hd
      · intro e
        have := (hmem y).1 (a3 y hy)
        exact this.1 (List.inj_on_of_nodup_map h.cells this.2 hx (by rw [e, hxc]))
      · exact a5 d (List.mem_append_right _ hd) y hy
    · refine a6.trans ?_
      exact List.length_erase_le
  | case6 s c l x hf hl hn h0 ih =>
    have hx := List.mem_of_find?_eq_some hf
    have hxc : x.1 = c := by simpa using List.find?_some hf
    have hlv := h.alive x hx
    have e := h.cnt _ hlv
    have hnd : s.ptrs.Nodup := List.Nodup.of_map _ h.cells
    have hmem : ∀ y, y ∈ s.ptrs.erase x ↔ y ≠ x ∧ y ∈ s.ptrs := fun y => hnd.mem_erase_iff
    have href : ∀ (s' : St) o, s'.ptrs = s.ptrs.erase x → refs s' o = refs s o - (if x.2 = o then 1 else 0) := fun s' o hs' => refs_erase s x hx o s' hs'
    have hp := h.pos _ hlv
    have h' : Inv own ⟨s.ptrs.erase x, upd s.cnt x.2 (s.cnt x.2 - 1), s.live⟩ l := by
      refine ⟨?_, ?_, ?_, ?_, ?_, ?_⟩
      · exact h.cells.sublist (List.Sublist.map _ List.erase_sublist)
      · intro y hy; exact h.alive y ((hmem y).1 hy).2
      · intro o ho
        rw [href _ o rfl]
        simp only [upd]
        by_cases ho1 : o = x.2
        · subst ho1
          rw [if_pos rfl, if_pos rfl]; omega
        · rw [if_neg ho1, if_neg (Ne.symm ho1)]
          simpa using h.cnt o ho
      · intro o ho
        rw [href _ o rfl]
        by_cases ho1 : o = x.2
        · subst ho1
          rw [if_pos rfl]; omega
        · rw [if_neg (Ne.symm ho1)]
          simpa using h.pos o ho
      · intro y hy o ho
        rcases h.mem y ((hmem y).1 hy).2 o ho with a | a
        · exact Or.inl a
        · right
          rcases List.mem_cons.1 a with a | a
          · exfalso
            have := List.inj_on_of_nodup_map h.cells ((hmem y).1 hy).2 hx (by rw [a, hxc])
            exact ((hmem y).1 hy).1 this
          · exact a
      · intro o ho
        simp only [upd]
        have := h.max o ho
        split_ifs with ho1
        · subst ho1; omega
        · exact this
    obtain ⟨s', a1, a2, a3, a4, a5, a6⟩ := ih h'
    refine ⟨s', ?_, a2, fun y hy => ((hmem y).1 (a3 y hy)).2, ?_, ?_, ?_⟩
    · rw [drop]; split
      · rename_i hy; rw [hf] at hy; cases hy
      · rename_i y hy
        rw [hf] at hy; injection hy with hy; subst hy
        rw [if_neg hl, if_neg hn, if_neg h0]
        exact a1
    · intro y hy hyl ho
      have hyx : y ≠ x := by
        intro e; apply hyl; rw [e, hxc]; simp
      exact a4 y ((hmem y).2 ⟨hyx, hy⟩) (fun hm => hyl (List.mem_cons_of_mem _ hm)) ho
    · intro d hd y hy
      rcases List.mem_cons.1 hd with rfl | hd
      · intro e
        have := (hmem y).1 (a3 y hy)
        exact this.1 (List.inj_on_of_nodup_map h.cells this.2 hx (by rw [e, hxc]))
      · exact a5 d hd y hy
    · refine a6.trans ?_
      exact List.length_erase_le

/-- A pointer is added where there is none. -/
theorem acquire_inv {own : Nat → Option Nat} {s s' : St} {c o : Nat} (hcells : (s.ptrs.map (·.1)).Nodup) (halive : ∀ x ∈ s.ptrs, s.live x.2 = true)
    (hcnt : ∀ o, s.live o = true → s.cnt o = refs s o) (hpos : ∀ p, p ≠ o → s.live p = true → 0 < refs s p)
    (hmem : ∀ x ∈ s.ptrs, ∀ o, own x.1 = some o → s.live o = true) (hmax : ∀ o, s.live o = true → s.cnt o ≤ maxCounter)
    (hc : ∀ x ∈ s.ptrs, x.1 ≠ c) (ha : s.access own c = true) (h : s.acquire c o = .ok s') : Inv own s' [] ∧ s'.ptrs.length = s.ptrs.length + 1 := by
  unfold St.acquire at h
  split_ifs at h with h1 h2
  injection h with h
  have hl : s.live o = true := by simpa using h1
  have href : ∀ p, refs s' p = refs s p + if o = p then 1 else 0 := by
    intro p
    subst h
    unfold refs
    simp only [List.countP_append, List.countP_cons, List.countP_nil, decide_eq_true_eq, zero_add]
  have hlive : s'.live = s.live := by subst h; rfl
  have hptrs : s'.ptrs = s.ptrs ++ [(c, o)] := by subst h; rfl
  have hcn : s'.cnt = upd s.cnt o (s.cnt o + 1) := by subst h; rfl
  refine ⟨⟨?_, ?_, ?_, ?_, ?_, ?_⟩, by rw [hptrs]; simp⟩
  · rw [hptrs, List.map_append, List.nodup_append]
    refine ⟨hcells, by simp, ?_⟩
    intro a ha' b hb
    rw [List.mem_map] at ha'
    obtain ⟨x, hx, rfl⟩ := ha'
    simp only [List.map_cons, List.map_nil, List.mem_singleton] at hb
    rw [hb]; exact hc x hx
  · intro x hx
    rw [hlive]
    rw [hptrs, List.mem_append, List.mem_singleton] at hx
    rcases hx with hx | rfl
    · exact halive x hx
    · exact hl
  · intro p hp
    rw [hlive] at hp
    rw [href, hcn]
    have := hcnt p hp
    simp only [upd]
    by_cases e : p = o
    · subst e; simp [this]
    · simp [e, Ne.symm e, this]
  · intro p hp
    rw [hlive] at hp
    rw [href]
    by_cases e : p = o
    · subst e; simp
    · have := hpos p e hp; omega
  · intro x hx p hp
    left
    rw [hlive]
    rw [hptrs, List.mem_append, List.mem_singleton] at hx
    rcases hx with hx | rfl
    · exact hmem x hx p hp
    · unfold St.access at ha
      rw [hp] at ha
      exact ha
  · intro p hp
    rw [hlive] at hp
    rw [hcn]
    simp only [upd]
    split_ifs with e
    · subst e; omega
    · exact hmax p hp

theorem Inv.add {own : Nat → Option Nat} {s : St} {l : List Nat} (h : Inv own s l) {c : Nat} : Inv own s (c :: l) :=
  ⟨h.cells, h.alive, h.cnt, h.pos, fun x hx o ho => (h.mem x hx o ho).imp id (List.mem_cons_of_mem _), h.max⟩

/-- Every operation that succeeds keeps the invariant. -/
theorem step_inv {own : Nat → Option Nat} {s s' : St} (h : Inv own s []) (o : Op) (hl : o.legal own s = true) (hs : s.step own o = .ok s') :
    Inv own s' [] ∧ s'.ptrs.length ≤ s.ptrs.length + 1 := by
  have hm : ∀ x ∈ s.ptrs, ∀ o, own x.1 = some o → s.live o = true := by
    intro x hx o ho
    rcases h.mem x hx o ho with a | a
    · exact a
    · cases a
  have hreset : ∀ c v, s.resetTo own c v = .ok s' → Inv own s' [] ∧ s'.ptrs.length ≤ s.ptrs.length + 1 := by
    intro c v hr
    unfold St.resetTo at hr
    split_ifs at hr with h1
    · injection hr with hr; subst hr; exact ⟨h, by omega⟩
    · obtain ⟨s1, a1, a2, a3, a4, a5, a6⟩ := drop_spec own s [c] h.add
      rw [a1] at hr
      simp only at hr
      split_ifs at hr with h2
      cases v with
      | none => simp only at hr; injection hr with hr; subst hr; exact ⟨a2, by omega⟩
      | some o =>
        simp only at hr
        have := acquire_inv a2.cells a2.alive a2.cnt (fun p _ => a2.pos p) (fun x hx o ho => by
          rcases a2.mem x hx o ho with a | a
          · exact a
          · cases a) a2.max (a5 c (by simp)) (by simpa using h2) hr
        exact ⟨this.1, by omega⟩
  cases o with
  | create c o =>
    simp only [Op.legal, Bool.and_eq_true, Option.isNone_iff_eq_none, Bool.not_eq_true'] at hl
    obtain ⟨⟨l1, l2⟩, l3⟩ := hl
    have hno : ∀ x ∈ s.ptrs, x.2 ≠ o := by
      intro x hx e
      have := h.alive x hx
      rw [e, l3] at this; cases this
    have hr0 : refs s o = 0 := by
      unfold refs
      rw [List.countP_eq_zero]
      intro x hx
      simpa using hno x hx
    have hlv : ∀ p, upd s.live o true p = true → p ≠ o → s.live p = true := by
      intro p hp e
      simpa [upd, e] using hp
    have := acquire_inv (s := { s with cnt := upd s.cnt o 0, live := upd s.live o true }) h.cells
      (fun x hx => by simp only [upd, if_neg (hno x hx)]; exact h.alive x hx)
      (fun p hp => by
        by_cases e : p = o
        · subst e
          have : refs { s with cnt := upd s.cnt p 0, live := upd s.live p true } p = 0 := hr0
          rw [this]; simp [upd]
        · have := h.cnt p (hlv p hp e)
          simp only [upd, if_neg e]
          exact this)
      (fun p e hp => h.pos p (hlv p hp e))
      (fun x hx p hp => by
        by_cases e : p = o
        · subst e; simp [upd]
        · simp only [upd, if_neg e]; exact hm x hx p hp)
      (fun p hp => by
        by_cases e : p = o
        · subst e; simp [upd, maxCounter]
        · simp only [upd, if_neg e]; exact h.max p (hlv p hp e))
      (get_none l2) (by
        unfold St.access at l1 ⊢
        cases hown : own c with
        | none => rfl
        | some p =>
          rw [hown] at l1
          simp only at l1 ⊢
          simp only [upd]
          split_ifs
          · rfl
          · exact l1) hs
    exact ⟨this.1, by have := this.2; simp only at this; omega⟩
  | copy c d =>
    simp only [Op.legal, Bool.and_eq_true, Option.isNone_iff_eq_none] at hl
    obtain ⟨⟨l1, -⟩, l2⟩ := hl
    simp only [St.step] at hs
    cases hd : s.get d with
    | none => rw [hd] at hs; simp only at hs; injection hs with hs; subst hs; exact ⟨h, by omega⟩
    | some o =>
      rw [hd] at hs
      simp only at hs
      have := acquire_inv h.cells h.alive h.cnt (fun p _ => h.pos p) hm h.max (get_none l2) l1 hs
      exact ⟨this.1, by omega⟩
  | destroy c =>
    obtain ⟨s1, a1, a2, -, -, -, a6⟩ := drop_spec own s [c] h.add
    simp only [St.step] at hs
    rw [a1] at hs
    injection hs with hs; subst hs
    exact ⟨a2, by omega⟩
  | assign c d => exact hreset c _ hs
  | reset c => exact hreset c _ hs

theorem run_inv {own : Nat → Option Nat} (l : List Op) : ∀ (s s' : St), Inv own s [] → run own s l = .ok s' → Inv own s' [] := by
  induction l with
  | nil => intro s s' h hr; simp only [run] at hr; injection hr with hr; subst hr; exact h
  | cons o l ih =>
    intro s s' h hr
    simp only [run] at hr
    split_ifs at hr with hl
    · cases hs : s.step own o with
      | ok s1 => rw [hs] at hr; exact ih s1 s' (step_inv h o hl hs).1 hr
      | uaf => rw [hs] at hr; cases hr
      | panic => rw [hs] at hr; cases hr
    · exact ih s s' h hr

/-- **C131** (life time). After any history of operations on shared pointers without a fault: an object exists if and only if some shared pointer
points to it, and its counter is the number of these pointers. -/
theorem C131_lifetime (own : Nat → Option Nat) (l : List Op) (s : St) (h : run own .init l = .ok s) (o : Nat) :
    (s.live o = true ↔ ∃ c, s.get c = some o) ∧ (s.live o = true → s.cnt o = (s.ptrs.filter fun x => decide (x.2 = o)).length) := by
  have hi := run_inv l .init s (inv_init own) h
  refine ⟨⟨?_, ?_⟩, ?_⟩
  · intro hl
    have := hi.pos o hl
    unfold refs at this
    rw [List.countP_pos_iff] at this
    obtain ⟨x, hx, hxo⟩ := this
    simp only [decide_eq_true_eq] at hxo
    exact ⟨x.1, get_mem hi.cells (by rw [← hxo]; exact hx)⟩
  · rintro ⟨c, hc⟩
    exact hi.alive _ (get_some hc)
  · intro hl
    rw [hi.cnt o hl]
    unfold refs
    rw [List.countP_eq_length_filter]

/-- The operation does not assign to a member of an object, nor from one. -/
def plain (own : Nat → Option Nat) : Op → Prop
  | .assign c d => own c = none ∧ own d = none
  | .reset c => own c = none
  | _ => True

theorem acquire_ok {own : Nat → Option Nat} {s : St} (h : Inv own s []) (c o : Nat) (hl : s.live o = true) (hb : (s.ptrs.length : Int) < maxCounter) :
    ∃ s', s.acquire c o = .ok s' := by
  unfold St.acquire
  have e := h.cnt o hl
  have : refs s o ≤ s.ptrs.length := List.countP_le_length
  rw [if_neg (by rw [hl]; simp), if_neg (by omega)]
  exact ⟨_, rfl⟩

theorem step_ok {own : Nat → Option Nat} {s : St} (h : Inv own s []) (o : Op) (hl : o.legal own s = true) (hp : plain own o)
    (hb : (s.ptrs.length : Int) < maxCounter) : ∃ s', s.step own o = .ok s' := by
  have hreset : ∀ c v, own c = none → (v = none ∨ ∃ d, own d = none ∧ v = s.get d) → ∃ s', s.resetTo own c v = .ok s' := by
    intro c v hc hv
    unfold St.resetTo
    by_cases h1 : v = s.get c
    · rw [if_pos h1]; exact ⟨_, rfl⟩
    · rw [if_neg h1]
      obtain ⟨s1, a1, a2, a3, a4, a5, a6⟩ := drop_spec own s [c] h.add
      rw [a1]
      simp only
      rw [if_neg (by unfold St.access; rw [hc]; simp)]
      cases v with
      | none => exact ⟨_, rfl⟩
      | some o =>
        simp only
        rcases hv with hv | ⟨d, hd, hv⟩
        · cases hv
        · have hmem := get_some hv.symm
          have hdc : d ≠ c := by intro e; rw [e] at hv; exact h1 hv
          have := a4 _ hmem (by simpa using hdc) hd
          exact acquire_ok a2 c o (a2.alive _ this) (by omega)
  cases o with
  | create c o =>
    simp only [Op.legal, Bool.and_eq_true, Option.isNone_iff_eq_none, Bool.not_eq_true'] at hl
    simp only [St.step, St.acquire, upd, if_true]
    rw [if_neg (by simp), if_neg (by simp [maxCounter])]
    exact ⟨_, rfl⟩
  | copy c d =>
    simp only [St.step]
    cases hd : s.get d with
    | none => exact ⟨_, rfl⟩
    | some o => exact acquire_ok h c o (h.alive _ (get_some hd)) hb
  | destroy c =>
    obtain ⟨s1, a1, -⟩ := drop_spec own s [c] h.add
    exact ⟨s1, a1⟩
  | assign c d => exact hreset c _ hp.1 (Or.inr ⟨d, hp.2, rfl⟩)
  | reset c => exact hreset c none hp (Or.inl rfl)

theorem run_ok {own : Nat → Option Nat} (l : List Op) : ∀ (s : St), Inv own s [] → (∀ o ∈ l, plain own o) →
    (s.ptrs.length + l.length : Int) ≤ maxCounter → ∃ s', run own s l = .ok s' := by
  induction l with
  | nil => intro s _ _ _; exact ⟨s, rfl⟩
  | cons o l ih =>
    intro s h hp hb
    simp only [List.length_cons] at hb
    push_cast at hb
    simp only [run]
    split_ifs with hl
    · obtain ⟨s1, hs⟩ := step_ok h o hl (hp o (by simp)) (by omega)
      rw [hs]
      simp only
      obtain ⟨i1, i2⟩ := step_inv h o hl hs
      exact ih s1 i1 (fun o ho => hp o (List.mem_cons_of_mem _ ho)) (by omega)
    · exact ih s h (fun o ho => hp o (List.mem_cons_of_mem _ ho)) (by omega)

/-- **C131** (partial: safety). A history of at most 100000 operations in which assignments are between variables accesses no destroyed object and does
not abort, whichever members objects have. Missing: assignments to and from members of objects (see `C131_assign_fails`). -/
theorem C131_safe_partial (own : Nat → Option Nat) (l : List Op) (hp : ∀ o ∈ l, plain own o) (hb : (l.length : Int) ≤ 100000) :
    ∃ s, run own .init l = .ok s :=
  run_ok l .init (inv_init own) hp (by simpa [St.init, maxCounter] using hb)

/-- Cell 10 is a member of object 1; others are variables. -/
def node : Nat → Option Nat := fun c => if c = 10 then some 1 else none

/-- Variable 0 points to object 1, which points to object 2; a copy of the pointer is made and the first variable is assigned from another one. -/
def sample : List Op := [.create 0 1, .create 10 2, .copy 3 0, .create 4 7, .assign 0 4, .reset 3]

example : ∃ s, run node .init sample = .ok s :=
  C131_safe_partial node sample (by intro o ho; simp only [sample, List.mem_cons, List.not_mem_nil, or_false] at ho; rcases ho with rfl | rfl | rfl | rfl | rfl | rfl <;> simp [plain, node])
    (by simp [sample])

/-- The life time on this case: the object 1 is pointed to by the variable 0 and exists, and the object 3 does not. -/
example : ∃ s, run node .init [.create 0 1, .create 10 2] = .ok s ∧ (s.live 1 = true ↔ ∃ c, s.get c = some 1) ∧ s.get 0 = some 1 ∧ s.live 3 = false :=
  ⟨_, rfl, (C131_lifetime node [.create 0 1, .create 10 2] _ rfl 1).1, rfl, rfl⟩

/-- **C131 fails** for an assignment from a member of the object which is released, like `p = p->next`: `reset` (shared_ptr.h:84-90) releases the old
object first. Whenever the variable `c` is the only pointer to an object and a member `d` of it is the only pointer to another one, both are
destroyed, and then the destroyed object is accessed. -/
theorem C131_assign_fails (own : Nat → Option Nat) (l : List Op) (s : St) (h : run own .init l = .ok s) (c d a b : Nat) (hc : s.get c = some a)
    (hd : s.get d = some b) (hown : own d = some a) (hvar : own c = none) (ha : ∀ e, s.get e = some a → e = c) (hb : ∀ e, s.get e = some b → e = d) :
    s.step own (.assign c d) = .uaf := by
  have hi := run_inv l .init s (inv_init own) h
  have hab : a ≠ b := by
    intro e
    rw [← e] at hd
    have := ha d hd
    rw [this, hvar] at hown; cases hown
  obtain ⟨s1, a1, a2, a3, -, a5, -⟩ := drop_spec own s [c] hi.add
  have hlive : ∀ o, s1.live o = true → ∃ e, (e, o) ∈ s1.ptrs := by
    intro o ho
    have := a2.pos o ho
    unfold refs at this
    rw [List.countP_pos_iff] at this
    obtain ⟨x, hx, hxo⟩ := this
    simp only [decide_eq_true_eq] at hxo
    exact ⟨x.1, by rw [← hxo]; exact hx⟩
  have hda : s1.live a = false := by
    cases hl : s1.live a with
    | false => rfl
    | true =>
      obtain ⟨e, he⟩ := hlive a hl
      have := ha e (get_mem hi.cells (a3 _ he))
      exact absurd this (a5 c (by simp) _ he)
  have hdb : s1.live b = false := by
    cases hl : s1.live b with
    | false => rfl
    | true =>
      obtain ⟨e, he⟩ := hlive b hl
      have := hb e (get_mem hi.cells (a3 _ he))
      subst this
      rcases a2.mem _ he a hown with z | z
      · rw [hda] at z; cases z
      · cases z
  have hacc : s1.access own c = true := by unfold St.access; rw [hvar]
  simp only [St.step, St.resetTo]
  rw [hd, hc, if_neg (by simpa using Ne.symm hab), a1]
  simp only
  rw [if_neg (by rw [hacc]; simp)]
  unfold St.acquire
  rw [if_pos hdb]

/-- Variable 0 points to object 1, whose member 10 points to object 2: `p = p->next` for a list of two nodes. -/
example : ∃ s, run node .init [.create 0 1, .create 10 2] = .ok s ∧ s.step node (.assign 0 10) = .uaf := by
  refine ⟨_, rfl, C131_assign_fails node [.create 0 1, .create 10 2] _ rfl 0 10 1 2 rfl rfl rfl rfl ?_ ?_⟩
  · intro e he
    have := get_some he
    simpa [St.init] using this
  · intro e he
    have := get_some he
    simpa [St.init] using this

end Verif.SharedPtr
