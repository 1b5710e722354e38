import Verif.SessionRouter.Model
import Mathlib.Tactic.SplitIfs
import Mathlib.Tactic.Tauto

/-!
# Session router: invariants
-/

namespace Verif.SessionRouter

theorem get_id {s : St} {i : Nat} {r : Route} (h : s.get i = some r) : r.id = i := by
  have := List.find?_some h
  simpa using this

theorem get_mem {s : St} {i : Nat} {r : Route} (h : s.get i = some r) : r ∈ s.routes := List.mem_of_find?_eq_some h

theorem get_set {s : St} {i : Nat} {f : Route → Route} (hf : ∀ r, (f r).id = r.id) (j : Nat) :
    (s.set i f).get j = if j = i then (s.get i).map f else s.get j := by
  unfold St.get St.set
  simp only
  induction s.routes with
  | nil => simp
  | cons r l ih =>
    rw [List.map_cons, List.find?_cons, List.find?_cons, List.find?_cons, ih]
    by_cases h1 : r.id = i <;> by_cases h2 : r.id = j <;> by_cases h3 : j = i <;> simp_all

theorem get_remove (s : St) (i j : Nat) : (s.removeRoute i).get j = if j = i then none else s.get j := by
  unfold St.get St.removeRoute
  simp only
  induction s.routes with
  | nil => simp
  | cons r l ih =>
    by_cases h1 : r.id = i
    · rw [List.filter_cons_of_neg (by simp [h1]), ih]
      by_cases h3 : j = i
      · rw [if_pos h3, if_pos h3]
      · rw [if_neg h3, if_neg h3, List.find?_cons_of_neg (by simp [h1]; exact fun h => h3 h.symm)]
    · rw [List.filter_cons_of_pos (by simp [h1]), List.find?_cons, List.find?_cons, ih]
      by_cases h2 : r.id = j
      · have : ¬ j = i := fun h => h1 (h2.trans h)
        simp [h2, this]
      · simp [h2]

theorem get_push (s : St) (r : Route) (n j : Nat) :
    (St.mk (s.routes ++ [r]) n).get j = (s.get j).or (if r.id = j then some r else none) := by
  unfold St.get
  rw [List.find?_append]
  congr 1
  by_cases h : r.id = j <;> simp [h]

/-- Uniqueness of keys. -/
structure W (s : St) : Prop where
  ids : (s.routes.map (·.id)).Nodup
  fresh : ∀ i r, s.get i = some r → i < s.fresh
  src : ∀ i j r q x, s.get i = some r → s.get j = some q → x ∈ r.sources → x ∈ q.sources → i = j
  a : ∀ i j r q, s.get i = some r → s.get j = some q → r.inA = true → q.inA = true → r.addr = q.addr → i = j
  c : ∀ i j r q, s.get i = some r → s.get j = some q → r.inC = true → q.inC = true → r.cname = q.cname → i = j
  z : ∀ i j r q, s.get i = some r → s.get j = some q → r.inS = true → q.inS = true → r.sess = q.sess → i = j

theorem get_of_mem {s : St} (h : (s.routes.map (·.id)).Nodup) {r : Route} (hr : r ∈ s.routes) : s.get r.id = some r := by
  unfold St.get
  revert hr h
  induction s.routes with
  | nil => intro _ hr; cases hr
  | cons q l ih =>
    intro h hr
    rw [List.map_cons, List.nodup_cons] at h
    rw [List.find?_cons]
    rcases List.mem_cons.1 hr with rfl | hr
    · simp
    · have : q.id ≠ r.id := fun hc => h.1 (hc ▸ List.mem_map_of_mem hr)
      simp only [this, decide_false]
      exact ih h.2 hr

theorem bySrc_some {s : St} (h : W s) {x : Nat} {r : Route} (hb : s.bySrc x = some r) : s.get r.id = some r ∧ x ∈ r.sources :=
  ⟨get_of_mem h.ids (List.mem_of_find?_eq_some hb), by simpa using List.find?_some hb⟩

theorem bySrc_none {s : St} {x : Nat} (hb : s.bySrc x = none) {i : Nat} {r : Route} (hi : s.get i = some r) : x ∉ r.sources := by
  have := List.find?_eq_none.1 hb r (get_mem hi)
  simpa using this

theorem bySrc_eq {s : St} (h : W s) {x i : Nat} {r : Route} (hi : s.get i = some r) (hx : x ∈ r.sources) : s.bySrc x = some r := by
  cases hb : s.bySrc x with
  | none => exact absurd hx (bySrc_none hb hi)
  | some q =>
    obtain ⟨h1, h2⟩ := bySrc_some h hb
    have := h.src _ _ _ _ _ hi h1 hx h2
    rw [← this, hi] at h1
    exact h1.symm

theorem bySrc_none_of {s : St} (h : W s) {x : Nat} (hn : ∀ i r, s.get i = some r → x ∉ r.sources) : s.bySrc x = none := by
  cases hb : s.bySrc x with
  | none => rfl
  | some q => exact absurd (bySrc_some h hb).2 (hn _ _ (bySrc_some h hb).1)

theorem byAddr_some {s : St} (h : W s) {a : Option Nat} {r : Route} (hb : s.byAddr a = some r) : s.get r.id = some r ∧ r.inA = true ∧ r.addr = a :=
  ⟨get_of_mem h.ids (List.mem_of_find?_eq_some hb), by simpa using List.find?_some hb⟩

theorem byAddr_none {s : St} {a : Option Nat} (hb : s.byAddr a = none) {i : Nat} {r : Route} (hi : s.get i = some r) (hx : r.inA = true) : r.addr ≠ a := by
  have := List.find?_eq_none.1 hb r (get_mem hi)
  simp only [Bool.and_eq_true, decide_eq_true_eq, not_and] at this
  exact this hx

theorem byAddr_none_of {s : St} (h : W s) {a : Option Nat} (hn : ∀ i r, s.get i = some r → r.inA = true → r.addr ≠ a) : s.byAddr a = none := by
  cases hb : s.byAddr a with
  | none => rfl
  | some q => exact absurd (byAddr_some h hb).2.2 (hn _ _ (byAddr_some h hb).1 (byAddr_some h hb).2.1)

theorem byCname_some {s : St} (h : W s) {a : Option Nat} {r : Route} (hb : s.byCname a = some r) : s.get r.id = some r ∧ r.inC = true ∧ r.cname = a :=
  ⟨get_of_mem h.ids (List.mem_of_find?_eq_some hb), by simpa using List.find?_some hb⟩

theorem byCname_none {s : St} {a : Option Nat} (hb : s.byCname a = none) {i : Nat} {r : Route} (hi : s.get i = some r) (hx : r.inC = true) : r.cname ≠ a := by
  have := List.find?_eq_none.1 hb r (get_mem hi)
  simp only [Bool.and_eq_true, decide_eq_true_eq, not_and] at this
  exact this hx

theorem byCname_none_of {s : St} (h : W s) {a : Option Nat} (hn : ∀ i r, s.get i = some r → r.inC = true → r.cname ≠ a) : s.byCname a = none := by
  cases hb : s.byCname a with
  | none => rfl
  | some q => exact absurd (byCname_some h hb).2.2 (hn _ _ (byCname_some h hb).1 (byCname_some h hb).2.1)

theorem bySess_some {s : St} (h : W s) {a : Option Nat} {r : Route} (hb : s.bySess a = some r) : s.get r.id = some r ∧ r.inS = true ∧ r.sess = a :=
  ⟨get_of_mem h.ids (List.mem_of_find?_eq_some hb), by simpa using List.find?_some hb⟩

theorem bySess_none {s : St} {a : Option Nat} (hb : s.bySess a = none) {i : Nat} {r : Route} (hi : s.get i = some r) (hx : r.inS = true) : r.sess ≠ a := by
  have := List.find?_eq_none.1 hb r (get_mem hi)
  simp only [Bool.and_eq_true, decide_eq_true_eq, not_and] at this
  exact this hx

theorem bySess_none_of {s : St} (h : W s) {a : Option Nat} (hn : ∀ i r, s.get i = some r → r.inS = true → r.sess ≠ a) : s.bySess a = none := by
  cases hb : s.bySess a with
  | none => rfl
  | some q => exact absurd (bySess_some h hb).2.2 (hn _ _ (bySess_some h hb).1 (bySess_some h hb).2.1)

theorem set_ids (s : St) (i : Nat) (f : Route → Route) (hf : ∀ r, (f r).id = r.id) : (s.set i f).routes.map (·.id) = s.routes.map (·.id) := by
  unfold St.set
  simp only [List.map_map]
  apply List.map_congr_left
  intro r _
  simp only [Function.comp]
  split_ifs
  · exact hf r
  · rfl

/-- Changing one route keeps the keys unique if its new keys are not those of other routes. -/
theorem W.set {s : St} (h : W s) {i : Nat} {f : Route → Route} (hf : ∀ r, (f r).id = r.id)
    (hs : ∀ r, s.get i = some r → ∀ x ∈ (f r).sources, x ∈ r.sources ∨ ∀ j q, j ≠ i → s.get j = some q → x ∉ q.sources)
    (ha : ∀ r, s.get i = some r → (f r).inA = true → (r.inA = true ∧ (f r).addr = r.addr) ∨ ∀ j q, j ≠ i → s.get j = some q → q.inA = true → q.addr ≠ (f r).addr)
    (hc : ∀ r, s.get i = some r → (f r).inC = true → (r.inC = true ∧ (f r).cname = r.cname) ∨ ∀ j q, j ≠ i → s.get j = some q → q.inC = true → q.cname ≠ (f r).cname)
    (hz : ∀ r, s.get i = some r → (f r).inS = true → (r.inS = true ∧ (f r).sess = r.sess) ∨ ∀ j q, j ≠ i → s.get j = some q → q.inS = true → q.sess ≠ (f r).sess) :
    W (s.set i f) := by
  have key : ∀ j r, (s.set i f).get j = some r → (j = i ∧ ∃ q, s.get i = some q ∧ r = f q) ∨ (j ≠ i ∧ s.get j = some r) := by
    intro j r hj
    rw [get_set hf] at hj
    by_cases hji : j = i
    · rw [if_pos hji] at hj
      obtain ⟨q, h1, h2⟩ := Option.map_eq_some_iff.1 hj
      exact Or.inl ⟨hji, q, h1, h2.symm⟩
    · rw [if_neg hji] at hj
      exact Or.inr ⟨hji, hj⟩
  refine ⟨by rw [set_ids _ _ _ hf]; exact h.ids, fun j r hj => ?_, fun j k r q x hj hk hx hy => ?_, fun j k r q hj hk hx hy he => ?_, fun j k r q hj hk hx hy he => ?_,
    fun j k r q hj hk hx hy he => ?_⟩
  · rcases key j r hj with ⟨rfl, q, h1, -⟩ | ⟨-, h1⟩ <;> exact h.fresh _ _ h1
  · rcases key j r hj with ⟨rfl, r', h1, rfl⟩ | ⟨h0, h1⟩ <;> rcases key k q hk with ⟨rfl, q', h2, rfl⟩ | ⟨h0', h2⟩
    · rfl
    · rcases hs _ h1 _ hx with h3 | h3
      · exact h.src _ _ _ _ _ h1 h2 h3 hy
      · exact absurd hy (h3 _ _ h0' h2)
    · rcases hs _ h2 _ hy with h3 | h3
      · exact h.src _ _ _ _ _ h1 h2 hx h3
      · exact absurd hx (h3 _ _ h0 h1)
    · exact h.src _ _ _ _ _ h1 h2 hx hy
  · rcases key j r hj with ⟨rfl, r', h1, rfl⟩ | ⟨h0, h1⟩ <;> rcases key k q hk with ⟨rfl, q', h2, rfl⟩ | ⟨h0', h2⟩
    · rfl
    · rcases ha _ h1 hx with ⟨h3, h4⟩ | h3
      · exact h.a _ _ _ _ h1 h2 h3 hy (h4.symm.trans he)
      · exact absurd he.symm (h3 _ _ h0' h2 hy)
    · rcases ha _ h2 hy with ⟨h3, h4⟩ | h3
      · exact h.a _ _ _ _ h1 h2 hx h3 (he.trans h4)
      · exact absurd he (h3 _ _ h0 h1 hx)
    · exact h.a _ _ _ _ h1 h2 hx hy he
  · rcases key j r hj with ⟨rfl, r', h1, rfl⟩ | ⟨h0, h1⟩ <;> rcases key k q hk with ⟨rfl, q', h2, rfl⟩ | ⟨h0', h2⟩
    · rfl
    · rcases hc _ h1 hx with ⟨h3, h4⟩ | h3
      · exact h.c _ _ _ _ h1 h2 h3 hy (h4.symm.trans he)
      · exact absurd he.symm (h3 _ _ h0' h2 hy)
    · rcases hc _ h2 hy with ⟨h3, h4⟩ | h3
      · exact h.c _ _ _ _ h1 h2 hx h3 (he.trans h4)
      · exact absurd he (h3 _ _ h0 h1 hx)
    · exact h.c _ _ _ _ h1 h2 hx hy he
  · rcases key j r hj with ⟨rfl, r', h1, rfl⟩ | ⟨h0, h1⟩ <;> rcases key k q hk with ⟨rfl, q', h2, rfl⟩ | ⟨h0', h2⟩
    · rfl
    · rcases hz _ h1 hx with ⟨h3, h4⟩ | h3
      · exact h.z _ _ _ _ h1 h2 h3 hy (h4.symm.trans he)
      · exact absurd he.symm (h3 _ _ h0' h2 hy)
    · rcases hz _ h2 hy with ⟨h3, h4⟩ | h3
      · exact h.z _ _ _ _ h1 h2 hx h3 (he.trans h4)
      · exact absurd he (h3 _ _ h0 h1 hx)
    · exact h.z _ _ _ _ h1 h2 hx hy he

theorem W.remove {s : St} (h : W s) (i : Nat) : W (s.removeRoute i) := by
  have key : ∀ j r, (s.removeRoute i).get j = some r → s.get j = some r := by
    intro j r hj
    rw [get_remove] at hj
    split_ifs at hj
    exact hj
  refine ⟨?_, fun j r hj => h.fresh j r (key j r hj), fun j k r q x hj hk => h.src j k r q x (key j r hj) (key k q hk), fun j k r q hj hk => h.a j k r q (key j r hj) (key k q hk),
    fun j k r q hj hk => h.c j k r q (key j r hj) (key k q hk), fun j k r q hj hk => h.z j k r q (key j r hj) (key k q hk)⟩
  exact h.ids.sublist (List.Sublist.map _ List.filter_sublist)

theorem get_fresh {s : St} (h : W s) : s.get s.fresh = none := by
  cases hg : s.get s.fresh with
  | none => rfl
  | some r => exact absurd (h.fresh _ _ hg) (Nat.lt_irrefl _)

/-- A new route with keys that are not in use. -/
theorem W.push {s : St} (h : W s) {r : Route} (hi : r.id = s.fresh) (hs : ∀ j q, s.get j = some q → ∀ x ∈ r.sources, x ∉ q.sources)
    (ha : r.inA = true → ∀ j q, s.get j = some q → q.inA = true → q.addr ≠ r.addr) (hc : r.inC = true → ∀ j q, s.get j = some q → q.inC = true → q.cname ≠ r.cname)
    (hz : r.inS = true → ∀ j q, s.get j = some q → q.inS = true → q.sess ≠ r.sess) : W ⟨s.routes ++ [r], s.fresh + 1⟩ := by
  have key : ∀ j q, (St.mk (s.routes ++ [r]) (s.fresh + 1)).get j = some q → (s.get j = some q) ∨ (j = s.fresh ∧ q = r) := by
    intro j q hj
    rw [get_push] at hj
    cases hg : s.get j with
    | some q' => rw [hg] at hj; exact Or.inl hj
    | none =>
      rw [hg] at hj
      by_cases hr : r.id = j
      · rw [if_pos hr] at hj
        injection hj with hj
        exact Or.inr ⟨by rw [← hr, hi], hj.symm⟩
      · rw [if_neg hr] at hj; cases hj
  refine ⟨?_, fun j q hj => ?_, fun j k q p x hj hk hx hy => ?_, fun j k q p hj hk hx hy he => ?_, fun j k q p hj hk hx hy he => ?_, fun j k q p hj hk hx hy he => ?_⟩
  · show ((s.routes ++ [r]).map (·.id)).Nodup
    rw [List.map_append, List.nodup_append]
    refine ⟨h.ids, by simp, fun a ha b hb => ?_⟩
    simp only [List.map_cons, List.map_nil, List.mem_singleton] at hb
    obtain ⟨q, hq, rfl⟩ := List.mem_map.1 ha
    have := h.fresh _ _ (get_of_mem h.ids hq)
    rw [hb, hi]
    exact Nat.ne_of_lt this
  · show j < s.fresh + 1
    rcases key j q hj with h1 | ⟨h1, -⟩
    · have := h.fresh _ _ h1; omega
    · omega
  · rcases key j q hj with h1 | ⟨h1, rfl⟩ <;> rcases key k p hk with h2 | ⟨h2, rfl⟩
    · exact h.src _ _ _ _ _ h1 h2 hx hy
    · exact absurd hx (hs _ _ h1 _ hy)
    · exact absurd hy (hs _ _ h2 _ hx)
    · rw [h1, h2]
  · rcases key j q hj with h1 | ⟨h1, rfl⟩ <;> rcases key k p hk with h2 | ⟨h2, rfl⟩
    · exact h.a _ _ _ _ h1 h2 hx hy he
    · exact absurd he (ha hy _ _ h1 hx)
    · exact absurd he.symm (ha hx _ _ h2 hy)
    · rw [h1, h2]
  · rcases key j q hj with h1 | ⟨h1, rfl⟩ <;> rcases key k p hk with h2 | ⟨h2, rfl⟩
    · exact h.c _ _ _ _ h1 h2 hx hy he
    · exact absurd he (hc hy _ _ h1 hx)
    · exact absurd he.symm (hc hx _ _ h2 hy)
    · rw [h1, h2]
  · rcases key j q hj with h1 | ⟨h1, rfl⟩ <;> rcases key k p hk with h2 | ⟨h2, rfl⟩
    · exact h.z _ _ _ _ h1 h2 hx hy he
    · exact absurd he (hz hy _ _ h1 hx)
    · exact absurd he.symm (hz hx _ _ h2 hy)
    · rw [h1, h2]

/-- What holds for a route between calls. -/
structure L (r : Route) : Prop where
  ne : r.sources ≠ []
  main : ∀ x, r.main = some x → x ∈ r.sources
  c : r.inC = r.cname.isSome
  a : r.addr.isSome = true → r.inA = true
  z : r.sess.isSome = true → r.inS = true
  nd : r.sources.Nodup

structure Inv (s : St) : Prop where
  w : W s
  l : ∀ i r, s.get i = some r → L r

theorem inv_init : Inv St.init := by
  refine ⟨⟨List.nodup_nil, ?_, ?_, ?_, ?_, ?_⟩, ?_⟩ <;> intros <;> simp [St.get, St.init] at *

/-! ### Insertion into maps -/

theorem insA_eq {s : St} {i : Nat} {r : Route} (hg : s.get i = some r) (h1 : r.inA = false) (h2 : s.byAddr r.addr = none) :
    s.insA i = some (s.set i fun r => { r with inA := true }) := by
  unfold St.insA
  rw [hg]
  simp [h1, h2]

theorem insA_some {s s' : St} {i : Nat} (h : s.insA i = some s') : ∃ r, s.get i = some r ∧ r.inA = false ∧ s.byAddr r.addr = none ∧ s' = s.set i fun r => { r with inA := true } := by
  unfold St.insA at h
  cases hg : s.get i with
  | none => rw [hg] at h; cases h
  | some r =>
    rw [hg] at h
    simp only at h
    by_cases h1 : r.inA = true
    · rw [if_pos h1] at h; cases h
    · rw [if_neg h1] at h
      cases h2 : s.byAddr r.addr with
      | some q => rw [h2] at h; simp at h
      | none =>
        rw [h2] at h
        simp only [Option.isSome_none, Bool.false_eq_true, if_false] at h
        injection h with h
        exact ⟨r, rfl, by simpa using h1, h2, h.symm⟩

theorem insC_eq {s : St} {i : Nat} {r : Route} (hg : s.get i = some r) (h1 : r.inC = false) (h2 : s.byCname r.cname = none) :
    s.insC i = some (s.set i fun r => { r with inC := true }) := by
  unfold St.insC
  rw [hg]
  simp [h1, h2]

theorem insS_eq {s : St} {i : Nat} {r : Route} (hg : s.get i = some r) (h1 : r.inS = false) (h2 : s.bySess r.sess = none) :
    s.insS i = some (s.set i fun r => { r with inS := true }) := by
  unfold St.insS
  rw [hg]
  simp [h1, h2]

theorem insS_some {s s' : St} {i : Nat} (h : s.insS i = some s') : ∃ r, s.get i = some r ∧ r.inS = false ∧ s.bySess r.sess = none ∧ s' = s.set i fun r => { r with inS := true } := by
  unfold St.insS at h
  cases hg : s.get i with
  | none => rw [hg] at h; cases h
  | some r =>
    rw [hg] at h
    simp only at h
    by_cases h1 : r.inS = true
    · rw [if_pos h1] at h; cases h
    · rw [if_neg h1] at h
      cases h2 : s.bySess r.sess with
      | some q => rw [h2] at h; simp at h
      | none =>
        rw [h2] at h
        simp only [Option.isSome_none, Bool.false_eq_true, if_false] at h
        injection h with h
        exact ⟨r, rfl, by simpa using h1, h2, h.symm⟩

/-! ### Creation of routes -/

theorem push_get_self {s : St} (h : W s) {r : Route} (hi : r.id = s.fresh) (n : Nat) : (St.mk (s.routes ++ [r]) n).get s.fresh = some r := by
  rw [get_push, get_fresh h, if_pos hi]
  rfl

theorem push_set {s : St} (h : W s) {r : Route} (hi : r.id = s.fresh) (n : Nat) (f : Route → Route) :
    (St.mk (s.routes ++ [r]) n).set s.fresh f = ⟨s.routes ++ [f r], n⟩ := by
  unfold St.set
  simp only [List.map_append, List.map_cons, List.map_nil, hi, if_true]
  congr 2
  conv => rhs; rw [← List.map_id s.routes]
  apply List.map_congr_left
  intro q hq
  have := h.fresh _ _ (get_of_mem h.ids hq)
  rw [if_neg (by omega)]
  rfl

theorem push_byAddr (s : St) {r : Route} (hr : r.inA = false) (n : Nat) (a : Option Nat) : (St.mk (s.routes ++ [r]) n).byAddr a = s.byAddr a := by
  unfold St.byAddr
  rw [List.find?_append]
  simp [hr]

theorem push_byCname (s : St) {r : Route} (hr : r.inC = false) (n : Nat) (a : Option Nat) : (St.mk (s.routes ++ [r]) n).byCname a = s.byCname a := by
  unfold St.byCname
  rw [List.find?_append]
  simp [hr]

theorem push_bySess (s : St) {r : Route} (hr : r.inS = false) (n : Nat) (a : Option Nat) : (St.mk (s.routes ++ [r]) n).bySess a = s.bySess a := by
  unfold St.bySess
  rw [List.find?_append]
  simp [hr]

theorem push_bySrc (s : St) {r : Route} (hr : r.sources = []) (n : Nat) (x : Nat) : (St.mk (s.routes ++ [r]) n).bySrc x = s.bySrc x := by
  unfold St.bySrc
  rw [List.find?_append]
  simp [hr]

/-- The route that `create_route_` makes. -/
def made (i x : Nat) (a c z : Option Nat) : Route := ⟨i, z, a, c, some x, [x], a.isSome, c.isSome, z.isSome⟩

theorem create_eq {s : St} (h : W s) {x : Nat} {a c z : Option Nat} (hx : s.bySrc x = none) (ha : a.isSome = true → s.byAddr a = none)
    (hc : c.isSome = true → s.byCname c = none) (hz : z.isSome = true → s.bySess z = none) :
    s.create x a c z = some ⟨s.routes ++ [made s.fresh x a c z], s.fresh + 1⟩ := by
  unfold St.create St.insSrc
  rw [push_bySrc _ rfl, hx]
  simp only [Option.isSome_none, Bool.false_eq_true, if_false, Option.bind_some]
  rw [push_set h rfl, push_set h rfl]
  have e1 : (St.mk (s.routes ++ [⟨s.fresh, none, none, none, some x, [] ++ [x], false, false, false⟩]) (s.fresh + 1)).putC s.fresh c =
      some ⟨s.routes ++ [⟨s.fresh, none, none, c, some x, [x], false, c.isSome, false⟩], s.fresh + 1⟩ := by
    unfold St.putC
    cases c with
    | none => rfl
    | some c =>
      rw [if_pos (c := (some c).isSome = true) rfl, push_set h rfl, insC_eq (push_get_self h rfl _) rfl (by rw [push_byCname _ rfl]; exact hc rfl), push_set h rfl]
      rfl
  rw [e1]
  simp only [Option.bind_some]
  have e2 : (St.mk (s.routes ++ [⟨s.fresh, none, none, c, some x, [x], false, c.isSome, false⟩]) (s.fresh + 1)).putA s.fresh a =
      some ⟨s.routes ++ [⟨s.fresh, none, a, c, some x, [x], a.isSome, c.isSome, false⟩], s.fresh + 1⟩ := by
    unfold St.putA
    cases a with
    | none => rfl
    | some a =>
      rw [if_pos (c := (some a).isSome = true) rfl, push_set h rfl, insA_eq (push_get_self h rfl _) rfl (by rw [push_byAddr _ rfl]; exact ha rfl), push_set h rfl]
      rfl
  rw [e2]
  simp only [Option.bind_some]
  unfold St.putS
  cases z with
  | none => rfl
  | some z =>
    rw [if_pos (c := (some z).isSome = true) rfl, push_set h rfl, insS_eq (push_get_self h rfl _) rfl (by rw [push_bySess _ rfl]; exact hz rfl), push_set h rfl]
    rfl

theorem create_ok {s : St} (h : W s) {x : Nat} {a c z : Option Nat} (hx : s.bySrc x = none) (ha : a.isSome = true → s.byAddr a = none)
    (hc : c.isSome = true → s.byCname c = none) (hz : z.isSome = true → s.bySess z = none) :
    ∃ s', s.create x a c z = some s' ∧ W s' ∧ ∀ j, s'.get j = if j = s.fresh then some (made s.fresh x a c z) else s.get j := by
  refine ⟨_, create_eq h hx ha hc hz, h.push rfl ?_ ?_ ?_ ?_, fun j => ?_⟩
  · intro j q hj y hy
    simp only [made, List.mem_singleton] at hy
    rw [hy]
    exact bySrc_none hx hj
  · intro hr j q hj hq
    exact byAddr_none (ha hr) hj hq
  · intro hr j q hj hq
    exact byCname_none (hc hr) hj hq
  · intro hr j q hj hq
    exact bySess_none (hz hr) hj hq
  · by_cases hj : j = s.fresh
    · rw [if_pos hj, hj]
      exact push_get_self h rfl _
    · rw [if_neg hj, get_push, if_neg (fun hc => hj hc.symm)]
      simp

theorem made_L (i x : Nat) (a c z : Option Nat) : L (made i x a c z) :=
  ⟨by simp [made], by simp [made], rfl, fun h => h, fun h => h, by simp [made]⟩

theorem W.insA {s : St} (h : W s) {i : Nat} {r : Route} (hg : s.get i = some r) (h2 : s.byAddr r.addr = none) :
    W (s.set i fun r => { r with inA := true }) := by
  refine h.set (fun _ => rfl) (fun _ _ x hx => Or.inl hx) (fun r' hr' _ => Or.inr fun j q _ hj hq => ?_) (fun _ _ hc => Or.inl ⟨hc, rfl⟩) (fun _ _ hc => Or.inl ⟨hc, rfl⟩)
  rw [hg] at hr'
  injection hr' with hr'
  subst hr'
  exact byAddr_none h2 hj hq

theorem W.insC {s : St} (h : W s) {i : Nat} {r : Route} (hg : s.get i = some r) (h2 : s.byCname r.cname = none) :
    W (s.set i fun r => { r with inC := true }) := by
  refine h.set (fun _ => rfl) (fun _ _ x hx => Or.inl hx) (fun _ _ hc => Or.inl ⟨hc, rfl⟩) (fun r' hr' _ => Or.inr fun j q _ hj hq => ?_) (fun _ _ hc => Or.inl ⟨hc, rfl⟩)
  rw [hg] at hr'
  injection hr' with hr'
  subst hr'
  exact byCname_none h2 hj hq

theorem W.insS {s : St} (h : W s) {i : Nat} {r : Route} (hg : s.get i = some r) (h2 : s.bySess r.sess = none) :
    W (s.set i fun r => { r with inS := true }) := by
  refine h.set (fun _ => rfl) (fun _ _ x hx => Or.inl hx) (fun _ _ hc => Or.inl ⟨hc, rfl⟩) (fun _ _ hc => Or.inl ⟨hc, rfl⟩) (fun r' hr' _ => Or.inr fun j q _ hj hq => ?_)
  rw [hg] at hr'
  injection hr' with hr'
  subst hr'
  exact bySess_none h2 hj hq

/-- Changes that do not touch keys in maps. -/
theorem W.tweak {s : St} (h : W s) {i : Nat} {f : Route → Route} (hf : ∀ r, (f r).id = r.id) (hs : ∀ r, s.get i = some r → ∀ x ∈ (f r).sources, x ∈ r.sources)
    (ha : ∀ r, s.get i = some r → (f r).inA = true → r.inA = true ∧ (f r).addr = r.addr) (hc : ∀ r, s.get i = some r → (f r).inC = true → r.inC = true ∧ (f r).cname = r.cname)
    (hz : ∀ r, s.get i = some r → (f r).inS = true → r.inS = true ∧ (f r).sess = r.sess) : W (s.set i f) :=
  h.set hf (fun r hr x hx => Or.inl (hs r hr x hx)) (fun r hr hx => Or.inl (ha r hr hx)) (fun r hr hx => Or.inl (hc r hr hx)) (fun r hr hx => Or.inl (hz r hr hx))

end Verif.SessionRouter
