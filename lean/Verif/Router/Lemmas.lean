import Verif.Router.Spec

namespace Verif.Router

theorem carries_iff (pf rf : BitVec 32) : (rf &&& pf == rf) = true ↔ Carries pf rf := by
  rw [beq_iff_eq]
  constructor
  · intro h i hi
    have := congrArg (fun x => x.getLsbD i) h
    simp only [BitVec.getLsbD_and, hi, Bool.true_and] at this
    exact this
  · intro h
    apply BitVec.eq_of_getLsbD_eq
    intro i _
    rw [BitVec.getLsbD_and]
    cases hr : rf.getLsbD i with
    | false => rfl
    | true => simp [h i hr]

theorem firstMatch_unique {tbl : List (BitVec 32)} {pf : BitVec 32} {i j : Nat}
    (hi : FirstMatch tbl pf i) (hj : FirstMatch tbl pf j) : i = j := by
  obtain ⟨⟨f, hf, cf⟩, ni⟩ := hi
  obtain ⟨⟨g, hg, cg⟩, nj⟩ := hj
  rcases Nat.lt_trichotomy i j with h | h | h
  · exact absurd cf (nj i f h hf)
  · exact h
  · exact absurd cg (ni j g h hg)

theorem findRoute_some {rs : List Route} {pf : BitVec 32} {i : Nat} :
    findRoute rs pf = some i ↔ FirstMatch (rs.map Route.flags) pf i := by
  unfold findRoute FirstMatch
  rw [List.findIdx?_eq_some_iff_getElem]
  constructor
  · rintro ⟨h, hp, hn⟩
    refine ⟨⟨rs[i].flags, by simp [h], (carries_iff _ _).mp hp⟩, ?_⟩
    intro j f hj hf hc
    have hjl : j < rs.length := by omega
    have := hn j hj
    simp only [List.getElem?_map, List.getElem?_eq_getElem hjl, Option.map_some,
      Option.some.injEq] at hf
    rw [← hf] at hc
    exact this ((carries_iff _ _).mpr hc)
  · rintro ⟨⟨f, hf, hc⟩, hn⟩
    have h : i < rs.length := by
      have := (List.getElem?_eq_some_iff.mp hf).1
      simpa using this
    simp only [List.getElem?_map, List.getElem?_eq_getElem h, Option.map_some,
      Option.some.injEq] at hf
    refine ⟨h, (carries_iff _ _).mpr (hf ▸ hc), ?_⟩
    intro j hj hp
    have hjl : j < rs.length := by omega
    exact hn j rs[j].flags hj (by simp [hjl]) ((carries_iff _ _).mp hp)

theorem findRoute_lt {rs : List Route} {pf : BitVec 32} {i : Nat} (h : findRoute rs pf = some i) :
    i < rs.length := by
  obtain ⟨⟨f, hf, _⟩, _⟩ := findRoute_some.mp h
  have := (List.getElem?_eq_some_iff.mp hf).1
  simpa using this

theorem findRoute_none {rs : List Route} {pf : BitVec 32} (h : findRoute rs pf = none) (i : Nat) :
    ¬ FirstMatch (rs.map Route.flags) pf i := by
  intro hm
  rw [findRoute_some.mpr hm] at h
  exact absurd h (by simp)

/-- What a route remembers about the packets it has got. -/
def RouteInv (r : Route) (got : List Pkt) : Prop :=
  (r.isStarted = false → r.hasSource = false ∧ got = []) ∧
  (r.isStarted = true → got ≠ [] ∧
    ∀ q ∈ got, q.source = if r.hasSource then some r.source else none)

def Inv (rs : List Route) (log : List (Pkt × Option Nat)) : Prop :=
  (∀ i r, rs[i]? = some r → RouteInv r (deliveredTo log i)) ∧
  (∀ i, rs.length ≤ i → deliveredTo log i = [])

theorem allow_flags (r : Route) (p : Pkt) : (allowRoute r p).2.flags = r.flags := by
  unfold allowRoute
  repeat' split
  all_goals rfl

theorem allow_spec (r : Route) (p : Pkt) (got : List Pkt) (h : RouteInv r got) :
    ((allowRoute r p).1 = true ↔ ∀ q ∈ got, q.source = p.source) ∧
    ((allowRoute r p).1 = true → RouteInv (allowRoute r p).2 (got ++ [p])) ∧
    ((allowRoute r p).1 = false → (allowRoute r p).2 = r) := by
  obtain ⟨rf, rsrc, rh, rst⟩ := r
  obtain ⟨pf, ps⟩ := p
  unfold RouteInv at h
  simp only at h
  obtain ⟨h0, h1⟩ := h
  cases rst with
  | false =>
    obtain ⟨hh, hg⟩ := h0 rfl
    subst hh; subst hg
    cases ps <;> simp [allowRoute, RouteInv]
  | true =>
    obtain ⟨hne, hall⟩ := h1 rfl
    obtain ⟨q, hq⟩ := List.exists_mem_of_ne_nil _ hne
    cases rh with
    | false =>
      cases ps with
      | none =>
        simp only [allowRoute, RouteInv]
        refine ⟨⟨fun _ x hx => by simpa using hall x hx, fun _ => by simp⟩, ?_, by simp⟩
        intro _
        refine ⟨by simp, fun _ => ⟨by simp, ?_⟩⟩
        intro x hx
        rcases List.mem_append.mp hx with hx | hx
        · simpa using hall x hx
        · simp at hx; simp [hx]
      | some s =>
        simp only [allowRoute]
        refine ⟨⟨by simp, fun hc => ?_⟩, by simp, by simp⟩
        have e1 := hall q hq
        have e2 := hc q hq
        rw [e1] at e2
        simp at e2
    | true =>
      cases ps with
      | none =>
        simp only [allowRoute]
        refine ⟨⟨by simp, fun hc => ?_⟩, by simp, by simp⟩
        have e1 := hall q hq
        have e2 := hc q hq
        rw [e1] at e2
        simp at e2
      | some s =>
        simp only [allowRoute, RouteInv]
        refine ⟨⟨fun hs x hx => ?_, fun hc => ?_⟩, ?_, by simp⟩
        · have := hall x hx
          simp at hs
          rw [this]; simp [hs]
        · have e1 := hall q hq
          have e2 := hc q hq
          rw [e1] at e2
          simpa using e2
        · intro hs
          simp at hs
          refine ⟨by simp, fun _ => ⟨by simp, ?_⟩⟩
          intro x hx
          rcases List.mem_append.mp hx with hx | hx
          · simpa using hall x hx
          · simp at hx; simp [hx, hs]

theorem deliveredTo_append (log e : List (Pkt × Option Nat)) (i : Nat) :
    deliveredTo (log ++ e) i = deliveredTo log i ++ deliveredTo e i := by
  simp [deliveredTo, List.filterMap_append]

/-- One write, against the history. -/
theorem write_spec (rs : List Route) (log : List (Pkt × Option Nat)) (p : Pkt) (h : Inv rs log) :
    (∀ i, (write rs p).1 = some i ↔ FirstMatch (rs.map Route.flags) p.flags i ∧ SameSource log i p) ∧
    ((write rs p).1 = none → (write rs p).2 = rs) ∧
    (write rs p).2.map Route.flags = rs.map Route.flags ∧
    Inv (write rs p).2 (log ++ [(p, (write rs p).1)]) := by
  unfold write
  cases hf : findRoute rs p.flags with
  | none =>
    simp only
    refine ⟨fun i => ⟨by simp, fun hm => absurd hm.1 (findRoute_none hf i)⟩, fun _ => trivial, trivial, ?_⟩
    constructor
    · intro i r hr
      rw [deliveredTo_append]
      simpa [deliveredTo] using h.1 i r hr
    · intro i hi
      rw [deliveredTo_append]
      simpa [deliveredTo] using h.2 i hi
  | some i =>
    have hlt := findRoute_lt hf
    have hfm := findRoute_some.mp hf
    simp only [List.getElem?_eq_getElem hlt]
    have hinv := h.1 i rs[i] (by simp [hlt])
    have ⟨a1, a2, a3⟩ := allow_spec rs[i] p _ hinv
    cases hok : (allowRoute rs[i] p).1 with
    | false =>
      have hnot : ¬ SameSource log i p := fun hs => by
        rw [a1.mpr hs] at hok; exact absurd hok (by simp)
      have hsame : rs.set i (allowRoute rs[i] p).2 = rs := by
        rw [a3 hok]; exact List.set_getElem_self hlt
      simp only [hsame, Bool.false_eq_true, if_false]
      refine ⟨fun j => ⟨by simp, fun hm => ?_⟩, fun _ => trivial, trivial, ?_⟩
      · have := firstMatch_unique hm.1 hfm
        subst this
        exact absurd hm.2 hnot
      · constructor
        · intro i r hr
          rw [deliveredTo_append]
          simpa [deliveredTo] using h.1 i r hr
        · intro i hi
          rw [deliveredTo_append]
          simpa [deliveredTo] using h.2 i hi
    | true =>
      simp only [if_true]
      refine ⟨fun j => ?_, by simp, ?_, ?_⟩
      · constructor
        · intro e
          simp only [Option.some.injEq] at e
          subst e
          exact ⟨hfm, a1.mp hok⟩
        · intro hm
          rw [firstMatch_unique hm.1 hfm]
      · apply List.ext_getElem?
        intro k
        simp only [List.getElem?_map, List.getElem?_set]
        by_cases hk : i = k
        · subst hk
          simp [hlt, allow_flags]
        · simp [hk]
      · constructor
        · intro k r hr
          rw [deliveredTo_append]
          by_cases hk : i = k
          · subst hk
            rw [List.getElem?_set_self hlt] at hr
            simp only [Option.some.injEq] at hr
            subst hr
            simpa [deliveredTo] using a2 hok
          · rw [List.getElem?_set_ne hk] at hr
            simpa [deliveredTo, hk] using h.1 k r hr
        · intro k hk
          rw [List.length_set] at hk
          rw [deliveredTo_append, h.2 k hk]
          have : i ≠ k := by omega
          simp [deliveredTo, this]

theorem inv_add (rs : List Route) (log : List (Pkt × Option Nat)) (f : BitVec 32) (h : Inv rs log) :
    Inv (addRoute rs f) log := by
  constructor
  · intro i r hr
    unfold addRoute at hr
    by_cases hi : i < rs.length
    · rw [List.getElem?_append_left hi] at hr
      exact h.1 i r hr
    · rw [List.getElem?_append_right (by omega)] at hr
      have : i - rs.length = 0 := by
        have := (List.getElem?_eq_some_iff.mp hr).1
        simp at this; omega
      rw [this] at hr
      simp at hr
      subst hr
      exact ⟨fun _ => ⟨rfl, h.2 i (by omega)⟩, by simp⟩
  · intro i hi
    unfold addRoute at hi
    simp at hi
    exact h.2 i (by omega)

theorem run_inv (ops : List Op) : ∀ (rs : List Route) (log : List (Pkt × Option Nat)), Inv rs log →
    Inv (run rs ops).1 (log ++ (run rs ops).2) ∧
    (run rs ops).1.map Route.flags = rs.map Route.flags ++ registered ops := by
  induction ops with
  | nil => intro rs log h; simpa [run, registered] using h
  | cons op ops ih =>
    intro rs log h
    cases op with
    | add f =>
      have := ih (addRoute rs f) log (inv_add rs log f h)
      simp only [run, step, registered, Option.toList, List.nil_append]
      refine ⟨this.1, ?_⟩
      rw [this.2]
      simp [addRoute]
    | write p =>
      obtain ⟨_, _, w3, w4⟩ := write_spec rs log p h
      have := ih (write rs p).2 _ w4
      simp only [run, step, registered, Option.toList]
      refine ⟨?_, ?_⟩
      · rw [← List.append_assoc]; exact this.1
      · rw [this.2, w3]

end Verif.Router
