import Verif.SessionRouter.Lemmas

/-!
# Session router: what the operations do
-/

namespace Verif.SessionRouter

theorem collect_get {s : St} {i : Nat} {r : Route} (hg : s.get i = some r) (k : Nat) :
    (s.collect i).get k = if k = i ∧ r.sources = [] then none else s.get k := by
  unfold St.collect
  rw [hg]
  simp only
  by_cases h : r.sources = []
  · rw [if_pos h, get_remove]
    by_cases hk : k = i
    · rw [if_pos hk, if_pos ⟨hk, h⟩]
    · rw [if_neg hk, if_neg (fun hc => hk hc.1)]
  · rw [if_neg h, if_neg (fun hc => h hc.2)]

theorem W.collect {s : St} (h : W s) (i : Nat) : W (s.collect i) := by
  unfold St.collect
  split
  · exact h
  · split_ifs
    · exact h.remove i
    · exact h

theorem W.delSrc {s : St} (h : W s) (i x : Nat) : W (s.delSrc i x) :=
  h.tweak (fun _ => rfl) (fun r _ y hy => (List.mem_filter.1 hy).1) (fun _ _ hc => ⟨hc, rfl⟩) (fun _ _ hc => ⟨hc, rfl⟩) (fun _ _ hc => ⟨hc, rfl⟩)

theorem delSrc_get (s : St) (i x k : Nat) :
    (s.delSrc i x).get k = if k = i then (s.get i).map (fun r => { r with sources := r.sources.filter (· ≠ x) }) else s.get k :=
  get_set (fun _ => by rfl) k

/-! ### `unlink_source` -/

/-- The route of a source after the source is gone. -/
def without (r : Route) (x : Nat) : Route :=
  { r with sources := r.sources.filter (· ≠ x), main := if r.main = some x then none else r.main }

theorem unlink_spec {s : St} (h : W s) {x : Nat} {r : Route} (hb : s.bySrc x = some r) :
    W (s.unlink x) ∧ ∀ k, (s.unlink x).get k = if k = r.id then (if (without r x).sources = [] then none else some (without r x)) else s.get k := by
  obtain ⟨hg, hx⟩ := bySrc_some h hb
  unfold St.unlink
  rw [hb]
  simp only
  by_cases hm : r.main = some x
  · rw [if_pos hm]
    have hw : W ((s.delSrc r.id x).set r.id fun r => { r with main := none }) :=
      (h.delSrc _ _).tweak (fun _ => rfl) (fun _ _ _ hy => hy) (fun _ _ hc => ⟨hc, rfl⟩) (fun _ _ hc => ⟨hc, rfl⟩) (fun _ _ hc => ⟨hc, rfl⟩)
    have hg' : ((s.delSrc r.id x).set r.id fun r => { r with main := none }).get r.id = some (without r x) := by
      rw [get_set (fun _ => by rfl), if_pos rfl, delSrc_get, if_pos rfl, hg]
      simp [without, hm]
    refine ⟨hw.collect _, fun k => ?_⟩
    rw [collect_get hg', get_set (fun _ => by rfl), delSrc_get, delSrc_get, if_pos rfl, hg]
    by_cases hk : k = r.id
    · simp only [hk, true_and, if_true]
      simp [without, hm]
    · simp [hk]
  · rw [if_neg hm]
    have hg' : (s.delSrc r.id x).get r.id = some (without r x) := by
      rw [delSrc_get, if_pos rfl, hg]
      simp [without, hm]
    refine ⟨(h.delSrc _ _).collect _, fun k => ?_⟩
    rw [collect_get hg', delSrc_get, hg]
    by_cases hk : k = r.id
    · simp only [hk, true_and, if_true]
      simp [without, hm]
    · simp [hk]

theorem without_L {r : Route} (h : L r) {x : Nat} (hn : (without r x).sources ≠ []) : L (without r x) := by
  refine ⟨hn, fun y hy => ?_, h.c, h.a, h.z, h.nd.filter _⟩
  simp only [without] at hy ⊢
  by_cases hm : r.main = some x
  · rw [if_pos hm] at hy; cases hy
  · rw [if_neg hm] at hy
    rw [List.mem_filter]
    refine ⟨h.main y hy, ?_⟩
    simp only [ne_eq, decide_not, Bool.not_eq_eq_eq_not, Bool.not_true, decide_eq_false_iff_not]
    rintro rfl
    exact hm hy

theorem unlink_none {s : St} {x : Nat} (hb : s.bySrc x = none) : s.unlink x = s := by
  unfold St.unlink
  rw [hb]

theorem Inv.unlink {s : St} (h : Inv s) (x : Nat) : Inv (s.unlink x) := by
  cases hb : s.bySrc x with
  | none => rw [unlink_none hb]; exact h
  | some r =>
    obtain ⟨h1, h2⟩ := unlink_spec h.w hb
    refine ⟨h1, fun i q hi => ?_⟩
    rw [h2] at hi
    by_cases hk : i = r.id
    · rw [if_pos hk] at hi
      by_cases hn : (without r x).sources = []
      · rw [if_pos hn] at hi; cases hi
      · rw [if_neg hn] at hi
        injection hi with hi
        rw [← hi]
        exact without_L (h.l _ _ (bySrc_some h.w hb).1) hn
    · rw [if_neg hk] at hi
      exact h.l _ _ hi

theorem unlink_bySrc {s : St} (h : Inv s) (x : Nat) : (s.unlink x).bySrc x = none := by
  cases hb : s.bySrc x with
  | none => rw [unlink_none hb]; exact hb
  | some r =>
    obtain ⟨h1, h2⟩ := unlink_spec h.w hb
    obtain ⟨hg, hx⟩ := bySrc_some h.w hb
    refine bySrc_none_of h1 fun i q hi hq => ?_
    rw [h2] at hi
    by_cases hk : i = r.id
    · rw [if_pos hk] at hi
      by_cases hn : (without r x).sources = []
      · rw [if_pos hn] at hi; cases hi
      · rw [if_neg hn] at hi
        injection hi with hi
        rw [← hi] at hq
        simp [without] at hq
    · rw [if_neg hk] at hi
      exact hk (h.w.src _ _ _ _ _ hi hg hq hx)

/-! ### `remove_session` -/

theorem Inv.removeRoute {s : St} (h : Inv s) (i : Nat) : Inv (s.removeRoute i) := by
  refine ⟨h.w.remove i, fun j r hj => ?_⟩
  rw [get_remove] at hj
  split_ifs at hj
  exact h.l _ _ hj

theorem Inv.remove {s : St} (h : Inv s) (z : Nat) : Inv (s.remove z) := by
  unfold St.remove
  split
  · exact h
  · exact h.removeRoute _

/-! ### `add_session` -/

/-- Keys in use are still in use, or their route is gone. -/
theorem unlink_byAddr {s : St} (h : Inv s) {x : Nat} {a : Option Nat} (ha : s.byAddr a = none) : (s.unlink x).byAddr a = none := by
  cases hb : s.bySrc x with
  | none => rw [unlink_none hb]; exact ha
  | some r =>
    obtain ⟨h1, h2⟩ := unlink_spec h.w hb
    refine byAddr_none_of h1 fun i q hi hq => ?_
    rw [h2] at hi
    by_cases hk : i = r.id
    · rw [if_pos hk] at hi
      by_cases hn : (without r x).sources = []
      · rw [if_pos hn] at hi; cases hi
      · rw [if_neg hn] at hi
        injection hi with hi
        rw [← hi] at hq ⊢
        exact byAddr_none (r := r) ha (bySrc_some h.w hb).1 hq
    · rw [if_neg hk] at hi
      exact byAddr_none ha hi hq

theorem unlink_bySess {s : St} (h : Inv s) {x : Nat} {a : Option Nat} (ha : s.bySess a = none) : (s.unlink x).bySess a = none := by
  cases hb : s.bySrc x with
  | none => rw [unlink_none hb]; exact ha
  | some r =>
    obtain ⟨h1, h2⟩ := unlink_spec h.w hb
    refine bySess_none_of h1 fun i q hi hq => ?_
    rw [h2] at hi
    by_cases hk : i = r.id
    · rw [if_pos hk] at hi
      by_cases hn : (without r x).sources = []
      · rw [if_pos hn] at hi; cases hi
      · rw [if_neg hn] at hi
        injection hi with hi
        rw [← hi] at hq ⊢
        exact bySess_none (r := r) ha (bySrc_some h.w hb).1 hq
    · rw [if_neg hk] at hi
      exact bySess_none ha hi hq

theorem create_inv {s : St} (h : Inv s) {x : Nat} {a c z : Option Nat} (hx : s.bySrc x = none) (ha : a.isSome = true → s.byAddr a = none)
    (hc : c.isSome = true → s.byCname c = none) (hz : z.isSome = true → s.bySess z = none) :
    ∃ s', s.create x a c z = some s' ∧ Inv s' ∧ ∀ j, s'.get j = if j = s.fresh then some (made s.fresh x a c z) else s.get j := by
  obtain ⟨s', h1, h2, h3⟩ := create_ok h.w hx ha hc hz
  refine ⟨s', h1, ⟨h2, fun i r hi => ?_⟩, h3⟩
  rw [h3] at hi
  split_ifs at hi
  · injection hi with hi
    rw [← hi]
    exact made_L _ _ _ _ _
  · exact h.l _ _ hi

theorem putA_spec {s : St} (h : W s) {i : Nat} {r : Route} (hg : s.get i = some r) {a : Option Nat} (ha : a.isSome = true → s.byAddr a = none) (hr : a.isSome = true → r.inA = false) :
    ∃ s', s.putA i a = some s' ∧ W s' ∧ ∀ k, s'.get k = if k = i then some (if a.isSome then { r with addr := a, inA := true } else r) else s.get k := by
  unfold St.putA
  cases a with
  | none =>
    refine ⟨s, rfl, h, fun k => ?_⟩
    by_cases hk : k = i
    · rw [if_pos hk, hk, hg]; rfl
    · rw [if_neg hk]
  | some a =>
    rw [if_pos (c := (some a).isSome = true) rfl]
    have hr := hr rfl
    have ha := ha rfl
    have hw : W (s.set i fun r => { r with addr := some a }) := by
      refine h.tweak (fun _ => rfl) (fun _ _ _ hy => hy) (fun q hq hc => ?_) (fun _ _ hc => ⟨hc, rfl⟩) (fun _ _ hc => ⟨hc, rfl⟩)
      rw [hg] at hq
      injection hq with hq
      subst hq
      rw [show r.inA = true from hc] at hr
      cases hr
    have hg' : (s.set i fun r => { r with addr := some a }).get i = some { r with addr := some a } := by
      rw [get_set (fun _ => by rfl), if_pos rfl, hg]; rfl
    have hb : (s.set i fun r => { r with addr := some a }).byAddr (some a) = none := by
      refine byAddr_none_of hw fun j q hj hq => ?_
      rw [get_set (fun _ => by rfl)] at hj
      by_cases hji : j = i
      · rw [if_pos hji, hg] at hj
        injection hj with hj
        rw [← hj] at hq
        rw [show r.inA = true from hq] at hr
        cases hr
      · rw [if_neg hji] at hj
        exact byAddr_none ha hj hq
    refine ⟨_, insA_eq hg' hr hb, hw.insA hg' hb, fun k => ?_⟩
    rw [get_set (fun _ => by rfl), get_set (fun _ => by rfl), get_set (fun _ => by rfl), if_pos rfl, hg]
    by_cases hk : k = i
    · rw [if_pos hk, if_pos hk]; rfl
    · rw [if_neg hk, if_neg hk, if_neg hk]

theorem putS_spec {s : St} (h : W s) {i : Nat} {r : Route} (hg : s.get i = some r) {z : Option Nat} (ha : z.isSome = true → s.bySess z = none) (hr : z.isSome = true → r.inS = false) :
    ∃ s', s.putS i z = some s' ∧ W s' ∧ ∀ k, s'.get k = if k = i then some (if z.isSome then { r with sess := z, inS := true } else r) else s.get k := by
  unfold St.putS
  cases z with
  | none =>
    refine ⟨s, rfl, h, fun k => ?_⟩
    by_cases hk : k = i
    · rw [if_pos hk, hk, hg]; rfl
    · rw [if_neg hk]
  | some a =>
    rw [if_pos (c := (some a).isSome = true) rfl]
    have hr := hr rfl
    have ha := ha rfl
    have hw : W (s.set i fun r => { r with sess := some a }) := by
      refine h.tweak (fun _ => rfl) (fun _ _ _ hy => hy) (fun _ _ hc => ⟨hc, rfl⟩) (fun _ _ hc => ⟨hc, rfl⟩) (fun q hq hc => ?_)
      rw [hg] at hq
      injection hq with hq
      subst hq
      rw [show r.inS = true from hc] at hr
      cases hr
    have hg' : (s.set i fun r => { r with sess := some a }).get i = some { r with sess := some a } := by
      rw [get_set (fun _ => by rfl), if_pos rfl, hg]; rfl
    have hb : (s.set i fun r => { r with sess := some a }).bySess (some a) = none := by
      refine bySess_none_of hw fun j q hj hq => ?_
      rw [get_set (fun _ => by rfl)] at hj
      by_cases hji : j = i
      · rw [if_pos hji, hg] at hj
        injection hj with hj
        rw [← hj] at hq
        rw [show r.inS = true from hq] at hr
        cases hr
      · rw [if_neg hji] at hj
        exact bySess_none ha hj hq
    refine ⟨_, insS_eq hg' hr hb, hw.insS hg' hb, fun k => ?_⟩
    rw [get_set (fun _ => by rfl), get_set (fun _ => by rfl), get_set (fun _ => by rfl), if_pos rfl, hg]
    by_cases hk : k = i
    · rw [if_pos hk, if_pos hk]; rfl
    · rw [if_neg hk, if_neg hk, if_neg hk]

theorem putC_spec {s : St} (h : W s) {i : Nat} {r : Route} (hg : s.get i = some r) {c : Nat} (ha : s.byCname (some c) = none) (hr : r.inC = false) :
    ∃ s', ((s.set i fun r => { r with cname := some c }).insC i) = some s' ∧ W s' ∧ ∀ k, s'.get k = if k = i then some { r with cname := some c, inC := true } else s.get k := by
  have hw : W (s.set i fun r => { r with cname := some c }) := by
    refine h.tweak (fun _ => rfl) (fun _ _ _ hy => hy) (fun _ _ hc => ⟨hc, rfl⟩) (fun q hq hc => ?_) (fun _ _ hc => ⟨hc, rfl⟩)
    rw [hg] at hq
    injection hq with hq
    subst hq
    rw [show r.inC = true from hc] at hr
    cases hr
  have hg' : (s.set i fun r => { r with cname := some c }).get i = some { r with cname := some c } := by
    rw [get_set (fun _ => by rfl), if_pos rfl, hg]; rfl
  have hb : (s.set i fun r => { r with cname := some c }).byCname (some c) = none := by
    refine byCname_none_of hw fun j q hj hq => ?_
    rw [get_set (fun _ => by rfl)] at hj
    by_cases hji : j = i
    · rw [if_pos hji, hg] at hj
      injection hj with hj
      rw [← hj] at hq
      rw [show r.inC = true from hq] at hr
      cases hr
    · rw [if_neg hji] at hj
      exact byCname_none ha hj hq
  refine ⟨_, insC_eq hg' hr hb, hw.insC hg' hb, fun k => ?_⟩
  rw [get_set (fun _ => by rfl), get_set (fun _ => by rfl), get_set (fun _ => by rfl), if_pos rfl, hg]
  by_cases hk : k = i
  · rw [if_pos hk, if_pos hk]; rfl
  · rw [if_neg hk, if_neg hk, if_neg hk]

theorem insSrc_spec {s : St} (h : W s) {i : Nat} {r : Route} (hg : s.get i = some r) {x : Nat} (hx : s.bySrc x = none) :
    ∃ s', s.insSrc i x = some s' ∧ W s' ∧ ∀ k, s'.get k = if k = i then some { r with sources := r.sources ++ [x] } else s.get k := by
  unfold St.insSrc
  rw [hx]
  simp only [Option.isSome_none, Bool.false_eq_true, if_false]
  refine ⟨_, rfl, h.set (fun _ => rfl) (fun q hq y hy => ?_) (fun _ _ hc => Or.inl ⟨hc, rfl⟩) (fun _ _ hc => Or.inl ⟨hc, rfl⟩) (fun _ _ hc => Or.inl ⟨hc, rfl⟩), fun k => ?_⟩
  · rcases List.mem_append.1 hy with hy | hy
    · exact Or.inl hy
    · rw [List.mem_singleton.1 hy]
      exact Or.inr fun j p _ hj => bySrc_none hx hj
  · rw [get_set (fun _ => by rfl), hg]
    rfl

/-! ### `relink_source_` -/

theorem moveA_mid {s : St} (h : W s) {i j : Nat} (hij : i ≠ j) {o n : Route} (hi : s.get i = some o) (hj : s.get j = some n) :
    ∃ m, s.moveA i j = m.insA j ∧ W m ∧ ∀ k, m.get k = if k = i then some { o with inA := false, addr := none } else if k = j then some { n with inA := false, addr := o.addr } else s.get k := by
  obtain ⟨s1, hs1⟩ : ∃ s1, s1 = s.set i fun r => { r with inA := false } := ⟨_, rfl⟩
  obtain ⟨s2, hs2⟩ : ∃ s2, s2 = s1.set j fun r => { r with inA := false } := ⟨_, rfl⟩
  have g1 : ∀ k, s1.get k = if k = i then some { o with inA := false } else s.get k := by
    intro k; rw [hs1, get_set (fun _ => by rfl), hi]; rfl
  have g2 : ∀ k, s2.get k = if k = j then some { n with inA := false } else if k = i then some { o with inA := false } else s.get k := by
    intro k; rw [hs2, get_set (fun _ => by rfl), g1 k, g1 j, if_neg (fun hc : j = i => hij hc.symm), hj]; rfl
  have a2 : (s2.get i).bind (·.addr) = o.addr := by rw [g2, if_neg hij, if_pos rfl]; rfl
  obtain ⟨s3, hs3⟩ : ∃ s3, s3 = s2.set j fun r => { r with addr := o.addr } := ⟨_, rfl⟩
  obtain ⟨s4, hs4⟩ : ∃ s4, s4 = s3.set i fun r => { r with addr := none } := ⟨_, rfl⟩
  have g3 : ∀ k, s3.get k = if k = j then some { n with inA := false, addr := o.addr } else if k = i then some { o with inA := false } else s.get k := by
    intro k; rw [hs3, get_set (fun _ => by rfl), g2, g2, if_pos rfl]
    by_cases hk : k = j
    · rw [if_pos hk, if_pos hk]; rfl
    · rw [if_neg hk, if_neg hk, if_neg hk]
  have g4 : ∀ k, s4.get k = if k = i then some { o with inA := false, addr := none } else if k = j then some { n with inA := false, addr := o.addr } else s.get k := by
    intro k; rw [hs4, get_set (fun _ => by rfl), g3, g3, if_neg hij, if_pos rfl]
    by_cases hk : k = i
    · rw [if_pos hk, if_pos hk]; rfl
    · rw [if_neg hk, if_neg hk, if_neg hk]
  have w1 : W s1 := by
    rw [hs1]
    exact h.tweak (fun _ => rfl) (fun _ _ _ hy => hy) (fun _ _ hc => by cases hc) (fun _ _ hc => ⟨hc, rfl⟩) (fun _ _ hc => ⟨hc, rfl⟩)
  have w2 : W s2 := by
    rw [hs2]
    exact w1.tweak (fun _ => rfl) (fun _ _ _ hy => hy) (fun _ _ hc => by cases hc) (fun _ _ hc => ⟨hc, rfl⟩) (fun _ _ hc => ⟨hc, rfl⟩)
  have w3 : W s3 := by
    rw [hs3]
    refine w2.tweak (fun _ => rfl) (fun _ _ _ hy => hy) (fun q hq hc => ?_) (fun _ _ hc => ⟨hc, rfl⟩) (fun _ _ hc => ⟨hc, rfl⟩)
    rw [g2, if_pos rfl] at hq
    injection hq with hq
    rw [← hq] at hc
    cases hc
  have w4 : W s4 := by
    rw [hs4]
    refine w3.tweak (fun _ => rfl) (fun _ _ _ hy => hy) (fun q hq hc => ?_) (fun _ _ hc => ⟨hc, rfl⟩) (fun _ _ hc => ⟨hc, rfl⟩)
    rw [g3, if_neg hij, if_pos rfl] at hq
    injection hq with hq
    rw [← hq] at hc
    cases hc
  refine ⟨s4, ?_, w4, g4⟩
  unfold St.moveA
  simp only
  rw [← hs1, ← hs2, a2, ← hs3, ← hs4]

theorem moveA_some {s s' : St} (h : W s) {i j : Nat} (hij : i ≠ j) {o n : Route} (hi : s.get i = some o) (hj : s.get j = some n) (hm : s.moveA i j = some s') :
    W s' ∧ ∀ k, s'.get k = if k = i then some { o with inA := false, addr := none } else if k = j then some { n with inA := true, addr := o.addr } else s.get k := by
  obtain ⟨m, h1, h2, h3⟩ := moveA_mid h hij hi hj
  rw [h1] at hm
  obtain ⟨r, h4, h5, h6, h7⟩ := insA_some hm
  have h8 := h4
  rw [h3, if_neg (fun hc => hij hc.symm), if_pos rfl] at h8
  injection h8 with h8
  rw [h7]
  refine ⟨h2.insA h4 h6, fun k => ?_⟩
  rw [get_set (fun _ => by rfl), h4, h3, ← h8]
  by_cases hk : k = j
  · rw [if_pos hk, if_neg (by rw [hk]; exact fun hc => hij hc.symm), if_pos hk]; rfl
  · simp [hk]

theorem moveA_ok {s : St} (h : W s) {i j : Nat} (hij : i ≠ j) {o n : Route} (hi : s.get i = some o) (hj : s.get j = some n) (ho : o.inA = true) :
    ∃ s', s.moveA i j = some s' := by
  obtain ⟨m, h1, h2, h3⟩ := moveA_mid h hij hi hj
  have hg : m.get j = some { n with inA := false, addr := o.addr } := by rw [h3, if_neg (fun hc => hij hc.symm), if_pos rfl]
  refine ⟨_, h1.trans (insA_eq hg rfl (byAddr_none_of h2 fun k q hk hq he => ?_))⟩
  rw [h3] at hk
  by_cases hki : k = i
  · rw [if_pos hki] at hk; injection hk with hk; rw [← hk] at hq; cases hq
  · rw [if_neg hki] at hk
    by_cases hkj : k = j
    · rw [if_pos hkj] at hk; injection hk with hk; rw [← hk] at hq; cases hq
    · rw [if_neg hkj] at hk
      exact hki (h.a _ _ _ _ hk hi hq ho he)

theorem moveS_mid {s : St} (h : W s) {i j : Nat} (hij : i ≠ j) {o n : Route} (hi : s.get i = some o) (hj : s.get j = some n) :
    ∃ m, s.moveS i j = m.insS j ∧ W m ∧ ∀ k, m.get k = if k = i then some { o with inS := false, sess := none } else if k = j then some { n with inS := false, sess := o.sess } else s.get k := by
  obtain ⟨s1, hs1⟩ : ∃ s1, s1 = s.set i fun r => { r with inS := false } := ⟨_, rfl⟩
  obtain ⟨s2, hs2⟩ : ∃ s2, s2 = s1.set j fun r => { r with inS := false } := ⟨_, rfl⟩
  have g1 : ∀ k, s1.get k = if k = i then some { o with inS := false } else s.get k := by
    intro k; rw [hs1, get_set (fun _ => by rfl), hi]; rfl
  have g2 : ∀ k, s2.get k = if k = j then some { n with inS := false } else if k = i then some { o with inS := false } else s.get k := by
    intro k; rw [hs2, get_set (fun _ => by rfl), g1 k, g1 j, if_neg (fun hc : j = i => hij hc.symm), hj]; rfl
  have a2 : (s2.get i).bind (·.sess) = o.sess := by rw [g2, if_neg hij, if_pos rfl]; rfl
  obtain ⟨s3, hs3⟩ : ∃ s3, s3 = s2.set j fun r => { r with sess := o.sess } := ⟨_, rfl⟩
  obtain ⟨s4, hs4⟩ : ∃ s4, s4 = s3.set i fun r => { r with sess := none } := ⟨_, rfl⟩
  have g3 : ∀ k, s3.get k = if k = j then some { n with inS := false, sess := o.sess } else if k = i then some { o with inS := false } else s.get k := by
    intro k; rw [hs3, get_set (fun _ => by rfl), g2, g2, if_pos rfl]
    by_cases hk : k = j
    · rw [if_pos hk, if_pos hk]; rfl
    · rw [if_neg hk, if_neg hk, if_neg hk]
  have g4 : ∀ k, s4.get k = if k = i then some { o with inS := false, sess := none } else if k = j then some { n with inS := false, sess := o.sess } else s.get k := by
    intro k; rw [hs4, get_set (fun _ => by rfl), g3, g3, if_neg hij, if_pos rfl]
    by_cases hk : k = i
    · rw [if_pos hk, if_pos hk]; rfl
    · rw [if_neg hk, if_neg hk, if_neg hk]
  have w1 : W s1 := by
    rw [hs1]
    exact h.tweak (fun _ => rfl) (fun _ _ _ hy => hy) (fun _ _ hc => ⟨hc, rfl⟩) (fun _ _ hc => ⟨hc, rfl⟩) (fun _ _ hc => by cases hc)
  have w2 : W s2 := by
    rw [hs2]
    exact w1.tweak (fun _ => rfl) (fun _ _ _ hy => hy) (fun _ _ hc => ⟨hc, rfl⟩) (fun _ _ hc => ⟨hc, rfl⟩) (fun _ _ hc => by cases hc)
  have w3 : W s3 := by
    rw [hs3]
    refine w2.tweak (fun _ => rfl) (fun _ _ _ hy => hy) (fun _ _ hc => ⟨hc, rfl⟩) (fun _ _ hc => ⟨hc, rfl⟩) (fun q hq hc => ?_)
    rw [g2, if_pos rfl] at hq
    injection hq with hq
    rw [← hq] at hc
    cases hc
  have w4 : W s4 := by
    rw [hs4]
    refine w3.tweak (fun _ => rfl) (fun _ _ _ hy => hy) (fun _ _ hc => ⟨hc, rfl⟩) (fun _ _ hc => ⟨hc, rfl⟩) (fun q hq hc => ?_)
    rw [g3, if_neg hij, if_pos rfl] at hq
    injection hq with hq
    rw [← hq] at hc
    cases hc
  refine ⟨s4, ?_, w4, g4⟩
  unfold St.moveS
  simp only
  rw [← hs1, ← hs2, a2, ← hs3, ← hs4]

theorem moveS_some {s s' : St} (h : W s) {i j : Nat} (hij : i ≠ j) {o n : Route} (hi : s.get i = some o) (hj : s.get j = some n) (hm : s.moveS i j = some s') :
    W s' ∧ ∀ k, s'.get k = if k = i then some { o with inS := false, sess := none } else if k = j then some { n with inS := true, sess := o.sess } else s.get k := by
  obtain ⟨m, h1, h2, h3⟩ := moveS_mid h hij hi hj
  rw [h1] at hm
  obtain ⟨r, h4, h5, h6, h7⟩ := insS_some hm
  have h8 := h4
  rw [h3, if_neg (fun hc => hij hc.symm), if_pos rfl] at h8
  injection h8 with h8
  rw [h7]
  refine ⟨h2.insS h4 h6, fun k => ?_⟩
  rw [get_set (fun _ => by rfl), h4, h3, ← h8]
  by_cases hk : k = j
  · rw [if_pos hk, if_neg (by rw [hk]; exact fun hc => hij hc.symm), if_pos hk]; rfl
  · simp [hk]

theorem moveS_ok {s : St} (h : W s) {i j : Nat} (hij : i ≠ j) {o n : Route} (hi : s.get i = some o) (hj : s.get j = some n) (ho : o.inS = true) :
    ∃ s', s.moveS i j = some s' := by
  obtain ⟨m, h1, h2, h3⟩ := moveS_mid h hij hi hj
  have hg : m.get j = some { n with inS := false, sess := o.sess } := by rw [h3, if_neg (fun hc => hij hc.symm), if_pos rfl]
  refine ⟨_, h1.trans (insS_eq hg rfl (bySess_none_of h2 fun k q hk hq he => ?_))⟩
  rw [h3] at hk
  by_cases hki : k = i
  · rw [if_pos hki] at hk; injection hk with hk; rw [← hk] at hq; cases hq
  · rw [if_neg hki] at hk
    by_cases hkj : k = j
    · rw [if_pos hkj] at hk; injection hk with hk; rw [← hk] at hq; cases hq
    · rw [if_neg hkj] at hk
      exact hki (h.z _ _ _ _ hk hi hq ho he)

theorem linkNew_spec {s : St} (h : W s) {x c : Nat} (hx : s.bySrc x = none) :
    ∃ s' t n, s.linkNew x c = some s' ∧ W s' ∧ (∀ k, s'.get k = if k = t then some n else s.get k) ∧
      ((s.byCname (some c) = none ∧ t = s.fresh ∧ n = made s.fresh x none (some c) none) ∨
        ∃ q, s.byCname (some c) = some q ∧ t = q.id ∧ n = { q with sources := q.sources ++ [x] }) := by
  unfold St.linkNew
  cases hc : s.byCname (some c) with
  | none =>
    obtain ⟨s', h1, h2, h3⟩ := create_ok (a := none) (z := none) (c := some c) h hx (fun hc => by cases hc) (fun _ => hc) (fun hc => by cases hc)
    exact ⟨s', _, _, h1, h2, h3, Or.inl ⟨rfl, rfl, rfl⟩⟩
  | some q =>
    obtain ⟨hg, _, _⟩ := byCname_some h hc
    obtain ⟨s', h1, h2, h3⟩ := insSrc_spec h hg hx
    exact ⟨s', _, _, h1, h2, h3, Or.inr ⟨q, rfl, rfl, rfl⟩⟩

/-- The old route when the source that leaves is the main one. -/
def left (o : Route) (x : Nat) : Route :=
  { o with sources := o.sources.filter (· ≠ x), inA := false, addr := none, inS := false, sess := none, main := none }

/-- The new route when the source that comes is the main one. -/
def joined (o n : Route) (x : Nat) : Route :=
  { n with inA := true, addr := o.addr, inS := true, sess := o.sess, main := some x }

theorem delSrc_bySrc {s : St} (h : W s) {x : Nat} {o : Route} (hb : s.bySrc x = some o) : (s.delSrc o.id x).bySrc x = none := by
  obtain ⟨hg, hx⟩ := bySrc_some h hb
  refine bySrc_none_of (h.delSrc _ _) fun i q hi hq => ?_
  rw [delSrc_get, hg] at hi
  by_cases hk : i = o.id
  · rw [if_pos hk] at hi
    injection hi with hi
    rw [← hi] at hq
    simp at hq
  · rw [if_neg hk] at hi
    exact hk (h.src _ _ _ _ _ hi hg hq hx)

/-- The route that `link_source` picks for a source without a route. -/
def picked (s : St) (x c : Nat) : Route :=
  match s.byCname (some c) with
  | none => made s.fresh x none (some c) none
  | some q => { q with sources := q.sources ++ [x] }

theorem delSrc_byCname {s : St} (i x : Nat) {c : Option Nat} (h : W s) (hn : ∀ q, s.byCname c = some q → q.id ≠ i) : (s.delSrc i x).byCname c = s.byCname c := by
  cases hc : s.byCname c with
  | none =>
    refine byCname_none_of (h.delSrc _ _) fun j q hj hq => ?_
    rw [delSrc_get] at hj
    by_cases hk : j = i
    · rw [if_pos hk] at hj
      obtain ⟨r, hr, hj⟩ := Option.map_eq_some_iff.1 hj
      rw [← hj] at hq ⊢
      exact byCname_none (r := r) hc hr hq
    · rw [if_neg hk] at hj
      exact byCname_none hc hj hq
  | some q =>
    obtain ⟨hg, h1, h2⟩ := byCname_some h hc
    have hne := hn q hc
    have hg' : (s.delSrc i x).get q.id = some q := by rw [delSrc_get, if_neg hne]; exact hg
    cases hd : (s.delSrc i x).byCname c with
    | none => exact absurd h2 (byCname_none hd hg' h1)
    | some p =>
      obtain ⟨hp, h3, h4⟩ := byCname_some (h.delSrc _ _) hd
      have hpq := (h.delSrc i x).c _ _ _ _ hp hg' h3 h1 (h4.trans h2.symm)
      rw [hpq, hg'] at hp
      injection hp with hp
      rw [hp]

theorem relink_pre {s : St} (h : W s) {x c : Nat} {o : Route} (hb : s.bySrc x = some o) (hn : ∀ q, s.byCname (some c) = some q → q.id ≠ o.id) :
    ∃ s', (s.delSrc o.id x).linkNew x c = some s' ∧ W s' ∧ (picked s x c).id ≠ o.id ∧ s'.bySrc x = some (picked s x c) ∧
      ∀ k, s'.get k = if k = (picked s x c).id then some (picked s x c) else if k = o.id then some { o with sources := o.sources.filter (· ≠ x) } else s.get k := by
  obtain ⟨hg, hx⟩ := bySrc_some h hb
  have hw := h.delSrc o.id x
  obtain ⟨s', t, n, h1, h2, h3, h4⟩ := linkNew_spec (c := c) hw (delSrc_bySrc h hb)
  rw [delSrc_byCname o.id x h hn] at h4
  have hp : t = (picked s x c).id ∧ n = picked s x c ∧ (picked s x c).id ≠ o.id ∧ x ∈ (picked s x c).sources := by
    unfold picked
    rcases h4 with ⟨hc, h4, h5⟩ | ⟨q, hc, h4, h5⟩
    · rw [hc]
      refine ⟨h4, h5, fun hc => ?_, List.mem_singleton.2 rfl⟩
      have := get_fresh h
      rw [show s.fresh = o.id from hc, hg] at this
      cases this
    · rw [hc]
      exact ⟨h4, h5, hn q hc, List.mem_append.2 (Or.inr (List.mem_singleton.2 rfl))⟩
  obtain ⟨rfl, rfl, hne, hxp⟩ := hp
  refine ⟨s', h1, h2, hne, ?_, fun k => ?_⟩
  · exact bySrc_eq h2 (by rw [h3, if_pos rfl]) hxp
  · rw [h3, delSrc_get, hg]
    rfl

theorem relink_other {s s' : St} (h : W s) {x c : Nat} {o : Route} (hb : s.bySrc x = some o) (hn : ∀ q, s.byCname (some c) = some q → q.id ≠ o.id)
    (hm : o.main ≠ some x) (hs : s.relink o.id x c = some s') :
    W s' ∧ ∀ k, s'.get k = if k = (picked s x c).id then some (picked s x c)
      else if k = o.id then (if (o.sources.filter (· ≠ x)) = [] then none else some { o with sources := o.sources.filter (· ≠ x) }) else s.get k := by
  obtain ⟨s1, h1, h2, h3, h4, h5⟩ := relink_pre h hb hn
  have hg : s1.get o.id = some { o with sources := o.sources.filter (· ≠ x) } := by rw [h5, if_neg (fun hc => h3 hc.symm), if_pos rfl]
  unfold St.relink at hs
  rw [h1, Option.bind_some] at hs
  unfold St.moveMain at hs
  rw [hg] at hs
  simp only at hs
  rw [if_neg hm, Option.map_some] at hs
  injection hs with hs
  rw [← hs]
  refine ⟨h2.collect _, fun k => ?_⟩
  rw [collect_get hg, h5]
  by_cases hk : k = o.id
  · have h3' : o.id ≠ (picked s x c).id := fun hc => h3 hc.symm
    simp only [hk, if_neg h3', if_true, true_and]
  · rw [if_neg hk, if_neg hk, if_neg (fun hc => hk hc.1)]

theorem relink_main {s s' : St} (h : W s) {x c : Nat} {o : Route} (hb : s.bySrc x = some o) (hn : ∀ q, s.byCname (some c) = some q → q.id ≠ o.id)
    (hm : o.main = some x) (hs : s.relink o.id x c = some s') :
    W s' ∧ ∀ k, s'.get k = if k = (picked s x c).id then some (joined o (picked s x c) x)
      else if k = o.id then (if (left o x).sources = [] then none else some (left o x)) else s.get k := by
  obtain ⟨s1, h1, h2, h3, h4, h5⟩ := relink_pre h hb hn
  have h3' : o.id ≠ (picked s x c).id := fun hc => h3 hc.symm
  have hg : s1.get o.id = some { o with sources := o.sources.filter (· ≠ x) } := by rw [h5, if_neg h3', if_pos rfl]
  have hp : s1.get (picked s x c).id = some (picked s x c) := by rw [h5, if_pos rfl]
  unfold St.relink at hs
  rw [h1, Option.bind_some] at hs
  unfold St.moveMain at hs
  rw [hg] at hs
  simp only at hs
  rw [if_pos hm, h4] at hs
  simp only at hs
  cases ha : s1.moveA o.id (picked s x c).id with
  | none => rw [ha] at hs; cases hs
  | some s2 =>
    rw [ha, Option.bind_some] at hs
    obtain ⟨h6, h7⟩ := moveA_some h2 h3' hg hp ha
    have hg2 := h7 o.id
    rw [if_pos rfl] at hg2
    have hp2 := h7 (picked s x c).id
    rw [if_neg h3, if_pos rfl] at hp2
    cases hz : s2.moveS o.id (picked s x c).id with
    | none => rw [hz] at hs; cases hs
    | some s3 =>
      rw [hz, Option.map_some, Option.map_some] at hs
      injection hs with hs
      obtain ⟨h8, h9⟩ := moveS_some h6 h3' hg2 hp2 hz
      obtain ⟨s4, hs4⟩ : ∃ s4, s4 = (s3.set (picked s x c).id fun r => { r with main := some x }).set o.id fun r => { r with main := none } := ⟨_, rfl⟩
      rw [← hs4] at hs
      have w4 : W s4 := by
        rw [hs4]
        apply W.tweak
        · apply W.tweak h8
          · exact fun _ => rfl
          · exact fun _ _ _ hy => hy
          · exact fun _ _ hc => ⟨hc, rfl⟩
          · exact fun _ _ hc => ⟨hc, rfl⟩
          · exact fun _ _ hc => ⟨hc, rfl⟩
        · exact fun _ => rfl
        · exact fun _ _ _ hy => hy
        · exact fun _ _ hc => ⟨hc, rfl⟩
        · exact fun _ _ hc => ⟨hc, rfl⟩
        · exact fun _ _ hc => ⟨hc, rfl⟩
      have g4 : ∀ k, s4.get k = if k = (picked s x c).id then some (joined o (picked s x c) x) else if k = o.id then some (left o x) else s.get k := by
        intro k
        rw [hs4, get_set (fun _ => by rfl), get_set (fun _ => by rfl), get_set (fun _ => by rfl), if_neg h3', h9 o.id, h9 (picked s x c).id, h9 k, if_pos rfl, if_neg h3, if_pos rfl, h7 k, h5 k]
        by_cases hk : k = o.id
        · rw [hk, if_pos rfl, if_neg h3', if_pos rfl]
          rfl
        · rw [if_neg hk]
          by_cases hk' : k = (picked s x c).id
          · rw [if_pos hk', if_pos hk']; rfl
          · rw [if_neg hk', if_neg hk', if_neg hk, if_neg hk', if_neg hk, if_neg hk', if_neg hk', if_neg hk, if_neg hk]
      have hg4 : s4.get o.id = some (left o x) := by rw [g4, if_neg h3', if_pos rfl]
      rw [← hs]
      refine ⟨w4.collect _, fun k => ?_⟩
      rw [collect_get hg4, g4]
      by_cases hk : k = o.id
      · simp only [hk, if_neg h3', if_true, true_and]
      · rw [if_neg hk, if_neg hk, if_neg (fun hc => hk hc.1)]

theorem relink_ok {s : St} (h : W s) {x c : Nat} {o : Route} (hb : s.bySrc x = some o) (hn : ∀ q, s.byCname (some c) = some q → q.id ≠ o.id)
    (hm : o.main = some x → o.inA = true ∧ o.inS = true) : ∃ s', s.relink o.id x c = some s' := by
  obtain ⟨s1, h1, h2, h3, h4, h5⟩ := relink_pre h hb hn
  have h3' : o.id ≠ (picked s x c).id := fun hc => h3 hc.symm
  have hg : s1.get o.id = some { o with sources := o.sources.filter (· ≠ x) } := by rw [h5, if_neg h3', if_pos rfl]
  have hp : s1.get (picked s x c).id = some (picked s x c) := by rw [h5, if_pos rfl]
  unfold St.relink
  rw [h1, Option.bind_some]
  unfold St.moveMain
  rw [hg]
  simp only
  by_cases hmx : o.main = some x
  · obtain ⟨hA, hS⟩ := hm hmx
    rw [if_pos hmx, h4]
    simp only
    obtain ⟨s2, ha⟩ := moveA_ok h2 h3' hg hp hA
    obtain ⟨h6, h7⟩ := moveA_some h2 h3' hg hp ha
    have hg2 := h7 o.id
    rw [if_pos rfl] at hg2
    have hp2 := h7 (picked s x c).id
    rw [if_neg h3, if_pos rfl] at hp2
    obtain ⟨s3, hz⟩ := moveS_ok h6 h3' hg2 hp2 hS
    rw [ha, Option.bind_some, hz]
    exact ⟨_, rfl⟩
  · rw [if_neg hmx]
    exact ⟨_, rfl⟩

theorem picked_L {s : St} (h : Inv s) {x c : Nat} {o : Route} (hb : s.bySrc x = some o) (hn : ∀ q, s.byCname (some c) = some q → q.id ≠ o.id) : L (picked s x c) := by
  obtain ⟨hg, hx⟩ := bySrc_some h.w hb
  unfold picked
  cases hc : s.byCname (some c) with
  | none => exact made_L _ _ _ _ _
  | some q =>
    obtain ⟨hq, h1, h2⟩ := byCname_some h.w hc
    have hl := h.l _ _ hq
    refine ⟨by simp, fun y hy => List.mem_append.2 (Or.inl (hl.main y hy)), hl.c, hl.a, hl.z, ?_⟩
    refine List.nodup_append.2 ⟨hl.nd, by simp, ?_⟩
    intro a ha b hb' he
    rw [List.mem_singleton.1 hb'] at he
    rw [he] at ha
    exact hn q hc (h.w.src _ _ _ _ _ hq hg ha hx)

theorem Inv.relink {s s' : St} (h : Inv s) {x c : Nat} {o : Route} (hb : s.bySrc x = some o) (hn : ∀ q, s.byCname (some c) = some q → q.id ≠ o.id)
    (hs : s.relink o.id x c = some s') : Inv s' := by
  obtain ⟨hg, hx⟩ := bySrc_some h.w hb
  have hl := h.l _ _ hg
  have hp := picked_L h hb hn
  by_cases hm : o.main = some x
  · obtain ⟨h1, h2⟩ := relink_main h.w hb hn hm hs
    refine ⟨h1, fun k q hk => ?_⟩
    rw [h2] at hk
    split_ifs at hk
    · injection hk with hk
      rw [← hk]
      refine ⟨hp.ne, fun y hy => ?_, hp.c, fun _ => rfl, fun _ => rfl, hp.nd⟩
      injection hy with hy
      rw [← hy]
      show x ∈ (picked s x c).sources
      unfold picked
      cases s.byCname (some c) with
      | none => exact List.mem_singleton.2 rfl
      | some q => exact List.mem_append.2 (Or.inr (List.mem_singleton.2 rfl))
    · injection hk with hk
      rw [← hk]
      exact ⟨by assumption, (fun y hy => by cases hy), hl.c, (fun hy => by cases hy), (fun hy => by cases hy), hl.nd.filter _⟩
    · exact h.l _ _ hk
  · obtain ⟨h1, h2⟩ := relink_other h.w hb hn hm hs
    refine ⟨h1, fun k q hk => ?_⟩
    rw [h2] at hk
    split_ifs at hk
    · injection hk with hk
      rw [← hk]
      exact hp
    · injection hk with hk
      rw [← hk]
      refine ⟨by assumption, fun y hy => ?_, hl.c, hl.a, hl.z, hl.nd.filter _⟩
      refine List.mem_filter.2 ⟨hl.main y hy, ?_⟩
      simp only [ne_eq, decide_not, Bool.not_eq_eq_eq_not, Bool.not_true, decide_eq_false_iff_not]
      rintro rfl
      exact hm hy
    · exact h.l _ _ hk

/-! ### `link_source` and all calls -/

theorem linkNew_inv {s s' : St} (h : Inv s) {x c : Nat} (hx : s.bySrc x = none) (hs : s.linkNew x c = some s') : Inv s' := by
  obtain ⟨s'', t, n, h1, h2, h3, h4⟩ := linkNew_spec (c := c) h.w hx
  rw [h1] at hs
  injection hs with hs
  rw [← hs]
  refine ⟨h2, fun k q hk => ?_⟩
  rw [h3] at hk
  split_ifs at hk with hkt
  · injection hk with hk
    rw [← hk]
    rcases h4 with ⟨hc, _, h5⟩ | ⟨p, hc, _, h5⟩
    · rw [h5]; exact made_L _ _ _ _ _
    · obtain ⟨hp, h6, h7⟩ := byCname_some h.w hc
      have hl := h.l _ _ hp
      rw [h5]
      refine ⟨by simp, fun y hy => List.mem_append.2 (Or.inl (hl.main y hy)), hl.c, hl.a, hl.z, ?_⟩
      refine List.nodup_append.2 ⟨hl.nd, by simp, ?_⟩
      intro a ha b hb' he
      rw [List.mem_singleton.1 hb'] at he
      rw [he] at ha
      exact bySrc_none hx hp ha
  · exact h.l _ _ hk

theorem noC {r : Route} (h : L r) (hc : r.cname = none) : r.inC = false := by rw [h.c, hc]; rfl

theorem Inv.link {s s' : St} (h : Inv s) {x : Nat} {c : Option Nat} (hs : s.link x c = some s') : Inv s' := by
  cases c with
  | none => cases hs
  | some c =>
    unfold St.link at hs
    simp only at hs
    cases hb : s.bySrc x with
    | none =>
      rw [hb] at hs
      exact linkNew_inv h hb hs
    | some o =>
      rw [hb] at hs
      obtain ⟨hg, hx⟩ := bySrc_some h.w hb
      cases hc : s.byCname (some c) with
      | none =>
        rw [hc] at hs
        simp only at hs
        by_cases ho : o.cname.isSome = true
        · rw [if_pos ho] at hs
          exact h.relink hb (fun q hq => by rw [hc] at hq; cases hq) hs
        · rw [if_neg ho] at hs
          have hon : o.cname = none := Option.not_isSome_iff_eq_none.1 ho
          obtain ⟨s'', h1, h2, h3⟩ := putC_spec h.w hg hc (noC (h.l _ _ hg) hon)
          rw [h1] at hs
          injection hs with hs
          rw [← hs]
          refine ⟨h2, fun k q hk => ?_⟩
          rw [h3] at hk
          split_ifs at hk
          · injection hk with hk
            have hl := h.l _ _ hg
            rw [← hk]
            exact ⟨hl.ne, hl.main, rfl, hl.a, hl.z, hl.nd⟩
          · exact h.l _ _ hk
      | some q =>
        rw [hc] at hs
        simp only at hs
        by_cases ho : o.id = q.id
        · rw [if_pos ho] at hs
          injection hs with hs
          rw [← hs]
          exact h
        · rw [if_neg ho] at hs
          exact h.relink hb (fun p hp => by rw [hc] at hp; injection hp with hp; rw [← hp]; exact fun hc => ho hc.symm) hs

theorem insA_inv {s s' : St} {i : Nat} (h : s.insA i = some s') : ∃ r, s.get i = some r ∧ r.inA = false ∧ s.byAddr r.addr = none := by
  obtain ⟨r, h1, h2, h3, _⟩ := insA_some h
  exact ⟨r, h1, h2, h3⟩

/-- The result of `add_session` for a source whose route has no session and no address. -/
theorem add_found {s s' : St} (h : W s) {z x : Nat} {a : Option Nat} {r : Route} (hb : s.bySrc x = some r)
    (h1 : a.isSome = true → s.byAddr a = none) (h2 : s.bySess (some z) = none)
    (hs : ((s.putA r.id a).bind fun s => s.putS r.id (some z)) = some s') :
    W s' ∧ (a.isSome = true → r.inA = false) ∧ r.inS = false ∧
      ∀ k, s'.get k = if k = r.id then some { (if a.isSome then { r with addr := a, inA := true } else r) with sess := some z, inS := true } else s.get k := by
  obtain ⟨hg, hx⟩ := bySrc_some h hb
  have hA : a.isSome = true → r.inA = false := by
    intro ha
    unfold St.putA at hs
    rw [if_pos ha] at hs
    cases hi : (s.set r.id fun r => { r with addr := a }).insA r.id with
    | none => rw [hi] at hs; cases hs
    | some s1 =>
      obtain ⟨q, hq, h3, _⟩ := insA_inv hi
      rw [get_set (fun _ => by rfl), if_pos rfl, hg] at hq
      injection hq with hq
      rw [← hq] at h3
      exact h3
  obtain ⟨s1, h3, h4, h5⟩ := putA_spec h hg h1 hA
  rw [h3, Option.bind_some] at hs
  have hg1 := h5 r.id
  rw [if_pos rfl] at hg1
  have hb1 : s1.bySess (some z) = none := by
    refine bySess_none_of h4 fun k q hk hq => ?_
    rw [h5] at hk
    by_cases hkr : k = r.id
    · rw [if_pos hkr] at hk
      injection hk with hk
      have : q.inS = r.inS ∧ q.sess = r.sess := by rw [← hk]; cases a <;> exact ⟨rfl, rfl⟩
      rw [this.2]
      exact bySess_none h2 hg (by rw [← this.1]; exact hq)
    · rw [if_neg hkr] at hk
      exact bySess_none h2 hk hq
  have hS : r.inS = false := by
    have hi := hs
    unfold St.putS at hi
    rw [if_pos (c := (some z).isSome = true) rfl] at hi
    obtain ⟨q, hq, h6, _⟩ := insS_some hi
    rw [get_set (fun _ => by rfl), if_pos rfl, hg1] at hq
    injection hq with hq
    rw [← hq] at h6
    revert h6
    split_ifs <;> exact fun h6 => h6
  obtain ⟨s2, h6, h7, h8⟩ := putS_spec (z := some z) h4 hg1 (fun _ => hb1) (fun _ => by split_ifs <;> exact hS)
  rw [h6] at hs
  injection hs with hs
  rw [← hs]
  refine ⟨h7, hA, hS, fun k => ?_⟩
  rw [h8, h5]
  by_cases hk : k = r.id
  · rw [if_pos hk, if_pos hk]; rfl
  · rw [if_neg hk, if_neg hk, if_neg hk]

theorem add_found_ok {s : St} (h : W s) {z x : Nat} {a : Option Nat} {r : Route} (hb : s.bySrc x = some r)
    (h1 : a.isSome = true → s.byAddr a = none) (h2 : s.bySess (some z) = none) (hA : a.isSome = true → r.inA = false) (hS : r.inS = false) :
    ∃ s', ((s.putA r.id a).bind fun s => s.putS r.id (some z)) = some s' := by
  obtain ⟨hg, hx⟩ := bySrc_some h hb
  obtain ⟨s1, h3, h4, h5⟩ := putA_spec h hg h1 hA
  rw [h3, Option.bind_some]
  have hg1 := h5 r.id
  rw [if_pos rfl] at hg1
  have hb1 : s1.bySess (some z) = none := by
    refine bySess_none_of h4 fun k q hk hq => ?_
    rw [h5] at hk
    by_cases hkr : k = r.id
    · rw [if_pos hkr] at hk
      injection hk with hk
      have : q.inS = r.inS ∧ q.sess = r.sess := by rw [← hk]; cases a <;> exact ⟨rfl, rfl⟩
      rw [this.2]
      exact bySess_none h2 hg (by rw [← this.1]; exact hq)
    · rw [if_neg hkr] at hk
      exact bySess_none h2 hk hq
  obtain ⟨s2, h6, h7, h8⟩ := putS_spec (z := some z) h4 hg1 (fun _ => hb1) (fun _ => by split_ifs <;> exact hS)
  exact ⟨s2, h6⟩

end Verif.SessionRouter
