import Verif.TcpServer.Spec
/-!
# TCP server port: invariant
-/
namespace Verif.TcpServer

/-- Handler with which a connection was given to the acceptor. -/
def St.hof (s : St) (c : Nat) : Option Nat :=
  match s.conns[c]? with
  | some x => x.thandler.join
  | none => none

/-- The server has no connections. -/
def St.idle (s : St) : Prop := s.opened = [] ∧ s.closing = []

/-- Invariant of the connections. -/
structure L (s : St) : Prop where
  nd : (s.opened ++ s.closing).Nodup
  op : ∀ c ∈ s.opened, ∃ x h, s.conns[c]? = some x ∧ (x.ph = .established ∨ x.ph = .terminating) ∧
    x.thandler = some (some h) ∧ x.sem = true ∧ x.chandler = false
  cl : ∀ c ∈ s.closing, ∃ x, s.conns[c]? = some x ∧
    ((x.ph = .terminating ∧ x.thandler = some none ∧ x.sem = true ∧ x.chandler = false) ∨
      (x.ph = .closing ∧ x.sem = true))
  all : ∀ c x, s.conns[c]? = some x → x.ph ≠ .closed → c ∈ s.opened ∨ c ∈ s.closing
  refs : ∀ h, s.refs h = (s.opened.filter (fun c => s.hof c == some h)).length
  adds : ∀ c h, s.calls.count (.add c (some h)) = if s.hof c = some h then 1 else 0
  rems : ∀ c h, s.calls.count (.remove c h) = if s.hof c = some h ∧ c ∉ s.opened then 1 else 0
  nones : ∀ c, s.calls.count (.add c none) ≤ 1 ∧
    (Call.add c none ∈ s.calls → c < s.conns.length ∧ s.hof c = none)

/-- Invariant of the handles and of the close operation. -/
structure F (s : St) : Prop where
  conn : ¬ s.idle → s.init = true
  poll : s.polling = true → s.init = true
  soc : s.init = true → s.sock = true
  try1 : s.sock = true → s.tried = true
  trd : s.chandler = true → s.tried = true
  pcl : s.pclosing = true → s.want = true ∧ s.idle
  don : s.closed = true → s.want = true ∧ s.idle ∧ s.init = false ∧ s.sock = false
  chd : s.chandler = s.result.isSome
  wnt : s.want = s.chandler
  res0 : s.result = some false → s.closed = true ∧ s.notes = 0
  res1 : s.result = some true → s.notes = (if s.closed then 1 else 0) ∧ (s.closed = false → s.init = true) ∧
    (s.closed = false → s.idle → s.pclosing = true)
  resn : s.result = none → s.notes = 0

structure Inv (s : St) : Prop where
  l : L s
  f : F s

theorem inv0 : Inv {} := by
  constructor <;> constructor <;> simp [St.hof, St.idle]

theorem hof_set {s : St} {c : Nat} {x y : Conn} (h : s.conns[c]? = some x) (e : y.thandler = x.thandler)
    (d : Nat) : (s.set c y).hof d = s.hof d := by
  have := (List.getElem?_eq_some_iff.1 h).1
  simp only [St.hof, St.set, List.getElem?_set]
  by_cases hd : c = d
  · subst hd
    simp only [if_true, this, h, e]
  · simp only [hd, if_false]

theorem set_get {s : St} {c : Nat} {x y : Conn} (h : s.conns[c]? = some x) (d : Nat) :
    (s.set c y).conns[d]? = if c = d then some y else s.conns[d]? := by
  have := (List.getElem?_eq_some_iff.1 h).1
  simp only [St.set, List.getElem?_set]
  split <;> simp_all

theorem L.congr {s t : St} (l : L s) (h1 : t.conns = s.conns) (h2 : t.opened = s.opened)
    (h3 : t.closing = s.closing) (h4 : t.refs = s.refs) (h5 : t.calls = s.calls) : L t := by
  have hh : t.hof = s.hof := by funext c; simp only [St.hof, h1]
  constructor <;> simp only [h1, h2, h3, h4, h5, hh]
  · exact l.nd
  · exact l.op
  · exact l.cl
  · exact l.all
  · exact l.refs
  · exact l.adds
  · exact l.rems
  · exact l.nones

/-- What the invariant says of an event that succeeds or not. -/
def Good (r : Except Err St) : Prop :=
  match r with
  | .ok s => Inv s
  | .error .panic => False
  | .error .bad => True

theorem good_opn {s : St} (I : Inv s) (r : OpenRes) (h : s.tried = false) : Good (s.opn r) := by
  obtain ⟨l, f⟩ := I
  have h1 : s.sock = false := by
    cases e : s.sock with
    | false => rfl
    | true => have := f.try1 e; simp_all
  have h2 : s.init = false := by
    cases e : s.init with
    | false => rfl
    | true => have := f.soc e; simp_all
  have h4 : s.chandler = false := by
    cases e : s.chandler with
    | false => rfl
    | true => have := f.trd e; simp_all
  have h3 : s.idle := by
    refine Classical.byContradiction fun e => ?_
    have := f.conn e; simp_all
  have h5 : s.result = none := by have := f.chd; simpa [h4] using this
  have h6 : s.want = false := by rw [f.wnt, h4]
  have h7 : s.closed = false := by
    cases e : s.closed with
    | false => rfl
    | true => have := (f.don e).1; simp_all
  have h8 : s.pclosing = false := by
    cases e : s.pclosing with
    | false => rfl
    | true => have := (f.pcl e).1; simp_all
  have h9 := f.resn h5
  have h10 : s.polling = false := by
    cases e : s.polling with
    | false => rfl
    | true => have := (f.poll e); simp_all
  simp only [St.idle] at h3
  cases r <;> simp only [St.opn, h, Good, Bool.false_eq_true, if_false] <;>
    refine ⟨l.congr rfl (by simp_all) (by simp_all) rfl rfl, ?_⟩ <;> constructor <;> simp_all [St.idle]

theorem good_destroy {s : St} (I : Inv s) (h : s.result = some false ∨ 0 < s.notes) : Good s.destroy := by
  obtain ⟨l, f⟩ := I
  have hc : s.closed = true := by
    cases e : s.closed with
    | true => rfl
    | false =>
      rcases h with h | h
      · exact absurd (f.res0 h).1 (by simp [e])
      · rcases hr : s.result with _ | _ | _
        · have := f.resn hr; omega
        · have := (f.res0 hr).2; omega
        · have := (f.res1 hr).1; simp [e] at this; omega
  obtain ⟨_, ⟨h1, h2⟩, h3, h4⟩ := f.don hc
  simp only [St.destroy, h1, h2, h3, h4, List.length_nil, ne_eq, not_true, if_false, Bool.false_eq_true, or_self,
    Good]
  obtain ⟨f1, f2, f3, f4, f5, f6, f7, f8, f9, f10, f11, f12⟩ := f
  refine ⟨l.congr rfl (by simp_all) (by simp_all) rfl rfl, ?_⟩
  constructor <;> simp_all [St.idle]

theorem good_closeCb {s : St} (I : Inv s) : Good s.closeCb := by
  obtain ⟨l, f⟩ := I
  simp only [St.closeCb]
  by_cases h1 : s.init = false ∨ s.pclosing = false
  · simp only [if_pos h1, Good]
  · rw [if_neg h1]
    simp only [not_or, Bool.not_eq_false] at h1
    by_cases h2 : s.closed = true
    · simp only [h2, if_true, Good]; exact ⟨l, f⟩
    · have h3 := f.pcl h1.2
      have h4 : s.chandler = true := by rw [← f.wnt]; exact h3.1
      have h2' : s.closed = false := by simpa using h2
      have h5 : s.result = some true := by
        rcases hr : s.result with _ | _ | _
        · have := f.chd; simp [hr, h4] at this
        · have := (f.res0 hr).1; simp_all
        · rfl
      have h6 := f.res1 h5
      have h7 := f.trd h4
      simp only [h2', h4, Good, Bool.false_eq_true, if_false, Bool.true_eq_false]
      refine ⟨l.congr rfl (by simp_all) (by simp_all) rfl rfl, ?_⟩
      constructor <;> simp_all [St.idle]

theorem good_close {s : St} (I : Inv s) (h1 : s.tried = true) (h2 : s.result = none)
    (h3 : ∀ c h, s.handed c h → s.removed c h) : Good s.close := by
  obtain ⟨l, f⟩ := I
  have ho : s.opened = [] := by
    cases e : s.opened with
    | nil => rfl
    | cons c t =>
      obtain ⟨x, h, hx, _, ht, _⟩ := l.op c (by simp [e])
      have hh : s.hof c = some h := by simp [St.hof, hx, ht]
      have h4 : s.handed c h := by
        have := l.adds c h
        rw [if_pos hh] at this
        exact List.count_pos_iff.1 (by omega)
      have h5 := List.count_pos_iff.2 (h3 c h h4)
      rw [l.rems c h, if_neg (by simp [e])] at h5
      omega
  have h4 : s.chandler = false := by have := f.chd; simpa [h2] using this
  have h5 := f.resn h2
  have h6 : s.closed = false := by
    cases e : s.closed with
    | false => rfl
    | true => have := (f.don e).1; rw [f.wnt] at this; simp_all
  have h7 : s.pclosing = false := by
    cases e : s.pclosing with
    | false => rfl
    | true => have := (f.pcl e).1; rw [f.wnt] at this; simp_all
  obtain ⟨f1, f2, f3, f4, f5, f6, f7, f8, f9, f10, f11, f12⟩ := f
  simp only [St.close, ho, List.length_nil, ne_eq, not_true, if_false, h4, Bool.false_eq_true, h6, Nat.zero_add,
    St.closeServer]
  by_cases h8 : s.closing.length = 0
  · have h8' : s.closing = [] := List.length_eq_zero_iff.1 h8
    by_cases h9 : s.init = false
    · simp only [h8, not_true, if_false, h9, if_true, Good]
      refine ⟨l.congr rfl (by simp_all) (by simp_all) rfl rfl, ?_⟩
      constructor <;> simp_all [St.idle]
    · have h9' : s.init = true := by simpa using h9
      simp only [h8, not_true, if_false, h9', Bool.true_eq_false, Good]
      refine ⟨l.congr rfl (by simp_all) (by simp_all) rfl rfl, ?_⟩
      constructor <;> simp_all [St.idle]
  · have h8' : s.closing ≠ [] := fun e => h8 (by simp [e])
    simp only [h8, not_false_eq_true, if_true, Good]
    refine ⟨l.congr rfl (by simp_all) (by simp_all) rfl rfl, ?_⟩
    constructor <;> simp_all [St.idle]

end Verif.TcpServer
