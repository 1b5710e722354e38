import Verif.TcpServer.Lemmas
/-!
# TCP server port: the invariant is kept by the steps of connections
-/
namespace Verif.TcpServer

theorem F.congr {s t : St} (f : F s) (h0 : t.idle ↔ s.idle) (h1 : t.init = s.init) (h2 : t.polling = s.polling)
    (h3 : t.sock = s.sock) (h4 : t.tried = s.tried) (h5 : t.chandler = s.chandler)
    (h6 : t.pclosing = s.pclosing) (h7 : t.want = s.want) (h8 : t.closed = s.closed)
    (h9 : t.result = s.result) (h10 : t.notes = s.notes) : F t := by
  obtain ⟨f1, f2, f3, f4, f5, f6, f7, f8, f9, f10, f11, f12⟩ := f
  constructor <;> simp only [h0, h1, h2, h3, h4, h5, h6, h7, h8, h9, h10] <;> assumption

theorem good_term {s : St} (I : Inv s) {c : Nat} {x : Conn} (hx : s.conns[c]? = some x)
    (hp : x.ph = .established) : Good (s.term c) := by
  obtain ⟨l, f⟩ := I
  simp only [St.term, hx, Conn.terminate, hp, Ph.usable, bind, Except.bind, reduceCtorEq, if_false,
    Bool.true_eq_false, Good]
  refine ⟨?_, f.congr Iff.rfl rfl rfl rfl rfl rfl rfl rfl rfl rfl rfl⟩
  have hh := hof_set (s := s) (c := c) (y := { x with ph := .terminating }) hx rfl
  have hg := set_get (s := s) (c := c) (y := { x with ph := .terminating }) hx
  refine ⟨l.nd, ?_, ?_, ?_, ?_, ?_, ?_, ?_⟩
  · intro d hd
    rw [hg]
    obtain ⟨y, h, h1, h2, h3⟩ := l.op d hd
    split
    · rename_i e; subst e
      rw [hx] at h1; cases h1
      exact ⟨_, h, rfl, .inr rfl, h3⟩
    · exact ⟨y, h, h1, h2, h3⟩
  · intro d hd
    rw [hg]
    obtain ⟨y, h1, h2⟩ := l.cl d hd
    split
    · rename_i e; subst e
      rw [hx] at h1; cases h1
      simp [hp] at h2
    · exact ⟨y, h1, h2⟩
  · intro d y hd hy
    rw [hg] at hd
    split at hd
    · rename_i e; subst e
      exact l.all c x hx (by simp [hp])
    · exact l.all d y hd hy
  · intro h; simp only [hh]; exact l.refs h
  · intro d h; simp only [hh]; exact l.adds d h
  · intro d h; simp only [hh]; exact l.rems d h
  · intro d
    simp only [hh]
    refine ⟨(l.nones d).1, fun h => ?_⟩
    have := (l.nones d).2 h
    simpa [St.set] using this

theorem get_snoc {α : Type} (l : List α) (x : α) (d : Nat) :
    (l ++ [x])[d]? = if d = l.length then some x else l[d]? := by
  split
  · rename_i e; subst e; simp
  · rename_i e
    by_cases h : d < l.length
    · rw [List.getElem?_append_left h]
    · rw [List.getElem?_eq_none (by simp; omega), List.getElem?_eq_none (by omega)]

theorem L.lt {s : St} (l : L s) {c : Nat} (h : c ∈ s.opened ∨ c ∈ s.closing) : c < s.conns.length := by
  rcases h with h | h
  · obtain ⟨x, _, hx, _⟩ := l.op c h
    exact (List.getElem?_eq_some_iff.1 hx).1
  · obtain ⟨x, hx, _⟩ := l.cl c h
    exact (List.getElem?_eq_some_iff.1 hx).1

theorem hof_snoc {s t : St} {x : Conn} (h : t.conns = s.conns ++ [x]) (d : Nat) :
    t.hof d = if d = s.conns.length then x.thandler.join else s.hof d := by
  simp only [St.hof, h, get_snoc]
  by_cases e : d = s.conns.length <;> simp only [e, if_true, if_false]

theorem hof_len {s : St} {c : Nat} (h : s.conns.length ≤ c) : s.hof c = none := by
  simp only [St.hof, List.getElem?_eq_none h]

/-- A new connection that goes to no list or to the list of closing connections. -/
theorem L.fresh {s t : St} (l : L s) {x : Conn} (h1 : t.conns = s.conns ++ [x]) (h2 : t.opened = s.opened)
    (h3 : t.refs = s.refs) (hx : x.thandler.join = none)
    (h4 : (x.ph = .closed ∧ t.closing = s.closing) ∨
      (x.ph = .terminating ∧ x.thandler = some none ∧ x.sem = true ∧ x.chandler = false ∧
        t.closing = s.closing ++ [s.conns.length]))
    (h5 : t.calls = s.calls ∨ t.calls = s.calls ++ [.add s.conns.length none]) : L t := by
  have hh : ∀ d, t.hof d = s.hof d := by
    intro d
    rw [hof_snoc h1, hx]
    split
    · rename_i e; rw [e, hof_len (Nat.le_refl _)]
    · rfl
  have hlt : ∀ c, c ∈ s.opened ∨ c ∈ s.closing → c ≠ s.conns.length := fun c h => by have := l.lt h; omega
  constructor
  · rcases h4 with ⟨_, h4⟩ | ⟨_, _, _, _, h4⟩
    · rw [h2, h4]; exact l.nd
    · rw [h2, h4, ← List.append_assoc]
      refine List.nodup_append.2 ⟨l.nd, by simp, ?_⟩
      intro a ha b hb
      simp only [List.mem_singleton] at hb
      subst hb
      exact hlt a (List.mem_append.1 ha)
  · intro c hc
    rw [h2] at hc
    simp only [h1, get_snoc, hlt c (.inl hc), if_false]
    exact l.op c hc
  · intro c hc
    by_cases e : c = s.conns.length
    · subst e
      rcases h4 with ⟨_, h4⟩ | ⟨h6, h7, h8, h9, h4⟩
      · rw [h4] at hc; exact absurd rfl (hlt _ (.inr hc))
      · exact ⟨x, by simp [h1], .inl ⟨h6, h7, h8, h9⟩⟩
    · have hc' : c ∈ s.closing := by
        rcases h4 with ⟨_, h4⟩ | ⟨_, _, _, _, h4⟩
        · rwa [h4] at hc
        · rw [h4] at hc
          simpa [e] using hc
      simp only [h1, get_snoc, e, if_false]
      exact l.cl c hc'
  · intro c y hc hy
    rw [h1, get_snoc] at hc
    split at hc
    · cases hc
      rcases h4 with ⟨h4, _⟩ | ⟨_, _, _, _, h4⟩
      · exact absurd h4 hy
      · right; rw [h4]; simp_all
    · rw [h2]
      rcases l.all c y hc hy with h | h
      · exact .inl h
      · right
        rcases h4 with ⟨_, h4⟩ | ⟨_, _, _, _, h4⟩ <;> rw [h4] <;> simp [h]
  · intro h
    simp only [h3, h2, hh]
    exact l.refs h
  · intro c h
    have := l.adds c h
    rw [hh]
    rcases h5 with h5 | h5 <;> rw [h5]
    · exact this
    · simpa [List.count_append, List.count_cons] using this
  · intro c h
    have := l.rems c h
    rw [hh, h2]
    rcases h5 with h5 | h5 <;> rw [h5]
    · exact this
    · simpa [List.count_append, List.count_cons] using this
  · intro c
    rw [hh]
    have h6 := l.nones c
    have h7 : ∀ d, Call.add d none ∈ s.calls → d < t.conns.length ∧ s.hof d = none := by
      intro d hd
      have := (l.nones d).2 hd
      rw [h1]; simp; exact ⟨by omega, this.2⟩
    rcases h5 with h5 | h5 <;> rw [h5]
    · exact ⟨h6.1, h7 c⟩
    · constructor
      · rw [List.count_append, List.count_cons]
        by_cases e : c = s.conns.length
        · have : Call.add c none ∉ s.calls := fun hm => by have := (h6.2 hm).1; omega
          have h8 := List.count_eq_zero.2 this
          simp only [h8, List.count_nil]
          split <;> omega
        · have : ¬ ((Call.add s.conns.length none == Call.add c none) = true) := by
            simp; omega
          simp only [this, List.count_nil]
          exact h6.1
      · intro hm
        simp only [List.mem_append, List.mem_singleton, Call.add.injEq, and_true] at hm
        rcases hm with hm | hm
        · exact h7 c hm
        · subst hm; rw [h1]; exact ⟨by simp, hof_len (Nat.le_refl _)⟩

theorem L.nocall {s : St} (l : L s) {a : Call} (h : ∃ c, s.conns.length ≤ c ∧ ((∃ h, a = .add c (some h)) ∨
    ∃ h, a = .remove c h)) : s.calls.count a = 0 := by
  obtain ⟨c, hc, ⟨h, rfl⟩ | ⟨h, rfl⟩⟩ := h
  · rw [l.adds, if_neg (by simp [hof_len hc])]
  · rw [l.rems, if_neg (by simp [hof_len hc])]

/-- A new connection that the acceptor takes. -/
theorem L.taken {s t : St} (l : L s) {h : Nat}
    (h1 : t.conns = s.conns ++ [⟨.established, true, some (some h), false⟩])
    (h2 : t.opened = s.opened ++ [s.conns.length])
    (h3 : t.refs = fun i => if i = h then s.refs i + 1 else s.refs i) (h4 : t.closing = s.closing)
    (h5 : t.calls = s.calls ++ [.add s.conns.length (some h)]) : L t := by
  have hh : ∀ d, t.hof d = if d = s.conns.length then some h else s.hof d := fun d => hof_snoc h1 d
  have hlt : ∀ c, c ∈ s.opened ∨ c ∈ s.closing → c ≠ s.conns.length := fun c h => by have := l.lt h; omega
  have hn : s.hof s.conns.length = none := hof_len (Nat.le_refl _)
  constructor
  · rw [h2, h4]
    have := l.nd
    rw [List.nodup_append] at this
    simp only [List.nodup_append, List.mem_append, List.mem_singleton, List.nodup_cons, List.not_mem_nil,
      not_false_eq_true, List.nodup_nil, and_self, true_and]
    refine ⟨⟨this.1, fun a ha b hb => by subst hb; exact hlt a (.inl ha)⟩, this.2.1, ?_⟩
    rintro a (ha | ha) b hb
    · exact this.2.2 a ha b hb
    · subst ha; exact fun e => hlt b (.inr hb) e.symm
  · intro c hc
    rw [h2, List.mem_append, List.mem_singleton] at hc
    rw [h1, get_snoc]
    rcases hc with hc | hc
    · simp only [hlt c (.inl hc), if_false]; exact l.op c hc
    · simp only [hc, if_true]; exact ⟨_, h, rfl, .inl rfl, rfl, rfl, rfl⟩
  · intro c hc
    rw [h4] at hc
    rw [h1, get_snoc]
    simp only [hlt c (.inr hc), if_false]
    exact l.cl c hc
  · intro c y hc hy
    rw [h1, get_snoc] at hc
    rw [h2, h4]
    split at hc
    · left; simp_all
    · rcases l.all c y hc hy with h | h <;> simp [h]
  · intro i
    rw [h3, h2]
    simp only [List.filter_append, List.length_append, hh]
    have e1 : (s.opened.filter (fun c => (if c = s.conns.length then some h else s.hof c) == some i)) =
        s.opened.filter (fun c => s.hof c == some i) := by
      apply List.filter_congr
      intro c hc
      rw [if_neg (hlt c (.inl hc))]
    rw [e1, ← l.refs i]
    by_cases e : i = h
    · subst e; simp
    · have : ¬ h = i := fun e' => e e'.symm
      simp [e, this]
  · intro c i
    rw [h5, List.count_append, List.count_cons, hh]
    by_cases e : c = s.conns.length
    · have := l.nocall (a := .add c (some i)) ⟨c, by omega, .inl ⟨i, rfl⟩⟩
      subst e
      by_cases e2 : h = i
      · subst e2; simp [this]
      · simp [this, e2]
    · have : ¬ ((Call.add s.conns.length (some h) == Call.add c (some i)) = true) := by simp; omega
      simp [e, this, l.adds]
  · intro c i
    rw [h5, List.count_append, List.count_cons, hh, h2]
    have e0 : ¬ ((Call.add s.conns.length (some h) == Call.remove c i) = true) := by simp
    by_cases e : c = s.conns.length
    · have := l.nocall (a := .remove c i) ⟨c, by omega, .inr ⟨i, rfl⟩⟩
      subst e
      simp [this, e0]
    · simp [e, e0, l.rems]
  · intro c
    rw [h5, List.count_append, List.count_cons, hh]
    have e0 : ¬ ((Call.add s.conns.length (some h) == Call.add c none) = true) := by simp
    refine ⟨by simpa [e0] using (l.nones c).1, fun hm => ?_⟩
    simp only [List.mem_append, List.mem_singleton, Call.add.injEq, reduceCtorEq, and_false, or_false] at hm
    have := (l.nones c).2 hm
    have e : ¬ c = s.conns.length := by omega
    rw [if_neg e, h1]
    simp; exact ⟨by omega, this.2⟩

theorem poll_idle {s : St} (f : F s) (h : ¬ (s.polling = false ∨ s.pclosing = true)) :
    s.init = true ∧ s.pclosing = false ∧ s.closed = false ∧ ¬ (s.want = true ∧ s.idle) := by
  simp only [not_or, Bool.not_eq_false, Bool.not_eq_true] at h
  have h1 := f.poll h.1
  have h2 : s.closed = false := by
    cases e : s.closed with
    | false => rfl
    | true => have := (f.don e).2.2.1; simp_all
  refine ⟨h1, h.2, h2, fun ⟨h3, h4⟩ => ?_⟩
  rw [f.wnt, f.chd] at h3
  rcases hr : s.result with _ | _ | _
  · simp [hr] at h3
  · have := (f.res0 hr).1; simp_all
  · have := (f.res1 hr).2.2 h2 h4; simp_all

/-- The flags do not change, a connection may be added. -/
theorem F.more {s t : St} (f : F s) (hi : s.init = true) (hp : s.pclosing = false) (hc : s.closed = false)
    (hw : ¬ (s.want = true ∧ s.idle)) (h0 : t.idle → s.idle) (h1 : t.init = s.init)
    (h2 : t.polling = s.polling)
    (h3 : t.sock = s.sock) (h4 : t.tried = s.tried) (h5 : t.chandler = s.chandler)
    (h6 : t.pclosing = s.pclosing) (h7 : t.want = s.want) (h8 : t.closed = s.closed)
    (h9 : t.result = s.result) (h10 : t.notes = s.notes) : F t := by
  have g11 : t.result = some true → t.notes = (if t.closed then 1 else 0) ∧ (t.closed = false → t.init = true) ∧
      (t.closed = false → t.idle → t.pclosing = true) := by
    intro e
    rw [h9] at e
    have := f.res1 e
    have hww : s.want = true := by rw [f.wnt, f.chd, e]; rfl
    refine ⟨by rw [h10, h8]; exact this.1, fun _ => by rw [h1]; exact hi, fun _ e2 => ?_⟩
    exact absurd ⟨hww, h0 e2⟩ hw
  obtain ⟨f1, f2, f3, f4, f5, f6, f7, f8, f9, f10, f11, f12⟩ := f
  refine ⟨fun _ => by rw [h1]; exact hi, by rw [h1, h2]; exact f2, by rw [h1, h3]; exact f3, by rw [h3, h4]; exact f4,
    by rw [h4, h5]; exact f5, by rw [h6, hp]; simp, by rw [h8, hc]; simp, by rw [h5, h9]; exact f8,
    by rw [h5, h7]; exact f9, by rw [h9, h8, h10]; exact f10, g11, by rw [h9, h10]; exact f12⟩

theorem set_snoc (l : List Conn) (x y : Conn) : (l ++ [x]).set l.length y = l ++ [y] := by
  simp

theorem good_poll {s : St} (I : Inv s) (a : Accept) (ha : a ≠ .refused true) : Good (s.poll a) := by
  obtain ⟨l, f⟩ := I
  simp only [St.poll]
  by_cases h : s.polling = false ∨ s.pclosing = true
  · simp only [if_pos h, Good]
  · rw [if_neg h]
    obtain ⟨hi, hp, hc, hw⟩ := poll_idle f h
    have hlt : ∀ c, c ∈ s.opened ∨ c ∈ s.closing → c ≠ s.conns.length := fun c h => by have := l.lt h; omega
    have n1 : s.conns.length ∉ s.opened := fun e => hlt _ (.inl e) rfl
    have n2 : s.conns.length ∉ s.closing := fun e => hlt _ (.inr e) rfl
    have e1 : s.opened.erase s.conns.length = s.opened := List.erase_of_not_mem n1
    match a with
    | .ignored => exact ⟨l, f⟩
    | .noMem => exact ⟨l, f⟩
    | .noOpen =>
      simp only [St.closeConn, Conn.close, bind, Except.bind, ne_eq, not_true, false_and, if_false, St.set,
        Bool.false_eq_true, set_snoc, e1, Good]
      exact ⟨l.fresh rfl rfl rfl rfl (.inl ⟨rfl, rfl⟩) (.inl rfl),
        f.more hi hp hc hw id rfl rfl rfl rfl rfl rfl rfl rfl rfl rfl⟩
    | .noAccept =>
      simp only [St.terminateConn, n2, Conn.attach, Conn.terminate, Ph.usable, bind, Except.bind, if_false, St.set,
        Bool.false_eq_true, Bool.true_eq_false, Option.isSome_none, reduceCtorEq, set_snoc, e1, Good]
      exact ⟨l.fresh rfl rfl rfl rfl (.inr ⟨rfl, rfl, rfl, rfl, rfl⟩) (.inl rfl),
        f.more hi hp hc hw (fun h => by simp [St.idle] at h) rfl rfl rfl rfl rfl rfl rfl rfl rfl rfl⟩
    | .refused true => exact absurd rfl ha
    | .refused false =>
      simp only [St.terminateConn, n2, Conn.attach, Conn.terminate, Ph.usable, bind, Except.bind, if_false, St.set,
        Bool.false_eq_true, Bool.true_eq_false, Option.isSome_none, reduceCtorEq, set_snoc, e1, Good]
      exact ⟨l.fresh rfl rfl rfl rfl (.inr ⟨rfl, rfl, rfl, rfl, rfl⟩) (.inr rfl),
        f.more hi hp hc hw (fun h => by simp [St.idle] at h) rfl rfl rfl rfl rfl rfl rfl rfl rfl rfl⟩
    | .taken h =>
      simp only [Conn.attach, Ph.usable, bind, Except.bind, if_false,
        Bool.false_eq_true, Bool.true_eq_false, Option.isSome_none, Good]
      exact ⟨l.taken rfl rfl rfl rfl rfl,
        f.more hi hp hc hw (fun h => by simp [St.idle] at h) rfl rfl rfl rfl rfl rfl rfl rfl rfl rfl⟩

theorem nodup_split {s : St} (l : L s) : s.opened.Nodup ∧ s.closing.Nodup ∧ ∀ c ∈ s.opened, c ∉ s.closing := by
  have := List.nodup_append.1 l.nd
  exact ⟨this.1, this.2.1, fun c h1 h2 => this.2.2 c h1 c h2 rfl⟩

/-- A refused connection is terminated: it stays in its list. -/
theorem L.move {s : St} (l : L s) {c : Nat} {x y : Conn} (hx : s.conns[c]? = some x) (hc : c ∈ s.closing)
    (e1 : y.thandler = x.thandler) (e2 : y.ph = .closing) (e3 : y.sem = true) : L (s.set c y) := by
  have hh := hof_set (s := s) (c := c) (y := y) hx e1
  have hg := set_get (s := s) (c := c) (y := y) hx
  obtain ⟨n1, n2, n3⟩ := nodup_split l
  refine ⟨l.nd, ?_, ?_, ?_, ?_, ?_, ?_, ?_⟩
  · intro d hd
    have : c ≠ d := fun e => n3 d hd (e ▸ hc)
    rw [hg, if_neg this]
    exact l.op d hd
  · intro d hd
    rw [hg]
    split
    · exact ⟨y, rfl, .inr ⟨e2, e3⟩⟩
    · exact l.cl d hd
  · intro d z hd hz
    rw [hg] at hd
    split at hd
    · rename_i e; subst e; exact .inr hc
    · exact l.all d z hd hz
  · intro h; simp only [hh]; exact l.refs h
  · intro d h; simp only [hh]; exact l.adds d h
  · intro d h; simp only [hh]; exact l.rems d h
  · intro d
    simp only [hh]
    refine ⟨(l.nones d).1, fun h => ?_⟩
    have := (l.nones d).2 h
    simpa [St.set] using this

/-- A connection of the acceptor is terminated: it goes to the list of closing connections. -/
theorem L.over {s t : St} (l : L s) {c h : Nat} {x y : Conn} (hx : s.conns[c]? = some x) (hc : c ∈ s.opened)
    (e0 : x.thandler = some (some h)) (e1 : y.thandler = x.thandler) (e2 : y.ph = .closing) (e3 : y.sem = true)
    (h1 : t.conns = (s.set c y).conns) (h2 : t.opened = s.opened.erase c) (h3 : t.closing = s.closing ++ [c])
    (h4 : t.refs = fun i => if i = h then s.refs i - 1 else s.refs i)
    (h5 : t.calls = s.calls ++ [.remove c h]) : L t := by
  have hh : ∀ d, t.hof d = s.hof d := by
    intro d
    rw [← hof_set (s := s) (c := c) (y := y) hx e1]
    simp only [St.hof, h1]
  have hg : ∀ d, t.conns[d]? = if c = d then some y else s.conns[d]? := by
    intro d; rw [h1, set_get hx]
  obtain ⟨n1, n2, n3⟩ := nodup_split l
  have hme : ∀ d, d ∈ s.opened.erase c ↔ d ≠ c ∧ d ∈ s.opened := fun d => n1.mem_erase_iff
  have hf : s.hof c = some h := by simp [St.hof, hx, e0]
  constructor
  · rw [h2, h3, List.nodup_append]
    refine ⟨n1.erase c, ?_, ?_⟩
    · rw [List.nodup_append]
      exact ⟨n2, by simp, fun a ha b hb => by simp at hb; subst hb; exact fun e => n3 b hc (e ▸ ha)⟩
    · intro a ha b hb e
      subst e
      rw [hme] at ha
      simp only [List.mem_append, List.mem_singleton] at hb
      rcases hb with hb | hb
      · exact n3 a ha.2 hb
      · exact ha.1 hb
  · intro d hd
    rw [h2, hme] at hd
    rw [hg, if_neg (fun e => hd.1 e.symm)]
    exact l.op d hd.2
  · intro d hd
    rw [h3, List.mem_append, List.mem_singleton] at hd
    rw [hg]
    split
    · exact ⟨y, rfl, .inr ⟨e2, e3⟩⟩
    · rename_i e
      rcases hd with hd | hd
      · exact l.cl d hd
      · exact absurd hd.symm e
  · intro d z hd hz
    rw [hg] at hd
    rw [h2, h3, hme]
    split at hd
    · rename_i e; subst e; right; simp
    · rename_i e
      rcases l.all d z hd hz with h | h
      · exact .inl ⟨fun e' => e e'.symm, h⟩
      · right; simp [h]
  · intro i
    rw [h4, h2]
    simp only [hh]
    have hp := List.perm_cons_erase hc
    have h6 := (hp.filter (fun c => s.hof c == some i)).length_eq
    rw [← l.refs i, List.filter_cons, hf] at h6
    by_cases e : i = h
    · subst e
      simp at h6
      simp only [if_true]
      rw [h6]; simp
    · have : ¬ h = i := fun e' => e e'.symm
      simp only [Option.some_beq_some, beq_iff_eq, this, if_false] at h6
      simp only [e, if_false]
      exact h6
  · intro d i
    rw [h5, List.count_append, List.count_cons, hh]
    simp [l.adds]
  · intro d i
    rw [h5, List.count_append, List.count_cons, hh, h2, l.rems]
    simp only [hme]
    by_cases e : d = c
    · subst e
      by_cases e2 : h = i
      · subst e2; simp [hc, hf]
      · simp [hf, e2, hc]
    · have : ¬ ((Call.remove c h == Call.remove d i) = true) := by simp; intro e'; exact absurd e'.symm e
      simp [this, e]
  · intro d
    rw [h5, List.count_append, List.count_cons, hh]
    have := l.nones d
    refine ⟨by simpa using this.1, fun hm => ?_⟩
    simp at hm
    have := this.2 hm
    simpa [h1, St.set] using this

/-- A connection is closed. -/
theorem L.drop {s t : St} (l : L s) {c : Nat} {x y : Conn} (hx : s.conns[c]? = some x) (hc : c ∈ s.closing)
    (e1 : y.thandler = x.thandler) (e2 : y.ph = .closed)
    (h1 : t.conns = (s.set c y).conns) (h2 : t.opened = s.opened) (h3 : t.closing = s.closing.erase c)
    (h4 : t.refs = s.refs) (h5 : t.calls = s.calls) : L t := by
  have hh : ∀ d, t.hof d = s.hof d := by
    intro d
    rw [← hof_set (s := s) (c := c) (y := y) hx e1]
    simp only [St.hof, h1]
  have hg : ∀ d, t.conns[d]? = if c = d then some y else s.conns[d]? := by
    intro d; rw [h1, set_get hx]
  obtain ⟨n1, n2, n3⟩ := nodup_split l
  have hme : ∀ d, d ∈ s.closing.erase c ↔ d ≠ c ∧ d ∈ s.closing := fun d => n2.mem_erase_iff
  constructor
  · rw [h2, h3, List.nodup_append]
    refine ⟨n1, n2.erase c, fun a ha b hb e => ?_⟩
    subst e
    rw [hme] at hb
    exact n3 a ha hb.2
  · intro d hd
    rw [h2] at hd
    have : c ≠ d := fun e => n3 d hd (e ▸ hc)
    rw [hg, if_neg this]
    exact l.op d hd
  · intro d hd
    rw [h3, hme] at hd
    rw [hg, if_neg (fun e => hd.1 e.symm)]
    exact l.cl d hd.2
  · intro d z hd hz
    rw [hg] at hd
    rw [h2, h3, hme]
    split at hd
    · cases hd; exact absurd e2 hz
    · rename_i e
      rcases l.all d z hd hz with h | h
      · exact .inl h
      · exact .inr ⟨fun e' => e e'.symm, h⟩
  · intro i; rw [h4, h2]; simp only [hh]; exact l.refs i
  · intro d i; rw [h5, hh]; exact l.adds d i
  · intro d i; rw [h5, hh, h2]; exact l.rems d i
  · intro d
    rw [h5, hh]
    refine ⟨(l.nones d).1, fun hm => ?_⟩
    have := (l.nones d).2 hm
    simpa [h1, St.set] using this

theorem L.term_cases {s : St} (l : L s) {c : Nat} {x : Conn} (hx : s.conns[c]? = some x)
    (hp : x.ph = .terminating) :
    (c ∈ s.opened ∧ ∃ h, x.thandler = some (some h) ∧ x.sem = true ∧ x.chandler = false) ∨
      (c ∈ s.closing ∧ x.thandler = some none ∧ x.sem = true ∧ x.chandler = false) := by
  rcases l.all c x hx (by simp [hp]) with h | h
  · left
    obtain ⟨y, i, hy, _, h1, h2, h3⟩ := l.op c h
    rw [hx] at hy; cases hy
    exact ⟨h, i, h1, h2, h3⟩
  · right
    obtain ⟨y, hy, h1⟩ := l.cl c h
    rw [hx] at hy; cases hy
    rcases h1 with h1 | h1
    · exact ⟨h, h1.2⟩
    · rw [hp] at h1; simp at h1

theorem not_idle {s : St} {c : Nat} (h : c ∈ s.opened ∨ c ∈ s.closing) : ¬ s.idle := by
  intro ⟨h1, h2⟩
  rw [h1, h2] at h
  simp at h

theorem good_termDone {s : St} (I : Inv s) (c : Nat) : Good (s.termDone c) := by
  obtain ⟨l, f⟩ := I
  simp only [St.termDone]
  cases hx : s.conns[c]? with
  | none => simp only [Good]
  | some x =>
    by_cases hp : x.ph = .terminating
    · simp only [hp, ne_eq, not_true, if_false]
      obtain ⟨n1, n2, n3⟩ := nodup_split l
      rcases l.term_cases hx hp with ⟨hc, h, h1, h2, h3⟩ | ⟨hc, h1, h2, h3⟩
      · have hcc : c ∉ s.closing := n3 c hc
        have hf : s.hof c = some h := by simp [St.hof, hx, h1]
        have hr : s.refs h ≠ 0 := by
          rw [l.refs h]
          have : c ∈ s.opened.filter (fun d => s.hof d == some h) := by simp [hc, hf]
          intro e
          rw [List.length_eq_zero_iff.1 e] at this
          simp at this
        simp only [h1, St.closeConn, Conn.close, h2, h3, bind, Except.bind, ne_eq, not_true, and_false, if_false,
          Bool.false_eq_true, if_true, St.set, hcc, not_false_eq_true, and_self, hr, Good]
        have hi : ¬ s.idle := not_idle (.inl hc)
        refine ⟨l.over (y := ⟨.closing, true, some (some h), true⟩) hx hc h1 h1.symm rfl rfl rfl rfl rfl rfl rfl,
          f.congr ?_ rfl rfl rfl rfl rfl rfl rfl rfl rfl rfl⟩
        simp [St.idle]
        intro e1 e2
        exact hi ⟨e1, e2⟩
      · have hco : c ∉ s.opened := fun h => n3 c h hc
        simp only [h1, St.closeConn, Conn.close, h2, h3, bind, Except.bind, ne_eq, not_true, and_false, if_false,
          Bool.false_eq_true, if_true, St.set, hc, List.erase_of_not_mem hco, Good]
        exact ⟨(l.move hx hc (y := ⟨.closing, true, some none, true⟩) h1.symm rfl rfl).congr
            rfl rfl rfl rfl rfl,
          f.congr Iff.rfl rfl rfl rfl rfl rfl rfl rfl rfl rfl rfl⟩
    · simp only [hp, ne_eq, not_false_eq_true, if_true, Good]

theorem good_last {s t : St} (l : L t) (f : F s) (hi : ¬ s.idle) (hin : s.init = true)
    (hcl : s.closed = false) (hpc : s.pclosing = false) (h1 : t.init = s.init) (h2 : t.polling = s.polling)
    (h3 : t.sock = s.sock) (h4 : t.tried = s.tried) (h5 : t.chandler = s.chandler)
    (h6 : t.pclosing = s.pclosing) (h7 : t.want = s.want) (h8 : t.closed = s.closed)
    (h9 : t.result = s.result) (h10 : t.notes = s.notes) : Good (.ok t.closeLast) := by
  obtain ⟨f1, f2, f3, f4, f5, f6, f7, f8, f9, f10, f11, f12⟩ := f
  simp only [St.closeLast]
  by_cases hw : t.want = true ∧ t.opened.length + t.closing.length = 0
  · rw [if_pos hw]
    have ho : t.opened = [] := List.length_eq_zero_iff.1 (by omega)
    have hcl' : t.closing = [] := List.length_eq_zero_iff.1 (by omega)
    have hcl2 := h8.trans hcl
    have hin2 := h1.trans hin
    simp only [St.closeServer, hcl2, hin2, Bool.false_eq_true, if_false, Bool.true_eq_false, Good]
    refine ⟨l.congr rfl rfl rfl rfl rfl, ?_⟩
    constructor <;> simp_all [St.idle]
  · rw [if_neg hw]
    refine ⟨l, ?_⟩
    have hw' : t.want = true → ¬ t.idle := by
      intro e1 e2
      exact hw ⟨e1, by rw [e2.1, e2.2]; rfl⟩
    refine ⟨fun _ => h1.trans hin, by rw [h1, h2]; exact f2, by rw [h1, h3]; exact f3, by rw [h3, h4]; exact f4,
      by rw [h4, h5]; exact f5, by simp [h6, hpc], by simp [h8, hcl], by rw [h5, h9]; exact f8,
      by rw [h5, h7]; exact f9, by rw [h8, h9, h10]; exact f10, ?_, by rw [h9, h10]; exact f12⟩
    intro e
    rw [h9] at e
    have := f11 e
    refine ⟨by rw [h8, h10]; exact this.1, fun _ => h1.trans hin, fun _ e2 => ?_⟩
    exact absurd e2 (hw' (by rw [h7, f9, f8, e]; rfl))

theorem good_closeDone {s : St} (I : Inv s) (c : Nat) : Good (s.closeDone c) := by
  obtain ⟨l, f⟩ := I
  simp only [St.closeDone]
  cases hx : s.conns[c]? with
  | none => simp only [Good]
  | some x =>
    by_cases hp : x.ph = .closing
    · simp only [hp, ne_eq, not_true, if_false]
      have hc : c ∈ s.closing := by
        rcases l.all c x hx (by simp [hp]) with h | h
        · obtain ⟨y, i, hy, h1, _⟩ := l.op c h
          rw [hx] at hy; cases hy
          rw [hp] at h1; simp at h1
        · exact h
      have hi : ¬ s.idle := not_idle (.inr hc)
      have hin := f.conn hi
      have hcl : s.closed = false := by
        cases e : s.closed with
        | false => rfl
        | true => exact absurd (f.don e).2.1 hi
      have hpc : s.pclosing = false := by
        cases e : s.pclosing with
        | false => rfl
        | true => exact absurd (f.pcl e).2 hi
      simp only [St.set, hc, not_true, if_false]
      exact good_last (l.drop hx hc (y := ⟨.closed, false, x.thandler, x.chandler⟩) rfl rfl rfl rfl rfl rfl rfl)
        f hi hin hcl hpc rfl rfl rfl rfl rfl rfl rfl rfl rfl rfl
    · simp only [hp, ne_eq, not_false_eq_true, if_true, Good]

theorem good_step {s : St} (I : Inv s) {e : Ev} (h : Legal s e) : Good (s.step e) := by
  simp only [St.step]
  cases s.gone
  · simp only [Bool.false_eq_true, if_false]
    cases e with
    | opn r => exact good_opn I r h
    | poll a => exact good_poll I a h
    | term c =>
      obtain ⟨_, x, h1, h2⟩ := h
      exact good_term I h1 h2
    | termDone c => exact good_termDone I c
    | closeDone c => exact good_closeDone I c
    | close => exact good_close I h.1 h.2.1 h.2.2
    | closeCb => exact good_closeCb I
    | destroy => exact good_destroy I h
  · simp [Good]

theorem reach_inv {s : St} (h : Reach s) : Inv s := by
  induction h with
  | start => exact inv0
  | step _ hl he ih =>
    have := good_step ih hl
    rw [he] at this
    exact this

end Verif.TcpServer
