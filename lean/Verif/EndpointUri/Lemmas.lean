import Verif.EndpointUri.Model
import Verif.Pct.Props
import Verif.StringBuilder.Props
import Mathlib.Tactic.SplitIfs

/-! Runs of the URI automaton on the parts of a URI. -/

namespace Verif.EndpointUri

open Verif.Pct (Byte ch isDigit)

theorem run_one {sub : Subset} {st st' : St} {acts : List Act} {e : Env} {done rest : List Byte} {c : Byte}
    (h : edges st c = [(st', acts)]) : run sub [st] e done (c :: rest) =
      (execAll sub done (c :: rest) acts e).bind fun e => run sub [st'] e (done ++ [c]) rest := by
  rw [run]
  simp only [List.map_cons, List.map_nil, h, List.flatten_cons, List.flatten_nil, List.append_nil, reduceCtorEq, if_false]
  rcases execAll sub done (c :: rest) acts e <;> rfl

theorem execAll_nil (sub : Subset) (done rest : List Byte) (e : Env) : execAll sub done rest [] e = some e := by
  unfold execAll
  have : (actOrder.filter fun a => decide (a ∈ ([] : List Act))) = [] := by decide
  rw [this]; rfl

theorem run_seg {sub : Subset} {st : St} {e : Env} {rest : List Byte} : ∀ (seg done : List Byte),
    (∀ c ∈ seg, edges st c = [(st, [])]) → run sub [st] e done (seg ++ rest) = run sub [st] e (done ++ seg) rest := by
  intro seg
  induction seg with
  | nil => intro done _; simp
  | cons c seg ih =>
    intro done h
    rw [List.cons_append, run_one (h c (List.mem_cons_self ..)), execAll_nil, Option.bind_some,
      ih _ (fun c hc => h c (List.mem_cons_of_mem _ hc))]
    simp

theorem run_eof {sub : Subset} {st : St} {e : Env} {done : List Byte} {acts : List Act} (h : atEof st = some acts) :
    run sub [st] e done [] = execAll sub done [] acts e := by
  rw [run]
  simp [h]

/-- The scheme. -/
theorem run_scheme (sub : Subset) (p : Proto) (u : Uri) (more : List Byte) :
    run sub [.start] ⟨0, u⟩ [] (p.scheme ++ str "://" ++ more) =
      run sub [.slash2] ⟨0, u.setProto p⟩ (p.scheme ++ str "://") more := by
  cases p <;> rfl

/-- A host as the grammar wants it, without `?`. -/
inductive HostText : List Byte → St → Prop where
  | literal {inner : List Byte} : inner ≠ [] → (∀ c ∈ inner, isInner c = true) →
      HostText (ch '[' :: (inner ++ [ch ']'])) .close
  | name {h : List Byte} : h ≠ [] → (∀ c ∈ h, isHost c = true ∧ c ≠ ch '?') → HostText h .host

theorem run_host {sub : Subset} {k : Nat} {u : Uri} {done more h : List Byte} {t : St} (hh : HostText h t) :
    run sub [.slash2] ⟨k, u⟩ done (h ++ more) = run sub [t] ⟨done.length, u⟩ (done ++ h) more := by
  cases hh with
  | @literal inner hne hall =>
    cases inner with
    | nil => exact absurd rfl hne
    | cons a inner =>
      have e1 : edges .slash2 (ch '[') = [(.open_, [.hostStart])] := by decide
      rw [List.cons_append, run_one e1]
      have ea : execAll sub done (ch '[' :: (a :: inner ++ [ch ']'] ++ more)) [.hostStart] ⟨k, u⟩ = some ⟨done.length, u⟩ := rfl
      rw [ea, Option.bind_some]
      have e2 : edges .open_ a = [(.inner, [])] := by
        simp only [edges, hall a (List.mem_cons_self ..), if_true]
      rw [List.cons_append, List.cons_append, run_one e2, execAll_nil, Option.bind_some, List.append_assoc inner,
        run_seg inner _ (fun c hc => by simp only [edges, hall c (List.mem_cons_of_mem _ hc), if_true])]
      have e3 : edges .inner (ch ']') = [(.close, [])] := by decide
      rw [List.singleton_append, run_one e3, execAll_nil, Option.bind_some]
      simp
  | name hne hall =>
    cases h with
    | nil => exact absurd rfl hne
    | cons a h =>
      have hx : ∀ c, isHost c = true → c ≠ ch '[' := by decide +kernel
      have ha := (hall a (List.mem_cons_self ..)).1
      have e1 : edges .slash2 a = [(.host, [.hostStart])] := by
        simp only [edges, hx a ha, ha, if_true, if_false]
      rw [List.cons_append, run_one e1]
      have ea : execAll sub done (a :: (h ++ more)) [.hostStart] ⟨k, u⟩ = some ⟨done.length, u⟩ := rfl
      rw [ea, Option.bind_some]
      have hy : ∀ c, isHost c = true ∧ c ≠ ch '?' → edges .host c = [(.host, [])] := by decide +kernel
      rw [run_seg h _ (fun c hc => hy c (hall c (List.mem_cons_of_mem _ hc)))]
      simp

theorem hostText_ne {h : List Byte} {t : St} (hh : HostText h t) : h ≠ [] := by
  cases hh with
  | literal => simp
  | name h1 => exact h1

theorem hostText_edges {h : List Byte} {t : St} (hh : HostText h t) : edges t (ch ':') = [(.portColon, [.setHost])] ∧
    edges t (ch '/') = [(.path, [.setHost, .pathStart])] ∧ atEof t = some [.setHost] ∧
    (t = .close → edges t (ch '?') = [(.query0, [.setHost])]) := by
  cases hh with
  | literal => decide
  | name => decide

theorem exec_setHost {e : Env} {done rest h : List Byte} (hs : done.drop e.start = h) (hne : h ≠ []) :
    exec .full done rest e .setHost = some { e with uri := { e.uri with host := h, badHost := false } } := by
  simp only [exec, ne_eq, not_true_eq_false, if_false, Uri.setHost, hs, if_neg hne]

/-- The port. -/
theorem run_port {sub : Subset} {k : Nat} {u : Uri} {done more ds : List Byte} (hne : ds ≠ [])
    (hd : ∀ c ∈ ds, isDigit c = true) :
    run sub [.portColon] ⟨k, u⟩ done (ds ++ more) = run sub [.port] ⟨done.length, u⟩ (done ++ ds) more := by
  cases ds with
  | nil => exact absurd rfl hne
  | cons a ds =>
    have e1 : edges .portColon a = [(.port, [.portStart])] := by
      simp only [edges, hd a (List.mem_cons_self ..), if_true]
    rw [List.cons_append, run_one e1]
    have ea : execAll sub done (a :: (ds ++ more)) [.portStart] ⟨k, u⟩ = some ⟨done.length, u⟩ := rfl
    rw [ea, Option.bind_some, run_seg ds _ (fun c hc => by
      simp only [edges, hd c (List.mem_cons_of_mem _ hc), if_true])]
    simp

/-- What may follow the port. -/
def Ends (rest : List Byte) : Prop := rest = [] ∨ rest.head? = some (ch '/') ∨ rest.head? = some (ch '?')

theorem takeWhile_ends {ds rest : List Byte} (hd : ∀ c ∈ ds, isDigit c = true) (hr : Ends rest) :
    (ds ++ rest).takeWhile isDigit = ds := by
  induction ds with
  | nil =>
    cases rest with
    | nil => rfl
    | cons c rest =>
      have hc : isDigit c = false := by
        rcases hr with h | h | h
        · simp at h
        · simp only [List.head?_cons, Option.some.injEq] at h; subst h; decide
        · simp only [List.head?_cons, Option.some.injEq] at h; subst h; decide
      simp [hc]
  | cons a ds ih =>
    rw [List.cons_append, List.takeWhile_cons, if_pos (hd a (List.mem_cons_self ..)),
      ih (fun c hc => hd c (List.mem_cons_of_mem _ hc))]

theorem exec_setPort {e : Env} {pre rest ds : List Byte} (hs : e.start = pre.length) (hd : ∀ c ∈ ds, isDigit c = true)
    (hr : Ends rest) : exec .full (pre ++ ds) rest e .setPort =
      if decimal ds ≥ 2 ^ 63 - 1 then none
      else match e.uri.setPort (toInt32 (decimal ds)) with
        | (_, false) => none
        | (u, true) => some { e with uri := u } := by
  have hdrop : (pre ++ ds ++ rest).drop e.start = ds ++ rest := by
    rw [hs, List.append_assoc, List.drop_left]
  obtain ⟨v, hv⟩ : ∃ v, v = decimal ds := ⟨_, rfl⟩
  simp only [exec, ne_eq, not_true_eq_false, if_false, hdrop, strtol, takeWhile_ends hd hr, ← hv]
  have h3 : ¬ (e.start + ds.length ≠ (pre ++ ds).length) := by rw [List.length_append, hs]; simp
  by_cases h : v ≥ 2 ^ 63 - 1
  · rw [if_pos h, if_pos]
    left
    split_ifs <;> omega
  · rw [if_neg h, if_neg (c := v > 2 ^ 63 - 1) (by omega), if_neg (by
      rw [not_or, not_or]
      exact ⟨by omega, by omega, h3⟩)]
    rcases e.uri.setPort (toInt32 v) with ⟨u, _ | _⟩ <;> rfl

theorem execAll_two {sub : Subset} {done rest : List Byte} {e e1 : Env} {A : Act} (hA : A = .setHost ∨ A = .setPort)
    (h : exec sub done rest e A = some e1) :
    execAll sub done rest [A, .pathStart] e = some { e1 with start := done.length } := by
  rcases hA with rfl | rfl
  · have : (actOrder.filter fun a => decide (a ∈ [Act.setHost, .pathStart])) = [.setHost, .pathStart] := by decide
    unfold execAll
    rw [this, List.foldlM_cons, h]; rfl
  · have : (actOrder.filter fun a => decide (a ∈ [Act.setPort, .pathStart])) = [.setPort, .pathStart] := by decide
    unfold execAll
    rw [this, List.foldlM_cons, h]; rfl

theorem execAll_two_none {sub : Subset} {done rest : List Byte} {e : Env}
    (h : exec sub done rest e .setPort = none) : execAll sub done rest [.setPort, .pathStart] e = none := by
  have : (actOrder.filter fun a => decide (a ∈ [Act.setPort, .pathStart])) = [.setPort, .pathStart] := by decide
  unfold execAll
  rw [this, List.foldlM_cons, h]; rfl

theorem setPort_ok {u u' : Uri} {x : Int} (h : u.setPort x = (u', true)) : u'.port = x ∧ -1 ≤ x ∧ x ≤ 65535 := by
  unfold Uri.setPort at h
  split_ifs at h with h1 h2
  · refine ⟨?_, by omega, by omega⟩
    simp only at h
    split at h
    · split_ifs at h <;> (simp only [Prod.mk.injEq, and_true] at h; rw [← h, h1])
    · simp only [Prod.mk.injEq, and_true] at h; rw [← h, h1]
  · simp at h
  · simp only [Prod.mk.injEq, and_true] at h
    rw [← h]
    exact ⟨rfl, by omega, by omega⟩

theorem execAll_one (sub : Subset) (done rest : List Byte) (e : Env) (A : Act) :
    execAll sub done rest [A] e = exec sub done rest e A := by
  have : (actOrder.filter fun a => decide (a ∈ [A])) = [A] := by cases A <;> decide
  unfold execAll
  rw [this, List.foldlM_cons]
  rcases exec sub done rest e A <;> rfl

/-- The query, up to the end. -/
theorem run_query {sub : Subset} {e : Env} {done q : List Byte} (hne : q ≠ []) (hq : ∀ c ∈ q, isPchar c = true) :
    run sub [.query0] e done q = some ⟨done.length, e.uri.setQuery q⟩ := by
  cases q with
  | nil => exact absurd rfl hne
  | cons a q =>
    have e1 : edges .query0 a = [(.query, [.queryStart])] := by
      simp only [edges, hq a (List.mem_cons_self ..), if_true]
    rw [run_one e1]
    have ea : execAll sub done (a :: q) [.queryStart] e = some { e with start := done.length } := rfl
    rw [ea, Option.bind_some]
    have hseg := run_seg (sub := sub) (st := .query) (e := { e with start := done.length }) (rest := []) q (done ++ [a])
      (fun c hc => by simp only [edges, hq c (List.mem_cons_of_mem _ hc), if_true])
    rw [List.append_nil] at hseg
    rw [hseg, run_eof (acts := [.setQuery]) rfl, execAll_one]
    simp [exec]

/-- The path and query after the host or the port, up to the end. -/
theorem run_tail {t : St} {A : Act} {e e1 : Env} {done pa q d : List Byte} (hA : A = .setHost ∨ A = .setPort)
    (hex : ∀ rest, Ends rest → exec .full done rest e A = some e1)
    (hsl : edges t (ch '/') = [(.path, [A, .pathStart])]) (heof : atEof t = some [A])
    (hpa : ∀ c ∈ pa, isPchar c = true) (hhead : pa ≠ [] → pa.head? = some (ch '/')) (hdec : Pct.decode pa = (true, d))
    (hq : ∀ c ∈ q, isPchar c = true) (hqm : pa = [] → q ≠ [] → edges t (ch '?') = [(.query0, [A])])
    (h1 : e1.uri.path = []) (h2 : e1.uri.query = []) (h3 : e1.uri.badPath = false) (h4 : e1.uri.badQuery = false) :
    ∃ k, run .full [t] e done (pa ++ (if q = [] then [] else str "?" ++ q)) =
      some ⟨k, { e1.uri with path := d, query := q }⟩ := by
  have hstr : str "?" = [ch '?'] := rfl
  cases pa with
  | nil =>
    have hd : d = [] := by
      rw [Pct.decode] at hdec
      simpa using (Prod.mk.inj hdec).2.symm
    subst hd
    rw [List.nil_append]
    by_cases hqn : q = []
    · subst hqn
      rw [if_pos rfl, run_eof heof, execAll_one, hex [] (Or.inl rfl)]
      refine ⟨e1.start, ?_⟩
      rcases e1 with ⟨k, u⟩
      rcases u
      simp only at h1 h2
      rw [h1, h2]
    · rw [if_neg hqn, hstr, List.singleton_append, run_one (hqm rfl hqn), execAll_one, hex _ (Or.inr (Or.inr rfl)),
        Option.bind_some, run_query hqn hq]
      refine ⟨(done ++ [ch '?']).length, ?_⟩
      rcases e1 with ⟨k, u⟩
      rcases u
      simp only at h1 h4
      rw [h1, h4]; rfl
  | cons a pa =>
    have ha : a = ch '/' := by simpa using hhead (by simp)
    subst ha
    rw [List.cons_append, run_one hsl, execAll_two hA (hex _ (Or.inr (Or.inl rfl))), Option.bind_some,
      run_seg pa _ (fun c hc => by simp only [edges, hpa c (List.mem_cons_of_mem _ hc), if_true])]
    have hpath : ∀ rest, exec .full (done ++ [ch '/'] ++ pa) rest { e1 with start := done.length } .setPath =
        some ⟨done.length, { e1.uri with path := d }⟩ := by
      intro rest
      have hdrop : (done ++ [ch '/'] ++ pa).drop done.length = ch '/' :: pa := by
        rw [List.append_assoc, List.drop_left]; rfl
      simp only [exec, hdrop, Uri.setEncodedPath, hdec, List.length_cons]
      rw [if_neg (by omega)]
      simp only
      rw [← h3]
    by_cases hqn : q = []
    · subst hqn
      rw [if_pos rfl, run_eof (acts := [.setPath]) rfl, execAll_one, hpath]
      refine ⟨done.length, ?_⟩
      rw [← h2]
    · have e3 : edges .path (ch '?') = [(.query0, [.setPath])] := by decide
      rw [if_neg hqn, hstr, List.singleton_append, run_one e3, execAll_one, hpath, Option.bind_some, run_query hqn hq]
      refine ⟨(done ++ [ch '/'] ++ pa ++ [ch '?']).length, ?_⟩
      rcases e1 with ⟨k, u⟩
      rcases u
      simp only at h4
      rw [h4]; rfl

theorem seg_pchar : ∀ c : Byte, Pct.isSegmentChar c = true → isPchar c = true := by decide +kernel

theorem hex_pchar : ∀ n : Fin 16, isPchar (Pct.toHex n.val) = true := by decide +kernel

theorem toHex_pchar (n : Nat) : isPchar (Pct.toHex n) = true := by
  have := hex_pchar ⟨n % 16, Nat.mod_lt _ (by decide)⟩
  unfold Pct.toHex at *
  simpa using this

theorem encode_pchar (s : List Byte) : ∀ c ∈ (Pct.encode .nonPath s).2, isPchar c = true := by
  induction s with
  | nil => intro c hc; simp [Pct.encode] at hc
  | cons a s ih =>
    intro c hc
    rw [Pct.encode] at hc
    split_ifs at hc with h1 h2
    · simp at hc
    · simp only [List.mem_cons] at hc
      rcases hc with rfl | hc
      · exact seg_pchar _ h2
      · exact ih c hc
    · simp only [List.mem_cons] at hc
      rcases hc with rfl | rfl | rfl | hc
      · decide
      · exact toHex_pchar _
      · exact toHex_pchar _
      · exact ih c hc

theorem encode_head {s : List Byte} (h : s.head? = some (ch '/')) :
    (Pct.encode .nonPath s).2.head? = some (ch '/') := by
  cases s with
  | nil => simp at h
  | cons a s =>
    simp only [List.head?_cons, Option.some.injEq] at h
    subst h
    rw [Pct.encode]
    have h1 : ch '/' ≠ 0 := by decide
    have h2 : Pct.skipEncoding .nonPath (ch '/') = true := by decide
    rw [if_neg h1, if_pos h2]
    rfl

theorem table_digit : ∀ n : Fin 10, isDigit (Verif.StringBuilder.digitTable.getD n.val 0) = true := by decide +kernel

theorem digitLoop_digits : ∀ (room n : Nat) (acc ds : List Byte), (∀ c ∈ acc, isDigit c = true) →
    Verif.StringBuilder.digitLoop 10 room n acc = some ds → ∀ c ∈ ds, isDigit c = true := by
  intro room
  induction room with
  | zero => intro n acc ds _ h; simp [Verif.StringBuilder.digitLoop] at h
  | succ room ih =>
    intro n acc ds hacc h
    rw [Verif.StringBuilder.digitLoop] at h
    have hnew : ∀ c ∈ Verif.StringBuilder.digitTable.getD (n % 10) 0 :: acc, isDigit c = true := by
      intro c hc
      rcases List.mem_cons.1 hc with rfl | hc
      · exact table_digit ⟨n % 10, Nat.mod_lt _ (by decide)⟩
      · exact hacc c hc
    split_ifs at h
    · exact ih _ _ _ hnew h
    · simp only [Option.some.injEq] at h
      subst h
      exact hnew

theorem digit_lt : ∀ c : Byte, isDigit c = true → c.val < 65 := by decide +kernel

theorem value_decimal (ds : List Byte) (h : ∀ c ∈ ds, isDigit c = true) : Verif.StringBuilder.value 10 ds = decimal ds := by
  unfold Verif.StringBuilder.value decimal
  suffices ∀ a, ds.foldl (fun acc c => acc * 10 + Verif.StringBuilder.digitValue c) a =
      ds.foldl (fun v d => v * 10 + (d.val - 48)) a from this 0
  induction ds with
  | nil => intro a; rfl
  | cons c ds ih =>
    intro a
    simp only [List.foldl_cons]
    rw [ih (fun c hc => h c (List.mem_cons_of_mem _ hc))]
    have : Verif.StringBuilder.digitValue c = c.val - 48 := by
      unfold Verif.StringBuilder.digitValue
      rw [if_pos (digit_lt c (h c (List.mem_cons_self ..)))]
    rw [this]

/-- The digits of a port. -/
theorem uintChars_spec {n : Nat} (hn : n ≤ 65535) : ∃ ds, Verif.StringBuilder.uintChars n 10 = some ds ∧ ds ≠ [] ∧
    (∀ c ∈ ds, isDigit c = true) ∧ decimal ds = n := by
  obtain ⟨ds, h1, h2, h3, h4⟩ := Verif.StringBuilder.C55_number n 10 (by omega) (by omega) (by omega)
  have hd : ∀ c ∈ ds, isDigit c = true := by
    unfold Verif.StringBuilder.uintChars at h1
    rw [if_pos (by omega)] at h1
    exact digitLoop_digits _ _ _ _ (by simp) h1
  refine ⟨ds, h1, ?_, hd, by rw [← value_decimal ds hd]; exact h2⟩
  intro e
  subst e
  by_cases h0 : n = 0
  · have := h4 h0; simp at this
  · simp [Verif.StringBuilder.value] at h2; omega

end Verif.EndpointUri
