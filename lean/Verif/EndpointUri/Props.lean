import Verif.EndpointUri.Lemmas

/-! Properties C21 and C59. -/

namespace Verif.EndpointUri

open Verif.Pct (Byte ch isDigit)

theorem exec_port {sub : Subset} {done rest : List Byte} {e e' : Env} {a : Act} (ha : a ≠ .setPort)
    (h : exec sub done rest e a = some e') : e'.uri.port = e.uri.port := by
  cases a with
  | setPort => exact absurd rfl ha
  | protoStart => simp only [exec, Option.some.injEq] at h; rw [← h]
  | hostStart => simp only [exec, Option.some.injEq] at h; rw [← h]
  | portStart => simp only [exec, Option.some.injEq] at h; rw [← h]
  | pathStart => simp only [exec, Option.some.injEq] at h; rw [← h]
  | queryStart => simp only [exec, Option.some.injEq] at h; rw [← h]
  | setProto =>
    simp only [exec] at h
    split_ifs at h
    split at h
    · simp at h
    · simp only [Option.some.injEq] at h
      rw [← h]
      simp only [Uri.setProto]
      split_ifs <;> rfl
  | setHost =>
    simp only [exec, Uri.setHost] at h
    split_ifs at h <;> simp at h
    rw [← h]
  | setPath =>
    simp only [exec, Uri.setEncodedPath] at h
    split_ifs at h with h1
    · simp only [Option.some.injEq] at h; rw [← h]
    · rcases hd : Pct.decode (List.drop e.start done) with ⟨_ | _, d⟩
      · rw [hd] at h; simp at h
      · rw [hd] at h; simp only [Option.some.injEq] at h; rw [← h]
  | setQuery => simp only [exec, Option.some.injEq] at h; rw [← h]; rfl

theorem execAll_port {sub : Subset} {done rest : List Byte} {acts : List Act} (ha : .setPort ∉ acts) {e e' : Env}
    (h : execAll sub done rest acts e = some e') : e'.uri.port = e.uri.port := by
  unfold execAll at h
  have hl : ∀ a ∈ actOrder.filter (fun a => decide (a ∈ acts)), a ≠ .setPort := by
    rintro a hm rfl
    rw [List.mem_filter] at hm
    exact ha (by simpa using hm.2)
  revert h hl
  generalize actOrder.filter (fun a => decide (a ∈ acts)) = l
  induction l generalizing e with
  | nil => intro h _; simp only [List.foldlM_nil, Option.pure_def, Option.some.injEq] at h; rw [h]
  | cons a l ih =>
    intro h hl
    rw [List.foldlM_cons] at h
    cases hx : exec sub done rest e a with
    | none => rw [hx] at h; simp at h
    | some e1 =>
      rw [hx] at h
      rw [ih h (fun b hb => hl b (List.mem_cons_of_mem _ hb)), exec_port (hl a (List.mem_cons_self ..)) hx]

/-- Positions after the port. -/
def late : List St := [.path, .query0, .query]

theorem late_edges : ∀ st ∈ late, ∀ c : Byte, ∀ m ∈ edges st c, m.1 ∈ late ∧ Act.setPort ∉ m.2 := by decide +kernel

theorem late_eof : ∀ st ∈ late, ∀ l ∈ atEof st, Act.setPort ∉ l := by decide +kernel

theorem run_late {sub : Subset} {e' : Env} : ∀ (rest done : List Byte) (ts : List St) (e : Env), (∀ t ∈ ts, t ∈ late) →
    run sub ts e done rest = some e' → e'.uri.port = e.uri.port := by
  intro rest
  induction rest with
  | nil =>
    intro done ts e hts h
    rw [run] at h
    split_ifs at h
    refine execAll_port ?_ h
    rw [List.mem_flatten]
    rintro ⟨l, hl, hm⟩
    obtain ⟨t, ht, e⟩ := List.mem_filterMap.1 hl
    exact late_eof t (hts t ht) l e hm
  | cons c rest ih =>
    intro done ts e hts h
    have hm : ∀ m ∈ (ts.map (edges · c)).flatten, m.1 ∈ late ∧ Act.setPort ∉ m.2 := by
      intro m hm
      obtain ⟨l, hl, hml⟩ := List.mem_flatten.1 hm
      obtain ⟨t, ht, rfl⟩ := List.mem_map.1 hl
      exact late_edges t (hts t ht) c m hml
    rw [run] at h
    split_ifs at h
    split at h
    · simp at h
    · rename_i e1 hx
      rw [ih _ _ _ ?_ h]
      · refine execAll_port ?_ hx
        rw [List.mem_flatten]
        rintro ⟨l, hl, hml⟩
        obtain ⟨m, hmm, rfl⟩ := List.mem_map.1 hl
        exact (hm m hmm).2 hml
      · intro t ht
        obtain ⟨m, hmm, rfl⟩ := List.mem_map.1 ht
        exact (hm m hmm).1

/-- Text of a URI with a port: scheme, host, digits, and then nothing, a path or a query. -/
def withPort (p : Proto) (host digits rest : List Byte) : List Byte :=
  p.scheme ++ str "://" ++ (host ++ (ch ':' :: (digits ++ rest)))

/-- Up to the digits of the port. -/
theorem run_withPort {p : Proto} {h ds rest : List Byte} {t : St} (hh : HostText h t) (hne : ds ≠ [])
    (hd : ∀ c ∈ ds, isDigit c = true) : run .full [.start] ⟨0, Uri.init⟩ [] (withPort p h ds rest) =
      run .full [.port] ⟨(p.scheme ++ str "://" ++ h ++ [ch ':']).length,
        { Uri.init.setProto p with host := h, badHost := false }⟩ (p.scheme ++ str "://" ++ h ++ [ch ':'] ++ ds) rest := by
  unfold withPort
  rw [run_scheme, run_host hh, run_one (hostText_edges hh).1, execAll_one,
    exec_setHost (h := h) (by simp only; rw [List.drop_left]) (hostText_ne hh), Option.bind_some, run_port hne hd]

/-- What a URI with a port gives: the written number, converted to `int`. -/
theorem C21_port_exact {p : Proto} {h ds rest : List Byte} {t : St} (hh : HostText h t) (hne : ds ≠ [])
    (hd : ∀ c ∈ ds, isDigit c = true) (hr : Ends rest) {u : Uri} (hu : parse (withPort p h ds rest) = some u) :
    decimal ds < 2 ^ 63 - 1 ∧ u.port = toInt32 (decimal ds) ∧ -1 ≤ u.port ∧ u.port ≤ 65535 := by
  have hclear : Uri.init.clear .full = Uri.init := rfl
  unfold parse parseInto at hu
  rw [hclear, run_withPort hh hne hd] at hu
  obtain ⟨pre, hpre⟩ : ∃ pre, pre = p.scheme ++ str "://" ++ h ++ [ch ':'] := ⟨_, rfl⟩
  obtain ⟨u0, hu0⟩ : ∃ u0 : Uri, u0 = { Uri.init.setProto p with host := h, badHost := false } := ⟨_, rfl⟩
  rw [← hpre, ← hu0] at hu
  have hex := exec_setPort (e := ⟨pre.length, u0⟩) (pre := pre) rfl hd hr
  -- the action at the end of the port, then only path and query
  have key : ∀ e', run .full [.port] ⟨pre.length, u0⟩ (pre ++ ds) rest = some e' →
      ∃ e1, exec .full (pre ++ ds) rest ⟨pre.length, u0⟩ .setPort = some e1 ∧ e'.uri.port = e1.uri.port := by
    intro e' hrun
    rcases hr with rfl | hs | hs
    · rw [run_eof (acts := [.setPort]) rfl, execAll_one] at hrun
      exact ⟨e', hrun, rfl⟩
    · cases rest with
      | nil => simp at hs
      | cons c rest =>
        simp only [List.head?_cons, Option.some.injEq] at hs
        subst hs
        have e1 : edges .port (ch '/') = [(.path, [.setPort, .pathStart])] := by decide
        rw [run_one e1] at hrun
        cases hx : exec .full (pre ++ ds) (ch '/' :: rest) ⟨pre.length, u0⟩ .setPort with
        | none =>
          rw [execAll_two_none hx] at hrun; simp at hrun
        | some e1 =>
          rw [execAll_two (Or.inr rfl) hx, Option.bind_some] at hrun
          have h := run_late _ _ [.path] _ (by simp [late]) hrun
          exact ⟨e1, rfl, h⟩
    · cases rest with
      | nil => simp at hs
      | cons c rest =>
        simp only [List.head?_cons, Option.some.injEq] at hs
        subst hs
        have e1 : edges .port (ch '?') = [(.query0, [.setPort])] := by decide
        rw [run_one e1, execAll_one] at hrun
        cases hx : exec .full (pre ++ ds) (ch '?' :: rest) ⟨pre.length, u0⟩ .setPort with
        | none => rw [hx] at hrun; simp at hrun
        | some e1 =>
          rw [hx, Option.bind_some] at hrun
          exact ⟨e1, rfl, run_late _ _ [.query0] _ (by simp [late]) hrun⟩
  cases hrun : run .full [.port] ⟨pre.length, u0⟩ (pre ++ ds) rest with
  | none => rw [hrun] at hu; simp at hu
  | some e' =>
    rw [hrun] at hu
    simp only at hu
    split_ifs at hu with hver
    simp only [Option.some.injEq] at hu
    subst hu
    obtain ⟨e1, hx, hp⟩ := key e' hrun
    rw [hex] at hx
    obtain ⟨v, hv⟩ : ∃ v, v = decimal ds := ⟨_, rfl⟩
    rw [← hv] at hx ⊢
    obtain ⟨x, hxe⟩ : ∃ x, x = toInt32 v := ⟨_, rfl⟩
    obtain ⟨big, hbe⟩ : ∃ big : Nat, big = 2 ^ 63 - 1 := ⟨_, rfl⟩
    rw [← hxe, ← hbe] at hx ⊢
    split_ifs at hx with hbig
    rw [hp]
    rcases hsp : u0.setPort x with ⟨u1, _ | _⟩
    · rw [hsp] at hx; simp at hx
    · rw [hsp] at hx
      simp only [Option.some.injEq] at hx
      obtain ⟨q1, q2, q3⟩ := setPort_ok hsp
      rw [← hx]
      exact ⟨Nat.lt_of_not_le hbig, q1, le_of_le_of_eq q2 q1.symm, le_of_eq_of_le q1 q3⟩

theorem toInt32_small {n : Nat} (h : n < 2 ^ 31) : toInt32 n = n := by
  unfold toInt32; omega

/-- **C21** (partial). If the number written is below 2^31, the port of the accepted URI is that number
and lies in 0..65535. For larger numbers see `C21_port_fails`. -/
theorem C21_port_partial {p : Proto} {h ds rest : List Byte} {t : St} (hh : HostText h t) (hne : ds ≠ [])
    (hd : ∀ c ∈ ds, isDigit c = true) (hr : Ends rest) (hsmall : decimal ds < 2 ^ 31) {u : Uri}
    (hu : parse (withPort p h ds rest) = some u) : u.port = decimal ds ∧ decimal ds ≤ 65535 := by
  obtain ⟨_, h2, _, h4⟩ := C21_port_exact hh hne hd hr hu
  rw [toInt32_small hsmall] at h2
  refine ⟨h2, ?_⟩
  generalize decimal ds = v at *
  generalize u.port = x at *
  omega

/-- **C21** fails: a number that does not fit into `int` is cut down. One URI gets port 5, another one is
accepted as a URI without a port. -/
theorem C21_port_fails :
    (∃ u, parse (withPort .rtp (str "h") (str "4294967301") []) = some u ∧ u.port = 5 ∧ decimal (str "4294967301") = 4294967301) ∧
    (∃ u, parse (withPort .rtsp (str "h") (str "4294967295") []) = some u ∧ u.port = -1) := by
  refine ⟨⟨(parse (withPort .rtp (str "h") (str "4294967301") [])).getD Uri.init, ?_, ?_, ?_⟩,
    ⟨(parse (withPort .rtsp (str "h") (str "4294967295") [])).getD Uri.init, ?_, ?_⟩⟩ <;> decide +kernel

example : ∃ u, parse (withPort .rtsp (str "example.org") (str "5004") (str "/a%20b?x=1")) = some u ∧ u.port = 5004 ∧
    u.path = str "/a b" ∧ u.query = str "x=1" := by
  refine ⟨(parse (withPort .rtsp (str "example.org") (str "5004") (str "/a%20b?x=1"))).getD Uri.init, ?_, ?_, ?_, ?_⟩ <;>
    decide +kernel
example : HostText (str "example.org") .host := .name (by decide +kernel) (by decide +kernel)
example : HostText (str "[::1]") .close := .literal (inner := str "::1") (by decide +kernel) (by decide +kernel)
example : parse (withPort .rtp (str "h") (str "65536") []) = none := by decide +kernel

theorem setProto_init (p : Proto) : Uri.init.setProto p =
    { Uri.init with proto := some p, badProto := false, badPort := decide (p.defaultPort ≤ 0),
                    service := if p.defaultPort ≤ 0 then none else some p.defaultPort } := by
  cases p <;> rfl

/-- What a complete URI consists of. -/
theorem verify_full {u : Uri} (h : u.verify .full = true) : u.badProto = false ∧ u.badHost = false ∧ u.badPort = false ∧
    u.badPath = false ∧ u.badQuery = false ∧ ∃ p, u.proto = some p ∧ (u.port < 0 → 0 ≤ p.defaultPort) ∧
      (p.pathSupported = false → u.path = [] ∧ u.query = []) := by
  unfold Uri.verify at h
  simp only at h
  split_ifs at h with h1 h2
  simp only [Bool.or_eq_true, not_or, Bool.not_eq_true] at h1
  cases hp : u.proto with
  | none => rw [hp] at h; simp at h
  | some p =>
    rw [hp] at h
    simp only at h
    split_ifs at h with h3 h4
    refine ⟨h1.1.1.1.1, h1.1.1.1.2, h1.1.1.2, h1.1.2, h1.2, p, rfl, by omega, ?_⟩
    intro hps
    simpa [hps] using h4

/-- A path that can be written in a URI: empty, or from the root. -/
def PathText (s : List Byte) : Prop := (s = [] ∨ s.head? = some (ch '/')) ∧ (0 : Byte) ∉ s

/-- **C59** (partial). A complete URI is formatted to a text that parses to an equal URI. The host has to be
as in the grammar and without `?`, the path has to be absolute, the query must not contain `?` or `#`; a
named host directly followed by a query is excluded. See the `_fails` theorems. -/
theorem C59_roundtrip_partial {u : Uri} {t : St} (hv : u.verify .full = true) (hh : HostText u.host t)
    (hp : -1 ≤ u.port ∧ u.port ≤ 65535) (hpath : PathText u.path) (hq : ∀ c ∈ u.query, isPchar c = true)
    (hx : 0 ≤ u.port ∨ u.path ≠ [] ∨ u.query = [] ∨ t = .close) :
    ∃ s v, u.format .full = some s ∧ parse s = some v ∧ u.isEqual v = true := by
  obtain ⟨f1, f2, f3, f4, f5, p, hpr, hdef, hsup⟩ := verify_full hv
  have henc := Pct.C20_encode .nonPath u.path hpath.2
  have hdec := Pct.C20_roundtrip .nonPath u.path hpath.2
  have hpc := encode_pchar u.path
  have hhd : (Pct.encode .nonPath u.path).2 ≠ [] → (Pct.encode .nonPath u.path).2.head? = some (ch '/') := by
    intro hne
    rcases hpath.1 with h | h
    · rw [h] at hne; simp [Pct.encode] at hne
    · exact encode_head h
  have hempty : (Pct.encode .nonPath u.path).2 = [] → u.path = [] := by
    intro h; rw [h, Pct.decode] at hdec; simpa using (Prod.mk.inj hdec).2.symm
  obtain ⟨pa, hpa⟩ : ∃ pa, pa = (Pct.encode .nonPath u.path).2 := ⟨_, rfl⟩
  have hpathfmt : u.formatPath = some pa := by
    unfold Uri.formatPath
    split_ifs with h
    · rw [hpa, h]; rfl
    · rcases he : Pct.encode .nonPath u.path with ⟨_ | _, x⟩
      · rw [he] at henc; simp at henc
      · rw [hpa, he]
  rw [← hpa] at hdec hpc hhd hempty
  have hfin : ∀ w : Uri, w.badProto = false → w.badHost = false → w.badPort = false → w.badPath = false →
      w.badQuery = false → w.service.isNone = false → w.proto = some p → w.host = u.host → w.port = u.port →
      w.path = u.path → w.query = u.query → w.verify .full = true ∧ u.isEqual w = true := by
    intro w g1 g2 g3 g4 g5 g6 g7 g8 g9 g10 g11
    refine ⟨?_, ?_⟩
    · unfold Uri.verify
      simp only [g1, g2, g3, g4, g5, g6, g7, g9, g10, g11, Bool.or_self, Bool.false_eq_true, if_false]
      rw [if_neg (by omega), if_neg]
      intro hc
      simp only [Bool.and_eq_true, Bool.not_eq_true'] at hc
      obtain ⟨e1, e2⟩ := hsup hc.1
      rw [e1, e2] at hc
      simp at hc
    · unfold Uri.isEqual
      simp [f1, f2, f3, f4, f5, g1, g2, g3, g4, g5, g7, g8, g9, g10, g11, hpr]
  by_cases hport : 0 ≤ u.port
  · obtain ⟨ds, d1, d2, d3, d4⟩ := uintChars_spec (n := u.port.toNat) (by omega)
    have hfmt : u.format .full = some (withPort p u.host ds (pa ++ (if u.query = [] then [] else str "?" ++ u.query))) := by
      unfold Uri.format
      simp only [hv, Bool.not_true, Bool.false_eq_true, if_false, hpr, d1, Option.map_some, reduceCtorEq, false_and, hpathfmt]
      rw [if_pos hport]
      simp only [withPort]
      have : str ":" = [ch ':'] := rfl
      rw [this]
      simp
    obtain ⟨pre, hpre⟩ : ∃ pre, pre = p.scheme ++ str "://" ++ u.host ++ [ch ':'] := ⟨_, rfl⟩
    obtain ⟨u0, hu0⟩ : ∃ u0 : Uri, u0 = { Uri.init.setProto p with host := u.host, badHost := false } := ⟨_, rfl⟩
    have hint : toInt32 (decimal ds) = u.port := by
      rw [d4, toInt32_small (by omega)]; omega
    have hset : u0.setPort u.port = ({ u0 with port := u.port, service := some u.port, badPort := false }, true) := by
      unfold Uri.setPort
      rw [if_neg (by omega), if_neg (by omega)]
    have hex : ∀ rest, Ends rest → exec .full (pre ++ ds) rest ⟨pre.length, u0⟩ .setPort =
        some ⟨pre.length, { u0 with port := u.port, service := some u.port, badPort := false }⟩ := by
      intro rest hr
      rw [exec_setPort (e := ⟨pre.length, u0⟩) (pre := pre) rfl d3 hr, hint]
      simp only [hset]
      rw [if_neg]
      rw [d4]; omega
    obtain ⟨k, hk⟩ := run_tail (t := .port) (Or.inr rfl) hex (by decide) rfl hpc hhd hdec hq (fun _ _ => by decide)
      (by rw [hu0, setProto_init]; rfl) (by rw [hu0, setProto_init]; rfl) (by rw [hu0, setProto_init]; rfl)
      (by rw [hu0, setProto_init]; rfl)
    have hres := hfin { u0 with port := u.port, service := some u.port, badPort := false, path := u.path, query := u.query }
      (by rw [hu0, setProto_init]) (by rw [hu0]) rfl (by rw [hu0, setProto_init]; rfl) (by rw [hu0, setProto_init]; rfl)
      rfl (by rw [hu0, setProto_init]) (by rw [hu0]) rfl rfl rfl
    refine ⟨_, _, hfmt, ?_, hres.2⟩
    unfold parse parseInto
    have hclear : Uri.init.clear .full = Uri.init := rfl
    rw [hclear, run_withPort hh d2 d3, ← hpre, ← hu0, hk]
    simp only
    rw [if_pos hres.1]
  · have hm : u.port = -1 := by omega
    have hdp : 0 < p.defaultPort := by
      have := hdef (by omega)
      cases p <;> first | decide | (simp [Proto.defaultPort] at this)
    have hfmt : u.format .full = some (p.scheme ++ str "://" ++ (u.host ++
        (pa ++ (if u.query = [] then [] else str "?" ++ u.query)))) := by
      unfold Uri.format
      simp only [hv, Bool.not_true, Bool.false_eq_true, if_false, hpr, reduceCtorEq, false_and, hpathfmt]
      rw [if_neg (by omega)]
      simp
    obtain ⟨pre, hpre⟩ : ∃ pre, pre = p.scheme ++ str "://" := ⟨_, rfl⟩
    have hex : ∀ rest, Ends rest → exec .full (pre ++ u.host) rest ⟨pre.length, Uri.init.setProto p⟩ .setHost =
        some ⟨pre.length, { Uri.init.setProto p with host := u.host, badHost := false }⟩ := by
      intro rest _
      exact exec_setHost (h := u.host) (by simp only; rw [List.drop_left]) (hostText_ne hh)
    obtain ⟨k, hk⟩ := run_tail (t := t) (Or.inl rfl) hex (hostText_edges hh).2.1 (hostText_edges hh).2.2.1 hpc hhd hdec hq
      (by
        intro h1 h2
        rcases hx with h | h | h | h
        · exact absurd h hport
        · exact absurd (hempty h1) h
        · exact absurd h h2
        · exact (hostText_edges hh).2.2.2 h)
      (by rw [setProto_init]; rfl) (by rw [setProto_init]; rfl) (by rw [setProto_init]; rfl) (by rw [setProto_init]; rfl)
    have hres := hfin { Uri.init.setProto p with host := u.host, badHost := false, path := u.path, query := u.query }
      (by rw [setProto_init]) rfl (by rw [setProto_init]; simp; omega) (by rw [setProto_init]; rfl)
      (by rw [setProto_init]; rfl) (by rw [setProto_init]; simp only; rw [if_neg (by omega)]; rfl)
      (by rw [setProto_init]) rfl (by rw [setProto_init, hm]; rfl) rfl rfl
    refine ⟨_, _, hfmt, ?_, hres.2⟩
    unfold parse parseInto
    have hclear : Uri.init.clear .full = Uri.init := rfl
    rw [hclear, run_scheme, run_host hh, ← hpre, hk]
    simp only
    rw [if_pos hres.1]

/-- A URI set up through the setters: RTSP, host, optional path and query. -/
def made (host path query : List Byte) : Uri := ((((Uri.init.setProto .rtsp).setHost host).1.setPath path).setQuery query)

/-- **C59** fails for a named host followed by a query: the text `rtsp://host?query` is parsed with the host
`query`. -/
theorem C59_host_query_fails : (made (str "host") [] (str "query")).verify .full = true ∧
    (made (str "host") [] (str "query")).format .full = some (str "rtsp://host?query") ∧
    ∃ v, parse (str "rtsp://host?query") = some v ∧ v.host = str "query" ∧
      (made (str "host") [] (str "query")).isEqual v = false := by
  refine ⟨?_, ?_, (parse (str "rtsp://host?query")).getD Uri.init, ?_, ?_, ?_⟩ <;> decide +kernel

/-- **C59** fails for a relative path, which `set_path` accepts: it becomes a part of the host. -/
theorem C59_path_fails : (made (str "host") (str "abc") []).verify .full = true ∧
    (made (str "host") (str "abc") []).format .full = some (str "rtsp://hostabc") ∧
    ∃ v, parse (str "rtsp://hostabc") = some v ∧ v.host = str "hostabc" ∧
      (made (str "host") (str "abc") []).isEqual v = false := by
  refine ⟨?_, ?_, (parse (str "rtsp://hostabc")).getD Uri.init, ?_, ?_, ?_⟩ <;> decide +kernel

example : (made (str "host") (str "/a b") (str "x=1")).verify .full = true ∧ PathText (str "/a b") ∧
    (made (str "host") (str "/a b") (str "x=1")).format .full = some (str "rtsp://host/a%20b?x=1") := by
  refine ⟨by decide +kernel, ⟨Or.inr (by decide +kernel), by decide +kernel⟩, by decide +kernel⟩

/-- **C59.** Two URIs are equal exactly if all parts of both are valid and protocol, host, port, path and query are the same. -/
theorem C59_equal_iff (u v : Uri) : u.isEqual v = true ↔
    (∀ w ∈ [u, v], w.badProto = false ∧ w.badHost = false ∧ w.badPort = false ∧ w.badPath = false ∧ w.badQuery = false) ∧
      u.proto = v.proto ∧ u.host = v.host ∧ u.port = v.port ∧ u.path = v.path ∧ u.query = v.query := by
  unfold Uri.isEqual
  simp [and_assoc]

/-- Positions from the port on. -/
def tail : List St := [.port, .path, .query0, .query]

theorem tail_edges : ∀ st ∈ tail, ∀ c : Byte, ∀ m ∈ edges st c, m.1 ∈ tail := by decide +kernel

theorem tail_hash : ∀ st ∈ tail, edges st (ch '#') = [] := by decide +kernel

theorem run_hash {sub : Subset} : ∀ (rest done : List Byte) (ts : List St) (e : Env), (∀ t ∈ ts, t ∈ tail) →
    ch '#' ∈ rest → run sub ts e done rest = none := by
  intro rest
  induction rest with
  | nil => intro done ts e _ h; cases h
  | cons c rest ih =>
    intro done ts e hts h
    rw [run]
    split_ifs with hm
    · rfl
    · split
      · rfl
      · rename_i e1 _
        refine ih _ _ _ ?_ ?_
        · intro t ht
          obtain ⟨m, hmm, rfl⟩ := List.mem_map.1 ht
          obtain ⟨l, hl, hml⟩ := List.mem_flatten.1 hmm
          obtain ⟨t, ht, rfl⟩ := List.mem_map.1 hl
          exact tail_edges t (hts t ht) c m hml
        · rcases List.mem_cons.1 h with h | h
          · exfalso
            apply hm
            rw [List.flatten_eq_nil_iff]
            intro l hl
            obtain ⟨t, ht, rfl⟩ := List.mem_map.1 hl
            rw [← h]
            exact tail_hash t (hts t ht)
          · exact h

/-- **C59.** A URI with a fragment is rejected: `#` after the port, or after the slash that begins the path. -/
theorem C59_no_fragment {p : Proto} {h ds rest : List Byte} {t : St} (hh : HostText h t) (hr : ch '#' ∈ rest) :
    (ds ≠ [] → (∀ c ∈ ds, isDigit c = true) → parse (withPort p h ds rest) = none) ∧
      parse (p.scheme ++ str "://" ++ (h ++ (ch '/' :: rest))) = none := by
  have hclear : Uri.init.clear .full = Uri.init := rfl
  constructor
  · intro hne hd
    unfold parse parseInto
    rw [hclear, run_withPort hh hne hd, run_hash _ _ _ _ (by simp [tail]) hr]
  · unfold parse parseInto
    rw [hclear, run_scheme, run_host hh, run_one (hostText_edges hh).2.1]
    cases execAll .full (p.scheme ++ str "://" ++ h) (ch '/' :: rest) [.setHost, .pathStart] ⟨(p.scheme ++ str "://").length, Uri.init.setProto p⟩ with
    | none => rfl
    | some e =>
      rw [Option.bind_some, run_hash _ _ _ _ (by simp [tail]) hr]

example : HostText (str "h") .host ∧ ch '#' ∈ str "/a#b" ∧ (parse (withPort .rtsp (str "h") (str "1") (str "/ab"))).isSome = true :=
  ⟨.name (by decide +kernel) (by decide +kernel), by decide +kernel, by decide +kernel⟩
example : ∃ u v, parse (str "rtsp://h:1/a") = some u ∧ parse (str "rtsp://h:2/a") = some v ∧ u.isEqual v = false ∧ u.isEqual u = true :=
  ⟨(parse (str "rtsp://h:1/a")).getD Uri.init, (parse (str "rtsp://h:2/a")).getD Uri.init, by decide +kernel, by decide +kernel, by decide +kernel, by decide +kernel⟩

end Verif.EndpointUri
