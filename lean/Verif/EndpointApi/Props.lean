import Verif.EndpointApi.Inv

/-!
# C119: public API of endpoints

For all sequences of setters with all arguments, all buffers.
-/

namespace Verif.EndpointApi

open Verif.Pct (Byte ch isDigit)
open Verif.EndpointUri (Proto Uri Subset St Act Env edges atEof actOrder findScheme str)
open Verif.StringBuilder (HoldsCString)

/-- **C119 (results)**: every setter succeeds exactly if its argument is good, whatever was set before. -/
theorem C119_results (u : Uri) (x : Ep) (c : Call) : (step u c).2 = (x.step c).2 := by
  cases c with
  | setUri s =>
    cases s with
    | none => rfl
    | some s =>
      simp only [step, Ep.step, Option.bind_some]
      rcases parse_full u s with ⟨v, h1, h2, _⟩ | ⟨h1, v, h2⟩ <;> rw [h1, h2]
  | setProtocol p => cases p <;> rfl
  | setHost s =>
    cases s with
    | none => rfl
    | some s => cases s <;> rfl
  | setPort n =>
    simp only [step, Ep.step, Uri.setPort]
    by_cases h1 : n = -1
    · rw [if_pos h1, if_pos h1]
      simp only
      split
      · split <;> rfl
      · rfl
    · rw [if_neg h1, if_neg h1]
      by_cases h2 : 0 ≤ n ∧ n ≤ 65535
      · rw [if_pos h2, if_neg (by omega)]
      · rw [if_neg h2, if_pos (by omega)]
  | setResource s =>
    cases s with
    | none => rfl
    | some s =>
      simp only [step, Ep.step]
      rcases parse_resource u s with ⟨r, h1, h2⟩ | ⟨h1, v, h2, _⟩ <;> rw [h1, h2]

theorem sim_fold {st : Prop} : ∀ (cs : List Call) (u : Uri) (x : Ep), Sim st u x → UI u → Clean cs → (st → Ordered x cs) →
    Sim st (cs.foldl (fun u c => (step u c).1) u) (cs.foldl (fun x c => (x.step c).1) x)
  | [], _, _, h, _, _, _ => h
  | c :: cs, u, x, h, hu, hc, ho => by
    rw [List.foldl_cons, List.foldl_cons]
    refine sim_fold cs _ _ (h.step hu c (fun s hs => hc s (by rw [hs]; exact List.mem_cons_self)) fun hst => (ho hst).1)
      (hu.step c) (fun s hs => hc s (List.mem_cons_of_mem _ hs)) fun hst => (ho hst).2

theorem sim_after {cs : List Call} (hc : Clean cs) : Sim (Ordered Ep.init cs) (after cs) (Ep.after cs) :=
  sim_fold cs _ _ (Sim.init _) UI.init hc (fun h => h)

theorem ui_after (cs : List Call) : UI (after cs) := by
  unfold after
  have : ∀ (cs : List Call) (u : Uri), UI u → UI (cs.foldl (fun u c => (step u c).1) u) := by
    intro cs
    induction cs with
    | nil => intro u h; exact h
    | cons c cs ih => intro u h; rw [List.foldl_cons]; exact ih _ (h.step c)
  exact this cs _ UI.init

/-- Value of a field, if it has one. -/
def Field.get {α : Type} : Field α → Option α
  | .val a => some a
  | _ => none

/-- **C119 (getters)**: protocol, port and host are what was set last, if that was good, and otherwise not there. -/
theorem C119_getters (cs : List Call) (hc : Clean cs) :
    getProtocol (after cs) = (Ep.after cs).proto.get ∧ getPort (after cs) = (Ep.after cs).port.get
      ∧ hostPieces (after cs) = match (Ep.after cs).host with
        | .val h => ([h], true)
        | _ => ([], false) := by
  have h := sim_after hc
  refine ⟨?_, ?_, ?_⟩
  · unfold getProtocol
    cases hp : (Ep.after cs).proto with
    | val p => obtain ⟨h1, h2⟩ := h.pv p hp; rw [h1, h2]; rfl
    | unset => rw [h.pn (by rw [hp]; simp)]; rfl
    | invalid => rw [h.pn (by rw [hp]; simp)]; rfl
  · unfold getPort
    cases hp : (Ep.after cs).port with
    | val n =>
      obtain ⟨h1, h2, h3⟩ := h.tv n hp
      rw [if_neg (by rw [h1, h2]; simp; omega), h2]; rfl
    | unset => rw [if_pos (Or.inr (h.tu hp).1)]; rfl
    | invalid => rw [if_pos (h.ti hp)]; rfl
  · unfold hostPieces
    cases hp : (Ep.after cs).host with
    | val a => obtain ⟨h1, h2⟩ := h.hv a hp; rw [h1, h2]; rfl
    | unset => rw [h.hn (by rw [hp]; simp)]; rfl
    | invalid => rw [h.hn (by rw [hp]; simp)]; rfl

theorem verify_eq (u : Uri) : u.verify .full = true ↔ u.badProto = false ∧ u.badHost = false ∧ u.badPort = false
    ∧ u.badPath = false ∧ u.badQuery = false ∧ u.service.isNone = false
    ∧ ∃ p, u.proto = some p ∧ ¬ (u.port < 0 ∧ p.defaultPort < 0) ∧ (p.pathSupported = true ∨ (u.path = [] ∧ u.query = [])) := by
  obtain ⟨b1, b2, b3, b4, b5, pr, ho, po, se, pa, qu⟩ := u
  simp only [Uri.verify]
  cases b1 <;> cases b2 <;> cases b3 <;> cases b4 <;> cases b5 <;> simp
  cases pr with
  | none => simp
  | some p =>
    cases se with
    | none => simp
    | some s =>
      simp only [Option.some.injEq, exists_eq_left']
      have : (0 ≤ po ∨ 0 ≤ p.defaultPort) ↔ (po < 0 → 0 ≤ p.defaultPort) := by omega
      cases p.pathSupported <;> simp [this]

/-- **C119 (safe to use)**: an endpoint without invalid or missing fields is accepted by bind and connect. -/
theorem C119_accept (cs : List Call) (hc : Clean cs) (hx : (Ep.after cs).complete) : accepted (after cs) = true := by
  have h := sim_after hc
  have hu := ui_after cs
  obtain ⟨p, ho, r, h1, h2, h3, h4, h5⟩ := hx
  obtain ⟨p1, p2⟩ := h.pv p h1
  obtain ⟨q1, q2⟩ := h.hv ho h2
  obtain ⟨r1, r2, r3, r4⟩ := h.rv r h3
  have hb : (after cs).badPort = false := by
    rcases h4 with ⟨n, h4⟩ | ⟨h4, h6⟩
    · exact (h.tv n h4).1
    · exact (h.tu h4).2 p1 p p2 h6
  have hpa : p.pathSupported = true ∨ ((after cs).path = [] ∧ (after cs).query = []) := by
    rcases h5 with h5 | h5
    · exact Or.inl h5
    · right; rw [r3, r4, h5]; exact ⟨rfl, rfl⟩
  unfold accepted
  rw [verify_eq]
  refine ⟨p1, q1, hb, r1, r2, ?_, p, p2, ?_, hpa⟩
  · rcases hu.num hb with h6 | h6
    · rw [(hu.std h6 hb p1 p p2).1]; rfl
    · rw [h6.2.2]; rfl
  · rcases hu.num hb with h6 | h6
    · have := (hu.std h6 hb p1 p p2).2; omega
    · omega

/-- **C119 (safe to ignore errors)**, part: bind and connect accept an endpoint exactly if no field is invalid or missing,
if the protocol is never set while the port is invalid and no resource begins like a URI. Missing: see `C119_port_fails` and
`C119_resource_fails`. -/
theorem C119_accept_partial (cs : List Call) (hc : Clean cs) (ho : Ordered Ep.init cs) :
    accepted (after cs) = true ↔ (Ep.after cs).complete := by
  constructor
  · intro ha
    have h := sim_after hc
    have hu := ui_after cs
    unfold accepted at ha
    rw [verify_eq] at ha
    obtain ⟨b1, b2, b3, b4, b5, _, p, hp, hd, hpa⟩ := ha
    have hpv : (Ep.after cs).proto = .val p := by
      cases hh : (Ep.after cs).proto with
      | val q => obtain ⟨_, h2⟩ := h.pv q hh; rw [hp] at h2; simp only [Option.some.injEq] at h2; rw [h2]
      | unset => have := h.pn (by rw [hh]; simp); rw [b1] at this; simp at this
      | invalid => have := h.pn (by rw [hh]; simp); rw [b1] at this; simp at this
    have hhv : ∃ a, (Ep.after cs).host = .val a := by
      cases hh : (Ep.after cs).host with
      | val q => exact ⟨q, rfl⟩
      | unset => have := h.hn (by rw [hh]; simp); rw [b2] at this; simp at this
      | invalid => have := h.hn (by rw [hh]; simp); rw [b2] at this; simp at this
    obtain ⟨a, hhv⟩ := hhv
    have hrv : (Ep.after cs).res = some ((after cs).path, (after cs).query) := by
      cases hh : (Ep.after cs).res with
      | none => have := (h.rn hh).1; rw [b4] at this; simp at this
      | some r => obtain ⟨_, _, h3, h4⟩ := h.rv r hh; rw [h3, h4]
    refine ⟨p, a, _, hpv, hhv, hrv, ?_, ?_⟩
    · cases hh : (Ep.after cs).port with
      | val n => exact Or.inl ⟨n, rfl⟩
      | unset => exact Or.inr ⟨rfl, (hu.std (h.tu hh).1 b3 b1 p hp).2⟩
      | invalid => have := h.ts ho hh; rw [b3] at this; simp at this
    · rcases hpa with hpa | ⟨h1, h2⟩
      · exact Or.inl hpa
      · right; rw [h1, h2]
  · exact C119_accept cs hc

/-- **C119 is false for an invalid port**: the port is set to something invalid, which is refused; setting the protocol
afterwards makes the endpoint valid again, with the standard port, though the documentation says that a field is invalid until
it is successfully set. -/
theorem C119_port_fails (h : List Byte) (hh : h ≠ []) (n : Int) (hn : n < -1 ∨ 65535 < n) :
    (Ep.after [.setHost (some h), .setPort n, .setProtocol (some .rtsp)]).port = .invalid
      ∧ accepted (after [.setHost (some h), .setPort n, .setProtocol (some .rtsp)]) = true := by
  cases h with
  | nil => exact absurd rfl hh
  | cons c cs =>
    constructor
    · simp only [Ep.after, List.foldl_cons, List.foldl_nil, Ep.step]
      rw [if_neg (by omega), if_neg (by omega)]
    · simp only [after, List.foldl_cons, List.foldl_nil, step, Uri.setHost, reduceCtorEq, if_false, Uri.setPort]
      rw [if_neg (by omega), if_pos (by omega)]
      rfl

theorem exec_other {done rest : List Byte} {e : Env} {a : Act} (ha : a ≠ .setProto) :
    core (exec .resource done rest e a).1.uri = core e.uri := by
  have : ∀ s, core (e.uri.setEncodedPath s).1 = core e.uri := by
    intro s
    unfold Uri.setEncodedPath
    split
    · rfl
    · split <;> rfl
  cases a <;> first | rfl | exact this _ | exact absurd rfl ha

theorem execList_other {done rest : List Byte} : ∀ (l : List Act) (e : Env), Act.setProto ∉ l →
    core (execList .resource done rest l e).1.uri = core e.uri
  | [], _, _ => rfl
  | a :: l, e, h => by
    have h1 := exec_other (done := done) (rest := rest) (e := e) (a := a) (fun ha => h (by rw [ha]; exact List.mem_cons_self))
    rw [execList]
    rcases h2 : exec .resource done rest e a with ⟨e', _ | _⟩
    · rw [h2] at h1; exact h1
    · rw [h2] at h1
      rw [← h1]; exact execList_other l e' (fun ha => h (List.mem_cons_of_mem _ ha))

/-- Positions after the scheme. -/
def after_ : List St := [.colon, .slash, .slash2, .open_, .inner, .close, .host, .portColon, .port, .path, .query0, .query]

theorem after_edges : ∀ st ∈ after_, ∀ c : Byte, ∀ m ∈ edges st c, m.1 ∈ after_ ∧ Act.setProto ∉ m.2 := by decide +kernel

theorem after_eof : ∀ st ∈ after_, ∀ l ∈ atEof st, Act.setProto ∉ l := by decide +kernel

theorem run_after : ∀ (rest done : List Byte) (ts : List St) (e : Env), (∀ t ∈ ts, t ∈ after_) →
    core (run .resource ts e done rest).1.uri = core e.uri
  | [], done, ts, e, h => by
    rw [run]
    split
    · rfl
    · apply execList_other
      intro ha
      rw [List.mem_filter] at ha
      have ha := ha.2
      simp only [decide_eq_true_eq, List.mem_flatten, List.mem_filterMap] at ha
      obtain ⟨l, ⟨t, ht, hl⟩, ha⟩ := ha
      exact after_eof t (h t ht) l hl ha
  | c :: rest, done, ts, e, h => by
    rw [run]
    split
    · rfl
    · have hm : ∀ m ∈ (ts.map (edges · c)).flatten, m.1 ∈ after_ ∧ Act.setProto ∉ m.2 := by
        intro m hm
        simp only [List.mem_flatten, List.mem_map] at hm
        obtain ⟨l, ⟨t, ht, rfl⟩, hm⟩ := hm
        exact after_edges t (h t ht) c m hm
      have h1 : core (execAll .resource done (c :: rest) (((ts.map (edges · c)).flatten).map (·.2)).flatten e).1.uri
          = core e.uri := by
        apply execList_other
        intro ha
        rw [List.mem_filter] at ha
        have ha := ha.2
        simp only [decide_eq_true_eq] at ha
        rw [List.mem_flatten] at ha
        obtain ⟨l, hl, ha⟩ := ha
        rw [List.mem_map] at hl
        obtain ⟨m, hm', rfl⟩ := hl
        exact (hm m hm').2 ha
      rcases h2 : execAll .resource done (c :: rest) (((ts.map (edges · c)).flatten).map (·.2)).flatten e with ⟨e', _ | _⟩
      · rw [h2] at h1; simp only [h2]; exact h1
      · rw [h2] at h1
        simp only [h2]
        rw [← h1]
        apply run_after
        intro t ht
        rw [List.mem_map] at ht
        obtain ⟨m, hm', rfl⟩ := ht
        exact (hm m hm').1

theorem run_scheme (p : Proto) (u : Uri) (more : List Byte) :
    run .resource [.start] ⟨0, u⟩ [] (p.scheme ++ ch ':' :: more) =
      run .resource [.colon] ⟨0, u.setProto p⟩ (p.scheme ++ [ch ':']) more := by
  cases p <;> rfl

theorem resourceOf_scheme (p : Proto) (more : List Byte) : resourceOf (p.scheme ++ ch ':' :: more) = none := by
  cases hr : resourceOf (p.scheme ++ ch ':' :: more) with
  | none => rfl
  | some r =>
    exfalso
    unfold resourceOf at hr
    simp only at hr
    split at hr
    · rename_i h
      obtain ⟨h1, _⟩ := h
      obtain ⟨c, cs, hs, h2, h3⟩ : ∃ c cs, p.scheme = c :: cs ∧ c ≠ ch '?' ∧ c ≠ ch '/' := by
        cases p <;> exact ⟨_, _, rfl, by decide, by decide⟩
      rw [hs, List.cons_append, List.takeWhile_cons_of_pos (by simpa using h2)] at h1
      simp [h3] at h1
    · simp at hr

/-- **C119 is false for a resource that begins like a URI**: it is refused, but it changes the protocol of the endpoint; for
every endpoint, every protocol, and whatever follows. -/
theorem C119_resource_fails (u : Uri) (p : Proto) (more : List Byte) :
    (step u (.setResource (some (p.scheme ++ ch ':' :: more)))).2 = false
      ∧ getProtocol (step u (.setResource (some (p.scheme ++ ch ':' :: more)))).1 = some p := by
  have h2 := run_after more (p.scheme ++ [ch ':']) [.colon] ⟨0, (u.clear .resource).setProto p⟩ (by simp [after_])
  rw [← run_scheme] at h2
  rcases parse_resource u (p.scheme ++ ch ':' :: more) with ⟨r, h1, _⟩ | ⟨_, v, h3, _⟩
  · rw [resourceOf_scheme] at h1; simp at h1
  · simp only [step, h3, true_and]
    unfold parse at h3
    simp only at h3
    generalize run .resource [.start] ⟨0, u.clear .resource⟩ [] (p.scheme ++ ch ':' :: more) = x at h2 h3
    obtain ⟨e, b⟩ := x
    have hv : core v = core e.uri := by
      cases b with
      | false => simp only [Prod.mk.injEq, and_true] at h3; rw [← h3]; rfl
      | true =>
        simp only at h3
        split at h3
        · simp at h3
        · simp only [Prod.mk.injEq, and_true] at h3; rw [← h3]; rfl
    obtain ⟨c1, _, _, c4, _⟩ := core_eq (hv.trans h2)
    unfold getProtocol
    rw [c1, c4, setProto_proto]
    rfl

/-! ## Getters with buffers -/

theorem text_append (ps : List (List Byte)) : ∀ acc, StringBuilder.text (ps.map StringBuilder.Op.append) acc = acc ++ ps.flatten := by
  induction ps with
  | nil => intro acc; simp [StringBuilder.text]
  | cons a ps ih => intro acc; simp [StringBuilder.text, ih]

theorem needed_error (ps : List (List Byte)) : ∀ s : StringBuilder.St, s.writeErr = true →
    ∃ s', StringBuilder.run s (ps.map StringBuilder.Op.append) = some s' ∧ s'.buf = s.buf ∧ s'.writeErr = true
      ∧ s'.nProcessed = s.nProcessed + ps.flatten.length := by
  induction ps with
  | nil => intro s hs; exact ⟨s, rfl, rfl, hs, by simp⟩
  | cons a ps ih =>
    intro s hs
    obtain ⟨s', h1, h2, h3, h4⟩ := ih { s with nProcessed := s.nProcessed + a.length } hs
    refine ⟨s', ?_, h2, h3, ?_⟩
    · simp only [List.map_cons, StringBuilder.run, StringBuilder.step, StringBuilder.append, hs, if_true]
      rw [← h1, hs]
    · rw [h4]; simp only [List.flatten_cons, List.length_append]; omega

/-- **C119 (buffers)**: if there is something to get, the size is set to that of the text with its terminating zero, whether
it fits or not; zero is returned exactly if it fits, and then the buffer holds it; nothing outside of the buffer is written;
without buffer the size zero means no limit. -/
theorem C119_get (p : Pieces) (hp : p.2 = true) :
    (∀ b, b ≠ [] → ∃ b', get p (some b) b.length = some ⟨decide (p.1.flatten.length + 1 ≤ b.length), some b', p.1.flatten.length + 1⟩
      ∧ b'.length = b.length ∧ HoldsCString b' (p.1.flatten.take (b.length - 1)))
    ∧ get p (some []) 0 = some ⟨false, some [], p.1.flatten.length + 1⟩
    ∧ ∀ n, get p none n = some ⟨decide (n = 0 ∨ p.1.flatten.length + 1 ≤ n), none, p.1.flatten.length + 1⟩ := by
  have hnp : ¬ p.2 = false := by rw [hp]; simp
  refine ⟨?_, ?_, ?_⟩
  · intro b hb
    obtain ⟨s, s', h1, h2, ⟨b', h3, h4, h5⟩, h6, h7, _⟩ :=
      StringBuilder.C50_builder b (List.length_pos_iff.2 hb) (p.1.map StringBuilder.Op.append)
    rw [text_append, List.nil_append] at h5 h6 h7
    refine ⟨b', ?_, h4, h5⟩
    simp only [get, h1, h2]
    rw [if_neg hnp, h3, h7]
    congr 2
    rw [Bool.eq_iff_iff, h6, decide_eq_true_eq]
  · have h1 : StringBuilder.init (some []) 0 = some ⟨some [], 0, 1, none, 0, 0, false, true⟩ := by decide
    obtain ⟨s', h2, h3, h4, h5⟩ := needed_error p.1 ⟨some [], 0, 1, none, 0, 0, false, true⟩ rfl
    simp only [get, h1, h2]
    rw [if_neg hnp, h3]
    simp only [StringBuilder.isOk, StringBuilder.neededSize, h4, h5]
    simp
  · intro n
    obtain ⟨s, s', h1, h2, h3, h6, h7, _⟩ := StringBuilder.C50_dry_run n (p.1.map StringBuilder.Op.append)
    rw [text_append, List.nil_append] at h6 h7
    simp only [get, h1, h2]
    rw [if_neg hnp, h3, h7]
    congr 2
    rw [Bool.eq_iff_iff, h6, decide_eq_true_eq]

/-- **C119 is false for the size if there is nothing to get**: the documentation says that the size is updated no matter
whether the function succeeds or fails; it is not if the URI, host or resource is not set. -/
theorem C119_size_fails : ∀ n, get (uriPieces (after []) .full) none n = some ⟨false, none, n⟩
    ∧ get (hostPieces (after [])) none n = some ⟨false, none, n⟩
    ∧ get (uriPieces (after []) .resource) none n = some ⟨false, none, n⟩ := fun _ => ⟨rfl, rfl, rfl⟩

/-- The URI of an endpoint. -/
def uriText (p : Proto) (h : List Byte) (port : Option Int) (r : List Byte × List Byte) : List Byte :=
  p.scheme ++ str "://" ++ h ++
    (match port with
    | some n => str ":" ++ (StringBuilder.uintChars n.toNat 10).getD []
    | none => []) ++ (Pct.encode .nonPath r.1).2 ++ (if r.2 = [] then [] else str "?" ++ r.2)

theorem tail_text (u : Uri) (hn : (0 : Byte) ∉ u.path) : (tailPieces u).2 = true ∧
    (tailPieces u).1.flatten = (Pct.encode .nonPath u.path).2 ++ (if u.query = [] then [] else str "?" ++ u.query) := by
  have he : (Pct.encode .nonPath u.path).1 = true := (Pct.C20_encode .nonPath u.path hn).1
  have hm : ∀ l : List Byte, (l.map fun c => [c]).flatten = l := by
    intro l
    induction l with
    | nil => rfl
    | cons a l ih => simp [ih]
  unfold tailPieces
  by_cases hp : u.path = []
  · rw [if_pos hp]
    simp only [Bool.true_eq_false, if_false, hp]
    by_cases hq : u.query = []
    · rw [if_pos hq, if_pos hq]; exact ⟨rfl, rfl⟩
    · rw [if_neg hq, if_neg hq]; simp [Pct.encode]
  · rw [if_neg hp]
    simp only [he, Bool.true_eq_false, if_false]
    by_cases hq : u.query = []
    · rw [if_pos hq, if_pos hq]; exact ⟨rfl, by rw [hm]; simp⟩
    · rw [if_neg hq, if_neg hq]; exact ⟨rfl, by simp [hm]⟩

/-- **C119 (URI and resource)**: for an endpoint without invalid or missing fields the URI can be read and consists of the
fields that were set, with the port only if it was set; the resource can be read if it is valid and not empty. -/
theorem C119_uri (cs : List Call) (hc : Clean cs) :
    (∀ p h r, (Ep.after cs).complete → (Ep.after cs).proto = .val p → (Ep.after cs).host = .val h →
      (Ep.after cs).res = some r → (uriPieces (after cs) .full).2 = true
        ∧ (uriPieces (after cs) .full).1.flatten = uriText p h (Ep.after cs).port.get r)
    ∧ ((uriPieces (after cs) .resource).2 = true ↔ ∃ r, (Ep.after cs).res = some r ∧ r ≠ ([], []))
    ∧ ∀ r, (Ep.after cs).res = some r → r ≠ ([], []) → (uriPieces (after cs) .resource).1.flatten =
      (Pct.encode .nonPath r.1).2 ++ (if r.2 = [] then [] else str "?" ++ r.2) := by
  have hs := sim_after hc
  have hu := ui_after cs
  obtain ⟨t1, t2⟩ := tail_text (after cs) hu.nul
  have hres : ∀ r, (Ep.after cs).res = some r → r ≠ ([], []) → uriPieces (after cs) .resource = tailPieces (after cs) := by
    intro r hr hne
    obtain ⟨r1, r2, r3, r4⟩ := hs.rv r hr
    unfold uriPieces
    have hv : (after cs).verify .resource = true := by simp [Uri.verify, r1, r2]
    rw [hv]
    simp only [Bool.not_true, Bool.false_eq_true, if_false]
    rw [if_neg]
    rintro ⟨h1, h2⟩
    rw [r3] at h1; rw [r4] at h2
    exact hne (Prod.ext h1 h2)
  refine ⟨?_, ?_, ?_⟩
  · intro p h r hx hp hh hr
    have ha := C119_accept cs hc hx
    unfold accepted at ha
    obtain ⟨_, p2⟩ := hs.pv p hp
    obtain ⟨_, q2⟩ := hs.hv h hh
    obtain ⟨_, _, r3, r4⟩ := hs.rv r hr
    have hport : (if (after cs).port ≥ 0 then [str ":", (StringBuilder.uintChars (after cs).port.toNat 10).getD []] else []).flatten
        = match (Ep.after cs).port.get with
          | some n => str ":" ++ (StringBuilder.uintChars n.toNat 10).getD []
          | none => [] := by
      cases hpo : (Ep.after cs).port with
      | val n => obtain ⟨_, h2, h3⟩ := hs.tv n hpo; rw [h2, if_pos h3]; simp [Field.get]
      | unset => rw [(hs.tu hpo).1]; rfl
      | invalid =>
        obtain ⟨p', h', r', _, _, _, h4, _⟩ := hx
        rcases h4 with ⟨n, h4⟩ | ⟨h4, _⟩ <;> rw [hpo] at h4 <;> simp at h4
    unfold uriPieces
    rw [ha]
    simp only [Bool.not_true, Bool.false_eq_true, if_false, p2]
    refine ⟨t1, ?_⟩
    rw [List.flatten_append, List.flatten_append, hport, t2, q2, r3, r4]
    simp [uriText]
  · constructor
    · intro h
      cases hr : (Ep.after cs).res with
      | none =>
        obtain ⟨b1, b2⟩ := hs.rn hr
        have hv : (after cs).verify .resource = false := by simp [Uri.verify, b1]
        unfold uriPieces at h
        rw [hv] at h
        simp at h
      | some r =>
        refine ⟨r, rfl, ?_⟩
        rintro rfl
        obtain ⟨r1, r2, r3, r4⟩ := hs.rv _ hr
        have hv : (after cs).verify .resource = true := by simp [Uri.verify, r1, r2]
        unfold uriPieces at h
        rw [hv] at h
        simp only [Bool.not_true, Bool.false_eq_true, if_false] at h
        rw [if_pos ⟨r3, r4⟩] at h
        simp at h
    · rintro ⟨r, hr, hne⟩
      rw [hres r hr hne]; exact t1
  · intro r hr hne
    rw [hres r hr hne, t2]
    obtain ⟨_, _, r3, r4⟩ := hs.rv r hr
    rw [r3, r4]

/-! ## Examples -/

/-- An endpoint that is set field by field, with errors in between that are made good. -/
def exCalls : List Call :=
  [.setPort 8080, .setProtocol (some .rtp), .setHost (some []), .setResource (some (str "abc")), .setHost (some (str "host")),
    .setPort (-1), .setProtocol (some .rtsp), .setResource (some (str "/a%20b?q=1"))]

example : (Ep.after exCalls) = ⟨.val .rtsp, .val (str "host"), .unset, some (str "/a b", str "q=1")⟩ := by decide +kernel

example : (Ep.after exCalls).complete := ⟨.rtsp, str "host", (str "/a b", str "q=1"), by decide +kernel, by decide +kernel,
  by decide +kernel, Or.inr ⟨by decide +kernel, by decide⟩, Or.inl rfl⟩

example : Ordered Ep.init exCalls := by
  refine ⟨by simp, ?_, by simp, by simp, by simp, by simp, ?_, by simp, trivial⟩
  · intro p _; decide
  · intro p _; decide

example : Clean exCalls := by
  intro s hs
  simp [exCalls] at hs
  rcases hs with rfl | rfl <;> (rintro ⟨p, hp⟩; revert hp; cases p <;> decide +kernel)

example : get (uriPieces (after exCalls) .full) none 0 = some ⟨true, none, 22⟩ := by decide +kernel

example : get (uriPieces (after exCalls) .full) (some (List.replicate 10 1)) 10 =
    some ⟨false, some (str "rtsp://ho" ++ [0]), 22⟩ := by decide +kernel

/-- An endpoint that is refused: the last port is bad. -/
example : accepted (after [.setProtocol (some .rtp), .setHost (some (str "h")), .setPort 70000]) = false := by decide +kernel

end Verif.EndpointApi
