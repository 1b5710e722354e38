import Verif.EndpointApi.Lemmas

/-! The endpoint as it is and as the user knows it. -/

namespace Verif.EndpointApi

open Verif.Pct (Byte ch isDigit)
open Verif.EndpointUri (Proto Uri Subset St Act Env edges atEof actOrder findScheme strtol toInt32 str isPchar isProtoChar)

theorem execList_inv {P : Uri → Prop} {sub : Subset} {done rest : List Byte}
    (h : ∀ e a, P e.uri → P (exec sub done rest e a).1.uri) : ∀ (l : List Act) (e : Env), P e.uri →
      P (execList sub done rest l e).1.uri
  | [], _, hp => hp
  | a :: l, e, hp => by
    have h1 := h e a hp
    rw [execList]
    rcases h2 : exec sub done rest e a with ⟨e', _ | _⟩
    · rw [h2] at h1; exact h1
    · rw [h2] at h1; exact execList_inv h l e' h1

theorem run_inv {P : Uri → Prop} {sub : Subset} (h : ∀ done rest e a, P e.uri → P (exec sub done rest e a).1.uri) :
    ∀ (rest done : List Byte) (ts : List St) (e : Env), P e.uri → P (run sub ts e done rest).1.uri
  | [], done, ts, e, hp => by
    rw [run]
    split
    · exact hp
    · exact execList_inv (h done []) _ e hp
  | c :: rest, done, ts, e, hp => by
    rw [run]
    split
    · exact hp
    · have h1 := execList_inv (h done (c :: rest))
        (actOrder.filter fun a => decide (a ∈ (((ts.map (edges · c)).flatten).map (·.2)).flatten)) e hp
      rcases h2 : execAll sub done (c :: rest) (((ts.map (edges · c)).flatten).map (·.2)).flatten e with ⟨e', _ | _⟩
      · unfold execAll at h2; rw [h2] at h1; simp only [execAll, h2]; exact h1
      · have h3 := h2
        unfold execAll at h3; rw [h3] at h1; simp only [h2]
        exact run_inv h rest _ _ e' h1

theorem decode_nul : ∀ (n : Nat) (s : List Byte), s.length ≤ n → (0 : Byte) ∉ (Pct.decode s).2 := by
  intro n
  induction n with
  | zero => intro s hs; cases s with
    | nil => simp [Pct.decode]
    | cons a s => simp at hs
  | succ n ih =>
    intro s hs
    match s with
    | [] => simp [Pct.decode]
    | c :: cs =>
      simp only [List.length_cons] at hs
      rw [Pct.decode.eq_def]
      simp only
      split
      · simp
      · rename_i h0
        split
        · split
          · rename_i hi lo cs'
            simp only [List.length_cons] at hs
            split
            · simp
            · split
              · simp
              · rename_i hv
                have := ih cs' (by omega)
                simp only [List.mem_cons, not_or]
                exact ⟨fun h => hv h.symm, this⟩
          · simp
        · have := ih cs (by omega)
          simp only [List.mem_cons, not_or]
          exact ⟨fun h => h0 h.symm, this⟩

/-- What holds for every URI: a valid port is a number, or standard for a valid protocol; no NUL in the path. -/
structure UI (u : Uri) : Prop where
  num : u.badPort = false → u.port = -1 ∨ (0 ≤ u.port ∧ u.port ≤ 65535 ∧ u.service = some u.port)
  std : u.port = -1 → u.badPort = false → u.badProto = false → ∀ p, u.proto = some p →
    u.service = some p.defaultPort ∧ 0 < p.defaultPort
  nul : (0 : Byte) ∉ u.path

theorem UI.init : UI Uri.init := ⟨by simp [Uri.init], by simp [Uri.init], by simp [Uri.init]⟩

theorem UI.setProto {u : Uri} (h : UI u) (p : Proto) : UI (u.setProto p) := by
  obtain ⟨h1, h2, h3⟩ := h
  unfold Uri.setProto
  by_cases hp : u.port = -1
  · by_cases hd : p.defaultPort ≤ 0
    · simp only [hp, if_true, if_pos hd]
      exact ⟨by simp, by simp, h3⟩
    · simp only [hp, if_true, if_neg hd]
      refine ⟨by simp, ?_, h3⟩
      intro _ _ _ q hq
      simp only [Option.some.injEq] at hq ⊢
      rw [← hq]; exact ⟨rfl, by omega⟩
  · simp only [if_neg hp]
    exact ⟨h1, fun h => absurd h hp, h3⟩

theorem UI.setHost {u : Uri} (h : UI u) (s : List Byte) : UI (u.setHost s).1 := by
  obtain ⟨h1, h2, h3⟩ := h
  unfold Uri.setHost
  split <;> exact ⟨h1, h2, h3⟩

theorem UI.setPort {u : Uri} (h : UI u) (n : Int) : UI (u.setPort n).1 := by
  obtain ⟨h1, h2, h3⟩ := h
  unfold Uri.setPort
  split
  · simp only
    split
    · rename_i p hb hp
      split
      · exact ⟨by simp, by simp, h3⟩
      · rename_i hd
        refine ⟨by simp, ?_, h3⟩
        intro _ _ _ q hq
        simp only at hq
        rw [hp] at hq
        simp only [Option.some.injEq] at hq ⊢
        rw [← hq]; exact ⟨rfl, by omega⟩
    · exact ⟨by simp, by simp, h3⟩
  · split
    · exact ⟨by simp, by simp, h3⟩
    · rename_i h4 h5
      refine ⟨fun _ => Or.inr ⟨?_, ?_, rfl⟩, fun h => absurd h h4, h3⟩ <;> simp only <;> omega

theorem UI.setEncodedPath {u : Uri} (h : UI u) (s : List Byte) : UI (u.setEncodedPath s).1 := by
  obtain ⟨h1, h2, h3⟩ := h
  have hd := decode_nul s.length s (Nat.le_refl _)
  unfold Uri.setEncodedPath
  split
  · exact ⟨h1, h2, by simp⟩
  · split
    · rename_i d hd'; rw [hd'] at hd; exact ⟨h1, h2, hd⟩
    · rename_i d hd'; rw [hd'] at hd; exact ⟨h1, h2, hd⟩

theorem UI.exec {sub : Subset} (done rest : List Byte) (e : Env) (a : Act) (h : UI e.uri) :
    UI (exec sub done rest e a).1.uri := by
  cases a <;> simp only [EndpointApi.exec] <;> try exact h
  · split
    · exact h
    · split
      · exact h
      · exact h.setProto _
  · split
    · exact h
    · exact h.setHost _
  · split
    · exact h
    · split
      · exact h
      · exact h.setPort _
  · exact h.setEncodedPath _
  · exact ⟨h.num, h.std, h.nul⟩

theorem UI.run {sub : Subset} {ts : List St} {e : Env} {done rest : List Byte} (h : UI e.uri) :
    UI (run sub ts e done rest).1.uri := run_inv (fun _ _ _ _ h => UI.exec _ _ _ _ h) rest done ts e h

theorem UI.clear {u : Uri} (h : UI u) (sub : Subset) : UI (u.clear sub) := by
  cases sub
  · exact UI.init
  · exact ⟨h.num, h.std, by simp [Uri.clear]⟩

theorem UI.invalidate {u : Uri} (h : UI u) (sub : Subset) : UI (u.invalidate sub) := by
  cases sub
  · exact ⟨by simp [Uri.invalidate], by simp [Uri.invalidate], h.nul⟩
  · exact ⟨h.num, h.std, h.nul⟩

theorem UI.parse {u : Uri} (h : UI u) (sub : Subset) (s : Option (List Byte)) : UI (parse u sub s).1 := by
  unfold EndpointApi.parse
  cases s with
  | none => exact h.invalidate sub
  | some s =>
    have h1 : UI (EndpointApi.run sub [.start] ⟨0, u.clear sub⟩ [] s).1.uri := UI.run (h.clear sub)
    simp only
    split
    · rename_i e he; rw [he] at h1; exact UI.invalidate h1 sub
    · rename_i e he
      rw [he] at h1
      split
      · exact h1
      · exact UI.invalidate h1 sub

theorem UI.step {u : Uri} (h : UI u) (c : Call) : UI (step u c).1 := by
  cases c with
  | setUri s => exact h.parse .full s
  | setProtocol p =>
    cases p with
    | none => exact ⟨h.num, by simp [EndpointApi.step], h.nul⟩
    | some p => exact h.setProto p
  | setHost s =>
    cases s with
    | none => exact ⟨h.num, h.std, h.nul⟩
    | some s => exact h.setHost s
  | setPort n => exact h.setPort n
  | setResource s =>
    cases s with
    | none => exact h.clear .resource
    | some s => exact h.parse .resource (some s)

/-- The endpoint as it is, and as the user knows it; `strict`: an invalid port is also marked as such. -/
structure Sim (strict : Prop) (u : Uri) (x : Ep) : Prop where
  pv : ∀ p, x.proto = .val p → u.badProto = false ∧ u.proto = some p
  pn : (∀ p, x.proto ≠ .val p) → u.badProto = true
  hv : ∀ h, x.host = .val h → u.badHost = false ∧ u.host = h
  hn : (∀ h, x.host ≠ .val h) → u.badHost = true
  tv : ∀ n, x.port = .val n → u.badPort = false ∧ u.port = n ∧ 0 ≤ n
  tu : x.port = .unset → u.port = -1 ∧ (u.badProto = false → ∀ p, u.proto = some p → 0 < p.defaultPort → u.badPort = false)
  ti : x.port = .invalid → u.badPort = true ∨ u.port = -1
  ts : strict → x.port = .invalid → u.badPort = true
  rv : ∀ r, x.res = some r → u.badPath = false ∧ u.badQuery = false ∧ u.path = r.1 ∧ u.query = r.2
  rn : x.res = none → u.badPath = true ∧ u.badQuery = true

theorem Sim.init (st : Prop) : Sim st Uri.init Ep.init := by
  constructor <;> simp [Uri.init, Ep.init]

theorem parse_full (u : Uri) (s : List Byte) :
    (∃ v, EndpointUri.parse s = some v ∧ parse u .full (some s) = (v, true) ∧ v.verify .full = true) ∨
      (EndpointUri.parse s = none ∧ ∃ v : Uri, parse u .full (some s) = (v.invalidate .full, false)) := by
  unfold EndpointUri.parse EndpointUri.parseInto parse
  rw [run_opt]
  simp only [Uri.clear]
  rcases run .full [.start] ⟨0, Uri.init⟩ [] s with ⟨e, _ | _⟩
  · right; exact ⟨rfl, e.uri, rfl⟩
  · cases hv : e.uri.verify .full
    · right
      simp only [opt, if_true]
      rw [hv]
      exact ⟨by simp, e.uri, by simp⟩
    · left
      refine ⟨e.uri, ?_, ?_, hv⟩
      · simp only [opt, if_true]; rw [hv]; rfl
      · simp only; rw [hv]; rfl

theorem core_withRes (u : Uri) (r : List Byte × List Byte) : core (withRes u r) = core u := rfl

theorem parse_resource (u : Uri) (s : List Byte) :
    (∃ r, resourceOf s = some r ∧ parse u .resource (some s) = (withRes u r, true)) ∨
      (resourceOf s = none ∧ ∃ v : Uri, parse u .resource (some s) = (v, false) ∧ v.badPath = true ∧ v.badQuery = true ∧
        (¬ beginsWithScheme s → core v = core u)) := by
  have h := run_resource u s
  have hc := fun hs => run_start_core (s := s) hs (u.clear .resource)
  rw [run_opt] at h
  unfold parse
  simp only
  revert h hc
  rcases run .resource [.start] ⟨0, u.clear .resource⟩ [] s with ⟨e, _ | _⟩
  · intro h hc
    right
    cases hr : resourceOf s with
    | some r => rw [hr] at h; simp [opt] at h
    | none =>
      refine ⟨rfl, e.uri.invalidate .resource, rfl, rfl, rfl, ?_⟩
      intro hs
      exact hc hs
  · intro h hc
    left
    cases hr : resourceOf s with
    | none => rw [hr] at h; simp [opt] at h
    | some r =>
      rw [hr] at h
      simp only [opt, if_true, Option.map_some, Option.some.injEq] at h
      refine ⟨r, rfl, ?_⟩
      have hv : e.uri.verify .resource = true := by rw [h]; rfl
      simp only
      rw [if_pos hv, h]

theorem core_eq {u v : Uri} (h : core u = core v) : u.badProto = v.badProto ∧ u.badHost = v.badHost ∧ u.badPort = v.badPort
    ∧ u.proto = v.proto ∧ u.host = v.host ∧ u.port = v.port := by
  simp only [core, Prod.mk.injEq] at h
  exact ⟨h.1, h.2.1, h.2.2.1, h.2.2.2.1, h.2.2.2.2.1, h.2.2.2.2.2.1⟩

theorem Sim.res {st : Prop} {u v : Uri} {x : Ep} (h : Sim st u x) (hc : core v = core u)
    {r : Option (List Byte × List Byte)}
    (h1 : ∀ a, r = some a → v.badPath = false ∧ v.badQuery = false ∧ v.path = a.1 ∧ v.query = a.2)
    (h2 : r = none → v.badPath = true ∧ v.badQuery = true) : Sim st v { x with res := r } := by
  obtain ⟨c1, c2, c3, c4, c5, c6⟩ := core_eq hc
  constructor
  · rw [c1, c4]; exact h.pv
  · rw [c1]; exact h.pn
  · rw [c2, c5]; exact h.hv
  · rw [c2]; exact h.hn
  · rw [c3, c6]; exact h.tv
  · rw [c1, c3, c4, c6]; exact h.tu
  · rw [c3, c6]; exact h.ti
  · rw [c3]; exact h.ts
  · exact h1
  · exact h2

theorem setProto_proto (u : Uri) (p : Proto) : (u.setProto p).proto = some p := by
  unfold Uri.setProto
  by_cases he : u.port = -1
  · by_cases hd : p.defaultPort ≤ 0
    · simp only [he, if_true, if_pos hd]
    · simp only [he, if_true, if_neg hd]
  · simp only [if_neg he]

theorem setProto_rest (u : Uri) (p : Proto) : (u.setProto p).badHost = u.badHost ∧ (u.setProto p).host = u.host ∧
    (u.setProto p).badPath = u.badPath ∧ (u.setProto p).badQuery = u.badQuery ∧ (u.setProto p).path = u.path ∧
      (u.setProto p).query = u.query := by
  unfold Uri.setProto
  by_cases he : u.port = -1
  · by_cases hd : p.defaultPort ≤ 0
    · simp only [he, if_true, if_pos hd, and_self]
    · simp only [he, if_true, if_neg hd, and_self]
  · simp only [if_neg he, and_self]

theorem Sim.step {st : Prop} {u : Uri} {x : Ep} (h : Sim st u x) (hu : UI u) (c : Call)
    (hc : ∀ s, c = .setResource (some s) → ¬ beginsWithScheme s)
    (ho : st → ∀ p, c = .setProtocol (some p) → x.port ≠ .invalid) : Sim st (step u c).1 (x.step c).1 := by
  cases c with
  | setUri s =>
    have hinv : ∀ v : Uri, Sim st (v.invalidate .full) ⟨.invalid, .invalid, .invalid, none⟩ := by
      intro v; constructor <;> simp [Uri.invalidate]
    cases s with
    | none => exact hinv u
    | some s =>
      have hui := hu.parse .full (some s)
      simp only [EndpointApi.step, Ep.step, Option.bind_some]
      rcases parse_full u s with ⟨v, h1, h2, h3⟩ | ⟨h1, v, h2⟩
      · rw [h1, h2]
        rw [h2] at hui
        simp only [Uri.verify, Bool.or_eq_true] at h3
        have hb : ¬ (((((v.badProto = true ∨ v.badHost = true) ∨ v.badPort = true) ∨ v.badPath = true) ∨ v.badQuery = true)) := by
          intro hb; rw [if_pos hb] at h3; simp at h3
        rw [if_neg hb] at h3
        simp only [not_or, Bool.not_eq_true] at hb
        obtain ⟨⟨⟨⟨b1, b2⟩, b3⟩, b4⟩, b5⟩ := hb
        have hs : v.service.isNone = false := by
          cases hs : v.service.isNone with
          | false => rfl
          | true => rw [hs] at h3; simp at h3
        rw [hs] at h3
        simp only [Bool.false_eq_true, if_false] at h3
        cases hp : v.proto with
        | none => rw [hp] at h3; simp at h3
        | some p =>
          refine ⟨?_, ?_, ?_, ?_, ?_, ?_, ?_, ?_, ?_, ?_⟩
          · intro q hq; simp only [Ep.ofUri, hp, Field.val.injEq] at hq; exact ⟨b1, by rw [← hq, hp]⟩
          · intro hq; exact absurd (by simp [Ep.ofUri, hp]) (hq p)
          · intro q hq; simp only [Ep.ofUri, Field.val.injEq] at hq; exact ⟨b2, hq⟩
          · intro hq; exact absurd rfl (hq v.host)
          · intro n hn
            simp only [Ep.ofUri] at hn
            split at hn
            · simp at hn
            · rename_i hne
              simp only [Field.val.injEq] at hn
              rcases hui.num b3 with h4 | h4
              · exact absurd h4 hne
              · exact ⟨b3, hn, by rw [← hn]; exact h4.1⟩
          · intro hn
            simp only [Ep.ofUri] at hn
            split at hn
            · rename_i heq; exact ⟨heq, fun _ _ _ _ => b3⟩
            · simp at hn
          · intro hn; simp only [Ep.ofUri] at hn; split at hn <;> simp at hn
          · intro _ hn; simp only [Ep.ofUri] at hn; split at hn <;> simp at hn
          · intro r hr; simp only [Ep.ofUri, Option.some.injEq] at hr; rw [← hr]; exact ⟨b4, b5, rfl, rfl⟩
          · intro hr; simp [Ep.ofUri] at hr
      · rw [h1, h2]; exact hinv v
  | setProtocol p =>
    cases p with
    | none =>
      refine ⟨by simp [Ep.step], fun _ => rfl, h.hv, h.hn, h.tv, ?_, h.ti, h.ts, h.rv, h.rn⟩
      intro hn
      exact ⟨(h.tu hn).1, by simp [EndpointApi.step]⟩
    | some p =>
      have hport : (u.setProto p).port = u.port := by
        unfold Uri.setProto; simp only
        by_cases he : u.port = -1
        · by_cases hd : p.defaultPort ≤ 0
          · simp only [he, if_true, if_pos hd]
          · simp only [he, if_true, if_neg hd]
        · simp only [if_neg he]
      have hbad : u.port ≠ -1 → (u.setProto p).badPort = u.badPort := by
        intro hne; unfold Uri.setProto; simp only [if_neg hne]
      have hgood : u.port = -1 → 0 < p.defaultPort → (u.setProto p).badPort = false := by
        intro he hd; unfold Uri.setProto; simp only [he, if_true]; rw [if_neg (by omega)]
      have hproto : (u.setProto p).badProto = false ∧ (u.setProto p).proto = some p := by
        exact ⟨rfl, setProto_proto u p⟩
      have hrest : (u.setProto p).badHost = u.badHost ∧ (u.setProto p).host = u.host ∧ (u.setProto p).badPath = u.badPath
          ∧ (u.setProto p).badQuery = u.badQuery ∧ (u.setProto p).path = u.path ∧ (u.setProto p).query = u.query := by
        exact setProto_rest u p
      obtain ⟨r1, r2, r3, r4, r5, r6⟩ := hrest
      simp only [EndpointApi.step, Ep.step]
      refine ⟨?_, ?_, ?_, ?_, ?_, ?_, ?_, ?_, ?_, ?_⟩
      · intro q hq; simp only [Field.val.injEq] at hq; rw [← hq]; exact hproto
      · intro hq; exact absurd rfl (hq p)
      · rw [r1, r2]; exact h.hv
      · rw [r1]; exact h.hn
      · intro n hn
        obtain ⟨t1, t2, t3⟩ := h.tv n hn
        rw [hport, hbad (by rw [t2]; omega)]; exact ⟨t1, t2, t3⟩
      · intro hn
        obtain ⟨t1, t2⟩ := h.tu hn
        rw [hport]
        refine ⟨t1, ?_⟩
        intro _ q hq hd
        rw [hproto.2] at hq
        simp only [Option.some.injEq] at hq
        exact hgood t1 (by rw [hq]; exact hd)
      · intro hn
        rw [hport]
        by_cases hne : u.port = -1
        · exact Or.inr hne
        · rw [hbad hne]; exact h.ti hn
      · intro hst hn; exact absurd hn (ho hst p rfl)
      · rw [r3, r4, r5, r6]; exact h.rv
      · rw [r3, r4]; exact h.rn
  | setHost s =>
    cases s with
    | none =>
      exact ⟨h.pv, h.pn, by simp [Ep.step], fun _ => rfl, h.tv, h.tu, h.ti, h.ts, h.rv, h.rn⟩
    | some s =>
      cases s with
      | nil => exact ⟨h.pv, h.pn, by simp [Ep.step], fun _ => rfl, h.tv, h.tu, h.ti, h.ts, h.rv, h.rn⟩
      | cons c cs =>
        refine ⟨h.pv, h.pn, ?_, ?_, h.tv, h.tu, h.ti, h.ts, h.rv, h.rn⟩
        · intro q hq
          simp only [Ep.step, Field.val.injEq] at hq
          exact ⟨rfl, hq⟩
        · intro hq; exact absurd rfl (hq (c :: cs))
  | setPort n =>
    have hsame : ∀ v : Uri, v = (u.setPort n).1 → v.badProto = u.badProto ∧ v.proto = u.proto ∧ v.badHost = u.badHost ∧
        v.host = u.host ∧ v.badPath = u.badPath ∧ v.badQuery = u.badQuery ∧ v.path = u.path ∧ v.query = u.query := by
      rintro v rfl
      unfold Uri.setPort
      split
      · simp only
        split
        · split <;> exact ⟨rfl, rfl, rfl, rfl, rfl, rfl, rfl, rfl⟩
        · exact ⟨rfl, rfl, rfl, rfl, rfl, rfl, rfl, rfl⟩
      · split <;> exact ⟨rfl, rfl, rfl, rfl, rfl, rfl, rfl, rfl⟩
    obtain ⟨r1, r2, r3, r4, r5, r6, r7, r8⟩ := hsame _ rfl
    simp only [EndpointApi.step, Ep.step]
    have hfields : ∀ f : Field Int,
        (∀ m, f = .val m → (u.setPort n).1.badPort = false ∧ (u.setPort n).1.port = m ∧ 0 ≤ m) →
        (f = .unset → (u.setPort n).1.port = -1 ∧ ((u.setPort n).1.badProto = false → ∀ p, (u.setPort n).1.proto = some p →
          0 < p.defaultPort → (u.setPort n).1.badPort = false)) →
        (f = .invalid → (u.setPort n).1.badPort = true) → Sim st (u.setPort n).1 { x with port := f } := by
      intro f f1 f2 f3
      refine ⟨?_, ?_, ?_, ?_, f1, f2, fun hf => Or.inl (f3 hf), fun _ => f3, ?_, ?_⟩
      · rw [r1, r2]; exact h.pv
      · rw [r1]; exact h.pn
      · rw [r3, r4]; exact h.hv
      · rw [r3]; exact h.hn
      · rw [r5, r6, r7, r8]; exact h.rv
      · rw [r5, r6]; exact h.rn
    by_cases h1 : n = -1
    · rw [if_pos h1]
      refine hfields .unset (by simp) (fun _ => ?_) (by simp)
      rw [r1, r2]
      unfold Uri.setPort
      rw [if_pos h1]
      simp only
      constructor
      · split
        · split <;> rfl
        · rfl
      · intro hb p hp hd
        rw [hb, hp]
        simp only
        rw [if_neg (by omega)]
    · rw [if_neg h1]
      by_cases h2 : 0 ≤ n ∧ n ≤ 65535
      · rw [if_pos h2]
        refine hfields (.val n) (fun m hm => ?_) (by simp) (by simp)
        simp only [Field.val.injEq] at hm
        unfold Uri.setPort
        rw [if_neg h1, if_neg (by omega)]
        exact ⟨rfl, hm, by omega⟩
      · rw [if_neg h2]
        refine hfields .invalid (by simp) (by simp) (fun _ => ?_)
        unfold Uri.setPort
        rw [if_neg h1, if_pos (by omega)]
  | setResource s =>
    cases s with
    | none =>
      exact h.res (v := u.clear .resource) (r := some ([], [])) rfl
        (by intro a ha; simp only [Option.some.injEq] at ha; rw [← ha]; exact ⟨rfl, rfl, rfl, rfl⟩) (by simp)
    | some s =>
      simp only [EndpointApi.step, Ep.step]
      rcases parse_resource u s with ⟨r, h1, h2⟩ | ⟨h1, v, h2, h3, h4, h5⟩
      · rw [h1, h2]
        exact h.res (v := withRes u r) (r := some r) rfl
          (by intro a ha; simp only [Option.some.injEq] at ha; rw [← ha]; exact ⟨rfl, rfl, rfl, rfl⟩) (by simp)
      · rw [h1, h2]
        exact h.res (h5 (hc s rfl)) (by simp) (fun _ => ⟨h3, h4⟩)

end Verif.EndpointApi
