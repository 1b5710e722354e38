import Verif.EndpointApi.Spec
import Verif.EndpointUri.Lemmas

/-! Runs of the parser. -/

namespace Verif.EndpointApi

open Verif.Pct (Byte ch isDigit)
open Verif.EndpointUri (Proto Uri Subset St Act Env edges atEof actOrder findScheme strtol toInt32 str isPchar isProtoChar)

/-- Success and its result. -/
def opt (r : Env × Bool) : Option Env := if r.2 then some r.1 else none

theorem exec_opt (sub : Subset) (done rest : List Byte) (e : Env) (a : Act) :
    EndpointUri.exec sub done rest e a = opt (exec sub done rest e a) := by
  cases a <;> simp only [EndpointUri.exec, exec] <;> try rfl
  · split
    · rfl
    · cases findScheme (done.drop e.start) <;> rfl
  · split
    · rfl
    · generalize e.uri.setHost (done.drop e.start) = r
      rcases r with ⟨u, _ | _⟩ <;> rfl
  · split
    · rfl
    · split
      · rfl
      · generalize e.uri.setPort _ = r
        rcases r with ⟨u, _ | _⟩ <;> rfl
  · generalize e.uri.setEncodedPath (done.drop e.start) = r
    rcases r with ⟨u, _ | _⟩ <;> rfl

theorem execList_opt (sub : Subset) (done rest : List Byte) : ∀ (l : List Act) (e : Env),
    l.foldlM (EndpointUri.exec sub done rest) e = opt (execList sub done rest l e)
  | [], _ => rfl
  | a :: l, e => by
    rw [List.foldlM_cons, exec_opt, execList]
    rcases h : exec sub done rest e a with ⟨e', _ | _⟩
    · rfl
    · exact execList_opt sub done rest l e'

theorem execAll_opt (sub : Subset) (done rest : List Byte) (acts : List Act) (e : Env) :
    EndpointUri.execAll sub done rest acts e = opt (execAll sub done rest acts e) :=
  execList_opt sub done rest _ e

theorem run_opt (sub : Subset) : ∀ (rest : List Byte) (ts : List St) (e : Env) (done : List Byte),
    EndpointUri.run sub ts e done rest = opt (run sub ts e done rest)
  | [], ts, e, done => by
    rw [EndpointUri.run, run]
    split
    · rfl
    · exact execAll_opt ..
  | c :: rest, ts, e, done => by
    rw [EndpointUri.run, run]
    split
    · rfl
    · rw [execAll_opt]
      rcases h : execAll sub done (c :: rest) (((ts.map (edges · c)).flatten).map (·.2)).flatten e with ⟨e', _ | _⟩
      · simp only [h]; rfl
      · simp only [h]; exact run_opt sub rest _ e' _

/-! ## Parts that a resource must not change -/

/-- Everything but the resource. -/
def core (u : Uri) : Bool × Bool × Bool × Option Proto × List Byte × Int × Option Int :=
  (u.badProto, u.badHost, u.badPort, u.proto, u.host, u.port, u.service)

/-- Actions for the resource. -/
def resActs : List Act := [.pathStart, .setPath, .queryStart, .setQuery]

theorem exec_core {sub : Subset} {done rest : List Byte} {e : Env} {a : Act} (h : a ∈ resActs) :
    core (exec sub done rest e a).1.uri = core e.uri := by
  have : ∀ s, core (e.uri.setEncodedPath s).1 = core e.uri := by
    intro s
    unfold Uri.setEncodedPath
    split
    · rfl
    · split <;> rfl
  cases a <;> simp [resActs] at h <;> first | rfl | exact this _

theorem execList_core {sub : Subset} {done rest : List Byte} : ∀ (l : List Act) (e : Env), (∀ a ∈ l, a ∈ resActs) →
    core (execList sub done rest l e).1.uri = core e.uri
  | [], _, _ => rfl
  | a :: l, e, h => by
    have h1 := exec_core (sub := sub) (done := done) (rest := rest) (e := e) (h a List.mem_cons_self)
    rw [execList]
    rcases h2 : exec sub done rest e a with ⟨e', _ | _⟩
    · rw [h2] at h1; exact h1
    · rw [h2] at h1
      rw [← h1]; exact execList_core l e' (fun a ha => h a (List.mem_cons_of_mem _ ha))

theorem execAll_core {sub : Subset} {done rest : List Byte} {acts : List Act} {e : Env} (h : ∀ a ∈ acts, a ∈ resActs) :
    core (execAll sub done rest acts e).1.uri = core e.uri := by
  apply execList_core
  intro a ha
  rw [List.mem_filter] at ha
  exact h a (by simpa using ha.2)

/-- Positions in the resource. -/
def late : List St := [.path, .query0, .query]

theorem late_edges : ∀ st ∈ late, ∀ c : Byte, ∀ m ∈ edges st c, m.1 ∈ late ∧ ∀ a ∈ m.2, a ∈ resActs := by decide +kernel

theorem late_eof : ∀ st ∈ late, ∀ l ∈ atEof st, ∀ a ∈ l, a ∈ resActs := by decide +kernel

theorem run_late {sub : Subset} : ∀ (rest done : List Byte) (ts : List St) (e : Env), (∀ t ∈ ts, t ∈ late) →
    core (run sub ts e done rest).1.uri = core e.uri
  | [], done, ts, e, h => by
    rw [run]
    split
    · rfl
    · apply execAll_core
      intro a ha
      simp only [List.mem_flatten, List.mem_filterMap] at ha
      obtain ⟨l, ⟨t, ht, hl⟩, ha⟩ := ha
      exact late_eof t (h t ht) l hl a ha
  | c :: rest, done, ts, e, h => by
    rw [run]
    split
    · rfl
    · have hm : ∀ m ∈ (ts.map (edges · c)).flatten, m.1 ∈ late ∧ ∀ a ∈ m.2, a ∈ resActs := by
        intro m hm
        simp only [List.mem_flatten, List.mem_map] at hm
        obtain ⟨l, ⟨t, ht, rfl⟩, hm⟩ := hm
        exact late_edges t (h t ht) c m hm
      have h1 := execAll_core (sub := sub) (done := done) (rest := c :: rest)
        (acts := (((ts.map (edges · c)).flatten).map (·.2)).flatten) (e := e) (by
          intro a ha
          simp only [List.mem_flatten, List.mem_map] at ha
          obtain ⟨l, ⟨m, hm', rfl⟩, ha⟩ := ha
          exact (hm m (by simpa using hm')).2 a ha)
      rcases h2 : execAll sub done (c :: rest) (((ts.map (edges · c)).flatten).map (·.2)).flatten e with ⟨e', _ | _⟩
      · rw [h2] at h1; simp only [h2]; exact h1
      · rw [h2] at h1
        simp only [h2]
        rw [← h1]
        apply run_late
        intro t ht
        rw [List.mem_map] at ht
        obtain ⟨m, hm', rfl⟩ := ht
        exact (hm m hm').1

theorem run_one {sub : Subset} {st st' : St} {acts : List Act} {e : Env} {done rest : List Byte} {c : Byte}
    (h : edges st c = [(st', acts)]) : run sub [st] e done (c :: rest) =
      match execAll sub done (c :: rest) acts e with
      | (e, false) => (e, false)
      | (e, true) => run sub [st'] e (done ++ [c]) rest := by
  rw [run]
  simp only [List.map_cons, List.map_nil, h, List.flatten_cons, List.flatten_nil, List.append_nil, reduceCtorEq, if_false]
  rfl

theorem run_stuck {sub : Subset} {st : St} {e : Env} {done rest : List Byte} {c : Byte} (h : edges st c = []) :
    run sub [st] e done (c :: rest) = (e, false) := by
  rw [run]
  simp [h]

theorem execAll_nil (sub : Subset) (done rest : List Byte) (e : Env) : execAll sub done rest [] e = (e, true) := by
  unfold execAll
  have : (actOrder.filter fun a => decide (a ∈ ([] : List Act))) = [] := by decide
  rw [this]; rfl

theorem execAll_one (sub : Subset) (done rest : List Byte) (e : Env) (A : Act) :
    execAll sub done rest [A] e = exec sub done rest e A := by
  have : (actOrder.filter fun a => decide (a ∈ [A])) = [A] := by cases A <;> decide
  unfold execAll
  rw [this, execList]
  rcases exec sub done rest e A with ⟨e', _ | _⟩ <;> rfl

theorem findScheme_eq {s : List Byte} {p : Proto} (h : findScheme s = some p) : p.scheme = s := by
  unfold findScheme at h
  have := List.find?_some h
  simpa using this

theorem run_proto {s : List Byte} (hs : ¬ beginsWithScheme s) : ∀ (rest done : List Byte) (e : Env), done ++ rest = s →
    e.start = 0 → (run .resource [.proto] e done rest).2 = false ∧
      core (run .resource [.proto] e done rest).1.uri = core e.uri
  | [], done, e, _, _ => by rw [run]; exact ⟨rfl, rfl⟩
  | c :: rest, done, e, hd, h0 => by
    by_cases hc : isProtoChar c = true
    · have h1 : edges .proto c = [(.proto, [])] := by simp [edges, hc]
      rw [run_one h1, execAll_nil]
      exact run_proto hs rest (done ++ [c]) e (by simpa using hd) h0
    · by_cases hcc : c = ch ':'
      · have h1 : edges .proto c = [(.colon, [.setProto])] := by simp only [edges]; rw [if_neg hc, if_pos hcc]
        rw [run_one h1, execAll_one]
        simp only [exec, h0, List.drop_zero]
        split
        · rename_i h2
          split at h2
          · simp only [Prod.mk.injEq, and_true] at h2; rw [← h2]; exact ⟨rfl, rfl⟩
          · split at h2
            · simp only [Prod.mk.injEq, and_true] at h2; rw [← h2]; exact ⟨rfl, rfl⟩
            · simp at h2
        · rename_i h2
          exfalso
          split at h2
          · simp at h2
          · split at h2
            · simp at h2
            · rename_i p hp
              have := findScheme_eq hp
              exact hs ⟨p, by rw [this, ← hd, hcc]; exact ⟨rest, by simp⟩⟩
      · have h1 : edges .proto c = [] := by simp only [edges]; rw [if_neg hc, if_neg hcc]
        rw [run_stuck h1]; exact ⟨rfl, rfl⟩

/-- A text that does not begin like a URI leaves everything but the resource alone. -/
theorem run_start_core {s : List Byte} (hs : ¬ beginsWithScheme s) (u : Uri) :
    core (run .resource [.start] ⟨0, u⟩ [] s).1.uri = core u := by
  cases s with
  | nil => rfl
  | cons c rest =>
    by_cases hc : isProtoChar c = true
    · have h1 : edges .start c = [(.proto, [.protoStart])] := by simp [edges, hc]
      rw [run_one h1, execAll_one]
      exact (run_proto hs rest [c] ⟨0, u⟩ rfl rfl).2
    · by_cases h2 : c = ch '/'
      · have h1 : edges .start c = [(.path, [.pathStart])] := by simp only [edges]; rw [if_neg hc, if_pos h2]
        rw [run_one h1, execAll_one]
        exact run_late rest [c] [.path] ⟨0, u⟩ (by simp [late])
      · by_cases h3 : c = ch '?'
        · have h1 : edges .start c = [(.query0, [])] := by simp only [edges]; rw [if_neg hc, if_neg h2, if_pos h3]
          rw [run_one h1, execAll_nil]
          exact run_late rest [c] [.query0] ⟨0, u⟩ (by simp [late])
        · have h1 : edges .start c = [] := by simp only [edges]; rw [if_neg hc, if_neg h2, if_neg h3]
          rw [run_stuck h1]

/-! ## Which resources are accepted -/

/-- Positions before the end of the host. -/
def early : List St := [.proto, .colon, .slash, .slash2, .open_, .inner, .close, .host]

theorem early_edges : ∀ st ∈ early, ∀ c : Byte, ∀ m ∈ edges st c, Act.setHost ∈ m.2 ∨ m.1 ∈ early := by decide +kernel

theorem early_eof : ∀ st ∈ early, ∀ l ∈ atEof st, Act.setHost ∈ l := by decide +kernel

theorem foldlM_none {α β : Type} {f : β → α → Option β} {a : α} (hf : ∀ e, f e a = none) : ∀ (l : List α) (e : β), a ∈ l →
    l.foldlM f e = none
  | x :: l, e, h => by
    rw [List.foldlM_cons]
    rcases List.mem_cons.1 h with rfl | h
    · rw [hf]; rfl
    · cases f e x with
      | none => rfl
      | some e' => exact foldlM_none hf l e' h

theorem execAll_host {done rest : List Byte} {acts : List Act} {e : Env} (h : Act.setHost ∈ acts) :
    EndpointUri.execAll .resource done rest acts e = none := by
  unfold EndpointUri.execAll
  apply foldlM_none (a := Act.setHost)
  · intro e; simp [EndpointUri.exec]
  · rw [List.mem_filter]; exact ⟨by decide, by simpa using h⟩

theorem run_early : ∀ (rest done : List Byte) (ts : List St) (e : Env), (∀ t ∈ ts, t ∈ early) →
    EndpointUri.run .resource ts e done rest = none
  | [], done, ts, e, h => by
    rw [EndpointUri.run]
    split
    · rfl
    · rename_i hne
      apply execAll_host
      cases hf : ts.filterMap atEof with
      | nil => exact absurd hf hne
      | cons l ls =>
        have hl : l ∈ ts.filterMap atEof := by rw [hf]; exact List.mem_cons_self
        rw [List.mem_filterMap] at hl
        obtain ⟨t, ht, hl⟩ := hl
        rw [List.flatten_cons]
        exact List.mem_append_left _ (early_eof t (h t ht) l hl)
  | c :: rest, done, ts, e, h => by
    rw [EndpointUri.run]
    split
    · rfl
    · by_cases hh : ∃ m ∈ (ts.map (edges · c)).flatten, Act.setHost ∈ m.2
      · obtain ⟨m, hm, hs⟩ := hh
        rw [execAll_host (List.mem_flatten.2 ⟨m.2, List.mem_map.2 ⟨m, hm, rfl⟩, hs⟩)]
      · split
        · rfl
        · apply run_early
          intro t ht
          rw [List.mem_map] at ht
          obtain ⟨m, hm, rfl⟩ := ht
          have hm' := hm
          simp only [List.mem_flatten, List.mem_map] at hm
          obtain ⟨l, ⟨t, ht, rfl⟩, hm⟩ := hm
          exact (early_edges t (h t ht) c m hm).resolve_left (fun hs => hh ⟨m, hm', hs⟩)

theorem stuck {sub : Subset} {st : St} {e : Env} {done rest : List Byte} {c : Byte} (h : edges st c = []) :
    EndpointUri.run sub [st] e done (c :: rest) = none := by
  rw [EndpointUri.run, if_pos (by simp [h])]

theorem run_query {sub : Subset} : ∀ (rest done : List Byte) (e : Env),
    EndpointUri.run sub [.query] e done rest =
      if ∀ c ∈ rest, isPchar c = true then some ⟨e.start, e.uri.setQuery ((done ++ rest).drop e.start)⟩ else none
  | [], done, e => by
    rw [EndpointUri.run_eof (acts := [.setQuery]) rfl, EndpointUri.execAll_one]
    simp [EndpointUri.exec]
  | c :: rest, done, e => by
    by_cases hc : isPchar c = true
    · have h1 : edges .query c = [(.query, [])] := by simp [edges, hc]
      rw [EndpointUri.run_one h1, EndpointUri.execAll_nil, Option.bind_some, run_query rest]
      simp [hc]
    · have h1 : edges .query c = [] := by simp [edges, hc]
      rw [stuck h1, if_neg (fun h => hc (h c List.mem_cons_self))]
      try rfl

theorem run_query0 {sub : Subset} (rest done : List Byte) (e : Env) :
    (EndpointUri.run sub [.query0] e done rest).map (·.uri) =
      if ∀ c ∈ rest, isPchar c = true then some (e.uri.setQuery rest) else none := by
  cases rest with
  | nil =>
    rw [EndpointUri.run_eof (acts := [.queryStart, .setQuery]) rfl]
    have : (actOrder.filter fun a => decide (a ∈ [Act.queryStart, .setQuery])) = [.queryStart, .setQuery] := by decide
    unfold EndpointUri.execAll
    rw [this]
    simp [EndpointUri.exec]
  | cons c rest =>
    by_cases hc : isPchar c = true
    · have h1 : edges .query0 c = [(.query, [.queryStart])] := by simp [edges, hc]
      rw [EndpointUri.run_one h1, EndpointUri.execAll_one]
      simp only [EndpointUri.exec, Option.bind_some, run_query]
      simp only [List.mem_cons, forall_eq_or_imp, hc, true_and]
      split <;> simp
    · have h1 : edges .query0 c = [] := by simp [edges, hc]
      rw [stuck h1, if_neg (fun h => hc (h c List.mem_cons_self))]
      try rfl

/-- Not a question mark. -/
def nq (c : Byte) : Bool := decide (c ≠ ch '?')

theorem pchar_iff (c : Byte) : isPchar c = true ↔ c ≠ ch '?' ∧ c ≠ ch '#' := by
  simp [isPchar]

theorem run_path {sub : Subset} : ∀ (rest done : List Byte) (e : Env),
    (EndpointUri.run sub [.path] e done rest).map (·.uri) =
      if ch '#' ∉ rest ∧ ch '?' ∉ (rest.dropWhile nq).tail then
        (match e.uri.setEncodedPath ((done ++ rest.takeWhile nq).drop e.start) with
        | (_, false) => none
        | (u, true) => if rest.dropWhile nq = [] then some u else some (u.setQuery (rest.dropWhile nq).tail))
      else none
  | [], done, e => by
    rw [EndpointUri.run_eof (acts := [.setPath]) rfl, EndpointUri.execAll_one]
    simp only [EndpointUri.exec, List.takeWhile_nil, List.append_nil, List.dropWhile_nil, List.tail_nil]
    rw [if_pos (by simp)]
    rcases e.uri.setEncodedPath (done.drop e.start) with ⟨u, _ | _⟩ <;> rfl
  | c :: rest, done, e => by
    by_cases hq : c = ch '?'
    · have hnp : isPchar c ≠ true := fun h => ((pchar_iff c).1 h).1 hq
      have h1 : edges .path c = [(.query0, [.setPath])] := by simp only [edges]; rw [if_neg hnp, if_pos hq]
      have hn : nq c = false := by simp [nq, hq]
      rw [EndpointUri.run_one h1, EndpointUri.execAll_one]
      simp only [EndpointUri.exec, List.takeWhile_cons, List.dropWhile_cons, hn, Bool.false_eq_true, if_false, List.append_nil,
        List.tail_cons, reduceCtorEq]
      have hne : ch '#' ≠ c := by rw [hq]; decide
      have hiff : (∀ x ∈ rest, isPchar x = true) ↔ (ch '#' ∉ c :: rest ∧ ch '?' ∉ rest) := by
        simp only [pchar_iff, List.mem_cons, not_or]
        constructor
        · intro h; exact ⟨⟨hne, fun hm => (h _ hm).2 rfl⟩, fun hm => (h _ hm).1 rfl⟩
        · rintro ⟨⟨_, h1⟩, h2⟩ x hx
          exact ⟨fun h => h2 (h ▸ hx), fun h => h1 (h ▸ hx)⟩
      rcases e.uri.setEncodedPath (done.drop e.start) with ⟨u, _ | _⟩
      · simp
      · simp only [Option.bind_some]
        rw [run_query0]
        by_cases hp : ∀ x ∈ rest, isPchar x = true
        · rw [if_pos hp, if_pos (hiff.1 hp)]
        · rw [if_neg hp, if_neg (fun h => hp (hiff.2 h))]
    · have hn : nq c = true := by simp [nq, hq]
      simp only [List.takeWhile_cons, List.dropWhile_cons, hn, if_true]
      by_cases hh : c = ch '#'
      · have hnp : isPchar c ≠ true := fun h => ((pchar_iff c).1 h).2 hh
        have h1 : edges .path c = [] := by simp only [edges]; rw [if_neg hnp, if_neg hq]
        rw [stuck h1, if_neg (by rintro ⟨h, _⟩; exact h (by rw [hh]; exact List.mem_cons_self))]
        rfl
      · have hp : isPchar c = true := (pchar_iff c).2 ⟨hq, hh⟩
        have h1 : edges .path c = [(.path, [])] := by simp only [edges]; rw [if_pos hp]
        rw [EndpointUri.run_one h1, EndpointUri.execAll_nil, Option.bind_some, run_path rest]
        have hne : ch '#' ≠ c := fun h => hh h.symm
        simp [hne]

/-- The URI with this resource. -/
def withRes (u : Uri) (r : List Byte × List Byte) : Uri :=
  { u with badPath := false, path := r.1, badQuery := false, query := r.2 }

theorem resourceOf_slash (rest : List Byte) : resourceOf (ch '/' :: rest) =
    if ch '#' ∉ rest ∧ ch '?' ∉ (rest.dropWhile nq).tail then
      (match Pct.decode (ch '/' :: rest.takeWhile nq) with
      | (true, d) => some (d, (rest.dropWhile nq).tail)
      | (false, _) => none)
    else none := by
  have h1 : (ch '/' :: rest).takeWhile (fun c => decide (c ≠ ch '?')) = ch '/' :: rest.takeWhile nq := by
    rw [List.takeWhile_cons, if_pos (by decide)]; rfl
  have h2 : (ch '/' :: rest).dropWhile (fun c => decide (c ≠ ch '?')) = rest.dropWhile nq := by
    rw [List.dropWhile_cons, if_pos (by decide)]; rfl
  have hmem : ch '#' ∉ ch '/' :: rest ↔ ch '#' ∉ rest := by
    rw [List.mem_cons, not_or]
    exact ⟨fun h => h.2, fun h => ⟨by decide, h⟩⟩
  unfold resourceOf
  rw [h1, h2]
  by_cases h : ch '#' ∉ rest ∧ ch '?' ∉ (rest.dropWhile nq).tail
  · rw [if_pos h, if_pos ⟨Or.inr rfl, hmem.2 h.1, h.2⟩]; rfl
  · rw [if_neg h, if_neg (fun hh => h ⟨hmem.1 hh.2.1, hh.2.2⟩)]

theorem run_resource (u : Uri) (s : List Byte) :
    (EndpointUri.run .resource [.start] ⟨0, u.clear .resource⟩ [] s).map (·.uri) = (resourceOf s).map (withRes u) := by
  cases s with
  | nil => rfl
  | cons c rest =>
    by_cases hc : isProtoChar c = true
    · have h1 : edges .start c = [(.proto, [.protoStart])] := by simp [edges, hc]
      have hq : c ≠ ch '?' := by rintro rfl; revert hc; decide
      have hs : c ≠ ch '/' := by rintro rfl; revert hc; decide
      rw [EndpointUri.run_one h1, EndpointUri.execAll_one]
      simp only [EndpointUri.exec, Option.bind_some]
      rw [run_early _ _ _ _ (by simp [early])]
      simp [resourceOf, hq, hs]
    · by_cases hs : c = ch '/'
      · have h1 : edges .start c = [(.path, [.pathStart])] := by simp only [edges]; rw [if_neg hc, if_pos hs]
        rw [EndpointUri.run_one h1, EndpointUri.execAll_one]
        simp only [EndpointUri.exec, Option.bind_some, List.nil_append]
        rw [run_path]
        rw [hs, resourceOf_slash]
        split
        · simp only [Uri.setEncodedPath, List.singleton_append, List.drop_zero, List.length_nil]
          rw [if_neg (by simp)]
          rcases Pct.decode (ch '/' :: rest.takeWhile nq) with ⟨_ | _, d⟩
          · rfl
          · simp only [Option.map_some]
            split
            · rename_i h; simp [h, withRes, Uri.clear]
            · simp [withRes, Uri.clear, Uri.setQuery]
        · rfl
      · by_cases hq : c = ch '?'
        · have h1 : edges .start c = [(.query0, [])] := by simp only [edges]; rw [if_neg hc, if_neg hs, if_pos hq]
          rw [EndpointUri.run_one h1, EndpointUri.execAll_nil, Option.bind_some, run_query0]
          have hne : ch '#' ≠ c := by rw [hq]; decide
          have hn : decide (c ≠ ch '?') = false := by simp [hq]
          have hiff : (∀ x ∈ rest, isPchar x = true) ↔ (ch '#' ∉ c :: rest ∧ ch '?' ∉ rest) := by
            simp only [pchar_iff, List.mem_cons, not_or]
            constructor
            · intro h; exact ⟨⟨hne, fun hm => (h _ hm).2 rfl⟩, fun hm => (h _ hm).1 rfl⟩
            · rintro ⟨⟨_, h1⟩, h2⟩ x hx
              exact ⟨fun h => h2 (h ▸ hx), fun h => h1 (h ▸ hx)⟩
          simp only [resourceOf, List.takeWhile_cons, List.dropWhile_cons, hn, Bool.false_eq_true, if_false, List.tail_cons,
            true_or, true_and, Pct.decode]
          by_cases hp : ∀ x ∈ rest, isPchar x = true
          · rw [if_pos hp, if_pos (hiff.1 hp)]; rfl
          · rw [if_neg hp, if_neg (fun h => hp (hiff.2 h))]; rfl
        · have h1 : edges .start c = [] := by simp only [edges]; rw [if_neg hc, if_neg hs, if_neg hq]
          rw [stuck h1]
          simp [resourceOf, hq, hs]

end Verif.EndpointApi
