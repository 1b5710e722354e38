import Verif.SocketAddr.Model
import Mathlib.Tactic.SplitIfs
import Mathlib.Data.List.Basic
import Mathlib.Data.List.GetD

/-! # C99: socket addresses -/

namespace Verif.SocketAddr

/-- A library that knows three addresses. -/
def exLibc : Libc :=
  { pton4 := fun s => if s = "1.2.3.4".toList then some [1, 2, 3, 4] else if s = "224.0.0.1".toList then some [224, 0, 0, 1] else none
    pton6 := fun s => if s = "::1".toList then some (List.replicate 15 0 ++ [1]) else none
    ntop4 := fun b => if b = [1, 2, 3, 4] then "1.2.3.4".toList else "224.0.0.1".toList
    ntop6 := fun _ => "::1".toList }

/-- Histories of an object: what the user may call. -/
inductive Op
  | clear
  | set (f : Family) (host : List Char) (port : Int)
  | auto (host : List Char) (port : Int)
  | parse (host : List Char) (port : Int)
  | saddr (b : Addr)

/-- An object after a call; it is not changed by a call that fails (socket_addr.h:27-43). -/
def Addr.step (c : Libc) (a : Addr) : Op → Addr
  | .clear => .empty
  | .set f h p => (a.set c f h p).getD a
  | .auto h p => (a.setAuto c h p).getD a
  | .parse h p => (SocketAddr.parse c a h p).getD a
  | .saddr b => (a.setSaddr b).getD a

/-- An object after a history (socket_addr.h:27-43). -/
def run (c : Libc) (ops : List Op) : Addr := ops.foldl (Addr.step c) .empty

/-- **C99.** `set_host_port` fails exactly if the text is not an address of the family; otherwise, whatever the object was before, it
has that family, that address, and the port modulo 2^16. -/
theorem C99_set (c : Libc) (a : Addr) (f : Family) (host : List Char) (port : Int) :
    match f with
    | .unknown => a.set c f host port = none
    | .ipv4 => (c.pton4 host = none → a.set c f host port = none) ∧
        ∀ b, c.pton4 host = some b → ∃ a', a.set c f host port = some a' ∧ a'.fam = .ipv4 ∧ a'.getPort = port % 65536 ∧ a'.host c = some (c.ntop4 b)
    | .ipv6 => (c.pton6 host = none → a.set c f host port = none) ∧
        ∀ b, c.pton6 host = some b → ∃ a', a.set c f host port = some a' ∧ a'.fam = .ipv6 ∧ a'.getPort = port % 65536 ∧ a'.host c = some (c.ntop6 b) := by
  have hp : ((port16 port : Nat) : Int) = port % 65536 := by unfold port16; omega
  cases f with
  | unknown => rfl
  | ipv4 =>
    refine ⟨fun h => by simp only [Addr.set, h]; rfl, fun b h => ?_⟩
    refine ⟨{ a with family := afInet, b4 := b, port := port16 port }, by simp only [Addr.set, h]; rfl, rfl, hp, rfl⟩
  | ipv6 =>
    refine ⟨fun h => by simp only [Addr.set, h]; rfl, fun b h => ?_⟩
    refine ⟨{ a with family := afInet6, b16 := b, port := port16 port }, by simp only [Addr.set, h]; rfl, rfl, hp, rfl⟩

/-- **C99** (partial: ports up to 65535). A port in the range is kept. Missing: other ports are not rejected
(`C99_port_fails`). -/
theorem C99_port_partial (c : Libc) (a a' : Addr) (f : Family) (host : List Char) (port : Int) (h : a.set c f host port = some a') :
    a'.getPort = port ↔ 0 ≤ port ∧ port ≤ 65535 := by
  have key := C99_set c a f host port
  have hp : a'.getPort = port % 65536 := by
    cases f with
    | unknown => rw [show a.set c .unknown host port = none from rfl] at h; cases h
    | ipv4 =>
      simp only at key
      cases hc : c.pton4 host with
      | none => rw [key.1 hc] at h; cases h
      | some b => obtain ⟨x, h1, _, h2, _⟩ := key.2 b hc; rw [h1] at h; injection h with h; rw [← h]; exact h2
    | ipv6 =>
      simp only at key
      cases hc : c.pton6 host with
      | none => rw [key.1 hc] at h; cases h
      | some b => obtain ⟨x, h1, _, h2, _⟩ := key.2 b hc; rw [h1] at h; injection h with h; rw [← h]; exact h2
  rw [hp]
  omega

example : ∃ a', Addr.empty.set exLibc .ipv4 "1.2.3.4".toList 8080 = some a' ∧ a'.getPort = 8080 := ⟨_, rfl, by decide +kernel⟩

/-- **C99 fails** (port). A port out of range is accepted, and another port is used. -/
theorem C99_port_fails : ∃ a', parse exLibc .empty "1.2.3.4".toList 65616 = some a' ∧ a'.getPort = 80 := ⟨_, rfl, by decide +kernel⟩

theorem unbracket_iff (size : Nat) (hs : 0 < size) (s h : List Char) : unbracket size s = some h ↔ s = '[' :: h ++ [']'] ∧ h.length < size := by
  unfold unbracket
  constructor
  · intro hh
    split_ifs at hh with h1 h2 h3 h4 h5
    injection hh with hh
    match s, h1, h2, h3, h4, h5, hh with
    | x :: y, _, h2, h3, h4, h5, hh =>
      simp only [List.getD_cons_zero, ne_eq, not_not] at h3
      rw [List.length_cons] at h2 h4 h5 hh
      have hy : y ≠ [] := by intro hy; rw [hy] at h2; simp at h2
      simp only [List.drop_succ_cons, List.drop_zero, Nat.add_sub_cancel] at hh h4
      have hl : 0 < y.length := List.length_pos_iff.2 hy
      rw [show y.length + 1 - 2 = y.length - 1 by omega] at hh h5
      have hlast : (x :: y).getD y.length ' ' = y.getLast hy := by
        rw [List.getD_eq_getElem _ _ (by simp), List.getLast_eq_getElem]
        have e : y.length = (y.length - 1) + 1 := by omega
        simp only [List.getElem_cons]
        split
        · omega
        · rfl
      rw [hlast] at h4
      simp only [ne_eq, not_not] at h4
      rw [← List.dropLast_eq_take] at hh
      subst hh h3
      refine ⟨?_, ?_⟩
      · rw [← h4, List.cons_append, List.dropLast_append_getLast hy]
      · rw [List.length_dropLast]; omega
  · rintro ⟨rfl, hl⟩
    have hlen : ('[' :: h ++ [']']).length = h.length + 2 := by simp
    rw [hlen, if_neg (by omega), if_neg (by omega), if_neg (by simp), if_neg, if_neg (by omega)]
    · simp
    · rw [show h.length + 2 - 1 = h.length + 1 by omega]
      simp [List.getD]

/-- **C99.** `parse_socket_addr` accepts exactly a port that is not negative together with an IPv6 address in brackets of at most 195
characters, or with an IPv4 address that does not begin with a bracket. -/
theorem C99_parse (c : Libc) (a : Addr) (host : List Char) (port : Int) :
    (∃ a', parse c a host port = some a') ↔
      0 ≤ port ∧ ((∃ h, host = '[' :: h ++ [']'] ∧ h.length ≤ 195 ∧ c.pton6 h ≠ none) ∨ ((∀ t, host ≠ '[' :: t) ∧ c.pton4 host ≠ none)) := by
  have hb : host.getD 0 ' ' = '[' ↔ ∃ t, host = '[' :: t := by
    cases host with
    | nil => simp
    | cons x y => simp
  unfold parse
  by_cases hp : port < 0
  · rw [if_pos hp]
    constructor
    · rintro ⟨_, h⟩; cases h
    · rintro ⟨h, _⟩; omega
  · rw [if_neg hp]
    by_cases hh : host.getD 0 ' ' = '['
    · rw [if_pos hh]
      obtain ⟨t, ht⟩ := hb.1 hh
      constructor
      · rintro ⟨a', h⟩
        refine ⟨by omega, Or.inl ?_⟩
        cases hu : unbracket 196 host with
        | none => rw [hu] at h; cases h
        | some g =>
          rw [hu] at h
          obtain ⟨e1, e2⟩ := (unbracket_iff 196 (by decide) host g).1 hu
          refine ⟨g, e1, by omega, ?_⟩
          intro hc
          simp only [Addr.set, hc, Option.map_none, reduceCtorEq] at h
      · rintro ⟨_, h | h⟩
        · obtain ⟨g, e1, e2, e3⟩ := h
          rw [(unbracket_iff 196 (by decide) host g).2 ⟨e1, by omega⟩]
          simp only [Addr.set]
          cases hc : c.pton6 g with
          | none => exact absurd hc e3
          | some b => exact ⟨_, rfl⟩
        · exact absurd ht (h.1 t)
    · rw [if_neg hh]
      constructor
      · rintro ⟨a', h⟩
        refine ⟨by omega, Or.inr ⟨fun t ht => hh (hb.2 ⟨t, ht⟩), ?_⟩⟩
        intro hc
        simp only [Addr.set, hc, Option.map_none, reduceCtorEq] at h
      · rintro ⟨_, h | h⟩
        · obtain ⟨g, e1, _⟩ := h
          exact absurd (hb.2 ⟨_, e1⟩) hh
        · simp only [Addr.set]
          cases hc : c.pton4 host with
          | none => exact absurd hc h.2
          | some b => exact ⟨_, rfl⟩

example : ∃ a', parse exLibc .empty "[::1]".toList 80 = some a' ∧ a'.fam = .ipv6 := ⟨_, rfl, by decide +kernel⟩
example : parse exLibc .empty "::1".toList 80 = none := by decide +kernel

/-- **C99.** Equality of addresses is an equivalence. -/
theorem C99_equivalence (a b d : Addr) : a.eq a = true ∧ a.eq b = b.eq a ∧ (a.eq b = true → b.eq d = true → a.eq d = true) := by
  refine ⟨?_, ?_, ?_⟩
  · unfold Addr.eq
    simp
  · unfold Addr.eq
    by_cases h : a.family = b.family
    · rw [h]
      simp only [ne_eq, not_true_eq_false, if_false, eq_comm]
    · rw [if_pos h, if_pos (fun hc => h hc.symm)]
  · unfold Addr.eq
    intro h1 h2
    split_ifs at h1 h2 ⊢ with a1 a2 a3 a4 a5 a6 a7 a8 a9
    all_goals simp_all

/-- **C99.** Two addresses are equal exactly if they have the same family, the same bytes of the host address and the same port, or
both are not set. -/
theorem C99_equal (a b : Addr) (ha : a.fam ≠ .unknown) :
    a.eq b = true ↔ a.fam = b.fam ∧ a.getPort = b.getPort ∧ (if a.fam = .ipv4 then a.b4 = b.b4 else a.b16 = b.b16) := by
  unfold Addr.eq Addr.getPort
  have hfam : ∀ x : Addr, (x.fam = .ipv4 ↔ x.family = afInet) ∧ (x.fam = .ipv6 ↔ x.family = afInet6) := by
    intro x
    unfold Addr.fam
    constructor
    · constructor
      · intro h; split_ifs at h with h1; exact h1
      · intro h; rw [if_pos h]
    · constructor
      · intro h; split_ifs at h with h1 h2; exact h2
      · intro h; rw [if_neg (by rw [h]; decide), if_pos h]
  cases hf : a.fam with
  | unknown => exact absurd hf ha
  | ipv4 =>
    have h4 := (hfam a).1.1 hf
    rw [h4, if_pos rfl]
    by_cases hb : b.family = afInet
    · rw [hb, (hfam b).1.2 hb]
      simp only [ne_eq, not_true_eq_false, if_false, if_true, decide_eq_true_eq, true_and, Int.natCast_inj]
      exact and_comm
    · rw [if_pos (fun hc => hb hc.symm)]
      constructor
      · intro h; cases h
      · rintro ⟨h, _⟩; exact absurd ((hfam b).1.1 h.symm) hb
  | ipv6 =>
    have h6 := (hfam a).2.1 hf
    rw [h6]
    by_cases hb : b.family = afInet6
    · rw [hb, (hfam b).2.2 hb]
      simp only [ne_eq, not_true_eq_false, if_false, if_neg (show ¬ afInet6 = afInet by decide), if_true, decide_eq_true_eq, true_and, Int.natCast_inj, reduceCtorEq]
      exact and_comm
    · rw [if_pos (fun hc => hb hc.symm)]
      constructor
      · intro h; cases h
      · rintro ⟨h, _⟩; exact absurd ((hfam b).2.1 h.symm) hb

/-- How an address is made on a fresh object by one call from text. -/
def Fresh (c : Libc) (a : Addr) : Prop := ∃ f h p, Addr.empty.set c f h p = some a

/-- **C99** (partial: objects that were set once, from text). Equal addresses have equal hashes. Missing: objects that were set before
(`C99_reuse_fails`), and addresses that come from the network (`C99_scope_fails`). -/
theorem C99_hash_partial (c : Libc) (a b : Addr) (ha : Fresh c a) (hb : Fresh c b) (h : a.eq b = true) : a.hash = b.hash := by
  obtain ⟨f, s, p, ha⟩ := ha
  obtain ⟨g, t, q, hb⟩ := hb
  have key : ∀ f s p x, Addr.empty.set c f s p = some x →
      (∃ b4, x = ⟨afInet, port16 p, b4, List.replicate 16 0, List.replicate 4 0⟩) ∨ (∃ b16, x = ⟨afInet6, port16 p, List.replicate 4 0, b16, List.replicate 4 0⟩) := by
    intro f s p x hx
    cases f with
    | unknown => cases hx
    | ipv4 =>
      obtain ⟨b, _, hb⟩ := Option.map_eq_some_iff.1 hx
      exact Or.inl ⟨b, hb.symm⟩
    | ipv6 =>
      obtain ⟨b, _, hb⟩ := Option.map_eq_some_iff.1 hx
      exact Or.inr ⟨b, hb.symm⟩
  rcases key f s p a ha with ⟨x, rfl⟩ | ⟨x, rfl⟩ <;> rcases key g t q b hb with ⟨y, rfl⟩ | ⟨y, rfl⟩
  · simp only [Addr.eq, afInet, ne_eq, not_true_eq_false, if_false, if_true, decide_eq_true_eq] at h
    rw [h.1, h.2]
  · simp [Addr.eq, afInet, afInet6] at h
  · simp [Addr.eq, afInet, afInet6] at h
  · simp only [Addr.eq, afInet, afInet6, ne_eq, not_true_eq_false, if_false, decide_eq_true_eq, Nat.reduceEqDiff] at h
    have h2 : x = y ∧ port16 p = port16 q := by simpa using h
    rw [h2.1, h2.2]

example : Fresh exLibc ⟨afInet, 80, [1, 2, 3, 4], List.replicate 16 0, List.replicate 4 0⟩ := ⟨.ipv4, "1.2.3.4".toList, 80, by decide +kernel⟩

/-- **C99 fails** (reuse). An object that was set to an IPv4 address and then to an IPv6 address is equal to a fresh object with that IPv6
address, but has another hash: its flow label is the IPv4 address. -/
theorem C99_reuse_fails : ∃ a b : Addr, a = run exLibc [.set .ipv4 "1.2.3.4".toList 80, .set .ipv6 "::1".toList 80] ∧ b = run exLibc [.set .ipv6 "::1".toList 80] ∧
    a.eq b = true ∧ a.hash ≠ b.hash ∧ a.b4 = [1, 2, 3, 4] := ⟨_, _, rfl, rfl, by decide +kernel, by decide +kernel, by decide +kernel⟩

/-- **C99 fails** (scope). Packets with the same link-local address and port that come from two interfaces have equal addresses with
different hashes. -/
theorem C99_scope_fails : ∃ a b : Addr, a = run exLibc [.saddr ⟨afInet6, 10001, [0, 0, 0, 0], [254, 128, 0, 0, 0, 0, 0, 0, 0, 0, 0, 0, 0, 0, 0, 1], [2, 0, 0, 0]⟩] ∧
    b = run exLibc [.saddr ⟨afInet6, 10001, [0, 0, 0, 0], [254, 128, 0, 0, 0, 0, 0, 0, 0, 0, 0, 0, 0, 0, 0, 1], [3, 0, 0, 0]⟩] ∧ a.eq b = true ∧ a.hash ≠ b.hash :=
  ⟨_, _, rfl, rfl, by decide +kernel, by decide +kernel⟩

/-- **C99.** The text printed for an address, given back, results in an equal address. -/
theorem C99_text (c : Libc) (h4 : ∀ b, b.length = 4 → c.pton4 (c.ntop4 b) = some b) (h6 : ∀ b, b.length = 16 → c.pton6 (c.ntop6 b) = some b)
    (a old : Addr) (s : List Char) (hb4 : a.b4.length = 4) (hb16 : a.b16.length = 16) (hport : a.port < 65536) (hs : a.host c = some s) :
    ∃ a', old.set c a.fam s a.getPort = some a' ∧ a'.eq a = true := by
  have hpp : port16 (a.port : Int) = a.port := by unfold port16; omega
  cases hf : a.fam with
  | unknown => unfold Addr.host at hs; rw [hf] at hs; cases hs
  | ipv4 =>
    have hfam : a.family = afInet := by unfold Addr.fam at hf; split_ifs at hf with h; exact h
    unfold Addr.host at hs
    unfold Addr.getPort
    rw [hf] at hs ⊢
    injection hs with hs
    subst hs
    simp only [Addr.set, h4 _ hb4, Option.map_some, hpp]
    exact ⟨_, rfl, by simp [Addr.eq, hfam]⟩
  | ipv6 =>
    have hfam : a.family = afInet6 := by unfold Addr.fam at hf; split_ifs at hf with h h2; exact h2
    unfold Addr.host at hs
    unfold Addr.getPort
    rw [hf] at hs ⊢
    injection hs with hs
    subst hs
    simp only [Addr.set, h6 _ hb16, Option.map_some, hpp]
    exact ⟨_, rfl, by simp [Addr.eq, hfam, afInet, afInet6]⟩

/-- **C99.** Multicast addresses are those from 224.0.0.0 to 239.255.255.255, and those that begin with `ff`. -/
theorem C99_multicast (a : Addr) : a.multicast = true ↔
    (a.fam = .ipv4 ∧ 224 ≤ a.b4.getD 0 0 ∧ a.b4.getD 0 0 ≤ 239) ∨ (a.fam = .ipv6 ∧ a.b16.getD 0 0 = 255) := by
  unfold Addr.multicast
  cases a.fam with
  | unknown => simp
  | ipv4 => simp only [decide_eq_true_eq, true_and, reduceCtorEq, false_and, or_false]; omega
  | ipv6 => simp

example : (run exLibc [.auto "224.0.0.1".toList 0]).multicast = true ∧ (run exLibc [.auto "::1".toList 0]).multicast = false := by decide +kernel

/-- **C99.** `set_host_port_auto` takes the text as an IPv4 address if it is one, and as an IPv6 address otherwise. -/
theorem C99_auto (c : Libc) (a : Addr) (host : List Char) (port : Int) :
    a.setAuto c host port = (if c.pton4 host = none then a.set c .ipv6 host port else a.set c .ipv4 host port) := by
  unfold Addr.setAuto
  cases h : c.pton4 host with
  | none => simp only [Addr.set, h, Option.map_none, if_true]
  | some b => simp only [Addr.set, h, Option.map_some, reduceCtorEq, if_false]

/-- **C99.** Setting an address from a system address succeeds exactly for IPv4 and IPv6. The result has the same family, port and host, is equal to the given one,
and its bytes that the system reads (16 for IPv4, 28 for IPv6) are the given ones. -/
theorem C99_saddr (c : Libc) (a b : Addr) (hb4 : b.b4.length = 4) (hb16 : b.b16.length = 16) :
    (b.fam ≠ .unknown ↔ ∃ a', a.setSaddr b = some a') ∧
    ∀ a', a.setSaddr b = some a' → a'.eq b = true ∧ a'.fam = b.fam ∧ a'.getPort = b.getPort ∧ a'.host c = b.host c ∧
      a'.bytes.take (if b.fam = .ipv4 then 16 else 28) = b.bytes.take (if b.fam = .ipv4 then 16 else 28) := by
  have h46 : afInet6 ≠ afInet := by decide
  by_cases h4 : b.family = afInet
  · have hf : b.fam = .ipv4 := by simp [Addr.fam, h4]
    refine ⟨⟨fun _ => ⟨_, by simp [Addr.setSaddr, h4]; rfl⟩, fun _ => by simp [hf]⟩, fun a' ha => ?_⟩
    simp only [Addr.setSaddr, h4, if_true, Option.some.injEq] at ha
    subst ha
    refine ⟨by simp [Addr.eq, h4], by simp [Addr.fam, h4], by simp [Addr.getPort, Addr.fam, h4], by simp [Addr.host, Addr.fam, h4], ?_⟩
    rw [if_pos hf]
    match hb : b.b4, hb4 with
    | [x0, x1, x2, x3], _ =>
      match hc : b.b16, hb16 with
      | [y0, y1, y2, y3, y4, y5, y6, y7, y8, y9, y10, y11, y12, y13, y14, y15], _ => simp [Addr.bytes, h4, hb, hc]
  · by_cases h6 : b.family = afInet6
    · have hf : b.fam = .ipv6 := by simp [Addr.fam, h6, h46]
      refine ⟨⟨fun _ => ⟨b, by simp [Addr.setSaddr, h6, h46]⟩, fun _ => by simp [hf]⟩, fun a' ha => ?_⟩
      simp only [Addr.setSaddr, h6, h46, if_true, if_false, Option.some.injEq] at ha
      subst ha
      exact ⟨(C99_equivalence b b b).1, rfl, rfl, rfl, rfl⟩
    · have hf : b.fam = .unknown := by simp [Addr.fam, h4, h6]
      have hn : a.setSaddr b = none := by simp [Addr.setSaddr, h4, h6]
      exact ⟨⟨fun e => absurd hf e, fun ⟨a', e⟩ => by rw [hn] at e; cases e⟩, fun a' e => by rw [hn] at e; cases e⟩

/-- A case: an IPv4 address set over an IPv6 address. -/
example : ∃ a', (⟨afInet6, 1, [0, 0, 0, 0], List.replicate 16 7, [0, 0, 0, 0]⟩ : Addr).setSaddr ⟨afInet, 80, [1, 2, 3, 4], List.replicate 16 0, [0, 0, 0, 0]⟩ = some a' ∧
    a'.b16 = List.replicate 8 0 ++ List.replicate 8 7 ∧ a'.getPort = 80 := ⟨_, rfl, by decide +kernel, by decide +kernel⟩

end Verif.SocketAddr
