import Verif.ApiConfig.PropsEncodings
import Verif.SocketAddr.Props

/-! # Properties of the public configuration structs -/

namespace Verif.ApiConfig

open Verif.ChannelSet Verif.SpecParse

/-! ## Statement: the tables of the documentation (roc/config.h:84-600, roc/log.h:25-60) -/

/-- `roc_fec_encoding`. -/
def fecDoc : List (Int × Fec) := [(-1, .none), (0, .rs8m), (1, .rs8m), (2, .ldpc)]

/-- `roc_clock_source`: whether reads and writes block. -/
def clockDoc : List (Int × Bool) := [(0, false), (1, false), (2, true)]

/-- `roc_latency_tuner_backend`. -/
def tbackendDoc : List (Int × TBackend) := [(0, .default), (2, .niq)]

/-- `roc_latency_tuner_profile`. -/
def tprofileDoc : List (Int × TProfile) := [(0, .default), (1, .intact), (2, .responsive), (3, .gradual)]

/-- `roc_resampler_backend`. -/
def rbackendDoc : List (Int × RBackend) := [(0, .default), (1, .builtin), (2, .speex), (3, .speexdec)]

/-- `roc_resampler_profile`. -/
def rprofileDoc : List (Int × RProfile) := [(0, .medium), (1, .high), (2, .medium), (3, .low)]

/-- `roc_interface`. -/
def ifaceDoc : List (Int × Iface) := [(1, .consolidated), (11, .audioSource), (12, .audioRepair), (13, .audioControl)]

/-- `roc_protocol`. -/
def protoDoc : List (Int × Proto) :=
  [(10, .rtsp), (20, .rtp), (30, .rtpRs8mSource), (31, .rs8mRepair), (32, .rtpLdpcSource), (33, .ldpcRepair), (70, .rtcp)]

/-- `roc_log_level`. -/
def levelDoc : List (Int × Level) := [(0, .none), (1, .error), (2, .info), (3, .note), (4, .debug), (5, .trace)]

/-- The value is listed. -/
def Listed {α : Type} (t : List (Int × α)) (n : Int) : Prop := ∃ a, (n, a) ∈ t

/-- A duration of the user is used as it is; zero stands for the default. -/
def Duration (n : Nat) (dflt r : Int) : Prop := (n = 0 → r = dflt) ∧ (n ≠ 0 → n < 9223372036854775808 → r = n)

/-- A sender config which the documentation allows, except for a zero `packet_encoding` (see `C101_auto_fails`). -/
structure SenderIn.Allowed (l : List Enc) (c : SenderIn) : Prop where
  frame : c.frame.Valid
  pt : ∃ e ∈ l, (e.pt : Int) = c.packetEncoding
  fec : Listed fecDoc c.fec
  clock : Listed clockDoc c.clock
  tbackend : Listed tbackendDoc c.tbackend
  tprofile : Listed tprofileDoc c.tprofile
  rbackend : Listed rbackendDoc c.rbackend
  rprofile : Listed rprofileDoc c.rprofile

/-- What a sender config means. -/
structure SenderIn.Means (c : SenderIn) (o : SinkCfg) : Prop where
  frame : Describes c.frame o.spec
  format : o.spec.fmt = f32
  pt : (o.pt : Int) = c.packetEncoding
  packetLength : Duration c.packetLength 5000000 o.packetLength
  target : Duration c.target 0 o.target
  tolerance : Duration c.tolerance 0 o.tolerance
  clock : (c.clock, o.timing) ∈ clockDoc
  auto : o.autoDuration = true ∧ o.autoCts = true
  interleaving : o.interleaving = true ↔ c.interleaving ≠ 0
  fec : (c.fec, o.fec) ∈ fecDoc
  blockDefault : c.fecSource = 0 → c.fecRepair = 0 → o.nSource = 18 ∧ o.nRepair = 10
  block : c.fecSource ≠ 0 → c.fecRepair ≠ 0 → o.nSource = c.fecSource ∧ o.nRepair = c.fecRepair
  tbackend : (c.tbackend, o.tbackend) ∈ tbackendDoc
  tprofile : (c.tprofile, o.tprofile) ∈ tprofileDoc
  rbackend : (c.rbackend, o.rbackend) ∈ rbackendDoc
  rprofile : (c.rprofile, o.rprofile) ∈ rprofileDoc

/-- A receiver config which the documentation allows. -/
structure ReceiverIn.Allowed (c : ReceiverIn) : Prop where
  frame : c.frame.Valid
  clock : Listed clockDoc c.clock
  tbackend : Listed tbackendDoc c.tbackend
  tprofile : Listed tprofileDoc c.tprofile
  rbackend : Listed rbackendDoc c.rbackend
  rprofile : Listed rprofileDoc c.rprofile

/-- What a receiver config means. -/
structure ReceiverIn.Means (c : ReceiverIn) (o : SourceCfg) : Prop where
  frame : Describes c.frame o.spec
  format : o.spec.fmt = f32
  target : Duration c.target 0 o.target
  tolerance : Duration c.tolerance 0 o.tolerance
  noPlayback : o.noPlayback = c.noPlayback
  choppy : o.choppy = c.choppy
  clock : (c.clock, o.timing) ∈ clockDoc
  auto : o.autoReclock = true
  tbackend : (c.tbackend, o.tbackend) ∈ tbackendDoc
  tprofile : (c.tprofile, o.tprofile) ∈ tprofileDoc
  rbackend : (c.rbackend, o.rbackend) ∈ rbackendDoc
  rprofile : (c.rprofile, o.rprofile) ∈ rprofileDoc

/-! ## Lemmas -/

/-- The conversion follows the table. -/
def Follows {α : Type} (f : Int → Option α) (t : List (Int × α)) : Prop := ∀ n a, f n = some a ↔ (n, a) ∈ t

theorem follows_fec : Follows fecFromUser fecDoc := by
  intro n a; unfold fecFromUser fecDoc; simp only [List.mem_cons, Prod.mk.injEq, List.not_mem_nil, or_false]
  split_ifs <;> simp <;> grind

theorem follows_clock : Follows clockFromUser clockDoc := by
  intro n a; unfold clockFromUser clockDoc; simp only [List.mem_cons, Prod.mk.injEq, List.not_mem_nil, or_false]
  split_ifs <;> simp <;> grind

theorem follows_tbackend : Follows tbackendFromUser tbackendDoc := by
  intro n a; unfold tbackendFromUser tbackendDoc; simp only [List.mem_cons, Prod.mk.injEq, List.not_mem_nil, or_false]
  split_ifs <;> simp <;> grind

theorem follows_tprofile : Follows tprofileFromUser tprofileDoc := by
  intro n a; unfold tprofileFromUser tprofileDoc; simp only [List.mem_cons, Prod.mk.injEq, List.not_mem_nil, or_false]
  split_ifs <;> simp <;> grind

theorem follows_rbackend : Follows rbackendFromUser rbackendDoc := by
  intro n a; unfold rbackendFromUser rbackendDoc; simp only [List.mem_cons, Prod.mk.injEq, List.not_mem_nil, or_false]
  split_ifs <;> simp <;> grind

theorem follows_rprofile : Follows rprofileFromUser rprofileDoc := by
  intro n a; unfold rprofileFromUser rprofileDoc; simp only [List.mem_cons, Prod.mk.injEq, List.not_mem_nil, or_false]
  split_ifs <;> simp <;> grind

theorem follows_iface : Follows ifaceFromUser ifaceDoc := by
  intro n a; unfold ifaceFromUser ifaceDoc; simp only [List.mem_cons, Prod.mk.injEq, List.not_mem_nil, or_false]
  split_ifs <;> simp <;> grind

theorem follows_proto : Follows protoFromUser protoDoc := by
  intro n a; unfold protoFromUser protoDoc; simp only [List.mem_cons, Prod.mk.injEq, List.not_mem_nil, or_false]
  split_ifs <;> simp <;> grind

theorem need_cases {α : Type} {f : Int → Option α} {t : List (Int × α)} (h : Follows f t) (n : Int) :
    (∃ a, (n, a) ∈ t ∧ need (f n) = .ok a) ∨ (¬ Listed t n ∧ need (f n) = .no) := by
  cases e : f n with
  | some a => exact .inl ⟨a, (h n a).1 e, rfl⟩
  | none => exact .inr ⟨fun ⟨a, ha⟩ => (by rw [(h n a).2 ha] at e; cases e), rfl⟩

theorem duration_toNs (n : Nat) (d : Int) : Duration n d (if n ≠ 0 then toNs n else d) := by
  unfold Duration toNs
  constructor
  · intro h; rw [if_neg (by simpa using h)]
  · intro h h'; rw [if_pos h, if_pos h']

/-! ## Properties -/

/-- **C102.** A sender config is accepted exactly if it is allowed; the pipeline is then configured with what the config means. It never
aborts. -/
theorem C102_sender {l : List Enc} (hl : Ctx l) (spec0 : SSpec) (hr : Reach spec0.chs) (c : SenderIn)
    (h1 : -2147483648 ≤ c.packetEncoding) (h2 : c.packetEncoding < 2147483648) :
    (c.Allowed l → ∃ o, senderFromUser l spec0 c = .ok o ∧ c.Means o) ∧ (¬ c.Allowed l → senderFromUser l spec0 c = .no) := by
  by_cases hz : c.packetEncoding = 0
  · constructor
    · intro h
      obtain ⟨e, he, h⟩ := h.pt
      have := (ctx_inv hl e he).1
      omega
    · exact fun _ => (C101_auto_fails spec0 hr).1 l hl c hz
  unfold senderFromUser
  rcases spec_cases spec0 hr c.frame false with ⟨hv, s, e1, e2, e3⟩ | ⟨hv, e1⟩
  swap
  · exact ⟨fun h => absurd h.frame hv, fun _ => by simp only [sinkDefault, e1, Out.bind]⟩
  have hsel := C101_select hl s c.packetEncoding hz h1 h2
  by_cases hp : ∃ e ∈ l, (e.pt : Int) = c.packetEncoding
  swap
  · have := hsel.2 (fun e he h => hp ⟨e, he, h⟩)
    exact ⟨fun h => absurd h.pt hp, fun _ => by simp only [sinkDefault, e1, Out.bind, this]⟩
  have hq := hsel.1 hp
  rcases need_cases follows_fec c.fec with ⟨fec, f1, f2⟩ | ⟨f1, f2⟩
  swap
  · exact ⟨fun h => absurd h.fec f1, fun _ => by simp only [sinkDefault, e1, Out.bind, hq, f2]⟩
  rcases need_cases follows_clock c.clock with ⟨clk, g1, g2⟩ | ⟨g1, g2⟩
  swap
  · exact ⟨fun h => absurd h.clock g1, fun _ => by simp only [sinkDefault, e1, Out.bind, hq, f2, g2]⟩
  rcases need_cases follows_tbackend c.tbackend with ⟨tb, i1, i2⟩ | ⟨i1, i2⟩
  swap
  · exact ⟨fun h => absurd h.tbackend i1, fun _ => by simp only [sinkDefault, e1, Out.bind, hq, f2, g2, i2]⟩
  rcases need_cases follows_tprofile c.tprofile with ⟨tp, j1, j2⟩ | ⟨j1, j2⟩
  swap
  · exact ⟨fun h => absurd h.tprofile j1, fun _ => by simp only [sinkDefault, e1, Out.bind, hq, f2, g2, i2, j2]⟩
  rcases need_cases follows_rbackend c.rbackend with ⟨rb, k1, k2⟩ | ⟨k1, k2⟩
  swap
  · exact ⟨fun h => absurd h.rbackend k1, fun _ => by simp only [sinkDefault, e1, Out.bind, hq, f2, g2, i2, j2, k2]⟩
  rcases need_cases follows_rprofile c.rprofile with ⟨rp, m1, m2⟩ | ⟨m1, m2⟩
  swap
  · exact ⟨fun h => absurd h.rprofile m1, fun _ => by simp only [sinkDefault, e1, Out.bind, hq, f2, g2, i2, j2, k2, m2]⟩
  refine ⟨fun _ => ?_, fun h => absurd ⟨hv, hp, ⟨_, f1⟩, ⟨_, g1⟩, ⟨_, i1⟩, ⟨_, j1⟩, ⟨_, k1⟩, ⟨_, m1⟩⟩ h⟩
  simp only [sinkDefault, e1, Out.bind, hq, f2, g2, i2, j2, k2, m2]
  refine ⟨_, rfl, ?_⟩
  obtain ⟨e, he, hp⟩ := hp
  have hpos := (ctx_inv hl e he).1
  have d1 := duration_toNs c.packetLength 5000000
  have d2 := duration_toNs c.target 0
  have d3 := duration_toNs c.tolerance 0
  by_cases q1 : c.packetLength = 0 <;> by_cases q2 : c.target = 0 <;> by_cases q3 : c.tolerance = 0 <;>
    by_cases q4 : c.fecSource = 0 <;> by_cases q5 : c.fecRepair = 0 <;>
    simp only [q1, q2, q3, q4, q5, ne_eq, not_true_eq_false, not_false_eq_true, if_true, if_false, or_self, or_true, or_false] at d1 d2 d3 ⊢ <;>
    exact
      { frame := e2, format := e3, pt := by simp only; omega, packetLength := by simpa only [q1] using d1, target := by simpa only [q2] using d2,
        tolerance := by simpa only [q3] using d3, clock := g1, auto := ⟨rfl, rfl⟩, interleaving := by simp, fec := f1,
        blockDefault := fun a b => by first | exact ⟨rfl, rfl⟩ | omega, block := fun a b => by first | exact ⟨rfl, rfl⟩ | omega,
        tbackend := i1, tprofile := j1, rbackend := k1, rprofile := m1 }

/-- **C102.** Likewise for a receiver config. -/
theorem C102_receiver (spec0 : SSpec) (hr : Reach spec0.chs) (c : ReceiverIn) :
    (c.Allowed → ∃ o, receiverFromUser spec0 c = .ok o ∧ c.Means o) ∧ (¬ c.Allowed → receiverFromUser spec0 c = .no) := by
  unfold receiverFromUser
  have hspec : ∀ o : SourceCfg, o.spec = spec0 → o.noPlayback = c.noPlayback → o.choppy = c.choppy → Duration c.target 0 o.target →
      Duration c.tolerance 0 o.tolerance → o.autoReclock = true → ∀ r : Out SourceCfg, r =
      ((specFromUser o.spec c.frame false).bind fun spec => (need (clockFromUser c.clock)).bind fun timing =>
        (need (tbackendFromUser c.tbackend)).bind fun tb => (need (tprofileFromUser c.tprofile)).bind fun tp =>
        (need (rbackendFromUser c.rbackend)).bind fun rb => (need (rprofileFromUser c.rprofile)).bind fun rp =>
        .ok { o with spec := spec, timing := timing, tbackend := tb, tprofile := tp, rbackend := rb, rprofile := rp }) →
      (c.Allowed → ∃ o, r = .ok o ∧ c.Means o) ∧ (¬ c.Allowed → r = .no) := by
    intro o h1 h2 h3 h4 h5 h6 r hrr
    subst hrr
    rw [h1]
    rcases spec_cases spec0 hr c.frame false with ⟨hv, s, e1, e2, e3⟩ | ⟨hv, e1⟩
    swap
    · exact ⟨fun h => absurd h.frame hv, fun _ => by simp only [e1, Out.bind]⟩
    rcases need_cases follows_clock c.clock with ⟨clk, g1, g2⟩ | ⟨g1, g2⟩
    swap
    · exact ⟨fun h => absurd h.clock g1, fun _ => by simp only [e1, Out.bind, g2]⟩
    rcases need_cases follows_tbackend c.tbackend with ⟨tb, i1, i2⟩ | ⟨i1, i2⟩
    swap
    · exact ⟨fun h => absurd h.tbackend i1, fun _ => by simp only [e1, Out.bind, g2, i2]⟩
    rcases need_cases follows_tprofile c.tprofile with ⟨tp, j1, j2⟩ | ⟨j1, j2⟩
    swap
    · exact ⟨fun h => absurd h.tprofile j1, fun _ => by simp only [e1, Out.bind, g2, i2, j2]⟩
    rcases need_cases follows_rbackend c.rbackend with ⟨rb, k1, k2⟩ | ⟨k1, k2⟩
    swap
    · exact ⟨fun h => absurd h.rbackend k1, fun _ => by simp only [e1, Out.bind, g2, i2, j2, k2]⟩
    rcases need_cases follows_rprofile c.rprofile with ⟨rp, m1, m2⟩ | ⟨m1, m2⟩
    swap
    · exact ⟨fun h => absurd h.rprofile m1, fun _ => by simp only [e1, Out.bind, g2, i2, j2, k2, m2]⟩
    refine ⟨fun _ => ?_, fun h => absurd ⟨hv, ⟨_, g1⟩, ⟨_, i1⟩, ⟨_, j1⟩, ⟨_, k1⟩, ⟨_, m1⟩⟩ h⟩
    simp only [e1, Out.bind, g2, i2, j2, k2, m2]
    exact ⟨_, rfl, ⟨e2, e3, h4, h5, h2, h3, g1, h6, i1, j1, k1, m1⟩⟩
  have d2 := duration_toNs c.target 0
  have d3 := duration_toNs c.tolerance 0
  refine hspec { sourceDefault spec0 with target := if c.target ≠ 0 then toNs c.target else 0, tolerance := if c.tolerance ≠ 0 then toNs c.tolerance else 0, noPlayback := c.noPlayback, choppy := c.choppy, autoReclock := true } rfl rfl rfl d2 d3 rfl _ ?_
  by_cases q1 : c.noPlayback = 0 <;> by_cases q2 : c.target = 0 <;> by_cases q3 : c.tolerance = 0 <;> by_cases q4 : c.choppy = 0 <;>
    simp only [sourceDefault, q1, q2, q3, q4, ne_eq, not_true_eq_false, not_false_eq_true, if_true, if_false]

/-- **C102** (negation). Zero in one of the two fields that give the size of FEC blocks does not mean the default: if the other one is
set, the block gets zero packets of that kind. -/
theorem C102_fec_fails (spec0 : SSpec) (hr : Reach spec0.chs) (n : Nat) (hn : n ≠ 0) :
    (∃ o, senderFromUser builtin spec0 { exSender 10 with fecSource := n } = .ok o ∧ o.nSource = n ∧ o.nRepair = 0) ∧
    (∃ o, senderFromUser builtin spec0 { exSender 10 with fecRepair := n } = .ok o ∧ o.nSource = 0 ∧ o.nRepair = n) := by
  obtain ⟨s, e1⟩ : ∃ s, specFromUser spec0 (exSender 10).frame false = .ok s := by
    rcases spec_cases spec0 hr (exSender 10).frame false with ⟨-, s, e1, -⟩ | ⟨hv, -⟩
    · exact ⟨s, e1⟩
    · exact absurd ⟨by decide, rfl, .inr ⟨.inr rfl, rfl⟩⟩ hv
  have hs : selectPt builtin s 10 = .ok 10 := by
    refine (C101_select builtin_ctx s 10 (by decide) (by decide) (by decide)).1 ?_
    obtain ⟨a, b, ei, -⟩ := initial_eq
    exact ⟨⟨10, ⟨s16be, 44100, b⟩⟩, by rw [builtin, ei]; simp, rfl⟩
  constructor
  · unfold senderFromUser
    simp only [sinkDefault, exSender] at e1 ⊢
    simp only [e1, Out.bind, hs, fecFromUser, clockFromUser, tbackendFromUser, tprofileFromUser, rbackendFromUser, rprofileFromUser, need]
    simp [hn]
  · unfold senderFromUser
    simp only [sinkDefault, exSender] at e1 ⊢
    simp only [e1, Out.bind, hs, fecFromUser, clockFromUser, tbackendFromUser, tprofileFromUser, rbackendFromUser, rprofileFromUser, need]
    simp [hn]

/-- **C102** (negation). Durations of 2^63 ns and more, which the type of the fields allows, are accepted and become negative. -/
theorem C102_duration_fails (spec0 : SSpec) (hr : Reach spec0.chs) (m : Media) (hm : m.Valid) (n : Nat) (h1 : 9223372036854775808 ≤ n)
    (h2 : n < 18446744073709551616) : ∃ o, receiverFromUser spec0 ⟨m, 0, 0, 0, 0, 0, n, n, 0, 0⟩ = .ok o ∧ o.target < 0 ∧ o.tolerance < 0 := by
  rcases spec_cases spec0 hr m false with ⟨-, s, e1, -⟩ | ⟨hv, -⟩
  · have hn : n ≠ 0 := by omega
    have ht : toNs n < 0 := by unfold toNs; rw [if_neg (by omega)]; omega
    unfold receiverFromUser
    simp only [sourceDefault, hn, ne_eq, not_true_eq_false, not_false_eq_true, if_true, if_false, e1, Out.bind, clockFromUser, tbackendFromUser, tprofileFromUser, rbackendFromUser, rprofileFromUser, need]
    simp [ht]
  · exact absurd hm hv

/-- **C102.** Interfaces and protocols: exactly the listed values are accepted, with the listed meaning; a protocol converted back is the
value it came from, and no other. -/
theorem C102_endpoints : Follows ifaceFromUser ifaceDoc ∧ Follows protoFromUser protoDoc ∧
    ∀ n p, protoFromUser n = some p ↔ protoToUser p = some n := by
  refine ⟨follows_iface, follows_proto, fun n p => ?_⟩
  rw [follows_proto]
  cases p <;> simp [protoDoc, protoToUser, eq_comm]

/-- **C102.** Log levels: listed values have the listed meaning and convert back to themselves; any other value means errors only. -/
theorem C102_levels (n : Int) : (∀ v, (n, v) ∈ levelDoc → levelFromUser n = v ∧ levelToUser v = n) ∧
    (¬ Listed levelDoc n → levelFromUser n = .error) := by
  unfold levelFromUser levelDoc Listed
  simp only [List.mem_cons, Prod.mk.injEq, List.not_mem_nil, or_false]
  constructor
  · rintro v (⟨rfl, rfl⟩ | ⟨rfl, rfl⟩ | ⟨rfl, rfl⟩ | ⟨rfl, rfl⟩ | ⟨rfl, rfl⟩ | ⟨rfl, rfl⟩) <;> exact ⟨rfl, rfl⟩
  · intro h
    split_ifs <;> simp_all

/-- **C102.** Context config: zero means 2048 bytes for packets and 4096 bytes for frames, other values are used as they are. -/
theorem C102_context (p f : Nat) : ((contextFromUser p f).1 = 2048 ∧ p = 0 ∨ (contextFromUser p f).1 = p ∧ p ≠ 0) ∧
    ((contextFromUser p f).2 = 4096 ∧ f = 0 ∨ (contextFromUser p f).2 = f ∧ f ≠ 0) := by
  unfold contextFromUser
  by_cases h1 : p = 0 <;> by_cases h2 : f = 0 <;> simp [h1, h2]

/-- An array of characters that holds the string. -/
def Holds (a s : List Char) : Prop := ∃ rest, a = s ++ '\x00' :: rest ∧ '\x00' ∉ s

theorem cstring_holds {a s : List Char} (h : Holds a s) : cstring a = .ok s := by
  obtain ⟨rest, rfl, h⟩ := h
  induction s with
  | nil => simp [cstring]
  | cons c s ih =>
    simp only [List.mem_cons, not_or] at h
    simp [cstring, Ne.symm h.1, ih h.2, Out.bind]

theorem holds_head {a s : List Char} (h : Holds a s) : a.getD 0 '\x00' ≠ '\x00' ↔ s ≠ [] := by
  obtain ⟨rest, rfl, h⟩ := h
  cases s with
  | nil => simp
  | cons c s =>
    simp only [List.mem_cons, not_or] at h
    simp [Ne.symm h.1]

/-- **C102.** Interface config: an outgoing address and a multicast group are each either empty or an address, otherwise the config is
rejected. An accepted config leaves the outgoing address unset if it is empty, and otherwise has that address with port zero; it has the
multicast group as it is, and the flag. -/
theorem C102_interface (lib : SocketAddr.Libc) (c : IfaceIn) (so sm : List Char) (ho : Holds c.outgoing so) (hm : Holds c.multicast sm)
    (hl : c.multicast.length = 48) :
    (((so = [] ∨ ∃ a, SocketAddr.Addr.empty.setAuto lib so 0 = some a) ∧ (sm = [] ∨ ∃ a, SocketAddr.Addr.empty.setAuto lib sm 0 = some a)) →
      ∃ o, ifaceConfigFromUser lib c = .ok o ∧ (so = [] → o.bind = .empty) ∧ (so ≠ [] → SocketAddr.Addr.empty.setAuto lib so 0 = some o.bind) ∧
        o.multicast = sm ∧ (o.reuse = true ↔ c.reuse ≠ 0)) ∧
    ((so ≠ [] ∧ SocketAddr.Addr.empty.setAuto lib so 0 = none ∨ sm ≠ [] ∧ SocketAddr.Addr.empty.setAuto lib sm 0 = none) →
      ifaceConfigFromUser lib c = .no) := by
  have hlen : sm.length < 64 := by
    obtain ⟨rest, e, -⟩ := hm
    rw [e, List.length_append, List.length_cons] at hl
    omega
  have o1 := holds_head ho
  have m1 := holds_head hm
  have o2 := cstring_holds ho
  have m2 := cstring_holds hm
  unfold ifaceConfigFromUser
  cases ea : SocketAddr.Addr.empty.setAuto lib so 0 <;> cases em : SocketAddr.Addr.empty.setAuto lib sm 0 <;>
    by_cases ho' : so = [] <;> by_cases hm' : sm = [] <;>
    simp only [o1, m1, o2, m2, ho', hm', ea, em, hlen, not_le.2 hlen, Out.bind, need, ne_eq, not_true_eq_false, not_false_eq_true, if_true,
      if_false, ge_iff_le] <;> simp_all

/-- **C102.** The end-to-end latency of a participant is reported as it is if it is positive, otherwise as zero. -/
theorem C102_e2e (ns : Int) : (0 < ns → (e2eToUser ns : Int) = ns) ∧ (ns ≤ 0 → e2eToUser ns = 0) := by
  unfold e2eToUser
  constructor
  · intro h; rw [if_pos h]; omega
  · intro h; rw [if_neg (by omega)]

/-! ## Examples -/

/-- A sender config that is allowed: default everything, 10 ms packets. -/
example : SenderIn.Allowed builtin { exSender 10 with packetLength := 10000000, clock := 2 } where
  frame := ⟨by decide, rfl, .inr ⟨.inr rfl, rfl⟩⟩
  pt := by
    obtain ⟨a, b, ei, -⟩ := initial_eq
    exact ⟨⟨10, ⟨s16be, 44100, b⟩⟩, by rw [builtin, ei]; simp, rfl⟩
  fec := ⟨.rs8m, by decide⟩
  clock := ⟨true, by decide⟩
  tbackend := ⟨.default, by decide⟩
  tprofile := ⟨.default, by decide⟩
  rbackend := ⟨.default, by decide⟩
  rprofile := ⟨.medium, by decide⟩

/-- A receiver config that is allowed, and one that is not. -/
example : ReceiverIn.Allowed ⟨exMedia, 1, 2, 3, 2, 1, 200000000, 0, -1, 0⟩ ∧ ¬ ReceiverIn.Allowed ⟨exMedia, 1, 1, 3, 2, 1, 200000000, 0, -1, 0⟩ := by
  refine ⟨⟨by unfold Media.Valid exMedia; decide, ⟨false, by decide⟩, ⟨.niq, by decide⟩, ⟨.gradual, by decide⟩, ⟨.speex, by decide⟩, ⟨.high, by decide⟩⟩, fun h => ?_⟩
  obtain ⟨a, ha⟩ := h.tbackend
  simp [tbackendDoc] at ha

/-- Arrays with an outgoing address, and with a string that is not an address. -/
example : Holds ("1.2.3.4".toList ++ List.replicate 41 '\x00') "1.2.3.4".toList ∧
    (SocketAddr.Addr.empty.setAuto SocketAddr.exLibc "1.2.3.4".toList 0).isSome = true ∧
    (SocketAddr.Addr.empty.setAuto SocketAddr.exLibc "1.2".toList 0).isSome = false :=
  ⟨⟨List.replicate 40 '\x00', rfl, by decide⟩, by decide +kernel, by decide +kernel⟩

end Verif.ApiConfig
