import Verif.Depacketizer.Run

/-!
# Depacketizer: properties

A history is a list of calls of `read`; each call has packets which the packet reader can return during it.
-/

namespace Verif.Depacketizer

variable {α : Type}

theorem fresh_init : Fresh (St.init : St α) := ⟨rfl, rfl, rfl, rfl, rfl⟩

/-- C35: for every history, all calls succeed, every frame has the requested size, packets are consumed in the order of the reader, and
flags tell whether the frame has silence. Calls before the first packet give silence; after that, the `j`-th sample is the sample
of the packet which covers position `j`, if it has been obtained by that moment, and silence otherwise. There is silence only when
the reader has no more packets, or the packet that it has returned begins later. -/
theorem C35_placement (per : Int) (hper : per ≥ 0) (h : List (Call α)) (hs : Sane h) :
    ∃ r pre post f0, run per St.init h = .ok r ∧ List.Forall₂ Served h r.2 ∧ r.2 = pre ++ post ∧ (∀ d ∈ pre, Silent d) ∧
      (post ≠ [] → ∃ p got, r.1.got = (0, p) :: got ∧ f0 = p.ts) ∧
      Timeline (Eager f0) 0 post [] r.1.got ∧
      ∀ j, j < (output post).length → (output post)[j]? = some (expected f0 r.1.got j) := by
  obtain ⟨r, hr, pre, post, f0, ha⟩ := (all_run (base := 1) (by omega) hper h fresh_init hs).elim
  refine ⟨r, pre, post, f0, hr, ha.served, ha.split, ha.silent, ha.begin_, ?_, ha.val⟩
  have hmono : ∀ (ds : List (Done α)) pos b got, Timeline (fun pos d got => Eager f0 pos d got ∧ Clock 1 per f0 pos d got) pos ds b got → Timeline (Eager f0) pos ds b got := by
    intro ds
    induction ds with
    | nil => exact fun _ _ _ h => h
    | cons d ds ih =>
      rintro pos b got ⟨ev, rest, h1, h2, h3, h4, h5⟩
      exact ⟨ev, rest, h1, h2, h3, h4.1, ih _ _ _ h5⟩
  exact hmono _ _ _ _ ha.tl

/-- C36: reading never aborts and never loops forever, whatever timestamps the packets have, if payloads are not empty. -/
theorem C36_no_abort_partial (per : Int) (hper : per ≥ 0) (h : List (Call α)) (hs : Sane h) : ∃ r, run per St.init h = .ok r := by
  obtain ⟨r, _, _, _, hr, _⟩ := C35_placement per hper h hs
  exact ⟨r, hr⟩

/-- The fault of a history. -/
def faultOf (h : List (Call Nat)) : Option Fault :=
  match run 0 St.init h with
  | .ok _ => none
  | .error f => some f

/-- C36 is false: a packet with an empty payload and the timestamp 2^31 away from the current position aborts the receiver. -/
theorem C36_empty_payload_fails : faultOf [⟨[⟨0, [7], 0⟩], 1⟩, ⟨[⟨2147483649, [], 0⟩], 1⟩] = some .panic := by decide +kernel

/-- C37: for every history with true capture timestamps, a frame has the capture time of its first sample, provided that the frame has
at least one sample of a packet, or that no packet obtained so far begins after the end of the frame. Durations are not rounded. -/
theorem C37_capture_partial (base per : Int) (hb : base > 0) (hper : per ≥ 0) (h : List (Call α)) (hs : Sane h) :
    ∃ r pre post f0, run per St.init h = .ok r ∧ r.2 = pre ++ post ∧ (∀ d ∈ pre, Silent d) ∧
      (post ≠ [] → ∃ p got, r.1.got = (0, p) :: got ∧ f0 = p.ts) ∧ Timeline (Clock base per f0) 0 post [] r.1.got := by
  obtain ⟨r, hr, pre, post, f0, ha⟩ := (all_run hb hper h fresh_init hs).elim
  refine ⟨r, pre, post, f0, hr, ha.split, ha.silent, ha.begin_, ?_⟩
  have hmono : ∀ (ds : List (Done α)) pos b got, Timeline (fun pos d got => Eager f0 pos d got ∧ Clock base per f0 pos d got) pos ds b got → Timeline (Clock base per f0) pos ds b got := by
    intro ds
    induction ds with
    | nil => exact fun _ _ _ h => h
    | cons d ds ih =>
      rintro pos b got ⟨ev, rest, h1, h2, h3, h4, h5⟩
      exact ⟨ev, rest, h1, h2, h3, h4.2, ih _ _ _ h5⟩
  exact hmono _ _ _ _ ha.tl

/-- Results of a history: samples and capture timestamps of frames. -/
def framesOf (per : Int) (h : List (Call Nat)) : List (List (Option Nat) × Option Int) :=
  match run per St.init h with
  | .ok r => r.2.map fun d => (d.frame.samples, d.frame.cts)
  | .error _ => []

/-- C37 is false for frames inside a long gap: packets of two samples at positions 0 and 10, one sample takes 5 ns and position 0 was
captured at 1000. The second frame begins at position 2, its capture time is 1010, but 1040 is reported. -/
theorem C37_gap_fails : framesOf 5 [⟨[⟨100, [1, 2], 1000⟩], 2⟩, ⟨[⟨110, [3, 4], 1050⟩], 2⟩, ⟨[], 8⟩] =
    [([some 1, some 2], some 1000), ([none, none], some 1040), ([none, none, none, none, none, none, some 3, some 4], some 1020)] := by decide +kernel

/-- Non-vacuity: a wrapped timestamp, a late packet, an overlap and a gap. -/
theorem demo : framesOf 5 [⟨[], 2⟩, ⟨[⟨4294967295, [1, 2, 3], 1000⟩, ⟨4294967294, [9, 9], 995⟩, ⟨1, [8, 4, 5], 1010⟩], 4⟩, ⟨[⟨6, [6], 1035⟩], 5⟩] =
    [([none, none], none), ([some 1, some 2, some 3, some 4], some 1000), ([some 5, none, none, some 6, none], some 1020)] := by decide +kernel

theorem demo_sane : Sane [⟨[], 2⟩, ⟨[⟨4294967295, [1, 2, 3], 1000⟩, ⟨4294967294, [9, 9], 995⟩, ⟨1, [8, 4, 5], 1010⟩], 4⟩, (⟨[⟨6, [6], 1035⟩], 5⟩ : Call Nat)] := by
  unfold Sane; decide +kernel

theorem demo_truth : Truth 1000 5 4294967295 [(0, ⟨4294967295, [1, 2, 3], 1000⟩), (3, ⟨4294967294, [9, 9], 995⟩), (3, ⟨1, [8, 4, 5], 1010⟩), (5, (⟨6, [6], 1035⟩ : Pkt Nat))] := by
  unfold Truth; decide +kernel

end Verif.Depacketizer
