import Verif.Packetizer.Spec
import Mathlib.Tactic.SplitIfs
import Mathlib.Tactic.Linarith
import Mathlib.Tactic.Ring

/-!
# C38: the packetizer conserves samples
-/

namespace Verif.Packetizer

variable {α : Type}

theorem advance_add {c : Cfg} (hc : CfgOk c) {ts : Int} (ht : 0 ≤ ts) (a b : Nat) : advance c (advance c ts a) b = advance c ts (a + b) := by
  unfold advance
  by_cases h : ts = 0
  · rw [if_pos h, if_pos h, if_pos h]
  · rw [if_neg h, if_neg h]
    have := Int.mul_nonneg hc.per (Int.natCast_nonneg a)
    rw [if_neg (by omega)]
    push_cast; ring

theorem advance_nonneg {c : Cfg} (hc : CfgOk c) {ts : Int} (ht : 0 ≤ ts) (a : Nat) : 0 ≤ advance c ts a := by
  unfold advance
  have := Int.mul_nonneg hc.per (Int.natCast_nonneg a)
  split_ifs <;> omega

/-- Labels, starting from a sample. -/
def lab (c : Cfg) (ts : Int) (l : List α) : List (α × Int) := l.zipIdx.map fun x => (x.1, advance c ts x.2)

theorem label_eq (c : Cfg) (l : List α) (cts : Int) : label c l cts = lab c cts l := by
  unfold label lab advance
  apply List.map_congr_left
  intro x _
  by_cases h : cts = 0
  · rw [if_pos h, if_pos h, h]
  · rw [if_neg h, if_neg h]

theorem lab_length (c : Cfg) (ts : Int) (l : List α) : (lab c ts l).length = l.length := by
  unfold lab; rw [List.length_map, List.length_zipIdx]

theorem lab_fst (c : Cfg) (ts : Int) (l : List α) : (lab c ts l).map (·.1) = l := by
  unfold lab
  rw [List.map_map]
  show List.map Prod.fst l.zipIdx = l
  exact List.zipIdx_map_fst 0 l

theorem lab_split {c : Cfg} (hc : CfgOk c) {ts : Int} (ht : 0 ≤ ts) (l : List α) (k : Nat) (hk : k ≤ l.length) :
    lab c ts l = lab c ts (l.take k) ++ lab c (advance c ts k) (l.drop k) := by
  apply List.ext_getElem?
  intro i
  by_cases hi : i < k
  · rw [List.getElem?_append_left (by rw [lab_length, List.length_take]; omega)]
    unfold lab
    rw [List.getElem?_map, List.getElem?_map, List.getElem?_zipIdx, List.getElem?_zipIdx, List.getElem?_take_of_lt hi]
  · rw [List.getElem?_append_right (by rw [lab_length, List.length_take]; omega), lab_length, List.length_take, Nat.min_eq_left hk]
    unfold lab
    rw [List.getElem?_map, List.getElem?_map, List.getElem?_zipIdx, List.getElem?_zipIdx, List.getElem?_drop]
    have e : k + (i - k) = i := by omega
    rw [e]
    cases l[i]? with
    | none => rfl
    | some a =>
      simp only [Option.map_some, Nat.zero_add, advance_add hc ht, e]

theorem lab_head (c : Cfg) (ts : Int) (a : α) (l : List α) : (lab c ts (a :: l)).head? = some (a, ts) := by
  show some (a, advance c ts 0) = _
  unfold advance
  split_ifs <;> simp

/-- The current packet has the pending samples. -/
def Holds (c : Cfg) (s : St α) (pend : List (α × Int)) : Prop :=
  pend.length < c.spp ∧ match s.pkt with
    | none => pend = []
    | some (audio, cts) => pend ≠ [] ∧ audio = pend.map (·.1) ∧ ∀ x, pend.head? = some x → cts = x.2

theorem end_ok {c : Cfg} (hc : CfgOk c) {audio : List α} {cts : Int} {g : List (α × Int)} (hne : g ≠ []) (hl : g.length ≤ c.spp)
    (ha : audio = g.map (·.1)) (hh : ∀ x, g.head? = some x → cts = x.2) : ∃ o, endPacket c audio cts = some o ∧ Carries c o g := by
  have hlen : audio.length = g.length := by rw [ha, List.length_map]
  have hb := hc.mono _ _ hl
  unfold endPacket
  rw [hlen, if_pos hb]
  refine ⟨_, rfl, hne, ha, hh, ?_, ?_⟩
  · have := hc.spp32
    exact Nat.mod_eq_of_lt (by omega)
  · show (if g.length < c.spp then _ else _) + _ = _
    split_ifs with h
    · omega
    · rw [show g.length = c.spp by omega]; omega

/-- What one `write` does. -/
def Wrote (c : Cfg) (pend : List (α × Int)) (l : List (α × Int)) (allocs : List Bool) (r : List (Out α) × St α) : Prop :=
  ∃ k mid gs, k ≤ l.length ∧ (k < l.length → false ∈ allocs ∧ mid = []) ∧ List.Forall₂ (Carries c) r.1 gs ∧ (∀ g ∈ gs, g.length = c.spp) ∧
    gs.flatten ++ mid = pend ++ l.take k ∧ Holds c r.2 mid

theorem Wrote.pre {c : Cfg} {pend : List (α × Int)} {a b : List (α × Int)} {allocs : List Bool} {r : List (Out α) × St α}
    (h : Wrote c (pend ++ a) b allocs r) : Wrote c pend (a ++ b) allocs r := by
  obtain ⟨k, mid, gs, h1, h2, h3, h4, h5, h6⟩ := h
  refine ⟨a.length + k, mid, gs, by rw [List.length_append]; omega, ?_, h3, h4, ?_, h6⟩
  · intro hl
    rw [List.length_append] at hl
    exact h2 (by omega)
  · rw [h5, List.take_length_add_append, List.append_assoc]

theorem Wrote.emit {c : Cfg} {a b : List (α × Int)} {allocs : List Bool} {r : List (Out α) × St α} {o : Out α} {pend : List (α × Int)} (ho : Carries c o (pend ++ a))
    (hl : (pend ++ a).length = c.spp) (h : Wrote c [] b allocs r) : Wrote c pend (a ++ b) allocs (o :: r.1, r.2) := by
  obtain ⟨k, mid, gs, h1, h2, h3, h4, h5, h6⟩ := h
  refine ⟨a.length + k, mid, (pend ++ a) :: gs, by rw [List.length_append]; omega, ?_, List.Forall₂.cons ho h3, ?_, ?_, h6⟩
  · intro hl
    rw [List.length_append] at hl
    exact h2 (by omega)
  · intro g hg
    rcases List.mem_cons.mp hg with hg | hg
    · rw [hg]; exact hl
    · exact h4 g hg
  · rw [List.flatten_cons, List.append_assoc, h5, List.take_length_add_append]
    simp

theorem Wrote.weaken {c : Cfg} {pend l : List (α × Int)} {a b : List Bool} {r : List (Out α) × St α} (h : Wrote c pend l a r) (hab : ∀ x ∈ a, x ∈ b) : Wrote c pend l b r := by
  obtain ⟨k, mid, gs, h1, h2, h3⟩ := h
  exact ⟨k, mid, gs, h1, fun hl => ⟨hab _ (h2 hl).1, (h2 hl).2⟩, h3⟩

theorem loop_ok {c : Cfg} (hc : CfgOk c) (fuel : Nat) {s : St α} {pend : List (α × Int)} (hh : Holds c s pend) {l : List α} {ts : Int} (ht : 0 ≤ ts) (allocs : List Bool)
    (hf : l.length ≤ fuel) : ∃ r, loop c fuel s l ts allocs = some r ∧ Wrote c pend (lab c ts l) allocs r := by
  induction fuel generalizing s pend l ts allocs with
  | zero =>
    unfold loop
    rw [if_pos (by omega)]
    have : l = [] := List.eq_nil_of_length_eq_zero (by omega)
    rw [this]
    exact ⟨_, rfl, 0, pend, [], Nat.le_refl _, fun h => absurd h (by show ¬ 0 < 0; omega), List.Forall₂.nil, (fun g hg => by cases hg), by simp [lab], hh⟩
  | succ fuel ih =>
    unfold loop
    by_cases h0 : l.length = 0
    · rw [if_pos h0]
      have : l = [] := List.eq_nil_of_length_eq_zero h0
      rw [this]
      exact ⟨_, rfl, 0, pend, [], Nat.le_refl _, fun h => absurd h (by show ¬ 0 < 0; omega), List.Forall₂.nil, (fun g hg => by cases hg), by simp [lab], hh⟩
    · rw [if_neg h0]
      -- the packet which is being filled
      have key : ∀ audio cts allocs', audio = pend.map (·.1) → (∀ x, (pend ++ lab c ts (l.take (c.spp - audio.length))).head? = some x → cts = x.2) → (∀ x ∈ allocs', x ∈ allocs) →
          ∃ r, (if (audio ++ l.take (c.spp - audio.length)).length = c.spp then
            (endPacket c (audio ++ l.take (c.spp - audio.length)) cts).bind fun o =>
              (loop c fuel ⟨none⟩ (l.drop (c.spp - audio.length)) (advance c ts (min l.length (c.spp - audio.length))) allocs').map fun r => (o :: r.1, r.2)
          else loop c fuel ⟨some (audio ++ l.take (c.spp - audio.length), cts)⟩ (l.drop (c.spp - audio.length))
            (advance c ts (min l.length (c.spp - audio.length))) allocs') = some r ∧ Wrote c pend (lab c ts l) allocs r := by
        intro audio cts allocs' ha hcts hsub
        have hal : audio.length = pend.length := by rw [ha, List.length_map]
        have hpl := hh.1
        obtain ⟨k, hk⟩ : ∃ k, k = c.spp - audio.length := ⟨_, rfl⟩
        rw [← hk] at hcts ⊢
        have hsp := lab_split hc ht l (min l.length k) (by omega)
        have e1 : l.take (min l.length k) = l.take k := by
          rcases Nat.le_total l.length k with h | h
          · rw [Nat.min_eq_left h, List.take_length, List.take_of_length_le h]
          · rw [Nat.min_eq_right h]
        have e2 : l.drop (min l.length k) = l.drop k := by
          rcases Nat.le_total l.length k with h | h
          · rw [Nat.min_eq_left h, List.drop_length, List.drop_of_length_le h]
          · rw [Nat.min_eq_right h]
        rw [e1, e2] at hsp
        have hadv := advance_nonneg hc ht (min l.length k)
        have hdl : (l.drop k).length ≤ fuel := by rw [List.length_drop]; omega
        have htl : (l.take k).length = min k l.length := List.length_take
        have hau : audio ++ l.take k = (pend ++ lab c ts (l.take k)).map (·.1) := by rw [List.map_append, lab_fst, ha]
        have hne : pend ++ lab c ts (l.take k) ≠ [] := by
          intro e
          have := congrArg List.length e
          rw [List.length_append, lab_length, htl] at this
          simp only [List.length_nil] at this
          omega
        have hlen : (pend ++ lab c ts (l.take k)).length = (audio ++ l.take k).length := by rw [List.length_append, List.length_append, lab_length, hal]
        by_cases hfull : (audio ++ l.take k).length = c.spp
        · rw [if_pos hfull]
          obtain ⟨o, ho, hcar⟩ := end_ok hc (cts := cts) hne (by rw [hlen, hfull]) hau hcts
          obtain ⟨r, hr, hw⟩ := ih (s := ⟨none⟩) (pend := []) ⟨hc.spp, rfl⟩ hadv allocs' hdl
          rw [ho, Option.bind_some, hr]
          refine ⟨_, rfl, ?_⟩
          rw [hsp]
          exact (Wrote.emit hcar (by rw [hlen, hfull]) hw).weaken hsub
        · rw [if_neg hfull]
          have hfl : (audio ++ l.take k).length < c.spp := by
            rw [List.length_append, htl] at hfull ⊢
            omega
          obtain ⟨r, hr, hw⟩ := ih (s := ⟨some (audio ++ l.take k, cts)⟩) (pend := pend ++ lab c ts (l.take k)) ⟨by rw [hlen]; exact hfl, hne, hau, hcts⟩ hadv allocs' hdl
          refine ⟨r, hr, ?_⟩
          rw [hsp]
          exact (Wrote.pre hw).weaken hsub
      obtain ⟨pkt⟩ := s
      cases pkt with
      | some p =>
        obtain ⟨audio, cts⟩ := p
        obtain ⟨h1, h2, h3, h4⟩ := hh
        refine key audio cts allocs h3 ?_ (fun x hx => hx)
        intro x hx
        cases pend with
        | nil => exact absurd rfl h2
        | cons y pend => exact h4 x hx
      | none =>
        have hp : pend = [] := hh.2
        by_cases hall : allocs.headD true = true
        · have hb : beginPacket (⟨none⟩ : St α) ts allocs = (some ([], ts), allocs.tail) := by
            show (if allocs.headD true = true then _ else _, _) = _
            rw [if_pos hall]
          rw [hb]
          refine key [] ts allocs.tail (by rw [hp]; rfl) ?_ (fun x hx => List.mem_of_mem_tail hx)
          intro x hx
          rw [hp] at hx
          cases l with
          | nil => exact absurd rfl h0
          | cons a l =>
            have := hc.spp
            obtain ⟨n, hn⟩ : ∃ n, c.spp - ([] : List α).length = n + 1 := ⟨c.spp - 1, by simp only [List.length_nil]; omega⟩
            rw [hn, List.take_succ_cons, List.nil_append, lab_head] at hx
            rw [← Option.some.inj hx]
        · have hb : beginPacket (⟨none⟩ : St α) ts allocs = (none, allocs.tail) := by
            show (if allocs.headD true = true then _ else _, _) = _
            rw [if_neg hall]
          rw [hb]
          refine ⟨_, rfl, 0, [], [], Nat.zero_le _, fun _ => ⟨?_, rfl⟩, List.Forall₂.nil, (fun g hg => by cases hg), by rw [hp]; simp, hc.spp, rfl⟩
          cases allocs with
          | nil => exact absurd rfl hall
          | cons b bs =>
            cases b
            · exact List.mem_cons_self
            · exact absurd rfl hall

theorem run_good {c : Cfg} (hc : CfgOk c) (ops : List (Op α)) (ht : Times ops) {s : St α} {pend : List (α × Int)} (hh : Holds c s pend) :
    ∃ r pend', run c s ops = some r ∧ Good c pend ops r.1 pend' ∧ Holds c r.2 pend' := by
  induction ops generalizing s pend with
  | nil => exact ⟨_, pend, rfl, .nil, hh⟩
  | cons o ops ih =>
    have ht' : Times ops := fun l cts allocs h => ht l cts allocs (List.mem_cons_of_mem _ h)
    unfold run
    cases o with
    | write l cts allocs =>
      obtain ⟨r, hr, k, mid, gs, h1, h2, h3, h4, h5, h6⟩ := loop_ok hc l.length hh (l := l) (ht l cts allocs List.mem_cons_self) allocs (Nat.le_refl _)
      rw [lab_length] at h1 h2
      obtain ⟨r', pend', hr', hg', hh'⟩ := ih ht' h6
      refine ⟨(r.1 :: r'.1, r'.2), pend', ?_, ?_, hh'⟩
      · show (loop c l.length s l cts allocs).bind _ = _
        rw [hr, Option.bind_some, hr']; rfl
      · rw [← label_eq] at h5
        exact .write k h1 h2 gs h3 h4 h5 h6.1 hg'
    | flush =>
      obtain ⟨pkt⟩ := s
      cases pkt with
      | none =>
        have hp : pend = [] := hh.2
        rw [hp] at hh
        obtain ⟨r', pend', hr', hg', hh'⟩ := ih ht' hh
        refine ⟨([] :: r'.1, r'.2), pend', ?_, .flush (Or.inl ⟨hp, rfl⟩) hg', hh'⟩
        show (run c ⟨none⟩ ops).map _ = _
        rw [hr']; rfl
      | some p =>
        obtain ⟨audio, cts⟩ := p
        obtain ⟨h1, h2, h3, h4⟩ := hh
        obtain ⟨o, ho, hcar⟩ := end_ok hc h2 (by omega) h3 h4
        obtain ⟨r', pend', hr', hg', hh'⟩ := ih ht' (s := ⟨none⟩) (pend := []) ⟨hc.spp, rfl⟩
        refine ⟨([o] :: r'.1, r'.2), pend', ?_, .flush (Or.inr ⟨o, rfl, hcar⟩) hg', hh'⟩
        show ((endPacket c audio cts).map _).bind _ = _
        rw [ho]
        show (run c ⟨none⟩ ops).map _ = _
        rw [hr']; rfl

/-- C38: for every sequence of frames and flushes, the packetizer does not abort, and sends packets as follows. Samples are sent in the
order of writing, without loss or duplication. Packets sent by `write` have exactly the configured number of samples; `flush`
sends the samples which were not sent, if any. A packet has the capture time of its first sample, its duration is the number of its
samples, and padding completes it to the fixed size. If a packet cannot be allocated, the rest of that frame is lost, and nothing
else. -/
theorem C38_packets (c : Cfg) (hc : CfgOk c) (ops : List (Op α)) (ht : Times ops) :
    ∃ r pend, run c ⟨none⟩ ops = some r ∧ Good c [] ops r.1 pend := by
  obtain ⟨r, pend', h1, h2, _⟩ := run_good hc ops ht (s := ⟨none⟩) (pend := []) ⟨hc.spp, rfl⟩
  exact ⟨r, pend', h1, h2⟩

theorem carries_audio {c : Cfg} {os : List (Out α)} {gs : List (List (α × Int))} (h : List.Forall₂ (Carries c) os gs) :
    (os.map (·.audio)).flatten = gs.flatten.map (·.1) := by
  induction h with
  | nil => rfl
  | cons h1 _ ih => rw [List.map_cons, List.flatten_cons, ih, h1.audio, List.flatten_cons, List.map_append]

theorem good_audio {c : Cfg} {pend pend' : List (α × Int)} {ops : List (Op α)} {outs : List (List (Out α))} (h : Good c pend ops outs pend') (hn : NoFail ops) :
    (outs.flatten.map (·.audio)).flatten ++ pend'.map (·.1) = pend.map (·.1) ++ written ops := by
  induction h with
  | nil => simp [written]
  | @flush pend ops os outs pend' h hr ih =>
    have ih := ih (fun l cts allocs h => hn l cts allocs (List.mem_cons_of_mem _ h))
    have e : (os.map (·.audio)).flatten = pend.map (·.1) := by
      rcases h with ⟨h1, h2⟩ | ⟨o, h1, h2⟩
      · rw [h1, h2]; rfl
      · rw [h1]
        simp [h2.audio]
    rw [List.flatten_cons, List.map_append, List.flatten_append, List.append_assoc, ih, e]
    rfl
  | @write pend mid l cts allocs ops os outs pend' k hk hf gs hg hn' he hm hr ih =>
    have ih := ih (fun l cts allocs h => hn l cts allocs (List.mem_cons_of_mem _ h))
    have hkl : k = l.length := by
      rcases Nat.lt_or_ge k l.length with h | h
      · exact absurd (hf h).1 (hn l cts allocs List.mem_cons_self)
      · omega
    rw [List.flatten_cons, List.map_append, List.flatten_append, List.append_assoc, ih, carries_audio hg, ← List.append_assoc, ← List.map_append, he, List.map_append, hkl]
    have : ((label c l cts).take l.length).map (·.1) = l := by
      rw [label_eq, List.take_of_length_le (by rw [lab_length]), lab_fst]
    rw [this, List.append_assoc]
    rfl

theorem good_flush {c : Cfg} {pend pend' : List (α × Int)} {ops : List (Op α)} {outs : List (List (Out α))} (h : Good c pend (ops ++ [.flush]) outs pend') : pend' = [] := by
  generalize hops : ops ++ [Op.flush] = ops' at h
  induction h generalizing ops with
  | nil => exact absurd (congrArg List.length hops) (by simp)
  | @flush pend ops' os outs pend' h hr ih =>
    cases ops with
    | nil =>
      injection hops with _ h2
      rw [← h2] at hr
      cases hr
      rfl
    | cons o ops =>
      injection hops with _ h2
      exact ih h2
  | @write pend mid l cts allocs ops' os outs pend' k hk hf gs hg hn' he hm hr ih =>
    cases ops with
    | nil => injection hops with h1 _; cases h1
    | cons o ops =>
      injection hops with _ h2
      exact ih h2

/-- C38: without allocation failures, after the final flush the audio of all packets is exactly the concatenation of all frames. -/
theorem C38_conserves (c : Cfg) (hc : CfgOk c) (ops : List (Op α)) (ht : Times ops) (hn : NoFail ops) :
    ∃ r, run c ⟨none⟩ (ops ++ [.flush]) = some r ∧ (r.1.flatten.map (·.audio)).flatten = written ops := by
  have ht' : Times (ops ++ [.flush]) := by
    intro l cts allocs h
    rcases List.mem_append.mp h with h | h
    · exact ht l cts allocs h
    · cases List.mem_singleton.mp h
  have hn' : NoFail (ops ++ [.flush]) := by
    intro l cts allocs h
    rcases List.mem_append.mp h with h | h
    · exact hn l cts allocs h
    · cases List.mem_singleton.mp h
  obtain ⟨r, pend, h1, h2⟩ := C38_packets c hc (ops ++ [.flush]) ht'
  refine ⟨r, h1, ?_⟩
  have h3 := good_audio h2 hn'
  rw [good_flush h2] at h3
  have hw : ∀ ops : List (Op α), written (ops ++ [.flush]) = written ops := by
    intro ops
    induction ops with
    | nil => rfl
    | cons o ops ih =>
      cases o with
      | flush => exact ih
      | write l cts allocs => show l ++ written (ops ++ [.flush]) = l ++ written ops; rw [ih]
  rw [hw] at h3
  simpa using h3

/-- 4 bytes per sample, 3 samples per packet. -/
def demoCfg : Cfg := ⟨3, 10, fun n => 4 * n⟩

theorem demo_ok : CfgOk demoCfg := ⟨by decide, by decide, by decide, by intro a b h; show 4 * a ≤ 4 * b; omega⟩

def outsOf (c : Cfg) (ops : List (Op Nat)) : Option (List (List (Out Nat))) := (run c ⟨none⟩ ops).map (·.1)

/-- Non-vacuity: frames of different sizes, a flush, and an allocation failure. -/
theorem demo : outsOf demoCfg [.write [1, 2] 1000 [], .write [3, 4, 5, 6, 7] 2000 [true], .flush, .write [8, 9, 10, 11] 3000 [true, false], .write [12, 13, 14] 0 []] =
    some [[], [⟨[1, 2, 3], 0, 1000, 3⟩, ⟨[4, 5, 6], 0, 2010, 3⟩], [⟨[7], 8, 2040, 1⟩], [⟨[8, 9, 10], 0, 3000, 3⟩], [⟨[12, 13, 14], 0, 0, 3⟩]] := by decide +kernel

end Verif.Packetizer
