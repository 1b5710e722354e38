import Verif.RtcpBuild.Enc

/-! Effect of the calls of the builder, both when the packet fits and when it does not. -/

namespace Verif.RtcpBuild

open Verif.Bytes Verif.RtcpFields Verif.RtcpParse

/-- The builder holds these bytes, or it is truncated because they do not fit. -/
structure Holds (s : Bld) (cap : Nat) (D : Bytes) (ho : Option Nat) (want : Bytes) : Prop where
  capEq : s.cap = cap
  cases : (s.truncated = false ∧ s.done = D ∧ s.cur = want ∧ s.hdrOff = ho ∧ D.length + want.length ≤ cap) ∨
    (s.truncated = true ∧ D.length + want.length > cap)

/-- Flags that tell which packets were written are the same. -/
structure Flags (s s' : Bld) : Prop where
  sr : s'.srWritten = s.srWritten
  rr : s'.rrWritten = s.rrWritten
  cname : s'.cnameWritten = s.cnameWritten

theorem Flags.refl (s : Bld) : Flags s s := ⟨rfl, rfl, rfl⟩

theorem Flags.trans {a b c : Bld} (h1 : Flags a b) (h2 : Flags b c) : Flags a c :=
  ⟨h2.sr.trans h1.sr, h2.rr.trans h1.rr, h2.cname.trans h1.cname⟩

theorem run_nil (c : Config) (s : Bld) : run c s [] = some s := rfl

theorem run_cons (c : Config) (s : Bld) (a : Call) (l : List Call) : run c s (a :: l) = (step c s a).bind (fun s' => run c s' l) := by
  unfold run
  rw [List.foldlM_cons]
  rfl

theorem run_append (c : Config) (s : Bld) (l l' : List Call) : run c s (l ++ l') = (run c s l).bind (fun s' => run c s' l') := by
  unfold run
  rw [List.foldlM_append]
  rfl

theorem run_step {c : Config} {s s' : Bld} {a : Call} (h : step c s a = some s') (l : List Call) : run c s (a :: l) = run c s' l := by
  rw [run_cons, h]; rfl

theorem run_then {c : Config} {s s' : Bld} {l : List Call} (h : run c s l = some s') (l' : List Call) : run c s (l ++ l') = run c s' l' := by
  rw [run_append, h]; rfl

variable {cap : Nat} {D want : Bytes} {ho : Option Nat}

theorem beginPacket_holds {s : Bld} (h : Holds s cap D ho []) (m : Bytes) :
    Holds (beginPacket s m) cap D (some D.length) m ∧ (beginPacket s m).st = s.st ∧ Flags s (beginPacket s m) := by
  unfold beginPacket
  rcases h.cases with ⟨h1, h2, h3, h4, h5⟩ | ⟨h1, h2⟩
  · rw [if_neg (by rw [h1]; decide)]
    split_ifs with hlt
    · rw [h2, h.capEq] at hlt
      exact ⟨⟨h.capEq, Or.inr ⟨rfl, by omega⟩⟩, rfl, rfl, rfl, rfl⟩
    · rw [h2, h.capEq] at hlt
      simp only [List.length_nil] at h5
      exact ⟨⟨h.capEq, Or.inl ⟨h1, h2, rfl, by simp only [h2], by omega⟩⟩, rfl, rfl, rfl, rfl⟩
  · rw [if_pos h1]
    simp only [List.length_nil] at h2
    exact ⟨⟨h.capEq, Or.inr ⟨h1, by omega⟩⟩, rfl, Flags.refl _⟩

theorem addBlock_holds {s : Bld} (h : Holds s cap D ho want) (m : Bytes) :
    Holds (addBlock s m) cap D ho (want ++ m) ∧ (addBlock s m).st = s.st ∧ (addBlock s m).xrOff = s.xrOff ∧
      Flags s (addBlock s m) := by
  unfold addBlock
  rcases h.cases with ⟨h1, h2, h3, h4, h5⟩ | ⟨h1, h2⟩
  · rw [if_neg (by rw [h1]; decide)]
    split_ifs with hlt
    · rw [h2, h3, h.capEq] at hlt
      exact ⟨⟨h.capEq, Or.inr ⟨rfl, by rw [List.length_append]; omega⟩⟩, rfl, rfl, rfl, rfl, rfl⟩
    · rw [h2, h3, h.capEq] at hlt
      exact ⟨⟨h.capEq, Or.inl ⟨h1, h2, by simp only [h3], h4, by rw [List.length_append]; omega⟩⟩, rfl, rfl, rfl, rfl, rfl⟩
  · rw [if_pos h1]
    exact ⟨⟨h.capEq, Or.inr ⟨h1, by rw [List.length_append]; omega⟩⟩, rfl, rfl, Flags.refl _⟩

theorem editHdr_holds {s : Bld} (h : Holds s cap D ho want) {f : Bytes → Option Bytes} {want' : Bytes} (hf : f want = some want')
    (hl : want'.length = want.length) :
    ∃ s', editHdr s f = some s' ∧ Holds s' cap D ho want' ∧ s'.st = s.st ∧ Flags s s' := by
  unfold editHdr
  rcases h.cases with ⟨h1, h2, h3, h4, h5⟩ | ⟨h1, h2⟩
  · rw [if_neg (by rw [h1]; decide), h3, hf]
    exact ⟨_, rfl, ⟨h.capEq, Or.inl ⟨h1, h2, rfl, h4, by omega⟩⟩, rfl, rfl, rfl, rfl⟩
  · rw [if_pos h1]
    exact ⟨_, rfl, ⟨h.capEq, Or.inr ⟨h1, by omega⟩⟩, rfl, Flags.refl _⟩

theorem endPacket_holds {s : Bld} {k t l : Nat} {rest : Bytes} (h : Holds s cap D ho (hdr false k t l ++ rest))
    (hm : rest.length % 4 = 0) (hn : 4 + rest.length ≤ 65535) :
    ∃ s', endPacket s = some s' ∧ Holds s' cap (D ++ (hdr false k t (4 + rest.length) ++ rest)) ho [] ∧ s'.st = s.st ∧
      Flags s s' := by
  have hlen : ∀ l, (hdr false k t l ++ rest).length = 4 + rest.length := by
    intro l; rw [List.length_append, hdr_length]
  unfold endPacket
  rcases h.cases with ⟨h1, h2, h3, h4, h5⟩ | ⟨h1, h2⟩
  · rw [hlen] at h5
    rw [if_neg (by rw [h1]; decide), h3, hlen, if_neg (by omega), setLen_hdr _ _ _ _ _ _ (by omega) (by omega) hn]
    refine ⟨_, rfl, ⟨h.capEq, Or.inl ⟨h1, ?_, rfl, h4, ?_⟩⟩, rfl, rfl, rfl, rfl⟩
    · simp only; rw [h2]
    · rw [List.length_append, hlen, List.length_nil]; omega
  · rw [hlen] at h2
    rw [if_pos h1]
    refine ⟨_, rfl, ⟨h.capEq, Or.inr ⟨h1, ?_⟩⟩, rfl, Flags.refl _⟩
    rw [List.length_append, hlen, List.length_nil]; omega

/-- Changing only the state and flags keeps the bytes. -/
theorem Holds.setSt {s s' : Bld} (h : Holds s cap D ho want) (h1 : s'.cap = s.cap) (h2 : s'.truncated = s.truncated)
    (h3 : s'.done = s.done) (h4 : s'.cur = s.cur) (h5 : s'.hdrOff = s.hdrOff) : Holds s' cap D ho want :=
  ⟨h1.trans h.capEq, by rw [h2, h3, h4, h5]; exact h.cases⟩

/-! ## Reports -/

theorem srReports_run (c : Config) (rs : List Bytes) : ∀ (s : Bld) (k l : Nat) (rest : Bytes),
    (s.st = .srHead ∨ s.st = .srReport) → Holds s cap D ho (hdr false k 200 l ++ rest) → k + rs.length ≤ 31 →
    (∀ r ∈ rs, r.length = 24) → rest.length % 4 = 0 → 4 + rest.length + 24 * rs.length ≤ 65535 →
    ∃ s' l', run c s (rs.map .srReport) = some s' ∧ (s'.st = .srHead ∨ s'.st = .srReport) ∧
      Holds s' cap D ho (hdr false (k + rs.length) 200 l' ++ (rest ++ rs.flatten)) ∧ Flags s s' := by
  induction rs with
  | nil =>
    intro s k l rest hst h _ _ _ _
    exact ⟨s, l, rfl, hst, by simpa using h, Flags.refl _⟩
  | cons r rs ih =>
    intro s k l rest hst h hk hr hm hn
    have hr0 := hr r List.mem_cons_self
    rw [List.length_cons] at hk hn
    have h0 : Holds { s with st := St.srReport } cap D ho (hdr false k 200 l ++ rest) := h.setSt rfl rfl rfl rfl rfl
    obtain ⟨a1, a2, _, a3⟩ := addBlock_holds h0 r
    rw [List.append_assoc] at a1
    have hl : (rest ++ r).length = rest.length + 24 := by rw [List.length_append, hr0]
    obtain ⟨s1, e1, b1, b2, b3⟩ := editHdr_holds a1
      (countReport_hdr false k 200 l (rest ++ r) (by omega) (by omega) (by omega)) (by simp only [List.length_append, hdr_length])
    have hstep : step c s (.srReport r) = some s1 := by
      simp only [step]
      rw [if_neg (by rcases hst with h | h <;> rw [h] <;> decide)]
      exact e1
    obtain ⟨s', l', r1, r2, r3, r4⟩ := ih s1 (k + 1) _ (rest ++ r) (Or.inr (by rw [b2, a2])) b1 (by omega)
      (fun x hx => hr x (List.mem_cons_of_mem _ hx)) (by omega) (by omega)
    refine ⟨s', l', ?_, r2, ?_, ?_⟩
    · rw [List.map_cons, run_step hstep]; exact r1
    · rw [List.flatten_cons, ← List.append_assoc rest, List.length_cons, show k + (rs.length + 1) = k + 1 + rs.length by omega]
      exact r3
    · exact (Flags.trans (a := s) (b := { s with st := St.srReport }) ⟨rfl, rfl, rfl⟩ (a3.trans b3)).trans r4

theorem rrReports_run (c : Config) (rs : List Bytes) : ∀ (s : Bld) (k l : Nat) (rest : Bytes),
    (s.st = .rrHead ∨ s.st = .rrReport) → Holds s cap D ho (hdr false k 201 l ++ rest) → k + rs.length ≤ 31 →
    (∀ r ∈ rs, r.length = 24) → rest.length % 4 = 0 → 4 + rest.length + 24 * rs.length ≤ 65535 →
    ∃ s' l', run c s (rs.map .rrReport) = some s' ∧ (s'.st = .rrHead ∨ s'.st = .rrReport) ∧
      Holds s' cap D ho (hdr false (k + rs.length) 201 l' ++ (rest ++ rs.flatten)) ∧ Flags s s' := by
  induction rs with
  | nil =>
    intro s k l rest hst h _ _ _ _
    exact ⟨s, l, rfl, hst, by simpa using h, Flags.refl _⟩
  | cons r rs ih =>
    intro s k l rest hst h hk hr hm hn
    have hr0 := hr r List.mem_cons_self
    rw [List.length_cons] at hk hn
    have h0 : Holds { s with st := St.rrReport } cap D ho (hdr false k 201 l ++ rest) := h.setSt rfl rfl rfl rfl rfl
    obtain ⟨a1, a2, _, a3⟩ := addBlock_holds h0 r
    rw [List.append_assoc] at a1
    have hl : (rest ++ r).length = rest.length + 24 := by rw [List.length_append, hr0]
    obtain ⟨s1, e1, b1, b2, b3⟩ := editHdr_holds a1
      (countReport_hdr false k 201 l (rest ++ r) (by omega) (by omega) (by omega)) (by simp only [List.length_append, hdr_length])
    have hstep : step c s (.rrReport r) = some s1 := by
      simp only [step]
      rw [if_neg (by rcases hst with h | h <;> rw [h] <;> decide)]
      exact e1
    obtain ⟨s', l', r1, r2, r3, r4⟩ := ih s1 (k + 1) _ (rest ++ r) (Or.inr (by rw [b2, a2])) b1 (by omega)
      (fun x hx => hr x (List.mem_cons_of_mem _ hx)) (by omega) (by omega)
    refine ⟨s', l', ?_, r2, ?_, ?_⟩
    · rw [List.map_cons, run_step hstep]; exact r1
    · rw [List.flatten_cons, ← List.append_assoc rest, List.length_cons, show k + (rs.length + 1) = k + 1 + rs.length by omega]
      exact r3
    · exact (Flags.trans (a := s) (b := { s with st := St.rrReport }) ⟨rfl, rfl, rfl⟩ (a3.trans b3)).trans r4

/-! ## SDES -/

theorem items_run (c : Config) (is : List (Nat × Bytes)) : ∀ (s : Bld) (want : Bytes),
    s.st = .sdesChunk → Holds s cap D ho want → (∀ i ∈ is, TextOk i.2) → (∀ i ∈ is, i.1 = cname → i.2 ≠ []) →
    is.countP (fun i => i.1 = cname) ≤ (if s.cnameWritten then 0 else 1) →
    ∃ s', run c s (is.map (fun i => .item i.1 i.2)) = some s' ∧ s'.st = .sdesChunk ∧ Holds s' cap D ho (want ++ encItems is) ∧
      s'.srWritten = s.srWritten ∧ s'.rrWritten = s.rrWritten ∧
      s'.cnameWritten = (s.cnameWritten || decide (0 < is.countP (fun i => i.1 = cname))) := by
  induction is with
  | nil =>
    intro s want hst h _ _ _
    refine ⟨s, rfl, hst, ?_, rfl, rfl, ?_⟩
    · simpa [encItems] using h
    · simp
  | cons i is ih =>
    intro s want hst h ht hc hn
    obtain ⟨t, x⟩ := i
    have ht0 := (ht _ List.mem_cons_self).1
    have hc0 := hc _ List.mem_cons_self
    simp only at ht0 hc0
    rw [List.countP_cons] at hn
    simp only [decide_eq_true_eq] at hn
    have h0 : Holds { s with cnameWritten := s.cnameWritten || decide (t = 1) } cap D ho want := h.setSt rfl rfl rfl rfl rfl
    obtain ⟨a1, a2, _, a3⟩ := addBlock_holds h0 (itemBytes t x)
    have hstep : step c s (.item t x) = some (addBlock { s with cnameWritten := s.cnameWritten || decide (t = 1) } (itemBytes t x)) := by
      simp only [step, addItem]
      rw [if_neg (by rw [hst]; simp; exact ht0)]
      rw [if_neg]
      rintro ⟨h1, h2⟩
      rcases h2 with h2 | h2
      · exact hc0 h1 (List.length_eq_zero_iff.1 h2)
      · rw [if_pos h2, if_pos h1] at hn; omega
    obtain ⟨s', r1, r2, r3, r4, r5, r6⟩ := ih _ _ (a2.trans hst) a1 (fun i hi => ht i (List.mem_cons_of_mem _ hi))
      (fun i hi => hc i (List.mem_cons_of_mem _ hi)) (by
        rw [a3.cname]
        simp only
        by_cases ht1 : t = 1
        · rw [if_pos ht1] at hn
          rw [decide_eq_true ht1, Bool.or_true, if_pos rfl]
          split_ifs at hn <;> omega
        · rw [if_neg ht1] at hn
          rw [decide_eq_false ht1, Bool.or_false]
          exact hn)
    refine ⟨s', ?_, r2, ?_, ?_, ?_, ?_⟩
    · rw [List.map_cons, run_step hstep]; exact r1
    · have : encItems ((t, x) :: is) = itemBytes t x ++ encItems is := rfl
      rw [this, ← List.append_assoc]
      exact r3
    · exact r4.trans a3.sr
    · exact r5.trans a3.rr
    · rw [r6, a3.cname]
      simp only
      rw [List.countP_cons]
      simp only [decide_eq_true_eq]
      by_cases ht1 : t = 1
      · rw [if_pos ht1, decide_eq_true ht1]
        simp
      · rw [if_neg ht1, decide_eq_false ht1]
        simp

theorem chunk_run (c : Config) (ch : Chunk) (s : Bld) (k l : Nat) (rest : Bytes) (hst : s.st = .sdesHead)
    (h : Holds s cap D ho (hdr false k 202 l ++ rest)) (hk : k < 31) (hm : rest.length % 4 = 0) (hok : ChunkOk ch) :
    ∃ s', run c s ch.calls = some s' ∧ s'.st = .sdesHead ∧ Holds s' cap D ho (hdr false (k + 1) 202 l ++ (rest ++ encChunk ch)) ∧
      s'.srWritten = s.srWritten ∧ s'.rrWritten = s.rrWritten ∧ s'.cnameWritten = true := by
  have h0 : Holds { s with st := St.sdesChunk, cnameWritten := false } cap D ho (hdr false k 202 l ++ rest) :=
    h.setSt rfl rfl rfl rfl rfl
  obtain ⟨a1, a2, _, a3⟩ := addBlock_holds h0 (toBe 4 ch.ssrc)
  rw [List.append_assoc] at a1
  obtain ⟨s1, e1, b1, b2, b3⟩ := editHdr_holds a1 (incCounter_hdr false k 202 l (rest ++ toBe 4 ch.ssrc) hk)
    (by simp only [List.length_append, hdr_length])
  have hstep : step c s (.beginChunk ch.ssrc) = some s1 := by
    simp only [step]
    rw [if_neg (by rw [hst]; decide)]
    exact e1
  have hcn1 : s1.cnameWritten = false := b3.cname.trans a3.cname
  obtain ⟨s2, r1, r2, r3, r4, r5, r6⟩ := items_run c ch.items s1 _ (b2.trans a2) b1 (fun i hi => (hok.items i hi).2.2)
    hok.cnameText (by rw [hcn1, hok.cnameOnce]; decide)
  have hcn2 : s2.cnameWritten = true := by
    rw [r6, hok.cnameOnce]; simp
  have h3 : Holds { s2 with st := St.sdesHead } cap D ho ((hdr false (k + 1) 202 l ++ (rest ++ toBe 4 ch.ssrc)) ++ encItems ch.items) :=
    r3.setSt rfl rfl rfl rfl rfl
  obtain ⟨c1, c2, _, c3⟩ := addBlock_holds h3 (List.replicate (paddingLen s2.cur.length 1) 0)
  have hend : step c s2 .endChunk = some (addBlock { s2 with st := St.sdesHead } (List.replicate (paddingLen s2.cur.length 1) 0)) := by
    simp only [step]
    rw [if_neg (by rw [r2, hcn2]; decide)]
  refine ⟨_, ?_, c2, ?_, ?_, ?_, ?_⟩
  · show run c s (.beginChunk ch.ssrc :: (ch.items.map (fun i => Call.item i.1 i.2) ++ [.endChunk])) = _
    rw [run_step hstep, run_then r1, run_step hend, run_nil]
  · rcases c1.cases with ⟨g1, g2, g3, g4, g5⟩ | ⟨g1, g2⟩
    · -- not truncated, so the size of the current packet is known
      have htr : s2.truncated = false := by
        by_contra hne
        have : s2.truncated = true := by simpa using hne
        have hadd : (addBlock { s2 with st := St.sdesHead } (List.replicate (paddingLen s2.cur.length 1) 0)).truncated = true := by
          unfold addBlock
          rw [if_pos (by exact this)]
          exact this
        rw [hadd] at g1
        exact absurd g1 (by decide)
      have hcur : s2.cur = (hdr false (k + 1) 202 l ++ (rest ++ toBe 4 ch.ssrc)) ++ encItems ch.items := by
        rcases r3.cases with ⟨_, _, q, _⟩ | ⟨q, _⟩
        · exact q
        · rw [htr] at q; exact absurd q (by decide)
      have hlen : s2.cur.length = 4 + rest.length + 4 + (encItems ch.items).length := by
        rw [hcur, List.length_append, List.length_append, List.length_append, hdr_length, toBe_length]; omega
      have hpad : paddingLen s2.cur.length 1 = ch.size - (4 + (encItems ch.items).length) := by
        rw [hlen]
        unfold paddingLen Chunk.size
        rw [← encItems_length]
        omega
      have heq : (hdr false (k + 1) 202 l ++ (rest ++ toBe 4 ch.ssrc)) ++ encItems ch.items ++
          List.replicate (paddingLen s2.cur.length 1) 0 = hdr false (k + 1) 202 l ++ (rest ++ encChunk ch) := by
        rw [hpad]
        unfold encChunk
        simp only [List.append_assoc]
      rw [heq] at g3 g5
      exact ⟨c1.capEq, Or.inl ⟨g1, g2, g3, g4, g5⟩⟩
    · refine ⟨c1.capEq, Or.inr ⟨g1, ?_⟩⟩
      rcases r3.cases with ⟨q1, _, q3, _⟩ | ⟨_, q2⟩
      · have hlen : s2.cur.length = 4 + rest.length + 4 + (encItems ch.items).length := by
          rw [q3, List.length_append, List.length_append, List.length_append, hdr_length, toBe_length]; omega
        have hpad : paddingLen s2.cur.length 1 = ch.size - (4 + (encItems ch.items).length) := by
          rw [hlen]
          unfold paddingLen Chunk.size
          rw [← encItems_length]
          omega
        rw [hpad] at g2
        unfold encChunk
        simp only [List.length_append, List.length_replicate] at g2 ⊢
        omega
      · unfold encChunk
        simp only [List.length_append, List.length_replicate] at q2 ⊢
        omega
  · exact (c3.sr.trans r4).trans (b3.sr.trans a3.sr)
  · exact (c3.rr.trans r5).trans (b3.rr.trans a3.rr)
  · exact c3.cname.trans hcn2

theorem chunks_run (c : Config) (cs : List Chunk) : ∀ (s : Bld) (k l : Nat) (rest : Bytes), s.st = .sdesHead →
    Holds s cap D ho (hdr false k 202 l ++ rest) → k + cs.length ≤ 31 → rest.length % 4 = 0 → (∀ x ∈ cs, ChunkOk x) →
    ∃ s', run c s (cs.flatMap Chunk.calls) = some s' ∧ s'.st = .sdesHead ∧
      Holds s' cap D ho (hdr false (k + cs.length) 202 l ++ (rest ++ cs.flatMap encChunk)) ∧
      s'.srWritten = s.srWritten ∧ s'.rrWritten = s.rrWritten ∧ s'.cnameWritten = (s.cnameWritten || !cs.isEmpty) := by
  induction cs with
  | nil =>
    intro s k l rest hst h _ _ _
    refine ⟨s, rfl, hst, by simpa using h, rfl, rfl, by simp⟩
  | cons x cs ih =>
    intro s k l rest hst h hk hm hok
    rw [List.length_cons] at hk
    obtain ⟨s1, r1, r2, r3, r4, r5, r6⟩ := chunk_run c x s k l rest hst h (by omega) hm (hok x List.mem_cons_self)
    obtain ⟨s', q1, q2, q3, q4, q5, q6⟩ := ih s1 (k + 1) l (rest ++ encChunk x) r2 r3 (by omega)
      (by rw [List.length_append, encChunk_length]; have := chunk_size_mod x; omega) (fun y hy => hok y (List.mem_cons_of_mem _ hy))
    refine ⟨s', ?_, q2, ?_, q4.trans r4, q5.trans r5, ?_⟩
    · rw [List.flatMap_cons, run_then r1, q1]
    · rw [List.flatMap_cons, List.length_cons, show k + (cs.length + 1) = k + 1 + cs.length by omega, ← List.append_assoc rest]
      exact q3
    · rw [q6, r6]; simp

/-! ## BYE -/

theorem ssrcs_run (c : Config) (ss : List Nat) : ∀ (s : Bld) (k l : Nat) (rest : Bytes),
    (s.st = .byeSsrc ∨ (s.st = .byeHead ∧ ss ≠ [])) →
    Holds s cap D ho (hdr false k 203 l ++ rest) → k + ss.length ≤ 31 →
    ∃ s', run c s (ss.map .byeSsrc) = some s' ∧ s'.st = .byeSsrc ∧
      Holds s' cap D ho (hdr false (k + ss.length) 203 l ++ (rest ++ ss.flatMap (toBe 4))) ∧ Flags s s' := by
  induction ss with
  | nil =>
    intro s k l rest hst h _
    rcases hst with hst | ⟨_, hne⟩
    · exact ⟨s, rfl, hst, by simpa using h, Flags.refl _⟩
    · exact absurd rfl hne
  | cons x ss ih =>
    intro s k l rest hst h hk
    rw [List.length_cons] at hk
    have h0 : Holds { s with st := St.byeSsrc } cap D ho (hdr false k 203 l ++ rest) := h.setSt rfl rfl rfl rfl rfl
    obtain ⟨a1, a2, _, a3⟩ := addBlock_holds h0 (toBe 4 x)
    rw [List.append_assoc] at a1
    obtain ⟨s1, e1, b1, b2, b3⟩ := editHdr_holds a1 (incCounter_hdr false k 203 l (rest ++ toBe 4 x) (by omega))
      (by simp only [List.length_append, hdr_length])
    have hstep : step c s (.byeSsrc x) = some s1 := by
      simp only [step]
      rw [if_neg (by rcases hst with h | ⟨h, _⟩ <;> rw [h] <;> decide)]
      exact e1
    obtain ⟨s', r1, r2, r3, r4⟩ := ih s1 (k + 1) l (rest ++ toBe 4 x) (Or.inl (b2.trans a2)) b1 (by omega)
    refine ⟨s', ?_, r2, ?_, ?_⟩
    · rw [List.map_cons, run_step hstep, r1]
    · rw [List.flatMap_cons, List.length_cons, show k + (ss.length + 1) = k + 1 + ss.length by omega, ← List.append_assoc rest]
      exact r3
    · exact (Flags.trans (a := s) (b := { s with st := St.byeSsrc }) ⟨rfl, rfl, rfl⟩ (a3.trans b3)).trans r4

theorem reason_run (c : Config) (r : Option Bytes) (s : Bld) (hst : s.st = .byeSsrc) (h : Holds s cap D ho want)
    (ht : ∀ x, r = some x → TextOk x) :
    ∃ s', run c s (reasonCalls r) = some s' ∧ (s'.st = .byeSsrc ∨ s'.st = .byeReason) ∧ Holds s' cap D ho (want ++ encReason r) ∧
      Flags s s' := by
  cases r with
  | none => exact ⟨s, rfl, Or.inl hst, by simpa [encReason] using h, Flags.refl _⟩
  | some x =>
    have h0 : Holds { s with st := St.byeReason } cap D ho want := h.setSt rfl rfl rfl rfl rfl
    obtain ⟨a1, a2, _, a3⟩ := addBlock_holds h0 (reasonBytes x)
    have hl := (ht x rfl).1
    have hstep : step c s (.byeReason x) = some (addBlock { s with st := St.byeReason } (reasonBytes x)) := by
      simp only [step]
      rw [if_neg (by rw [hst]; simp; exact hl)]
    refine ⟨_, ?_, Or.inr a2, a1, ?_⟩
    · show run c s [.byeReason x] = _
      rw [run_step hstep, run_nil]
    · exact Flags.trans (a := s) (b := { s with st := St.byeReason }) ⟨rfl, rfl, rfl⟩ a3

/-! ## XR -/

/-- A block with the length set. -/
theorem setLen_block (b : XBlock) (l : Bytes) (hl : l.length + 4 = b.size) (hm : b.size % 4 = 0) (hn : b.size ≤ 65535) :
    setLenBytes (xrHead b ++ l) b.size = some ([BitVec.ofNat 8 (xrType b.kind), b.spec] ++ toBe 2 (b.size / 4 - 1) ++ l) := by
  unfold setLenBytes
  rw [if_neg (by omega)]
  rfl

theorem dlrrReports_run (c : Config) (ps : List Bytes) : ∀ (s : Bld) (want : Bytes),
    (s.st = .dlrrHead ∨ s.st = .dlrrReport) → Holds s cap D ho want →
    ∃ s', run c s (ps.map .dlrrReport) = some s' ∧ (s'.st = .dlrrHead ∨ s'.st = .dlrrReport) ∧
      Holds s' cap D ho (want ++ ps.flatten) ∧ s'.xrOff = s.xrOff ∧ Flags s s' := by
  induction ps with
  | nil =>
    intro s want hst h
    exact ⟨s, rfl, hst, by simpa using h, rfl, Flags.refl _⟩
  | cons p ps ih =>
    intro s want hst h
    have h0 : Holds { s with st := St.dlrrReport } cap D ho want := h.setSt rfl rfl rfl rfl rfl
    obtain ⟨a1, a2, a2', a3⟩ := addBlock_holds h0 p
    have hstep : step c s (.dlrrReport p) = some (addBlock { s with st := St.dlrrReport } p) := by
      simp only [step]
      rw [if_neg (by rcases hst with h | h <;> rw [h] <;> decide)]
    obtain ⟨s', r1, r2, r3, r3', r4⟩ := ih _ _ (Or.inr a2) a1
    refine ⟨s', ?_, r2, ?_, r3'.trans a2', ?_⟩
    · rw [List.map_cons, run_step hstep, r1]
    · rw [List.flatten_cons, ← List.append_assoc]; exact r3
    · exact (Flags.trans (a := s) (b := { s with st := St.dlrrReport }) ⟨rfl, rfl, rfl⟩ a3).trans r4

theorem block_run (c : Config) (b : XBlock) (s : Bld) (want : Bytes) (hst : s.st = .xrHead) (h : Holds s cap D ho want)
    (hok : BlockOk b) (hn : b.size ≤ 65535) :
    ∃ s', run c s b.calls = some s' ∧ s'.st = .xrHead ∧ Holds s' cap D ho (want ++ encBlock b) ∧ Flags s s' := by
  have hmod := block_size_mod b hok
  have hflat : b.parts.flatten.length + 4 = b.size := by
    unfold XBlock.size; rw [flatten_length]; omega
  have hset := setLen_block b b.parts.flatten hflat hmod hn
  have hhead : (xrHead b ++ b.parts.flatten).length = b.size := by
    rw [List.length_append]; show 4 + _ = _; omega
  unfold XBlock.calls
  split_ifs with hk
  · -- DLRR
    have h0 : Holds { s with st := St.dlrrHead } cap D ho want := h.setSt rfl rfl rfl rfl rfl
    obtain ⟨a1, a2, a2', a3⟩ := addBlock_holds h0 (xrHead b)
    obtain ⟨s1, hs1⟩ : ∃ s1, s1 = { addBlock { s with st := St.dlrrHead } (xrHead b) with
      xrOff := if (addBlock { s with st := St.dlrrHead } (xrHead b)).truncated then
        (addBlock { s with st := St.dlrrHead } (xrHead b)).xrOff else s.cur.length } := ⟨_, rfl⟩
    have hstep : step c s (.beginDlrr (xrHead b)) = some s1 := by
      simp only [step]
      rw [if_neg (by rw [hst]; decide), hs1]
    have h1 : Holds s1 cap D ho (want ++ xrHead b) := a1.setSt (by rw [hs1]) (by rw [hs1]) (by rw [hs1]) (by rw [hs1]) (by rw [hs1])
    have hst1 : s1.st = .dlrrHead := by rw [hs1]; exact a2
    have hx1 : s1.truncated = false → s1.xrOff = want.length := by
      intro ht
      have ht' : (addBlock { s with st := St.dlrrHead } (xrHead b)).truncated = false := by rw [hs1] at ht; exact ht
      have hcur : s.cur = want := by
        rcases h.cases with ⟨_, _, q, _⟩ | ⟨q, _⟩
        · exact q
        · exfalso
          have : (addBlock { s with st := St.dlrrHead } (xrHead b)).truncated = true := by
            unfold addBlock
            rw [if_pos (by exact q)]
            exact q
          rw [this] at ht'
          exact absurd ht' (by decide)
      rw [hs1]
      show (if (addBlock { s with st := St.dlrrHead } (xrHead b)).truncated then
        (addBlock { s with st := St.dlrrHead } (xrHead b)).xrOff else s.cur.length) = _
      rw [ht', hcur, if_neg (by decide)]
    obtain ⟨s2, r1, r2, r3, r4, r5⟩ := dlrrReports_run c b.parts s1 _ (Or.inl hst1) h1
    have hend : ∃ s3, step c s2 .endDlrr = some s3 ∧ s3.st = .xrHead ∧ Holds s3 cap D ho (want ++ encBlock b) ∧ Flags s2 s3 := by
      simp only [step, endDlrr]
      rw [if_neg (by rcases r2 with h | h <;> rw [h] <;> decide)]
      rcases r3.cases with ⟨q1, q2, q3, q4, q5⟩ | ⟨q1, q2⟩
      · rw [if_neg (by rw [q1]; decide)]
        have ht1 : s1.truncated = false := by
          rcases h1.cases with ⟨w, _⟩ | ⟨w1, w2⟩
          · exact w
          · exfalso
            simp only [List.length_append] at q5 w2
            omega
        have hx : s2.xrOff = want.length := r4.trans (hx1 ht1)
        have hdrop : s2.cur.drop s2.xrOff = xrHead b ++ b.parts.flatten := by
          rw [q3, hx, List.append_assoc, List.drop_left]
        have htake : s2.cur.take s2.xrOff = want := by
          rw [q3, hx, List.append_assoc, List.take_left]
        have hlen : s2.cur.length - s2.xrOff = b.size := by
          rw [← hhead, ← hdrop, List.length_drop]
        rw [hdrop, hlen, hset, htake]
        refine ⟨_, rfl, rfl, ⟨r3.capEq, Or.inl ⟨q1, q2, rfl, q4, ?_⟩⟩, rfl, rfl, rfl⟩
        have he := encBlock_length b
        simp only [List.length_append] at q5 ⊢
        rw [he]
        have : (xrHead b).length = 4 := rfl
        omega
      · rw [if_pos q1]
        refine ⟨_, rfl, rfl, ⟨r3.capEq, Or.inr ⟨q1, ?_⟩⟩, rfl, rfl, rfl⟩
        have he := encBlock_length b
        simp only [List.length_append] at q2 ⊢
        rw [he]
        have : (xrHead b).length = 4 := rfl
        omega
    obtain ⟨s3, e3, f1, f2, f3⟩ := hend
    refine ⟨s3, ?_, f1, f2, ?_⟩
    · show run c s (.beginDlrr (xrHead b) :: (b.parts.map Call.dlrrReport ++ [.endDlrr])) = _
      rw [run_step hstep, run_then r1, run_step e3, run_nil]
    · have : Flags s s1 := by
        rw [hs1]
        exact ⟨a3.sr, a3.rr, a3.cname⟩
      exact (this.trans r5).trans f3
  · -- other blocks
    obtain ⟨a1, a2, a2', a3⟩ := addBlock_holds h (xrHead b ++ b.parts.flatten)
    have hend : ∃ s3, step c s (.xrBlock (xrHead b ++ b.parts.flatten)) = some s3 ∧ s3.st = .xrHead ∧
        Holds s3 cap D ho (want ++ encBlock b) ∧ Flags s s3 := by
      simp only [step, addXrBlock]
      rw [if_neg (by rw [hst]; decide)]
      rcases a1.cases with ⟨q1, q2, q3, q4, q5⟩ | ⟨q1, q2⟩
      · have hcur : s.cur = want := by
          rcases h.cases with ⟨_, _, q, _⟩ | ⟨_, q⟩
          · exact q
          · exfalso
            simp only [List.length_append] at q5
            omega
        rw [if_neg (by rw [q1]; decide), hhead, hset]
        refine ⟨_, rfl, a2.trans hst, ⟨a1.capEq, Or.inl ⟨q1, q2, ?_, q4, ?_⟩⟩, a3.sr, a3.rr, a3.cname⟩
        · simp only; rw [hcur]; rfl
        · rw [List.length_append, hhead] at q5
          rw [List.length_append, encBlock_length]; exact q5
      · rw [if_pos q1]
        refine ⟨_, rfl, a2.trans hst, ⟨a1.capEq, Or.inr ⟨q1, ?_⟩⟩, a3⟩
        rw [List.length_append, hhead] at q2
        rw [List.length_append, encBlock_length]; exact q2
    obtain ⟨s3, e3, f1, f2, f3⟩ := hend
    refine ⟨s3, ?_, f1, f2, f3⟩
    rw [run_step e3, run_nil]

theorem blocks_run (c : Config) (bs : List XBlock) : ∀ (s : Bld) (want : Bytes), s.st = .xrHead → Holds s cap D ho want →
    (∀ b ∈ bs, BlockOk b) → (∀ b ∈ bs, b.size ≤ 65535) →
    ∃ s', run c s (bs.flatMap XBlock.calls) = some s' ∧ s'.st = .xrHead ∧ Holds s' cap D ho (want ++ bs.flatMap encBlock) ∧
      Flags s s' := by
  induction bs with
  | nil =>
    intro s want hst h _ _
    exact ⟨s, rfl, hst, by simpa using h, Flags.refl _⟩
  | cons b bs ih =>
    intro s want hst h hok hn
    obtain ⟨s1, r1, r2, r3, r4⟩ := block_run c b s want hst h (hok b List.mem_cons_self) (hn b List.mem_cons_self)
    obtain ⟨s', q1, q2, q3, q4⟩ := ih s1 _ r2 r3 (fun x hx => hok x (List.mem_cons_of_mem _ hx))
      (fun x hx => hn x (List.mem_cons_of_mem _ hx))
    refine ⟨s', ?_, q2, ?_, r4.trans q4⟩
    · rw [List.flatMap_cons, run_then r1, q1]
    · rw [List.flatMap_cons, ← List.append_assoc]; exact q3

end Verif.RtcpBuild
