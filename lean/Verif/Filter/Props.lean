import Verif.Filter.Spec

/-! # C08: the filter passes only packets near the newest one -/

namespace Verif.Filter

open Verif.Units

theorem snLt_iff_ahead (a b : Seqnum) : snLt a b = true ↔ Ahead a b := by
  unfold snLt snDiff Ahead
  rw [decide_eq_true_eq, BitVec.toInt_eq_toNat_cond]
  have h1 := a.isLt
  have h2 := b.isLt
  simp only [BitVec.toNat_sub, ne_eq, ← BitVec.toNat_inj]
  split <;> omega

theorem snDist_le {a b : Seqnum} {m : Nat} (h : snDist a b ≤ m) : circDist a b ≤ m := by
  unfold snDist snDiff at h
  unfold circDist
  rw [BitVec.toInt_eq_toNat_cond] at h
  have h1 := a.isLt
  have h2 := b.isLt
  simp only [BitVec.toNat_sub] at *
  split at h
  · split at h <;> omega
  · split at h
    · split at h <;> omega
    · omega

theorem tsDist_eq {a b : Timestamp} (h : tsDiff a b ≠ -2147483648) :
    (if tsDiff a b < 0 then -tsDiff a b else tsDiff a b) = (circDist a b : Nat) := by
  unfold tsDiff at *
  unfold circDist
  rw [BitVec.toInt_eq_toNat_cond] at *
  have h1 := a.isLt
  have h2 := b.isLt
  simp only [BitVec.toNat_sub] at *
  split at h <;> split <;> omega

theorem newest_append (l : List Pkt) (p q : Pkt) (h : newest l = some q) :
    newest (l ++ [p]) = if Ahead q.seqnum p.seqnum then some p else some q := by
  unfold newest at *
  rw [List.foldl_append, h]; rfl

/-- What a passed packet satisfies with respect to the newest packet passed before it. -/
def Near (toNs : Int → Int) (cfg : Config) (q p : Pkt) : Prop :=
  p.source = q.source ∧ p.payloadType = q.payloadType ∧
  circDist p.seqnum q.seqnum ≤ cfg.maxSnJump ∧
  toNs (circDist p.ts q.ts) ≤ cfg.maxTsJump ∧
  0 ≤ p.captureTs ∧ (q.captureTs ≠ 0 → p.captureTs ≠ 0)

theorem validateSequence_pass {toNs : Int → Int} {cfg : Config} {q p : Pkt}
    (h : validateSequence toNs cfg q p = .pass) : Near toNs cfg q p := by
  unfold validateSequence at h
  split at h; · simp at h
  rename_i h1
  split at h; · simp at h
  rename_i h2
  split at h; · simp at h
  rename_i h3
  dsimp only at h
  split at h; · simp at h
  rename_i h4
  rw [tsDist_eq h4] at h
  split at h; · simp at h
  rename_i h5
  split at h; · simp at h
  rename_i h6
  split at h; · simp at h
  rename_i h7
  simp only [ne_eq, Decidable.not_not, not_and] at *
  exact ⟨h1.symm, h2, snDist_le (by omega), by omega, by omega, fun hq h0 => hq (h7 h0)⟩

theorem run_spec (toNs : Int → Int) (cfg : Config) (ps : List Pkt) :
    ∀ (past : List Pkt) (out : List Pkt), run toNs cfg (newest past) ps = some out →
      ∀ pre p post, out = pre ++ p :: post →
        p.isRtp = true ∧ p.isAudio = true ∧
        (∀ q, newest (past ++ pre) = some q → Near toNs cfg q p) := by
  induction ps with
  | nil =>
    intro past out h pre p post hout
    simp only [run, Option.some.injEq] at h
    subst h; simp at hout
  | cons x xs ih =>
    intro past out h pre p post hout
    unfold run at h
    cases hv : validate toNs cfg (newest past) x with
    | mk v st =>
    rw [hv] at h
    unfold validate at hv
    split at hv
    · obtain ⟨rfl, rfl⟩ := Prod.mk.inj hv; exact ih past out h pre p post hout
    · rename_i hrtp
      split at hv
      · obtain ⟨rfl, rfl⟩ := Prod.mk.inj hv; exact ih past out h pre p post hout
      · rename_i haud
        -- the packet is RTP audio
        have key : ∀ (hn : st = newest (past ++ [x])) (hv : v = .pass)
            (hnear : ∀ q, newest past = some q → Near toNs cfg q x),
            p.isRtp = true ∧ p.isAudio = true ∧
            (∀ q, newest (past ++ pre) = some q → Near toNs cfg q p) := by
          intro hn hv hnear
          subst hv
          simp only at h
          rw [hn] at h
          obtain ⟨out', ho', hoe⟩ := Option.map_eq_some_iff.mp h
          rw [hout] at hoe
          cases pre with
          | nil =>
            simp only [List.nil_append, List.cons.injEq] at hoe
            obtain ⟨rfl, _⟩ := hoe
            exact ⟨by simpa using hrtp, by simpa using haud, by simpa using hnear⟩
          | cons y pre =>
            simp only [List.cons_append, List.cons.injEq] at hoe
            obtain ⟨rfl, hoe⟩ := hoe
            have := ih (past ++ [x]) out' ho' pre p post hoe
            simpa [List.append_assoc] using this
        split at hv
        · rename_i hnone
          obtain ⟨rfl, rfl⟩ := Prod.mk.inj hv
          refine key ?_ rfl (by simp [hnone])
          unfold newest at hnone ⊢
          rw [List.foldl_append, hnone]; rfl
        · rename_i q hq
          split at hv
          · rename_i hp
            obtain ⟨rfl, rfl⟩ := Prod.mk.inj hv
            refine key ?_ rfl ?_
            · rw [newest_append _ _ _ hq]
              simp only [snLt_iff_ahead]
            · intro q' hq'
              rw [hq] at hq'
              obtain rfl := Option.some.inj hq'
              exact validateSequence_pass hp
          · rename_i hne
            obtain ⟨rfl, rfl⟩ := Prod.mk.inj hv
            cases hvv : validateSequence toNs cfg q x with
            | pass => exact absurd hvv hne
            | reject => rw [hvv] at h; simp only at h; rw [← hq] at h; exact ih past out h pre p post hout
            | undefined => rw [hvv] at h; simp at h

/-- **C08** (partial: runs that do not reach the undefined negation of `INT32_MIN`, see
`C08_half_range_undefined_fails`). Every packet that the filter passes is RTP audio, and with
respect to the newest packet passed before it, it has the same source and payload type,
a sequence number and a timestamp within the configured limits, and a capture time that
is not negative and not missing if the previous one had it. -/
theorem C08_passed_near_newest_partial (toNs : Int → Int) (cfg : Config) (ps out : List Pkt)
    (hrun : run toNs cfg none ps = some out) (pre : List Pkt) (p : Pkt) (post : List Pkt)
    (hout : out = pre ++ p :: post) :
    p.isRtp = true ∧ p.isAudio = true ∧
    ∀ q, newest pre = some q →
      p.source = q.source ∧ p.payloadType = q.payloadType ∧
      circDist p.seqnum q.seqnum ≤ cfg.maxSnJump ∧
      toNs (circDist p.ts q.ts) ≤ cfg.maxTsJump ∧
      0 ≤ p.captureTs ∧ (q.captureTs ≠ 0 → p.captureTs ≠ 0) := by
  have := run_spec toNs cfg ps [] out hrun pre p post hout
  simpa [Near] using this

theorem snDist_iff {a b : Seqnum} {m : Nat} (hm : m < 2 ^ 15) : snDist a b ≤ m ↔ circDist a b ≤ m := by
  refine ⟨snDist_le, fun h => ?_⟩
  unfold snDist snDiff
  unfold circDist at h
  rw [BitVec.toInt_eq_toNat_cond]
  have h1 := a.isLt
  have h2 := b.isLt
  simp only [BitVec.toNat_sub] at *
  split
  · split
    · split <;> omega
    · omega
  · split
    · split <;> omega
    · omega

theorem tsDiff_ne {a b : Timestamp} (h : circDist a b < 2 ^ 31) : tsDiff a b ≠ -2147483648 := by
  unfold tsDiff
  unfold circDist at h
  rw [BitVec.toInt_eq_toNat_cond]
  have h1 := a.isLt
  have h2 := b.isLt
  simp only [BitVec.toNat_sub] at *
  split <;> omega

theorem validateSequence_exact {toNs : Int → Int} {cfg : Config} {q p : Pkt}
    (hm : cfg.maxSnJump < 2 ^ 15) (ht : circDist p.ts q.ts < 2 ^ 31) :
    (Near toNs cfg q p ∧ validateSequence toNs cfg q p = .pass) ∨
    (¬ Near toNs cfg q p ∧ validateSequence toNs cfg q p = .reject) := by
  have h4 := tsDiff_ne ht
  have h3 := snDist_iff (a := p.seqnum) (b := q.seqnum) hm
  have h5 := tsDist_eq h4
  have hex : validateSequence toNs cfg q p = .pass ∨ validateSequence toNs cfg q p = .reject := by
    unfold validateSequence
    split; · exact .inr rfl
    split; · exact .inr rfl
    split; · exact .inr rfl
    dsimp only
    rw [if_neg h4, h5]
    split; · exact .inr rfl
    split; · exact .inr rfl
    split; · exact .inr rfl
    exact .inl rfl
  by_cases hn : Near toNs cfg q p
  · refine .inl ⟨hn, ?_⟩
    obtain ⟨n1, n2, n3, n4, n5, n6⟩ := hn
    unfold validateSequence
    rw [if_neg (by simp [n1]), if_neg (by simp [n2]), if_neg (by omega)]
    dsimp only
    rw [if_neg h4, h5, if_neg (by omega), if_neg (by omega), if_neg]
    rintro ⟨c1, c2⟩; exact n6 c2 c1
  · refine .inr ⟨hn, ?_⟩
    rcases hex with h | h
    · exact absurd (validateSequence_pass h) hn
    · exact h

theorem run_append (toNs : Int → Int) (cfg : Config) (p : Pkt) (ps : List Pkt) :
    ∀ (past : List Pkt) (out : List Pkt), run toNs cfg (newest past) ps = some out →
      run toNs cfg (newest past) (ps ++ [p]) =
        (run toNs cfg (newest (past ++ out)) [p]).map (out ++ ·) := by
  induction ps with
  | nil =>
    intro past out h
    simp only [run, Option.some.injEq] at h
    subst h
    simp
  | cons x xs ih =>
    intro past out h
    rw [List.cons_append]
    unfold run at h ⊢
    cases hv : validate toNs cfg (newest past) x with
    | mk v st =>
    rw [hv] at h
    have hst : (v = .pass → st = newest (past ++ [x])) ∧ (v = .reject → st = newest past) := by
      unfold validate at hv
      split at hv
      · obtain ⟨rfl, rfl⟩ := Prod.mk.inj hv; simp
      split at hv
      · obtain ⟨rfl, rfl⟩ := Prod.mk.inj hv; simp
      split at hv
      · rename_i hnone
        obtain ⟨rfl, rfl⟩ := Prod.mk.inj hv
        refine ⟨fun _ => ?_, by simp⟩
        unfold newest at hnone ⊢
        rw [List.foldl_append, hnone]; rfl
      · rename_i q hq
        split at hv
        · obtain ⟨rfl, rfl⟩ := Prod.mk.inj hv
          refine ⟨fun _ => ?_, by simp⟩
          rw [newest_append _ _ _ hq]
          simp only [snLt_iff_ahead]
        · rename_i hne
          obtain ⟨rfl, rfl⟩ := Prod.mk.inj hv
          exact ⟨fun hc => absurd hc hne, fun _ => hq.symm⟩
    cases v with
    | undefined => simp at h
    | reject =>
      simp only at h ⊢
      rw [hst.2 rfl] at h ⊢
      exact ih past out h
    | pass =>
      simp only at h ⊢
      rw [hst.1 rfl] at h ⊢
      obtain ⟨out', ho', rfl⟩ := Option.map_eq_some_iff.mp h
      rw [ih _ _ ho', Option.map_map, List.append_assoc]
      rfl

/-- **C08** (exact, for timestamps less than half of the range apart and a sequence number
limit below half of the range). After any packets, of which `out` were passed, the next packet is
passed if and only if it is RTP audio and is near the newest passed packet; otherwise it is
dropped and nothing else changes. -/
theorem C08_passed_iff_partial (toNs : Int → Int) (cfg : Config) (ps out : List Pkt)
    (hrun : run toNs cfg none ps = some out) (p : Pkt) (hm : cfg.maxSnJump < 2 ^ 15)
    (ht : ∀ q, newest out = some q → circDist p.ts q.ts < 2 ^ 31) :
    let Fits := p.isRtp = true ∧ p.isAudio = true ∧ ∀ q, newest out = some q →
      p.source = q.source ∧ p.payloadType = q.payloadType ∧
      circDist p.seqnum q.seqnum ≤ cfg.maxSnJump ∧
      toNs (circDist p.ts q.ts) ≤ cfg.maxTsJump ∧
      0 ≤ p.captureTs ∧ (q.captureTs ≠ 0 → p.captureTs ≠ 0)
    (Fits → run toNs cfg none (ps ++ [p]) = some (out ++ [p])) ∧
    (¬ Fits → run toNs cfg none (ps ++ [p]) = some out) := by
  intro Fits
  have happ := run_append toNs cfg p ps [] out hrun
  rw [show newest ([] : List Pkt) = none from rfl, List.nil_append] at happ
  rw [happ]
  have hF : Fits ↔ (p.isRtp = true ∧ p.isAudio = true ∧ ∀ q, newest out = some q → Near toNs cfg q p) := Iff.rfl
  rw [hF]
  cases hq : newest out with
  | none =>
    unfold run validate
    cases p.isRtp <;> cases p.isAudio <;> simp [run]
  | some q =>
    rcases validateSequence_exact (toNs := toNs) hm (ht q hq) with ⟨h1, h2⟩ | ⟨h1, h2⟩
    · unfold run validate
      cases p.isRtp <;> cases p.isAudio <;> simp [run, h2, h1]
    · unfold run validate
      cases p.isRtp <;> cases p.isAudio <;> simp [run, h2, h1]

/-- Non-vacuity: a packet exactly at the limit is passed, one step further is dropped. -/
example :
    run id ⟨100, 1000⟩ none [⟨true, true, 1, 10, 65500, 0, 0⟩, ⟨true, true, 1, 10, 64, 1000, 0⟩,
      ⟨true, true, 1, 10, 165, 1000, 0⟩] =
    some [⟨true, true, 1, 10, 65500, 0, 0⟩, ⟨true, true, 1, 10, 64, 1000, 0⟩] := by decide

theorem newest_mem (l : List Pkt) (h : l ≠ []) : ∃ q ∈ l, newest l = some q := by
  rw [← List.reverse_reverse l] at h ⊢
  generalize l.reverse = r at h ⊢
  induction r with
  | nil => simp at h
  | cons x r ih =>
    rw [List.reverse_cons]
    by_cases hr : r = []
    · subst hr; exact ⟨x, by simp, by simp [newest]⟩
    · obtain ⟨q, hq1, hq2⟩ := ih (by simpa using hr)
      rw [newest_append _ _ _ hq2]
      split
      · exact ⟨x, by simp, rfl⟩
      · exact ⟨q, by simp only [List.mem_append]; exact Or.inl hq1, rfl⟩

/-- **C08** (partial, same exclusion): all passed packets have the source and payload type of
the first passed packet. -/
theorem C08_single_stream_partial (toNs : Int → Int) (cfg : Config) (ps out : List Pkt)
    (hrun : run toNs cfg none ps = some out) (f : Pkt) (rest : List Pkt)
    (hout : out = f :: rest) :
    ∀ p ∈ out, p.source = f.source ∧ p.payloadType = f.payloadType := by
  -- strong induction on the position
  have key : ∀ (n : Nat) (p : Pkt), out[n]? = some p → p.source = f.source ∧ p.payloadType = f.payloadType := by
    intro n
    induction n using Nat.strongRecOn with
    | ind n ih =>
      intro p hp
      cases n with
      | zero =>
        subst hout
        simp only [List.getElem?_cons_zero, Option.some.injEq] at hp
        subst hp; exact ⟨rfl, rfl⟩
      | succ n =>
        have hlt : n + 1 < out.length := (List.getElem?_eq_some_iff.mp hp).1
        have hsplit : out = out.take (n + 1) ++ p :: out.drop (n + 2) := by
          have h1 := (List.getElem?_eq_some_iff.mp hp).2
          rw [← h1, List.getElem_cons_drop, List.take_append_drop]
        have hne : out.take (n + 1) ≠ [] := by
          intro h0; have := congrArg List.length h0; rw [List.length_take, List.length_nil] at this; omega
        obtain ⟨q, hq1, hq2⟩ := newest_mem _ hne
        have := (C08_passed_near_newest_partial toNs cfg ps out hrun _ _ _ hsplit).2.2 q hq2
        obtain ⟨m, hm⟩ := List.getElem?_of_mem hq1
        have hmlt : m < n + 1 := by
          have := (List.getElem?_eq_some_iff.mp hm).1
          simp at this; omega
        rw [List.getElem?_take, if_pos hmlt] at hm
        have hq := ih m hmlt q hm
        exact ⟨this.1.trans hq.1, this.2.1.trans hq.2⟩
  intro p hp
  obtain ⟨n, hn⟩ := List.getElem?_of_mem hp
  exact key n p hn

/-- **C08 fails** in one corner: a packet whose timestamp is exactly half of the range away
from the newest one makes the filter negate `INT32_MIN` (undefined behaviour). -/
theorem C08_half_range_undefined_fails (toNs : Int → Int) (cfg : Config) :
    let first : Pkt := ⟨true, true, 1, 10, 100, 0, 0⟩
    let bad : Pkt := ⟨true, true, 1, 10, 100, 0x80000000#32, 0⟩
    run toNs cfg none [first, bad] = none := by
  intro first bad
  have h1 : snDist bad.seqnum first.seqnum = 0 := by decide
  have h2 : tsDiff bad.ts first.ts = -2147483648 := by decide
  have h3 : validateSequence toNs cfg first bad = .undefined := by
    unfold validateSequence
    rw [h1, h2]
    simp [first, bad]
  simp [run, validate, h3, first, bad] at h3 ⊢

/-- What common compilers do there: the negated value stays negative, so its duration is
negative and the limit does not reject it. -/
theorem C08_half_range_wraps :
    (-(0x80000000#32 : BitVec 32)).toInt = -2147483648 := by decide

/-- Nothing undefined is reached when all timestamps are within less than half of the range
of each other. -/
theorem C08_defined (toNs : Int → Int) (cfg : Config) (ps : List Pkt)
    (h : ∀ p ∈ ps, ∀ q ∈ ps, circDist p.ts q.ts < 2 ^ 31) :
    ∃ out, run toNs cfg none ps = some out := by
  have key : ∀ (l : List Pkt) (prev : Option Pkt), (∀ q, prev = some q → q ∈ ps) →
      (∀ p ∈ l, p ∈ ps) → ∃ out, run toNs cfg prev l = some out := by
    intro l
    induction l with
    | nil => intro prev _ _; exact ⟨[], rfl⟩
    | cons x xs ih =>
      intro prev hprev hl
      unfold run
      have hx : x ∈ ps := hl x (by simp)
      have hxs : ∀ p ∈ xs, p ∈ ps := fun p hp => hl p (by simp [hp])
      unfold validate
      split
      · rename_i st heq
        obtain ⟨out, ho⟩ := ih st (by
          intro q hq
          subst hq
          split at heq; · simp at heq
          split at heq; · simp at heq
          split at heq
          · simp only [Prod.mk.injEq, Option.some.injEq, true_and] at heq; rw [← heq]; exact hx
          · rename_i q' 
            split at heq
            · simp only [Prod.mk.injEq, true_and] at heq
              split at heq
              · obtain rfl := Option.some.inj heq; exact hx
              · obtain rfl := Option.some.inj heq; exact hprev _ rfl
            · rename_i hne; simp only [Prod.mk.injEq] at heq; exact absurd heq.1 hne) hxs
        exact ⟨x :: out, by rw [ho]; rfl⟩
      · rename_i st heq
        exact ih st (by
          intro q hq
          subst hq
          split at heq
          · simp only [Prod.mk.injEq, true_and] at heq; exact hprev q heq
          split at heq
          · simp only [Prod.mk.injEq, true_and] at heq; exact hprev q heq
          split at heq; · simp at heq
          split at heq; · simp at heq
          simp only [Prod.mk.injEq, Option.some.injEq] at heq
          rw [← heq.2]; exact hprev _ rfl) hxs
      · rename_i st heq
        exfalso
        split at heq; · simp at heq
        split at heq; · simp at heq
        split at heq; · simp at heq
        rename_i q
        split at heq; · simp at heq
        simp only [Prod.mk.injEq] at heq
        have hv := heq.1
        unfold validateSequence at hv
        split at hv; · simp at hv
        split at hv; · simp at hv
        split at hv; · simp at hv
        dsimp only at hv
        split at hv
        · rename_i hd
          have hc := h x hx q (hprev _ rfl)
          unfold circDist at hc
          unfold tsDiff at hd
          rw [BitVec.toInt_eq_toNat_cond] at hd
          simp only [BitVec.toNat_sub] at hc hd
          have := x.ts.isLt
          have := q.ts.isLt
          split at hd <;> omega
        · rename_i hd
          rw [tsDist_eq hd] at hv
          split at hv; · simp at hv
          split at hv; · simp at hv
          split at hv <;> simp at hv
  exact key ps none (by simp) (fun _ h => h)

/-- A concrete history: the third packet jumps too far, the fourth is another source, the
fifth is late but near. -/
def exPkts : List Pkt :=
  [⟨true, true, 1, 10, 65535, 1000, 0⟩, ⟨true, true, 1, 10, 0, 1100, 0⟩,
   ⟨true, true, 1, 10, 500, 1200, 0⟩, ⟨true, true, 2, 10, 1, 1200, 0⟩,
   ⟨true, true, 1, 10, 65534, 900, 0⟩]

theorem exRun : run (fun d => d * 1000) ⟨100, 1000000⟩ none exPkts =
    some [⟨true, true, 1, 10, 65535, 1000, 0⟩, ⟨true, true, 1, 10, 0, 1100, 0⟩,
      ⟨true, true, 1, 10, 65534, 900, 0⟩] := by decide

example := C08_single_stream_partial _ _ _ _ exRun _ _ rfl
example := C08_passed_near_newest_partial _ _ _ _ exRun
  [⟨true, true, 1, 10, 65535, 1000, 0⟩, ⟨true, true, 1, 10, 0, 1100, 0⟩] _ [] rfl
example := C08_defined (fun d => d * 1000) ⟨100, 1000000⟩ exPkts (by decide)

end Verif.Filter
