import Verif.FecFlow.Lemmas
import Verif.FecReader.Props

/-!
# FEC from end to end: properties (C124)
-/

namespace Verif.FecFlow

open FecReader (Fec Call Dlv)
open FecWriter (Valid)

theorem flat_dlv (first k r size : Nat) (tags : List Nat) (ds : List Net) :
    (ds.map (Net.dlv first k r size tags)).flatMap (·.srcs) = (ds.flatMap (·.srcs)).map (annS first k r size tags) ∧
    (ds.map (Net.dlv first k r size tags)).flatMap (·.reps) = (ds.flatMap (·.reps)).map (annR first k r size) := by
  induction ds with
  | nil => exact ⟨rfl, rfl⟩
  | cons d ds ih =>
    simp only [List.map_cons, List.flatMap_cons, List.map_append]
    rw [ih.1, ih.2]
    exact ⟨rfl, rfl⟩

theorem cnt_dlv (first k r size : Nat) (tags : List Nat) (ds : List Net) : FecReader.cnt (ds.map (Net.dlv first k r size tags)) = count ds := by
  unfold FecReader.cnt count
  rw [List.map_map]
  congr 1
  apply List.map_congr_left
  intro d _
  show (List.map _ d.srcs).length + (List.map _ d.reps).length = _
  rw [List.length_map, List.length_map]

/-- C124: the sender writes packets of equal size, `k` in a block with `r` repair packets, starting from any block number. The network loses
packets, but does not reorder them or deliver them much too early or late. If, when a packet is due at the receiver, at least `k` of the
`k + r` packets of its block have been delivered, whichever they are, and the decoder can restore a block from `k` packets, then the receiver
never aborts and never stops, and its `j`-th call returns the `j`-th written packet: the one which the sender wrote, or the one which the
decoder restored for exactly this position. -/
theorem C124_delivers {maxLen maxJump first k r size w tot : Nat} {s0 : FecWriter.St} (hm : maxLen ≤ 65536) (hv : Valid maxLen (k, r))
    (h0 : FecWriter.St.new maxLen first k r = some s0) (hz : size ≠ 0) (hw : w < 32767) (hj : w ≤ maxJump) (tags : List Nat) {sent : List FecWriter.Pkt}
    (hsent : sent = (FecWriter.run s0 (writes size tags)).2) (ds : List Net) (hn : Lossy k r w (sources sent).length (repairs sent).length ds)
    (ht : InTime k r ds) (hd : Decodes k (first % 65536) ds) (hc : count ds ≤ tot) :
    ∃ s out, FecReader.run maxLen maxJump FecReader.St.init (ds.map (Net.call size tot sent)) = .ok (s, out) ∧ s.alive = true ∧ out.length = ds.length ∧
      ∀ j < ds.length, ∃ p, out[j]? = some (some (first % 65536 + j / k, j % k), p) ∧
        ((∃ f, p = .recv f ∧ tags[j]? = some f.tag ∧ j ∈ ds.flatMap (·.srcs)) ∨
         ∃ t, p = .rest t (first % 65536 + j / k) (j % k) ∧ ∃ d ∈ ds, ∃ g, d.dec (first % 65536 + j / k) = some g ∧ g (j % k) = some t) := by
  have hk : 0 < k := Nat.pos_of_ne_zero hv.1
  have hkr : k + r ≤ maxLen := hv.2
  obtain ⟨st1, st2⟩ := Verif.FecFlow.sent hm hv h0 hz tags
  rw [← hsent] at st1 st2
  have ln1 : ∀ i, i < (sources sent).length → i < tags.length := by
    intro i hi
    have h1 := st1 i
    rw [List.getElem?_eq_getElem hi] at h1
    cases h2 : tags[i]? with
    | none => rw [h2] at h1; cases h1
    | some t => exact (List.getElem?_eq_some_iff.mp h2).1
  have ln2 : (repairs sent).length = tags.length / k * r := by rw [st2, List.length_map, List.length_range]
  have rs : ∀ d ∈ ds, ∀ i ∈ d.srcs, i < tags.length := fun d hd i hi => ln1 i (hn.srcs.2 i (List.mem_flatMap.mpr ⟨d, hd, hi⟩))
  have rr : ∀ d ∈ ds, ∀ i ∈ d.reps, i < tags.length / k * r := fun d hd i hi => by
    rw [← ln2]; exact hn.reps.2 i (List.mem_flatMap.mpr ⟨d, hd, hi⟩)
  obtain ⟨es, hes⟩ : ∃ es, es = ds.map (Net.dlv first k r size tags) := ⟨_, rfl⟩
  have hcalls : ds.map (Net.call size tot sent) = es.map (Dlv.call tot) := by
    rw [hes, List.map_map]
    exact List.map_congr_left (fun d hd => call_eq st1 st2 (rs d hd) (rr d hd))
  have hget : ∀ (j : Nat) (e : Dlv), es[j]? = some e → ∃ d, ds[j]? = some d ∧ e = d.dlv first k r size tags := by
    intro j e he
    rw [hes, List.getElem?_map] at he
    cases h : ds[j]? with
    | none => rw [h] at he; cases he
    | some d => rw [h] at he; cases he; exact ⟨d, rfl, rfl⟩
  -- packets are well-formed
  have huni : ∀ e ∈ es, FecReader.DUni k r size e := by
    intro e he
    rw [hes] at he
    obtain ⟨d, hdd, rfl⟩ := List.mem_map.mp he
    constructor
    · intro x hx
      obtain ⟨i, hi, rfl⟩ := List.mem_map.mp hx
      refine ⟨⟨?_, rfl, rfl, Nat.mod_lt _ (by decide)⟩, rfl⟩
      have := Nat.mod_lt i hk
      unfold FecReader.validSource annS
      simp only [Bool.and_eq_true, Bool.or_eq_true, decide_eq_true_eq]
      omega
    · intro x hx
      obtain ⟨i, hi, rfl⟩ := List.mem_map.mp hx
      have hr0 : 0 < r := by
        rcases Nat.eq_zero_or_pos r with h | h
        · have := rr d hdd i hi
          rw [h, Nat.mul_zero] at this
          omega
        · exact h
      have := Nat.mod_lt i hr0
      refine ⟨⟨⟨rfl, rfl, Nat.mod_lt _ (by decide)⟩, ?_, rfl⟩, rfl⟩
      unfold FecReader.validRepair annR
      simp only [Bool.and_eq_true, Bool.or_eq_true, decide_eq_true_eq]
      omega
  have hmem : ∀ c ∈ es.map (Dlv.call tot), ∃ d ∈ ds, c = (d.dlv first k r size tags).call tot := by
    intro c hcm
    obtain ⟨e, he, rfl⟩ := List.mem_map.mp hcm
    rw [hes] at he
    obtain ⟨d, hdd, rfl⟩ := List.mem_map.mp he
    exact ⟨d, hdd, rfl⟩
  have hmem' : ∀ d ∈ ds, d.dlv first k r size tags ∈ es := fun d hdd => by rw [hes]; exact List.mem_map.mpr ⟨d, hdd, rfl⟩
  -- no abort
  obtain ⟨u, hu⟩ := FecReader.C33_no_abort_partial maxLen maxJump (es.map (Dlv.call tot))
    (by
      intro c hcm
      obtain ⟨d, hdd, rfl⟩ := hmem c hcm
      constructor
      · intro x hx
        obtain ⟨z, hz, rfl⟩ := List.mem_map.mp hx
        exact ((huni _ (hmem' d hdd)).1 z hz).1.2.2.2
      · intro x hx
        obtain ⟨z, hz, rfl⟩ := List.mem_map.mp hx
        exact ((huni _ (hmem' d hdd)).2 z hz).1.1.2.2)
    (by
      intro c hcm x hx
      obtain ⟨d, hdd, rfl⟩ := hmem c hcm
      obtain ⟨z, hz, rfl⟩ := List.mem_map.mp hx
      have : z.2.blen = k + r := ((huni _ (hmem' d hdd)).2 z hz).1.2.2
      show z.2.blen ≠ 0 ∧ z.2.blen ≤ maxLen
      omega)
    (by
      intro c hcm
      obtain ⟨d, hdd, rfl⟩ := hmem c hcm
      exact hd.all d hdd)
  -- numbers of blocks
  have hnum : ∀ j, (first % 65536 * k + j) / k = first % 65536 + j / k := fun j => by rw [Nat.mul_comm, Nat.mul_add_div hk]
  have hrem : ∀ j, (first % 65536 * k + j) % k = j % k := fun j => by rw [Nat.mul_comm, Nat.mul_add_mod]
  have hclose : ∀ (j : Nat) (e : Dlv), es[j]? = some e → FecReader.Close w ((first % 65536 * k + j) / k) e.srcs ∧ FecReader.Close w ((first % 65536 * k + j) / k) e.reps := by
    intro j e he
    obtain ⟨d, hdd, rfl⟩ := hget j e he
    rw [hnum]
    constructor
    · intro x hx
      obtain ⟨i, hi, rfl⟩ := List.mem_map.mp hx
      obtain ⟨n1, n2⟩ := hn.nearS j d hdd i hi
      show first % 65536 + i / k ≤ _ ∧ _ ≤ first % 65536 + i / k + w ∧ (first + i / k) % 65536 = (first % 65536 + i / k) % 65536
      refine ⟨by omega, by omega, ?_⟩
      rw [Nat.mod_add_mod]
    · intro x hx
      obtain ⟨i, hi, rfl⟩ := List.mem_map.mp hx
      obtain ⟨n1, n2⟩ := hn.nearR j d hdd i hi
      show first % 65536 + i / r ≤ _ ∧ _ ≤ first % 65536 + i / r + w ∧ (first + i / r) % 65536 = (first % 65536 + i / r) % 65536
      refine ⟨by omega, by omega, ?_⟩
      rw [Nat.mod_add_mod]
  have hord : FecReader.InOrder (es.flatMap (·.srcs)) ∧ FecReader.InOrder (es.flatMap (·.reps)) := by
    rw [hes, (flat_dlv ..).1, (flat_dlv ..).2]
    unfold FecReader.InOrder
    rw [List.pairwise_map, List.pairwise_map]
    constructor
    · refine hn.srcs.1.imp (fun {a b} hab => ?_)
      show first % 65536 + a / k ≤ first % 65536 + b / k
      have := Nat.div_le_div_right (c := k) (Nat.le_of_lt hab)
      omega
    · refine hn.reps.1.imp (fun {a b} hab => ?_)
      show first % 65536 + a / r ≤ first % 65536 + b / r
      have := Nat.div_le_div_right (c := r) (Nat.le_of_lt hab)
      omega
  -- the first call
  obtain ⟨d0, q0, f1, f2⟩ := hn.first
  obtain ⟨ds', hds⟩ : ∃ ds', ds = d0 :: ds' := by
    cases ds with
    | nil => cases f1
    | cons d l => cases f1; exact ⟨l, rfl⟩
  obtain ⟨es', hes'⟩ : ∃ es', es' = ds'.map (Net.dlv first k r size tags) := ⟨_, rfl⟩
  have he0 : es = d0.dlv first k r size tags :: es' := by rw [hes, hds, hes']; rfl
  have hfs : (d0.dlv first k r size tags).srcs = (first % 65536, (annS first k r size tags 0).2) :: q0.map (annS first k r size tags) := by
    show d0.srcs.map _ = _
    rw [f2, List.map_cons]
    congr 1
    unfold annS
    rw [Nat.zero_div]
    rfl
  -- enough packets
  have hen : ∀ j, j < es'.length → ∃ l : List Nat, l.Nodup ∧ k ≤ l.length ∧ ∀ i ∈ l,
      FecReader.Arrives ((d0.dlv first k r size tags).call tot) (first % 65536) ((first % 65536 * k + 1 + j) / k) i ∨
      ∃ (m : Nat) (d : Dlv) (x : Nat × Fec), m ≤ j ∧ es'[m]? = some d ∧ (x ∈ d.srcs ∨ x ∈ d.reps) ∧ x.1 = (first % 65536 * k + 1 + j) / k ∧ x.2.esi = i := by
    intro j hjl
    have hlen : j + 1 < ds.length := by
      rw [hes', List.length_map] at hjl
      rw [hds, List.length_cons]; omega
    have hin := ht (j + 1) (by omega) hlen
    obtain ⟨l, l1, l2, l3⟩ := symbols (k := k) (r := r) (b := (j + 1) / k) hk
      (hn.srcs.1.sublist (take_flat_sublist (·.srcs) ds (j + 1 + 1))) (hn.reps.1.sublist (take_flat_sublist (·.reps) ds (j + 1 + 1)))
    refine ⟨l, l1, by rw [l2]; exact hin, fun i hi => ?_⟩
    rw [show first % 65536 * k + 1 + j = first % 65536 * k + (j + 1) from by omega, hnum]
    have key : ∀ (m : Nat) (d : Net) (x : Nat × Fec), m < j + 1 + 1 → ds[m]? = some d → (x ∈ (d.dlv first k r size tags).srcs ∨ x ∈ (d.dlv first k r size tags).reps) →
        x.1 = first % 65536 + (j + 1) / k → x.2.esi = i →
        FecReader.Arrives ((d0.dlv first k r size tags).call tot) (first % 65536) (first % 65536 + (j + 1) / k) i ∨
        ∃ (m : Nat) (d : Dlv) (x : Nat × Fec), m ≤ j ∧ es'[m]? = some d ∧ (x ∈ d.srcs ∨ x ∈ d.reps) ∧ x.1 = first % 65536 + (j + 1) / k ∧ x.2.esi = i := by
      intro m d x hmj hdm hx h1 h2
      cases m with
      | zero =>
        rw [hds] at hdm
        cases hdm
        obtain ⟨c1, c2⟩ := hclose 0 _ (by rw [he0]; rfl)
        rw [hnum, Nat.zero_div, Nat.add_zero] at c1 c2
        exact Or.inl (arrives_of (by omega) c1 c2 (Nat.le_add_right _ _) hx h1 h2)
      | succ m =>
        rw [hds] at hdm
        refine Or.inr ⟨m, d.dlv first k r size tags, x, by omega, ?_, hx, h1, h2⟩
        have hdm : ds'[m]? = some d := hdm
        rw [hes', List.getElem?_map, hdm]
        rfl
    rcases l3 i hi with ⟨q, q1, q2, q3⟩ | ⟨q, q1, q2, q3⟩
    · obtain ⟨m, d, m1, m2, m3⟩ := mem_take_flat q1
      exact key m d (annS first k r size tags q) m1 m2 (Or.inl (List.mem_map.mpr ⟨q, m3, rfl⟩)) (by rw [← q2]; rfl) q3.symm
    · obtain ⟨m, d, m1, m2, m3⟩ := mem_take_flat q1
      exact key m d (annR first k r size q) m1 m2 (Or.inr (List.mem_map.mpr ⟨q, m3, rfl⟩)) (by rw [← q2]; rfl) q3.symm
  have henough := enough_of (k := k) (w := w) (tot := tot) (by omega) es' (first % 65536 * k + 1)
    (FecReader.Arrives ((d0.dlv first k r size tags).call tot) (first % 65536))
    (fun j e he => by
      have := hclose (j + 1) e (by rw [he0]; exact he)
      rw [show first % 65536 * k + (j + 1) = first % 65536 * k + 1 + j from by omega] at this
      exact this)
    (fun j e he => by
      obtain ⟨d, hdd, rfl⟩ := hget (j + 1) e (by rw [he0]; exact he)
      obtain ⟨g, g1, g2⟩ := hd.due (j + 1) d hdd
      rw [show first % 65536 * k + 1 + j = first % 65536 * k + (j + 1) from by omega, hnum]
      exact ⟨g, g1, g2⟩) hen
  -- all together
  rw [hcalls]
  obtain ⟨s, out⟩ := u
  have fl := FecReader.flow_start hk hw hj hkr ((ds.flatMap (·.srcs)).map (annS first k r size tags))
    (fun t b i => ∃ d ∈ ds, ∃ g, d.dec b = some g ∧ g i = some t) (d0.dlv first k r size tags) es' (b := first % 65536) (Nat.mod_lt _ (by decide)) hfs
    (by show 0 % k = 0; exact Nat.zero_mod _) (by rw [← he0]; exact hord.1) (by rw [← he0]; exact hord.2) (by rw [← he0, hes, cnt_dlv]; exact hc)
    (by rw [← he0]; exact huni) (by rw [← he0]; exact hclose) henough
    (by
      rw [← he0]
      intro e he x hx
      rw [← (flat_dlv first k r size tags ds).1, ← hes]
      exact List.mem_flatMap.mpr ⟨e, he, hx⟩)
    (by
      rw [← he0]
      intro e he b g m t h1 h2
      rw [hes] at he
      obtain ⟨d, hdd, rfl⟩ := List.mem_map.mp he
      exact ⟨d, hdd, g, h1, h2⟩) (s, out) (by rw [← he0]; exact hu)
  obtain ⟨a1, a2, a3⟩ := fl
  have a2 : out.map (·.1) = (List.range (d0.dlv first k r size tags :: es').length).map (fun j => some (FecReader.posOfNum k (first % 65536 * k + j))) := a2
  have a3 : ∀ j o p, out[j]? = some (o, p) → FecReader.Own ((ds.flatMap (·.srcs)).map (annS first k r size tags))
    (fun t b i => ∃ d ∈ ds, ∃ g, d.dec b = some g ∧ g i = some t) k (first % 65536 * k + j) p := a3
  have hlen : (d0.dlv first k r size tags :: es').length = ds.length := by rw [← he0, hes, List.length_map]
  rw [hlen] at a2
  have hol : out.length = ds.length := by
    have := congrArg List.length a2
    rw [List.length_map, List.length_map, List.length_range] at this
    exact this
  refine ⟨s, out, hu, a1, hol, fun j hjl => ?_⟩
  have hj2 : (out.map (·.1))[j]? = ((List.range ds.length).map (fun j => some (FecReader.posOfNum k (first % 65536 * k + j))))[j]? := by rw [a2]
  rw [List.getElem?_map, List.getElem?_map, List.getElem?_range hjl] at hj2
  cases ho : out[j]? with
  | none => rw [ho] at hj2; cases hj2
  | some x =>
    obtain ⟨o, p⟩ := x
    rw [ho, Option.map_some, Option.map_some, Option.some.injEq] at hj2
    have hj2 : o = some (FecReader.posOfNum k (first % 65536 * k + j)) := hj2
    unfold FecReader.posOfNum at hj2
    rw [hnum, hrem] at hj2
    refine ⟨p, by rw [hj2], ?_⟩
    have own := a3 j o p ho
    cases p with
    | recv f =>
      left
      obtain ⟨w1, w2⟩ := own
      obtain ⟨i, i1, i2⟩ := List.mem_map.mp w1
      have i3 : first % 65536 + i / k = (first % 65536 * k + j) / k := congrArg Prod.fst i2
      have i4 : (annS first k r size tags i).2 = f := congrArg Prod.snd i2
      rw [hnum] at i3
      rw [hrem] at w2
      have i5 : i % k = j % k := by rw [← w2, ← i4]; rfl
      have i6 : i = j := by
        have e1 := Nat.div_add_mod i k
        have e2 := Nat.div_add_mod j k
        rw [show i / k = j / k by omega, i5] at e1
        omega
      subst i6
      refine ⟨f, rfl, ?_, i1⟩
      obtain ⟨d, hdd, hid⟩ := List.mem_flatMap.mp i1
      have := rs d hdd i hid
      rw [← i4]
      show tags[i]? = some (tags[i]?.getD 0)
      rw [List.getElem?_eq_getElem this]
      rfl
    | rest t b i =>
      right
      obtain ⟨w1, d, w2, g, w3, w4⟩ := own
      unfold FecReader.posOfNum at w1
      rw [hnum, hrem] at w1
      cases w1
      exact ⟨t, rfl, d, w2, g, w3, w4⟩

/-- A decoder that always succeeds. -/
def exNet (srcs reps : List Nat) : Net := ⟨srcs, reps, fun _ => some (fun m => some (100 + m))⟩

/-- Twelve packets in blocks of three, with two repair packets for each block. -/
def exTags : List Nat := [50, 51, 52, 53, 54, 55, 56, 57, 58, 59, 60, 61]

/-- Lost are source packets 1, 3, 5 and 10, and repair packet 0, 5 and 6. -/
def exDs : List Net :=
  [exNet [0] [], exNet [2] [1], exNet [] [], exNet [4] [2, 3], exNet [] [], exNet [6] [4], exNet [7] [], exNet [8, 9] [], exNet [] [], exNet [11] [7],
   exNet [] [], exNet [] []]

/-- What the sender sends; the block number wraps around. -/
def exSent : List FecWriter.Pkt :=
  match FecWriter.St.new 20 65534 3 2 with
  | some s => (FecWriter.run s (writes 8 exTags)).2
  | none => []

/-- Results of a run. -/
def outsOf (maxJump : Nat) (ds : List Net) : Option (Bool × List (Option (Nat × Nat) × FecReader.Pkt)) :=
  match FecReader.run 20 maxJump FecReader.St.init (ds.map (Net.call 8 100 exSent)) with
  | .ok (s, l) => some (s.alive, l)
  | .error _ => none

/-- Tags of returned packets: received or restored. -/
def tagsOf (l : List (Option (Nat × Nat) × FecReader.Pkt)) : List (Nat × Bool) := l.map (fun x => match x.2 with
  | .recv f => (f.tag, true)
  | .rest t _ _ => (t, false))

example : (FecWriter.St.new 20 65534 3 2).isSome = true ∧ Valid 20 (3, 2) := by decide +kernel

example : Lossy 3 2 1 (sources exSent).length (repairs exSent).length exDs :=
  ⟨by decide +kernel, by decide +kernel, ⟨_, _, rfl, rfl⟩,
   fun j d hd => (by
    have : ∀ x ∈ exDs.zipIdx, ∀ i ∈ x.1.srcs, i / 3 ≤ x.2 / 3 + 1 ∧ x.2 / 3 ≤ i / 3 + 1 := by decide +kernel
    exact this (d, j) (List.mk_mem_zipIdx_iff_getElem?.mpr hd)),
   fun j d hd => (by
    have : ∀ x ∈ exDs.zipIdx, ∀ i ∈ x.1.reps, i / 2 ≤ x.2 / 3 + 1 ∧ x.2 / 3 ≤ i / 2 + 1 := by decide +kernel
    exact this (d, j) (List.mk_mem_zipIdx_iff_getElem?.mpr hd))⟩

example : InTime 3 2 exDs := by
  have : ∀ j < exDs.length, 1 ≤ j → 3 ≤ have_ 3 2 (j / 3) (exDs.take (j + 1)) := by decide +kernel
  exact fun j h1 h2 => this j h2 h1

example : Decodes 3 65534 exDs := by
  have h : ∀ d ∈ exDs, ∀ n, d.dec n = some (fun m => some (100 + m)) := by
    intro d hd n
    simp only [exDs, List.mem_cons, List.not_mem_nil, or_false] at hd
    rcases hd with rfl | rfl | rfl | rfl | rfl | rfl | rfl | rfl | rfl | rfl | rfl | rfl <;> rfl
  refine ⟨fun d hd n g hg => ?_, fun j d hd => ⟨_, h d (List.mem_of_getElem? hd) _, fun _ => rfl⟩⟩
  rw [h d hd] at hg
  cases hg
  exact Or.inl fun _ => rfl

example : (outsOf 5 exDs).map (fun x => (x.1, tagsOf x.2)) = some (true,
    [(50, true), (101, false), (52, true), (100, false), (54, true), (102, false), (56, true), (57, true), (58, true), (59, true), (101, false), (61, true)]) := by
  decide +kernel

/-- C124 needs `k` packets of every block: with three packets of a block lost (of five), the next call skips them. -/
theorem C124_lost_fails : (outsOf 5 [exNet [0] [], exNet [2, 3, 4, 5] [2, 3], exNet [] []]).map (fun x => (x.1, tagsOf x.2)) =
    some (true, [(50, true), (52, true), (53, true)]) := by decide +kernel

/-- C124 needs the distance between blocks to be at most the limit: a longer gap in the delivery stops the receiver for ever, though
later everything is delivered. -/
theorem C124_gap_fails : (outsOf 1 [exNet [0] [], exNet [6, 7, 8] [], exNet [] [], exNet [] [], exNet [9, 10, 11] [], exNet [] []]).map (fun x => (x.1, tagsOf x.2)) =
    some (false, [(50, true)]) ∧
  (outsOf 2 [exNet [0] [], exNet [6, 7, 8] [], exNet [] [], exNet [] [], exNet [9, 10, 11] [], exNet [] []]).map (fun x => (x.1, tagsOf x.2)) =
    some (true, [(50, true), (56, true), (57, true), (58, true), (59, true), (60, true)]) := by decide +kernel

end Verif.FecFlow
