import Verif.FecFlow.Spec
import Verif.FecWriter.Props
import Mathlib.Tactic.SplitIfs
import Mathlib.Tactic.Ring

/-!
# FEC from end to end: what is sent
-/

namespace Verif.FecFlow

open FecWriter (Op Blk stream written inForce Valid m16)

theorem sources_append (a b : List FecWriter.Pkt) : sources (a ++ b) = sources a ++ sources b := List.filter_append ..
theorem repairs_append (a b : List FecWriter.Pkt) : repairs (a ++ b) = repairs a ++ repairs b := List.filter_append ..

theorem blk_sources (n : Nat) (b : Blk) : sources (b.sources n) = b.sources n ∧ repairs (b.sources n) = [] := by
  have h : ∀ p ∈ b.sources n, isSource p = true := by
    intro p hp
    unfold Blk.sources at hp
    obtain ⟨i, hi, rfl⟩ := List.mem_mapIdx.mp hp
    rfl
  exact ⟨List.filter_eq_self.mpr h, List.filter_eq_nil_iff.mpr (fun p hp => by rw [h p hp]; decide)⟩

theorem blk_emit (n : Nat) (b : Blk) : sources (b.emit n) = b.sources n ∧ repairs (b.emit n) = b.reps.map (fun j => .repair (b.k + j) n b.k (b.k + b.r)) := by
  have h : ∀ p ∈ b.reps.map (fun j => FecWriter.Pkt.repair (b.k + j) n b.k (b.k + b.r)), isSource p = false := by
    intro p hp
    obtain ⟨i, hi, rfl⟩ := List.mem_map.mp hp
    rfl
  unfold Blk.emit
  rw [sources_append, repairs_append, (blk_sources n b).1, (blk_sources n b).2]
  constructor
  · unfold sources
    rw [List.filter_eq_nil_iff.mpr (fun p hp => by rw [h p hp]; decide), List.append_nil]
  · unfold repairs
    rw [List.filter_eq_self.mpr (fun p hp => by rw [h p hp]; rfl), List.nil_append]

theorem stream_cons (first : Nat) (b : Blk) (bs : List Blk) (last : Blk) :
    stream first (b :: bs) last = b.emit (first % m16) ++ stream (first + 1) bs last := by
  unfold stream
  rw [List.mapIdx_cons, List.flatten_cons, List.append_assoc, List.length_cons, Nat.add_zero]
  congr 2
  · congr 1
    apply List.ext_getElem?
    intro i
    rw [List.getElem?_mapIdx, List.getElem?_mapIdx, show first + (i + 1) = first + 1 + i from by omega]
  · rw [show first + (bs.length + 1) = first + 1 + bs.length from by omega]

theorem stream_sources {k r : Nat} (hk : 0 < k) {last : Blk} (hl : last.items ≠ [] → last.k = k ∧ last.r = r ∧ last.items.length < k) (bs : List Blk) :
    ∀ first, (∀ b ∈ bs, b.k = k ∧ b.r = r ∧ b.items.length = k) →
    sources (stream first bs last) = (bs.flatMap (·.items) ++ last.items).mapIdx (fun j x => .source x.2 (j % k) ((first + j / k) % m16) k (k + r)) := by
  induction bs with
  | nil =>
    intro first _
    show sources ([] ++ last.sources ((first + 0) % m16)) = _
    rw [List.nil_append, (blk_sources _ _).1]
    show last.sources _ = last.items.mapIdx _
    unfold Blk.sources
    apply List.ext_getElem?
    intro i
    rw [List.getElem?_mapIdx, List.getElem?_mapIdx]
    cases hi : last.items[i]? with
    | none => rfl
    | some x =>
      have hne : last.items ≠ [] := fun c => by rw [c] at hi; cases hi
      obtain ⟨h1, h2, h3⟩ := hl hne
      have hlt := (List.getElem?_eq_some_iff.mp hi).1
      rw [h1, h2, Option.map_some, Option.map_some, Nat.mod_eq_of_lt (show i < k by omega), Nat.div_eq_of_lt (show i < k by omega)]
  | cons b bs ih =>
    intro first hb
    obtain ⟨h1, h2, h3⟩ := hb b List.mem_cons_self
    rw [stream_cons, sources_append, (blk_emit _ _).1, ih (first + 1) (fun c hc => hb c (List.mem_cons_of_mem _ hc)), List.flatMap_cons, List.append_assoc,
      List.mapIdx_append (xs := b.items)]
    congr 1
    · unfold Blk.sources
      apply List.ext_getElem?
      intro i
      rw [List.getElem?_mapIdx, List.getElem?_mapIdx]
      cases hi : b.items[i]? with
      | none => rfl
      | some x =>
        have hlt := (List.getElem?_eq_some_iff.mp hi).1
        rw [h1, h2, Option.map_some, Option.map_some, Nat.mod_eq_of_lt (show i < k by omega), Nat.div_eq_of_lt (show i < k by omega), Nat.add_zero]
    · apply List.ext_getElem?
      intro i
      rw [List.getElem?_mapIdx, List.getElem?_mapIdx, h3, Nat.add_mod_right, Nat.add_div_right _ hk, show first + (i / k).succ = first + 1 + i / k from by omega]

theorem stream_repairs {k r : Nat} {last : Blk} (bs : List Blk) :
    ∀ first, (∀ b ∈ bs, b.k = k ∧ b.r = r ∧ b.reps = List.range r) →
    repairs (stream first bs last) = (List.range (bs.length * r)).map (fun q => .repair (k + q % r) ((first + q / r) % m16) k (k + r)) := by
  induction bs with
  | nil =>
    intro first _
    show repairs ([] ++ last.sources ((first + 0) % m16)) = _
    rw [List.nil_append, (blk_sources _ _).2, List.length_nil, Nat.zero_mul]
    rfl
  | cons b bs ih =>
    intro first hb
    obtain ⟨h1, h2, h3⟩ := hb b List.mem_cons_self
    rw [stream_cons, repairs_append, (blk_emit _ _).2, ih (first + 1) (fun c hc => hb c (List.mem_cons_of_mem _ hc)), List.length_cons,
      show (bs.length + 1) * r = r + bs.length * r from by ring, List.range_add, List.map_append, List.map_map, h1, h2, h3]
    congr 1
    · apply List.map_congr_left
      intro i hi
      have hi := List.mem_range.mp hi
      rw [Nat.mod_eq_of_lt hi, Nat.div_eq_of_lt hi, Nat.add_zero]
    · apply List.map_congr_left
      intro i hi
      have hr : 0 < r := by
        rcases Nat.eq_zero_or_pos r with h | h
        · rw [h, Nat.mul_zero] at hi
          cases hi
        · exact h
      show FecWriter.Pkt.repair (k + i % r) ((first + 1 + i / r) % m16) k (k + r) = .repair (k + (r + i) % r) ((first + (r + i) / r) % m16) k (k + r)
      rw [Nat.add_mod_left, Nat.add_div_left _ hr, show first + (i / r).succ = first + 1 + i / r from by omega]

theorem force_writes (maxLen : Nat) (kr : Nat × Nat) (size : Nat) (tags : List Nat) (m : Nat) : inForce maxLen kr ((writes size tags).take m) = kr := by
  induction tags generalizing m with
  | nil => unfold writes; rw [List.map_nil, List.take_nil]; rfl
  | cons t tags ih =>
    cases m with
    | zero => rfl
    | succ m =>
      show inForce maxLen kr (Op.write t size true (fun _ => true) :: (writes size tags).take m) = kr
      exact ih m

theorem written_get (size : Nat) (tags : List Nat) : written (writes size tags) = tags.zipIdx.map (fun x => (x.2, x.1)) := by
  unfold written writes
  rw [List.zipIdx_map, List.filterMap_map, ← List.filterMap_eq_map]
  rfl

/-- What the sender sends: source packets in the order of writing, `k` in each block, and `r` repair packets for each complete block. -/
theorem sent {maxLen first k r size : Nat} {s0 : FecWriter.St} (hm : maxLen ≤ 65536) (hv : Valid maxLen (k, r)) (h0 : FecWriter.St.new maxLen first k r = some s0) (hz : size ≠ 0)
    (tags : List Nat) :
    (∀ i : Nat, (sources (FecWriter.run s0 (writes size tags)).2)[i]? = tags[i]?.map (fun t => .source t (i % k) ((first + i / k) % m16) k (k + r))) ∧
    repairs (FecWriter.run s0 (writes size tags)).2 = (List.range (tags.length / k * r)).map (fun q => .repair (k + q % r) ((first + q / r) % m16) k (k + r)) := by
  have hk : 0 < k := Nat.pos_of_ne_zero hv.1
  have ht : FecWriter.Tame (writes size tags) := by
    intro op hop
    obtain ⟨t, _, rfl⟩ := List.mem_map.mp hop
    trivial
  have hs : FecWriter.Smooth size (writes size tags) := by
    intro op hop
    obtain ⟨t, _, rfl⟩ := List.mem_map.mp hop
    exact ⟨rfl, rfl, fun _ => rfl⟩
  obtain ⟨bs, last, c1, c2, c3, c4⟩ := FecWriter.C31_complete_partial hm hv h0 hz (writes size tags) ht hs
  have hb : ∀ b ∈ bs, b.k = k ∧ b.r = r := by
    intro b hb
    obtain ⟨_, _, x, _, hx⟩ := c2 b hb
    rw [force_writes] at hx
    cases hx
    exact ⟨rfl, rfl⟩
  have hl : last.items ≠ [] → last.k = k ∧ last.r = r ∧ last.items.length < k := by
    intro hne
    obtain ⟨a1, x, _, hx⟩ := c3 hne
    rw [force_writes] at hx
    cases hx
    exact ⟨rfl, rfl, a1⟩
  have hlen : bs.length * k + last.items.length = tags.length := by
    have h1 := congrArg List.length c4
    rw [written_get, List.length_map, List.length_zipIdx, List.length_append, List.length_flatMap] at h1
    have h2 : (bs.map (fun b => b.items.length)) = bs.map (fun _ => k) := List.map_congr_left (fun b hbb => by rw [(c2 b hbb).1, (hb b hbb).1])
    rw [h2, List.map_const', List.sum_replicate_nat] at h1
    exact h1
  have hlt : last.items.length < k := by
    by_cases h : last.items = []
    · rw [h]; exact hk
    · exact (hl h).2.2
  have hdiv : tags.length / k = bs.length := ((Nat.div_mod_unique (d := bs.length) (c := last.items.length) (a := tags.length) hk).mpr ⟨by rw [Nat.mul_comm]; omega, hlt⟩).1
  constructor
  · intro i
    rw [c1, stream_sources hk hl bs first (fun b hbb => ⟨(hb b hbb).1, (hb b hbb).2, by rw [(c2 b hbb).1, (hb b hbb).1]⟩), List.getElem?_mapIdx, c4, written_get, List.getElem?_map,
      List.getElem?_zipIdx]
    cases tags[i]? <;> rfl
  · rw [c1, stream_repairs bs first (fun b hbb => ⟨(hb b hbb).1, (hb b hbb).2, by rw [(c2 b hbb).2.1, (hb b hbb).2]⟩), hdiv]

end Verif.FecFlow
