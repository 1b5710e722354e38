import Verif.Depacketizer.Spec
import Mathlib.Tactic.SplitIfs

/-!
# Depacketizer: packets are obtained in the order of positions
-/

namespace Verif.Depacketizer

variable {α : Type}

/-- Positions at which packets were obtained do not decrease. -/
structure Mono (s : St α) : Prop where
  sorted : s.got.Pairwise (fun x y => x.1 ≤ y.1)
  le : ∀ x ∈ s.got, x.1 ≤ s.pos

theorem fetch_pos (first : Bool) (ts pos : Nat) (q : List (Pkt α)) : ∀ x ∈ (fetch first ts pos q).1, x.1 = pos := by
  induction q with
  | nil => intro x hx; cases hx
  | cons p q ih =>
    intro x hx
    unfold fetch at hx
    split_ifs at hx
    · rw [List.mem_singleton.mp hx]
    · rw [List.mem_singleton.mp hx]
    · rcases List.mem_cons.mp hx with hx | hx
      · rw [hx]
      · exact ih x hx

theorem Mono.append {s t : St α} (hs : Mono s) {ev : List (Nat × Pkt α)} (he : ∀ x ∈ ev, x.1 = s.pos) (h1 : t.got = s.got ++ ev) (h2 : t.pos = s.pos) : Mono t := by
  refine ⟨?_, ?_⟩
  · rw [h1, List.pairwise_append]
    refine ⟨hs.sorted, ?_, ?_⟩
    · exact List.Pairwise.imp_of_mem (R := fun _ _ => True) (fun {x y} hx hy _ => by rw [he x hx, he y hy]; exact Nat.le_refl _) (List.pairwise_of_forall (fun _ _ => trivial))
    · intro x hx y hy
      rw [he y hy]; exact hs.le x hx
  · rw [h1, h2]
    intro x hx
    rcases List.mem_append.mp hx with hx | hx
    · exact hs.le x hx
    · rw [he x hx]; exact Nat.le_refl _

theorem Mono.later {s t : St α} (hs : Mono s) (h1 : t.got = s.got) (h2 : s.pos ≤ t.pos) : Mono t :=
  ⟨by rw [h1]; exact hs.sorted, by rw [h1]; exact fun x hx => Nat.le_trans (hs.le x hx) h2⟩

theorem accept_same {per : Int} {s t : St α} {p : Pkt α} (h : accept per s p = .ok t) : t.got = s.got ∧ t.pos = s.pos := by
  unfold accept at h
  split_ifs at h <;> (cases h; exact ⟨rfl, rfl⟩)

theorem mono_update {per : Int} {s : St α} (hs : Mono s) {q : List (Pkt α)} {r : St α × List (Pkt α) × Nat} (h : update per s q = .ok r) : Mono r.1 := by
  unfold update at h
  split_ifs at h
  · cases h; exact hs
  · have hf := fetch_pos s.first s.ts s.pos q
    split at h
    · rename_i ev q' d he
      rw [he] at hf
      cases h
      exact hs.append hf rfl rfl
    · rename_i ev p q' d he
      rw [he] at hf
      cases ha : accept per { s with got := s.got ++ ev } p with
      | error e => rw [ha] at h; cases h
      | ok t =>
        rw [ha] at h
        cases h
        obtain ⟨h1, h2⟩ := accept_same ha
        exact hs.append hf h1 h2

theorem move_same (s : St α) (n : Nat) : (s.move n).got = s.got ∧ s.pos ≤ (s.move n).pos := by
  refine ⟨rfl, ?_⟩
  show s.pos ≤ if s.first then s.pos else s.pos + n
  split_ifs <;> omega

theorem mono_part {per : Int} {s : St α} (hs : Mono s) {q : List (Pkt α)} {n : Nat} {info : Info} {r : Part α} (h : readPart per s q n info = .ok r) : Mono r.1 := by
  unfold readPart at h
  split at h
  · cases h
    exact hs.later rfl (move_same s n).2
  · split_ifs at h
    · cases h
      unfold consume
      split_ifs
      · exact hs.later rfl (Nat.le_trans (move_same s _).2 (move_same _ _).2)
      · exact hs.later rfl (move_same s _).2
    · cases h
      exact hs.later rfl (move_same s _).2

theorem mono_samples {per : Int} {s : St α} (hs : Mono s) {q : List (Pkt α)} {n : Nat} {info : Info} {r : Part α} (h : readSamples per s q n info = .ok r) : Mono r.1 := by
  unfold readSamples at h
  cases hu : update per s q with
  | error e => rw [hu] at h; cases h
  | ok u => rw [hu] at h; exact mono_part (mono_update hs hu) h

theorem mono_loop {per : Int} (fuel : Nat) {s : St α} (hs : Mono s) {q : List (Pkt α)} {n : Nat} {info : Info} {r : Part α} (h : loop per fuel s q n info = .ok r) : Mono r.1 := by
  induction fuel generalizing s q n info r with
  | zero => cases h
  | succ fuel ih =>
    unfold loop at h
    split_ifs at h
    · cases h; exact hs
    · cases h1 : readSamples per s q n info with
      | error e => rw [h1] at h; cases h
      | ok r1 =>
        rw [h1] at h
        have h : (loop per fuel r1.1 r1.2.1 (n - r1.2.2.1.length) r1.2.2.2).bind (fun r' => .ok (r'.1, r'.2.1, r1.2.2.1 ++ r'.2.2.1, r'.2.2.2)) = .ok r := h
        cases h2 : loop per fuel r1.1 r1.2.1 (n - r1.2.2.1.length) r1.2.2.2 with
        | error e => rw [h2] at h; cases h
        | ok r2 =>
          rw [h2] at h
          cases h
          exact (ih (mono_samples hs h1) h2 : Mono r2.1)

theorem mono_read {per : Int} {s : St α} (hs : Mono s) {q : List (Pkt α)} {n : Nat} {r : St α × List (Pkt α) × Frame α} (h : read per s q n = .ok r) : Mono r.1 := by
  unfold read at h
  cases h1 : loop per (2 * q.length + n + 2) s q n ⟨0, 0, 0, 0⟩ with
  | error e => rw [h1] at h; cases h
  | ok r1 =>
    rw [h1] at h
    cases h
    exact mono_loop _ hs h1

theorem mono_run {per : Int} {h : List (Call α)} {s : St α} (hs : Mono s) {r : St α × List (Done α)} (hr : run per s h = .ok r) : Mono r.1 := by
  induction h generalizing s r with
  | nil => cases hr; exact hs
  | cons c h ih =>
    unfold run at hr
    cases h1 : read per s c.pkts c.size with
    | error e => rw [h1] at hr; cases hr
    | ok r1 =>
      rw [h1] at hr
      have hr : (run per r1.1 h).bind (fun r' => .ok (r'.1, ⟨r1.2.2, c.pkts.take (c.pkts.length - r1.2.1.length), r1.2.1⟩ :: r'.2)) = .ok r := hr
      cases h2 : run per r1.1 h with
      | error e => rw [h2] at hr; cases hr
      | ok r2 =>
        rw [h2] at hr
        cases hr
        exact (ih (mono_read hs h1) h2 : Mono r2.1)

theorem mono_init : Mono (St.init : St α) := ⟨List.Pairwise.nil, by intro x hx; cases hx⟩

end Verif.Depacketizer
