import Verif.Mixer.Spec
import Mathlib.Tactic.SplitIfs
import Mathlib.Tactic.Linarith

/-!
# Mixer: lemmas
-/

namespace Verif.Mixer

/-- A legal sample or NaN. -/
def LegalN (x : S) : Prop := ∀ q, x = some q → -1 ≤ q ∧ q ≤ 1

theorem clip_legal (x : S) : LegalN (clip x) := by
  cases x with
  | none => intro q h; cases h
  | some x =>
    intro q h
    unfold clip at h
    injection h with h
    subst h
    dsimp only
    split_ifs <;> constructor <;> linarith

theorem clip_id {q : Rat} (h1 : -1 ≤ q) (h2 : q ≤ 1) : clip (some q) = some q := by
  show some (if (if 1 < q then 1 else q) < -1 then -1 else (if 1 < q then 1 else q)) = some q
  rw [if_neg (not_lt.2 h2), if_neg (not_lt.2 h1)]

theorem mixOne_legal (add : Rat → Rat → Rat) (a b : S) : LegalN (mixOne add a b) := clip_legal _

theorem mixOne_zero {add : Rat → Rat → Rat} (hz : ZeroLaw add) {a : S} (ha : LegalN a) : mixOne add a (some 0) = a := by
  cases a with
  | none => rfl
  | some x =>
    obtain ⟨h1, h2⟩ := ha x rfl
    show clip (some (add x 0)) = some x
    rw [hz x h1 h2, clip_id h1 h2]

/-- What a reader gives for one piece. -/
def piece {σ : Type} (rd : Rd σ) (n : Nat) (s : σ) : List S := match (rd s n).1 with | none => List.replicate n (some 0) | some r => r.samples

theorem piece_length {σ : Type} {rd : Rd σ} (hf : Fills rd) (n : Nat) (s : σ) : (piece rd n s).length = n := by
  unfold piece
  cases h : (rd s n).1 with
  | none => exact List.length_replicate
  | some r => exact hf s n r h

theorem loop_out {σ : Type} {add : Rat → Rat → Rat} {rd : Rd σ} (hz : ZeroLaw add) (hf : Fills rd) (ts : Bool) (n : Nat) (ss : List σ) :
    ∀ a : Acc, a.out.length = n → (∀ x ∈ a.out, LegalN x) →
      (loop add rd ts n ss a).1 = ss.map (fun s => (rd s n).2) ∧
      (loop add rd ts n ss a).2.out.length = n ∧
      ∀ k, k < n → (loop add rd ts n ss a).2.out[k]? = some (ss.foldl (fun x s => mixOne add x ((piece rd n s).getD k (some 0))) (a.out.getD k (some 0))) := by
  induction ss with
  | nil =>
    intro a ha _
    refine ⟨rfl, ha, fun k hk => ?_⟩
    show a.out[k]? = some (a.out.getD k (some 0))
    rw [List.getD_eq_getElem?_getD, List.getElem?_eq_getElem (by omega)]
    rfl
  | cons s ss ih =>
    intro a ha hl
    obtain ⟨b, hb⟩ : ∃ b, b = (match (rd s n).1 with | none => a | some x => a.frame add ts x) := ⟨_, rfl⟩
    have hbo : b.out.length = n ∧ (∀ x ∈ b.out, LegalN x) ∧ ∀ k, k < n → b.out.getD k (some 0) = mixOne add (a.out.getD k (some 0)) ((piece rd n s).getD k (some 0)) := by
      rcases Option.eq_none_or_eq_some (rd s n).1 with h | ⟨r, h⟩
      · have hba : b = a := by rw [hb, h]
        have hp : piece rd n s = List.replicate n (some 0) := by unfold piece; rw [h]
        rw [hba]
        refine ⟨ha, hl, fun k hk => ?_⟩
        rw [hp, List.getD_eq_getElem?_getD (l := List.replicate n (some 0)), List.getElem?_replicate, if_pos hk]
        show _ = mixOne add _ (some 0)
        rw [mixOne_zero hz]
        rw [List.getD_eq_getElem?_getD, List.getElem?_eq_getElem (by omega)]
        exact hl _ (List.getElem_mem _)
      · have hba : b = a.frame add ts r := by rw [hb, h]
        have hp : piece rd n s = r.samples := by unfold piece; rw [h]
        have hrl := hf s n r h
        rw [hba, hp]
        refine ⟨?_, ?_, fun k hk => ?_⟩
        · show (List.zipWith _ a.out r.samples).length = n
          rw [List.length_zipWith]; omega
        · intro x hx
          have hx : x ∈ List.zipWith (mixOne add) a.out r.samples := hx
          obtain ⟨i, hi, rfl⟩ := List.mem_iff_getElem.1 hx
          rw [List.getElem_zipWith]
          exact mixOne_legal _ _ _
        · show (List.zipWith (mixOne add) a.out r.samples).getD k (some 0) = _
          rw [List.getD_eq_getElem?_getD, List.getElem?_eq_getElem (by rw [List.length_zipWith]; omega), List.getElem_zipWith,
            List.getD_eq_getElem?_getD (l := a.out), List.getElem?_eq_getElem (show k < a.out.length by omega), List.getD_eq_getElem?_getD (l := r.samples),
            List.getElem?_eq_getElem (show k < r.samples.length by omega)]
          rfl
    obtain ⟨q1, q2, q3⟩ := ih b hbo.1 hbo.2.1
    have e : loop add rd ts n (s :: ss) a = ((rd s n).2 :: (loop add rd ts n ss b).1, (loop add rd ts n ss b).2) := by rw [hb]; rfl
    rw [e]
    refine ⟨by rw [q1]; rfl, q2, fun k hk => ?_⟩
    rw [q3 k hk, hbo.2.2 k hk]
    rfl

theorem mixed_length (add : Rat → Rat → Rat) (n : Nat) (cols : List (List S)) : (mixed add n cols).length = n := by
  unfold mixed; rw [List.length_map, List.length_range]

theorem readChunk_spec {σ : Type} {add : Rat → Rat → Rat} {rd : Rd σ} (hz : ZeroLaw add) (hf : Fills rd) (m : Mx σ) (n fl : Nat) (cts : Int) :
    (read_ add rd m n fl cts).1 = m.readers.map (fun s => (rd s n).2) ∧ (read_ add rd m n fl cts).2.1 = mixed add n (m.readers.map (piece rd n)) := by
  obtain ⟨q1, q2, q3⟩ := loop_out hz hf m.ts n m.readers ⟨List.replicate n (some 0), fl, 0, 0, 0⟩ List.length_replicate
    (fun x hx q hq => by
      rw [List.eq_of_mem_replicate hx] at hq
      cases hq
      constructor <;> linarith)
  refine ⟨q1, ?_⟩
  apply List.ext_getElem?
  intro k
  by_cases hk : k < n
  · have e : (read_ add rd m n fl cts).2.1[k]? = _ := q3 k hk
    rw [e]
    unfold mixed
    rw [List.getElem?_map, List.getElem?_range hk]
    show some _ = some (mixAt add _ k)
    unfold mixAt
    rw [List.foldl_map]
    congr 2
    show (List.replicate n (some 0)).getD k (some 0) = some (0 : Rat)
    rw [List.getD_eq_getElem?_getD, List.getElem?_replicate, if_pos hk]
    rfl
  · rw [List.getElem?_eq_none (by have : (read_ add rd m n fl cts).2.1.length = n := q2; omega), List.getElem?_eq_none (by rw [mixed_length]; omega)]

theorem deliver_length {σ : Type} {rd : Rd σ} (hf : Fills rd) (ns : List Nat) : ∀ s, (deliver rd ns s).1.length = ns.sum := by
  induction ns with
  | nil => intro s; rfl
  | cons n ns ih =>
    intro s
    show (piece rd n s ++ (deliver rd ns (rd s n).2).1).length = _
    rw [List.length_append, ih, piece_length hf, List.sum_cons]

theorem deliver_append {σ : Type} (rd : Rd σ) (a b : List Nat) : ∀ s, deliver rd (a ++ b) s =
    ((deliver rd a s).1 ++ (deliver rd b (deliver rd a s).2).1, (deliver rd b (deliver rd a s).2).2) := by
  induction a with
  | nil => intro s; rfl
  | cons n a ih =>
    intro s
    show (piece rd n s ++ (deliver rd (a ++ b) (rd s n).2).1, (deliver rd (a ++ b) (rd s n).2).2) = _
    rw [ih]
    show _ = (piece rd n s ++ (deliver rd a (rd s n).2).1 ++ _, _)
    rw [List.append_assoc]
    rfl

/-- Two parts that are put together separately. -/
theorem mixed_append {σ : Type} (add : Rat → Rat → Rat) (n m : Nat) (ss : List σ) (f g : σ → List S) (hf : ∀ s ∈ ss, (f s).length = n) :
    mixed add (n + m) (ss.map fun s => f s ++ g s) = mixed add n (ss.map f) ++ mixed add m (ss.map g) := by
  unfold mixed
  rw [List.range_add, List.map_append, List.map_map]
  have key : ∀ (k : Nat) (h : σ → List S) (j : Nat) (ts : List σ) (x : S), (∀ s ∈ ts, (f s ++ g s).getD k (some 0) = (h s).getD j (some 0)) →
      (ts.map fun s => f s ++ g s).foldl (fun a c => mixOne add a (c.getD k (some 0))) x = (ts.map h).foldl (fun a c => mixOne add a (c.getD j (some 0))) x := by
    intro k h j ts
    induction ts with
    | nil => intro x _; rfl
    | cons t ts ih =>
      intro x hx
      show List.foldl _ (mixOne add x ((f t ++ g t).getD k (some 0))) _ = List.foldl _ (mixOne add x ((h t).getD j (some 0))) _
      rw [hx t (by simp)]
      exact ih _ (fun s hs => hx s (by simp [hs]))
  congr 1
  · apply List.map_congr_left
    intro k hk
    rw [List.mem_range] at hk
    unfold mixAt
    refine key k f k ss _ (fun s hs => ?_)
    rw [List.getD_eq_getElem?_getD, List.getElem?_append_left (by rw [hf s hs]; exact hk), ← List.getD_eq_getElem?_getD]
  · apply List.map_congr_left
    intro k _
    show mixAt add _ (n + k) = mixAt add _ k
    unfold mixAt
    refine key (n + k) g k ss _ (fun s hs => ?_)
    rw [List.getD_eq_getElem?_getD, List.getElem?_append_right (by rw [hf s hs]; omega), ← List.getD_eq_getElem?_getD, hf s hs]
    congr 1
    omega

theorem chunkLoop_spec {σ : Type} {add : Rat → Rat → Rat} {rd : Rd σ} (hz : ZeroLaw add) (hf : Fills rd) (fuel : Nat) : ∀ (m : Mx σ) (n fl : Nat) (cts : Int),
    0 < m.maxRead → n ≤ fuel → ∃ ns : List Nat, ns.sum = n ∧ (∀ k ∈ ns, 0 < k ∧ k ≤ m.maxRead) ∧
      (chunkLoop add rd fuel m n fl cts).1 = { m with readers := m.readers.map fun s => (deliver rd ns s).2 } ∧
      (chunkLoop add rd fuel m n fl cts).2.1 = mixed add n (m.readers.map fun s => (deliver rd ns s).1) := by
  induction fuel with
  | zero =>
    intro m n fl cts _ hn
    refine ⟨[], by simp; omega, by simp, ?_, ?_⟩
    · show m = { m with readers := m.readers.map fun s => s }
      rw [List.map_id']
    · have : n = 0 := by omega
      subst this
      rfl
  | succ fuel ih =>
    intro m n fl cts hm hn
    by_cases h0 : n = 0
    · subst h0
      have e : chunkLoop add rd (fuel + 1) m 0 fl cts = (m, [], fl, cts) := if_pos rfl
      rw [e]
      refine ⟨[], rfl, by simp, ?_, rfl⟩
      show m = { m with readers := m.readers.map fun s => s }
      rw [List.map_id']
    · obtain ⟨k, hk⟩ : ∃ k, k = if n > m.maxRead then m.maxRead else n := ⟨_, rfl⟩
      have hk1 : 0 < k ∧ k ≤ m.maxRead ∧ k ≤ n := by
        rw [hk]; split_ifs <;> omega
      obtain ⟨r1, r2⟩ := readChunk_spec hz hf m k fl cts
      obtain ⟨r, hr⟩ : ∃ r, r = read_ add rd m k fl cts := ⟨_, rfl⟩
      rw [← hr] at r1 r2
      have e : chunkLoop add rd (fuel + 1) m n fl cts =
          ((chunkLoop add rd fuel { m with readers := r.1 } (n - k) r.2.2.1 r.2.2.2).1,
            r.2.1 ++ (chunkLoop add rd fuel { m with readers := r.1 } (n - k) r.2.2.1 r.2.2.2).2.1,
            (chunkLoop add rd fuel { m with readers := r.1 } (n - k) r.2.2.1 r.2.2.2).2.2) := by
        rw [hr, hk]
        show (if n = 0 then _ else _) = _
        rw [if_neg h0]
      obtain ⟨ns, s1, s2, s3, s4⟩ := ih { m with readers := r.1 } (n - k) r.2.2.1 r.2.2.2 hm (by omega)
      refine ⟨k :: ns, by rw [List.sum_cons]; omega, ?_, ?_, ?_⟩
      · intro j hj
        rcases List.mem_cons.1 hj with rfl | hj
        · exact ⟨hk1.1, hk1.2.1⟩
        · exact s2 j hj
      · rw [e]
        show (chunkLoop add rd fuel { m with readers := r.1 } (n - k) r.2.2.1 r.2.2.2).1 = _
        rw [s3]
        show ({ m with readers := r.1.map fun s => (deliver rd ns s).2 } : Mx σ) = _
        rw [r1, List.map_map]
        rfl
      · rw [e]
        show r.2.1 ++ (chunkLoop add rd fuel { m with readers := r.1 } (n - k) r.2.2.1 r.2.2.2).2.1 = _
        rw [s4, r2]
        show _ ++ mixed add (n - k) (r.1.map _) = _
        rw [r1, List.map_map]
        have := mixed_append add k (n - k) m.readers (piece rd k) (fun s => (deliver rd ns (rd s k).2).1) (fun s _ => piece_length hf k s)
        rw [show k + (n - k) = n by omega] at this
        rw [← show mixed add n (m.readers.map fun s => piece rd k s ++ (deliver rd ns (rd s k).2).1) = mixed add n (m.readers.map fun s => (deliver rd (k :: ns) s).1) from rfl, this]
        rfl

theorem mk?_ok {a : List S} {b c : Nat} {d : Int} {f : Frame} (h : Frame.mk? a b c d = .ok f) : f = ⟨a, b, c, d⟩ ∧ c ≠ 0 ∧ 0 ≤ d := by
  unfold Frame.mk? at h
  split_ifs at h with hc
  · injection h with h
    rw [not_or] at hc
    exact ⟨h.symm, hc.1, by omega⟩

theorem read_multi {σ : Type} {add : Rat → Rat → Rat} {rd : Rd σ} {m : Mx σ} {f : Frame} (h1 : m.readers.length ≠ 1) :
    read add rd m f = (Frame.mk? (chunkLoop add rd f.samples.length m f.samples.length 0 0).2.1 (chunkLoop add rd f.samples.length m f.samples.length 0 0).2.2.1
      (f.samples.length / m.chans) (chunkLoop add rd f.samples.length m f.samples.length 0 0).2.2.2).map fun g => ((chunkLoop add rd f.samples.length m f.samples.length 0 0).1, g) := by
  unfold read
  match hr : m.readers with
  | [] => rfl
  | [s] => rw [hr] at h1; exact absurd rfl h1
  | s :: t :: ss => rfl

theorem reads_spec {σ : Type} {add : Rat → Rat → Rat} {rd : Rd σ} (hz : ZeroLaw add) (hf : Fills rd) (bs : List (List S)) : ∀ (m m' : Mx σ) (fs : List Frame),
    0 < m.maxRead → m.readers.length ≠ 1 → reads add rd m bs = .ok (m', fs) →
    ∃ ns : List Nat, ns.sum = total bs ∧ (∀ k ∈ ns, 0 < k ∧ k ≤ m.maxRead) ∧ m' = { m with readers := m.readers.map fun s => (deliver rd ns s).2 } ∧
      samplesOf fs = mixed add (total bs) (m.readers.map fun s => (deliver rd ns s).1) := by
  induction bs with
  | nil =>
    intro m m' fs _ _ h
    injection h with h
    injection h with h1 h2
    subst h1; subst h2
    refine ⟨[], rfl, by simp, ?_, rfl⟩
    show m = { m with readers := m.readers.map fun s => s }
    rw [List.map_id']
  | cons b bs ih =>
    intro m m' fs hm h1 h
    have h : (read add rd m ⟨b, 0, 0, 0⟩).bind (fun r => (reads add rd r.1 bs).map fun q => (q.1, r.2 :: q.2)) = .ok (m', fs) := h
    rw [read_multi h1] at h
    obtain ⟨ns, s1, s2, s3, s4⟩ := chunkLoop_spec hz hf b.length m b.length 0 0 hm (Nat.le_refl _)
    obtain ⟨r, hr⟩ : ∃ r, r = chunkLoop add rd b.length m b.length 0 0 := ⟨_, rfl⟩
    have h : ((Frame.mk? (chunkLoop add rd b.length m b.length 0 0).2.1 (chunkLoop add rd b.length m b.length 0 0).2.2.1
      (b.length / m.chans) (chunkLoop add rd b.length m b.length 0 0).2.2.2).map fun g => ((chunkLoop add rd b.length m b.length 0 0).1, g)).bind
        (fun r => (reads add rd r.1 bs).map fun q => (q.1, r.2 :: q.2)) = .ok (m', fs) := h
    rw [← hr] at h s3 s4
    cases hk : Frame.mk? r.2.1 r.2.2.1 (b.length / m.chans) r.2.2.2 with
    | error e => rw [hk] at h; cases h
    | ok f =>
      rw [hk] at h
      have h : (reads add rd r.1 bs).map (fun q => (q.1, f :: q.2)) = .ok (m', fs) := h
      cases hq : reads add rd r.1 bs with
      | error e => rw [hq] at h; cases h
      | ok q =>
        rw [hq] at h
        injection h with h
        injection h with e1 e2
        subst e1; subst e2
        have hm' : 0 < r.1.maxRead := by rw [s3]; exact hm
        obtain ⟨ns2, t1, t2, t3, t4⟩ := ih r.1 q.1 q.2 hm' (by rw [s3]; show (m.readers.map _).length ≠ 1; rw [List.length_map]; exact h1) hq
        refine ⟨ns ++ ns2, ?_, ?_, ?_, ?_⟩
        · rw [List.sum_append, s1, t1]; rfl
        · intro k hk
          rcases List.mem_append.1 hk with hk | hk
          · exact s2 k hk
          · have := t2 k hk
            rw [s3] at this
            exact this
        · rw [t3, s3]
          show ({ m with readers := (m.readers.map _).map _ } : Mx σ) = _
          rw [List.map_map]
          congr 1
          apply List.map_congr_left
          intro s _
          rw [deliver_append]
          rfl
        · show f.samples ++ samplesOf q.2 = _
          rw [t4, (mk?_ok hk).1]
          show r.2.1 ++ _ = mixed add (b.length + total bs) _
          rw [s4, s3]
          show _ ++ mixed add (total bs) ((m.readers.map _).map _) = _
          rw [List.map_map]
          have := mixed_append add b.length (total bs) m.readers (fun s => (deliver rd ns s).1) (fun s => (deliver rd ns2 (deliver rd ns s).2).1)
            (fun s _ => by rw [deliver_length hf, s1])
          have e : (m.readers.map fun s => (deliver rd (ns ++ ns2) s).1) = m.readers.map fun s => (deliver rd ns s).1 ++ (deliver rd ns2 (deliver rd ns s).2).1 := by
            apply List.map_congr_left
            intro s _
            rw [deliver_append]
          rw [e, this]
          rfl

end Verif.Mixer
