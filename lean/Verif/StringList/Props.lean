import Verif.StringList.Lemmas

/-! # C49: string list -/

namespace Verif.StringList

theorem forward_eq (l : SL) (hsz : l.data.length < 2 ^ 32) :
    ∀ (post pre : List (List Byte)) (s : List Byte) (fuel : Nat),
      l.data = enc (pre ++ s :: post) → (∀ x ∈ s :: post, (0 : Byte) ∉ x) → post.length < fuel →
      (∀ p t, pre ++ s :: post = p ++ [t] → l.back = (enc p).length) →
      forward l fuel (enc pre).length = s :: post
  | _, _, _, 0, _, _, hf, _ => absurd hf (by omega)
  | [], pre, s, fuel + 1, hd, hn, _, hb => by
    simp only [forward]
    rw [cstrAt_eq hd (hn s (by simp))]
    have := hb pre s rfl
    simp [nextof, this]
  | t :: post, pre, s, fuel + 1, hd, hn, hf, hb => by
    simp only [forward]
    rw [cstrAt_eq hd (hn s (by simp))]
    have hne : (enc pre).length ≠ l.back := by
      obtain ⟨p, u, hpu⟩ : ∃ p u, (t :: post) = p ++ [u] :=
        ⟨(t :: post).dropLast, (t :: post).getLast (by simp), (List.dropLast_concat_getLast (by simp)).symm⟩
      have := hb (pre ++ s :: p) u (by rw [hpu]; simp)
      rw [this, enc_append]
      simp only [enc, List.length_append, length_block]
      have := blk_pos s.length
      omega
    simp only [nextof, hne, if_false]
    rw [lenAt_eq hd hsz]
    have e : (enc pre).length + blkSize s.length = (enc (pre ++ [s])).length := (enc_snoc_length pre s).symm
    rw [e]
    congr 1
    exact forward_eq l hsz post (pre ++ [s]) t fuel (by rw [hd]; simp)
      (fun x hx => hn x (by simp at hx ⊢; exact .inr hx)) (by simp at hf; omega)
      (fun p u h => hb p u (by rw [← h]; simp))

/-- **C49** (iteration). Iterating forward over a list of pushed strings gives these strings in order
of insertion, and then ends. -/
theorem C49_forward (ss : List (List Byte)) (hne : ss ≠ []) (hn : ∀ s ∈ ss, (0 : Byte) ∉ s)
    (hsz : (ss.foldl pushBack init).data.length < 2 ^ 32) :
    forward (ss.foldl pushBack init) ss.length (ss.foldl pushBack init).front = ss ∧
    (ss.foldl pushBack init).size = ss.length := by
  obtain ⟨p, t, rfl⟩ : ∃ p t, ss = p ++ [t] :=
    ⟨ss.dropLast, ss.getLast hne, (List.dropLast_concat_getLast hne).symm⟩
  rw [push_last] at hsz ⊢
  refine ⟨?_, by simp⟩
  cases hp : p ++ [t] with
  | nil => simp at hp
  | cons s post =>
    have := forward_eq ⟨enc (p ++ [t]), 0, (enc p).length, p.length + 1⟩ hsz post [] s
      (p ++ [t]).length (by simp [hp]) (by rw [← hp]; exact hn) (by rw [hp]; simp)
      (fun q u h => by
        rw [List.nil_append, ← hp] at h
        obtain ⟨e1, _⟩ := List.append_inj' h rfl
        rw [e1])
    simp only [enc, List.length_nil] at this
    rw [hp] at this
    exact this

theorem backward_eq (l : SL) (hsz : l.data.length < 2 ^ 32) (hf0 : l.front = 0) :
    ∀ (n : Nat) (pre post : List (List Byte)) (s : List Byte) (fuel : Nat), pre.length = n →
      l.data = enc (pre ++ s :: post) → (∀ x ∈ pre ++ [s], (0 : Byte) ∉ x) → pre.length < fuel →
      backward l fuel (enc pre).length = s :: pre.reverse
  | _, _, _, _, 0, _, _, _, hf => absurd hf (by omega)
  | 0, pre, post, s, fuel + 1, hn0, hd, hn, hf => by
    have : pre = [] := List.length_eq_zero_iff.mp hn0
    subst this
    simp only [backward]
    rw [cstrAt_eq hd (hn s (by simp))]
    simp [prevof, enc, hf0]
  | n + 1, pre, post, s, fuel + 1, hn0, hd, hn, hf => by
    have hpne : pre ≠ [] := by intro e; rw [e] at hn0; simp at hn0
    obtain ⟨p, t, rfl⟩ : ∃ p t, pre = p ++ [t] :=
      ⟨pre.dropLast, pre.getLast hpne, (List.dropLast_concat_getLast hpne).symm⟩
    simp only [backward]
    rw [cstrAt_eq hd (hn s (by simp))]
    have hlen := enc_snoc_length p t
    have hpos := blk_pos t.length
    have hne : (enc (p ++ [t])).length ≠ l.front := by omega
    simp only [prevof, hne, if_false]
    rw [footer_at (post := s :: post) hd hsz]
    have e : (enc (p ++ [t])).length - blkSize t.length = (enc p).length := by omega
    rw [e]
    simp only [List.reverse_append, List.reverse_cons, List.reverse_nil, List.nil_append,
      List.cons_append]
    congr 1
    exact backward_eq l hsz hf0 n p (s :: post) t fuel (by simp at hn0; omega) (by rw [hd]; simp)
      (fun x hx => hn x (by simp at hx ⊢; rcases hx with h | h <;> simp [h])) (by simp at hf; omega)

/-- **C49** (reverse iteration). Iterating backward gives the strings in reverse order. -/
theorem C49_backward (ss : List (List Byte)) (hne : ss ≠ []) (hn : ∀ s ∈ ss, (0 : Byte) ∉ s)
    (hsz : (ss.foldl pushBack init).data.length < 2 ^ 32) :
    backward (ss.foldl pushBack init) ss.length (ss.foldl pushBack init).back = ss.reverse := by
  obtain ⟨p, t, rfl⟩ : ∃ p t, ss = p ++ [t] :=
    ⟨ss.dropLast, ss.getLast hne, (List.dropLast_concat_getLast hne).symm⟩
  rw [push_last] at hsz ⊢
  have := backward_eq ⟨enc (p ++ [t]), 0, (enc p).length, p.length + 1⟩ hsz rfl p.length p [] t
    (p ++ [t]).length rfl rfl hn (by simp)
  rw [this]
  simp

/-- Two string sizes share a block size. -/
def SameBlock (s t : List Byte) : Prop := blkSize s.length = blkSize t.length

instance (s t : List Byte) : Decidable (SameBlock s t) := inferInstanceAs (Decidable (_ = _))

theorem prefix_test (s t r : List Byte) (hs : (0 : Byte) ∉ s) :
    (t ++ 0 :: r).take s.length = s ↔ s <+: t := by
  constructor
  · intro h
    rcases Nat.lt_or_ge t.length s.length with hlt | hge
    · exfalso
      apply hs
      rw [← h, List.take_append]
      obtain ⟨k, hk⟩ : ∃ k, s.length - t.length = k + 1 := ⟨s.length - t.length - 1, by omega⟩
      rw [hk]
      simp
    · rw [List.take_append_of_le_length hge] at h
      exact ⟨t.drop s.length, by
        have e := List.take_append_drop s.length t
        rw [h] at e
        exact e⟩
  · rintro ⟨u, rfl⟩
    rw [List.append_assoc, List.take_append_of_le_length (Nat.le_refl _), List.take_length]

theorem findLoop_eq (l : SL) (q : List Byte) (hq : (0 : Byte) ∉ q) (hsz : l.data.length < 2 ^ 32) :
    ∀ (post pre : List (List Byte)) (s : List Byte) (fuel : Nat),
      l.data = enc (pre ++ s :: post) → (∀ x ∈ s :: post, (0 : Byte) ∉ x) → post.length < fuel →
      (∀ p t, pre ++ s :: post = p ++ [t] → l.back = (enc p).length) →
      (findLoop l q fuel (enc pre).length).map (cstrAt l) =
        (s :: post).find? (fun t => decide (SameBlock t q ∧ q <+: t))
  | _, _, _, 0, _, _, hf, _ => absurd hf (by omega)
  | post, pre, s, fuel + 1, hd, hn, hf, hb => by
    unfold findLoop
    obtain ⟨r, hr⟩ := body_at hd
    rw [lenAt_eq hd hsz, hr]
    have hc := prefix_test q s r hq
    by_cases hm : SameBlock s q ∧ q <+: s
    · rw [if_pos ⟨hm.1, hc.mpr hm.2⟩]
      rw [List.find?_cons_of_pos (by simpa using hm)]
      simp only [Option.map_some, cstrAt_eq hd (hn s (by simp))]
    · rw [if_neg (fun h => hm ⟨h.1, hc.mp h.2⟩)]
      rw [List.find?_cons_of_neg (by simpa using hm)]
      cases post with
      | nil =>
        rw [if_pos (hb pre s rfl).symm]
        rfl
      | cons t post =>
        have hne : (enc pre).length ≠ l.back := by
          obtain ⟨p, u, hpu⟩ : ∃ p u, (t :: post) = p ++ [u] :=
            ⟨(t :: post).dropLast, (t :: post).getLast (by simp),
              (List.dropLast_concat_getLast (by simp)).symm⟩
          have := hb (pre ++ s :: p) u (by rw [hpu]; simp)
          rw [this, enc_append]
          simp only [enc, List.length_append, length_block]
          have := blk_pos s.length
          omega
        rw [if_neg hne]
        have e : (enc pre).length + blkSize s.length = (enc (pre ++ [s])).length :=
          (enc_snoc_length pre s).symm
        rw [e]
        exact findLoop_eq l q hq hsz post (pre ++ [s]) t fuel (by rw [hd]; simp)
          (fun x hx => hn x (by simp at hx ⊢; exact .inr hx)) (by simp at hf; omega)
          (fun p u h => hb p u (by rw [← h]; simp))

/-- What `find` computes: the first stored string in a block of the same size that begins with the
requested string. -/
theorem find_eq (ss : List (List Byte)) (q : List Byte) (hn : ∀ s ∈ ss, (0 : Byte) ∉ s)
    (hq : (0 : Byte) ∉ q) (hsz : (ss.foldl pushBack init).data.length < 2 ^ 32) :
    (find (ss.foldl pushBack init) q).map (cstrAt (ss.foldl pushBack init)) =
      ss.find? (fun t => decide (SameBlock t q ∧ q <+: t)) := by
  by_cases hne : ss = []
  · subst hne; rfl
  · obtain ⟨p, t, rfl⟩ : ∃ p t, ss = p ++ [t] :=
      ⟨ss.dropLast, ss.getLast hne, (List.dropLast_concat_getLast hne).symm⟩
    rw [push_last] at hsz ⊢
    unfold find
    rw [if_pos (by simp)]
    cases hp : p ++ [t] with
    | nil => simp at hp
    | cons s post =>
      have := findLoop_eq ⟨enc (p ++ [t]), 0, (enc p).length, p.length + 1⟩ q hq hsz post [] s
        (p.length + 1) (by simp [hp]) (by rw [← hp]; exact hn)
        (by have := congrArg List.length hp; simp at this; omega)
        (fun r u h => by
          rw [List.nil_append, ← hp] at h
          obtain ⟨e1, _⟩ := List.append_inj' h rfl
          rw [e1])
      rw [hp] at this
      exact this

/-- **C49** (search; partial). A stored string is always found; and what is found begins with the
requested string. Missing: equality, see `C49_find_fails`. -/
theorem C49_find_partial (ss : List (List Byte)) (q : List Byte) (hn : ∀ s ∈ ss, (0 : Byte) ∉ s)
    (hq : (0 : Byte) ∉ q) (hsz : (ss.foldl pushBack init).data.length < 2 ^ 32) :
    (q ∈ ss → ∃ off, find (ss.foldl pushBack init) q = some off) ∧
    (∀ off, find (ss.foldl pushBack init) q = some off →
      cstrAt (ss.foldl pushBack init) off ∈ ss ∧ q <+: cstrAt (ss.foldl pushBack init) off ∧
      (cstrAt (ss.foldl pushBack init) off).length < q.length + 4) := by
  have h := find_eq ss q hn hq hsz
  constructor
  · intro hm
    cases hf : find (ss.foldl pushBack init) q with
    | some off => exact ⟨off, rfl⟩
    | none =>
      rw [hf] at h
      have := List.find?_eq_none.mp h.symm q hm
      simp [SameBlock] at this
  · intro off hf
    rw [hf] at h
    simp only [Option.map_some] at h
    have h1 := List.mem_of_find?_eq_some h.symm
    have h2 := List.find?_some h.symm
    simp only [decide_eq_true_eq] at h2
    refine ⟨h1, h2.2, ?_⟩
    have := h2.1
    unfold SameBlock blkSize at this
    rw [align4_eq, align4_eq] at this
    omega

/-- **C49** (exactness for strings of full blocks; partial). When the size of the requested string is
3 modulo 4, so that its block has no padding, the search is exact. -/
theorem C49_find_full_block_partial (ss : List (List Byte)) (q : List Byte)
    (hn : ∀ s ∈ ss, (0 : Byte) ∉ s) (hq : (0 : Byte) ∉ q)
    (hsz : (ss.foldl pushBack init).data.length < 2 ^ 32) (hfull : q.length % 4 = 3) :
    (∃ off, find (ss.foldl pushBack init) q = some off) ↔ q ∈ ss := by
  have h := find_eq ss q hn hq hsz
  refine ⟨?_, (C49_find_partial ss q hn hq hsz).1⟩
  rintro ⟨off, hf⟩
  rw [hf] at h
  simp only [Option.map_some] at h
  have h1 := List.mem_of_find?_eq_some h.symm
  have h2 := List.find?_some h.symm
  simp only [decide_eq_true_eq] at h2
  have hl := h2.1
  unfold SameBlock blkSize at hl
  rw [align4_eq, align4_eq] at hl
  have : q = cstrAt (ss.foldl pushBack init) off := h2.2.eq_of_length (by have := h2.2.length_le; omega)
  rw [this]; exact h1

/-- **C49 fails**: the list holds only "ab", and a search for "a" succeeds. With both "ab" and "a"
stored, a search for "a" returns "ab". -/
theorem C49_find_fails :
    let l1 := [[97, 98]].foldl pushBack init
    let l2 := [[97, 98], [97]].foldl pushBack init
    find l1 [97] = some 0 ∧ cstrAt l1 0 = [97, 98] ∧
    find l2 [97] = some 0 ∧ cstrAt l2 0 = [97, 98] := by decide

/-- Three strings; the hypotheses hold, iteration and search. -/
example : let l := [[97, 98], [], [99, 100, 101, 102, 103]].foldl pushBack init
    l.data.length = 40 ∧ forward l 3 l.front = [[97, 98], [], [99, 100, 101, 102, 103]] ∧
    backward l 3 l.back = [[99, 100, 101, 102, 103], [], [97, 98]] ∧
    find l [120] = none := by decide
example := C49_find_full_block_partial [[97, 98, 99], [97]] [97, 98, 99] (by decide) (by decide)
  (by decide) (by decide)

end Verif.StringList
