import Verif.StringList.Model

namespace Verif.StringList

/-- The memory after pushing some strings. -/
def enc : List (List Byte) → List Byte
  | [] => []
  | s :: ss => block s ++ enc ss

theorem enc_append (a b : List (List Byte)) : enc (a ++ b) = enc a ++ enc b := by
  induction a with
  | nil => rfl
  | cons s a ih => simp [enc, ih]

theorem unle32_le32 (n : Nat) (h : n < 2 ^ 32) : unle32 (le32 n) = n := by
  simp only [le32, unle32, Fin.val_ofNat]
  omega

theorem length_le32 (n : Nat) : (le32 n).length = 4 := rfl

theorem align4_gt (n : Nat) : n < align4 (n + 1) ∧ align4 (n + 1) ≤ n + 4 := by
  unfold align4; split <;> omega

theorem align4_eq (n : Nat) : align4 n = (n + 3) / 4 * 4 := by unfold align4; split <;> omega

theorem length_block (s : List Byte) : (block s).length = blkSize s.length := by
  have := align4_gt s.length
  simp only [block, List.length_append, length_le32, List.length_replicate, blkSize]
  omega

theorem push_data (ss : List (List Byte)) : ∀ l : SL,
    (ss.foldl pushBack l).data = l.data ++ enc ss ∧ (ss.foldl pushBack l).size = l.size + ss.length := by
  induction ss with
  | nil => intro l; simp [enc]
  | cons s ss ih =>
    intro l
    have := ih (pushBack l s)
    rw [List.foldl_cons]
    refine ⟨?_, ?_⟩
    · rw [this.1]; simp [pushBack, enc]
    · rw [this.2]; simp [pushBack]; omega

theorem push_last (ss : List (List Byte)) (s : List Byte) :
    (ss ++ [s]).foldl pushBack init = ⟨enc (ss ++ [s]), 0, (enc ss).length, ss.length + 1⟩ := by
  rw [List.foldl_append]
  have := push_data ss init
  simp only [List.foldl_cons, List.foldl_nil, pushBack]
  rw [this.1, this.2, enc_append]
  simp [init, enc]

/-- A position in the list: everything in front of it is `pre`, the string itself is `s`. -/
theorem drop_at (pre post : List (List Byte)) (s : List Byte) :
    (enc (pre ++ s :: post)).drop (enc pre).length = block s ++ enc post := by
  rw [enc_append, List.drop_append_of_le_length (Nat.le_refl _), List.drop_length]
  rfl

theorem block_head (s : List Byte) (rest : List Byte) :
    (block s ++ rest).take 4 = le32 (blkSize s.length % 2 ^ 32) := by
  simp only [block, List.append_assoc]
  rw [List.take_append_of_le_length (by rw [length_le32]; exact Nat.le_refl _)]
  rfl

theorem block_body (s : List Byte) (rest : List Byte) :
    ∃ r, (block s ++ rest).drop 4 = s ++ 0 :: r := by
  have hg := (align4_gt s.length).1
  obtain ⟨k, hk⟩ : ∃ k, align4 (s.length + 1) - s.length = k + 1 :=
    ⟨align4 (s.length + 1) - s.length - 1, by omega⟩
  refine ⟨List.replicate k 0 ++ le32 (blkSize s.length % 2 ^ 32) ++ rest, ?_⟩
  simp only [block, List.append_assoc, hk, List.replicate_succ]
  rw [List.drop_append_of_le_length (by rw [length_le32]; exact Nat.le_refl _)]
  have : (le32 (blkSize s.length % 2 ^ 32)).drop 4 = [] := rfl
  rw [this]
  simp

theorem enc_split_lt (pre post : List (List Byte)) (s : List Byte) :
    (enc (pre ++ s :: post)).length = (enc pre).length + blkSize s.length + (enc post).length := by
  rw [enc_append]
  simp only [enc, List.length_append, length_block]
  omega

variable {l : SL} {pre post : List (List Byte)} {s : List Byte}

theorem lenAt_eq (hd : l.data = enc (pre ++ s :: post)) (hsz : l.data.length < 2 ^ 32) :
    lenAt l (enc pre).length = blkSize s.length := by
  unfold lenAt
  rw [hd, drop_at, block_head]
  have := enc_split_lt pre post s
  rw [hd] at hsz
  rw [Nat.mod_eq_of_lt (by omega), unle32_le32 _ (by omega)]

theorem body_at (hd : l.data = enc (pre ++ s :: post)) :
    ∃ r, l.data.drop ((enc pre).length + 4) = s ++ 0 :: r := by
  obtain ⟨r, hr⟩ := block_body s (enc post)
  refine ⟨r, ?_⟩
  rw [hd, ← List.drop_drop, drop_at, hr]

theorem takeWhile_nul (s r : List Byte) (h : (0 : Byte) ∉ s) :
    (s ++ 0 :: r).takeWhile (· ≠ 0) = s := by
  induction s with
  | nil => simp
  | cons c s ih =>
    simp only [List.mem_cons, not_or] at h
    have hc : c ≠ 0 := fun e => h.1 e.symm
    simp only [List.cons_append]
    rw [List.takeWhile_cons_of_pos (by simpa using hc), ih h.2]

theorem cstrAt_eq (hd : l.data = enc (pre ++ s :: post)) (hn : (0 : Byte) ∉ s) :
    cstrAt l (enc pre).length = s := by
  obtain ⟨r, hr⟩ := body_at hd
  unfold cstrAt
  rw [hr, takeWhile_nul s r hn]

theorem enc_snoc_length (pre : List (List Byte)) (s : List Byte) :
    (enc (pre ++ [s])).length = (enc pre).length + blkSize s.length := by
  rw [enc_append]; simp [enc, length_block]

/-- The footer in front of a position. -/
theorem footer_at (hd : l.data = enc ((pre ++ [s]) ++ post)) (hsz : l.data.length < 2 ^ 32) :
    lenAt l ((enc (pre ++ [s])).length - 4) = blkSize s.length := by
  have hg := align4_gt s.length
  unfold lenAt
  rw [hd, enc_append (pre ++ [s]) post]
  have e1 : (enc (pre ++ [s])) = enc pre ++ (le32 (blkSize s.length % 2 ^ 32) ++ s ++
      List.replicate (align4 (s.length + 1) - s.length) 0) ++ le32 (blkSize s.length % 2 ^ 32) := by
    rw [enc_append]; simp [enc, block]
  obtain ⟨body, hbody⟩ : ∃ body, body = enc pre ++ (le32 (blkSize s.length % 2 ^ 32) ++ s ++
      List.replicate (align4 (s.length + 1) - s.length) 0) := ⟨_, rfl⟩
  rw [← hbody] at e1
  rw [e1]
  have hl : (body ++ le32 (blkSize s.length % 2 ^ 32)).length - 4 = body.length := by
    rw [List.length_append, length_le32]; omega
  rw [hl, List.append_assoc, List.drop_append_of_le_length (Nat.le_refl _), List.drop_length,
    List.nil_append, List.take_append_of_le_length (by rw [length_le32]; exact Nat.le_refl _)]
  have : (le32 (blkSize s.length % 2 ^ 32)).take 4 = le32 (blkSize s.length % 2 ^ 32) := rfl
  rw [this]
  have h1 := enc_snoc_length pre s
  have h2 : l.data.length = (enc (pre ++ [s])).length + (enc post).length := by
    rw [hd, enc_append, List.length_append]
  rw [Nat.mod_eq_of_lt (by omega), unle32_le32 _ (by omega)]

theorem blk_pos (n : Nat) : 8 ≤ blkSize n := by unfold blkSize; omega

end Verif.StringList
