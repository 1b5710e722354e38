import Verif.PcmFormat.Lemmas

/-!
# PCM formats: reading and writing whole bytes
-/

namespace Verif.PcmFormat

open Spec

theorem number_append_one (l : List Nat) (x : Nat) :
    number (l ++ [x]) = number l + 256 ^ l.length * x := by
  induction l with
  | nil => simp [number]
  | cons a l ih =>
    simp only [List.cons_append, number, ih, List.length_cons, pow_succ]
    ring

theorem number_lt (l : List Nat) (h : ∀ x ∈ l, x < 256) : number l < 256 ^ l.length := by
  induction l with
  | nil => simp [number]
  | cons a l ih =>
    have h1 := ih (fun x hx => h x (List.mem_cons_of_mem _ hx))
    have h2 := h a (List.mem_cons_self)
    simp only [number, List.length_cons, pow_succ]
    omega

theorem octet_succ (v : Int) (n : Nat) : octet v (n + 1) = octet (v / 256) n := by
  unfold octet
  rw [pow_succ', Int.ediv_ediv_of_nonneg (by norm_num)]

theorem octet_lt (v : Int) (n : Nat) : octet v n < 256 := by
  unfold octet
  have := Int.emod_nonneg (v / 256 ^ n) (by norm_num : (256 : Int) ≠ 0)
  have := Int.emod_lt_of_pos (v / 256 ^ n) (by norm_num : (0 : Int) < 256)
  omega

theorem number_octets (k : Nat) : ∀ v : Int,
    (number ((List.range k).map (octet v)) : Int) = v % 256 ^ k := by
  induction k with
  | zero => intro v; simp [number, Int.emod_one]
  | succ k ih =>
    intro v
    have hm : ((List.range k).map Nat.succ).map (octet v) = (List.range k).map (octet (v / 256)) := by
      rw [List.map_map]
      apply List.map_congr_left
      intro a _
      exact octet_succ v a
    rw [List.range_succ_eq_map, List.map_cons, hm, number]
    push_cast
    rw [ih (v / 256)]
    have h0 : (octet v 0 : Int) = v % 256 := by
      unfold octet
      have := Int.emod_nonneg v (by norm_num : (256 : Int) ≠ 0)
      simp
      omega
    rw [h0, pow_succ', Int.emod_mul_ediv_left_aux v k]
  where
  Int.emod_mul_ediv_left_aux (v : Int) (k : Nat) :
      v % (256 * 256 ^ k) = v % 256 + 256 * (v / 256 % 256 ^ k) := by
    have h1 := Int.emod_add_mul_ediv v 256
    have h2 := Int.emod_add_mul_ediv (v / 256) (256 ^ k)
    have h3 := Int.emod_nonneg v (by norm_num : (256 : Int) ≠ 0)
    have h4 := Int.emod_lt_of_pos v (by norm_num : (0 : Int) < 256)
    have hM : (0 : Int) < 256 ^ k := by positivity
    have h5 := Int.emod_nonneg (v / 256) (ne_of_gt hM)
    have h6 := Int.emod_lt_of_pos (v / 256) hM
    have e : v = (v % 256 + 256 * (v / 256 % 256 ^ k)) + (256 * 256 ^ k) * (v / 256 / 256 ^ k) := by
      calc v = v % 256 + 256 * (v / 256) := h1.symm
        _ = v % 256 + 256 * (v / 256 % 256 ^ k + 256 ^ k * (v / 256 / 256 ^ k)) := by rw [h2]
        _ = _ := by ring
    obtain ⟨q, hq⟩ : ∃ q, q = v / 256 / 256 ^ k := ⟨_, rfl⟩
    obtain ⟨r, hr⟩ : ∃ r, r = v % 256 + 256 * (v / 256 % 256 ^ k) := ⟨_, rfl⟩
    rw [← hq, ← hr] at e
    rw [← hr, e, Int.add_mul_emod_self_left]
    exact Int.emod_eq_of_lt (by omega) (by omega)

/-- Buffer with the bytes from `p` on replaced. -/
def splice (b : List Nat) (p : Nat) (l : List Nat) : List Nat :=
  b.take p ++ l ++ b.drop (p + l.length)

theorem splice_length (b : List Nat) (p : Nat) (l : List Nat) (h : p + l.length ≤ b.length) :
    (splice b p l).length = b.length := by
  unfold splice
  simp
  omega

theorem splice_out (b : List Nat) (p : Nat) (l : List Nat) (h : p + l.length ≤ b.length) (j : Nat)
    (hj : j < p ∨ p + l.length ≤ j) : (splice b p l)[j]? = b[j]? := by
  unfold splice
  rcases hj with hj | hj
  · rw [List.append_assoc, List.getElem?_append_left (by simp; omega), List.getElem?_take,
      if_pos hj]
  · rw [List.getElem?_append_right (by simp; omega), List.getElem?_drop]
    congr 1
    simp
    omega

theorem splice_mid (b : List Nat) (p : Nat) (l : List Nat) (h : p + l.length ≤ b.length) :
    ((splice b p l).drop p).take l.length = l := by
  unfold splice
  have : (b.take p).length = p := by simp; omega
  rw [List.append_assoc, List.drop_append_of_le_length (by omega)]
  simp [this]

theorem packOctets_aligned (c : Code) (hc : c.packed % 8 = 0) (v : Int) : ∀ (ns : List Nat)
    (b : List Nat) (p : Nat), p + ns.length ≤ b.length →
    packOctets c v ns b (8 * p) = some (splice b p (ns.map (octet v)), 8 * (p + ns.length)) := by
  intro ns
  induction ns with
  | nil => intro b p _; simp [packOctets, splice]
  | cons n ns ih =>
    intro b p h
    simp only [List.length_cons] at h
    have h1 : 8 * p / 8 = p := by omega
    have hw : writeOctet c b (8 * p) n (octet v n) = some (b.set p (octet v n), 8 * (p + 1)) := by
      unfold writeOctet alignedWrite
      rw [if_pos hc, h1, if_pos (by omega)]
      rfl
    unfold packOctets
    rw [hw]
    show packOctets c v ns (b.set p (octet v n)) (8 * (p + 1)) = _
    rw [ih _ _ (by simp; omega)]
    congr 1
    refine Prod.ext ?_ ?_
    · show splice (b.set p (octet v n)) (p + 1) _ = _
      unfold splice
      have t : (b.set p (octet v n)).take (p + 1) = b.take p ++ [octet v n] := by
        apply List.ext_getElem?
        intro j
        grind
      rw [t, List.drop_set_of_lt (by omega), List.length_map, List.length_map, List.length_cons,
        List.map_cons]
      simp only [List.append_assoc, List.singleton_append]
      rw [show p + 1 + ns.length = p + (ns.length + 1) by omega]
    · simp only [List.length_cons]
      omega

/-- Octets above the stored ones are zero. -/
theorem unpackOctets_zero (c : Code) (b : List Nat) : ∀ (ns : List Nat) (off acc : Nat),
    (∀ n ∈ ns, packedOctets c ≤ n) → unpackOctets c b ns off acc = some (acc, off) := by
  intro ns
  induction ns with
  | nil => intro off acc _; rfl
  | cons n ns ih =>
    intro off acc h
    have hr : readOctet c b off n = some (0, off) := by
      unfold readOctet
      rw [if_pos (h n (List.mem_cons_self))]
    unfold unpackOctets
    rw [hr]
    show unpackOctets c b ns off (acc + 0 * 256 ^ n) = _
    rw [ih _ _ (fun m hm => h m (List.mem_cons_of_mem _ hm))]
    simp

theorem unpackOctets_append (c : Code) (b : List Nat) : ∀ (l1 l2 : List Nat) (off acc : Nat),
    unpackOctets c b (l1 ++ l2) off acc
      = (unpackOctets c b l1 off acc).bind fun r => unpackOctets c b l2 r.2 r.1 := by
  intro l1
  induction l1 with
  | nil => intro l2 off acc; rfl
  | cons n l1 ih =>
    intro l2 off acc
    simp only [List.cons_append, unpackOctets]
    cases readOctet c b off n with
    | none => rfl
    | some r => exact ih _ _ _

theorem readOctet_aligned (c : Code) (hc : c.packed % 8 = 0) (b : List Nat) (p n x : Nat)
    (hn : n < packedOctets c) (hx : b[p]? = some x) :
    readOctet c b (8 * p) n = some (x, 8 * (p + 1)) := by
  unfold readOctet alignedRead
  have h1 : 8 * p / 8 = p := by omega
  rw [if_neg (by omega), if_pos hc, h1, hx]
  rfl

theorem drop_take_cons (b : List Nat) (p m x : Nat) (hx : b[p]? = some x) :
    (b.drop p).take (m + 1) = x :: (b.drop (p + 1)).take m := by
  obtain ⟨h, he⟩ := List.getElem?_eq_some_iff.mp hx
  rw [List.drop_eq_getElem_cons h, he]
  rfl

theorem unpackOctets_le (c : Code) (hc : c.packed % 8 = 0) (b : List Nat) : ∀ (m s p acc : Nat),
    s + m ≤ packedOctets c → p + m ≤ b.length →
    unpackOctets c b (List.range' s m) (8 * p) acc
      = some (acc + 256 ^ s * number ((b.drop p).take m), 8 * (p + m)) := by
  intro m
  induction m with
  | zero => intro s p acc _ _; simp [unpackOctets, number]
  | succ m ih =>
    intro s p acc h1 h2
    have hx : b[p]? = some b[p] := List.getElem?_eq_getElem (by omega)
    rw [drop_take_cons b p m _ hx, List.range'_succ, unpackOctets,
      readOctet_aligned c hc b p s _ (by omega) hx]
    show unpackOctets c b (List.range' (s + 1) m) (8 * (p + 1)) _ = _
    rw [ih _ _ _ (by omega) (by omega)]
    congr 1
    refine Prod.ext ?_ ?_
    · simp only [number, pow_succ]
      ring
    · show 8 * (p + 1 + m) = 8 * (p + (m + 1))
      ring

theorem unpackOctets_be (c : Code) (hc : c.packed % 8 = 0) (b : List Nat) : ∀ (m p acc : Nat),
    m ≤ packedOctets c → p + m ≤ b.length →
    unpackOctets c b (List.range m).reverse (8 * p) acc
      = some (acc + number ((b.drop p).take m).reverse, 8 * (p + m)) := by
  intro m
  induction m with
  | zero => intro p acc _ _; simp [unpackOctets, number]
  | succ m ih =>
    intro p acc h1 h2
    have hx : b[p]? = some b[p] := List.getElem?_eq_getElem (by omega)
    rw [drop_take_cons b p m _ hx, List.range_succ, List.reverse_append, List.reverse_singleton,
      List.singleton_append, unpackOctets, readOctet_aligned c hc b p m _ (by omega) hx]
    show unpackOctets c b (List.range m).reverse (8 * (p + 1)) _ = _
    rw [ih _ _ (by omega) (by omega)]
    congr 1
    refine Prod.ext ?_ ?_
    · show acc + b[p] * 256 ^ m + _ = _
      rw [List.reverse_cons, number_append_one, List.length_reverse, List.length_take,
        List.length_drop, min_eq_left (by omega)]
      ring
    · show 8 * (p + 1 + m) = 8 * (p + (m + 1))
      ring

theorem unpack_aligned (c : Code) (hc : c.packed % 8 = 0) (hu : c.packed ≤ c.unpacked)
    (big : Bool) (b : List Nat) (p : Nat) (h : p + packedOctets c ≤ b.length) :
    unpack c big b (8 * p)
      = some (finish c (container big (packedOctets c) b p), 8 * (p + packedOctets c)) := by
  have hle : packedOctets c ≤ unpackedOctets c := by
    unfold packedOctets unpackedOctets
    omega
  have hr : List.range (unpackedOctets c)
      = List.range (packedOctets c) ++ List.range' (packedOctets c) (unpackedOctets c - packedOctets c) := by
    rw [List.range_eq_range', List.range_eq_range']
    have := List.range'_append_1 (s := 0) (m := packedOctets c) (n := unpackedOctets c - packedOctets c)
    rw [Nat.zero_add] at this
    rw [this]
    congr 1
    omega
  have hz : ∀ n ∈ List.range' (packedOctets c) (unpackedOctets c - packedOctets c),
      packedOctets c ≤ n := by
    intro n hn
    rw [List.mem_range'_1] at hn
    exact hn.1
  unfold unpack octetOrder container
  cases big
  · simp only [Bool.false_eq_true, if_false]
    rw [hr, unpackOctets_append, List.range_eq_range',
      unpackOctets_le c hc b _ 0 p 0 (by omega) h]
    show (unpackOctets c b _ _ _).map _ = _
    rw [unpackOctets_zero c b _ _ _ hz]
    simp
  · simp only [if_true]
    rw [hr, List.reverse_append, unpackOctets_append,
      unpackOctets_zero c b _ _ _ (fun n hn => hz n (List.mem_reverse.mp hn))]
    show (unpackOctets c b _ _ _).map _ = _
    rw [unpackOctets_be c hc b _ _ _ (le_refl _) h]
    simp

/-- The bytes that `pack` writes. -/
def bytesOf (c : Code) (big : Bool) (v : Int) : List Nat :=
  (octetOrder big (packedOctets c)).map
    (octet (if c.width < c.packed then v % 2 ^ c.width else v))

theorem bytesOf_length (c : Code) (big : Bool) (v : Int) :
    (bytesOf c big v).length = packedOctets c := by
  unfold bytesOf octetOrder
  cases big <;> simp

theorem bytesOf_lt (c : Code) (big : Bool) (v : Int) : ∀ x ∈ bytesOf c big v, x < 256 := by
  intro x hx
  unfold bytesOf at hx
  rw [List.mem_map] at hx
  obtain ⟨n, _, hn⟩ := hx
  rw [← hn]
  exact octet_lt _ _

theorem pack_aligned (c : Code) (hc : c.packed % 8 = 0) (big : Bool) (b : List Nat) (p : Nat)
    (v : Int) (h : p + packedOctets c ≤ b.length) :
    pack c big b (8 * p) v = some (splice b p (bytesOf c big v), 8 * (p + packedOctets c)) := by
  unfold pack
  have hl : (octetOrder big (packedOctets c)).length = packedOctets c := by
    unfold octetOrder
    cases big <;> simp
  rw [packOctets_aligned c hc _ _ b p (by omega), hl]
  rfl

theorem container_bytesOf (c : Code) (hc : c ∈ codes) (ha : c.packed % 8 = 0) (big : Bool) (v : Int) :
    ((if big then number (bytesOf c big v).reverse else number (bytesOf c big v) : Nat) : Int)
      = v % 2 ^ c.width := by
  obtain ⟨h1, h2, _⟩ := codes_wf c hc
  have hk : (256 : Int) ^ packedOctets c = 2 ^ c.packed := by
    have : (256 : Int) = 2 ^ 8 := by norm_num
    rw [this, ← pow_mul]
    congr 1
    unfold packedOctets
    omega
  have key : ((if big then number (bytesOf c big v).reverse else number (bytesOf c big v) : Nat) : Int)
      = (if c.width < c.packed then v % 2 ^ c.width else v) % 2 ^ c.packed := by
    unfold bytesOf octetOrder
    cases big
    · simp only [Bool.false_eq_true, if_false]
      rw [number_octets, hk]
    · simp only [if_true]
      rw [List.map_reverse, List.reverse_reverse, number_octets, hk]
  rw [key]
  split_ifs with h
  · apply Int.emod_eq_of_lt (Int.emod_nonneg _ (by positivity))
    calc v % 2 ^ c.width < 2 ^ c.width := Int.emod_lt_of_pos _ (by positivity)
      _ ≤ 2 ^ c.packed := pow_le_pow_right₀ (by norm_num) h2
  · have : c.width = c.packed := by omega
    rw [this]

theorem container_congr (big : Bool) (k : Nat) (b b' : List Nat) (p : Nat)
    (h : ∀ q, p ≤ q → q < p + k → b[q]? = b'[q]?) : container big k b p = container big k b' p := by
  have : (b.drop p).take k = (b'.drop p).take k := by
    apply List.ext_getElem?
    intro j
    simp only [List.getElem?_take, List.getElem?_drop]
    split_ifs with hj
    · exact h _ (by omega) (by omega)
    · rfl
  unfold container
  rw [this]

theorem container_splice (big : Bool) (b : List Nat) (p : Nat) (l : List Nat)
    (h : p + l.length ≤ b.length) :
    container big l.length (splice b p l) p = if big then number l.reverse else number l := by
  unfold container
  rw [splice_mid b p l h]

theorem container_lt (big : Bool) (k : Nat) (b : List Nat) (p : Nat) (hb : ∀ x ∈ b, x < 256) :
    container big k b p < 256 ^ k := by
  have h1 : ∀ x ∈ (b.drop p).take k, x < 256 :=
    fun x hx => hb x (List.mem_of_mem_drop (List.mem_of_mem_take hx))
  have hl : ((b.drop p).take k).length ≤ k := by simp
  have hp : 256 ^ ((b.drop p).take k).length ≤ 256 ^ k := Nat.pow_le_pow_right (by norm_num) hl
  unfold container
  cases big
  · exact lt_of_lt_of_le (number_lt _ h1) hp
  · have := number_lt ((b.drop p).take k).reverse (fun x hx => h1 x (List.mem_reverse.mp hx))
    rw [List.length_reverse] at this
    exact lt_of_lt_of_le this hp

/-- The value read from a container is in the range of the format, and has its level. -/
theorem finish_spec (c : Code) (hc : c ∈ codes) (x : Nat) (hx : x < 2 ^ c.packed) :
    InRange c (finish c x) ∧ lvl c (finish c x) = level c.signed c.width x := by
  obtain ⟨h1, h2, h3⟩ := codes_wf c hc
  have hp : (2 : Nat) ^ c.width = 2 ^ (c.width - 1) * 2 := by
    rw [← pow_succ]
    congr 1
    omega
  have hpi : (2 : Int) ^ c.width = 2 ^ (c.width - 1) * 2 := by exact_mod_cast hp
  obtain ⟨H, hH⟩ : ∃ H : Nat, H = 2 ^ (c.width - 1) := ⟨_, rfl⟩
  have hHi : (2 : Int) ^ (c.width - 1) = H := by rw [hH]; push_cast; rfl
  have hHpos : 0 < H := by rw [hH]; positivity
  have hxu : (x : Int) < 2 ^ c.unpacked := by
    have : (2 : Nat) ^ c.packed ≤ 2 ^ c.unpacked := Nat.pow_le_pow_right (by norm_num) h3
    exact_mod_cast lt_of_lt_of_le hx this
  have hmod : ((x % 2 ^ c.width : Nat) : Int) = (x : Int) % 2 ^ c.width := by push_cast; rfl
  rw [hpi, hHi] at hmod
  rw [hp, ← hH] at hmod
  have hxw : c.width = c.packed → (x : Int) < H * 2 := by
    intro h
    rw [← h, hp, ← hH] at hx
    exact_mod_cast hx
  unfold InRange lvl level finish
  rw [hp, hpi, hHi, ← hH]
  cases hs : c.signed
  · simp only [Bool.false_eq_true, if_false, false_and]
    have hu : asU c.unpacked x = x := Int.emod_eq_of_lt (by omega) hxu
    rw [hu]
    by_cases h4 : c.width < c.packed
    · rw [if_pos h4]
      have := Int.emod_nonneg (x : Int) (by omega : (H * 2 : Int) ≠ 0)
      have := Int.emod_lt_of_pos (x : Int) (by omega : (0 : Int) < H * 2)
      omega
    · rw [if_neg h4]
      have h5 := hxw (by omega)
      have : (x : Int) % (H * 2) = x := Int.emod_eq_of_lt (by omega) h5
      omega
  · simp only [if_true, true_and]
    by_cases h4 : c.width < c.packed
    · have hm : asS c.unpacked x % (H * 2) = x % (H * 2) := by
        have := asS_mod (m := c.width) (n := c.unpacked) (by omega) x
        unfold Int.ModEq at this
        rw [hpi, hHi] at this
        exact this
      have h6 := Int.emod_nonneg (x : Int) (by omega : (H * 2 : Int) ≠ 0)
      have h7 := Int.emod_lt_of_pos (x : Int) (by omega : (0 : Int) < H * 2)
      simp only [if_pos h4, hm]
      obtain ⟨y, hy⟩ : ∃ y : Int, y = (x : Int) % (H * 2) := ⟨_, rfl⟩
      rw [← hy] at h6 h7 ⊢
      have hyy : y % (H * 2) = y := Int.emod_eq_of_lt h6 h7
      have hyn : ((x % (H * 2) : Nat) : Int) = y := by rw [hmod, hy]
      have hlt : (x % (H * 2) < H) ↔ y < H := by omega
      rw [hyy, hyn]
      by_cases h8 : y < H
      · have hq : y / (H : Int) = 0 := Int.ediv_eq_zero_of_lt h6 h8
        rw [if_neg (by rw [hq]; omega), if_pos (hlt.mpr h8)]
        omega
      · have hq : y / (H : Int) = 1 := by
          rw [Int.ediv_eq_iff_of_pos (by omega)]
          omega
        rw [if_pos (by rw [hq]; omega), if_neg (by rw [hlt]; exact h8)]
        omega
    · have h5 := hxw (by omega)
      have hyy : (x : Int) % (H * 2) = x := Int.emod_eq_of_lt (by omega) h5
      have hyn : ((x % (H * 2) : Nat) : Int) = x := by rw [hmod, hyy]
      have hlt : (x % (H * 2) < H) ↔ (x : Int) < H := by omega
      simp only [if_neg h4]
      by_cases h9 : c.width < c.unpacked
      · have hx2 : asS c.unpacked x = x := by
          apply asS_exact (by omega)
          · have : (0 : Int) < 2 ^ (c.unpacked - 1) := by positivity
            omega
          · have : (2 : Int) ^ c.width ≤ 2 ^ (c.unpacked - 1) :=
              pow_le_pow_right₀ (by norm_num) (by omega)
            rw [hpi, hHi] at this
            omega
        rw [hx2, hyy, hyn]
        by_cases h8 : (x : Int) < H
        · have hq : (x : Int) / (H : Int) = 0 := Int.ediv_eq_zero_of_lt (by omega) h8
          rw [if_neg (by rw [hq]; omega), if_pos (hlt.mpr h8)]
          omega
        · have hq : (x : Int) / (H : Int) = 1 := by
            rw [Int.ediv_eq_iff_of_pos (by omega)]
            omega
          rw [if_pos ⟨h9, by rw [hq]; omega⟩, if_neg (by rw [hlt]; exact h8)]
          omega
      · have hw : c.unpacked = c.width := by omega
        rw [if_neg (fun h => h9 h.1)]
        unfold asS
        rw [hw, hpi, hHi, hyy, hyn]
        by_cases h8 : (x : Int) < H
        · rw [if_pos h8, if_pos (hlt.mpr h8)]
          omega
        · rw [if_neg h8, if_neg (by rw [hlt]; exact h8)]
          omega

end Verif.PcmFormat
