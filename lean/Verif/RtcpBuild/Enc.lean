import Verif.RtcpBuild.Spec
import Verif.RtcpParse.Inner

/-! Wire format, and the effect of the setters on a header followed by other bytes. -/

namespace Verif.RtcpBuild

open Verif.Bytes Verif.RtcpFields Verif.RtcpParse

/-- Packet header with version 2. -/
def hdr (pad : Bool) (count type len : Nat) : Bytes :=
  [BitVec.ofNat 8 (128 + (if pad then 32 else 0) + count), BitVec.ofNat 8 type,
   BitVec.ofNat 8 ((len / 4 - 1) / 256), BitVec.ofNat 8 (len / 4 - 1)]

theorem hdr_length (pad : Bool) (count type len : Nat) : (hdr pad count type len).length = 4 := rfl

theorem toBe2 (v : Nat) : toBe 2 v = [BitVec.ofNat 8 (v / 256), BitVec.ofNat 8 v] := rfl

theorem byte0_cons (x : Byte) (l : Bytes) : byte0 (x :: l) = x := by
  unfold byte0 fld
  have : rdAt (x :: l) 0 1 = [x] := rfl
  rw [this, RtpCodec.beNat_singleton]
  apply BitVec.eq_of_toNat_eq
  rw [BitVec.toNat_ofNat, Nat.mod_eq_of_lt x.isLt]

theorem put0 (x : Byte) (l : Bytes) (v : Byte) : put (x :: l) 0 1 v.toNat = v :: l := by
  have h1 : toBe 1 v.toNat = [v] := by
    show [BitVec.ofNat 8 v.toNat] = [v]
    rw [BitVec.ofNat_toNat, BitVec.setWidth_eq]
  unfold put wrAt
  rw [h1]
  rfl

theorem set_counter_bits : ∀ k : Fin 31, ∀ p : Bool,
    setBits8 (BitVec.ofNat 8 (128 + (if p then 32 else 0) + k.val)) (BitVec.ofNat 8 (k.val + 1)) 0 0x1F =
      BitVec.ofNat 8 (128 + (if p then 32 else 0) + (k.val + 1)) ∧
    (getBits8 (BitVec.ofNat 8 (128 + (if p then 32 else 0) + k.val)) 0 0x1F).toNat = k.val := by
  decide +kernel

theorem incCounter_hdr (p : Bool) (k t l : Nat) (rest : Bytes) (hk : k < 31) :
    incCounter (hdr p k t l ++ rest) = some (hdr p (k + 1) t l ++ rest) := by
  obtain ⟨h1, h2⟩ := set_counter_bits ⟨k, hk⟩ p
  unfold incCounter setCounter counter hdr
  simp only [List.cons_append, List.nil_append]
  rw [byte0_cons, put0, h2, if_neg (by omega), h1]

theorem setLen_hdr (p : Bool) (k t l n : Nat) (rest : Bytes) (h4 : 4 ≤ n) (hm : n % 4 = 0) (hn : n ≤ 65535) :
    setLenBytes (hdr p k t l ++ rest) n = some (hdr p k t n ++ rest) := by
  unfold setLenBytes
  rw [if_neg (by omega)]
  rfl

theorem resetHeader_eq (t : Nat) (ht : t < 256) : resetHeader t = hdr false 0 t 4 := by
  have h : ∀ t : Fin 256, resetHeader t.val = hdr false 0 t.val 4 := by decide +kernel
  exact h ⟨t, ht⟩

theorem countReport_hdr (p : Bool) (k t l : Nat) (rest : Bytes) (hk : k < 31) (hm : rest.length % 4 = 0)
    (hn : 4 + rest.length ≤ 65535) :
    countReport (hdr p k t l ++ rest) = some (hdr p (k + 1) t (4 + rest.length) ++ rest) := by
  unfold countReport
  have : (hdr p k t l ++ rest).length = 4 + rest.length := by rw [List.length_append, hdr_length]
  rw [this, setLen_hdr _ _ _ _ _ _ (by omega) (by omega) hn]
  exact incCounter_hdr _ _ _ _ _ hk

theorem header_bits : ∀ k : Fin 32, ∀ p : Bool, let b := BitVec.ofNat 8 (128 + (if p then 32 else 0) + k.val)
    (getBits8 b 6 3).toNat = 2 ∧ (getBits8 b 5 1 != 0) = p ∧ (getBits8 b 0 0x1F).toNat = k.val ∧ b.toNat % 32 = k.val := by
  decide +kernel

theorem set_padding_bits : ∀ k : Fin 32,
    setBits8 (BitVec.ofNat 8 (128 + 0 + k.val)) (if true then 1 else 0) 5 1 = BitVec.ofNat 8 (128 + 32 + k.val) := by
  decide +kernel

theorem setPadding_hdr (k t l : Nat) (rest : Bytes) (hk : k < 32) :
    setPadding (hdr false k t l ++ rest) true = hdr true k t l ++ rest := by
  have h := set_padding_bits ⟨k, hk⟩
  unfold setPadding hdr
  simp only [List.cons_append, List.nil_append]
  rw [byte0_cons, put0]
  simp only [if_true, Bool.false_eq_true, if_false] at h ⊢
  rw [h]

theorem readHeader_hdr (p : Bool) (k t l : Nat) (rest : Bytes) (hk : k < 32) (ht : t < 256) (hl : 4 ≤ l) (hm : l % 4 = 0)
    (hn : l ≤ 65535) : readHeader (hdr p k t l ++ rest) = ⟨2, p, k, t, l⟩ := by
  obtain ⟨h1, h2, h3, _⟩ := header_bits ⟨k, hk⟩ p
  have hb : byte0 (hdr p k t l ++ rest) = BitVec.ofNat 8 (128 + (if p then 32 else 0) + k) := byte0_cons _ _
  have ht' : fld (hdr p k t l ++ rest) 1 1 = t := by
    unfold fld
    have : rdAt (hdr p k t l ++ rest) 1 1 = [BitVec.ofNat 8 t] := rfl
    rw [this, RtpCodec.beNat_singleton, BitVec.toNat_ofNat, Nat.mod_eq_of_lt ht]
  have hl' : fld (hdr p k t l ++ rest) 2 2 = l / 4 - 1 := by
    unfold fld
    have : rdAt (hdr p k t l ++ rest) 2 2 = toBe 2 (l / 4 - 1) := rfl
    rw [this, beNat_toBe_of_lt (by omega)]
  simp only at h1 h2 h3
  unfold readHeader version hasPadding counter ptype lenBytes
  rw [hb, ht', hl', h1, h2, h3]
  have : (l / 4 - 1 + 1) * 4 = l := by omega
  rw [this]

theorem lenBytes_hdr (p : Bool) (k t l : Nat) (rest : Bytes) (hl : 4 ≤ l) (hm : l % 4 = 0) (hn : l ≤ 65535) :
    lenBytes (hdr p k t l ++ rest) = l := by
  have hl' : fld (hdr p k t l ++ rest) 2 2 = l / 4 - 1 := by
    unfold fld
    have : rdAt (hdr p k t l ++ rest) 2 2 = toBe 2 (l / 4 - 1) := rfl
    rw [this, beNat_toBe_of_lt (by omega)]
  unfold lenBytes
  rw [hl']
  omega

/-! ## Format of packets -/

/-- SDES items. -/
def encItems (is : List (Nat × Bytes)) : Bytes := is.flatMap (fun i => itemBytes i.1 i.2)

/-- SDES chunk. -/
def encChunk (c : Chunk) : Bytes :=
  toBe 4 c.ssrc ++ encItems c.items ++ List.replicate (c.size - (4 + (encItems c.items).length)) 0

/-- BYE reason. -/
def encReason : Option Bytes → Bytes
  | none => []
  | some x => reasonBytes x

/-- XR block. -/
def encBlock (b : XBlock) : Bytes :=
  [BitVec.ofNat 8 (xrType b.kind), b.spec] ++ toBe 2 (b.size / 4 - 1) ++ b.parts.flatten

/-- Bytes after the header. -/
def encBody : Pkt → Bytes
  | .sr body rs => body ++ rs.flatten
  | .rr body rs => body ++ rs.flatten
  | .sdes cs => cs.flatMap encChunk
  | .bye ss r => ss.flatMap (toBe 4) ++ encReason r
  | .xr body bs => body ++ bs.flatMap encBlock

/-- Counter in the header. -/
def Pkt.count : Pkt → Nat
  | .sr _ rs => rs.length
  | .rr _ rs => rs.length
  | .sdes cs => cs.length
  | .bye ss _ => ss.length
  | .xr .. => 0

/-- Type in the header. -/
def Pkt.type : Pkt → Nat
  | .sr .. => 200
  | .rr .. => 201
  | .sdes _ => 202
  | .bye .. => 203
  | .xr .. => 207

/-- Bytes of padding. -/
def padBytes (n : Nat) : Bytes := if n = 0 then [] else List.replicate (n - 1) 0 ++ [BitVec.ofNat 8 n]

theorem padBytes_length (n : Nat) : (padBytes n).length = n := by
  unfold padBytes
  split_ifs with h
  · rw [h]; rfl
  · rw [List.length_append, List.length_replicate, List.length_singleton]; omega

/-- A packet with padding. -/
def enc (p : Pkt) (pad : Nat) : Bytes :=
  hdr (pad != 0) p.count p.type (4 + (encBody p).length + pad) ++ (encBody p ++ padBytes pad)

theorem enc_length (p : Pkt) (pad : Nat) : (enc p pad).length = 4 + (encBody p).length + pad := by
  unfold enc
  rw [List.length_append, List.length_append, hdr_length, padBytes_length]; omega

/-- Packets, the last one with padding. -/
def encAll : List Pkt → Nat → Bytes
  | [], _ => []
  | [p], pad => enc p pad
  | p :: q :: ps, pad => enc p 0 ++ encAll (q :: ps) pad

theorem encItems_length (is : List (Nat × Bytes)) : (encItems is).length = (is.map (fun i => 2 + i.2.length)).sum := by
  unfold encItems
  rw [List.length_flatMap]
  congr 1
  apply List.map_congr_left
  intro i _
  unfold itemBytes
  rw [List.length_cons, List.length_cons]; omega

theorem encChunk_length (c : Chunk) : (encChunk c).length = c.size := by
  unfold encChunk
  rw [List.length_append, List.length_append, List.length_replicate, toBe_length]
  unfold Chunk.size
  rw [← encItems_length]
  omega

theorem chunk_size_mod (c : Chunk) : c.size % 4 = 0 := by
  unfold Chunk.size; omega

theorem encReason_length (r : Option Bytes) : (encReason r).length = reasonSize r := by
  cases r with
  | none => rfl
  | some x =>
    unfold encReason reasonBytes reasonSize paddingLen
    simp only [List.length_append, List.length_cons, List.length_replicate]
    omega

theorem flatten_length (l : List Bytes) : l.flatten.length = (l.map (·.length)).sum := List.length_flatten

theorem encBlock_length (b : XBlock) : (encBlock b).length = b.size := by
  unfold encBlock XBlock.size
  rw [List.length_append, List.length_append, toBe_length, flatten_length]
  simp only [List.length_cons, List.length_nil]

theorem sum_const (l : List Bytes) (n : Nat) (h : ∀ x ∈ l, x.length = n) : l.flatten.length = n * l.length := by
  induction l with
  | nil => simp
  | cons a l ih =>
    rw [List.flatten_cons, List.length_append, h a List.mem_cons_self, ih (fun x hx => h x (List.mem_cons_of_mem _ hx)),
      List.length_cons, Nat.mul_succ]
    omega

theorem flatMap_length {α : Type} (f : α → Bytes) (g : α → Nat) (l : List α) (h : ∀ x, (f x).length = g x) :
    (l.flatMap f).length = (l.map g).sum := by
  rw [List.length_flatMap]
  congr 1
  apply List.map_congr_left
  intro x _
  exact h x

theorem encBody_length (p : Pkt) (hp : PktOk p) : 4 + (encBody p).length = p.size := by
  cases p with
  | sr body rs =>
    obtain ⟨h1, h2, h3⟩ := hp
    simp only [encBody, Pkt.size, List.length_append, sum_const rs 24 h3]; omega
  | rr body rs =>
    obtain ⟨h1, h2, h3⟩ := hp
    simp only [encBody, Pkt.size, List.length_append, sum_const rs 24 h3]; omega
  | sdes cs => simp only [encBody, Pkt.size, flatMap_length encChunk Chunk.size cs encChunk_length]
  | bye ss r =>
    simp only [encBody, Pkt.size, List.length_append, encReason_length]
    have : (ss.flatMap (toBe 4)).length = 4 * ss.length := by
      rw [flatMap_length (toBe 4) (fun _ => 4) ss (fun _ => toBe_length _ _)]
      simp [List.map_const', Nat.mul_comm]
    omega
  | xr body bs =>
    obtain ⟨h1, h2⟩ := hp
    simp only [encBody, Pkt.size, List.length_append, flatMap_length encBlock XBlock.size bs encBlock_length]; omega

theorem sum_mod (l : List Nat) (h : ∀ x ∈ l, x % 4 = 0) : l.sum % 4 = 0 := by
  induction l with
  | nil => rfl
  | cons a l ih =>
    have h1 := h a List.mem_cons_self
    have h2 := ih (fun x hx => h x (List.mem_cons_of_mem _ hx))
    rw [List.sum_cons]; omega

theorem block_size_mod (b : XBlock) (hb : BlockOk b) : b.size % 4 = 0 := by
  unfold XBlock.size
  have : (b.parts.map (·.length)).sum % 4 = 0 := by
    apply sum_mod
    intro x hx
    obtain ⟨p, hp, rfl⟩ := List.mem_map.1 hx
    by_cases hk : b.kind = .dlrr
    · rw [hb.dlrr hk p hp]
    · obtain ⟨q, hq, hl⟩ := hb.fixed hk
      rw [hq, List.mem_singleton] at hp
      rw [hp, hl]
      cases h : b.kind <;> rfl
  omega

theorem size_mod (p : Pkt) (hp : PktOk p) : p.size % 4 = 0 := by
  cases p with
  | sr body rs => simp only [Pkt.size]; omega
  | rr body rs => simp only [Pkt.size]; omega
  | sdes cs =>
    have : (cs.map Chunk.size).sum % 4 = 0 := sum_mod _ (by
      intro x hx
      obtain ⟨c, _, rfl⟩ := List.mem_map.1 hx
      exact chunk_size_mod c)
    simp only [Pkt.size]; omega
  | bye ss r =>
    cases r with
    | none => simp only [Pkt.size, reasonSize]; omega
    | some x => simp only [Pkt.size, reasonSize]; omega
  | xr body bs =>
    obtain ⟨h1, h2⟩ := hp
    have : (bs.map XBlock.size).sum % 4 = 0 := sum_mod _ (by
      intro x hx
      obtain ⟨b, hb, rfl⟩ := List.mem_map.1 hx
      exact block_size_mod b (h2 b hb))
    simp only [Pkt.size]; omega

theorem encAll_length (ps : List Pkt) (pad : Nat) (hne : ps ≠ []) (h : ∀ p ∈ ps, PktOk p) :
    (encAll ps pad).length = (ps.map Pkt.size).sum + pad := by
  induction ps with
  | nil => exact absurd rfl hne
  | cons p ps ih =>
    cases ps with
    | nil =>
      simp only [encAll, enc_length, List.map_cons, List.map_nil, List.sum_cons, List.sum_nil]
      have := encBody_length p (h p List.mem_cons_self)
      omega
    | cons q ps =>
      have h1 := ih (by simp) (fun x hx => h x (List.mem_cons_of_mem _ hx))
      have h2 := encBody_length p (h p List.mem_cons_self)
      simp only [encAll, List.length_append, enc_length]
      rw [h1, List.map_cons (l := q :: ps), List.sum_cons]
      omega

end Verif.RtcpBuild
