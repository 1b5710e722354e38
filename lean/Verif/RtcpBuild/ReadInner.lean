import Verif.RtcpBuild.Whole

/-! Reading of the elements of SDES, BYE and XR packets made by the builder. -/

namespace Verif.RtcpBuild

open Verif.Bytes Verif.RtcpFields Verif.RtcpParse

theorem rd_mid (pre x post : Bytes) (o n : Nat) (h : o + n ≤ x.length) : rdAt (pre ++ (x ++ post)) (pre.length + o) n = rdAt x o n := by
  rw [RtpCodec.rdAt_append_right, RtpCodec.rdAt_append_left _ _ _ _ h]

theorem rd_mid0 (pre x post : Bytes) : rdAt (pre ++ (x ++ post)) pre.length x.length = x := by
  have := rd_mid pre x post 0 x.length (by omega)
  rw [Nat.add_zero] at this
  rw [this, rdAt_all]

theorem byte_mid (pre post : Bytes) (x : Byte) : byte? (pre ++ (x :: post)) pre.length = some x.toNat := by
  unfold byte?
  rw [List.getElem?_append_right (by omega), Nat.sub_self]
  rfl

theorem byte_mid1 (pre post : Bytes) (x y : Byte) : byte? (pre ++ (x :: y :: post)) (pre.length + 1) = some y.toNat := by
  unfold byte?
  rw [List.getElem?_append_right (by omega), Nat.add_sub_cancel_left]
  rfl

theorem word_mid (pre post : Bytes) (n v : Nat) (h : v < 256 ^ n) : word? (pre ++ (toBe n v ++ post)) pre.length n = some v := by
  have hl := toBe_length n v
  rw [word?_some (by rw [List.length_append, List.length_append]; omega)]
  unfold fld
  have := rd_mid0 pre (toBe n v) post
  rw [hl] at this
  rw [this, beNat_toBe_of_lt h]

theorem cstr_mid (pre x post : Bytes) (h : TextOk x) : cstr (pre ++ (x ++ post)) pre.length x.length = x := by
  unfold cstr
  have h1 := h.1
  have : min (min x.length ((pre ++ (x ++ post)).length - pre.length)) 255 = x.length := by
    rw [List.length_append, List.length_append]; omega
  rw [this, rd_mid0]
  have h2 := h.2
  clear this h1 h
  induction x with
  | nil => rfl
  | cons a l ih =>
    have ha := h2 a List.mem_cons_self
    rw [List.takeWhile_cons, if_pos (by simpa using ha), ih (fun y hy => h2 y (List.mem_cons_of_mem _ hy))]

/-! ## SDES -/

/-- Rest of the loop after a call of `next`. -/
def sdesAfter (b : Bytes) (count n : Nat) : Option SdesIt → Option (List (SdesEv × Slice) × Bool)
  | none => none
  | some it' =>
    match it'.event with
    | none => some ([], it'.err)
    | some e => (SdesIt.run b count n it').map (fun r => (e :: r.1, r.2))

theorem sdesRun_succ (b : Bytes) (count n : Nat) (it : SdesIt) : it.run b count (n + 1) = sdesAfter b count n (it.next b count) := by
  rw [SdesIt.run]
  cases it.next b count <;> rfl

theorem sdesAfter_some {b : Bytes} {count n : Nat} {it : SdesIt} {e : SdesEv × Slice} {evs : List (SdesEv × Slice)}
    (he : it.event = some e) (hr : sdesAfter b count n (it.next b count) = some (evs, false)) :
    sdesAfter b count (n + 1) (some it) = some (e :: evs, false) := by
  simp only [sdesAfter]
  rw [he]
  simp only
  rw [sdesRun_succ, hr]
  rfl

/-- Elements of a chunk. -/
def chunkEvents (c : Chunk) : List SdesEv := .chunk c.ssrc :: c.items.map (fun i => .item i.1 i.2)

/-- Calls of `next` needed for chunks. -/
def chunkFuel (cs : List Chunk) : Nat := (cs.map (fun c => 1 + c.items.length)).sum

theorem skipPad_eq (size pos z : Nat) (h1 : 1 ≤ z) (h4 : z ≤ 4) (hm : (pos + z) % 4 = 0) (hs : pos + z ≤ size) :
    skipPad size pos = pos + z := by
  induction z generalizing pos with
  | zero => omega
  | succ z ih =>
    rw [skipPad]
    by_cases hz : z = 0
    · subst hz
      rw [if_neg (by omega)]
    · rw [if_pos (by omega), ih (pos + 1) (by omega) (by omega) (by omega) (by omega)]
      omega

/-- Chunks at the end of the buffer are read. -/
def ChunksRead (b : Bytes) (count : Nat) (cs : List Chunk) : Prop :=
  ∀ (it : SdesIt) (n : Nat) (pre : Bytes), b = pre ++ cs.flatMap encChunk → pre.length % 4 = 0 → it.pos = pre.length →
    it.idx + cs.length = count → it.err = false → chunkFuel cs ≤ n →
    ∃ evs, sdesAfter b count n (sdesChunk b count it) = some (evs, false) ∧ evs.map (·.1) = cs.flatMap chunkEvents

theorem items_read (b : Bytes) (count z : Nat) (post : List Chunk) (h1 : 1 ≤ z) (h4 : z ≤ 4) (hpost : ChunksRead b count post)
    (is : List (Nat × Bytes)) : ∀ (it : SdesIt) (n : Nat) (pre : Bytes),
    b = pre ++ (encItems is ++ (List.replicate z 0 ++ post.flatMap encChunk)) → (pre.length + (encItems is).length + z) % 4 = 0 →
    (∀ i ∈ is, 0 < i.1 ∧ i.1 < 256 ∧ TextOk i.2) → it.pos = pre.length → it.idx + 1 + post.length = count → it.err = false →
    is.length + chunkFuel post ≤ n →
    ∃ evs, sdesAfter b count n (sdesItem b count it) = some (evs, false) ∧
      evs.map (·.1) = is.map (fun i => SdesEv.item i.1 i.2) ++ post.flatMap chunkEvents := by
  induction is with
  | nil =>
    intro it n pre hb hm _ hpos hidx herr hn
    have hb' : b = pre ++ (List.replicate z 0 ++ post.flatMap encChunk) := by rw [hb]; rfl
    have hz : ∃ l, List.replicate z (0 : Byte) ++ post.flatMap encChunk = 0 :: l := by
      obtain ⟨k, rfl⟩ : ∃ k, z = k + 1 := ⟨z - 1, by omega⟩
      exact ⟨_, rfl⟩
    obtain ⟨l, hl⟩ := hz
    have hlen : b.length = pre.length + z + (post.flatMap encChunk).length := by
      rw [hb', List.length_append, List.length_append, List.length_replicate]; omega
    have hby : byte? b it.pos = some 0 := by
      rw [hpos, hb', hl, byte_mid]; rfl
    have hm' : (pre.length + z) % 4 = 0 := by simpa [encItems] using hm
    have hstep : sdesItem b count it = sdesChunk b count { it with pos := pre.length + z, idx := it.idx + 1 } := by
      unfold sdesItem
      rw [if_neg (by omega), hby]
      simp only [if_true]
      rw [hpos, skipPad_eq b.length pre.length z h1 h4 hm' (by omega)]
    rw [hstep]
    obtain ⟨evs, e1, e2⟩ := hpost { it with pos := pre.length + z, idx := it.idx + 1 } n (pre ++ List.replicate z 0)
      (by rw [List.append_assoc]; exact hb') (by rw [List.length_append, List.length_replicate]; exact hm')
      (by rw [List.length_append, List.length_replicate]) hidx herr (by simpa using hn)
    exact ⟨evs, e1, by simpa using e2⟩
  | cons i is ih =>
    intro it n pre hb hm hok hpos hidx herr hn
    obtain ⟨t, x⟩ := i
    obtain ⟨t0, t1, hx⟩ := hok _ List.mem_cons_self
    simp only at t0 t1 hx
    have hx1 := hx.1
    obtain ⟨rest, hrest⟩ : ∃ rest, rest = encItems is ++ (List.replicate z 0 ++ post.flatMap encChunk) := ⟨_, rfl⟩
    have hcons : encItems ((t, x) :: is) = itemBytes t x ++ encItems is := rfl
    have hb' : b = pre ++ (BitVec.ofNat 8 t :: BitVec.ofNat 8 x.length :: (x ++ rest)) := by
      rw [hb, hcons, hrest]
      unfold itemBytes
      simp only [List.append_assoc, List.cons_append]
    have hlen : b.length = pre.length + 2 + x.length + rest.length := by
      rw [hb', List.length_append, List.length_cons, List.length_cons, List.length_append]; omega
    have hby : byte? b it.pos = some t := by
      rw [hpos, hb', byte_mid, BitVec.toNat_ofNat, Nat.mod_eq_of_lt t1]
    have hby1 : byte? b (it.pos + 1) = some x.length := by
      rw [hpos, hb', byte_mid1, BitVec.toNat_ofNat, Nat.mod_eq_of_lt (by omega)]
    have hpre2 : (pre ++ [BitVec.ofNat 8 t, BitVec.ofNat 8 x.length]).length = pre.length + 2 := by
      rw [List.length_append]; rfl
    have hb2 : b = (pre ++ [BitVec.ofNat 8 t, BitVec.ofNat 8 x.length]) ++ (x ++ rest) := by
      rw [hb', List.append_assoc]; rfl
    have hcs : cstr b (it.pos + 2) x.length = x := by
      have := cstr_mid (pre ++ [BitVec.ofNat 8 t, BitVec.ofNat 8 x.length]) x rest hx
      rw [hpre2, ← hb2] at this
      rw [hpos]; exact this
    obtain ⟨it1, hit1⟩ : ∃ it1 : SdesIt, it1 = { it with st := SdesSt.item, itemLen := 2 + x.length, type := t, text := x } := ⟨_, rfl⟩
    have hstep : sdesItem b count it = some it1 := by
      unfold sdesItem
      rw [if_neg (by omega), hby]
      simp only
      rw [if_neg (by omega), if_neg (by omega), hby1]
      simp only
      rw [if_neg (by omega), hcs, hit1]
    rw [List.length_cons] at hn
    obtain ⟨m, rfl⟩ : ∃ m, n = m + 1 := ⟨n - 1, by omega⟩
    have hpre3 : (pre ++ itemBytes t x).length = pre.length + (2 + x.length) := by
      rw [List.length_append]; unfold itemBytes; rw [List.length_cons, List.length_cons]; omega
    obtain ⟨evs, e1, e2⟩ := ih { it1 with pos := it1.pos + it1.itemLen } m (pre ++ itemBytes t x)
      (by rw [hb, hcons]; simp only [List.append_assoc])
      (by rw [← hm, hcons, List.length_append (as := itemBytes t x), List.length_append]; congr 1; omega)
      (fun i hi => hok i (List.mem_cons_of_mem _ hi))
      (by rw [hpre3, hit1]; simp only; omega) (by rw [hit1]; exact hidx) (by rw [hit1]; exact herr) (by omega)
    have hnx : it1.next b count = sdesItem b count { it1 with pos := it1.pos + it1.itemLen } := by rw [hit1]; rfl
    refine ⟨(SdesEv.item t x, ⟨it1.pos, it1.itemLen⟩) :: evs, ?_, ?_⟩
    · rw [hstep]
      apply sdesAfter_some
      · rw [hit1]; rfl
      · rw [hnx]; exact e1
    · rw [List.map_cons, e2]; rfl

theorem chunks_read (b : Bytes) (count : Nat) (cs : List Chunk) (hok : ∀ c ∈ cs, ChunkOk c) : ChunksRead b count cs := by
  induction cs with
  | nil =>
    intro it n pre hb hm hpos hidx herr hn
    have : sdesChunk b count it = some { it with st := .fin } := by
      unfold sdesChunk
      rw [if_pos (by simpa using hidx)]
    refine ⟨[], ?_, rfl⟩
    rw [this]
    show some ([], it.err) = _
    rw [herr]
  | cons c cs ih =>
    intro it n pre hb hm hpos hidx herr hn
    have hc := hok c List.mem_cons_self
    rw [List.length_cons] at hidx
    rw [List.flatMap_cons] at hb
    have hfuel : chunkFuel (c :: cs) = 1 + c.items.length + chunkFuel cs := rfl
    rw [hfuel] at hn
    obtain ⟨z, hz⟩ : ∃ z, z = c.size - (4 + (encItems c.items).length) := ⟨_, rfl⟩
    have hsz : c.size = 4 + (encItems c.items).length + z ∧ 1 ≤ z ∧ z ≤ 4 := by
      have : c.size = (4 + (encItems c.items).length) / 4 * 4 + 4 := by unfold Chunk.size; rw [encItems_length]
      omega
    have hcm := chunk_size_mod c
    have hb1 : b = pre ++ (toBe 4 c.ssrc ++ (encItems c.items ++ (List.replicate z 0 ++ cs.flatMap encChunk))) := by
      rw [hb]; unfold encChunk; rw [← hz]; simp only [List.append_assoc]
    have hlen : b.length = pre.length + c.size + (cs.flatMap encChunk).length := by
      rw [hb, List.length_append, List.length_append, encChunk_length]; omega
    have hw : word? b it.pos 4 = some c.ssrc := by
      rw [hpos, hb1]
      apply word_mid
      exact hc.ssrc
    obtain ⟨it1, hit1⟩ : ∃ it1 : SdesIt, it1 = { it with st := SdesSt.chunk, ssrc := c.ssrc } := ⟨_, rfl⟩
    have hstep : sdesChunk b count it = some it1 := by
      unfold sdesChunk
      rw [if_neg (by omega), if_neg (by omega), hw, hit1]
    obtain ⟨m, rfl⟩ : ∃ m, n = m + 1 := ⟨n - 1, by omega⟩
    have hpre : (pre ++ toBe 4 c.ssrc).length = pre.length + 4 := by rw [List.length_append, toBe_length]
    obtain ⟨evs, e1, e2⟩ := items_read b count z cs hsz.2.1 hsz.2.2 (ih (fun x hx => hok x (List.mem_cons_of_mem _ hx))) c.items
      { it1 with pos := it1.pos + 4 } m (pre ++ toBe 4 c.ssrc)
      (by rw [hb1]; simp only [List.append_assoc]) (by rw [hpre]; omega) hc.items
      (by rw [hpre, hit1]; simp only; omega) (by rw [hit1]; simp only; omega) (by rw [hit1]; exact herr) (by omega)
    have hnx : it1.next b count = sdesItem b count { it1 with pos := it1.pos + 4 } := by rw [hit1]; rfl
    refine ⟨(SdesEv.chunk c.ssrc, ⟨it1.pos, 4⟩) :: evs, ?_, ?_⟩
    · rw [hstep]
      apply sdesAfter_some
      · rw [hit1]; rfl
      · rw [hnx]; exact e1
    · rw [List.map_cons, e2]; rfl

theorem groupFrom_items (is : List (Nat × Bytes)) (rest : List SdesEv) :
    groupFrom (is.map (fun i => SdesEv.item i.1 i.2) ++ rest) = (is ++ (groupFrom rest).1, (groupFrom rest).2) := by
  induction is with
  | nil => rfl
  | cons i is ih =>
    rw [List.map_cons, List.cons_append, groupFrom, ih]; rfl

theorem group_chunks (cs : List Chunk) : groupFrom (cs.flatMap chunkEvents) = ([], cs) := by
  induction cs with
  | nil => rfl
  | cons c cs ih =>
    rw [List.flatMap_cons]
    unfold chunkEvents at ih ⊢
    rw [List.cons_append, groupFrom, groupFrom_items, ih]
    simp

theorem chunkFuel_le (cs : List Chunk) : chunkFuel cs * 2 ≤ (cs.flatMap encChunk).length := by
  induction cs with
  | nil => simp [chunkFuel]
  | cons c cs ih =>
    have hfuel : chunkFuel (c :: cs) = 1 + c.items.length + chunkFuel cs := rfl
    rw [hfuel, List.flatMap_cons, List.length_append, encChunk_length]
    have h1 : c.items.length * 2 ≤ (c.items.map (fun i => 2 + i.2.length)).sum := by
      induction c.items with
      | nil => simp
      | cons i is ih => rw [List.map_cons, List.sum_cons, List.length_cons]; omega
    unfold Chunk.size
    omega

/-- All chunks are read from a packet. -/
theorem sdes_read (h : Bytes) (cs : List Chunk) (hh : h.length = 4) (hok : ∀ c ∈ cs, ChunkOk c) :
    ∃ evs, sdesInit.run (h ++ cs.flatMap encChunk) cs.length ((h ++ cs.flatMap encChunk).length / 2 + 1) = some (evs, false) ∧
      group (evs.map (·.1)) = some cs := by
  have hf := chunkFuel_le cs
  obtain ⟨evs, e1, e2⟩ := chunks_read (h ++ cs.flatMap encChunk) cs.length cs hok { sdesInit with pos := 4 }
    ((h ++ cs.flatMap encChunk).length / 2) h rfl (by omega) hh.symm (by show 0 + _ = _; omega) rfl
    (by rw [List.length_append]; omega)
  refine ⟨evs, ?_, ?_⟩
  · rw [sdesRun_succ]
    have : sdesInit.next (h ++ cs.flatMap encChunk) cs.length = sdesChunk (h ++ cs.flatMap encChunk) cs.length { sdesInit with pos := 4 } := by
      have hlt : ¬ sdesInit.pos + 4 > (h ++ cs.flatMap encChunk).length := by
        rw [List.length_append]; show ¬ 0 + 4 > _; omega
      exact if_neg hlt
    rw [this]; exact e1
  · unfold group
    rw [e2, group_chunks, if_pos rfl]

/-! ## BYE -/

/-- Rest of the loop after a call of `next`. -/
def byeAfter (b : Bytes) (count n : Nat) : Option ByeIt → Option (List (ByeEv × Slice) × Bool)
  | none => none
  | some it' =>
    match it'.event with
    | none => some ([], it'.err)
    | some e => (ByeIt.run b count n it').map (fun r => (e :: r.1, r.2))

theorem byeRun_succ (b : Bytes) (count n : Nat) (it : ByeIt) : it.run b count (n + 1) = byeAfter b count n (it.next b count) := by
  rw [ByeIt.run]
  cases it.next b count <;> rfl

theorem byeAfter_some {b : Bytes} {count n : Nat} {it : ByeIt} {e : ByeEv × Slice} {evs : List (ByeEv × Slice)}
    (he : it.event = some e) (hr : byeAfter b count n (it.next b count) = some (evs, false)) :
    byeAfter b count (n + 1) (some it) = some (e :: evs, false) := by
  simp only [byeAfter]
  rw [he]
  simp only
  rw [byeRun_succ, hr]
  rfl

/-- Elements for a reason. -/
def reasonEvents : Option Bytes → List ByeEv
  | none => []
  | some x => [.reason x]

theorem bye_elems (b : Bytes) (count : Nat) (r : Option Bytes) (hr : ∀ x, r = some x → TextOk x) (ss : List Nat) :
    ∀ (it : ByeIt) (n : Nat) (pre : Bytes), b = pre ++ (ss.flatMap (toBe 4) ++ encReason r) → it.pos = pre.length →
    it.idx + ss.length = count → it.err = false → (∀ s ∈ ss, s < 2 ^ 32) → ss.length + 1 ≤ n →
    ∃ evs, byeAfter b count n (byeElem b count it) = some (evs, false) ∧
      evs.map (·.1) = ss.map ByeEv.ssrc ++ reasonEvents r := by
  induction ss with
  | nil =>
    intro it n pre hb hpos hidx herr _ hn
    have hb' : b = pre ++ encReason r := by rw [hb]; rfl
    have hidx' : it.idx = count := by simpa using hidx
    cases r with
    | none =>
      have hl : b.length = pre.length := by rw [hb', List.length_append]; rfl
      have : byeElem b count it = some { it with st := .fin } := by
        unfold byeElem
        rw [if_pos hidx', if_neg (by omega)]
      refine ⟨[], ?_, rfl⟩
      rw [this]
      show some ([], it.err) = _
      rw [herr]
    | some x =>
      have hx := hr x rfl
      have hx1 := hx.1
      obtain ⟨k, hk⟩ : ∃ k, k = paddingLen (1 + x.length) 0 := ⟨_, rfl⟩
      have hb2 : b = pre ++ (BitVec.ofNat 8 x.length :: (x ++ List.replicate k 0)) := by
        rw [hb', hk]; rfl
      have hl : b.length = pre.length + 1 + x.length + k := by
        rw [hb2, List.length_append, List.length_cons, List.length_append, List.length_replicate]; omega
      have hby : byte? b it.pos = some x.length := by
        rw [hpos, hb2, byte_mid, BitVec.toNat_ofNat, Nat.mod_eq_of_lt (by omega)]
      have hcs : cstr b (it.pos + 1) x.length = x := by
        have := cstr_mid (pre ++ [BitVec.ofNat 8 x.length]) x (List.replicate k 0) hx
        rw [List.length_append, List.length_singleton, List.append_assoc] at this
        rw [hpos, hb2]; exact this
      obtain ⟨it1, hit1⟩ : ∃ it1 : ByeIt, it1 = { it with st := ByeSt.reason, reasonLen := 1 + x.length, reason := x } := ⟨_, rfl⟩
      have hstep : byeElem b count it = some it1 := by
        unfold byeElem
        rw [if_pos hidx', if_pos (by omega), if_neg (by omega), hby]
        simp only
        rw [if_neg (by omega), hcs, hit1]
      obtain ⟨m, rfl⟩ : ∃ m, n = m + 1 := ⟨n - 1, by omega⟩
      refine ⟨[(ByeEv.reason x, ⟨it1.pos, it1.reasonLen⟩)], ?_, rfl⟩
      rw [hstep]
      apply byeAfter_some
      · rw [hit1]; rfl
      · have : it1.next b count = some { it1 with st := .fin } := by rw [hit1]; rfl
        rw [this]
        show some ([], it1.err) = _
        rw [hit1, ← herr]
  | cons s ss ih =>
    intro it n pre hb hpos hidx herr hlt hn
    rw [List.length_cons] at hidx hn
    rw [List.flatMap_cons, List.append_assoc] at hb
    have hl : b.length = pre.length + 4 + (ss.flatMap (toBe 4) ++ encReason r).length := by
      rw [hb, List.length_append, List.length_append, toBe_length]; omega
    have hw : word? b it.pos 4 = some s := by
      rw [hpos, hb]
      apply word_mid
      exact hlt s List.mem_cons_self
    obtain ⟨it1, hit1⟩ : ∃ it1 : ByeIt, it1 = { it with st := ByeSt.ssrc, ssrc := s } := ⟨_, rfl⟩
    have hstep : byeElem b count it = some it1 := by
      unfold byeElem
      rw [if_neg (by omega), if_neg (by omega), hw, hit1]
    obtain ⟨m, rfl⟩ : ∃ m, n = m + 1 := ⟨n - 1, by omega⟩
    obtain ⟨evs, e1, e2⟩ := ih { it1 with idx := it1.idx + 1, pos := it1.pos + 4 } m (pre ++ toBe 4 s)
      (by rw [hb]; simp only [List.append_assoc]) (by rw [List.length_append, toBe_length, hit1]; simp only; omega)
      (by rw [hit1]; simp only; omega) (by rw [hit1]; exact herr) (fun x hx => hlt x (List.mem_cons_of_mem _ hx)) (by omega)
    refine ⟨(ByeEv.ssrc s, ⟨it1.pos, 4⟩) :: evs, ?_, ?_⟩
    · rw [hstep]
      apply byeAfter_some
      · rw [hit1]; rfl
      · have : it1.next b count = byeElem b count { it1 with idx := it1.idx + 1, pos := it1.pos + 4 } := by rw [hit1]; rfl
        rw [this]; exact e1
    · rw [List.map_cons, e2]; rfl

theorem bye_read (h : Bytes) (ss : List Nat) (r : Option Bytes) (hh : h.length = 4) (hs : ∀ s ∈ ss, s < 2 ^ 32)
    (hr : ∀ x, r = some x → TextOk x) :
    ∃ evs, byeInit.run (h ++ (ss.flatMap (toBe 4) ++ encReason r)) ss.length (h ++ (ss.flatMap (toBe 4) ++ encReason r)).length =
      some (evs, false) ∧ evs.map (·.1) = ss.map ByeEv.ssrc ++ reasonEvents r := by
  have hl : (h ++ (ss.flatMap (toBe 4) ++ encReason r)).length = 4 + 4 * ss.length + (encReason r).length := by
    rw [List.length_append, List.length_append, flatMap_length (toBe 4) (fun _ => 4) ss (fun _ => toBe_length _ _), hh]
    simp [List.map_const', Nat.mul_comm]; omega
  obtain ⟨n, hn⟩ : ∃ n, (h ++ (ss.flatMap (toBe 4) ++ encReason r)).length = n + 1 :=
    ⟨3 + 4 * ss.length + (encReason r).length, by rw [hl]; omega⟩
  obtain ⟨evs, e1, e2⟩ := bye_elems (h ++ (ss.flatMap (toBe 4) ++ encReason r)) ss.length r hr ss { byeInit with pos := 4 } n h rfl
    hh.symm (by show 0 + _ = _; omega) rfl hs (by omega)
  refine ⟨evs, ?_, e2⟩
  rw [hn, byeRun_succ]
  have : byeInit.next (h ++ (ss.flatMap (toBe 4) ++ encReason r)) ss.length =
      byeElem (h ++ (ss.flatMap (toBe 4) ++ encReason r)) ss.length { byeInit with pos := 4 } := by
    have hlt : ¬ byeInit.pos + 4 > (h ++ (ss.flatMap (toBe 4) ++ encReason r)).length := by
      rw [hl]; show ¬ 0 + 4 > _; omega
    exact if_neg hlt
  rw [this]; exact e1

/-! ## XR -/

theorem split_flatten (b : Bytes) (size : Nat) (ps : List Bytes) : ∀ (pre post : Bytes), b = pre ++ (ps.flatten ++ post) →
    (∀ p ∈ ps, p.length = size) → split b pre.length size ps.length = ps := by
  induction ps with
  | nil => intro _ _ _ _; rfl
  | cons p ps ih =>
    intro pre post hb hs
    have hp := hs p List.mem_cons_self
    have h1 := ih (pre ++ p) post (by rw [hb, List.flatten_cons]; simp only [List.append_assoc])
      (fun x hx => hs x (List.mem_cons_of_mem _ hx))
    unfold split at h1 ⊢
    rw [List.length_cons, List.range_succ_eq_map, List.map_cons, List.map_map]
    congr 1
    · rw [hb, Nat.mul_zero, Nat.add_zero, List.flatten_cons, List.append_assoc, ← hp, rd_mid0]
    · rw [List.length_append, hp] at h1
      rw [← h1]
      rw [h1]
      conv_rhs => rw [← h1]
      apply List.map_congr_left
      intro i _
      show rdAt b (pre.length + size * (i + 1)) size = _
      congr 1
      rw [Nat.mul_succ]; omega

theorem xrKind_type (k : XrKind) : xrKind (BitVec.ofNat 8 (xrType k)).toNat = some k := by cases k <;> rfl

theorem block_look (b pre post : Bytes) (blk : XBlock) (hb : b = pre ++ (encBlock blk ++ post)) (hok : BlockOk blk) (hs : blk.size ≤ 65535) :
    xrLook b pre.length = some (.found ⟨blk.kind, pre.length, blk.size⟩) := by
  have hm := block_size_mod blk hok
  have hs4 : 4 ≤ blk.size := by unfold XBlock.size; omega
  have hl : b.length = pre.length + blk.size + post.length := by
    rw [hb, List.length_append, List.length_append, encBlock_length]; omega
  have hb1 : b = pre ++ (BitVec.ofNat 8 (xrType blk.kind) :: (blk.spec :: toBe 2 (blk.size / 4 - 1) ++ blk.parts.flatten ++ post)) := by
    rw [hb]; rfl
  have hb2 : b = (pre ++ [BitVec.ofNat 8 (xrType blk.kind), blk.spec]) ++ (toBe 2 (blk.size / 4 - 1) ++ (blk.parts.flatten ++ post)) := by
    rw [hb]; unfold encBlock; simp only [List.append_assoc]
  have hw : word? b (pre.length + 2) 2 = some (blk.size / 4 - 1) := by
    have := word_mid (pre ++ [BitVec.ofNat 8 (xrType blk.kind), blk.spec]) (blk.parts.flatten ++ post) 2 (blk.size / 4 - 1) (by omega)
    rw [← hb2, List.length_append] at this
    exact this
  have hby : byte? b pre.length = some (BitVec.ofNat 8 (xrType blk.kind)).toNat := by rw [hb1, byte_mid]
  have hlen : (blk.size / 4 - 1 + 1) * 4 = blk.size := by omega
  unfold xrLook
  rw [if_neg (by omega), hby, hw]
  simp only
  rw [hlen, if_neg (by omega), xrKind_type]
  simp only
  rw [if_pos]
  have hcase : blk.kind = .dlrr ∨ blk.kind ≠ .dlrr := by tauto
  rcases hcase with hk | hk
  · rw [hk]
    have : (XrVisit.mk XrKind.dlrr pre.length blk.size).size ≤ blk.size := by
      unfold XrVisit.size
      simp only
      omega
    unfold XrVisit.check
    simp only
    exact decide_eq_true this
  · obtain ⟨p, hp, hpl⟩ := hok.fixed hk
    have : blk.size = 4 + xrBody blk.kind := by
      unfold XBlock.size
      rw [hp]; simp [hpl]
    rw [this]
    revert hk
    cases blk.kind <;> intro hk <;> first | rfl | exact absurd rfl hk

theorem block_back (b pre post : Bytes) (blk : XBlock) (hb : b = pre ++ (encBlock blk ++ post)) (hok : BlockOk blk) :
    readBlock b ⟨blk.kind, pre.length, blk.size⟩ = blk := by
  obtain ⟨k, spec, parts⟩ := blk
  have hb2 : b = (pre ++ [BitVec.ofNat 8 (xrType k)]) ++ ([spec] ++ (toBe 2 ((XBlock.mk k spec parts).size / 4 - 1) ++ (parts.flatten ++ post))) := by
    rw [hb]; unfold encBlock; simp only [List.append_assoc, List.cons_append, List.nil_append]
  have hb3 : b = (pre ++ [BitVec.ofNat 8 (xrType k), spec] ++ toBe 2 ((XBlock.mk k spec parts).size / 4 - 1)) ++ (parts.flatten ++ post) := by
    rw [hb]; unfold encBlock; simp only [List.append_assoc, List.cons_append, List.nil_append]
  have hl3 : (pre ++ [BitVec.ofNat 8 (xrType k), spec] ++ toBe 2 ((XBlock.mk k spec parts).size / 4 - 1)).length = pre.length + 4 := by
    rw [List.length_append, List.length_append, toBe_length]; rfl
  have hf : fld b (pre.length + 1) 1 = spec.toNat := by
    unfold fld
    have := rd_mid0 (pre ++ [BitVec.ofNat 8 (xrType k)]) [spec] (toBe 2 ((XBlock.mk k spec parts).size / 4 - 1) ++ (parts.flatten ++ post))
    rw [← hb2, List.length_append] at this
    have e : rdAt b (pre.length + 1) 1 = [spec] := this
    rw [e, RtpCodec.beNat_singleton]
  unfold readBlock
  simp only
  rw [hf]
  have hspec : BitVec.ofNat 8 spec.toNat = spec := by rw [BitVec.ofNat_toNat, BitVec.setWidth_eq]
  rw [hspec]
  by_cases hk : k = .dlrr
  · have hp := hok.dlrr hk
    simp only at hp
    rw [if_pos hk]
    have hlen : ((XBlock.mk k spec parts).size - 4) / 12 = parts.length := by
      unfold XBlock.size
      simp only
      rw [← flatten_length, sum_const parts 12 hp]; omega
    rw [hlen, ← hl3, split_flatten b 12 parts _ post hb3 hp]
  · obtain ⟨p, hp, hpl⟩ := hok.fixed hk
    simp only at hp hpl
    rw [if_neg hk, hp]
    have hsz : (XrVisit.mk k pre.length (XBlock.mk k spec [p]).size).size - 4 = p.length := by
      rw [hpl]
      revert hk
      cases k <;> intro hk <;> first | rfl | exact absurd rfl hk
    rw [hp] at hb3 hl3
    rw [hsz, ← hl3]
    have hfl : [p].flatten = p := by simp
    rw [hfl] at hb3
    rw [hb3, rd_mid0]

theorem xr_next (b : Bytes) (it : XrIt) (hend : it.ended = false) (h8 : 8 ≤ b.length) : it.next b = match nextBlock b it.from it.err with
    | none => none
    | some (some v, e) => some ⟨some v, false, e⟩
    | some (none, e) => some ⟨it.cur, true, e⟩ := by
  rcases it with ⟨cur, ended, err⟩
  simp only at hend
  subst hend
  cases cur with
  | none =>
    unfold XrIt.next
    simp only [XrIt.from, Bool.false_eq_true, if_false]
    rw [if_neg (by omega)]
    rcases nextBlock b 8 err with _ | ⟨_ | _, _⟩ <;> rfl
  | some w =>
    unfold XrIt.next
    simp only [XrIt.from, Bool.false_eq_true, if_false]
    rcases nextBlock b (w.pos + w.len) err with _ | ⟨_ | _, _⟩ <;> rfl

theorem xr_blocks (b : Bytes) (bs : List XBlock) (h8 : 8 ≤ b.length) : ∀ (it : XrIt) (n : Nat) (pre : Bytes),
    b = pre ++ bs.flatMap encBlock → it.ended = false → it.err = false → it.from = pre.length → (∀ x ∈ bs, BlockOk x) →
    (∀ x ∈ bs, x.size ≤ 65535) → bs.length + 1 ≤ n →
    ∃ vs, it.run b n = some (vs, false) ∧ vs.map (readBlock b) = bs := by
  induction bs with
  | nil =>
    intro it n pre hb hend herr hfrom _ _ hn
    obtain ⟨m, rfl⟩ : ∃ m, n = m + 1 := ⟨n - 1, by omega⟩
    have hl : b.length = pre.length := by rw [hb]; simp
    refine ⟨[], ?_, rfl⟩
    rw [XrIt.run, xr_next b it hend h8, nextBlock, dif_pos (by omega), if_pos (by omega)]
    simp only [if_true, herr]
  | cons x bs ih =>
    intro it n pre hb hend herr hfrom hok hsz hn
    rw [List.length_cons] at hn
    rw [List.flatMap_cons] at hb
    obtain ⟨m, rfl⟩ : ∃ m, n = m + 1 := ⟨n - 1, by omega⟩
    have hl : b.length = pre.length + x.size + (bs.flatMap encBlock).length := by
      rw [hb, List.length_append, List.length_append, encBlock_length]; omega
    have hs4 : 4 ≤ x.size := by unfold XBlock.size; omega
    have hlook := block_look b pre (bs.flatMap encBlock) x hb (hok x List.mem_cons_self) (hsz x List.mem_cons_self)
    have hback := block_back b pre (bs.flatMap encBlock) x hb (hok x List.mem_cons_self)
    have hnb : nextBlock b it.from it.err = some (some ⟨x.kind, pre.length, x.size⟩, false) := by
      rw [nextBlock, dif_neg (by omega), hfrom, hlook, herr]
    obtain ⟨vs, e1, e2⟩ := ih ⟨some ⟨x.kind, pre.length, x.size⟩, false, false⟩ m (pre ++ encBlock x)
      (by rw [hb, List.append_assoc]) rfl rfl (by rw [List.length_append, encBlock_length]; rfl)
      (fun y hy => hok y (List.mem_cons_of_mem _ hy)) (fun y hy => hsz y (List.mem_cons_of_mem _ hy)) (by omega)
    refine ⟨⟨x.kind, pre.length, x.size⟩ :: vs, ?_, ?_⟩
    · rw [XrIt.run, xr_next b it hend h8, hnb]
      simp only [Bool.false_eq_true, if_false]
      rw [e1]; rfl
    · rw [List.map_cons, hback, e2]

theorem xr_read (h : Bytes) (bs : List XBlock) (hh : h.length = 8) (hok : ∀ x ∈ bs, BlockOk x) (hsz : ∀ x ∈ bs, x.size ≤ 65535) :
    ∃ vs, xrInit.run (h ++ bs.flatMap encBlock) ((h ++ bs.flatMap encBlock).length / 4 + 1) = some (vs, false) ∧
      vs.map (readBlock (h ++ bs.flatMap encBlock)) = bs := by
  have hf : bs.length * 4 ≤ (bs.flatMap encBlock).length := by
    induction bs with
    | nil => simp
    | cons x bs ih =>
      have := ih (fun y hy => hok y (List.mem_cons_of_mem _ hy)) (fun y hy => hsz y (List.mem_cons_of_mem _ hy))
      rw [List.flatMap_cons, List.length_append, encBlock_length, List.length_cons]
      unfold XBlock.size
      omega
  apply xr_blocks _ bs (by rw [List.length_append]; omega) xrInit _ h rfl rfl rfl (by rw [hh]; rfl) hok hsz
  rw [List.length_append]; omega

end Verif.RtcpBuild
