import Verif.RtcpBuild.ReadInner

/-! Reading of compound packets made by the builder. -/

namespace Verif.RtcpBuild

open Verif.Bytes Verif.RtcpFields Verif.RtcpParse

/-- Size limits for a packet with padding. -/
structure PadOk (p : Pkt) (pad : Nat) : Prop where
  ok : PktOk p
  pad4 : pad % 4 = 0
  pad255 : pad ≤ 255
  size : p.size + pad ≤ 65535

theorem enc_len {p : Pkt} {pad : Nat} (h : PadOk p pad) : (enc p pad).length = p.size + pad := by
  rw [enc_length, encBody_length p h.ok]

theorem size_ge4 {p : Pkt} {pad : Nat} (h : PadOk p pad) : 4 ≤ p.size := by
  have := encBody_length p h.ok
  omega

theorem type_lt (p : Pkt) : p.type < 256 := by cases p <;> simp [Pkt.type]

theorem header_enc (pre post : Bytes) {p : Pkt} {pad : Nat} (h : PadOk p pad) :
    header? (pre ++ (enc p pad ++ post)) pre.length = some ⟨2, pad != 0, p.count, p.type, p.size + pad⟩ := by
  have hl := enc_len h
  have h4 := size_ge4 h
  have hm := size_mod p h.ok
  have hbl := encBody_length p h.ok
  have hp4 := h.pad4
  have hsz := h.size
  unfold header?
  rw [if_pos (by rw [List.length_append, List.length_append]; omega)]
  have e : rdAt (pre ++ (enc p pad ++ post)) pre.length 4 = hdr (pad != 0) p.count p.type (p.size + pad) ++ [] := by
    have := rd_mid pre (enc p pad) post 0 4 (by omega)
    rw [Nat.add_zero] at this
    rw [this]
    unfold enc
    rw [hbl, RtpCodec.rdAt_append_left _ _ _ _ (by rw [hdr_length]), List.append_nil]
    rfl
  rw [e, readHeader_hdr _ _ _ _ _ (count_lt p h.ok) (type_lt p) (by omega) (by omega) hsz]

theorem padByte_enc (pre post : Bytes) {p : Pkt} {pad : Nat} (h : PadOk p pad) (hp : pad ≠ 0) :
    byte? (pre ++ (enc p pad ++ post)) (pre.length + (p.size + pad - 1)) = some pad := by
  have hbl := encBody_length p h.ok
  have h255 := h.pad255
  have e : pre ++ (enc p pad ++ post) = (pre ++ (hdr (pad != 0) p.count p.type (4 + (encBody p).length + pad) ++ (encBody p ++
      List.replicate (pad - 1) 0))) ++ (BitVec.ofNat 8 pad :: post) := by
    unfold enc padBytes
    rw [if_neg hp]
    simp only [List.append_assoc, List.cons_append, List.nil_append]
  have hl : (pre ++ (hdr (pad != 0) p.count p.type (4 + (encBody p).length + pad) ++ (encBody p ++
      List.replicate (pad - 1) 0))).length = pre.length + (p.size + pad - 1) := by
    rw [List.length_append, List.length_append, List.length_append, hdr_length, List.length_replicate]; omega
  rw [e, ← hl, byte_mid, BitVec.toNat_ofNat, Nat.mod_eq_of_lt (by omega)]

/-- Counter as the reports see it. -/
theorem counter_enc (pre post : Bytes) {p : Pkt} {pad : Nat} (h : PadOk p pad) :
    fld (pre ++ (enc p pad ++ post)) pre.length 1 % 32 = p.count := by
  unfold fld enc hdr
  have e : ∀ (x : Byte) (a b c : Bytes), rdAt (pre ++ (x :: a ++ b ++ c)) pre.length 1 = [x] := by
    intro x a b c
    have := rd_mid0 pre [x] (a ++ b ++ c)
    simpa using this
  rw [e, RtpCodec.beNat_singleton]
  obtain ⟨_, _, _, h4⟩ := header_bits ⟨p.count, count_lt p h.ok⟩ (pad != 0)
  exact h4

/-- Visit of a packet. -/
def visitOf (p : Pkt) (pos pad : Nat) : Visit :=
  ⟨match p with | .sr .. => .sr | .rr .. => .rr | .sdes _ => .sdes | .bye .. => .bye | .xr .. => .xr,
   pos, p.size + pad, ⟨pos, if p.isReport then p.size else p.size + pad⟩⟩

theorem look_enc (pre post : Bytes) {p : Pkt} {pad : Nat} (h : PadOk p pad) (hpad : pad = 0 ∨ p.isReport = false ∨ pre = []) :
    look (pre ++ (enc p pad ++ post)) pre.length = some (.found (visitOf p pre.length pad)) := by
  have hl := enc_len h
  have h4 := size_ge4 h
  have hblen : (pre ++ (enc p pad ++ post)).length = pre.length + (p.size + pad) + post.length := by
    rw [List.length_append, List.length_append, hl]; omega
  have hh := header_enc pre post h
  have hcnt := counter_enc pre post h
  obtain ⟨b, hb⟩ : ∃ b, b = pre ++ (enc p pad ++ post) := ⟨_, rfl⟩
  have hpb : pad ≠ 0 → byte? b (pre.length + (p.size + pad - 1)) = some pad := by rw [hb]; exact padByte_enc pre post h
  rw [← hb] at hblen hh hcnt ⊢
  have h255 := h.pad255
  have report : p.isReport = true → ∀ k n, n + p.count * 24 ≤ p.size → 
      lookReport b pre.length ⟨2, pad != 0, p.count, p.type, p.size + pad⟩ k n =
        some (.found ⟨k, pre.length, p.size + pad, ⟨pre.length, p.size⟩⟩) := by
    intro hr k n hn
    have hrem : removePadding b pre.length ⟨2, pad != 0, p.count, p.type, p.size + pad⟩ = some (some ⟨pre.length, p.size⟩) := by
      unfold removePadding
      simp only
      by_cases hp0 : pad = 0
      · subst hp0; rfl
      · have : (pad != 0) = true := by simpa using hp0
        rw [if_pos this, hpb hp0]
        simp only
        have h28 : 4 + 4 ≤ p.size := by
          cases p with
          | sr body rs => simp only [Pkt.size]; omega
          | rr body rs => simp only [Pkt.size]; omega
          | sdes _ => simp [Pkt.isReport] at hr
          | bye _ _ => simp [Pkt.isReport] at hr
          | xr _ _ => simp [Pkt.isReport] at hr
        rw [if_neg (by omega), if_pos (by omega), Nat.add_sub_cancel]
        rcases hpad with h0 | h0 | h0
        · exact absurd h0 hp0
        · rw [hr] at h0; exact absurd h0 (by decide)
        · rw [h0]; rfl
    unfold lookReport
    rw [hrem]
    simp only
    rw [byte?_fld (by omega)]
    simp only
    rw [hcnt, if_neg (by omega)]
  unfold look
  rw [if_neg (by omega), hh]
  simp only
  rw [if_neg (by omega), if_neg (by omega)]
  cases p with
  | sr body rs => exact report rfl .sr 28 (by simp only [Pkt.size, Pkt.count]; omega)
  | rr body rs => exact report rfl .rr 8 (by simp only [Pkt.size, Pkt.count]; omega)
  | sdes cs => rfl
  | bye ss r => rfl
  | xr body bs => rfl

theorem parseInner_enc {p : Pkt} {pad size : Nat} (h : PadOk p pad) (hs : size ≤ p.size) :
    parseInner (enc p pad) p.type size = some (some (hdr (pad != 0) p.count p.type (p.size + pad) ++ encBody p, p.count)) := by
  have hl := enc_len h
  have hbl := encBody_length p h.ok
  have hh := header_enc [] [] h
  have hpb : pad ≠ 0 → byte? (enc p pad) (p.size + pad - 1) = some pad := by
    have := padByte_enc [] [] h
    simpa using this
  rw [List.append_nil, List.nil_append] at hh
  have h255 := h.pad255
  have hsz := h.size
  have h4 := size_ge4 h
  unfold parseInner
  have hh' : header? (enc p pad) 0 = some ⟨2, pad != 0, p.count, p.type, p.size + pad⟩ := hh
  rw [if_neg (by omega), hh']
  simp only
  rw [if_neg (by simp), if_neg (by omega)]
  by_cases hp0 : pad = 0
  · subst hp0
    have : ((0 : Nat) != 0) = false := rfl
    rw [this, if_neg (by decide), enc_zero, hbl]
    rfl
  · have : (pad != 0) = true := by simpa using hp0
    rw [if_pos this, hpb hp0]
    simp only
    rw [if_neg (by omega), if_pos (by omega), Nat.add_sub_cancel]
    have : (enc p pad).take p.size = hdr (pad != 0) p.count p.type (p.size + pad) ++ encBody p := by
      unfold enc
      rw [← List.append_assoc, hbl]
      apply List.take_left'
      rw [List.length_append, hdr_length, hbl]
    rw [this]

theorem read_enc (pre post : Bytes) {p : Pkt} {pad : Nat} (h : PadOk p pad) :
    readPkt (pre ++ (enc p pad ++ post)) (visitOf p pre.length pad) = some p := by
  have hl := enc_len h
  have hcnt := counter_enc pre post h
  have hbl := encBody_length p h.ok
  have hsub : rdAt (pre ++ (enc p pad ++ post)) pre.length (p.size + pad) = enc p pad := by
    rw [← hl]; exact rd_mid0 _ _ _
  have hin := parseInner_enc (size := 4) h (size_ge4 h)
  have hsz := h.size
  cases p with
  | sr body rs =>
    obtain ⟨h1, h2, h3⟩ := h.ok
    obtain ⟨b, hb⟩ : ∃ b, b = pre ++ (enc (.sr body rs) pad ++ post) := ⟨_, rfl⟩
    rw [← hb] at hcnt ⊢
    obtain ⟨hd, hhd, hhl⟩ : ∃ hd : Bytes, b = pre ++ (hd ++ (body ++ (rs.flatten ++ (padBytes pad ++ post)))) ∧ hd.length = 4 := by
      refine ⟨hdr (pad != 0) (Pkt.sr body rs).count (Pkt.sr body rs).type (4 + (encBody (.sr body rs)).length + pad), ?_, rfl⟩
      rw [hb]; unfold enc; simp only [encBody, List.append_assoc]
    have e1 : rdAt b (pre.length + 4) 24 = body := by
      have := rd_mid0 (pre ++ hd) body (rs.flatten ++ (padBytes pad ++ post))
      rw [List.append_assoc, ← hhd, List.length_append, hhl, h1] at this
      exact this
    have e2 : split b (pre.length + 28) 24 rs.length = rs := by
      have := split_flatten b 24 rs (pre ++ (hd ++ body)) (padBytes pad ++ post) (by rw [hhd]; simp only [List.append_assoc]) h3
      rw [List.length_append, List.length_append, hhl, h1] at this
      exact this
    unfold readPkt visitOf
    simp only
    rw [hcnt]
    show some (Pkt.sr (rdAt b (pre.length + 4) 24) (split b (pre.length + 28) 24 rs.length)) = _
    rw [e1, e2]
  | rr body rs =>
    obtain ⟨h1, h2, h3⟩ := h.ok
    obtain ⟨b, hb⟩ : ∃ b, b = pre ++ (enc (.rr body rs) pad ++ post) := ⟨_, rfl⟩
    rw [← hb] at hcnt ⊢
    obtain ⟨hd, hhd, hhl⟩ : ∃ hd : Bytes, b = pre ++ (hd ++ (body ++ (rs.flatten ++ (padBytes pad ++ post)))) ∧ hd.length = 4 := by
      refine ⟨hdr (pad != 0) (Pkt.rr body rs).count (Pkt.rr body rs).type (4 + (encBody (.rr body rs)).length + pad), ?_, rfl⟩
      rw [hb]; unfold enc; simp only [encBody, List.append_assoc]
    have e1 : rdAt b (pre.length + 4) 4 = body := by
      have := rd_mid0 (pre ++ hd) body (rs.flatten ++ (padBytes pad ++ post))
      rw [List.append_assoc, ← hhd, List.length_append, hhl, h1] at this
      exact this
    have e2 : split b (pre.length + 8) 24 rs.length = rs := by
      have := split_flatten b 24 rs (pre ++ (hd ++ body)) (padBytes pad ++ post) (by rw [hhd]; simp only [List.append_assoc]) h3
      rw [List.length_append, List.length_append, hhl, h1] at this
      exact this
    unfold readPkt visitOf
    simp only
    rw [hcnt]
    show some (Pkt.rr (rdAt b (pre.length + 4) 4) (split b (pre.length + 8) 24 rs.length)) = _
    rw [e1, e2]
  | sdes cs =>
    obtain ⟨h1, h2⟩ := h.ok
    obtain ⟨evs, r1, r2⟩ := sdes_read (hdr (pad != 0) cs.length 202 ((Pkt.sdes cs).size + pad)) cs rfl h2
    unfold readPkt visitOf
    simp only [Pkt.isReport, Bool.false_eq_true, if_false]
    rw [hsub]
    have hin' : parseInner (enc (.sdes cs) pad) 202 4 =
      some (some (hdr (pad != 0) cs.length 202 ((Pkt.sdes cs).size + pad) ++ cs.flatMap encChunk, cs.length)) := hin
    rw [hin']
    simp only
    rw [r1]
    simp only
    rw [r2]; rfl
  | bye ss r =>
    obtain ⟨h1, h2, h3, hr4⟩ := h.ok
    obtain ⟨evs, r1, r2⟩ := bye_read (hdr (pad != 0) ss.length 203 ((Pkt.bye ss r).size + pad)) ss r rfl h3 hr4
    unfold readPkt visitOf
    simp only [Pkt.isReport, Bool.false_eq_true, if_false]
    rw [hsub]
    have hin' : parseInner (enc (.bye ss r) pad) 203 4 =
      some (some (hdr (pad != 0) ss.length 203 ((Pkt.bye ss r).size + pad) ++ (ss.flatMap (toBe 4) ++ encReason r), ss.length)) := hin
    rw [hin']
    simp only
    rw [r1]
    simp only
    have hg : ∀ (ss : List Nat) (r : Option Bytes), (ss.map ByeEv.ssrc ++ reasonEvents r).filterMap ssrcOf = ss := by
      intro ss r
      induction ss with
      | nil => cases r <;> rfl
      | cons s ss ih => simpa [ssrcOf] using ih
    have hq : ∀ (ss : List Nat) (r : Option Bytes), reasonOf (ss.map ByeEv.ssrc ++ reasonEvents r) = r := by
      intro ss r
      induction ss with
      | nil => cases r <;> rfl
      | cons s ss ih => simpa [reasonOf] using ih
    rw [r2, hg, hq]
  | xr body bs =>
    obtain ⟨h1, h2⟩ := h.ok
    have hin := parseInner_enc (size := 8) h (by simp only [Pkt.size]; omega)
    have hbs : ∀ b ∈ bs, b.size ≤ 65535 := by
      intro b hb
      have : b.size ≤ (bs.map XBlock.size).sum := le_sum_of_mem _ _ (List.mem_map_of_mem hb)
      simp only [Pkt.size] at hsz
      omega
    obtain ⟨vs, r1, r2⟩ := xr_read (hdr (pad != 0) 0 207 ((Pkt.xr body bs).size + pad) ++ body) bs
      (by rw [List.length_append, hdr_length, h1]) h2 hbs
    unfold readPkt visitOf
    simp only [Pkt.isReport, Bool.false_eq_true, if_false]
    rw [hsub]
    have hin' : parseInner (enc (.xr body bs) pad) 207 8 =
      some (some (hdr (pad != 0) 0 207 ((Pkt.xr body bs).size + pad) ++ body ++ bs.flatMap encBlock, 0)) := by
      rw [List.append_assoc]; exact hin
    rw [hin']
    simp only
    rw [r1]
    simp only
    rw [r2]
    have : rdAt (hdr (pad != 0) 0 207 ((Pkt.xr body bs).size + pad) ++ body ++ bs.flatMap encBlock) 4 4 = body := by
      have := rd_mid0 (hdr (pad != 0) 0 207 ((Pkt.xr body bs).size + pad)) body (bs.flatMap encBlock)
      rw [hdr_length, h1, ← List.append_assoc] at this
      exact this
    rw [this]

theorem compound_read (b : Bytes) (pad : Nat) (ps : List Pkt) : ∀ (it : Iter) (n : Nat) (pre : Bytes), ps ≠ [] →
    b = pre ++ encAll ps pad → it.ended = false → it.err = false → it.from = pre.length →
    (∀ p ∈ ps, PadOk p 0) → (∀ p, ps.getLast? = some p → PadOk p pad) →
    (pad = 0 ∨ (∀ p, ps.getLast? = some p → p.isReport = false) ∨ (pre = [] ∧ ps.length = 1)) → ps.length + 1 ≤ n →
    ∃ vs, it.run b n = some (vs, false) ∧ vs.mapM (readPkt b) = some ps := by
  have key : ∀ (p : Pkt) (q : Nat) (pre post : Bytes) (it : Iter) (n : Nat), b = pre ++ (enc p q ++ post) → PadOk p q →
      (q = 0 ∨ p.isReport = false ∨ pre = []) → it.ended = false → it.err = false → it.from = pre.length →
      it.run b (n + 1) = ((⟨some (visitOf p pre.length q), false, false⟩ : Iter).run b n).map (fun r => (visitOf p pre.length q :: r.1, r.2)) ∧
      readPkt b (visitOf p pre.length q) = some p := by
    intro p q pre post it n hb hp hq hend herr hfrom
    have hl := enc_len hp
    have h4 := size_ge4 hp
    have hlook := look_enc pre post hp hq
    have hread := read_enc pre post hp
    rw [← hb] at hlook hread
    have hlen : b.length = pre.length + (p.size + q) + post.length := by
      rw [hb, List.length_append, List.length_append, hl]; omega
    refine ⟨?_, hread⟩
    have hnx : nextPacket b it.from it.err = some (some (visitOf p pre.length q), false) := by
      rw [nextPacket, dif_neg (by omega), hfrom, hlook, herr]
    rw [Iter.run]
    unfold Iter.next
    rw [if_neg (by rw [hend]; decide), hnx]
    simp only [Bool.false_eq_true, if_false]
  have last : ∀ (it : Iter) (n : Nat), it.ended = false → it.err = false → it.from = b.length → it.run b (n + 1) = some ([], false) := by
    intro it n hend herr hfrom
    rw [Iter.run]
    unfold Iter.next
    rw [if_neg (by rw [hend]; decide), nextPacket, dif_pos (by omega), if_pos hfrom]
    simp only [if_true, herr]
  induction ps with
  | nil => intro _ _ _ hne; exact absurd rfl hne
  | cons p ps ih =>
    intro it n pre _ hb hend herr hfrom hok hlast hpad hn
    rw [List.length_cons] at hn
    obtain ⟨m, rfl⟩ : ∃ m, n = m + 1 := ⟨n - 1, by omega⟩
    cases ps with
    | nil =>
      obtain ⟨m, rfl⟩ : ∃ k, m = k + 1 := ⟨m - 1, by simp at hn; omega⟩
      have hp := hlast p rfl
      have hb' : b = pre ++ (enc p pad ++ []) := by rw [hb, List.append_nil]; rfl
      obtain ⟨k1, k2⟩ := key p pad pre [] it (m + 1) hb' hp (by
        rcases hpad with h | h | h
        · exact Or.inl h
        · exact Or.inr (Or.inl (h p rfl))
        · exact Or.inr (Or.inr h.1)) hend herr hfrom
      refine ⟨[visitOf p pre.length pad], ?_, ?_⟩
      · rw [k1, last _ m rfl rfl]
        · rfl
        · rw [hb', List.append_nil, List.length_append, enc_len hp]; rfl
      · rw [List.mapM_cons, k2]; rfl
    | cons q ps =>
      have hp := hok p List.mem_cons_self
      have hb' : b = pre ++ (enc p 0 ++ encAll (q :: ps) pad) := hb
      obtain ⟨k1, k2⟩ := key p 0 pre _ it m hb' hp (Or.inl rfl) hend herr hfrom
      obtain ⟨vs, e1, e2⟩ := ih ⟨some (visitOf p pre.length 0), false, false⟩ m (pre ++ enc p 0) (by simp)
        (by rw [hb', List.append_assoc]) rfl rfl (by rw [List.length_append, enc_len hp]; rfl)
        (fun x hx => hok x (List.mem_cons_of_mem _ hx)) (fun x hx => hlast x (by simpa using hx))
        (by
          rcases hpad with h | h | h
          · exact Or.inl h
          · exact Or.inr (Or.inl (fun x hx => h x (by simpa using hx)))
          · have := h.2; simp at this)
        (by simpa using hn)
      refine ⟨visitOf p pre.length 0 :: vs, ?_, ?_⟩
      · rw [k1, e1]; rfl
      · rw [List.mapM_cons, k2, e2]; rfl

end Verif.RtcpBuild
