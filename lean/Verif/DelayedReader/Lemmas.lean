import Verif.DelayedReader.Spec
import Verif.SortedQueue.Lemmas

namespace Verif.DelayedReader

open Verif.SortedQueue

theorem Timeline.tail {pos : Pkt → Int} {p : Pkt} {ps : List Pkt} (h : Timeline pos (p :: ps)) :
    Timeline pos ps :=
  ⟨fun q hq => h.wire q (by simp [hq]), (List.pairwise_cons.mp h.mono).2,
   fun a ha b hb => h.near a (by simp [ha]) b (by simp [hb])⟩

theorem span_nonneg {pos : Pkt → Int} {ps : List Pkt} (h : Timeline pos ps) : 0 ≤ span pos ps := by
  cases ps with
  | nil => simp [span]
  | cons p ps =>
    simp only [span]
    have hm := (List.pairwise_cons.mp h.mono).1
    rcases List.mem_cons.mp (List.getLast_mem (l := p :: ps) (by simp)) with e | hx
    · rw [e]; omega
    · have := hm _ hx; omega

theorem span_tail_le {pos : Pkt → Int} {p : Pkt} {ps : List Pkt} (h : Timeline pos (p :: ps)) :
    span pos ps ≤ span pos (p :: ps) := by
  cases ps with
  | nil => exact span_nonneg h
  | cons x xs =>
    have : pos p ≤ pos x := (List.pairwise_cons.mp h.mono).1 x (by simp)
    simp only [span, List.getLast_cons_cons]
    omega

theorem queueSize_eq {pos : Pkt → Int} (q : Queue Pkt) (h : Timeline pos q.list.reverse) :
    (queueSize q : Int) = span pos q.list.reverse := by
  unfold queueSize Queue.tail Queue.head
  rcases List.eq_nil_or_concat q.list with hl | ⟨l, p, hl⟩
  · rw [hl]; simp [span]
  · have hrev : q.list.reverse = p :: l.reverse := by rw [hl]; simp
    have hne : q.list ≠ [] := by rw [hl]; simp
    rw [List.head?_eq_some_head hne]
    have hlast : q.list.getLast? = some p := by rw [hl]; simp
    rw [hlast]
    simp only
    have hmem : q.list.head hne ∈ q.list.reverse := by simp
    have hgl : (p :: l.reverse).getLast (by simp) = q.list.head hne := by
      have : q.list.reverse.getLast (by simpa using hne) = q.list.head hne := by simp
      rw [← this]; congr 1; exact hrev.symm
    have hs := span_nonneg h
    rw [hrev] at hs ⊢
    simp only [span] at hs ⊢
    rw [hgl] at hs ⊢
    obtain ⟨t, ht⟩ : ∃ t, t = q.list.head hne := ⟨_, rfl⟩
    rw [← ht] at hs hmem ⊢
    have hp : p ∈ q.list.reverse := by rw [hrev]; simp
    have w1 := h.wire t hmem
    have w2 := h.wire p hp
    have n1 := h.near p hp t hmem
    have hd : Units.tsDiff (t.ts + t.dur) p.ts = pos t + t.dur.toNat - pos p := by
      unfold Units.tsDiff
      rw [w1, w2]
      have : (BitVec.ofInt 32 (pos t) + t.dur - BitVec.ofInt 32 (pos p)) =
          BitVec.ofInt 32 (pos t + t.dur.toNat - pos p) := by
        apply BitVec.eq_of_toNat_eq
        simp only [BitVec.toNat_sub, BitVec.toNat_add, BitVec.toNat_ofInt]
        have := t.dur.isLt
        omega
      rw [this, BitVec.toInt_ofInt, Int.bmod_def]
      have := t.dur.isLt
      omega
    rw [hd, if_neg (by omega)]
    omega

theorem trim_tail_self {pos : Pkt → Int} {delay : Nat} :
    ∀ {ps : List Pkt}, Timeline pos ps → span pos ps < delay → trim pos delay ps = ps
  | [], _, _ => rfl
  | p :: ps, h, hs => by
    unfold trim
    rw [if_pos (by have := span_tail_le h; omega)]

theorem trim_suffix (pos : Pkt → Int) (delay : Nat) : ∀ ps : List Pkt, trim pos delay ps <:+ ps
  | [] => List.suffix_refl _
  | p :: ps => by
    unfold trim
    split
    · exact List.suffix_refl _
    · exact (trim_suffix pos delay ps).trans (List.suffix_cons p ps)

theorem Timeline.suffix {pos : Pkt → Int} {ps qs : List Pkt} (hs : qs <:+ ps) (h : Timeline pos ps) :
    Timeline pos qs :=
  ⟨fun q hq => h.wire q (hs.subset hq), h.mono.sublist hs.sublist,
   fun a ha b hb => h.near a (hs.subset ha) b (hs.subset hb)⟩

/-- The trimming loop. -/
theorem readQueued_eq {pos : Pkt → Int} {delay : Nat} (hd : 0 < delay) :
    ∀ (ps : List Pkt) (fuel : Nat) (q : Queue Pkt), q.list.reverse = ps → ps ≠ [] →
      Timeline pos ps → ps.length < fuel →
      ∃ p rest, trim pos delay ps = p :: rest ∧ span pos rest < delay ∧
        readQueued delay fuel q = (.ok p, { q with list := rest.reverse })
  | [], _, _, _, hne, _, _ => absurd rfl hne
  | p :: ps, 0, _, _, _, _, hf => absurd hf (by simp)
  | p :: ps, fuel + 1, q, hq, _, ht, hf => by
    have hl : q.list = ps.reverse ++ [p] := by
      have := congrArg List.reverse hq
      simpa using this
    have hr : q.read = (some p, { q with list := ps.reverse }) := by
      unfold Queue.read; rw [hl]; simp
    unfold readQueued
    rw [hr]
    simp only
    have hqs := queueSize_eq (pos := pos) { q with list := ps.reverse } (by simpa using ht.tail)
    simp only [List.reverse_reverse] at hqs
    unfold trim
    by_cases hc : span pos ps < delay
    · have hc2 : queueSize { q with list := ps.reverse } < delay := by omega
      simp only [hc, hc2, if_true]
      exact ⟨p, ps, rfl, hc, rfl⟩
    · have hc2 : ¬ queueSize { q with list := ps.reverse } < delay := by omega
      simp only [hc, hc2, if_false]
      have hne : ps ≠ [] := by
        rintro rfl
        simp [span] at hc
        omega
      exact readQueued_eq hd ps fuel { q with list := ps.reverse } (by simp) hne ht.tail
        (by simp at hf; omega)

/-- The inner reader read directly `n` times. -/
def direct : Nat → List Res → List Res
  | 0, _ => []
  | n + 1, [] => .noData :: direct n []
  | n + 1, r :: rs => r :: direct n rs

theorem reads_direct (delay : Nat) : ∀ (n : Nat) (q : Queue Pkt) (inner : List Res), q.list = [] →
    (reads delay n ⟨q, true⟩ inner).1 = direct n inner
  | 0, _, _, _ => rfl
  | n + 1, q, inner, hq => by
    cases inner with
    | nil =>
      simp only [reads, read, hq, direct]
      simp only [if_true, List.length_nil, ne_eq, not_true, if_false]
      rw [reads_direct delay n q [] hq]
    | cons r rs =>
      simp only [reads, read, hq, direct]
      simp only [if_true, List.length_nil, ne_eq, not_true, if_false]
      rw [reads_direct delay n q rs hq]

/-- Draining a started reader whose queue is already trimmed. -/
theorem reads_drain {pos : Pkt → Int} {delay : Nat} (hd : 0 < delay) (n : Nat) :
    ∀ (ps : List Pkt) (q : Queue Pkt) (inner : List Res), q.list.reverse = ps → Timeline pos ps →
      span pos ps < delay →
      (reads delay (ps.length + n) ⟨q, true⟩ inner).1 = ps.map .ok ++ direct n inner
  | [], q, inner, hq, _, _ => by
    simp only [List.length_nil, Nat.zero_add, List.map_nil, List.nil_append]
    exact reads_direct delay n q inner (by simpa using hq)
  | p :: ps, q, inner, hq, ht, hs => by
    have hlen : q.list.length = ps.length + 1 := by
      have := congrArg List.length hq; simpa using this
    obtain ⟨p', rest, h1, h2, h3⟩ :=
      readQueued_eq hd (p :: ps) (q.list.length + 1) q hq (by simp) ht (by simp; omega)
    rw [trim_tail_self ht hs] at h1
    obtain ⟨rfl, rfl⟩ := List.cons.inj h1
    have e : (p :: ps).length + n = (ps.length + n) + 1 := by simp; omega
    rw [e]
    simp only [reads, read]
    have hl0 : q.list.length ≠ 0 := by omega
    simp only [if_true, ne_eq, hl0, not_false_eq_true, h3, List.map_cons, List.cons_append]
    congr 1
    exact reads_drain hd n ps _ inner (by simp) ht.tail h2

theorem fetchLoop_oks (ps : List Pkt) : ∀ (q : Queue Pkt) (rest : List Res),
    fetchLoop q (ps.map .ok ++ .noData :: rest) = (ps.foldl (Queue.write cmp) q, rest, none) := by
  induction ps with
  | nil => intro q rest; rfl
  | cons p ps ih => intro q rest; simp only [List.map_cons, List.cons_append, fetchLoop, ih, List.foldl_cons]

/-- What the fetch loop consumes is written to the queue. -/
theorem fetchLoop_spec (inner : List Res) : ∀ q : Queue Pkt,
    ∃ consumed, inner = consumed ++ (fetchLoop q inner).2.1 ∧
      (fetchLoop q inner).1 = (packets consumed).foldl (Queue.write cmp) q := by
  induction inner with
  | nil => intro q; exact ⟨[], rfl, rfl⟩
  | cons r inner ih =>
    intro q
    cases r with
    | ok p =>
      obtain ⟨c, h1, h2⟩ := ih (q.write cmp p)
      exact ⟨.ok p :: c, by simp only [fetchLoop, List.cons_append]; rw [← h1], by
        simp only [fetchLoop, packets, List.foldl_cons]; exact h2⟩
    | noData => exact ⟨[.noData], rfl, rfl⟩
    | err e => exact ⟨[.err e], rfl, rfl⟩

theorem foldl_write_run (ps : List Pkt) : ∀ q : Queue Pkt,
    ps.foldl (Queue.write cmp) q = (run cmp q (ps.map .write)).1 ∧
    (run cmp q (ps.map .write)).2 = [] ∧ writes (ps.map Op.write) = ps := by
  induction ps with
  | nil => intro q; simp [run, writes]
  | cons p ps ih =>
    intro q
    have := ih (q.write cmp p)
    simp only [List.foldl_cons, List.map_cons, run, writes]
    exact ⟨this.1, this.2.1, by rw [this.2.2]⟩

end Verif.DelayedReader
