import Verif.Printer.Model

/-!
# Printer: properties (C134)
-/

namespace Verif.Printer

/-- Text of printed lines. -/
def joined (p : List (List Nat)) : List Nat := (p.map (· ++ [10])).flatten

theorem joined_append (p q : List (List Nat)) : joined (p ++ q) = joined p ++ joined q := by
  simp [joined]

theorem split_idx : ∀ l : List Nat, 10 ∈ l → l = l.take (l.idxOf 10) ++ 10 :: l.drop (l.idxOf 10 + 1) ∧ 10 ∉ l.take (l.idxOf 10) ∧ l.idxOf 10 < l.length := by
  intro l
  induction l with
  | nil => intro h; simp at h
  | cons a l ih =>
    intro h
    by_cases ha : a = 10
    · subst ha
      simp
    · have h' : 10 ∈ l := by
        rcases List.mem_cons.1 h with e | e
        · exact absurd e.symm ha
        · exact e
      obtain ⟨h1, h2, h3⟩ := ih h'
      have hi : (a :: l).idxOf 10 = l.idxOf 10 + 1 := by
        have hb : (a == 10) = false := beq_eq_false_iff_ne.2 ha
        rw [List.idxOf_cons, hb]
        rfl
      rw [hi]
      refine ⟨?_, ?_, by simpa using h3⟩
      · rw [List.take_succ_cons, List.drop_succ_cons, List.cons_append, ← h1]
      · rw [List.take_succ_cons, List.mem_cons]
        rintro (e | e)
        · exact ha e.symm
        · exact h2 e

theorem loop_spec (mem : List Nat) (f : Nat) : ∀ (curr : Nat) (out : List (List Nat)), curr ≤ mem.length → mem.length - curr < f →
    ∃ c p, loop mem mem.length false f curr out = .ok (c, out ++ p) ∧ c ≤ mem.length ∧ joined p ++ mem.drop c = mem.drop curr ∧
      (∀ l ∈ p, 10 ∉ l) ∧ 10 ∉ mem.drop c ∧ (10 ∉ mem.drop curr → c = curr ∧ p = []) := by
  induction f with
  | zero => intro curr out _ h; omega
  | succ f ih =>
    intro curr out hc hf
    by_cases hm : 10 ∈ mem.drop curr
    · obtain ⟨h1, h2, h3⟩ := split_idx _ hm
      rw [List.length_drop] at h3
      generalize hi : (mem.drop curr).idxOf 10 = i at h1 h2 h3
      obtain ⟨c, p, e1, e2, e3, e4, e5, -⟩ := ih (curr + i + 1) (out ++ [(mem.drop curr).take (curr + i - curr)]) (by omega) (by omega)
      refine ⟨c, (mem.drop curr).take i :: p, ?_, e2, ?_, ?_, e5, fun h => absurd hm h⟩
      · rw [loop, strchr, if_pos hm, hi]
        dsimp only
        rw [if_neg (by omega), e1]
        simp
      · rw [show ((mem.drop curr).take i :: p) = [(mem.drop curr).take i] ++ p from rfl, joined_append, List.append_assoc, e3]
        rw [List.drop_drop] at h1
        refine Eq.trans ?_ h1.symm
        simp [joined, Nat.add_assoc]
      · intro l hl
        rcases List.mem_cons.1 hl with rfl | hl
        · exact h2
        · exact e4 l hl
    · refine ⟨curr, [], ?_, hc, rfl, by simp, hm, fun _ => ⟨rfl, rfl⟩⟩
      rw [loop, strchr, if_neg hm]
      simp

/-- The pending text. -/
def St.rest (s : St) : List Nat := s.mem.take s.n

/-- States after a write. -/
def Inv (s : St) : Prop := s.n ≤ s.mem.length ∧ 10 ∉ s.rest ∧ s.n ≤ 1024

theorem rest_length {s : St} (h : Inv s) : s.rest.length = s.n := by
  rw [St.rest, List.length_take]; exact Nat.min_eq_left h.1

theorem writef_spec {s : St} (h : Inv s) (t : List Nat) (hl : s.n + t.length ≤ 1024) :
    ∃ s' p, writef t s = .ok s' ∧ Inv s' ∧ s'.out = s.out ++ p ∧ joined p ++ s'.rest = s.rest ++ t ∧ (∀ l ∈ p, 10 ∉ l) ∧
      (10 ∉ t → s'.n ≠ 0 → 10 ∉ s'.mem) := by
  have hlen : (s.mem.take s.n ++ t).length = s.n + t.length := by
    rw [List.length_append, List.length_take, Nat.min_eq_left h.1]
  unfold writef
  rw [if_neg (by unfold bufferSize; omega)]
  change ∃ s' p, flush false ⟨s.rest ++ t, s.n + t.length, s.out⟩ = .ok s' ∧ _
  change (s.rest ++ t).length = _ at hlen
  have hcap : (s.rest ++ t).length ≤ 1024 := by omega
  rw [← hlen]
  have h10 : 10 ∉ t → 10 ∉ s.rest ++ t := by
    intro ht hm
    rcases List.mem_append.1 hm with e | e
    · exact h.2.1 e
    · exact ht e
  generalize s.rest ++ t = mem at h10 hcap
  unfold flush
  dsimp only
  by_cases h0 : mem.length = 0
  · rw [if_pos h0]
    have : mem = [] := List.length_eq_zero_iff.1 h0
    subst this
    exact ⟨_, [], rfl, ⟨Nat.le_refl _, by simp [St.rest], Nat.zero_le _⟩, by simp, by simp [joined, St.rest], by simp, by simp⟩
  · rw [if_neg h0]
    obtain ⟨c, p, e1, e2, e3, e4, e5, e6⟩ := loop_spec mem (mem.length + 1) 0 s.out (Nat.zero_le _) (by omega)
    rw [List.drop_zero] at e3 e6
    rw [e1]
    dsimp only
    by_cases hc : c = mem.length
    · rw [if_pos hc]
      refine ⟨_, p, rfl, ⟨Nat.zero_le _, by simp [St.rest], Nat.zero_le _⟩, rfl, ?_, e4, fun _ h => absurd rfl h⟩
      rw [hc, List.drop_length] at e3
      simpa [St.rest] using e3
    · rw [if_neg hc, if_neg (by omega)]
      have hd : (mem.drop c).take (mem.length - c) = mem.drop c := by
        apply List.take_of_length_le
        rw [List.length_drop]
        exact Nat.le_refl _
      rw [hd]
      have hr : (St.rest ⟨mem.drop c ++ mem.drop (mem.length - c), mem.length - c, s.out ++ p⟩) = mem.drop c := by
        rw [St.rest]
        dsimp only
        rw [← List.length_drop, List.take_left']
        rfl
      refine ⟨_, p, rfl, ⟨?_, ?_, Nat.le_trans (Nat.sub_le _ _) hcap⟩, rfl, ?_, e4, ?_⟩
      · dsimp only
        rw [List.length_append, List.length_drop]; omega
      · rw [hr]; exact e5
      · rw [hr]; exact e3
      · intro ht _ hm
        obtain ⟨rfl, -⟩ := e6 (h10 ht)
        rcases List.mem_append.1 hm with e | e
        · exact e5 e
        · exact h10 ht (List.mem_of_mem_drop e)

theorem run_spec (texts : List (List Nat)) : ∀ s s', Inv s → (∀ l ∈ s.out, 10 ∉ l) → run texts s = .ok s' →
    Inv s' ∧ (∀ l ∈ s'.out, 10 ∉ l) ∧ joined s'.out ++ s'.rest = joined s.out ++ s.rest ++ texts.flatten := by
  induction texts with
  | nil =>
    intro s s' h1 h2 h
    simp only [run, Out.ok.injEq] at h
    subst h
    exact ⟨h1, h2, by simp⟩
  | cons t l ih =>
    intro s s' h1 h2 h
    by_cases hl : s.n + t.length ≤ 1024
    · obtain ⟨s1, p, e1, e2, e3, e4, e5, -⟩ := writef_spec h1 t hl
      rw [run, e1] at h
      obtain ⟨g1, g2, g3⟩ := ih s1 s' e2 (by
        intro x hx
        rw [e3] at hx
        rcases List.mem_append.1 hx with hx | hx
        · exact h2 x hx
        · exact e5 x hx) h
      refine ⟨g1, g2, ?_⟩
      rw [g3, e3, joined_append, List.append_assoc, List.append_assoc, ← List.append_assoc (joined p), e4]
      simp
    · have : writef t s = .panic := by
        unfold writef
        rw [if_pos]
        have := h1.2.2
        unfold bufferSize
        omega
      rw [run, this] at h
      cases h

theorem run_append (l1 l2 : List (List Nat)) : ∀ s s', run (l1 ++ l2) s = .ok s' → ∃ s1, run l1 s = .ok s1 ∧ run l2 s1 = .ok s' := by
  induction l1 with
  | nil => intro s s' h; exact ⟨s, rfl, h⟩
  | cons t l ih =>
    intro s s' h
    rw [List.cons_append, run] at h
    rw [run]
    cases hw : writef t s with
    | ok s1 => rw [hw] at h; exact ih s1 s' h
    | panic => rw [hw] at h; cases h
    | ub => rw [hw] at h; cases h

theorem init_inv : Inv init := ⟨Nat.le_refl _, by simp [St.rest, init], Nat.zero_le _⟩

/-- **C134** (lines). After any writes the printed lines, each with its line feed, and a rest without line feed together are the text written: nothing is
lost, printed twice, or held back once its line is complete. The next write succeeds if it fits into 1024 characters together with the rest, and
aborts otherwise. -/
theorem C134_lines (texts : List (List Nat)) (s : St) (h : run texts init = .ok s) :
    ∃ rest, (s.out.map (· ++ [10])).flatten ++ rest = texts.flatten ∧ (∀ l ∈ s.out, 10 ∉ l) ∧ 10 ∉ rest ∧
      ∀ t, (rest.length + t.length ≤ 1024 → ∃ s', writef t s = .ok s') ∧ (1024 < rest.length + t.length → writef t s = .panic) := by
  obtain ⟨h1, h2, h3⟩ := run_spec texts init s init_inv (by simp [init]) h
  refine ⟨s.rest, ?_, h2, h1.2.1, ?_⟩
  · simpa [joined, init, St.rest] using h3
  · intro t
    rw [rest_length h1]
    constructor
    · intro hl
      obtain ⟨s', -, e, -⟩ := writef_spec h1 t hl
      exact ⟨s', e⟩
    · intro hl
      unfold writef
      rw [if_pos]
      have := h1.2.2
      unfold bufferSize
      omega

theorem close_clean {s : St} (h : Inv s) (hm : s.n ≠ 0 → 10 ∉ s.mem) :
    ∃ s', close s = .ok s' ∧ s'.out = s.out ++ if s.rest = [] then [] else [s.rest] := by
  unfold close flush
  by_cases h0 : s.n = 0
  · rw [if_pos h0]
    refine ⟨s, rfl, ?_⟩
    rw [if_pos (by rw [St.rest, h0, List.take_zero]), List.append_nil]
  · rw [if_neg h0]
    have hr : s.rest ≠ [] := by
      intro e
      have := rest_length h
      rw [e] at this
      exact h0 this.symm
    rw [loop, strchr, if_neg (by rw [List.drop_zero]; exact hm h0)]
    dsimp only
    rw [if_neg (by simp), if_neg (by omega)]
    dsimp only
    rw [if_neg (fun e => h0 e.symm), if_neg (by omega), if_neg hr]
    exact ⟨_, rfl, by simp [St.rest]⟩

/-- The destructor prints the rest as last line if the last text written has no line feed, or ends with one. Missing: last texts with a line feed inside,
see `C134_close_fails`. -/
theorem C134_close_partial (texts : List (List Nat)) (t : List Nat) (ht : 10 ∉ t ∨ ∃ t', t = t' ++ [10]) (s : St)
    (h : run (texts ++ [t]) init = .ok s) :
    ∃ s' rest, close s = .ok s' ∧ (s.out.map (· ++ [10])).flatten ++ rest = (texts ++ [t]).flatten ∧ 10 ∉ rest ∧
      s'.out = s.out ++ if rest = [] then [] else [rest] := by
  obtain ⟨h1, h2, h3⟩ := run_spec _ init s init_inv (by simp [init]) h
  have h3' : joined s.out ++ s.rest = (texts ++ [t]).flatten := by simpa [joined, init, St.rest] using h3
  have hm : s.n ≠ 0 → 10 ∉ s.mem := by
    intro hn
    rcases ht with ht | ⟨t', rfl⟩
    · obtain ⟨s1, g1, g2⟩ := run_append texts [t] _ _ h
      obtain ⟨i1, -, -⟩ := run_spec texts init s1 init_inv (by simp [init]) g1
      by_cases hl : s1.n + t.length ≤ 1024
      · obtain ⟨s2, p, e1, -, -, -, -, e6⟩ := writef_spec i1 t hl
        rw [run, e1] at g2
        simp only [run, Out.ok.injEq] at g2
        subst g2
        exact e6 ht hn
      · have : writef t s1 = .panic := by
          unfold writef
          rw [if_pos]
          have := i1.2.2
          unfold bufferSize
          omega
        rw [run, this] at g2
        cases g2
    · exfalso
      have hne : s.rest ≠ [] := by
        intro e
        have := rest_length h1
        rw [e] at this
        exact hn this.symm
      have e := congrArg List.getLast? h3'
      rw [List.getLast?_append, List.getLast?_eq_some_getLast hne, Option.some_or] at e
      have e' : (texts ++ [t' ++ [10]]).flatten.getLast? = some 10 := by
        simp [← List.append_assoc]
      rw [e'] at e
      exact h1.2.1 (Option.some.inj e ▸ List.getLast_mem hne)
  obtain ⟨s', e1, e2⟩ := close_clean h1 hm
  exact ⟨s', s.rest, e1, h3', h1.2.1, e2⟩

theorem strchr_found (a b : List Nat) (ha : 10 ∉ a) : strchr (a ++ 10 :: b) 0 = some a.length := by
  have : (a ++ 10 :: b).idxOf 10 = a.length := by
    rw [List.idxOf_append]
    simp [ha]
  rw [strchr, List.drop_zero, if_pos (by simp), this, Nat.zero_add]

theorem strchr_rest (a b : List Nat) (hb : 10 ∉ b) : strchr (a ++ 10 :: b) (a.length + 1) = none := by
  have : (a ++ 10 :: b).drop (a.length + 1) = b := by
    rw [← List.drop_drop, List.drop_left]
    rfl
  rw [strchr, this, if_neg hb]

/-- **C134 fails** for the destructor: characters of the line printed before stay in the buffer behind the rest, and the search for a line feed goes on to them.
Whenever one text has a complete line and then a shorter beginning of a line, and the printer is destroyed after it, the destructor prints characters
of the old line and then computes a negative size, for `println_` and `memmove`. -/
theorem C134_close_fails (a b : List Nat) (ha : 10 ∉ a) (hb : 10 ∉ b) (hb0 : b ≠ []) (hlt : b.length < a.length) (hl : a.length + 1 + b.length ≤ 1024) :
    ∃ s, run [a ++ 10 :: b] init = .ok s ∧ s.out = [a] ∧ close s = .ub := by
  have hbl : 0 < b.length := List.length_pos_iff.2 hb0
  have hd : (a ++ 10 :: b).drop (a.length + 1) = b := by
    rw [← List.drop_drop, List.drop_left]
    rfl
  have hw : writef (a ++ 10 :: b) init = .ok ⟨(b ++ a.drop b.length) ++ 10 :: b, b.length, [a]⟩ := by
    unfold writef
    rw [if_neg (by simp only [init, bufferSize, List.length_append, List.length_cons]; omega)]
    simp only [init, List.take_zero, List.nil_append]
    unfold flush
    dsimp only
    rw [if_neg (by simp only [List.length_append, List.length_cons]; omega)]
    have hloop : loop (a ++ 10 :: b) (0 + (a ++ 10 :: b).length) false ((a ++ 10 :: b).length + 1) 0 [] = .ok (a.length + 1, [a]) := by
      rw [show (a ++ 10 :: b).length + 1 = (a.length + b.length) + 1 + 1 by simp only [List.length_append, List.length_cons]; omega]
      rw [loop, strchr_found a b ha]
      dsimp only
      rw [if_neg (by simp only [List.length_append, List.length_cons]; omega), loop, strchr_rest a b hb]
      simp
    rw [hloop]
    dsimp only
    rw [if_neg (by simp only [List.length_append, List.length_cons]; omega), if_neg (by simp only [List.length_append, List.length_cons]; omega)]
    have hn : 0 + (a ++ 10 :: b).length - (a.length + 1) = b.length := by simp only [List.length_append, List.length_cons]; omega
    rw [hn, hd, List.take_length, List.drop_append_of_le_length (by omega), List.append_assoc]
  refine ⟨⟨(b ++ a.drop b.length) ++ 10 :: b, b.length, [a]⟩, ?_, rfl, ?_⟩
  · rw [run, hw]; rfl
  · have hx : 10 ∉ b ++ a.drop b.length := by
      intro hm
      rcases List.mem_append.1 hm with e | e
      · exact hb e
      · exact ha (List.mem_of_mem_drop e)
    have hxl : (b ++ a.drop b.length).length = a.length := by
      rw [List.length_append, List.length_drop]; omega
    unfold close flush
    dsimp only
    rw [if_neg (by omega)]
    rw [show ((b ++ a.drop b.length) ++ 10 :: b).length + 1 = (a.length + b.length) + 1 + 1 by
      rw [List.length_append, hxl, List.length_cons]; omega]
    rw [loop, strchr_found _ b hx]
    dsimp only
    rw [if_neg (by omega), loop, strchr_rest _ b hb]
    dsimp only
    rw [if_neg (by simp), if_pos (by omega)]

/-! ### Cases -/

/-- "ab", line feed, "c", then "d": one line printed. -/
example : ∃ s, run [[97, 98, 10, 99], [100]] init = .ok s ∧ s.out = [[97, 98]] ∧ (∃ s', close s = .ok s' ∧ s'.out = [[97, 98], [99, 100]]) :=
  ⟨_, rfl, rfl, _, rfl, rfl⟩

/-- Its last text meets the hypothesis of `C134_close_partial`. -/
example : (10 : Nat) ∉ [100] := by decide

/-- "abc", line feed, "d": the destructor fails. -/
example : ∃ s, run [[97, 98, 99, 10, 100]] init = .ok s ∧ s.out = [[97, 98, 99]] ∧ close s = .ub :=
  C134_close_fails [97, 98, 99] [100] (by decide) (by decide) (by decide) (by decide) (by decide)

end Verif.Printer
