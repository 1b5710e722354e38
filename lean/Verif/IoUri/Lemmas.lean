import Verif.IoUri.Spec
import Verif.Pct.Props

namespace Verif.IoUri

open Verif.Pct (Byte ch isAlnum)

theorem isPchar_iff (c : Byte) : isPchar c = true ↔ c ≠ ch '?' ∧ c ≠ ch '#' := by
  simp [isPchar]

theorem all_pchar (s : List Byte) : s.all isPchar = true ↔ Plain s := by
  unfold Plain
  induction s with
  | nil => simp
  | cons c cs ih =>
    simp only [List.all_cons, Bool.and_eq_true, ih, isPchar_iff, List.mem_cons, not_or]
    constructor
    · rintro ⟨⟨a, b⟩, c, d⟩; exact ⟨⟨fun h => a h.symm, c⟩, ⟨fun h => b h.symm, d⟩⟩
    · rintro ⟨⟨a, c⟩, b, d⟩; exact ⟨⟨fun h => a h.symm, fun h => b h.symm⟩, c, d⟩

theorem plain_cons (c : Byte) (s : List Byte) : Plain (c :: s) ↔ isPchar c = true ∧ Plain s := by
  rw [← all_pchar, ← all_pchar]; simp

theorem absPath_iff (s : List Byte) : absPath s = true ↔ Abs s := by
  constructor
  · intro h
    match s, h with
    | a :: b :: cs, h =>
      simp only [absPath, Bool.and_eq_true, beq_iff_eq, bne_iff_ne, ne_eq] at h
      obtain ⟨⟨⟨h1, h2⟩, h3⟩, h4⟩ := h
      exact ⟨b, cs, by rw [h1], h3, (plain_cons b cs).2 ⟨h2, (all_pchar cs).1 h4⟩⟩
  · rintro ⟨c, cs, rfl, h1, h2⟩
    have h3 := (plain_cons c cs).1 h2
    simp [absPath, h1, h3.1, (all_pchar cs).2 h3.2]

theorem relPath_iff (s : List Byte) : relPath s = true ↔ Rel s := by
  constructor
  · intro h
    match s, h with
    | a :: cs, h =>
      simp only [relPath, Bool.and_eq_true, bne_iff_ne, ne_eq] at h
      exact ⟨a, cs, rfl, h.1, (all_pchar cs).1 h.2⟩
  · rintro ⟨c, cs, rfl, h1, h2⟩
    simp [relPath, h1, (all_pchar cs).2 h2]

theorem after_append (p r : List Byte) : after p (p ++ r) = some r := by
  unfold after
  rw [if_pos (by simp)]
  simp

theorem after_some {p s r : List Byte} (h : after p s = some r) : s = p ++ r := by
  unfold after at h
  split at h
  · rename_i hp
    obtain ⟨t, ht⟩ := List.isPrefixOf_iff_prefix.1 hp
    simp only [Option.some.injEq] at h
    rw [← ht] at h ⊢
    simp only [List.drop_left] at h
    rw [h]
  · cases h

theorem after_none {p s : List Byte} (h : after p s = none) (r : List Byte) : s ≠ p ++ r := by
  intro e; rw [e, after_append] at h; cases h

/-- What the parser accepts after `file:`. -/
inductive Hier : List Byte → List Byte → Prop
  | abs {p} : Abs p → Hier p p
  | rel {p} : Rel p → Hier p p
  | abs3 {p} : Abs p → Hier (str "//" ++ p) p
  | std2 : Hier (str "//-") (str "-")
  | host {p} : Abs p → Hier (str "//localhost" ++ p) p

theorem rel_dash : Rel (str "-") := ⟨ch '-', [], rfl, by decide, by simp [Plain]⟩

theorem str_split2 : str "//-" = str "//" ++ str "-" := by decide
theorem str_splitL : str "//localhost" = str "//" ++ str "localhost" := by decide

theorem hier_sound {s p : List Byte} (h : fileHier s = some p) : Hier s p := by
  unfold fileHier at h
  split at h
  · rename_i h1
    simp only [Option.some.injEq] at h; subst h
    exact .abs ((absPath_iff _).1 h1)
  · split at h
    · rename_i h1
      simp only [Option.some.injEq] at h; subst h
      rw [h1]; exact .rel rel_dash
    · split at h
      · rename_i h1
        simp only [Option.some.injEq] at h; subst h
        exact .rel ((relPath_iff _).1 h1)
      · cases h2 : after (str "//") s with
        | none => rw [h2] at h; cases h
        | some r =>
          rw [h2] at h
          simp only at h
          have e := after_some h2
          split at h
          · rename_i h3
            simp only [Option.some.injEq] at h; subst h
            rw [e]; exact .abs3 ((absPath_iff _).1 h3)
          · split at h
            · rename_i h3
              simp only [Option.some.injEq] at h; subst h
              rw [e, h3, ← str_split2]; exact .std2
            · cases h4 : after (str "localhost") r with
              | none => rw [h4] at h; cases h
              | some q =>
                rw [h4] at h
                simp only at h
                have e2 := after_some h4
                split at h
                · rename_i h5
                  simp only [Option.some.injEq] at h; subst h
                  rw [e, e2, ← List.append_assoc, ← str_splitL]
                  exact .host ((absPath_iff _).1 h5)
                · cases h

theorem not_abs_slash2 (t : List Byte) : absPath (str "//" ++ t) = false := by
  simp [absPath, str]

theorem not_rel_slash2 (t : List Byte) : relPath (str "//" ++ t) = false := by
  simp [relPath, str]

theorem slash2_ne_dash (t : List Byte) : str "//" ++ t ≠ str "-" := by
  intro h
  have := congrArg List.length h
  simp [str] at this

theorem abs_not_localhost {t : List Byte} : absPath (str "localhost" ++ t) = false := by
  have h : str "localhost" = ch 'l' :: str "ocalhost" := by decide
  rw [h, List.cons_append]
  generalize str "ocalhost" ++ t = u
  cases u with
  | nil => rfl
  | cons b cs =>
    have : (ch 'l' == ch '/') = false := by decide
    simp [absPath, this]

theorem localhost_ne_dash (t : List Byte) : str "localhost" ++ t ≠ str "-" := by
  intro h
  have := congrArg List.length h
  simp [str] at this

theorem hier_complete {s p : List Byte} (h : Hier s p) : fileHier s = some p := by
  cases h with
  | abs h => unfold fileHier; rw [if_pos ((absPath_iff _).2 h)]
  | rel h =>
    unfold fileHier
    have h1 := (relPath_iff _).2 h
    rw [h1]
    split
    · rfl
    · split
      · rfl
      · rfl
  | abs3 h =>
    unfold fileHier
    rw [not_abs_slash2, not_rel_slash2, if_neg (by decide), if_neg (slash2_ne_dash _),
      if_neg (by decide), after_append]
    simp only
    rw [if_pos ((absPath_iff _).2 h)]
  | std2 => decide +kernel
  | host h =>
    unfold fileHier
    rw [str_splitL, List.append_assoc, not_abs_slash2, not_rel_slash2, if_neg (by decide),
      if_neg (slash2_ne_dash _), if_neg (by decide), after_append]
    simp only
    rw [abs_not_localhost, if_neg (by decide), if_neg (localhost_ne_dash _), after_append]
    simp only
    rw [if_pos ((absPath_iff _).2 h)]

theorem takeWhile_alnum {sc t : List Byte} (h : ∀ c ∈ sc, isAlnum c = true) :
    (sc ++ ch ':' :: t).takeWhile isAlnum = sc ∧ (sc ++ ch ':' :: t).dropWhile isAlnum = ch ':' :: t := by
  induction sc with
  | nil =>
    have : isAlnum (ch ':') = false := by decide
    simp [this]
  | cons c cs ih =>
    have h1 := h c (List.mem_cons_self ..)
    have := ih (fun x hx => h x (List.mem_cons_of_mem _ hx))
    simp [h1, this]

theorem takeWhile_all (s : List Byte) : ∀ c ∈ s.takeWhile isAlnum, isAlnum c = true := by
  induction s with
  | nil => intro c hc; simp at hc
  | cons a as ih =>
    intro c hc
    rw [List.takeWhile_cons] at hc
    split at hc
    · rcases List.mem_cons.1 hc with h | h
      · subst h; assumption
      · exact ih c h
    · simp at hc

theorem device_iff (s sc p : List Byte) : device s = some (sc, p) ↔
    sc ≠ [] ∧ (∀ c ∈ sc, isAlnum c = true) ∧ sc ≠ str "file" ∧ p ≠ [] ∧ Plain p ∧
      s = sc ++ str "://" ++ p := by
  constructor
  · intro h
    unfold device at h
    simp only at h
    split at h
    · cases h
    · rename_i h1
      simp only [Bool.or_eq_true, decide_eq_true_eq, not_or, List.isEmpty_iff] at h1
      cases h2 : after (str "://") (s.dropWhile isAlnum) with
      | none => rw [h2] at h; cases h
      | some r =>
        rw [h2] at h
        simp only at h
        split at h
        · rename_i h3
          simp only [Bool.and_eq_true, Bool.not_eq_true', List.isEmpty_eq_false_iff] at h3
          simp only [Option.some.injEq, Prod.mk.injEq] at h
          obtain ⟨rfl, rfl⟩ := h
          refine ⟨h1.1, takeWhile_all s, h1.2, h3.1, (all_pchar _).1 h3.2, ?_⟩
          rw [List.append_assoc, ← after_some h2, List.takeWhile_append_dropWhile]
        · cases h
  · rintro ⟨h1, h2, h3, h4, h5, rfl⟩
    have e : sc ++ str "://" ++ p = sc ++ ch ':' :: (ch '/' :: ch '/' :: p) := by simp [str]
    have e2 : (ch ':' :: (ch '/' :: ch '/' :: p)) = str "://" ++ p := by simp [str]
    have := takeWhile_alnum (t := ch '/' :: ch '/' :: p) h2
    unfold device
    rw [e, this.1, this.2, e2, after_append]
    simp [h1, h3, h4, (all_pchar p).2 h5]

/-- A scheme other than `file` is not taken for it. -/
theorem after_file_device {sc p : List Byte} (h2 : ∀ c ∈ sc, isAlnum c = true)
    (h3 : sc ≠ str "file") : after (str "file:") (sc ++ str "://" ++ p) = none := by
  cases h : after (str "file:") (sc ++ str "://" ++ p) with
  | none => rfl
  | some r =>
    exfalso
    have e := after_some h
    have e1 : sc ++ str "://" ++ p = sc ++ ch ':' :: (ch '/' :: ch '/' :: p) := by simp [str]
    have e2 : str "file:" ++ r = str "file" ++ ch ':' :: r := by simp [str]
    have t1 := (takeWhile_alnum (t := ch '/' :: ch '/' :: p) h2).1
    have t2 := (takeWhile_alnum (sc := str "file") (t := r) (by decide +kernel)).1
    rw [e1, e2] at e
    rw [e, t2] at t1
    exact h3 t1.symm

theorem file_split (r : List Byte) : str "file:" ++ (str "//" ++ r) = str "file://" ++ r := by
  simp [str]

theorem form_iff (s sc p : List Byte) : Form s sc p ↔
    (∃ r, s = str "file:" ++ r ∧ sc = str "file" ∧ Hier r p) ∨ device s = some (sc, p) := by
  constructor
  · intro h
    cases h with
    | device h1 h2 h3 h4 h5 => exact Or.inr ((device_iff _ _ _).2 ⟨h1, h2, h3, h4, h5, rfl⟩)
    | abs3 h => exact Or.inl ⟨str "//" ++ p, (file_split p).symm, rfl, .abs3 h⟩
    | host h =>
      exact Or.inl ⟨str "//localhost" ++ p, by simp [str], rfl, .host h⟩
    | abs1 h => exact Or.inl ⟨p, rfl, rfl, .abs h⟩
    | rel h => exact Or.inl ⟨p, rfl, rfl, .rel h⟩
    | std2 => exact Or.inl ⟨str "//-", by decide, rfl, .std2⟩
  · rintro (⟨r, rfl, rfl, h⟩ | h)
    · cases h with
      | abs h => exact .abs1 h
      | rel h => exact .rel h
      | abs3 h => rw [file_split]; exact .abs3 h
      | std2 => exact .std2
      | host h =>
        have : str "file:" ++ (str "//localhost" ++ p) = str "file://localhost" ++ p := by
          simp [str]
        rw [this]; exact .host h
    · obtain ⟨h1, h2, h3, h4, h5, rfl⟩ := (device_iff _ _ _).1 h
      exact .device h1 h2 h3 h4 h5

theorem setEncodedPath_iff (p d : List Byte) : setEncodedPath p = some d ↔
    p ≠ [] ∧ Pct.decode p = (true, d) := by
  unfold setEncodedPath
  cases p with
  | nil => simp
  | cons c cs =>
    rw [if_neg (by simp)]
    cases h : Pct.decode (c :: cs) with
    | mk b e => cases b <;> simp

theorem hier_ne {s p : List Byte} (h : Hier s p) : p ≠ [] := by
  cases h with
  | abs h => obtain ⟨c, cs, rfl, _⟩ := h; simp
  | rel h => obtain ⟨c, cs, rfl, _⟩ := h; simp
  | abs3 h => obtain ⟨c, cs, rfl, _⟩ := h; simp
  | std2 => decide
  | host h => obtain ⟨c, cs, rfl, _⟩ := h; simp

end Verif.IoUri
