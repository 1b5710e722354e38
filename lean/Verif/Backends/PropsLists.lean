import Verif.Backends.Spec
import Verif.StringList.Props

/-!
# C113: Supported schemes and formats
-/

namespace Verif.Backends

open Verif.Pct (Byte ch)
open Verif.IoUri (str Uri)
open Verif.StringList (SL pushBack init find SameBlock enc blkSize cstrAt)

/-- The search takes one of `ss` for `q` (`string_list.cpp:141-165`). -/
def seen (ss : List (List Byte)) (q : List Byte) : Bool :=
  ss.any fun t => decide (SameBlock t q ∧ q <+: t)

/-- `collect` on lists. -/
def collectL (ss : List (List Byte)) : List (List Byte) → List (List Byte)
  | [] => ss
  | n :: ns => if seen ss n then collectL ss ns else collectL (ss ++ [n]) ns

def Small (ss : List (List Byte)) : Prop := ∀ s ∈ ss, s.length ≤ 19 ∧ (0 : Byte) ∉ s

theorem enc_small : ∀ ss : List (List Byte), Small ss → (enc ss).length ≤ 40 * ss.length
  | [], _ => by simp [enc]
  | s :: ss, h => by
    have h1 := enc_small ss (fun t ht => h t (by simp [ht]))
    have h2 := (h s (by simp)).1
    have h3 := (StringList.align4_gt s.length).2
    simp only [enc, List.length_append, StringList.length_block, List.length_cons, blkSize]
    omega

theorem data_small (ss : List (List Byte)) (h : Small ss) (hl : ss.length ≤ 600) :
    (ss.foldl pushBack init).data.length < 2 ^ 32 := by
  have h1 := enc_small ss h
  have h2 := (StringList.push_data ss init).1
  rw [h2]
  simp only [init, List.nil_append]
  omega

theorem find_seen (ss : List (List Byte)) (q : List Byte) (h : Small ss) (hl : ss.length ≤ 600)
    (hq : (0 : Byte) ∉ q) : (find (ss.foldl pushBack init) q).isNone = !seen ss q := by
  have e := StringList.find_eq ss q (fun s hs => (h s hs).2) hq (data_small ss h hl)
  have e2 : (find (ss.foldl pushBack init) q).isNone =
      (ss.find? (fun t => decide (SameBlock t q ∧ q <+: t))).isNone := by rw [← e]; simp
  rw [e2, seen]
  cases hx : ss.find? (fun t => decide (SameBlock t q ∧ q <+: t)) with
  | none =>
    have := List.find?_eq_none.mp hx
    symm
    simp only [Option.isNone_none, Bool.not_eq_true', List.any_eq_false]
    exact this
  | some t =>
    have h1 := List.mem_of_find?_eq_some hx
    have h2 := List.find?_some hx
    symm
    simp only [Option.isNone_some, Bool.not_eq_false', List.any_eq_true]
    exact ⟨t, h1, h2⟩

theorem collect_eq (kind : Kind) : ∀ (ds : List Driver) (ss : List (List Byte)), Small ss →
    (∀ d ∈ ds, d.name.length ≤ 19 ∧ (0 : Byte) ∉ d.name) → ss.length + ds.length ≤ 512 →
    collect kind (ss.foldl pushBack init) ds = (collectL ss (names kind ds)).foldl pushBack init ∧
      Small (collectL ss (names kind ds)) ∧ (collectL ss (names kind ds)).length ≤ ss.length + ds.length
  | [], ss, h, _, _ => ⟨rfl, h, by simp [names, collectL]⟩
  | d :: ds, ss, h, hd, hl => by
    have hds : ∀ e ∈ ds, e.name.length ≤ 19 ∧ (0 : Byte) ∉ e.name := fun e he => hd e (by simp [he])
    have hdd := hd d (by simp)
    simp only [List.length_cons] at hl
    unfold collect
    rw [find_seen ss d.name h (by omega) hdd.2]
    by_cases hk : d.kind = kind
    · have hn : names kind (d :: ds) = d.name :: names kind ds := by simp [names, hk]
      rw [hn]
      unfold collectL
      by_cases hs : seen ss d.name = true
      · rw [if_neg (by simp [hs]), if_pos hs]
        obtain ⟨h1, h2, h3⟩ := collect_eq kind ds ss h hds (by omega)
        exact ⟨h1, h2, by simp only [List.length_cons]; omega⟩
      · rw [if_pos ⟨hk, by simpa using hs⟩, if_neg hs]
        have hsm : Small (ss ++ [d.name]) := by
          intro s hs
          rcases List.mem_append.mp hs with hs | hs
          · exact h s hs
          · rw [List.mem_singleton.mp hs]; exact hdd
        have := collect_eq kind ds (ss ++ [d.name]) hsm hds
          (by simp only [List.length_append, List.length_singleton]; omega)
        rw [List.foldl_append] at this
        obtain ⟨h1, h2, h3⟩ := this
        exact ⟨h1, h2, by simp only [List.length_append, List.length_cons, List.length_nil] at *; omega⟩
    · have hn : names kind (d :: ds) = names kind ds := by simp [names, hk]
      rw [hn, if_neg (fun h => hk h.1)]
      obtain ⟨h1, h2, h3⟩ := collect_eq kind ds ss h hds (by omega)
      exact ⟨h1, h2, by simp only [List.length_cons]; omega⟩

theorem strings_eq (ss : List (List Byte)) (h : Small ss) (hl : ss.length ≤ 600) :
    strings (ss.foldl pushBack init) = ss := by
  by_cases hne : ss = []
  · subst hne; rfl
  · obtain ⟨h1, h2⟩ := StringList.C49_forward ss hne (fun s hs => (h s hs).2) (data_small ss h hl)
    unfold strings
    rw [if_neg, h2]
    · exact h1
    · rw [h2]; exact fun e => hne (List.length_eq_zero_iff.mp e)

theorem formats_eq {ds : List Driver} (h : MapOk ds) :
    strings (supportedFormats ds) = collectL [] (names .file ds) := by
  obtain ⟨h1, h2, h3⟩ := collect_eq .file ds [] (by intro s hs; cases hs) h.2
    (by have := h.1; simp only [List.length_nil]; omega)
  have h0 := h.1
  simp only [List.length_nil, Nat.zero_add] at h3
  have h1' : supportedFormats ds = (collectL [] (names .file ds)).foldl pushBack init := h1
  rw [h1']
  exact strings_eq _ h2 (by omega)

theorem schemes_eq {ds : List Driver} (h : MapOk ds) :
    strings (supportedSchemes ds) = collectL [] (names .device ds) ++ [str "file"] := by
  obtain ⟨h1, h2, h3⟩ := collect_eq .device ds [] (by intro s hs; cases hs) h.2
    (by have := h.1; simp only [List.length_nil]; omega)
  have h0 := h.1
  simp only [List.length_nil, Nat.zero_add] at h3
  have h1' : supportedSchemes ds =
      (collectL [] (names .device ds) ++ [str "file"]).foldl pushBack init := by
    rw [List.foldl_append, ← h1]; rfl
  rw [h1']
  refine strings_eq _ ?_ (by simp only [List.length_append, List.length_singleton]; omega)
  intro s hs
  rcases List.mem_append.mp hs with hs | hs
  · exact h2 s hs
  · rw [List.mem_singleton.mp hs]; exact ⟨by decide, by decide⟩

/-! ### The list -/

theorem sameBlock_iff (t q : List Byte) :
    SameBlock t q ↔ (q.length + 4) / 4 = (t.length + 4) / 4 := by
  unfold SameBlock blkSize
  rw [StringList.align4_eq, StringList.align4_eq]
  omega

theorem seen_iff (ss : List (List Byte)) (q : List Byte) :
    seen ss q = true ↔ q ∈ ss ∨ ∃ t ∈ ss, Confused t q := by
  unfold seen Confused
  rw [List.any_eq_true]
  constructor
  · rintro ⟨t, ht, h⟩
    rw [decide_eq_true_eq, sameBlock_iff] at h
    by_cases e : q = t
    · exact .inl (e ▸ ht)
    · exact .inr ⟨t, ht, h.2, e, h.1⟩
  · rintro (h | ⟨t, ht, h1, _, h3⟩)
    · exact ⟨q, h, by rw [decide_eq_true_eq, sameBlock_iff]; exact ⟨rfl, List.prefix_refl q⟩⟩
    · exact ⟨t, ht, by rw [decide_eq_true_eq, sameBlock_iff]; exact ⟨h3, h1⟩⟩

theorem collectL_props : ∀ (ns ss : List (List Byte)), ss.Nodup →
    ∃ rest, collectL ss ns = ss ++ rest ∧ rest.Sublist ns ∧ (ss ++ rest).Nodup ∧
      ∀ q ∈ ns, ∃ t ∈ ss ++ rest, t = q ∨ Confused t q
  | [], ss, h => ⟨[], by simp [collectL], by simp, by simpa using h, by simp⟩
  | n :: ns, ss, h => by
    unfold collectL
    by_cases hs : seen ss n = true
    · rw [if_pos hs]
      obtain ⟨r, h1, h2, h3, h4⟩ := collectL_props ns ss h
      refine ⟨r, h1, h2.cons n, h3, fun q hq => ?_⟩
      rcases List.mem_cons.mp hq with rfl | hq
      · rcases (seen_iff ss q).mp hs with h | ⟨t, ht, hc⟩
        · exact ⟨q, by simp [h], .inl rfl⟩
        · exact ⟨t, by simp [ht], .inr hc⟩
      · exact h4 q hq
    · rw [if_neg hs]
      have hn : n ∉ ss := fun hm => hs ((seen_iff ss n).mpr (.inl hm))
      obtain ⟨r, h1, h2, h3, h4⟩ := collectL_props ns (ss ++ [n])
        (by rw [List.nodup_append]; refine ⟨h, by simp, ?_⟩; intro a ha b hb; rw [List.mem_singleton.mp hb]; exact fun e => hn (e ▸ ha))
      refine ⟨n :: r, by rw [h1]; simp, h2.cons_cons n, by simpa using h3, fun q hq => ?_⟩
      rcases List.mem_cons.mp hq with rfl | hq
      · exact ⟨q, by simp, .inl rfl⟩
      · simpa using h4 q hq

theorem firsts_filter_mem (p : List Byte → Bool) : ∀ l : List (List Byte),
    (firsts l).filter p = firsts (l.filter p)
  | [] => rfl
  | s :: l => by
    have ih := firsts_filter_mem p l
    by_cases hp : p s = true
    · rw [List.filter_cons_of_pos hp]
      simp only [firsts]
      rw [List.filter_cons_of_pos hp, ← ih]
      congr 1
      rw [List.filter_filter, List.filter_filter]
      congr 1; funext t; exact Bool.and_comm _ _
    · rw [List.filter_cons_of_neg hp]
      simp only [firsts]
      rw [List.filter_cons_of_neg hp, List.filter_filter, ← ih]
      apply List.filter_congr
      intro t _
      by_cases e : t = s
      · subst e; simp [hp]
      · simp [e]

theorem collectL_exact : ∀ (ns ss : List (List Byte)),
    (∀ q ∈ ns, ∀ t, t ∈ ss ∨ t ∈ ns → ¬ Confused t q) →
    collectL ss ns = ss ++ (firsts ns).filter (fun t => decide (t ∉ ss))
  | [], ss, _ => by simp [collectL, firsts]
  | n :: ns, ss, h => by
    unfold collectL
    have hse : seen ss n = true ↔ n ∈ ss := by
      rw [seen_iff]
      refine ⟨fun h' => ?_, .inl⟩
      rcases h' with h' | ⟨t, ht, hc⟩
      · exact h'
      · exact absurd hc (h n (by simp) t (.inl ht))
    by_cases hs : n ∈ ss
    · rw [if_pos (hse.mpr hs), collectL_exact ns ss (fun q hq t ht => h q (by simp [hq]) t (by
        rcases ht with ht | ht
        · exact .inl ht
        · exact .inr (by simp [ht])))]
      simp only [firsts]
      rw [List.filter_cons_of_neg (by simpa using hs), List.filter_filter]
      congr 1
      apply List.filter_congr
      intro t _
      by_cases e : t = n
      · subst e; simp [hs]
      · simp [e]
    · rw [if_neg (fun e => hs (hse.mp e)), collectL_exact ns (ss ++ [n]) (fun q hq t ht => h q (by simp [hq]) t (by
        rcases ht with ht | ht
        · rcases List.mem_append.mp ht with ht | ht
          · exact .inl ht
          · exact .inr (by rw [List.mem_singleton.mp ht]; simp)
        · exact .inr (by simp [ht])))]
      simp only [firsts]
      rw [List.filter_cons_of_pos (by simpa using hs), List.filter_filter, List.append_assoc]
      simp only [List.cons_append, List.nil_append]
      congr 2
      apply List.filter_congr
      intro t _
      simp [Bool.and_comm, not_or]

/-- **C113** (formats; partial). The list of supported formats is the list of the names of drivers for
files, each once, in the order of registration, when no such name can be confused with another. Missing:
see `C113_formats_fails`. -/
theorem C113_formats_partial (ds : List Driver) (h : MapOk ds)
    (hc : ∀ q ∈ names .file ds, ∀ t ∈ names .file ds, ¬ Confused t q) :
    strings (supportedFormats ds) = firsts (names .file ds) := by
  rw [formats_eq h, collectL_exact _ _ (fun q hq t ht => by
    rcases ht with ht | ht
    · cases ht
    · exact hc q hq t ht)]
  simp

/-- **C113** (schemes; partial). The same for the schemes: names of the drivers for devices, then
"file". -/
theorem C113_schemes_partial (ds : List Driver) (h : MapOk ds)
    (hc : ∀ q ∈ names .device ds, ∀ t ∈ names .device ds, ¬ Confused t q) :
    strings (supportedSchemes ds) = firsts (names .device ds) ++ [str "file"] := by
  rw [schemes_eq h, collectL_exact _ _ (fun q hq t ht => by
    rcases ht with ht | ht
    · cases ht
    · exact hc q hq t ht)]
  simp

/-- **C113** (lists, any names). Whatever the names, each listed format is the name of a driver for files,
none is listed twice, the order is that of registration, and a name that is missing is the beginning of a
listed one. -/
theorem C113_formats_sound (ds : List Driver) (h : MapOk ds) :
    (strings (supportedFormats ds)).Sublist (names .file ds) ∧
    (strings (supportedFormats ds)).Nodup ∧
    ∀ q ∈ names .file ds, ∃ t ∈ strings (supportedFormats ds), t = q ∨ Confused t q := by
  rw [formats_eq h]
  obtain ⟨r, h1, h2, h3, h4⟩ := collectL_props (names .file ds) [] List.nodup_nil
  rw [h1]
  exact ⟨h2, h3, h4⟩

/-- **C113** (lists, any names). The same for the schemes, before the last one, which is "file". -/
theorem C113_schemes_sound (ds : List Driver) (h : MapOk ds) :
    ∃ l, strings (supportedSchemes ds) = l ++ [str "file"] ∧ l.Sublist (names .device ds) ∧ l.Nodup ∧
    ∀ q ∈ names .device ds, ∃ t ∈ l, t = q ∨ Confused t q := by
  rw [schemes_eq h]
  obtain ⟨r, h1, h2, h3, h4⟩ := collectL_props (names .device ds) [] List.nodup_nil
  exact ⟨collectL [] (names .device ds), rfl, by rw [h1]; exact ⟨h2, h3, h4⟩⟩

/-- **C113 fails** (formats): the names registered by sox for AIFF files are "aifc", "aiffc", "aiff", "aif";
the list has no "aiff", because the search for it stops at "aiffc". -/
theorem C113_formats_fails :
    let ds : List Driver := [⟨str "aifc", .file, 6, 0⟩, ⟨str "aiffc", .file, 6, 0⟩,
      ⟨str "aiff", .file, 6, 0⟩, ⟨str "aif", .file, 6, 0⟩]
    MapOk ds ∧ str "aiff" ∈ names .file ds ∧
    strings (supportedFormats ds) = [str "aifc", str "aiffc", str "aif"] := by
  refine ⟨⟨by decide, by decide +kernel⟩, by decide +kernel, by decide +kernel⟩

example := C113_formats_partial [⟨str "wav", .file, 6, 0⟩, ⟨str "flac", .file, 6, 0⟩,
  ⟨str "alsa", .device, 7, 1⟩, ⟨str "wav", .file, 6, 1⟩] ⟨by decide, by decide +kernel⟩
  (by unfold Confused; decide +kernel)
example := C113_schemes_partial [⟨str "pulse", .device, 7, 0⟩, ⟨str "core", .device, 7, 1⟩,
  ⟨str "au", .file, 6, 1⟩, ⟨str "core", .device, 6, 1⟩] ⟨by decide, by decide +kernel⟩
  (by unfold Confused; decide +kernel)
example : strings (supportedSchemes [⟨str "pulse", .device, 7, 0⟩, ⟨str "core", .device, 7, 1⟩,
    ⟨str "au", .file, 6, 1⟩, ⟨str "core", .device, 6, 1⟩]) = [str "pulse", str "core", str "file"] := by
  decide +kernel

end Verif.Backends
