import Mathlib.Tactic.SplitIfs
import Verif.Sdp.Model

/-! Properties C22 and C60. -/

namespace Verif.Sdp

open Verif.Pct (Byte ch isDigit)
open Verif.EndpointUri (str decimal)

/-- A number as written: digits, at least one. -/
def Digits (ds : List Byte) : Prop := ds ≠ [] ∧ ∀ c ∈ ds, isDigit c = true

/-- The text of a media field: type, port, optional number of ports, transport, payload ids. -/
def line (t : MediaType) (port : List Byte) (nb : Option (List Byte)) (fmts : List (List Byte)) : List Byte :=
  t.word ++ (str " " ++ (port ++ ((match nb with | none => [] | some n => str "/" ++ n) ++
    (str " RTP/AVP" ++ fmts.flatMap (fun f => str " " ++ f)))))

theorem digit_token : ∀ c : Byte, isDigit c = true → isToken c = true ∧ c ≠ ch '-' ∧ c ≠ ch '+' := by decide +kernel

theorem takeWhile_stop {f : Byte → Bool} {ds rest : List Byte} (hd : ∀ c ∈ ds, f c = true)
    (hr : ∀ c, rest.head? = some c → f c = false) : (ds ++ rest).takeWhile f = ds := by
  induction ds with
  | nil =>
    cases rest with
    | nil => rfl
    | cons c rest => simp [hr c rfl]
  | cons d ds ih =>
    rw [List.cons_append, List.takeWhile_cons, if_pos (hd d (List.mem_cons_self ..)),
      ih (fun c hc => hd c (List.mem_cons_of_mem _ hc))]

theorem number_digits {ds rest : List Byte} (hd : Digits ds) (hr : ∀ c, rest.head? = some c → isDigit c = false) :
    number (ds ++ rest) ds.length = if decimal ds < 2 ^ 63 - 1 then some (decimal ds : Int) else none := by
  have hs : strtol (ds ++ rest) =
      (if decimal ds > 2 ^ 63 - 1 then 2 ^ 63 - 1 else (decimal ds : Int), ds.length) := by
    have htw := takeWhile_stop hd.2 hr
    obtain ⟨d, ds', rfl⟩ := List.exists_cons_of_ne_nil hd.1
    have hdig := digit_token d (hd.2 d (List.mem_cons_self ..))
    unfold strtol
    simp only [List.cons_append, List.head?_cons, Option.some.injEq, hdig.2.1, hdig.2.2, or_self, if_false, List.drop_zero]
    rw [← List.cons_append, htw, if_neg hd.1, Nat.zero_add]
  unfold number
  rw [hs]
  obtain ⟨v, hv⟩ : ∃ v, v = decimal ds := ⟨_, rfl⟩
  rw [← hv]
  simp only [ne_eq, not_true_eq_false, or_false]
  by_cases h : v < 2 ^ 63 - 1
  · rw [if_pos h, if_neg (show ¬ v > 2 ^ 63 - 1 by omega), if_neg (by omega)]
  · rw [if_neg h]
    rw [if_pos]
    split_ifs with h2
    · exact Or.inl rfl
    · left; omega

theorem portField_digits {m : Media} {ds rest : List Byte} (hd : Digits ds)
    (hr : ∀ c, rest.head? = some c → isDigit c = false) :
    portField m (ds ++ rest) = if decimal ds ≤ 65535 then some ({ m with port := decimal ds }, rest) else none := by
  unfold portField
  simp only [takeWhile_stop hd.2 hr]
  rw [if_neg hd.1]
  unfold setMediaPort
  rw [number_digits hd hr, List.drop_left]
  obtain ⟨v, hv⟩ : ∃ v, v = decimal ds := ⟨_, rfl⟩
  rw [← hv]
  unfold Media.setPort
  by_cases h : v ≤ 65535
  · rw [if_pos h, if_pos (show v < 2 ^ 63 - 1 by omega)]
    simp only
    rw [if_neg (by omega)]
  · rw [if_neg h]
    by_cases h2 : v < 2 ^ 63 - 1
    · rw [if_pos h2]
      simp only
      rw [if_pos (by omega)]
    · rw [if_neg h2]

theorem formats_digits {fmts : List (List Byte)} : ∀ {m : Media}, (∀ f ∈ fmts, Digits f) →
    formats m (fmts.flatMap (fun f => str " " ++ f)) =
      if ∀ f ∈ fmts, decimal f < 2 ^ 63 - 1 then
        some { m with payloadIds := m.payloadIds ++ fmts.map (fun f => decimal f % 2 ^ 32) } else none := by
  induction fmts with
  | nil => intro m _; simp [formats]
  | cons f fmts ih =>
    intro m hf
    have hf1 := hf f (List.mem_cons_self ..)
    have hr : ∀ g : Byte → Bool, g (ch ' ') = false → ∀ c, (fmts.flatMap (fun f => str " " ++ f)).head? = some c → g c = false := by
      intro g hg c hc
      cases fmts with
      | nil => simp at hc
      | cons f2 fmts =>
        have : str " " = [ch ' '] := rfl
        simp only [List.flatMap_cons, this, List.singleton_append, List.cons_append, List.head?_cons, Option.some.injEq] at hc
        rw [← hc, hg]
    have e1 : (f :: fmts).flatMap (fun f => str " " ++ f) = ch ' ' :: (f ++ fmts.flatMap (fun f => str " " ++ f)) := by
      have : str " " = [ch ' '] := rfl
      simp [this]
    rw [e1, formats, if_pos rfl]
    simp only [takeWhile_stop (fun c hc => (digit_token c (hf1.2 c hc)).1) (hr isToken (by decide +kernel))]
    rw [if_neg hf1.1]
    unfold addMediaPayloadId
    rw [number_digits hf1 (hr isDigit (by decide +kernel)), List.drop_left]
    by_cases h : decimal f < 2 ^ 63 - 1
    · rw [if_pos h]
      simp only
      rw [ih (fun g hg => hf g (List.mem_cons_of_mem _ hg))]
      have hmod : ((decimal f : Int) % 2 ^ 32).toNat = decimal f % 2 ^ 32 := by
        generalize decimal f = v; omega
      by_cases h2 : ∀ g ∈ fmts, decimal g < 2 ^ 63 - 1
      · rw [if_pos h2, if_pos]
        · simp only [Media.addPayloadId, hmod, List.map_cons, List.append_assoc, List.singleton_append]
        · intro g hg
          rcases List.mem_cons.1 hg with rfl | hg
          · exact h
          · exact h2 g hg
      · rw [if_neg h2, if_neg]
        intro h3
        exact h2 fun g hg => h3 g (List.mem_cons_of_mem _ hg)
    · rw [if_neg h, if_neg]
      intro h3
      exact h (h3 f (List.mem_cons_self ..))

theorem literal_append (w s : List Byte) : literal w (w ++ s) = some s := by
  unfold literal
  rw [if_pos (by simp), List.drop_left]

theorem mediaType_word (t : MediaType) (s : List Byte) : mediaType (t.word ++ s) = some (t, s) := by
  cases t <;> rfl

/-- What a media field gives, when its numbers are written in digits. -/
theorem C22_exact {t : MediaType} {port : List Byte} {nb : Option (List Byte)} {fmts : List (List Byte)} (hp : Digits port)
    (hn : ∀ n, nb = some n → Digits n) (hf : fmts ≠ [] ∧ ∀ f ∈ fmts, Digits f) :
    parseMedia (line t port nb fmts) =
      if decimal port ≤ 65535 ∧ (∀ n, nb = some n → decimal n ≤ 65535) ∧ ∀ f ∈ fmts, decimal f < 2 ^ 63 - 1 then
        some ⟨t, decimal (nb.getD port), 0, fmts.map (fun f => decimal f % 2 ^ 32)⟩
      else none := by
  have hne : fmts.flatMap (fun f => str " " ++ f) ≠ [] := by
    obtain ⟨f, fs, e⟩ := List.exists_cons_of_ne_nil hf.1
    have : str " " = [ch ' '] := rfl
    rw [e]; simp [this]
  have hsp : ∀ (x : List Byte), ∀ c, (str " RTP/AVP" ++ x).head? = some c → isDigit c = false := by
    intro x c hc
    have : (str " RTP/AVP" ++ x).head? = some (ch ' ') := rfl
    rw [this, Option.some.injEq] at hc
    rw [← hc]; decide +kernel
  have hformats := fun m => formats_digits (m := m) hf.2
  unfold parseMedia line
  rw [mediaType_word]
  simp only [Option.bind_eq_bind, Option.bind_some]
  rw [literal_append, Option.bind_some]
  cases nb with
  | none =>
    simp only [List.nil_append]
    rw [portField_digits hp (hsp _)]
    by_cases h : decimal port ≤ 65535
    · rw [if_pos h, Option.bind_some]
      have hm : ∀ (m : Media) (x : List Byte), nbPortsField m (str " RTP/AVP" ++ x) = some (m, str " RTP/AVP" ++ x) := fun m x => rfl
      simp only
      rw [hm, Option.bind_some]
      simp only
      rw [literal_append, Option.bind_some, if_neg hne, hformats]
      by_cases h2 : ∀ f ∈ fmts, decimal f < 2 ^ 63 - 1
      · rw [if_pos h2, if_pos ⟨h, by simp, h2⟩]; simp
      · rw [if_neg h2, if_neg (fun hc => h2 hc.2.2)]
    · rw [if_neg h, if_neg (fun hc => h hc.1)]; rfl
  | some n =>
    have hn' := hn n rfl
    have hsl : ∀ c, ((str "/" ++ n) ++ (str " RTP/AVP" ++ fmts.flatMap (fun f => str " " ++ f))).head? = some c →
        isDigit c = false := by
      intro c hc
      have : ((str "/" ++ n) ++ (str " RTP/AVP" ++ fmts.flatMap (fun f => str " " ++ f))).head? = some (ch '/') := rfl
      rw [this, Option.some.injEq] at hc
      rw [← hc]; decide +kernel
    simp only
    rw [portField_digits hp hsl]
    by_cases h : decimal port ≤ 65535
    · rw [if_pos h, Option.bind_some]
      have hm : ∀ (m : Media) (x : List Byte), nbPortsField m (str "/" ++ n ++ x) = portField m (n ++ x) := fun m x => rfl
      simp only
      rw [hm, portField_digits hn' (hsp _)]
      by_cases h3 : decimal n ≤ 65535
      · rw [if_pos h3, Option.bind_some]
        simp only
        rw [literal_append, Option.bind_some, if_neg hne, hformats]
        by_cases h2 : ∀ f ∈ fmts, decimal f < 2 ^ 63 - 1
        · rw [if_pos h2, if_pos ⟨h, fun k hk => by rw [Option.some.injEq] at hk; rw [← hk]; exact h3, h2⟩]; simp
        · rw [if_neg h2, if_neg (fun hc => h2 hc.2.2)]
      · rw [if_neg h3, if_neg (fun hc => h3 (hc.2.1 n rfl))]; rfl
    · rw [if_neg h, if_neg (fun hc => h hc.1)]; rfl

/-- **C22** (partial). An accepted media field without a number of ports gives the port written in it, which
is in 0..65535. For fields with a number of ports see `C22_nb_ports_fails`. -/
theorem C22_port_partial {t : MediaType} {port : List Byte} {fmts : List (List Byte)} {m : Media} (hp : Digits port)
    (hf : fmts ≠ [] ∧ ∀ f ∈ fmts, Digits f) (h : parseMedia (line t port none fmts) = some m) :
    m.port = decimal port ∧ decimal port ≤ 65535 ∧ m.type = t := by
  rw [C22_exact hp (by simp) hf] at h
  split_ifs at h with h1
  simp only [Option.some.injEq] at h
  rw [← h]
  exact ⟨rfl, h1.1, rfl⟩

/-- **C22** fails for every accepted media field with a number of ports: the port is the number of ports, and
the number of ports is zero. -/
theorem C22_nb_ports_fails {t : MediaType} {port n : List Byte} {fmts : List (List Byte)} {m : Media} (hp : Digits port)
    (hn : Digits n) (hf : fmts ≠ [] ∧ ∀ f ∈ fmts, Digits f) (h : parseMedia (line t port (some n) fmts) = some m) :
    m.port = decimal n ∧ m.nbPorts = 0 := by
  rw [C22_exact hp (by simpa using hn) hf] at h
  split_ifs at h with h1
  simp only [Option.some.injEq] at h
  rw [← h]
  exact ⟨rfl, rfl⟩

example : parseMedia (str "audio 5000/2 RTP/AVP 10") = some ⟨.audio, 2, 0, [10]⟩ := by decide +kernel
example : parseMedia (str "video 5000 RTP/AVP 10 11") = some ⟨.video, 5000, 0, [10, 11]⟩ := by decide +kernel
example : line .audio (str "5000") (some (str "2")) [str "10"] = str "audio 5000/2 RTP/AVP 10" ∧ Digits (str "5000") := by
  unfold Digits; decide +kernel
example : parseMedia (str "audio 65536 RTP/AVP 10") = none := by decide +kernel

/-- **C60** (partial). The payload ids of an accepted media field are the numbers written in it, in order,
if these are written in digits and below 2^32. -/
theorem C60_payload_ids_partial {t : MediaType} {port : List Byte} {nb : Option (List Byte)} {fmts : List (List Byte)}
    {m : Media} (hp : Digits port) (hn : ∀ n, nb = some n → Digits n) (hf : fmts ≠ [] ∧ ∀ f ∈ fmts, Digits f)
    (hs : ∀ f ∈ fmts, decimal f < 2 ^ 32) (h : parseMedia (line t port nb fmts) = some m) :
    m.payloadIds = fmts.map decimal := by
  rw [C22_exact hp hn hf] at h
  split_ifs at h with h1
  simp only [Option.some.injEq] at h
  rw [← h]
  refine List.map_congr_left fun f hfm => Nat.mod_eq_of_lt (hs f hfm)

/-- **C60** fails: larger numbers and negative numbers are accepted and give other ids. -/
theorem C60_payload_ids_fails :
    parseMedia (str "audio 5000 RTP/AVP 4294967306") = some ⟨.audio, 5000, 0, [10]⟩ ∧
    parseMedia (str "audio 5000 RTP/AVP -5") = some ⟨.audio, 5000, 0, [4294967291]⟩ := by decide +kernel

end Verif.Sdp
