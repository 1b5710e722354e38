import Verif.ReceiverRefresh.Spec
import Mathlib.Data.List.Nodup
import Mathlib.Data.List.Perm.Basic

/-!
# Lemmas
-/

namespace Verif.ReceiverRefresh

/-! ## Encodings -/

/-- All rates are positive. -/
def MapOk (m : Encodings) : Prop := ∀ e ∈ m, e.2 ≠ 0

theorem find_mem {m : Encodings} {pt r : Nat} (h : find m pt = some r) : (pt, r) ∈ m := by
  unfold find at h
  obtain ⟨e, he, hr⟩ := Option.map_eq_some_iff.mp h
  have h1 := List.find?_some he
  have h2 := List.mem_of_find?_eq_some he
  have : e = (pt, r) := by
    rcases e with ⟨a, b⟩
    simp at h1 hr
    rw [h1, hr]
  rw [← this]; exact h2

theorem find_append {m n : Encodings} {pt r : Nat} (h : find m pt = some r) : find (m ++ n) pt = some r := by
  unfold find at h ⊢
  obtain ⟨e, he, hr⟩ := Option.map_eq_some_iff.mp h
  rw [List.find?_append, he]
  simpa using hr

theorem find_register {m : Encodings} {e : Nat × Nat} {pt r : Nat} (h : find m pt = some r) : find (register m e) pt = some r := by
  unfold register
  split
  · exact h
  · exact find_append h

theorem find_registers (l : List (Nat × Nat)) : ∀ {m : Encodings} {pt r : Nat}, find m pt = some r → find (l.foldl register m) pt = some r := by
  induction l with
  | nil => exact fun h => h
  | cons e l ih => exact fun h => ih (find_register h)

theorem mapOk_register {m : Encodings} {e : Nat × Nat} (h : MapOk m) : MapOk (register m e) := by
  unfold register
  split
  · exact h
  · rename_i hn
    intro x hx
    rcases List.mem_append.mp hx with hx | hx
    · exact h x hx
    · rw [List.mem_singleton.mp hx]
      exact fun h0 => hn (.inr h0)

theorem mapOk_registers (l : List (Nat × Nat)) : ∀ {m : Encodings}, MapOk m → MapOk (l.foldl register m) := by
  induction l with
  | nil => exact fun h => h
  | cons e l ih => exact fun h => ih (mapOk_register h)

/-! ## Sessions -/

/-- What holds for every session: a source is known iff there are metrics, and then there is an encoding; nothing is known about repair packets. -/
structure Good (s : Session) : Prop where
  iff : s.audio.source.isSome = s.src.has
  started : s.audio.started = s.src.has
  enc : s.src.has = true → ∃ e, s.src.enc = some e
  rate : ∀ e, s.src.enc = some e → e.2 ≠ 0
  rsource : s.repair.source = none
  rhas : s.rep.has = false

theorem look_some {m : Encodings} {x : Meter} {pt r : Nat} (h : find m pt = some r) (hm : MapOk m) (hx : ∀ e, x.enc = some e → e.2 ≠ 0) :
    ∃ e, x.look m pt = some e ∧ e.1 = pt ∧ e.2 ≠ 0 := by
  have key : ∃ e : Nat × Nat, (find m pt).map (fun r => (pt, r)) = some e ∧ e.1 = pt ∧ e.2 ≠ 0 := ⟨(pt, r), by rw [h]; rfl, rfl, hm _ (find_mem h)⟩
  unfold Meter.look
  cases hxe : x.enc with
  | none => exact key
  | some e =>
    show ∃ e', (if e.1 = pt then some e else (find m pt).map fun r => (pt, r)) = some e' ∧ _
    by_cases he : e.1 = pt
    · exact ⟨e, if_pos he, he, hx e hxe⟩
    · rw [if_neg he]; exact key

theorem parse_audio {m : Encodings} {w : Wire} (h : (parse m w).audio = true) :
    ∃ pt src sn fec r, w = .source pt src sn fec ∧ find m pt = some r := by
  cases w with
  | repair => exact absurd h (by show ¬ false = true; decide)
  | source pt src sn fec =>
    obtain ⟨r, hr⟩ := Option.isSome_iff_exists.mp (show (find m pt).isSome = true from h)
    exact ⟨pt, src, sn, fec, r, rfl, hr⟩

theorem good_init (i : Nat) (fec : Bool) : Good ⟨i, fec, Route.init, Route.init, Meter.init, Meter.init⟩ :=
  ⟨rfl, rfl, (fun h => (by cases h)), (fun e h => (by cases h)), rfl, rfl⟩

theorem write_id (m : Encodings) (s : Session) (p : Packet) : (s.write m p).id = s.id := by
  unfold Session.write
  split
  · split <;> rfl
  · split
    · split <;> rfl
    · rfl

theorem allow_repair {r : Route} {p : Packet} (hp : p.rtp = none) (hr : r.source = none) : r.allow p = some ⟨none, true⟩ := by
  unfold Route.allow
  rw [hp, hr]

theorem good_write {m m' : Encodings} {s : Session} (h : Good s) (hm : MapOk m') (hsub : ∀ pt r, find m pt = some r → find m' pt = some r) (w : Wire) :
    Good (s.write m' (parse m w)) := by
  by_cases ha : (parse m w).audio = true
  · obtain ⟨pt, src, sn, fec, r, rfl, hr⟩ := parse_audio ha
    unfold Session.write
    rw [if_pos ha]
    obtain ⟨e, he1, he2, he3⟩ := look_some (x := s.src) (hsub pt r hr) hm h.rate
    have hw : s.src.write m' (parse m (.source pt src sn fec)) = ⟨some e, true, s.src.sn.update sn⟩ := by
      show (match s.src.look m' pt with
        | none => { s.src with enc := none }
        | some e => ⟨some e, true, s.src.sn.update sn⟩) = _
      rw [he1]
    cases hs : s.audio.source with
    | some k =>
      by_cases hk : k = src
      · have hal : s.audio.allow (parse m (.source pt src sn fec)) = some s.audio := by
          unfold Route.allow
          simp only [parse, hs, if_pos hk]
        have hst : s.audio.started = true := by rw [h.started, ← h.iff, hs]; rfl
        rw [hal]
        exact ⟨by rw [hw]; show s.audio.source.isSome = true; rw [hs]; rfl, by rw [hw]; exact hst, fun _ => ⟨e, by rw [hw]⟩, by
          intro e' h'; rw [hw] at h'; cases h'; exact he3, h.rsource, h.rhas⟩
      · have hal : s.audio.allow (parse m (.source pt src sn fec)) = none := by
          unfold Route.allow
          simp only [parse, hs, if_neg hk]
        rw [hal]; exact h
    | none =>
      have hst : s.audio.started = false := by rw [h.started, ← h.iff, hs]; rfl
      have hal : s.audio.allow (parse m (.source pt src sn fec)) = some ⟨some src, true⟩ := by
        unfold Route.allow
        simp [parse, hs, hst]
      rw [hal]
      exact ⟨by rw [hw]; rfl, by rw [hw], fun _ => ⟨e, by rw [hw]⟩, by intro e' h'; rw [hw] at h'; cases h'; exact he3, h.rsource, h.rhas⟩
  · unfold Session.write
    rw [if_neg ha]
    by_cases hr : (s.fec && (parse m w).repair) = true
    · rw [if_pos hr]
      cases w with
      | source pt src sn fec =>
        have : (s.fec && false) = true := hr
        simp at this
      | repair =>
        rw [allow_repair rfl h.rsource]
        exact ⟨h.iff, h.started, h.enc, h.rate, rfl, h.rhas⟩
    · rw [if_neg hr]; exact h

/-! ## Reports -/

/-- The report about the audio of a session. -/
theorem all_good {s : Session} (h : Good s) (me : Nat) (time : Int) : (s.all me time).length = s.num := by
  have hrep : one me time s.repair s.rep = [] := by unfold one; rw [h.rsource]
  have hn : (s.fec && s.repair.source.isSome && s.rep.has) = false := by rw [h.rsource]; simp
  unfold Session.all Session.num
  rw [hrep, hn, ite_self, List.append_nil]
  have hi := h.iff
  cases hs : s.audio.source with
  | none =>
    rw [hs] at hi
    have : one me time s.audio s.src = [] := by unfold one; rw [hs]
    rw [this]; rfl
  | some k =>
    rw [hs] at hi
    have hh : s.src.has = true := hi.symm
    obtain ⟨e, he⟩ := h.enc hh
    have : one me time s.audio s.src = [⟨me, k, time, e.2, s.src.sn.extFirst, s.src.sn.extLast⟩] := by unfold one; rw [hs, hh, he]
    rw [this, hh]; rfl

theorem all_mem {s : Session} (h : Good s) {me : Nat} {time : Int} {r : Report} (hr : r ∈ s.all me time) :
    ∃ k e, s.audio.source = some k ∧ s.src.enc = some e ∧ r = ⟨me, k, time, e.2, s.src.sn.extFirst, s.src.sn.extLast⟩ := by
  have hrep : one me time s.repair s.rep = [] := by unfold one; rw [h.rsource]
  unfold Session.all at hr
  rw [hrep, ite_self, List.append_nil] at hr
  cases hs : s.audio.source with
  | none => unfold one at hr; rw [hs] at hr; cases hr
  | some k =>
    have hh : s.src.has = true := by rw [← h.iff, hs]; rfl
    obtain ⟨e, he⟩ := h.enc hh
    unfold one at hr; rw [hs, hh, he] at hr
    exact ⟨k, e, rfl, he, List.mem_singleton.mp hr⟩

theorem all_sender {s : Session} (h : Good s) (me : Nat) (time : Int) : (s.all me time).map Report.sender = s.audio.source.toList := by
  have hrep : one me time s.repair s.rep = [] := by unfold one; rw [h.rsource]
  unfold Session.all
  rw [hrep, ite_self, List.append_nil]
  cases hs : s.audio.source with
  | none => unfold one; rw [hs]; rfl
  | some k =>
    have hh : s.src.has = true := by rw [← h.iff, hs]; rfl
    obtain ⟨e, he⟩ := h.enc hh
    unfold one; rw [hs, hh, he]; rfl

theorem query_eq (me : Nat) (time : Int) : ∀ (l : List Session) (b : List Report), (∀ s ∈ l, Good s) → b.length = numStreams l →
    query me time l b = l.flatMap fun s => s.all me time := by
  intro l
  induction l with
  | nil =>
    intro b _ hb
    show b = []
    exact List.eq_nil_of_length_eq_zero hb
  | cons s l ih =>
    intro b hg hb
    have hs := hg s List.mem_cons_self
    have hsum : b.length = s.num + numStreams l := hb
    have hall := all_good hs me time
    rw [List.flatMap_cons]
    by_cases h0 : b.length = 0
    · have h1 : s.num = 0 := by omega
      have h2 : numStreams l = 0 := by omega
      have hb0 : b = [] := List.eq_nil_of_length_eq_zero h0
      have e1 : s.all me time = [] := List.eq_nil_of_length_eq_zero (by rw [hall, h1])
      have e2 := ih [] (fun x hx => hg x (List.mem_cons_of_mem _ hx)) (by rw [h2]; rfl)
      rw [e1, List.nil_append, ← e2]
      show (if b.length = 0 then b else _) = _
      rw [if_pos h0, hb0]
      cases l with
      | nil => rfl
      | cons y ys => rfl
    · show (if b.length = 0 then b else s.gen me time (b.take (min s.num b.length)) ++ query me time l (b.drop (min s.num b.length))) = _
      have hmin : min s.num b.length = s.num := by omega
      rw [if_neg h0, hmin, ih _ (fun x hx => hg x (List.mem_cons_of_mem _ hx)) (by rw [List.length_drop]; omega)]
      congr 1
      have hl : (b.take s.num).length = s.num := by rw [List.length_take]; omega
      unfold Session.gen
      rw [hl, List.take_of_length_le (by omega), hall, List.drop_eq_nil_of_le (by omega), List.append_nil]

theorem resize_length (b : List Report) (n : Nat) : (resize b n).length = n := by
  unfold resize
  rw [List.length_append, List.length_take, List.length_replicate]
  omega

theorem ask_eq {s : Slot} (h : ∀ x ∈ s.sessions, Good x) (now : Int) :
    s.ask now = some { s with buf := s.sessions.flatMap fun x => x.all s.ssrc (s.fresh now), time := s.fresh now } := by
  have hq := query_eq s.ssrc (s.fresh now) s.sessions (resize s.buf (numStreams s.sessions)) h (resize_length _ _)
  unfold Slot.ask
  simp only []
  rw [hq, if_pos]
  rw [List.all_eq_true]
  intro r hr
  obtain ⟨x, hx, hr⟩ := List.mem_flatMap.mp hr
  obtain ⟨k, e, _, he, rfl⟩ := all_mem (h x hx) hr
  exact decide_eq_true ⟨rfl, rfl, (h x hx).rate e he⟩

/-! ## Removal of sessions -/

/-- Sessions of a slot are different and all of them are inputs of the mixer. -/
structure WOk (w : Work) : Prop where
  nodup : (w.sessions.map (·.id)).Nodup
  mixer : w.mixer.Nodup
  sub : ∀ s ∈ w.sessions, s.id ∈ w.mixer

/-- `w'` comes from `w` by removal of the sessions with property `P`. -/
structure Removed (w w' : Work) (P : Nat → Bool) : Prop where
  sessions : w'.sessions = w.sessions.filter fun s => !P s.id
  mixer : w'.mixer = w.mixer.filter fun i => !(P i && (w.sessions.map (·.id)).contains i)
  active : w'.active - w'.mixer.length = w.active - w.mixer.length

theorem Removed.refl (w : Work) : Removed w w fun _ => false :=
  ⟨by simp, by simp, rfl⟩

theorem Removed.ok {w w' : Work} {P : Nat → Bool} (h : Removed w w' P) (hw : WOk w) : WOk w' := by
  refine ⟨?_, ?_, ?_⟩
  · rw [h.sessions]
    exact hw.nodup.sublist (List.filter_sublist.map _)
  · rw [h.mixer]; exact hw.mixer.filter _
  · intro s hs
    rw [h.sessions] at hs
    obtain ⟨h1, h2⟩ := List.mem_filter.mp hs
    rw [h.mixer]
    refine List.mem_filter.mpr ⟨hw.sub s h1, ?_⟩
    cases hp : P s.id with
    | false => rfl
    | true => rw [hp] at h2; cases h2

theorem Removed.trans {w w' w'' : Work} {P Q : Nat → Bool} (h : Removed w w' P) (g : Removed w' w'' Q) : Removed w w'' fun i => P i || Q i := by
  refine ⟨?_, ?_, g.active.trans h.active⟩
  · rw [g.sessions, h.sessions, List.filter_filter]
    apply List.filter_congr
    intro s _
    cases P s.id <;> cases Q s.id <;> rfl
  · rw [g.mixer, h.mixer, List.filter_filter]
    apply List.filter_congr
    intro i _
    have : (w'.sessions.map (·.id)).contains i = (!P i && (w.sessions.map (·.id)).contains i) := by
      rw [h.sessions, Bool.eq_iff_iff]
      simp only [List.contains_iff_mem, List.mem_map, List.mem_filter, Bool.and_eq_true]
      constructor
      · rintro ⟨s, ⟨h1, h2⟩, rfl⟩; exact ⟨h2, s, h1, rfl⟩
      · rintro ⟨h2, s, h1, rfl⟩; exact ⟨s, ⟨h1, h2⟩, rfl⟩
    rw [this]
    cases P i <;> cases Q i <;> cases (w.sessions.map (·.id)).contains i <;> rfl

theorem Removed.congr {w w' : Work} {P Q : Nat → Bool} (h : Removed w w' P) (hpq : ∀ s ∈ w.sessions, P s.id = Q s.id) : Removed w w' Q := by
  refine ⟨?_, ?_, h.active⟩
  · rw [h.sessions]
    apply List.filter_congr
    intro s hs; rw [hpq s hs]
  · rw [h.mixer]
    apply List.filter_congr
    intro i _
    by_cases hi : i ∈ w.sessions.map (·.id)
    · obtain ⟨s, hs, rfl⟩ := List.mem_map.mp hi
      rw [hpq s hs]
    · have : (w.sessions.map (·.id)).contains i = false := by
        rw [Bool.eq_false_iff]; intro hc; exact hi (List.contains_iff_mem.mp hc)
      rw [this, Bool.and_false, Bool.and_false]

theorem remove_ok {w : Work} {s : Session} (hw : WOk w) (hs : s ∈ w.sessions) : ∃ w', w.remove s = some w' ∧ Removed w w' fun i => i == s.id := by
  have hm := hw.sub s hs
  refine ⟨⟨w.sessions.erase s, w.mixer.erase s.id, w.active - 1⟩, if_pos ⟨hm, hs⟩, ?_, ?_, ?_⟩
  · show w.sessions.erase s = _
    have hn : w.sessions.Nodup := List.Nodup.of_map _ hw.nodup
    rw [hn.erase_eq_filter]
    apply List.filter_congr
    intro x hx
    by_cases hxs : x = s
    · rw [hxs, bne_self_eq_false, beq_self_eq_true]; rfl
    · have hb : (x.id == s.id) = false := beq_eq_false_iff_ne.mpr fun he => hxs (List.inj_on_of_nodup_map hw.nodup hx hs he)
      have hb' : (x != s) = true := bne_iff_ne.mpr hxs
      rw [hb, hb']; rfl
  · show w.mixer.erase s.id = _
    rw [hw.mixer.erase_eq_filter]
    apply List.filter_congr
    intro i _
    by_cases hi : i = s.id
    · subst hi
      have : (w.sessions.map (·.id)).contains s.id = true := List.contains_iff_mem.mpr (List.mem_map_of_mem hs)
      rw [this, bne_self_eq_false, beq_self_eq_true]; rfl
    · have hb : (i == s.id) = false := beq_eq_false_iff_ne.mpr hi
      have hb' : (i != s.id) = true := bne_iff_ne.mpr hi
      rw [hb, hb']; rfl
  · show w.active - 1 - ((w.mixer.erase s.id).length : Int) = _
    have := List.length_pos_of_mem hm
    rw [List.length_erase_of_mem hm]
    omega

theorem sweep_ok (dead : Nat → Bool) : ∀ (l : List Session) (w : Work), WOk w → (∀ s ∈ l, s ∈ w.sessions) → (l.map (·.id)).Nodup →
    ∃ w', w.sweep dead l = some w' ∧ Removed w w' fun i => dead i && (l.map (·.id)).contains i := by
  intro l
  induction l with
  | nil => exact fun w _ _ _ => ⟨w, rfl, (Removed.refl w).congr (by intro s _; simp)⟩
  | cons s l ih =>
    intro w hw hsub hnd
    have hnd' : (s.id :: l.map (·.id)).Nodup := hnd
    obtain ⟨hs1, hs2⟩ := List.nodup_cons.mp hnd'
    show ∃ w', (if dead s.id then (match w.remove s with
      | some w' => w'.sweep dead l
      | none => none) else w.sweep dead l) = some w' ∧ _
    by_cases hd : dead s.id = true
    · rw [if_pos hd]
      obtain ⟨w1, e1, r1⟩ := remove_ok hw (hsub s List.mem_cons_self)
      rw [e1]
      obtain ⟨w2, e2, r2⟩ := ih w1 (r1.ok hw) (by
        intro x hx
        rw [r1.sessions]
        refine List.mem_filter.mpr ⟨hsub x (List.mem_cons_of_mem _ hx), ?_⟩
        have : x.id ≠ s.id := fun he => hs1 (he ▸ List.mem_map_of_mem hx)
        simp [this]) hs2
      refine ⟨w2, e2, (r1.trans r2).congr ?_⟩
      intro x _
      rw [List.map_cons, List.contains_cons]
      by_cases hx : x.id = s.id
      · rw [hx, hd]; simp
      · have hb : (x.id == s.id) = false := beq_eq_false_iff_ne.mpr hx
        rw [hb, Bool.false_or, Bool.false_or]
    · rw [if_neg hd]
      obtain ⟨w2, e2, r2⟩ := ih w hw (fun x hx => hsub x (List.mem_cons_of_mem _ hx)) hs2
      refine ⟨w2, e2, r2.congr ?_⟩
      intro x _
      rw [List.map_cons, List.contains_cons]
      by_cases hx : x.id = s.id
      · have : dead x.id = false := by rw [hx]; simpa using hd
        rw [this]; rfl
      · have hb : (x.id == s.id) = false := beq_eq_false_iff_ne.mpr hx
        rw [hb, Bool.false_or]

theorem sweep_all (dead : Nat → Bool) (w : Work) (hw : WOk w) : ∃ w', w.sweep dead w.sessions = some w' ∧ Removed w w' dead := by
  obtain ⟨w', e, r⟩ := sweep_ok dead w.sessions w hw (fun _ h => h) hw.nodup
  refine ⟨w', e, r.congr ?_⟩
  intro s hs
  have : (w.sessions.map (·.id)).contains s.id = true := List.contains_iff_mem.mpr (List.mem_map_of_mem hs)
  simp only [this, Bool.and_true]

theorem drops_ok : ∀ (l : List Nat) (w : Work), WOk w → ∃ w', w.drops l = some w' ∧ Removed w w' fun i => l.contains i := by
  intro l
  induction l with
  | nil => exact fun w _ => ⟨w, rfl, (Removed.refl w).congr (fun _ _ => rfl)⟩
  | cons i l ih =>
    intro w hw
    show ∃ w', (match w.sessions.find? fun x => x.id = i with
      | none => w.drops l
      | some s =>
        match w.remove s with
        | some w' => w'.drops l
        | none => none) = some w' ∧ _
    cases hf : w.sessions.find? fun x => x.id = i with
    | none =>
      obtain ⟨w', e, r⟩ := ih w hw
      refine ⟨w', e, r.congr ?_⟩
      intro s hs
      have := List.find?_eq_none.mp hf s hs
      have hne : s.id ≠ i := by simpa using this
      have hb : (s.id == i) = false := beq_eq_false_iff_ne.mpr hne
      rw [List.contains_cons, hb, Bool.false_or]
    | some s =>
      have hs := List.mem_of_find?_eq_some hf
      have hi : s.id = i := by simpa using List.find?_some hf
      obtain ⟨w1, e1, r1⟩ := remove_ok hw hs
      obtain ⟨w2, e2, r2⟩ := ih w1 (r1.ok hw)
      refine ⟨w2, by simp only [e1, e2], (r1.trans r2).congr ?_⟩
      intro x _
      rw [List.contains_cons, hi]

theorem clear_ok : ∀ (n : Nat) (w : Work), WOk w → w.sessions.length = n → ∃ w', w.clear n = some w' ∧ Removed w w' fun _ => true := by
  intro n
  induction n with
  | zero =>
    intro w _ hl
    have h0 : w.sessions = [] := List.eq_nil_of_length_eq_zero hl
    exact ⟨w, rfl, (Removed.refl w).congr (by rw [h0]; intro s hs; cases hs)⟩
  | succ n ih =>
    intro w hw hl
    have hne : w.sessions ≠ [] := fun h => by rw [h] at hl; cases hl
    have hs := List.getLast_mem hne
    obtain ⟨w1, e1, r1⟩ := remove_ok hw hs
    have hl1 : w1.sessions.length = n := by
      have e : w1 = ⟨w.sessions.erase (w.sessions.getLast hne), w.mixer.erase (w.sessions.getLast hne).id, w.active - 1⟩ := by
        have := e1
        unfold Work.remove at this
        rw [if_pos ⟨hw.sub _ hs, hs⟩] at this
        exact (Option.some.inj this).symm
      rw [e]
      show (w.sessions.erase _).length = n
      rw [List.length_erase_of_mem hs]; omega
    obtain ⟨w2, e2, r2⟩ := ih w1 (r1.ok hw) hl1
    refine ⟨w2, ?_, (r1.trans r2).congr (fun _ _ => Bool.or_true _)⟩
    show (match w.sessions.getLast? with
      | none => some w
      | some s =>
        match w.remove s with
        | some w' => w'.clear n
        | none => none) = some w2
    rw [List.getLast?_eq_some_getLast hne]
    simp only [e1, e2]

end Verif.ReceiverRefresh
