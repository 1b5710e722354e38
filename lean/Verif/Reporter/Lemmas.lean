import Verif.Reporter.Spec
import Mathlib.Data.List.Perm.Basic
import Mathlib.Data.List.Nodup

/-!
# RTCP reporter: streams and events
-/

namespace Verif.Reporter

theorem cons_filter_perm {l : List Nat} {a : Nat} (hn : l.Nodup) (ha : a ∈ l) : (a :: l.filter (fun i => i ≠ a)).Perm l := by
  have e : l.filter (fun i => i ≠ a) = l.erase a := by
    rw [hn.erase_eq_filter a]
    apply List.filter_congr
    intro x _
    by_cases h : x = a <;> simp [h]
  rw [e]
  exact (List.perm_cons_erase ha).symm

/-- Facts about maps and lists that always hold. -/
structure Base (s : St) : Prop where
  ids : (s.streams.map (·.id)).Nodup
  keys : (s.streams.map (·.ssrc)).Nodup
  fresh : ∀ x ∈ s.streams, x.id < s.next
  lru : s.lru.Perm (s.streams.map (·.id))
  akeys : (s.addrs.map (·.addr)).Nodup
  alru : s.addrLru.Perm (s.addrs.map (·.addr))

/-- What calls between `begin` and `end` do: addresses do not change, and if streams with reports disappear or move, the
index is rebuilt. -/
structure Grow (M : List Nat) (s s' : St) : Prop where
  base : Base s → Base s'
  cname : s'.cname = s.cname
  dest : s'.dest = s.dest
  timeout : s'.timeout = s.timeout
  hasSend : s'.hasSend = s.hasSend
  recvs : s'.recvs = s.recvs
  addrs : s'.addrs = s.addrs
  addrLru : s'.addrLru = s.addrLru
  index : s'.index = s.index
  time : s'.time = s.time
  rebuild : s'.rebuild = false → s.rebuild = false
  keep : s'.rebuild = false → ∀ x ∈ s.streams, ∃ y ∈ s'.streams, y.id = x.id ∧ y.ssrc = x.ssrc ∧ y.report = x.report
  named : (∀ x ∈ s.streams, x.ssrc ∈ M) → ∀ x ∈ s'.streams, x.ssrc ∈ M

theorem Grow.refl (M : List Nat) (s : St) : Grow M s s :=
  ⟨id, rfl, rfl, rfl, rfl, rfl, rfl, rfl, rfl, rfl, id, fun _ x hx => ⟨x, hx, rfl, rfl, rfl⟩, id⟩

theorem Grow.trans {M : List Nat} {a b c : St} (h1 : Grow M a b) (h2 : Grow M b c) : Grow M a c where
  base h := h2.base (h1.base h)
  cname := h2.cname.trans h1.cname
  dest := h2.dest.trans h1.dest
  timeout := h2.timeout.trans h1.timeout
  hasSend := h2.hasSend.trans h1.hasSend
  recvs := h2.recvs.trans h1.recvs
  addrs := h2.addrs.trans h1.addrs
  addrLru := h2.addrLru.trans h1.addrLru
  index := h2.index.trans h1.index
  time := h2.time.trans h1.time
  rebuild h := h1.rebuild (h2.rebuild h)
  keep h x hx := by
    obtain ⟨y, hy, e1, e2, e3⟩ := h1.keep (h2.rebuild h) x hx
    obtain ⟨z, hz, f1, f2, f3⟩ := h2.keep h y hy
    exact ⟨z, hz, f1.trans e1, f2.trans e2, f3.trans e3⟩
  named h := h2.named (h1.named h)

theorem find_some {s : St} {k : Nat} {x : Stream} (h : s.find k = some x) : x ∈ s.streams ∧ x.ssrc = k := by
  have h1 := List.mem_of_find?_eq_some h
  have h2 := List.find?_some h
  exact ⟨h1, of_decide_eq_true h2⟩

theorem find_none {s : St} {k : Nat} (h : s.find k = none) : ∀ x ∈ s.streams, x.ssrc ≠ k := by
  intro x hx e
  have := List.find?_eq_none.mp h x hx
  simp [e] at this

theorem find_of_mem {s : St} (hb : (s.streams.map (·.ssrc)).Nodup) {x : Stream} (hx : x ∈ s.streams) : s.find x.ssrc = some x := by
  cases h : s.find x.ssrc with
  | none => exact absurd rfl (find_none h x hx)
  | some y =>
    obtain ⟨hy, e⟩ := find_some h
    rw [List.inj_on_of_nodup_map hb hy hx e]

theorem findId_of_mem {s : St} (hb : (s.streams.map (·.id)).Nodup) {x : Stream} (hx : x ∈ s.streams) :
    s.streams.find? (fun y => y.id = x.id) = some x := by
  cases h : s.streams.find? (fun y => y.id = x.id) with
  | none =>
    have := List.find?_eq_none.mp h x hx
    simp at this
  | some y =>
    have h1 := List.mem_of_find?_eq_some h
    have h2 := List.find?_some h
    have h2 : y.id = x.id := of_decide_eq_true h2
    rw [List.inj_on_of_nodup_map hb h1 hx h2]

/-! ## Elementary steps -/

theorem edit_ids (s : St) (k : Nat) (f : Stream → Stream) (h1 : ∀ x, (f x).id = x.id) :
    (s.edit k f).streams.map (·.id) = s.streams.map (·.id) := by
  simp only [St.edit, List.map_map]
  apply List.map_congr_left
  intro x _
  simp only [Function.comp]
  by_cases hx : x.ssrc = k
  · rw [if_pos hx, h1]
  · rw [if_neg hx]

theorem edit_keys (s : St) (k : Nat) (f : Stream → Stream) (h2 : ∀ x, (f x).ssrc = x.ssrc) :
    (s.edit k f).streams.map (·.ssrc) = s.streams.map (·.ssrc) := by
  simp only [St.edit, List.map_map]
  apply List.map_congr_left
  intro x _
  simp only [Function.comp]
  by_cases hx : x.ssrc = k
  · rw [if_pos hx, h2]
  · rw [if_neg hx]

theorem base_edit {s : St} (hb : Base s) (k : Nat) (f : Stream → Stream)
    (h1 : ∀ x, (f x).id = x.id) (h2 : ∀ x, (f x).ssrc = x.ssrc) : Base (s.edit k f) := by
  have ei := edit_ids s k f h1
  have es := edit_keys s k f h2
  refine ⟨?_, ?_, ?_, ?_, hb.akeys, hb.alru⟩
  · rw [ei]; exact hb.ids
  · rw [es]; exact hb.keys
  · intro x hx
    have : x.id ∈ (s.edit k f).streams.map (·.id) := List.mem_map_of_mem hx
    rw [ei] at this
    obtain ⟨y, hy, e⟩ := List.mem_map.mp this
    rw [← e]
    exact hb.fresh y hy
  · rw [ei]; exact hb.lru

theorem named_edit {M : List Nat} {s : St} (hm : ∀ x ∈ s.streams, x.ssrc ∈ M) (k : Nat) (f : Stream → Stream)
    (h2 : ∀ x, (f x).ssrc = x.ssrc) : ∀ x ∈ (s.edit k f).streams, x.ssrc ∈ M := by
  intro x hx
  have : x.ssrc ∈ (s.edit k f).streams.map (·.ssrc) := List.mem_map_of_mem hx
  rw [edit_keys s k f h2] at this
  obtain ⟨y, hy, e⟩ := List.mem_map.mp this
  rw [← e]
  exact hm y hy

theorem grow_edit (M : List Nat) (s : St) (k : Nat) (f : Stream → Stream)
    (h1 : ∀ x, (f x).id = x.id) (h2 : ∀ x, (f x).ssrc = x.ssrc) (h3 : ∀ x, (f x).report = x.report) : Grow M s (s.edit k f) := by
  refine ⟨fun hb => base_edit hb k f h1 h2, rfl, rfl, rfl, rfl, rfl, rfl, rfl, rfl, rfl, id, ?_, fun hm => named_edit hm k f h2⟩
  intro _ x hx
  refine ⟨if x.ssrc = k then f x else x, List.mem_map.mpr ⟨x, hx, rfl⟩, ?_⟩
  by_cases h : x.ssrc = k
  · rw [if_pos h]; exact ⟨h1 x, h2 x, h3 x⟩
  · rw [if_neg h]; exact ⟨rfl, rfl, rfl⟩

theorem grow_rebuild (M : List Nat) (s : St) (b : Bool) (hb : b = false → s.rebuild = false) : Grow M s { s with rebuild := b } :=
  ⟨fun h => ⟨h.ids, h.keys, h.fresh, h.lru, h.akeys, h.alru⟩, rfl, rfl, rfl, rfl, rfl, rfl, rfl, rfl, rfl, hb,
    fun _ x hx => ⟨x, hx, rfl, rfl, rfl⟩, id⟩

theorem grow_ensure {M : List Nat} (s : St) {k : Nat} (hk : k ∈ M) : Grow M s (s.ensure k) := by
  unfold St.ensure
  cases h : s.find k with
  | some x => exact Grow.refl M s
  | none =>
    refine ⟨fun hb => ⟨?_, ?_, ?_, ?_, hb.akeys, hb.alru⟩, rfl, rfl, rfl, rfl, rfl, rfl, rfl, rfl, rfl, ?_, ?_, ?_⟩
    · simp only [List.map_append, List.map_cons, List.map_nil, newStream]
      refine List.nodup_append.mpr ⟨hb.ids, by simp, ?_⟩
      intro a ha b hb'
      obtain ⟨x, hx, e⟩ := List.mem_map.mp ha
      have := hb.fresh x hx
      rw [List.mem_singleton.mp hb']
      omega
    · simp only [List.map_append, List.map_cons, List.map_nil, newStream]
      refine List.nodup_append.mpr ⟨hb.keys, by simp, ?_⟩
      intro a ha b hb'
      obtain ⟨x, hx, e⟩ := List.mem_map.mp ha
      have := find_none h x hx
      rw [List.mem_singleton.mp hb', ← e]
      exact this
    · intro x hx
      show x.id < s.next + 1
      rcases List.mem_append.mp hx with hx | hx
      · have := hb.fresh x hx; omega
      · rw [List.mem_singleton.mp hx]; simp [newStream]
    · simp only [List.map_append, List.map_cons, List.map_nil, newStream]
      exact (List.Perm.cons _ hb.lru).trans (List.perm_append_singleton _ _).symm
    · intro e; exact absurd e Bool.noConfusion
    · intro e; exact absurd e Bool.noConfusion
    · intro hm x hx
      rcases List.mem_append.mp hx with hx | hx
      · exact hm x hx
      · rw [List.mem_singleton.mp hx]; exact hk

theorem grow_remove (M : List Nat) (s : St) (x : Stream) : Grow M s (s.remove x) := by
  refine ⟨fun hb => ⟨?_, ?_, ?_, ?_, hb.akeys, hb.alru⟩, rfl, rfl, rfl, rfl, rfl, rfl, rfl, rfl, rfl, ?_, ?_, ?_⟩
  · exact (List.filter_sublist.map _).nodup hb.ids
  · exact (List.filter_sublist.map _).nodup hb.keys
  · intro y hy
    exact hb.fresh y (List.mem_of_mem_filter hy)
  · have h := hb.lru.filter (fun i => i ≠ x.id)
    rw [List.filter_map] at h
    exact h
  · intro e; exact absurd e Bool.noConfusion
  · intro e; exact absurd e Bool.noConfusion
  · intro hm y hy
    exact hm y (List.mem_of_mem_filter hy)

theorem grow_update (M : List Nat) (s : St) (k : Nat) : Grow M s (s.update k) := by
  unfold St.update
  cases h : s.find k with
  | none => exact Grow.refl M s
  | some x =>
    show Grow M s (if x.last = s.time then s else _)
    by_cases ht : x.last = s.time
    · rw [if_pos ht]; exact Grow.refl M s
    · rw [if_neg ht]
      have g := grow_edit M s k (fun y => { y with last := s.time }) (fun _ => rfl) (fun _ => rfl) (fun _ => rfl)
      refine ⟨fun hb => ?_, rfl, rfl, rfl, rfl, rfl, rfl, rfl, rfl, rfl, id, g.keep, g.named⟩
      have b := g.base hb
      refine ⟨b.ids, b.keys, b.fresh, ?_, b.akeys, b.alru⟩
      refine List.Perm.trans ?_ b.lru
      apply cons_filter_perm
      · exact hb.lru.nodup_iff.mpr hb.ids
      · exact hb.lru.mem_iff.mpr (List.mem_map_of_mem (find_some h).1)

theorem grow_collide (M : List Nat) (s : St) (k : Nat) : Grow M s (s.collide k) := by
  have gd : Grow M s { s with detected := true, reported := false } :=
    ⟨fun h => ⟨h.ids, h.keys, h.fresh, h.lru, h.akeys, h.alru⟩, rfl, rfl, rfl, rfl, rfl, rfl, rfl, rfl, rfl, id,
      fun _ x hx => ⟨x, hx, rfl, rfl, rfl⟩, id⟩
  unfold St.collide
  by_cases h1 : s.detected
  · rw [if_pos h1]; exact Grow.refl M s
  rw [if_neg h1]
  by_cases h2 : k ≠ s.src
  · rw [if_pos h2]; exact Grow.refl M s
  rw [if_neg h2]
  cases h : s.find k with
  | none => exact gd
  | some x =>
    show Grow M s (if x.looped = true then s else _)
    by_cases h3 : x.looped = true
    · rw [if_pos h3]; exact Grow.refl M s
    rw [if_neg h3]
    by_cases h4 : x.cname = s.cname
    · rw [if_pos h4]; exact grow_edit M s k _ (fun _ => rfl) (fun _ => rfl) (fun _ => rfl)
    · rw [if_neg h4]; exact gd

theorem grow_recreate {M : List Nat} (s : St) {k : Nat} (hk : k ∈ M) (text : List Nat) : Grow M s (s.recreate k text) := by
  unfold St.recreate
  cases h : s.find k with
  | none => exact Grow.refl M s
  | some x =>
    show Grow M s (if x.cname ≠ [] ∧ x.cname ≠ text then _ else s)
    by_cases hc : x.cname ≠ [] ∧ x.cname ≠ text
    · rw [if_pos hc]; exact (grow_remove M s x).trans (grow_ensure _ hk)
    · rw [if_neg hc]; exact Grow.refl M s

theorem grow_mark (M : List Nat) (s : St) (k addr : Nat) (has : Stream → Bool) (f : Stream → Stream)
    (h1 : ∀ x, (f x).id = x.id) (h2 : ∀ x, (f x).ssrc = x.ssrc) (h3 : ∀ x, (f x).report = x.report) :
    Grow M s (s.mark k addr has f) := by
  unfold St.mark
  cases h : s.find k with
  | none => exact Grow.refl M s
  | some x =>
    have g := grow_edit M s k (fun y => { f y with addr := addr }) (fun y => h1 y) (fun y => h2 y) (fun y => h3 y)
    refine g.trans (grow_rebuild M _ _ ?_)
    intro e
    show s.rebuild = false
    cases hr : s.rebuild with
    | false => rfl
    | true => rw [hr] at e; simp at e

theorem grow_on {M : List Nat} (addr : Nat) (s : St) (e : Ev) (he : e.source ∈ M) : Grow M s (s.on addr e) := by
  cases e with
  | cname k text =>
    show Grow M s (s.onCname k text)
    unfold St.onCname
    by_cases h1 : text = []
    · rw [if_pos h1]; exact Grow.refl M s
    rw [if_neg h1]
    by_cases h2 : (s.ensure k).sameCname k text = true
    · rw [if_pos h2]; exact grow_ensure s he
    rw [if_neg h2]
    refine (grow_ensure s he).trans ((grow_recreate _ he text).trans ?_)
    refine (grow_edit M _ k (fun x => { x with cname := text }) (fun _ => rfl) (fun _ => rfl) (fun _ => rfl)).trans ?_
    refine (grow_rebuild M _ true (fun e => absurd e Bool.noConfusion)).trans ?_
    exact (grow_collide M _ k).trans (grow_update M _ k)
  | sr k ts =>
    refine (grow_collide M s k).trans ((grow_ensure _ he).trans (Grow.trans ?_ (grow_update M _ k)))
    exact grow_mark M _ k addr _ _ (fun _ => rfl) (fun _ => rfl) (fun _ => rfl)
  | reception k about =>
    show Grow M s (s.onReception addr k about)
    unfold St.onReception
    by_cases h1 : (!s.hasSend || decide (about ≠ (s.collide k).src)) = true
    · rw [if_pos h1]; exact grow_collide M s k
    rw [if_neg h1]
    refine (grow_collide M s k).trans ((grow_ensure _ he).trans (Grow.trans ?_ (grow_update M _ k)))
    exact grow_mark M _ k addr _ _ (fun _ => rfl) (fun _ => rfl) (fun _ => rfl)
  | dlrr k about =>
    show Grow M s (s.onDlrr k about)
    unfold St.onDlrr
    by_cases h1 : about ≠ (s.collide k).src
    · rw [if_pos h1]; exact grow_collide M s k
    rw [if_neg h1]
    by_cases h2 : (!(s.collide k).known k (·.hasSend)) = true
    · rw [if_pos h2]; exact grow_collide M s k
    · rw [if_neg h2]; exact (grow_collide M s k).trans (grow_update M _ k)
  | rrtr k ts =>
    show Grow M s (s.onRrtr k ts)
    unfold St.onRrtr
    by_cases h2 : (!(s.collide k).known k (·.hasRecv)) = true
    · rw [if_pos h2]; exact grow_collide M s k
    · rw [if_neg h2]
      refine (grow_collide M s k).trans (Grow.trans ?_ (grow_update M _ k))
      exact grow_edit M _ k (fun x => { x with recvTs := ts }) (fun _ => rfl) (fun _ => rfl) (fun _ => rfl)
  | metrics k about =>
    show Grow M s (s.onMetrics k about)
    unfold St.onMetrics
    by_cases h1 : about ≠ (s.collide k).src
    · rw [if_pos h1]; exact grow_collide M s k
    rw [if_neg h1]
    by_cases h2 : (!(s.collide k).known k (·.hasRecv)) = true
    · rw [if_pos h2]; exact grow_collide M s k
    · rw [if_neg h2]; exact (grow_collide M s k).trans (grow_update M _ k)
  | bye k =>
    show Grow M s (s.onBye k)
    unfold St.onBye
    cases h : s.find k with
    | none => exact Grow.refl M s
    | some x => exact grow_remove M s x

theorem grow_evs {M : List Nat} (addr : Nat) (evs : List Ev) : ∀ (s : St), (∀ e ∈ evs, e.source ∈ M) →
    Grow M s (evs.foldl (St.on addr) s) := by
  induction evs with
  | nil => intro s _; exact Grow.refl M s
  | cons e evs ih =>
    intro s h
    exact (grow_on addr s e (h e List.mem_cons_self)).trans (ih _ (fun x hx => h x (List.mem_cons_of_mem _ hx)))

/-! ## Timeouts -/

theorem timeouts_ok (M : List Nat) : ∀ (n : Nat) (s : St) (front back : List Nat), Base s → 0 < s.timeout →
    s.lru = front ++ back → back.length ≤ n → (∀ i ∈ front, ∀ x ∈ s.streams, x.id = i → x.last > s.time - s.timeout) →
    ∃ s', timeouts n s = .ok s' ∧ Grow M s s' ∧ s'.src = s.src ∧ s'.detected = s.detected ∧
      ∀ x ∈ s.streams, x.last > s.time - s.timeout → x ∈ s'.streams := by
  intro n
  induction n with
  | zero =>
    intro s front back hb ht hl hn hf
    have : back = [] := List.length_eq_zero_iff.mp (Nat.le_zero.mp hn)
    subst this
    rw [List.append_nil] at hl
    cases hg : s.lru.getLast? with
    | none =>
      refine ⟨s, ?_, Grow.refl M s, rfl, rfl, fun _ h _ => h⟩
      unfold timeouts; rw [hg]
    | some i =>
      have hi : i ∈ s.lru := List.mem_of_getLast? hg
      obtain ⟨x, hx, ex⟩ := List.mem_map.mp (hb.lru.mem_iff.mp hi)
      have hfi := findId_of_mem hb.ids hx
      rw [ex] at hfi
      have hlast := hf i (hl ▸ hi) x hx ex
      refine ⟨s, ?_, Grow.refl M s, rfl, rfl, fun _ h _ => h⟩
      unfold timeouts
      simp only [hg, hfi, hlast, if_true]
  | succ n ih =>
    intro s front back hb ht hl hn hf
    cases hg : s.lru.getLast? with
    | none =>
      refine ⟨s, ?_, Grow.refl M s, rfl, rfl, fun _ h _ => h⟩
      unfold timeouts; rw [hg]
    | some i =>
      have hi : i ∈ s.lru := List.mem_of_getLast? hg
      obtain ⟨x, hx, ex⟩ := List.mem_map.mp (hb.lru.mem_iff.mp hi)
      have hfi := findId_of_mem hb.ids hx
      rw [ex] at hfi
      by_cases hlast : x.last > s.time - s.timeout
      · refine ⟨s, ?_, Grow.refl M s, rfl, rfl, fun _ h _ => h⟩
        unfold timeouts
        simp only [hg, hfi, hlast, if_true]
      · have hbk : back ≠ [] := by
          intro e
          subst e
          rw [List.append_nil] at hl
          exact hlast (hf i (hl ▸ hi) x hx ex)
        obtain ⟨b', j, rfl⟩ : ∃ b' j, back = b' ++ [j] := by
          rcases List.eq_nil_or_concat back with e | ⟨l, a, e⟩
          · exact absurd e hbk
          · exact ⟨l, a, by simpa using e⟩
        have hj : j = i := by
          rw [hl, ← List.append_assoc, List.getLast?_concat] at hg
          exact Option.some.inj hg
        subst hj
        have hnd : s.lru.Nodup := hb.lru.nodup_iff.mpr hb.ids
        rw [hl] at hnd
        have hfl : (front ++ (b' ++ [j])).filter (fun k => k ≠ j) = front ++ b' := by
          rw [← List.append_assoc, List.filter_append]
          have h1 : (front ++ b').filter (fun k => k ≠ j) = front ++ b' := by
            rw [List.filter_eq_self]
            intro a ha
            rw [← List.append_assoc] at hnd
            have := (List.nodup_append.mp hnd).2.2 a ha j (List.mem_singleton.mpr rfl)
            simpa using this
          rw [h1]
          simp
        have hlen : b'.length ≤ n := by simp at hn; omega
        by_cases hr : (!x.hasRecv && !x.hasSend) = true
        · have hu : s.update x.ssrc = { s.edit x.ssrc (fun y => { y with last := s.time }) with lru := x.id :: s.lru.filter (fun i => i ≠ x.id) } := by
            unfold St.update
            rw [find_of_mem hb.keys hx]
            exact if_neg (by omega)
          have hlu : (s.update x.ssrc).lru = (j :: front) ++ b' := by
            rw [hu]
            show x.id :: s.lru.filter (fun i => i ≠ x.id) = _
            rw [ex, hl, hfl]; rfl
          have hstr : (s.update x.ssrc).streams = s.streams.map (fun z => if z.ssrc = x.ssrc then { z with last := s.time } else z) := by
            rw [hu]; rfl
          have htm : (s.update x.ssrc).time = s.time := by rw [hu]; rfl
          have hto : (s.update x.ssrc).timeout = s.timeout := by rw [hu]; rfl
          have g := grow_update M s x.ssrc
          obtain ⟨s', e1, g', e2, e3, e4⟩ := ih (s.update x.ssrc) (j :: front) b' (g.base hb) (by rw [hto]; exact ht) hlu hlen (by
            intro k hk y hy ek
            rw [htm, hto]
            rw [hstr] at hy
            obtain ⟨z, hz, ez⟩ := List.mem_map.mp hy
            by_cases hzx : z.ssrc = x.ssrc
            · rw [if_pos hzx] at ez
              rw [← ez]
              show s.time > _
              omega
            · rw [if_neg hzx] at ez
              subst ez
              rcases List.mem_cons.mp hk with hk | hk
              · exfalso
                apply hzx
                rw [List.inj_on_of_nodup_map hb.ids hz hx (by rw [ek, hk, ex])]
              · exact hf k hk z hz ek)
          refine ⟨s', ?_, g.trans g', ?_, ?_, ?_⟩
          · rw [← e1]
            conv => lhs; unfold timeouts
            simp only [hg, hfi, if_neg hlast, if_pos hr]
          · rw [e2, hu]; rfl
          · rw [e3, hu]; rfl
          · intro y hy hl
            apply e4 y _ (by rw [htm, hto]; exact hl)
            rw [hstr]
            refine List.mem_map.mpr ⟨y, hy, if_neg ?_⟩
            intro e
            rw [List.inj_on_of_nodup_map hb.keys hy hx e] at hl
            exact hlast hl
        · have g := grow_remove M s x
          obtain ⟨s', e1, g', e2, e3, e4⟩ := ih (s.remove x) front b' (g.base hb) ht (by
            show s.lru.filter (fun i => i ≠ x.id) = _
            rw [ex, hl, hfl]) hlen (by
            intro k hk y hy ek
            exact hf k hk y (List.mem_of_mem_filter hy) ek)
          refine ⟨s', ?_, g.trans g', e2, e3, ?_⟩
          · rw [← e1]
            conv => lhs; unfold timeouts
            simp only [hg, hfi, if_neg hlast, if_neg hr]
          · intro y hy hl
            apply e4 y _ hl
            refine List.mem_filter.mpr ⟨hy, ?_⟩
            have : y.id ≠ x.id := by
              intro e
              rw [List.inj_on_of_nodup_map hb.ids hy hx e] at hl
              exact hlast hl
            simpa using this

theorem expire_ok (M : List Nat) (s : St) (hb : Base s) (ht : 0 < s.timeout) :
    ∃ s', s.expire = .ok s' ∧ Grow M s s' ∧ s'.src = s.src ∧ s'.detected = s.detected ∧
      ∀ x ∈ s.streams, x.last > s.time - s.timeout → x ∈ s'.streams :=
  timeouts_ok M s.lru.length s [] s.lru hb ht rfl (Nat.le_refl _) (by intro i hi; cases hi)

end Verif.Reporter
