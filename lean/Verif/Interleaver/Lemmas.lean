import Verif.Interleaver.Spec

namespace Verif.Interleaver

variable {P : Type}

@[simp] theorem upd_same {α : Type} (f : Nat → α) (i : Nat) (v : α) : upd f i v i = v := by simp [upd]
theorem upd_other {α : Type} (f : Nat → α) (i j : Nat) (v : α) (h : j ≠ i) : upd f i v j = f j := by
  simp [upd, h]

theorem swap_perm {n : Nat} {f : Nat → Nat} (h : IsPerm n f) {i j : Nat} (hi : i < n) (hj : j < n) :
    IsPerm n (swap f i j) := by
  obtain ⟨h1, h2, h3⟩ := h
  have hval : ∀ k, swap f i j k = if k = j then f i else if k = i then f j else f k := by
    intro k; simp [swap, upd]
  refine ⟨?_, ?_, ?_⟩
  · intro k hk; rw [hval]; split
    · exact h1 i hi
    · split
      · exact h1 j hj
      · exact h1 k hk
  · intro a ha b hb hab
    rw [hval, hval] at hab
    have e1 := h2 i hi j hj
    have e2 := h2 a ha i hi
    have e3 := h2 a ha j hj
    have e4 := h2 b hb i hi
    have e5 := h2 b hb j hj
    have e6 := h2 a ha b hb
    clear hval h1 h2 h3
    split at hab <;> split at hab <;> (try split at hab) <;> (try split at hab) <;> omega
  · intro v hv
    obtain ⟨k, hk, hkv⟩ := h3 v hv
    by_cases k1 : k = i
    · exact ⟨j, hj, by rw [hval]; simp [← k1, hkv]⟩
    · by_cases k2 : k = j
      · refine ⟨i, hi, ?_⟩
        rw [hval]
        by_cases hij : i = j
        · omega
        · subst k2; simp [hij, hkv]
      · exact ⟨k, hk, by rw [hval]; simp [k1, k2, hkv]⟩

theorem shuffle_perm {rnd : Nat → Nat} {n : Nat} :
    ∀ {m : Nat} {f : Nat → Nat}, m ≤ n → (∀ i, 1 ≤ i → i ≤ m → rnd i ≤ i - 1) → IsPerm n f →
      IsPerm n (shuffle rnd m f)
  | 0, _, _, _, h => h
  | m + 1, f, hm, hr, h => by
    unfold shuffle
    refine shuffle_perm (by omega) (fun i h1 h2 => hr i h1 (by omega)) ?_
    have := hr (m + 1) (by omega) (by omega)
    exact swap_perm h (by omega) (by omega)

theorem id_perm (n : Nat) : IsPerm n (fun i => i) :=
  ⟨fun _ h => h, fun _ _ _ _ h => h, fun v h => ⟨v, h, rfl⟩⟩

/-- Emptying a filled slot removes its packet from the held packets. -/
theorem filterMap_clear (f : Nat → Option P) (i : Nat) (p : P) (hf : f i = some p) :
    ∀ (l : List Nat), l.Nodup → i ∈ l →
      (l.filterMap f).Perm (p :: l.filterMap (upd f i none))
  | [], _, h => by simp at h
  | k :: l, hn, hi => by
    have hn' := List.nodup_cons.mp hn
    by_cases hk : k = i
    · subst hk
      have he : l.filterMap (upd f k none) = l.filterMap f := by
        have : ∀ (l : List Nat), k ∉ l → l.filterMap (upd f k none) = l.filterMap f := by
          intro l
          induction l with
          | nil => simp
          | cons x xs ih =>
            intro hx
            simp only [List.mem_cons, not_or] at hx
            simp only [List.filterMap_cons, upd_other f k x none (Ne.symm hx.1), ih hx.2]
        exact this l hn'.1
      simp [hf, he]
    · have hi' : i ∈ l := by simpa [Ne.symm hk] using hi
      have ih := filterMap_clear f i p hf l hn'.2 hi'
      have hku : upd f i none k = f k := upd_other _ _ _ _ hk
      cases hfk : f k with
      | none => simpa [List.filterMap_cons, hfk, hku] using ih
      | some v =>
        simp only [List.filterMap_cons, hfk, hku]
        exact (ih.cons v).trans (List.Perm.swap ..)

/-- Filling an empty slot adds its packet. -/
theorem filterMap_fill (f : Nat → Option P) (i : Nat) (p : P) (hf : f i = none)
    (l : List Nat) (hn : l.Nodup) (hi : i ∈ l) :
    (l.filterMap (upd f i (some p))).Perm (p :: l.filterMap f) := by
  have := filterMap_clear (upd f i (some p)) i p (by simp) l hn hi
  have he : upd (upd f i (some p)) i none = f := by
    funext k; unfold upd; split
    · rename_i h; rw [h, hf]
    · rfl
  rwa [he] at this

/-- Shape of the slots: the slot with the send index `j` is filled iff it was not sent yet
(`s ≤ j`) and was already put (`seq j < m`); whatever was sent was put. -/
def Shape (s : State P) (sent m : Nat) : Prop :=
  (∀ j < s.blockSize, (s.packets (s.seq j)).isSome = true ↔ (sent ≤ j ∧ s.seq j < m)) ∧
  (∀ j < s.blockSize, j < sent → s.seq j < m)

/-- The send loop. -/
theorem sendLoop_spec : ∀ (fuel : Nat) (s : State P) (m : Nat),
    IsPerm s.blockSize s.seq → s.send < s.blockSize → m ≤ s.blockSize → Shape s s.send m →
    s.blockSize - s.send ≤ fuel →
    let r := sendLoop (fun _ => true) fuel s
    r.1.blockSize = s.blockSize ∧ r.1.seq = s.seq ∧ r.1.put = s.put ∧ r.2.2 = true ∧
    r.1.packets (r.1.seq r.1.send) = none ∧ r.1.send < r.1.blockSize ∧
    (r.2.1 ++ r.1.held).Perm s.held ∧
    (m < s.blockSize → Shape r.1 r.1.send m) ∧
    (m = s.blockSize → r.1.send = 0 ∧ Shape r.1 0 0)
  | 0, s, m, hp, hs, hm, hsh, hf => by omega
  | fuel + 1, s, m, hp, hs, hm, hsh, hf => by
    intro r
    have hr : r = sendLoop (fun _ => true) (fuel + 1) s := rfl
    unfold sendLoop at hr
    split at hr
    · rename_i hnone
      rw [hr]
      refine ⟨rfl, rfl, rfl, rfl, hnone, hs, by simp, fun _ => hsh, ?_⟩
      intro hmB
      have := (hsh.1 s.send hs).mpr ⟨by omega, by rw [hmB]; exact hp.1 _ hs⟩
      rw [hnone] at this; simp at this
    · rename_i p hsome
      simp only [if_true] at hr
      have hheld : s.held.Perm (p :: ({ s with packets := upd s.packets (s.seq s.send) none,
                                               send := (s.send + 1) % s.blockSize } : State P).held) := by
        unfold State.held
        exact filterMap_clear s.packets _ p hsome _ List.nodup_range (by simpa using hp.1 _ hs)
      have hslot : ∀ j < s.blockSize,
          (upd s.packets (s.seq s.send) none (s.seq j)).isSome = true ↔ (s.send + 1 ≤ j ∧ s.seq j < m) := by
        intro j hj
        by_cases hjs : j = s.send
        · subst hjs; simp; omega
        · rw [upd_other _ _ _ _ (fun e => hjs (hp.2.1 _ hj _ hs e)), hsh.1 j hj]
          constructor
          · rintro ⟨h1, h2⟩; exact ⟨by omega, h2⟩
          · rintro ⟨h1, h2⟩; exact ⟨by omega, h2⟩
      by_cases hlast : s.send + 1 < s.blockSize
      · have hmod : (s.send + 1) % s.blockSize = s.send + 1 := Nat.mod_eq_of_lt hlast
        have ih := sendLoop_spec fuel
          { s with packets := upd s.packets (s.seq s.send) none, send := (s.send + 1) % s.blockSize } m
          hp (by simp [hmod, hlast]) hm (by
            rw [Shape]; simp only [hmod]
            refine ⟨hslot, fun j hj hjs => ?_⟩
            by_cases hjs' : j = s.send
            · subst hjs'; exact ((hsh.1 _ hs).mp (by rw [hsome]; rfl)).2
            · exact hsh.2 j hj (by omega)) (by simp only [hmod]; omega)
        obtain ⟨i1, i2, i3, i4, i5, i6, i7, i8, i9⟩ := ih
        rw [hr]
        refine ⟨i1, i2, i3, i4, i5, i6, ?_, i8, i9⟩
        simp only [List.cons_append]
        exact (i7.cons p).trans hheld.symm
      · have hB : s.send + 1 = s.blockSize := by omega
        have hmod : (s.send + 1) % s.blockSize = 0 := by rw [hB]; exact Nat.mod_self _
        have hall : ∀ j < s.blockSize, upd s.packets (s.seq s.send) none (s.seq j) = none := by
          intro j hj
          have := hslot j hj
          cases hu : upd s.packets (s.seq s.send) none (s.seq j) with
          | none => rfl
          | some v => rw [hu] at this; have := this.mp rfl; omega
        have hstop : sendLoop (fun _ => true) fuel
            { s with packets := upd s.packets (s.seq s.send) none, send := (s.send + 1) % s.blockSize } =
            ({ s with packets := upd s.packets (s.seq s.send) none, send := 0 }, [], true) := by
          rw [hmod]
          cases fuel with
          | zero => rfl
          | succ n =>
            unfold sendLoop
            simp only [hall 0 (by omega)]
        rw [hstop] at hr
        rw [hr]
        have hz : Shape ({ s with packets := upd s.packets (s.seq s.send) none, send := 0 } : State P) 0 0 := by
          refine ⟨fun j hj => ?_, fun j _ hj => by omega⟩
          simp only [hall j hj]; simp
        refine ⟨rfl, rfl, rfl, rfl, hall 0 (by omega), by simp only []; omega, ?_, ?_, fun _ => ⟨rfl, hz⟩⟩
        · simp only [List.cons_append, List.nil_append]
          refine List.Perm.trans (List.Perm.cons p (List.Perm.refl _)) hheld.symm
        · intro hmB
          -- the slot `m` was not put, so not everything can have been sent
          obtain ⟨j, hj, hjm⟩ := hp.2.2 m hmB
          exfalso
          by_cases hjs : j < s.send
          · have := hsh.2 j hj hjs; omega
          · have : j = s.send := by omega
            subst this
            have := ((hsh.1 _ hs).mp (by rw [hsome]; rfl)).2
            omega

/-- What holds between API calls (with a downstream writer that never fails). -/
structure Inv (s : State P) : Prop where
  perm : IsPerm s.blockSize s.seq
  put_lt : s.put < s.blockSize
  send_lt : s.send < s.blockSize
  shape : Shape s s.send s.put
  idle : s.packets (s.seq s.send) = none

theorem init_inv {n : Nat} {seq : Nat → Nat} (hn : 0 < n) (h : IsPerm n seq) :
    Inv (State.init P n seq) :=
  ⟨h, hn, hn, ⟨fun j _ => by simp [State.init], fun j _ hj => by simp [State.init] at hj⟩, rfl⟩

theorem Inv.slot {s : State P} (h : Inv s) {i : Nat} (hi : i < s.blockSize) {p : P}
    (hp : s.packets i = some p) : i < s.put := by
  obtain ⟨j, hj, rfl⟩ := h.perm.2.2 i hi
  exact ((h.shape.1 j hj).mp (by rw [hp]; rfl)).2

theorem Inv.put_empty {s : State P} (h : Inv s) : s.packets s.put = none := by
  cases hp : s.packets s.put with
  | none => rfl
  | some p => have := h.slot h.put_lt hp; omega

/-- `write` keeps the invariant and moves packets without losing any. -/
theorem write_inv {s : State P} (h : Inv s) (p : P) :
    let r := s.write (fun _ => true) p
    Inv r.1 ∧ r.2.2 = true ∧ r.1.blockSize = s.blockSize ∧ r.1.seq = s.seq ∧
    r.1.put = (s.put + 1) % s.blockSize ∧ (r.2.1 ++ r.1.held).Perm (s.held ++ [p]) := by
  intro r
  have hfill : ({ s with packets := upd s.packets s.put (some p),
                         put := (s.put + 1) % s.blockSize } : State P).held.Perm (s.held ++ [p]) := by
    unfold State.held
    refine (filterMap_fill s.packets s.put p h.put_empty _ List.nodup_range
      (by simpa using h.put_lt)).trans ?_
    exact (List.perm_append_singleton _ _).symm
  have hshape : Shape ({ s with packets := upd s.packets s.put (some p),
                                put := (s.put + 1) % s.blockSize } : State P) s.send (s.put + 1) := by
    obtain ⟨j0, hj0, hj0p⟩ := h.perm.2.2 s.put h.put_lt
    have hj0s : s.send ≤ j0 := by
      by_cases hc : s.send ≤ j0
      · exact hc
      · have := h.shape.2 j0 hj0 (by omega); omega
    refine ⟨fun j hj => ?_, fun j hj hjs => by have := h.shape.2 j hj hjs; exact Nat.lt_succ_of_lt this⟩
    by_cases hjj : s.seq j = s.put
    · have : j = j0 := h.perm.2.1 _ hj _ hj0 (by omega)
      subst this
      simp only [hjj, upd_same]
      simp
      omega
    · simp only [upd_other _ _ _ _ hjj, h.shape.1 j hj]
      omega
  have hl := sendLoop_spec s.blockSize
    ({ s with packets := upd s.packets s.put (some p), put := (s.put + 1) % s.blockSize } : State P)
    (s.put + 1) h.perm h.send_lt h.put_lt hshape (by simp only []; omega)
  obtain ⟨i1, i2, i3, i4, i5, i6, i7, i8, i9⟩ := hl
  refine ⟨⟨?_, ?_, i6, ?_, i5⟩, i4, i1, i2, i3, i7.trans hfill⟩
  · show IsPerm r.1.blockSize r.1.seq
    rw [show r.1.blockSize = s.blockSize from i1, show r.1.seq = s.seq from i2]; exact h.perm
  · rw [show r.1.put = (s.put + 1) % s.blockSize from i3, show r.1.blockSize = s.blockSize from i1]
    exact Nat.mod_lt _ (by have := h.put_lt; omega)
  · rw [show r.1.put = (s.put + 1) % s.blockSize from i3]
    by_cases hlast : s.put + 1 < s.blockSize
    · rw [Nat.mod_eq_of_lt hlast]; exact i8 hlast
    · have hB : s.put + 1 = s.blockSize := by have := h.put_lt; omega
      rw [hB, Nat.mod_self]
      have := i9 hB
      rw [show r.1.send = 0 from this.1]
      exact this.2

theorem flushLoop_spec : ∀ (is : List Nat) (s : State P), is.Nodup →
    let r := flushLoop (fun _ => true) is s
    r.1.blockSize = s.blockSize ∧ r.1.seq = s.seq ∧ r.2.2 = true ∧
    r.2.1 = is.filterMap s.packets ∧
    (∀ i, r.1.packets i = if i ∈ is then none else s.packets i)
  | [], s, _ => by simp [flushLoop]
  | i :: is, s, hn => by
    have hn' := List.nodup_cons.mp hn
    intro r
    have hr : r = flushLoop (fun _ => true) (i :: is) s := rfl
    unfold flushLoop at hr
    split at hr
    · rename_i hnone
      have ih := flushLoop_spec is s hn'.2
      rw [hr]
      refine ⟨ih.1, ih.2.1, ih.2.2.1, ?_, ?_⟩
      · simp only [List.filterMap_cons, hnone]; exact ih.2.2.2.1
      · intro k
        rw [ih.2.2.2.2 k]
        by_cases hk : k = i
        · subst hk; simp [hnone]
        · simp [hk]
    · rename_i p hsome
      simp only [if_true] at hr
      have ih := flushLoop_spec is { s with packets := upd s.packets i none } hn'.2
      rw [hr]
      refine ⟨ih.1, ih.2.1, ih.2.2.1, ?_, ?_⟩
      · simp only [List.filterMap_cons, hsome, List.cons.injEq, true_and]
        rw [ih.2.2.2.1]
        have : ∀ (l : List Nat), i ∉ l → l.filterMap (upd s.packets i none) = l.filterMap s.packets := by
          intro l
          induction l with
          | nil => simp
          | cons x xs ih =>
            intro hx
            simp only [List.mem_cons, not_or] at hx
            simp only [List.filterMap_cons, upd_other s.packets i x none (Ne.symm hx.1), ih hx.2]
        exact this is hn'.1
      · intro k
        rw [ih.2.2.2.2 k]
        by_cases hk : k = i
        · subst hk; simp
        · simp [hk, upd_other]

/-- `flush` sends everything that is held and returns to the initial state. -/
theorem flush_inv {s : State P} (h : Inv s) :
    let r := s.flush (fun _ => true)
    Inv r.1 ∧ r.2.2 = true ∧ r.1.blockSize = s.blockSize ∧ r.1.seq = s.seq ∧ r.1.put = 0 ∧
    r.1.send = 0 ∧ (∀ i < s.blockSize, r.1.packets i = none) ∧ r.2.1 = s.held := by
  have hl := flushLoop_spec (List.range s.blockSize) s List.nodup_range
  obtain ⟨i1, i2, i3, i4, i5⟩ := hl
  have hn : ∀ i < s.blockSize, (flushLoop (fun _ => true) (List.range s.blockSize) s).1.packets i = none := by
    intro i hi
    rw [i5 i]; simp [hi]
  have hpos : 0 < s.blockSize := by have := h.put_lt; omega
  simp only [State.flush, i3, if_true]
  refine ⟨⟨?_, ?_, ?_, ⟨?_, ?_⟩, ?_⟩, trivial, i1, i2, trivial, trivial, hn, i4⟩
  · simp only [i1, i2]; exact h.perm
  · simpa only [i1] using hpos
  · simpa only [i1] using hpos
  · intro j hj
    simp only [i1] at hj
    simp only [i2]
    rw [hn _ (h.perm.1 j hj)]; simp
  · intro j _ hj; simp at hj
  · simp only [i2]; exact hn _ (h.perm.1 0 hpos)

theorem run_inv (ops : List (Op P)) : ∀ (s : State P), Inv s →
    Inv (run s ops).1 ∧ (run s ops).1.blockSize = s.blockSize ∧ (run s ops).1.seq = s.seq ∧
    ((run s ops).2 ++ (run s ops).1.held).Perm (s.held ++ writes ops) ∧
    (∀ k, s.put = k % s.blockSize → (run s ops).1.put = sinceFlush k ops % s.blockSize) := by
  induction ops with
  | nil => intro s h; exact ⟨h, rfl, rfl, by simp [run, writes], fun k hk => by simpa [run, sinceFlush] using hk⟩
  | cons op ops ih =>
    intro s h
    cases op with
    | write p =>
      have ⟨w1, _, w3, w4, w5, w6⟩ := write_inv h p
      have ⟨j1, j2, j3, j4, j5⟩ := ih _ w1
      simp only [run, writes]
      refine ⟨j1, j2.trans w3, j3.trans w4, ?_, ?_⟩
      · rw [List.append_assoc]
        refine (j4.append_left _).trans ?_
        rw [← List.append_assoc]
        refine (w6.append_right _).trans ?_
        simp
      · intro k hk
        rw [j5 (k + 1) (by rw [w5, w3, hk]; simp [Nat.add_mod]), w3]
        simp [sinceFlush]
    | flush =>
      have ⟨w1, _, w3, w4, w5, w6, w7, w8⟩ := flush_inv h
      have ⟨j1, j2, j3, j4, j5⟩ := ih _ w1
      have hheld : (s.flush (fun _ => true)).1.held = [] := by
        unfold State.held
        rw [List.filterMap_eq_nil_iff]
        intro a ha
        rw [w3] at ha
        exact w7 a (by simpa using ha)
      simp only [run, writes]
      refine ⟨j1, j2.trans w3, j3.trans w4, ?_, ?_⟩
      · rw [List.append_assoc]
        refine (j4.append_left _).trans ?_
        rw [hheld, w8]; simp
      · intro k _
        rw [j5 0 (by rw [w5]; simp), w3]
        simp [sinceFlush]

theorem held_length {s : State P} (h : Inv s) : s.held.length ≤ s.put := by
  unfold State.held
  have : ∀ n, n ≤ s.blockSize → ((List.range n).filterMap s.packets).length ≤ min n s.put := by
    intro n
    induction n with
    | zero => simp
    | succ n ih =>
      intro hn
      rw [List.range_succ, List.filterMap_append, List.length_append]
      have := ih (by omega)
      cases hp : s.packets n with
      | none => simp [hp]; omega
      | some p =>
        have := h.slot (i := n) (by omega) hp
        simp [hp]; omega
  have := this _ (Nat.le_refl _)
  omega

/-- The part of the invariant that does not depend on the downstream writer. -/
structure Safe (s : State P) : Prop where
  range : ∀ i < s.blockSize, s.seq i < s.blockSize
  put_lt : s.put < s.blockSize
  send_lt : s.send < s.blockSize

theorem sendLoop_conserve (w : P → Bool) : ∀ (fuel : Nat) (s : State P), Safe s →
    let r := sendLoop w fuel s
    Safe r.1 ∧ r.1.blockSize = s.blockSize ∧ (r.2.1 ++ r.1.held).Perm s.held
  | 0, s, h => ⟨h, rfl, by simp [sendLoop]⟩
  | fuel + 1, s, h => by
    intro r
    have hr : r = sendLoop w (fuel + 1) s := rfl
    unfold sendLoop at hr
    split at hr
    · rw [hr]; exact ⟨h, rfl, by simp⟩
    · rename_i p hsome
      split at hr
      · have ih := sendLoop_conserve w fuel
          { s with packets := upd s.packets (s.seq s.send) none, send := (s.send + 1) % s.blockSize }
          ⟨h.range, h.put_lt, Nat.mod_lt _ (by have := h.put_lt; omega)⟩
        rw [hr]
        refine ⟨ih.1, ih.2.1, ?_⟩
        simp only [List.cons_append]
        refine (ih.2.2.cons p).trans ?_
        unfold State.held
        exact (filterMap_clear s.packets _ p hsome _ List.nodup_range
          (by simpa using h.range _ h.send_lt)).symm
      · rw [hr]; exact ⟨h, rfl, by simp⟩

theorem flushLoop_conserve (w : P → Bool) : ∀ (is : List Nat) (s : State P), Safe s →
    (∀ i ∈ is, i < s.blockSize) →
    let r := flushLoop w is s
    Safe r.1 ∧ r.1.blockSize = s.blockSize ∧ (r.2.1 ++ r.1.held).Perm s.held
  | [], s, h, _ => ⟨h, rfl, by simp [flushLoop]⟩
  | i :: is, s, h, hi => by
    intro r
    have hr : r = flushLoop w (i :: is) s := rfl
    unfold flushLoop at hr
    split at hr
    · rw [hr]; exact flushLoop_conserve w is s h (fun k hk => hi k (by simp [hk]))
    · rename_i p hsome
      split at hr
      · have ih := flushLoop_conserve w is { s with packets := upd s.packets i none }
          ⟨h.range, h.put_lt, h.send_lt⟩ (fun k hk => hi k (by simp [hk]))
        rw [hr]
        refine ⟨ih.1, ih.2.1, ?_⟩
        simp only [List.cons_append]
        refine (ih.2.2.cons p).trans ?_
        unfold State.held
        exact (filterMap_clear s.packets _ p hsome _ List.nodup_range
          (by simpa using hi i (by simp))).symm
      · rw [hr]; exact ⟨h, rfl, by simp⟩

/-- One call with an arbitrary writer; the overwritten packet, if any, is lost. -/
theorem write_conserve (w : P → Bool) {s : State P} (h : Safe s) (p : P) :
    let r := s.write w p
    Safe r.1 ∧ ∃ lost, (r.2.1 ++ r.1.held ++ lost).Perm (s.held ++ [p]) := by
  intro r
  have hl := sendLoop_conserve w s.blockSize
    ({ s with packets := upd s.packets s.put (some p), put := (s.put + 1) % s.blockSize } : State P)
    ⟨h.range, Nat.mod_lt _ (by have := h.put_lt; omega), h.send_lt⟩
  refine ⟨hl.1, ?_⟩
  have hmem : s.put ∈ List.range s.blockSize := by simpa using h.put_lt
  cases hp : s.packets s.put with
  | none =>
    refine ⟨[], ?_⟩
    rw [List.append_nil]
    refine hl.2.2.trans ?_
    exact (filterMap_fill s.packets s.put p hp _ List.nodup_range hmem).trans
      (List.perm_append_singleton _ _).symm
  | some o =>
    refine ⟨[o], (hl.2.2.append_right _).trans ?_⟩
    have h1 := filterMap_clear s.packets s.put o hp _ List.nodup_range hmem
    have h2 := filterMap_fill (upd s.packets s.put none) s.put p (by simp) _ List.nodup_range hmem
    have he : upd (upd s.packets s.put none) s.put (some p) = upd s.packets s.put (some p) := by
      funext k; unfold upd; split <;> rfl
    rw [he] at h2
    have h3 : (p :: o :: List.filterMap (upd s.packets s.put none) (List.range s.blockSize)).Perm
        (List.filterMap s.packets (List.range s.blockSize) ++ [p]) :=
      (h1.symm.cons p).trans (List.perm_append_singleton _ _).symm
    refine List.Perm.trans ?_ h3
    refine (List.perm_append_singleton _ _).trans ?_
    refine (h2.cons o).trans ?_
    exact List.Perm.swap ..

end Verif.Interleaver
