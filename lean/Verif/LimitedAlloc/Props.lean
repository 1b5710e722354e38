import Verif.LimitedAlloc.Model
import Verif.MemoryLimiter.Props

/-!
# Arenas and pools with a limit: properties (C132)
-/

namespace Verif.LimitedAlloc

open MemoryLimiter (Reach)

/-- Sum over the first threads. -/
def sumTo (f : Nat → Nat) : Nat → Nat
  | 0 => 0
  | n + 1 => sumTo f n + f n

/-- Bytes that a thread in a call has acquired and that are not charged for memory in use. -/
def Pc.held : Pc → Nat
  | .granted r size => r.charge size
  | .releasing n => n
  | _ => 0

theorem sumTo_upd_ge (pc : Nat → Pc) (t : Nat) (v : Pc) (n : Nat) (h : n ≤ t) :
    sumTo (fun k => (upd pc t v k).held) n = sumTo (fun k => (pc k).held) n := by
  induction n with
  | zero => rfl
  | succ n ih =>
    simp only [sumTo]
    rw [ih (by omega)]
    have : upd pc t v n = pc n := by unfold upd; rw [if_neg (by omega)]
    rw [this]

theorem sumTo_upd (pc : Nat → Pc) (t : Nat) (v : Pc) (n : Nat) (h : t < n) :
    sumTo (fun k => (upd pc t v k).held) n + (pc t).held = sumTo (fun k => (pc k).held) n + v.held := by
  induction n with
  | zero => omega
  | succ n ih =>
    simp only [sumTo]
    by_cases e : t = n
    · subst e
      rw [sumTo_upd_ge pc t v t (Nat.le_refl _)]
      have : upd pc t v t = v := by unfold upd; rw [if_pos rfl]
      rw [this]; omega
    · have : upd pc t v n = pc n := by unfold upd; rw [if_neg (by omega)]
      rw [this]
      have := ih (by omega)
      omega

theorem sumTo_le (f : Nat → Nat) (n t : Nat) (h : t < n) : f t ≤ sumTo f n := by
  induction n with
  | zero => omega
  | succ n ih =>
    simp only [sumTo]
    by_cases e : t = n
    · subst e; omega
    · have := ih (by omega); omega

theorem sumTo_zero (f : Nat → Nat) (n : Nat) (h : ∀ t < n, f t = 0) : sumTo f n = 0 := by
  induction n with
  | zero => rfl
  | succ n ih => simp only [sumTo]; rw [ih (fun t ht => h t (by omega)), h n (by omega)]

/-- Bytes that threads in calls hold together. -/
def heldSum (pc : Nat → Pc) (n : Nat) : Nat := sumTo (fun k => (pc k).held) n

theorem heldSum_upd {pc : Nat → Pc} {t : Nat} {v p : Pc} {n : Nat} (h : t < n) (hp : pc t = p) :
    heldSum (upd pc t v) n + p.held = heldSum pc n + v.held := by
  rw [← hp]; exact sumTo_upd pc t v n h

/-- What callers must obey: there are `n` threads, and with the size of a request and its overhead the limit does not exceed `size_t`; pools have slots
that are not empty. -/
def Ok (max n : Nat) : Step → Prop
  | .call t .arena size => t < n ∧ max + (size + 32) < 2 ^ 64
  | .call t (.pool slot) _ => t < n ∧ 0 < slot ∧ max + slot < 2 ^ 64
  | .run t => t < n
  | .inner t _ => t < n
  | .free t _ => t < n
  | .release t => t < n

theorem charge_ok {max n t : Nat} {r : Src} {size : Nat} (h : Ok max n (.call t r size)) :
    t < n ∧ 0 < r.charge size ∧ max + r.charge size < 2 ^ 64 := by
  cases r with
  | arena =>
    obtain ⟨h1, h2⟩ := h
    have : Src.arena.charge size = size + 32 := by simp only [Src.charge]; omega
    rw [this]; omega
  | pool slot => exact h

/-- The thread of the limiter is where the thread of the allocator is. -/
def Match (p : Pc) (q : MemoryLimiter.Pc) : Prop :=
  match p with
  | .acquiring r size => 0 < r.charge size ∧ (q = .start (r.charge size) ∨ ∃ c, q = .loaded (r.charge size) c)
  | .granted r size => 0 < r.charge size ∧ q = .idle
  | .releasing n => 0 < n ∧ q = .idle
  | .idle => q = .idle

structure Inv (max n : Nat) (s : Sys) : Prop where
  reach : Reach max (fun k => max + k < 2 ^ 64) s.lim
  total : s.lim.total = s.used + heldSum s.pc n
  pcs : ∀ t, Match (s.pc t) (s.lim.pc t)
  pos : ∀ b ∈ s.blocks, 0 < b.src.charge b.size
  nodup : (s.blocks.map (·.ptr)).Nodup

theorem inv_init (max n : Nat) : Inv max n (.init max) where
  reach := .init
  total := by
    have : heldSum (Sys.init max).pc n = 0 := sumTo_zero _ n (fun _ _ => rfl)
    rw [this]; rfl
  pcs := fun t => rfl
  pos := by intro b hb; cases hb
  nodup := List.nodup_nil

theorem reach_max {max : Nat} (hmax : 0 < max) (hmax2 : max < 2 ^ 64) {s : MemoryLimiter.State} (h : Reach max (fun k => max + k < 2 ^ 64) s) :
    s.max = max := by
  have : MemoryLimiter.Inv max s := by
    induction h with
    | init =>
      exact ⟨rfl, rfl, Nat.zero_le _, fun _ _ h => by simp [MemoryLimiter.State.init] at h,
        fun _ _ _ h => by simp [MemoryLimiter.State.init] at h, rfl⟩
    | step st _ hl hok ih => exact MemoryLimiter.inv_step hmax hmax2 ih st hl hok
  exact this.1

theorem upd_same (f : Nat → Pc) (t : Nat) (v : Pc) : upd f t v t = v := by unfold upd; rw [if_pos rfl]
theorem upd_ne (f : Nat → Pc) {t k : Nat} (v : Pc) (h : k ≠ t) : upd f t v k = f k := by unfold upd; rw [if_neg h]

theorem lim_same (f : Nat → MemoryLimiter.Pc) (t : Nat) (v : MemoryLimiter.Pc) : MemoryLimiter.upd f t v t = v := by
  unfold MemoryLimiter.upd; rw [if_pos rfl]
theorem lim_ne (f : Nat → MemoryLimiter.Pc) {t k : Nat} (v : MemoryLimiter.Pc) (h : k ≠ t) : MemoryLimiter.upd f t v k = f k := by
  unfold MemoryLimiter.upd; rw [if_neg h]

theorem find_sum (l : List Block) (p : Nat) (b : Block) (h : l.find? (fun b => decide (b.ptr = p)) = some b) :
    (l.map fun b => b.src.charge b.size).sum = ((l.eraseP fun b => decide (b.ptr = p)).map fun b => b.src.charge b.size).sum + b.src.charge b.size := by
  induction l with
  | nil => cases h
  | cons a l ih =>
    rw [List.find?_cons] at h
    by_cases e : a.ptr = p
    · simp only [e, decide_true] at h
      cases h
      rw [List.eraseP_cons_of_pos (by simp [e])]
      simp only [List.map_cons, List.sum_cons]; omega
    · simp only [e, decide_false] at h
      rw [List.eraseP_cons_of_neg (by simp [e])]
      simp only [List.map_cons, List.sum_cons]
      have := ih h
      omega

theorem inv_step {max n : Nat} {s : Sys} (h : Inv max n s) (st : Step) (ho : Ok max n st) : Inv max n (s.step st) := by
  cases st with
  | call t r size =>
    simp only [Sys.step]
    obtain ⟨h1, h2, h3⟩ := charge_ok ho
    have hm := h.pcs t
    split
    · next hp =>
      rw [hp] at hm
      simp only [Match] at hm
      have hl : s.lim.step (.call t (r.charge size)) = { s.lim with pc := MemoryLimiter.upd s.lim.pc t (.start (r.charge size)) } := by
        simp only [MemoryLimiter.State.step]; rw [hm]; simp only; rw [if_neg (by omega)]
      refine ⟨Reach.step (.call t (r.charge size)) h.reach ⟨h2, by omega⟩ ?_, ?_, ?_, h.pos, h.nodup⟩
      · intro t' n' e; cases e; exact h3
      · have := heldSum_upd (v := (.acquiring r size)) h1 hp
        simp only [Pc.held] at this
        rw [hl]
        have ht := h.total
        simp only [Sys.used] at ht ⊢
        omega
      · intro k
        rw [hl]
        by_cases e : k = t
        · subst e; simp only; rw [upd_same, lim_same]; exact ⟨h2, .inl rfl⟩
        · simp only; rw [upd_ne _ _ e, lim_ne _ _ e]; exact h.pcs k
    · exact h
  | run t =>
    simp only [Sys.step]
    have hm := h.pcs t
    have ht : t < n := ho
    have hr : Reach max (fun k => max + k < 2 ^ 64) (s.lim.step (.run t)) := Reach.step (.run t) h.reach trivial (by intro _ _ e; cases e)
    split
    · next r size hp =>
      rw [hp] at hm
      obtain ⟨h2, hq⟩ := hm
      rcases hq with hq | ⟨c, hq⟩
      · by_cases hc : 0 < s.lim.max ∧ (s.lim.acq + r.charge size) % 2 ^ 64 > s.lim.max
        · have hl : s.lim.step (.run t) = { s.lim with pc := MemoryLimiter.upd s.lim.pc t .idle } := by
            simp only [MemoryLimiter.State.step]; rw [hq]; simp only; rw [if_pos hc]
          rw [hl] at hr ⊢
          simp only [hq, lim_same]
          refine ⟨hr, ?_, ?_, h.pos, h.nodup⟩
          · have := heldSum_upd (v := .idle) ht hp
            simp only [Pc.held] at this
            have ht := h.total
            simp only [Sys.used] at ht ⊢
            omega
          · intro k
            by_cases e : k = t
            · subst e; simp only; rw [upd_same, lim_same]; rfl
            · simp only; rw [upd_ne _ _ e, lim_ne _ _ e]; exact h.pcs k
        · have hl : s.lim.step (.run t) = { s.lim with pc := MemoryLimiter.upd s.lim.pc t (.loaded (r.charge size) s.lim.acq) } := by
            simp only [MemoryLimiter.State.step]; rw [hq]; simp only; rw [if_neg hc]
          rw [hl] at hr ⊢
          simp only [hq, lim_same]
          refine ⟨hr, h.total, ?_, h.pos, h.nodup⟩
          intro k
          by_cases e : k = t
          · subst e; simp only; rw [lim_same, hp]; exact ⟨h2, .inr ⟨_, rfl⟩⟩
          · simp only; rw [lim_ne _ _ e]; exact h.pcs k
      · by_cases hc : s.lim.acq = c
        · have hl : s.lim.step (.run t) = { s.lim with acq := (c + r.charge size) % 2 ^ 64, pc := MemoryLimiter.upd s.lim.pc t .idle, total := s.lim.total + r.charge size } := by
            simp only [MemoryLimiter.State.step]; rw [hq]; simp only; rw [if_pos hc]
          rw [hl] at hr ⊢
          simp only [hq, lim_same]
          refine ⟨hr, ?_, ?_, h.pos, h.nodup⟩
          · have := heldSum_upd (v := (.granted r size)) ht hp
            simp only [Pc.held] at this
            have ht := h.total
            simp only [Sys.used] at ht ⊢
            omega
          · intro k
            by_cases e : k = t
            · subst e; simp only; rw [upd_same, lim_same]; exact ⟨h2, rfl⟩
            · simp only; rw [upd_ne _ _ e, lim_ne _ _ e]; exact h.pcs k
        · have hl : s.lim.step (.run t) = { s.lim with pc := MemoryLimiter.upd s.lim.pc t (.start (r.charge size)) } := by
            simp only [MemoryLimiter.State.step]; rw [hq]; simp only; rw [if_neg hc]
          rw [hl] at hr ⊢
          simp only [hq, lim_same]
          refine ⟨hr, h.total, ?_, h.pos, h.nodup⟩
          intro k
          by_cases e : k = t
          · subst e; simp only; rw [lim_same, hp]; exact ⟨h2, .inl rfl⟩
          · simp only; rw [lim_ne _ _ e]; exact h.pcs k
    · exact h
  | inner t m =>
    simp only [Sys.step]
    have hm := h.pcs t
    have ht : t < n := ho
    split
    · next r size hp =>
      rw [hp] at hm
      obtain ⟨h2, hq⟩ := hm
      cases m with
      | none =>
        simp only
        refine ⟨h.reach, ?_, ?_, h.pos, h.nodup⟩
        · have := heldSum_upd (v := (.releasing (r.charge size))) ht hp
          simp only [Pc.held] at this
          have ht := h.total
          simp only [Sys.used] at ht ⊢
          omega
        · intro k
          by_cases e : k = t
          · subst e; simp only; rw [upd_same]; exact ⟨h2, hq⟩
          · simp only; rw [upd_ne _ _ e]; exact h.pcs k
      | some p =>
        simp only
        split
        · next hf =>
          refine ⟨h.reach, ?_, ?_, ?_, ?_⟩
          · have := heldSum_upd (v := .idle) ht hp
            simp only [Pc.held] at this
            have ht := h.total
            simp only [Sys.used, List.map_cons, List.sum_cons] at ht ⊢
            omega
          · intro k
            by_cases e : k = t
            · subst e; simp only; rw [upd_same]; exact hq
            · simp only; rw [upd_ne _ _ e]; exact h.pcs k
          · intro b hb
            rcases List.mem_cons.1 hb with rfl | hb
            · exact h2
            · exact h.pos b hb
          · simp only [List.map_cons, List.nodup_cons]
            refine ⟨?_, h.nodup⟩
            intro hb
            obtain ⟨b, hb, e⟩ := List.mem_map.1 hb
            have := List.all_eq_true.1 hf b hb
            simp [e] at this
        · exact h
    · exact h
  | free t p =>
    simp only [Sys.step]
    have hm := h.pcs t
    have ht : t < n := ho
    split
    · next hp =>
      rw [hp] at hm
      split
      · next b hb =>
        have hb2 := List.mem_of_find?_eq_some hb
        refine ⟨h.reach, ?_, ?_, ?_, ?_⟩
        · have := heldSum_upd (v := (.releasing (b.src.charge b.size))) ht hp
          simp only [Pc.held] at this
          have ht := h.total
          have hs := find_sum s.blocks p b hb
          simp only [Sys.used] at ht ⊢
          omega
        · intro k
          by_cases e : k = t
          · subst e; simp only; rw [upd_same]; exact ⟨h.pos b hb2, hm⟩
          · simp only; rw [upd_ne _ _ e]; exact h.pcs k
        · intro c hc; exact h.pos c (List.mem_of_mem_eraseP hc)
        · exact h.nodup.sublist (List.eraseP_sublist.map _)
      · exact h
    · exact h
  | release t =>
    simp only [Sys.step]
    have hm := h.pcs t
    have ht : t < n := ho
    split
    · next k hp =>
      rw [hp] at hm
      obtain ⟨h2, hq⟩ := hm
      have hle : (s.pc t).held ≤ heldSum s.pc n := sumTo_le (fun k => (s.pc k).held) n t ht
      rw [hp] at hle
      simp only [Pc.held] at hle
      have htot := h.total
      refine ⟨Reach.step (.release k) h.reach ⟨h2, ?_⟩ (by intro _ _ e; cases e), ?_, ?_, h.pos, h.nodup⟩
      · omega
      · have := heldSum_upd (v := .idle) ht hp
        simp only [Pc.held] at this
        simp only [Sys.used, MemoryLimiter.State.step] at htot ⊢
        omega
      · intro j
        by_cases e : j = t
        · subst e; simp only; rw [upd_same]; exact hq
        · simp only; rw [upd_ne _ _ e]; exact h.pcs j
    · exact h

theorem inv_run {max n : Nat} (l : List Step) (ho : ∀ st ∈ l, Ok max n st) : ∀ s, Inv max n s → Inv max n (s.run l) := by
  induction l with
  | nil => intro s h; exact h
  | cons a l ih =>
    intro s h
    exact ih (fun st hs => ho st (List.mem_cons_of_mem _ hs)) _ (inv_step h a (ho a List.mem_cons_self))

/-- **C132** (limit). Allocators that share a limiter with a limit, used by any number of threads in any interleaving, with requests that do not overflow:
memory in use, with its overhead, never exceeds the limit; nor does what the limiter reports, which covers memory in use; the limiter never aborts. Whenever
no thread is in a call, the limiter reports exactly the memory in use; in particular nothing when all memory was returned, so that the destructor of
the limiter (memory_limiter.cpp:23-29) does not abort. Addresses in use are distinct. -/
theorem C132_limit (max n : Nat) (hmax : 0 < max) (hmax2 : max < 2 ^ 64) (l : List Step) (ho : ∀ st ∈ l, Ok max n st) (s : Sys)
    (hs : s = (Sys.init max).run l) :
    s.used ≤ s.lim.acq ∧ s.lim.acq ≤ max ∧ s.lim.panicked = false ∧ ((∀ t, s.pc t = .idle) → s.lim.acq = s.used) ∧
    (s.blocks.map (·.ptr)).Nodup := by
  subst hs
  have h := inv_run l ho _ (inv_init max n)
  obtain ⟨h1, h2, h3⟩ := MemoryLimiter.C16_limit_partial max hmax hmax2 _ h.reach
  have ht := h.total
  refine ⟨by omega, by omega, h3, ?_, h.nodup⟩
  intro hi
  have : heldSum ((Sys.init max).run l).pc n = 0 := sumTo_zero _ n (fun t _ => by rw [hi t]; rfl)
  omega

/-- A request is refused by the limiter only if the request, memory in use, and what threads in calls hold exceed the limit together. -/
theorem C132_refused (max n : Nat) (hmax : 0 < max) (hmax2 : max < 2 ^ 64) (l : List Step) (ho : ∀ st ∈ l, Ok max n st) (s : Sys)
    (hs : s = (Sys.init max).run l) (t : Nat) (r : Src) (size : Nat) (hp : s.pc t = .acquiring r size)
    (hi : (s.step (.run t)).pc t = .idle) :
    s.used + heldSum s.pc n + r.charge size > max ∧ (s.step (.run t)).results = s.results ++ [(t, none)] := by
  have h : Inv max n s := by rw [hs]; exact inv_run l ho _ (inv_init max n)
  obtain ⟨h1, h2, h3⟩ := MemoryLimiter.C16_limit_partial max hmax hmax2 _ h.reach
  have hm := h.pcs t
  have htot := h.total
  have hmx : s.lim.max = max := reach_max hmax hmax2 h.reach
  rw [hp] at hm
  obtain ⟨hpos, hq⟩ := hm
  simp only [Sys.step, hp] at hi ⊢
  rcases hq with hq | ⟨c, hq⟩
  · by_cases hc : 0 < s.lim.max ∧ (s.lim.acq + r.charge size) % 2 ^ 64 > s.lim.max
    · have hl : s.lim.step (.run t) = { s.lim with pc := MemoryLimiter.upd s.lim.pc t .idle } := by
        simp only [MemoryLimiter.State.step]; rw [hq]; simp only; rw [if_pos hc]
      simp only [hl, hq, lim_same]
      refine ⟨?_, trivial⟩
      have := Nat.mod_le (s.lim.acq + r.charge size) (2 ^ 64)
      omega
    · have hl : s.lim.step (.run t) = { s.lim with pc := MemoryLimiter.upd s.lim.pc t (.loaded (r.charge size) s.lim.acq) } := by
        simp only [MemoryLimiter.State.step]; rw [hq]; simp only; rw [if_neg hc]
      simp only [hl, hq, lim_same] at hi
      simp only [hp] at hi
      cases hi
  · by_cases hc : s.lim.acq = c
    · have hl : s.lim.step (.run t) = { s.lim with acq := (c + r.charge size) % 2 ^ 64, pc := MemoryLimiter.upd s.lim.pc t .idle, total := s.lim.total + r.charge size } := by
        simp only [MemoryLimiter.State.step]; rw [hq]; simp only; rw [if_pos hc]
      simp only [hl, hq, lim_same] at hi
      simp only [upd_same] at hi
      cases hi
    · have hl : s.lim.step (.run t) = { s.lim with pc := MemoryLimiter.upd s.lim.pc t (.start (r.charge size)) } := by
        simp only [MemoryLimiter.State.step]; rw [hq]; simp only; rw [if_neg hc]
      simp only [hl, hq, lim_same] at hi
      simp only [hp] at hi
      cases hi

theorem step_fit {s : Sys} {t n : Nat} {r : Src} {size : Nat} (hp : s.pc t = .acquiring r size) (hq : s.lim.pc t = .start n)
    (hc : ¬ (0 < s.lim.max ∧ (s.lim.acq + n) % 2 ^ 64 > s.lim.max)) :
    s.step (.run t) = { s with lim := { s.lim with pc := MemoryLimiter.upd s.lim.pc t (.loaded n s.lim.acq) } } := by
  have hl : s.lim.step (.run t) = { s.lim with pc := MemoryLimiter.upd s.lim.pc t (.loaded n s.lim.acq) } := by
    simp only [MemoryLimiter.State.step]; rw [hq]; simp only; rw [if_neg hc]
  simp only [Sys.step, hp, hl, hq, lim_same]

theorem step_refuse {s : Sys} {t n : Nat} {r : Src} {size : Nat} (hp : s.pc t = .acquiring r size) (hq : s.lim.pc t = .start n)
    (hc : 0 < s.lim.max ∧ (s.lim.acq + n) % 2 ^ 64 > s.lim.max) :
    s.step (.run t) = { s with lim := { s.lim with pc := MemoryLimiter.upd s.lim.pc t .idle }, pc := upd s.pc t .idle, results := s.results ++ [(t, none)] } := by
  have hl : s.lim.step (.run t) = { s.lim with pc := MemoryLimiter.upd s.lim.pc t .idle } := by
    simp only [MemoryLimiter.State.step]; rw [hq]; simp only; rw [if_pos hc]
  simp only [Sys.step, hp, hl, hq, lim_same]

theorem step_exchange {s : Sys} {t n : Nat} {r : Src} {size : Nat} (hp : s.pc t = .acquiring r size) (hq : s.lim.pc t = .loaded n s.lim.acq) :
    (s.step (.run t)).pc = upd s.pc t (.granted r size) ∧ (s.step (.run t)).blocks = s.blocks := by
  have hl : s.lim.step (.run t) = { s.lim with acq := (s.lim.acq + n) % 2 ^ 64, pc := MemoryLimiter.upd s.lim.pc t .idle, total := s.lim.total + n } := by
    simp only [MemoryLimiter.State.step]; rw [hq]; simp only; rw [if_pos trivial]
  simp only [Sys.step, hp, hl, hq, lim_same]
  exact ⟨trivial, trivial⟩

/-- A request made when no other call is in progress is granted exactly if it fits into the limit together with memory in use; then the caller gets
what the allocator below returns. Otherwise a null pointer is returned. -/
theorem C132_granted (max n : Nat) (hmax : 0 < max) (hmax2 : max < 2 ^ 64) (l : List Step) (ho : ∀ st ∈ l, Ok max n st) (s : Sys)
    (hs : s = (Sys.init max).run l) (hq : ∀ t, s.pc t = .idle) (t : Nat) (r : Src) (size : Nat) (hc : Ok max n (.call t r size)) (p : Nat)
    (hf : s.fresh p = true) :
    (s.used + r.charge size ≤ max →
      (s.run [.call t r size, .run t, .run t, .inner t (some p)]).blocks = ⟨p, r, size⟩ :: s.blocks) ∧
    (max < s.used + r.charge size →
      (s.run [.call t r size, .run t]).pc t = .idle ∧ (s.run [.call t r size, .run t]).blocks = s.blocks ∧
      (s.run [.call t r size, .run t]).results = s.results ++ [(t, none)]) := by
  have h : Inv max n s := by rw [hs]; exact inv_run l ho _ (inv_init max n)
  have h0 := C132_limit max n hmax hmax2 l ho s hs
  have hacq := h0.2.2.2.1 hq
  obtain ⟨ht, hpos, hov⟩ := charge_ok hc
  have hmx : s.lim.max = max := reach_max hmax hmax2 h.reach
  have hm := h.pcs t
  rw [hq t] at hm
  simp only [Match] at hm
  have hl : s.lim.step (.call t (r.charge size)) = { s.lim with pc := MemoryLimiter.upd s.lim.pc t (.start (r.charge size)) } := by
    simp only [MemoryLimiter.State.step]; rw [hm]; simp only; rw [if_neg (by omega)]
  have hmod : (s.lim.acq + r.charge size) % 2 ^ 64 = s.lim.acq + r.charge size := Nat.mod_eq_of_lt (by omega)
  have h1 : s.step (.call t r size) = { s with lim := { s.lim with pc := MemoryLimiter.upd s.lim.pc t (.start (r.charge size)) }, pc := upd s.pc t (.acquiring r size) } := by
    simp only [Sys.step, hq t, hl]
  simp only [Sys.run, List.foldl_cons, List.foldl_nil]
  rw [h1]
  constructor
  · intro hfit
    generalize hg1 : (Sys.mk _ _ _ _) = s1
    have e0 := step_fit (s := s1) (t := t) (n := r.charge size) (r := r) (size := size) (by rw [← hg1]; simp only; rw [upd_same])
      (by rw [← hg1]; simp only; rw [lim_same]) (by rw [← hg1]; simp only; rw [hmod, hmx]; omega)
    rw [e0, ← hg1]
    simp only
    generalize hg : (Sys.mk _ _ _ _) = s2
    have e := step_exchange (s := s2) (t := t) (n := r.charge size) (r := r) (size := size) (by rw [← hg]; simp only; rw [upd_same])
      (by rw [← hg]; simp only; rw [lim_same])
    generalize s2.step (.run t) = s3 at e ⊢
    obtain ⟨e1, e2⟩ := e
    have e3 : s3.blocks = s.blocks := by rw [e2, ← hg]
    have hf' : s3.fresh p = true := by unfold Sys.fresh at hf ⊢; rw [e3]; exact hf
    simp only [Sys.step, e1, upd_same, hf', if_true, e3]
  · intro hbig
    rw [step_refuse (t := t) (n := r.charge size) (r := r) (size := size) (by simp only; rw [upd_same]) (by simp only; rw [lim_same]) (by simp only; rw [hmod, hmx]; omega)]
    exact ⟨upd_same _ _ _, rfl, rfl⟩

/-- **C132 fails** for sizes close to the maximum of `size_t`. A request of 2^64 - 32 bytes from a limited heap arena aborts the program ("tried to acquire
zero bytes"), instead of returning a null pointer; for larger requests less than 32 bytes are charged. -/
theorem C132_huge_fails (s : Sys) (t : Nat) (hp : s.pc t = .idle) (hl : s.lim.pc t = .idle) :
    (s.step (.call t .arena (2 ^ 64 - 32))).lim.panicked = true ∧
    ∀ size, 2 ^ 64 - 32 < size → size < 2 ^ 64 → Src.arena.charge size < 32 := by
  constructor
  · simp [Sys.step, hp, MemoryLimiter.State.step, hl, Src.charge]
  · intro size h1 h2
    simp only [Src.charge]; omega

/-! ### Cases -/

/-- Two threads share a limit of 200 bytes: 100 bytes from the arena (132 with overhead), a slot of 48 bytes from a pool, interleaved. -/
def sample : List Step :=
  [.call 0 .arena 100, .call 1 (.pool 48) 40, .run 0, .run 1, .run 1, .run 0, .run 0, .inner 1 (some 1000), .run 0, .inner 0 (some 2000)]

theorem sample_ok : ∀ st ∈ sample, Ok 200 2 st := by
  intro st h
  simp only [sample, List.mem_cons, List.not_mem_nil, or_false] at h
  rcases h with rfl | rfl | rfl | rfl | rfl | rfl | rfl | rfl | rfl | rfl <;> simp [Ok]

example : ((Sys.init 200).run sample).used = 180 ∧ ((Sys.init 200).run sample).lim.acq ≤ 200 :=
  ⟨by decide +kernel, (C132_limit 200 2 (by decide) (by decide) sample sample_ok _ rfl).2.1⟩

/-- With 180 of 200 bytes in use, a slot of 16 bytes is granted, and one of 48 bytes is not. -/
example : (((Sys.init 200).run sample).run [.call 1 (.pool 16) 8, .run 1, .run 1, .inner 1 (some 3000)]).blocks.length = 3 ∧
    (((Sys.init 200).run sample).run [.call 1 (.pool 48) 8, .run 1]).blocks = ((Sys.init 200).run sample).blocks := by
  have hq : ∀ t, ((Sys.init 200).run sample).pc t = .idle := by
    intro t
    by_cases h0 : t = 0
    · subst h0; rfl
    · by_cases h1 : t = 1
      · subst h1; rfl
      · have : ((Sys.init 200).run sample).pc t = upd (upd (upd (upd (upd (upd (fun _ => .idle) 0 (.acquiring .arena 100)) 1 (.acquiring (.pool 48) 40)) 1
          (.granted (.pool 48) 40)) 1 .idle) 0 (.granted .arena 100)) 0 .idle t := rfl
        rw [this]; simp [upd, h0, h1]
  constructor
  · rw [(C132_granted 200 2 (by decide) (by decide) sample sample_ok _ rfl hq 1 (.pool 16) 8 (by simp [Ok]) 3000 (by decide +kernel)).1 (by decide +kernel)]
    decide +kernel
  · exact ((C132_granted 200 2 (by decide) (by decide) sample sample_ok _ rfl hq 1 (.pool 48) 8 (by simp [Ok]) 3000 (by decide +kernel)).2 (by decide +kernel)).2.1

/-- A refused request: the hypotheses of `C132_refused` are met by the second one, with a limit of 150 bytes. -/
example : ∃ s, s = (Sys.init 150).run [.call 0 .arena 100, .run 0, .run 0, .call 1 (.pool 48) 40] ∧ s.pc 1 = .acquiring (.pool 48) 40 ∧
    (s.step (.run 1)).pc 1 = .idle := ⟨_, rfl, rfl, rfl⟩

/-- The hypotheses of `C132_huge_fails` are met by the initial state. -/
example : ((Sys.init 150).step (.call 0 .arena (2 ^ 64 - 32))).lim.panicked = true := (C132_huge_fails _ 0 rfl rfl).1

end Verif.LimitedAlloc
