import Verif.SendTool.Spec
import Verif.SendTool.Lemmas

/-!
# C128: endpoints on the command line of `roc-send`

For all lists of URIs and all failures of the environment.
-/

namespace Verif.SendTool

open ApiConfig (Iface Proto Fec)
open EncoderApi (protoIface protoFec fits)
open SenderSlots (Sink Slot Conf Ev Log Mon)

/-- All passes of a loop succeed. -/
def AllOk (P : Proto → CallEnv → Prop) (env : Nat → CallEnv) : Nat → List Uri → Prop
  | _, [] => True
  | _, none :: _ => False
  | k, some (p, _) :: us => P p (env k) ∧ AllOk P env (k + 1) us

/-- The loop either comes to its last state, or leaves the program; it aborts only if `ab` says so. -/
theorem loop_gen (c : Conf) (i : Iface) (env : Nat → CallEnv) (P : Proto → CallEnv → Prop) (N : Nat → Node) (ab : CallEnv → Prop) (lim : Nat) (M : Nat → Proto → Bool → Prop)
    (h : ∀ k p m, k < lim → M k p m → (P p (env k) → (N k).connect c k i (some (p, m)) (env k) = .ok (N (k + 1))) ∧
      (¬ P p (env k) → (N k).connect c k i (some (p, m)) (env k) = .exit ∨ (N k).connect c k i (some (p, m)) (env k) = .abort ∧ ab (env k))) :
    ∀ (us : List Uri) (k : Nat), k + us.length ≤ lim → (∀ j p m, us[j]? = some (some (p, m)) → M (k + j) p m) →
      (AllOk P env k us ∧ (N k).loop c i env k us = .ok (N (k + us.length))) ∨
      (¬ AllOk P env k us ∧ ((N k).loop c i env k us = .exit ∨ (N k).loop c i env k us = .abort ∧ ∃ j < k + us.length, ab (env j))) := by
  intro us
  induction us with
  | nil => intro k _ _; exact .inl ⟨trivial, rfl⟩
  | cons u us ih =>
    intro k hk hM
    simp only [List.length_cons] at hk
    rcases u with _ | ⟨p, m⟩
    · exact .inr ⟨fun h => h, .inl rfl⟩
    · obtain ⟨h1, h2⟩ := h k p m (by omega) (hM 0 p m rfl)
      by_cases hp : P p (env k)
      · have hl : (N k).loop c i env k (some (p, m) :: us) = (N (k + 1)).loop c i env (k + 1) us := by
          simp only [Node.loop, h1 hp]
        rw [hl]
        have e : k + (some (p, m) :: us).length = k + 1 + us.length := by simp only [List.length_cons]; omega
        rw [e]
        rcases ih (k + 1) (by omega) (fun j p m hj => by have := hM (j + 1) p m hj; rwa [show k + 1 + j = k + (j + 1) by omega]) with ⟨a, b⟩ | ⟨a, b⟩
        · exact .inl ⟨⟨hp, a⟩, b⟩
        · exact .inr ⟨fun h => a h.2, b⟩
      · refine .inr ⟨fun h => hp h.1, ?_⟩
        rcases h2 hp with h3 | ⟨h3, h4⟩
        · exact .inl (by simp only [Node.loop, h3])
        · exact .inr ⟨by simp only [Node.loop, h3], k, by simp only [List.length_cons]; omega, h4⟩

theorem allOk_mono {P Q : Proto → CallEnv → Prop} {env : Nat → CallEnv} (h : ∀ p k, P p (env k) → Q p (env k)) : ∀ (us : List Uri) (k : Nat), AllOk P env k us → AllOk Q env k us := by
  intro us
  induction us with
  | nil => intros; trivial
  | cons u us ih =>
    intro k h'
    rcases u with _ | ⟨p, m⟩
    · exact h'
    · exact ⟨h p k h'.1, ih _ h'.2⟩

theorem allOk_const {P : Proto → Prop} {env : Nat → CallEnv} : ∀ (us : List Uri) (k : Nat), AllOk (fun p _ => P p) env k us ↔ ∀ u ∈ us, ∃ p m, u = some (p, m) ∧ P p := by
  intro us
  induction us with
  | nil => intro k; simp [AllOk]
  | cons u us ih =>
    intro k
    rcases u with _ | ⟨p, m⟩
    · simp [AllOk]
    · simp only [AllOk, ih, List.mem_cons, forall_eq_or_imp]
      refine and_congr_left fun _ => ⟨fun h => ⟨p, m, rfl, h⟩, ?_⟩
      rintro ⟨p', m', e, h⟩
      cases e
      exact h

theorem allOk_at {P : Proto → CallEnv → Prop} {env : Nat → CallEnv} : ∀ (us : List Uri) (k : Nat), AllOk P env k us → ∀ j < us.length, ∃ p, P p (env (k + j)) := by
  intro us
  induction us with
  | nil => intro k _ j hj; simp at hj
  | cons u us ih =>
    intro k h j hj
    rcases u with _ | ⟨p, m⟩
    · exact h.elim
    · rcases j with _ | j
      · exact ⟨p, h.1⟩
      · obtain ⟨q, hq⟩ := ih (k + 1) h.2 j (by simpa using hj)
        exact ⟨q, by rwa [show k + (j + 1) = k + 1 + j by omega]⟩

theorem sp_fits (f : Fec) (p : Proto) : fits .audioSource p = some f ↔ p = sp f := by
  cases p <;> cases f <;> simp [fits, sp]

theorem rp_fits (f : Fec) (p : Proto) : fits .audioRepair p = some f ↔ some p = rp f := by
  cases p <;> cases f <;> simp [fits, rp]

/-- Multicast flags of the control endpoints. -/
def mcOf (us : List Uri) (k : Nat) : Bool :=
  match us[k]? with
  | some (some (_, m)) => m
  | _ => false

theorem incomplete_at (f : Fec) (a b c : Nat) (mc : Nat → Bool) : ∀ k ≤ a, (nodeAt f a b c mc).incomplete k = decide (f ≠ .none ∧ b < k) := by
  intro k
  induction k with
  | zero => intro _; simp [Node.incomplete]
  | succ k ih =>
    intro hk
    unfold Node.incomplete
    rw [ih (by omega)]
    have h1 : (nodeAt f a b c mc).slot k = some k := by simp [nodeAt]; omega
    have h2 : ((nodeAt f a b c mc).sink.slot k).writer = (decide (f = .none) || decide (k < b)) := by
      simp only [nodeAt, slotAt]
      simp [show k < a by omega]
    simp only [h1, h2]
    rw [Bool.eq_iff_iff]
    by_cases hf : f = .none
    · simp [hf]
    · simp only [hf, Bool.or_eq_true, Bool.not_eq_true', Bool.or_eq_false_iff, decide_eq_true_eq, decide_eq_false_iff_not, ne_eq, not_false_eq_true, true_and, decide_false]
      omega

theorem blockOk_iff (f : Fec) (v : Option Int) : blockOk f v = true ↔ ∀ x, v = some x → f ≠ .none ∧ 0 < x := by
  cases v <;> simp [blockOk]

/-- What `main` does. -/
theorem main_cases (supp : Fec → Bool) (a : Args) (env : Iface → Nat → CallEnv) :
    (∃ f, Valid supp a f ∧ main supp a env = .ok (nodeAt f a.sources.length a.repairs.length a.controls.length (mcOf a.controls)) ∧
      AllOk (SrcOk supp f) (env .audioSource) 0 a.sources ∧ AllOk (RepOk supp f) (env .audioRepair) 0 a.repairs ∧ AllOk CtlOk (env .audioControl) 0 a.controls) ∨
    ((∀ f, Valid supp a f → ¬ (AllOk (SrcOk supp f) (env .audioSource) 0 a.sources ∧ AllOk (RepOk supp f) (env .audioRepair) 0 a.repairs ∧ AllOk CtlOk (env .audioControl) 0 a.controls)) ∧
      (main supp a env = .exit ∨ main supp a env = .abort ∧ ∃ k < a.sources.length, (env .audioSource k).identity = false)) := by
  -- the scheme of valid options is the one that is chosen
  have hsch : ∀ f, Valid supp a f → scheme a.sources = some f := by
    intro f hv
    have h0 := hv.ne
    have h1 := hv.src
    cases hs : a.sources with
    | nil => exact absurd hs h0
    | cons u us =>
      obtain ⟨p, m, rfl, hp⟩ := h1 u (by rw [hs]; simp)
      cases p <;> simp [fits] at hp <;> subst hp <;> rfl
  cases hs : scheme a.sources with
  | none =>
    refine .inr ⟨fun f hv => ?_, .inl (by simp [main, hs])⟩
    rw [hsch f hv] at hs
    cases hs
  | some f =>
    have huniq : ∀ g, Valid supp a g → g = f := fun g hv => by
      have := hsch g hv
      rw [hs] at this
      exact (Option.some.inj this).symm
    have bad : (main supp a env = .exit ∨ main supp a env = .abort ∧ ∃ k < a.sources.length, (env .audioSource k).identity = false) →
        ¬ (Valid supp a f ∧ AllOk (SrcOk supp f) (env .audioSource) 0 a.sources ∧ AllOk (RepOk supp f) (env .audioRepair) 0 a.repairs ∧ AllOk CtlOk (env .audioControl) 0 a.controls) →
        (∀ f, Valid supp a f → ¬ (AllOk (SrcOk supp f) (env .audioSource) 0 a.sources ∧ AllOk (RepOk supp f) (env .audioRepair) 0 a.repairs ∧ AllOk CtlOk (env .audioControl) 0 a.controls)) ∧
      (main supp a env = .exit ∨ main supp a env = .abort ∧ ∃ k < a.sources.length, (env .audioSource k).identity = false) := by
      intro h1 h2
      exact ⟨fun g hv h3 => h2 (by have e := huniq g hv; subst e; exact ⟨hv, h3⟩), h1⟩
    by_cases hb : blockOk f a.nbsrc = false ∨ blockOk f a.nbrpr = false
    · refine .inr (bad (.inl (by simp only [main, hs, if_pos hb])) ?_)
      rintro ⟨hv, -⟩
      rcases hb with h | h
      · rw [(blockOk_iff f _).2 hv.nbsrc] at h; cases h
      · rw [(blockOk_iff f _).2 hv.nbrpr] at h; cases h
    by_cases h0 : a.sources.length = 0
    · refine .inr (bad (.inl (by simp only [main, hs, if_neg hb, if_pos h0])) ?_)
      rintro ⟨hv, -⟩
      exact hv.ne (List.length_eq_zero_iff.1 h0)
    by_cases h1 : a.repairs.length ≠ 0 ∧ a.repairs.length ≠ a.sources.length
    · refine .inr (bad (.inl (by simp only [main, hs, if_neg hb, if_neg h0, if_pos h1])) ?_)
      rintro ⟨hv, -⟩
      have := hv.nrep
      split at this <;> omega
    by_cases h2 : a.controls.length ≠ 0 ∧ a.controls.length ≠ a.sources.length
    · refine .inr (bad (.inl (by simp only [main, hs, if_neg hb, if_neg h0, if_neg h1, if_pos h2])) ?_)
      rintro ⟨hv, -⟩
      have := hv.nctl
      omega
    have hm : main supp a env = main supp a env := rfl
    conv at hm =>
      rhs
      simp only [main, hs]
      rw [if_neg hb, if_neg h0, if_neg h1, if_neg h2]
    have l1 := loop_gen ⟨supp, f⟩ .audioSource (env .audioSource) (SrcOk supp f) (fun k => nodeAt f k 0 0 (mcOf a.controls)) (fun e => e.identity = false) a.sources.length
      (fun _ _ _ => True) (fun k p m _ _ => ⟨(connect_src supp f k _ p m _).1, fun h => by
        rw [(connect_src supp f k _ p m _).2 h]
        split
        · next h => exact .inr ⟨rfl, h.2⟩
        · exact .inl rfl⟩) a.sources 0 (by omega) (fun _ _ _ _ => trivial)
    simp only [Nat.zero_add, ← node_init] at l1
    rcases l1 with ⟨a1, e1⟩ | ⟨a1, e1⟩
    swap
    · refine .inr (bad ?_ fun h => a1 h.2.1)
      rcases e1 with e1 | ⟨e1, k, hk, hi⟩
      · exact .inl (by rw [hm, e1])
      · exact .inr ⟨by rw [hm, e1], k, hk, hi⟩
    rw [e1] at hm
    have l2 := loop_gen ⟨supp, f⟩ .audioRepair (env .audioRepair) (RepOk supp f) (fun k => nodeAt f a.sources.length k 0 (mcOf a.controls)) (fun _ => False) a.sources.length
      (fun _ _ _ => True) (fun k p m hk _ => ⟨(connect_rep supp f _ k hk _ p m _).1, fun h => .inl ((connect_rep supp f _ k hk _ p m _).2 h)⟩) a.repairs 0 (by omega) (fun _ _ _ _ => trivial)
    simp only [Nat.zero_add, and_false, exists_false, or_false] at l2
    rcases l2 with ⟨a2, e2⟩ | ⟨a2, e2⟩
    swap
    · refine .inr (bad (.inl ?_) fun h => a2 h.2.2.1)
      rw [hm]
      simp only [e2]
    simp only [e2] at hm
    have l3 := loop_gen ⟨supp, f⟩ .audioControl (env .audioControl) CtlOk (fun k => nodeAt f a.sources.length a.repairs.length k (mcOf a.controls)) (fun _ => False) a.sources.length
      (fun k _ m => m = mcOf a.controls k) (fun k p m hk hm => by
        subst hm
        exact ⟨(connect_ctl supp f _ _ k hk _ p _).1, fun h => .inl ((connect_ctl supp f _ _ k hk _ p _).2 h)⟩) a.controls 0 (by omega)
      (fun j p m hj => by simp only [Nat.zero_add, mcOf, hj])
    simp only [Nat.zero_add, and_false, exists_false, or_false] at l3
    rcases l3 with ⟨a3, e3⟩ | ⟨a3, e3⟩
    swap
    · refine .inr (bad (.inl ?_) fun h => a3 h.2.2.2)
      rw [hm]
      simp only [e3]
    simp only [e3, incomplete_at f _ _ _ _ _ (Nat.le_refl _)] at hm
    have hsrc : ∀ u ∈ a.sources, ∃ p m, u = some (p, m) ∧ fits .audioSource p = some f :=
      (allOk_const (env := env .audioSource) _ 0).1 (allOk_mono (fun p k h => (sp_fits f p).2 h.1) _ _ a1)
    have hrep : ∀ u ∈ a.repairs, ∃ p m, u = some (p, m) ∧ fits .audioRepair p = some f :=
      (allOk_const (env := env .audioRepair) _ 0).1 (allOk_mono (fun p k h => (rp_fits f p).2 h.1) _ _ a2)
    have hctl : ∀ u ∈ a.controls, ∃ m, u = some (Proto.rtcp, m) := by
      intro u hu
      obtain ⟨p, m, rfl, rfl⟩ := (allOk_const (P := fun p => p = .rtcp) (env := env .audioControl) _ 0).1 (allOk_mono (fun p k h => h.1) _ _ a3) u hu
      exact ⟨m, rfl⟩
    have hnone : f = .none → a.repairs.length = 0 := by
      rintro rfl
      rcases hr : a.repairs with _ | ⟨u, us⟩
      · rfl
      · obtain ⟨p, m, rfl, hp⟩ := hrep u (by rw [hr]; simp)
        cases p <;> simp [fits] at hp
    by_cases hi : f ≠ .none ∧ a.repairs.length < a.sources.length
    · refine .inr (bad (.inl ?_) ?_)
      · rw [hm, decide_eq_true hi]
        rfl
      · rintro ⟨hv, -⟩
        have := hv.nrep
        rw [if_neg hi.1] at this
        omega
    · refine .inl ⟨f, ⟨fun h => h0 (by rw [h]; rfl), hsrc, hrep, hctl, ?_, by omega, ?_, ?_, ?_⟩, ?_, a1, a2, a3⟩
      · split
        · next h => exact hnone h
        · next h =>
          have : ¬ a.repairs.length < a.sources.length := fun h' => hi ⟨h, h'⟩
          omega
      · obtain ⟨p, hp⟩ := allOk_at _ _ a1 0 (by omega)
        exact hp.2.1
      · exact (blockOk_iff f _).1 (by simpa using fun h => hb (.inl h))
      · exact (blockOk_iff f _).1 (by simpa using fun h => hb (.inr h))
      · rw [hm, decide_eq_false hi]
        rfl

theorem rich_all (P : Proto → CallEnv → Prop) (env : Nat → CallEnv) (Q : Proto → Prop) (h : ∀ p k, Q p → P p (env k)) (us : List Uri)
    (hu : ∀ u ∈ us, ∃ p m, u = some (p, m) ∧ Q p) (k : Nat) : AllOk P env k us :=
  allOk_mono (P := fun p _ => Q p) (fun p k => h p k) us k ((allOk_const us k).2 hu)

/-- C128 (start): if nothing fails in the environment, `roc-send` starts exactly with the documented combinations of endpoints: at least one source,
all of the same protocol; a repair endpoint with the protocol that belongs to it for every source if that protocol has FEC, and none otherwise; no control endpoint or one per source. -/
theorem C128_start (supp : Fec → Bool) (a : Args) (env : Iface → Nat → CallEnv) (he : Rich env) : (∃ n, main supp a env = .ok n) ↔ ∃ f, Valid supp a f := by
  constructor
  · rintro ⟨n, hn⟩
    rcases main_cases supp a env with ⟨f, hv, -⟩ | ⟨-, h | ⟨h, -⟩⟩
    · exact ⟨f, hv⟩
    · rw [h] at hn; cases hn
    · rw [h] at hn; cases hn
  · rintro ⟨f, hv⟩
    rcases main_cases supp a env with ⟨f, hv, h, -⟩ | ⟨h, -⟩
    · exact ⟨_, h⟩
    · refine absurd ⟨?_, ?_, ?_⟩ (h f hv)
      · refine rich_all _ _ (fun p => fits .audioSource p = some f) (fun p k hp => ?_) _ hv.src 0
        rw [he]
        exact ⟨(sp_fits f p).1 hp, hv.supp, rfl, rfl, rfl, rfl, rfl, fun _ => rfl⟩
      · refine rich_all _ _ (fun p => fits .audioRepair p = some f) (fun p k hp => ?_) _ hv.rep 0
        rw [he]
        have hf : f ≠ .none := by rintro rfl; cases p <;> simp [fits] at hp
        exact ⟨(rp_fits f p).1 hp, hv.supp.resolve_left hf, rfl, rfl, rfl⟩
      · refine rich_all _ _ (fun p => p = .rtcp) (fun p k hp => ?_) _ (fun u hu => ?_) 0
        · rw [he]
          exact ⟨hp, rfl, rfl, rfl, rfl⟩
        · obtain ⟨m, rfl⟩ := hv.ctl u hu
          exact ⟨_, m, rfl, rfl⟩

/-- C128 (started): whatever fails in the environment, if `roc-send` comes to the pump, the options are as documented, and every frame goes to every slot, once, in order of the
command line. Slot `k` has the endpoints of the `k`-th options. Feedback is used for the slots that have a control endpoint whose address is not multicast. -/
theorem C128_started (supp : Fec → Bool) (a : Args) (env : Iface → Nat → CallEnv) (n : Node) (h : main supp a env = .ok n) :
    ∃ f, Valid supp a f ∧
      (∀ fr, n.sink.step ⟨supp, f⟩ (.write fr) = .ok n.sink (.wrote fr (List.range a.sources.length))) ∧ n.sink.active = a.sources.length ∧
      ∀ k, k < a.sources.length →
        n.slot k = some k ∧ (∃ m, a.sources[k]? = some ((n.sink.slot k).source.map fun p => (p, m))) ∧
        ((n.sink.slot k).repair = none ∧ a.repairs = [] ∨ ∃ m, a.repairs[k]? = some ((n.sink.slot k).repair.map fun p => (p, m))) ∧
        ((n.sink.slot k).rtcp = true ↔ a.controls ≠ []) ∧ ((n.sink.slot k).mon = .started ↔ a.controls[k]? = some (some (.rtcp, false))) := by
  rcases main_cases supp a env with ⟨f, hv, h', -⟩ | ⟨-, h' | ⟨h', -⟩⟩
  · rw [h'] at h
    cases h
    have hr := hv.nrep
    have hout : (if f = .none then a.sources.length else a.repairs.length) = a.sources.length := by
      split <;> simp_all
    refine ⟨f, hv, ?_, ?_, ?_⟩
    · intro fr
      simp only [Sink.step, nodeAt, hout]
    · simp only [nodeAt, hout]
    · intro k hk
      have hsl : (nodeAt f a.sources.length a.repairs.length a.controls.length (mcOf a.controls)).sink.slot k =
        slotAt f a.sources.length a.repairs.length a.controls.length (mcOf a.controls) k := rfl
      rw [hsl]
      refine ⟨by simp [nodeAt, hk], ?_, ?_, ?_, ?_⟩
      · obtain ⟨p, m, e, hp⟩ := hv.src _ (List.getElem_mem hk)
        refine ⟨m, ?_⟩
        rw [List.getElem?_eq_getElem hk, e, (sp_fits f p).1 hp]
        simp [slotAt, hk]
      · by_cases hf : f = .none
        · rw [if_pos hf] at hr
          exact .inl ⟨by simp [slotAt, hr], List.length_eq_zero_iff.1 hr⟩
        · rw [if_neg hf] at hr
          have hk' : k < a.repairs.length := by omega
          obtain ⟨p, m, e, hp⟩ := hv.rep _ (List.getElem_mem hk')
          refine .inr ⟨m, ?_⟩
          rw [List.getElem?_eq_getElem hk', e]
          simp [slotAt, hk', ← (rp_fits f p).1 hp]
      · simp only [slotAt, decide_eq_true_eq]
        have := hv.nctl
        rw [← List.length_pos_iff_ne_nil]
        omega
      · have hw : k < a.sources.length ∧ (f = .none ∨ k < a.repairs.length) := by
          refine ⟨hk, ?_⟩
          by_cases hf : f = .none
          · exact .inl hf
          · rw [if_neg hf] at hr
            exact .inr (by omega)
        simp only [slotAt, if_pos hw]
        by_cases hc : k < a.controls.length
        · obtain ⟨m, e⟩ := hv.ctl _ (List.getElem_mem hc)
          have e' : a.controls[k]? = some (some (.rtcp, m)) := by rw [List.getElem?_eq_getElem hc, e]
          have hmc : mcOf a.controls k = m := by simp only [mcOf, e']
          rw [e', hmc]
          cases m <;> simp [hc]
        · have e' : a.controls[k]? = none := List.getElem?_eq_none (by omega)
          rw [e']
          simp [hc]
  · rw [h'] at h; cases h
  · rw [h'] at h; cases h

/-- C128 (no abort): `roc-send` reports every other combination of endpoints and every failure of the environment by its exit code; it aborts only if the identity of a slot cannot be
generated. -/
theorem C128_no_abort (supp : Fec → Bool) (a : Args) (env : Iface → Nat → CallEnv) (h : ∀ k, (env .audioSource k).identity = true) :
    (∃ n, main supp a env = .ok n) ∨ main supp a env = .exit := by
  rcases main_cases supp a env with ⟨f, hv, h', -⟩ | ⟨-, h' | ⟨-, k, -, hk⟩⟩
  · exact .inl ⟨_, h'⟩
  · exact .inr h'
  · rw [h k] at hk; cases hk

/-- C128 (pipeline): if the pipeline of the slots cannot be constructed, for example because the latency options are not valid, `roc-send` does not start, with or without FEC and control
endpoints. -/
theorem C128_pipeline (supp : Fec → Bool) (a : Args) (env : Iface → Nat → CallEnv) (h : ∀ k, (env .audioSource k).identity = true)
    (hp : ∀ i k, (env i k).add.pipe ≠ .ok) : main supp a env = .exit := by
  rcases main_cases supp a env with ⟨f, hv, h', a1, a2, -⟩ | ⟨-, h' | ⟨-, k, -, hk⟩⟩
  · have hl : 0 < a.sources.length := List.length_pos_iff_ne_nil.2 hv.ne
    by_cases hf : f = .none
    · obtain ⟨p, hq⟩ := allOk_at _ _ a1 0 hl
      exact absurd (hq.2.2.2.2.2.2.2 hf) (hp _ _)
    · have hr := hv.nrep
      rw [if_neg hf] at hr
      obtain ⟨p, hq⟩ := allOk_at _ _ a2 0 (by omega)
      exact absurd hq.2.2.2.2 (hp _ _)
  · exact h'
  · rw [h k] at hk; cases hk

/-- Two slots with Reed-Solomon and control endpoints, one of them multicast. -/
def sampleArgs : Args where
  nbsrc := some 20
  nbrpr := none
  sources := [some (.rtpRs8mSource, false), some (.rtpRs8mSource, true)]
  repairs := [some (.rs8mRepair, false), some (.rs8mRepair, true)]
  controls := [some (.rtcp, false), some (.rtcp, true)]

/-- An environment without failures. -/
def richEnv : Iface → Nat → CallEnv := fun _ _ => ⟨true, true, true, true, .rich, true⟩

example : Rich richEnv ∧ Valid (fun _ => true) sampleArgs .rs8m := by
  refine ⟨fun _ _ => rfl, ?_⟩
  constructor <;> simp [sampleArgs, fits]

example : (match main (fun _ => true) sampleArgs richEnv with | .ok n => n.sink.outs | _ => []) = [0, 1] := by decide

example : (match main (fun _ => true) { sampleArgs with repairs := [] } richEnv with | .exit => true | _ => false) = true := by decide

example : (match main (fun _ => true) { sampleArgs with sources := [some (.rtpRs8mSource, false), some (.rtp, true)] } richEnv with | .exit => true | _ => false) = true := by decide

example : (match main (fun _ => true) sampleArgs (fun _ _ => ⟨true, true, true, true, ⟨true, .badMonitor, true⟩, true⟩) with | .exit => true | _ => false) = true := by decide

end Verif.SendTool
