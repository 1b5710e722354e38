import Verif.SessionRouter.Group
import Verif.Reporter.Run

/-!
# Session group and RTCP reporter together

The calls that the reporter makes to the session group (its participant): `halt_recv_stream` and `notify_recv_stream`. The state of the reporter is that of
`Verif.Reporter`; what the group returns to the reporter is arbitrary.
-/

namespace Verif.SessionRouter

open Verif.Reporter (Ev Stream Part)

/-- Number of a CNAME; the empty one is `none`. -/
def enc (code : List Nat → Nat) (t : List Nat) : Option Nat := if t = [] then none else some (code t)

/-- `halt_recv_stream` during the processing of an element of a packet (reporter.cpp:158-172, 553-578). -/
def haltOf (s : Reporter.St) : Ev → List GOp
  | .cname k t =>
    if t = [] then []
    else
      match s.find k with
      | some x => if x.cname ≠ [] ∧ x.cname ≠ t then [.halt k] else []
      | none => []
  | .bye k => [.halt k]
  | _ => []

/-- All `halt_recv_stream` during the processing of a packet (communicator.cpp:100-112). -/
def evOps (addr : Nat) : Reporter.St → List Ev → List GOp
  | _, [] => []
  | s, e :: es => haltOf s e ++ evOps addr (s.on addr e) es

/-- `halt_recv_stream` in `detect_timeouts_` (reporter.cpp:1177-1218). -/
def timeoutOps : Nat → Reporter.St → List GOp
  | n, s =>
    match s.lru.getLast? with
    | none => []
    | some i =>
      match s.streams.find? (fun x => x.id = i) with
      | none => []
      | some x =>
        if x.last > s.time - s.timeout then []
        else
          match n with
          | 0 => []
          | n + 1 =>
            if !x.hasRecv && !x.hasSend then timeoutOps n (s.update x.ssrc)
            else .halt x.ssrc :: timeoutOps n (s.remove x)

/-- `notify_recv_stream` in `notify_streams_` (reporter.cpp:896-963). -/
def noteOps (code : List Nat → Nat) (s : Reporter.St) : List GOp :=
  (((s.lru.filterMap fun i => s.streams.find? fun x => x.id = i).takeWhile fun x => decide (x.last = s.time)).filter fun x => !x.looped && x.hasSend).map
    fun x => .notify x.ssrc (enc code x.cname)

/-- The group, the reporter, and the number of sessions created so far (receiver_session_group.h:141-157). -/
structure Recv where
  rep : Reporter.St
  grp : Group
  fresh : Nat
deriving DecidableEq

/-- Constructor (receiver_session_group.cpp:19-60). -/
def Recv.init (src : Nat) (cname : List Nat) (dest : Option Nat) (timeout : Int) : Recv := ⟨Reporter.St.init src cname dest timeout, Group.init, 0⟩

/-- What happens to a group (receiver_session_group.h:66-140): a transport packet, an RTCP packet or generation of RTCP packets, the end of a session. -/
inductive REv
  | rtp (x a : Nat) (repair : Bool)
  | rtcp (now : Int) (p : Part) (addr : Nat) (evs : List Ev)
  | report (now : Int) (p : Part) (ids : List Nat)
  | ended (z : Nat)

/-- Failures: in the reporter (see `Verif.Reporter`), or a panic of the router or the group (receiver_session_router.cpp:154). -/
inductive Fault
  | reporter
  | panic
deriving DecidableEq

/-- Result of calls to the group (receiver_session_group.cpp:232-278). -/
def Recv.give (r : Recv) (rep : Reporter.St) (ops : List GOp) : Except Fault Recv :=
  match r.grp.runs ops with
  | none => .error .panic
  | some g => .ok { r with rep := rep, grp := g }

/-- One event (receiver_session_group.cpp:120-200, 280-349). -/
def Recv.step (code : List Nat → Nat) (r : Recv) : REv → Except Fault Recv
  | .rtp x a repair =>
    match r.grp.packet x a r.fresh repair with
    | none => .error .panic
    | some g => .ok { r with grp := g, fresh := r.fresh + 1 }
  | .rtcp now p addr evs =>
    if now ≤ 0 then .error .reporter
    else
      match (evs.foldl (Reporter.St.on addr) (r.rep.begin now p)).expire with
      | .ok s =>
        r.give s (evOps addr (r.rep.begin now p) evs ++
          timeoutOps (evs.foldl (Reporter.St.on addr) (r.rep.begin now p)).lru.length (evs.foldl (Reporter.St.on addr) (r.rep.begin now p)) ++ noteOps code s)
      | _ => .error .reporter
  | .report now p ids =>
    if now ≤ 0 then .error .reporter
    else
      match (r.rep.begin now p).sayBye.resolve ids with
      | .ok s =>
        match s.expire with
        | .ok s' => r.give s' (timeoutOps s.lru.length s)
        | _ => .error .reporter
      | _ => .error .reporter
  | .ended z =>
    if z ∈ r.grp.sessions then
      match r.grp.removeSession z with
      | none => .error .panic
      | some g => .ok { r with grp := g }
    else .ok r

/-- A history of events. -/
def Recv.runs (code : List Nat → Nat) : Recv → List REv → Except Fault Recv
  | r, [] => .ok r
  | r, e :: es =>
    match r.step code e with
    | .ok r' => r'.runs code es
    | .error f => .error f

/-- An RTCP packet as required by RFC 3550, in the order in which it is processed (communicator.cpp:100-112): descriptions, reports, goodbyes; there is a
CNAME for the sender of every sender report. -/
def Conformant : REv → Prop
  | .rtcp _ _ _ evs => ∃ names reps byes, evs = names ++ reps ++ byes ∧ (∀ e ∈ names, ∃ k t, e = .cname k t) ∧ (∀ e ∈ byes, ∃ k, e = .bye k) ∧
      (∀ e ∈ reps, (∀ k t, e ≠ .cname k t) ∧ ∀ k, e ≠ .bye k) ∧ ∀ k ts, Ev.sr k ts ∈ reps → ∃ t, t ≠ [] ∧ Ev.cname k t ∈ names
  | _ => True

/-! ## What the reporter knows about a source -/

/-- CNAME of a stream, and whether it sent a sender report. -/
def view (s : Reporter.St) (x : Nat) : Option (List Nat × Bool) := (s.find x).map fun y => (y.cname, y.hasSend)

theorem view_ensure (s : Reporter.St) (k x : Nat) : view (s.ensure k) x = if x = k ∧ view s k = none then some ([], false) else view s x := by
  unfold Reporter.St.ensure
  cases hf : s.find k with
  | some y =>
    simp only
    rw [if_neg]
    rintro ⟨_, h⟩
    simp [view, hf] at h
  | none =>
    simp only
    have hn : view s k = none := by simp [view, hf]
    simp only [hn, and_true]
    unfold view Reporter.St.find
    simp only [List.find?_append]
    by_cases hx : x = k
    · rw [if_pos hx, hx]
      have : s.streams.find? (fun x => decide (x.ssrc = k)) = none := hf
      rw [this]
      simp [Reporter.newStream]
    · rw [if_neg hx]
      have : ([Reporter.newStream s.next k s.time] : List Stream).find? (fun y => decide (y.ssrc = x)) = none := by
        rw [List.find?_eq_none]
        intro y hy
        rw [List.mem_singleton.1 hy]
        intro hc
        exact hx (of_decide_eq_true hc).symm
      rw [this, Option.or_none]

theorem find_edit (s : Reporter.St) (k : Nat) (f : Stream → Stream) (hf : ∀ y, (f y).ssrc = y.ssrc) (x : Nat) :
    (s.edit k f).find x = if x = k then (s.find k).map f else s.find x := by
  unfold Reporter.St.edit Reporter.St.find
  simp only
  rw [List.find?_map]
  have he : ((fun y : Stream => decide (y.ssrc = x)) ∘ fun y => if y.ssrc = k then f y else y) = fun y => decide (y.ssrc = x) := by
    funext y
    simp only [Function.comp]
    have : (if y.ssrc = k then f y else y).ssrc = y.ssrc := by
      split_ifs
      · exact hf y
      · rfl
    simp only [this]
  rw [he]
  cases hs : s.streams.find? fun y => decide (y.ssrc = x) with
  | none =>
    by_cases hx : x = k
    · rw [if_pos hx, ← hx, hs]; rfl
    · rw [if_neg hx]; rfl
  | some y =>
    have hy : y.ssrc = x := of_decide_eq_true (List.find?_some (p := fun y : Stream => decide (y.ssrc = x)) hs)
    by_cases hx : x = k
    · rw [if_pos hx, ← hx, hs]
      simp [hy]
    · rw [if_neg hx]
      simp only [Option.map_some]
      rw [if_neg (by rw [hy]; exact hx)]

theorem view_edit (s : Reporter.St) (k : Nat) (f : Stream → Stream) (hf : ∀ y, (f y).ssrc = y.ssrc) (g : List Nat × Bool → List Nat × Bool)
    (hg : ∀ y, ((f y).cname, (f y).hasSend) = g (y.cname, y.hasSend)) (x : Nat) :
    view (s.edit k f) x = if x = k then (view s k).map g else view s x := by
  unfold view
  rw [find_edit s k f hf]
  by_cases hx : x = k
  · rw [if_pos hx, if_pos hx, Option.map_map, Option.map_map]
    congr 1
    funext y
    exact hg y
  · rw [if_neg hx, if_neg hx]

theorem view_same (s : Reporter.St) (k : Nat) (f : Stream → Stream) (hf : ∀ y, (f y).ssrc = y.ssrc)
    (hg : ∀ y, (f y).cname = y.cname ∧ (f y).hasSend = y.hasSend) (x : Nat) : view (s.edit k f) x = view s x := by
  rw [view_edit s k f hf id (fun y => by rw [(hg y).1, (hg y).2]; rfl)]
  by_cases hx : x = k
  · rw [if_pos hx, hx, Option.map_id]; rfl
  · rw [if_neg hx]

/-- Streams are distinct. -/
structure SB (s : Reporter.St) : Prop where
  ids : (s.streams.map (·.id)).Nodup
  keys : (s.streams.map (·.ssrc)).Nodup
  fresh : ∀ x ∈ s.streams, x.id < s.next

theorem view_remove {s : Reporter.St} (hb : SB s) {y : Stream} (hy : y ∈ s.streams) (x : Nat) :
    view (s.remove y) x = if x = y.ssrc then none else view s x := by
  have hf : (s.remove y).find x = if x = y.ssrc then none else s.find x := by
    unfold Reporter.St.remove Reporter.St.find
    simp only
    by_cases hx : x = y.ssrc
    · rw [if_pos hx, List.find?_eq_none]
      intro z hz
      obtain ⟨h1, h2⟩ := List.mem_filter.1 hz
      simp only [decide_eq_true_eq] at h2 ⊢
      intro hzx
      have : z = y := List.inj_on_of_nodup_map hb.keys h1 hy (hzx.trans hx)
      exact h2 (by rw [this])
    · rw [if_neg hx]
      cases hs : s.streams.find? fun z => decide (z.ssrc = x) with
      | none =>
        rw [List.find?_eq_none] at hs ⊢
        exact fun z hz => hs z (List.mem_filter.1 hz).1
      | some z =>
        have hz := List.mem_of_find?_eq_some hs
        have hzx : z.ssrc = x := of_decide_eq_true (List.find?_some (p := fun z : Stream => decide (z.ssrc = x)) hs)
        have hne : z.id ≠ y.id := by
          intro hc
          have : z = y := List.inj_on_of_nodup_map hb.ids hz hy hc
          exact hx (by rw [← this]; exact hzx.symm)
        have hzf : z ∈ s.streams.filter fun w => decide (w.id ≠ y.id) := List.mem_filter.2 ⟨hz, decide_eq_true hne⟩
        cases hw : (s.streams.filter fun w => decide (w.id ≠ y.id)).find? fun w => decide (w.ssrc = x) with
        | none => exact absurd (decide_eq_true hzx) (List.find?_eq_none.1 hw z hzf)
        | some w =>
          have h1 := (List.mem_filter.1 (List.mem_of_find?_eq_some hw)).1
          have h2 : w.ssrc = x := of_decide_eq_true (List.find?_some (p := fun z : Stream => decide (z.ssrc = x)) hw)
          rw [List.inj_on_of_nodup_map hb.keys h1 hz (h2.trans hzx.symm)]
  unfold view
  rw [hf]
  split_ifs <;> rfl

theorem view_update (s : Reporter.St) (k x : Nat) : view (s.update k) x = view s x := by
  unfold Reporter.St.update
  cases s.find k with
  | none => rfl
  | some y =>
    simp only
    split_ifs
    · rfl
    · exact view_same s k (fun y => { y with last := s.time }) (fun _ => rfl) (fun _ => ⟨rfl, rfl⟩) x

theorem view_collide (s : Reporter.St) (k x : Nat) : view (s.collide k) x = view s x := by
  unfold Reporter.St.collide
  split_ifs
  · rfl
  · rfl
  · split
    · rfl
    · split_ifs
      · rfl
      · exact view_same s k (fun y => { y with looped := true }) (fun _ => rfl) (fun _ => ⟨rfl, rfl⟩) x
      · rfl

/-- Changes of the reporter that keep CNAMEs; new streams may appear. -/
inductive Quiet : Reporter.St → Reporter.St → Prop
  | same {s s' : Reporter.St} (h1 : s'.streams = s.streams) (h2 : s'.next = s.next) : Quiet s s'
  | ensure (s : Reporter.St) (k : Nat) : Quiet s (s.ensure k)
  | edit (s : Reporter.St) (k : Nat) (f : Stream → Stream) (hi : ∀ y, (f y).id = y.id) (hf : ∀ y, (f y).ssrc = y.ssrc)
      (hg : ∀ y, (f y).cname = y.cname ∧ (f y).hasSend = y.hasSend) : Quiet s (s.edit k f)
  | trans {a b c : Reporter.St} (h : Quiet a b) (g : Quiet b c) : Quiet a c

theorem Quiet.refl (s : Reporter.St) : Quiet s s := .same rfl rfl

theorem sb_edit {s : Reporter.St} (h : SB s) (k : Nat) (f : Stream → Stream) (hi : ∀ y, (f y).id = y.id) (hf : ∀ y, (f y).ssrc = y.ssrc) : SB (s.edit k f) := by
  refine ⟨by rw [Reporter.edit_ids s k f hi]; exact h.ids, by rw [Reporter.edit_keys s k f hf]; exact h.keys, fun x hx => ?_⟩
  have : x.id ∈ (s.edit k f).streams.map (·.id) := List.mem_map_of_mem hx
  rw [Reporter.edit_ids s k f hi] at this
  obtain ⟨y, hy, e⟩ := List.mem_map.mp this
  rw [← e]
  exact h.fresh y hy

theorem sb_ensure {s : Reporter.St} (h : SB s) (k : Nat) : SB (s.ensure k) := by
  unfold Reporter.St.ensure
  cases hf : s.find k with
  | some _ => exact h
  | none =>
    refine ⟨?_, ?_, ?_⟩
    · simp only [List.map_append, List.map_cons, List.map_nil]
      refine List.nodup_append.2 ⟨h.ids, by simp, ?_⟩
      intro a ha b hb he
      obtain ⟨y, hy, e⟩ := List.mem_map.1 ha
      have := h.fresh y hy
      rw [List.mem_singleton.1 hb] at he
      simp only [Reporter.newStream] at he
      omega
    · simp only [List.map_append, List.map_cons, List.map_nil]
      refine List.nodup_append.2 ⟨h.keys, by simp, ?_⟩
      intro a ha b hb he
      obtain ⟨y, hy, e⟩ := List.mem_map.1 ha
      rw [List.mem_singleton.1 hb] at he
      exact Reporter.find_none hf y hy (e.trans he)
    · intro x hx
      rcases List.mem_append.1 hx with hx | hx
      · have := h.fresh x hx
        simp only
        omega
      · rw [List.mem_singleton.1 hx]
        simp [Reporter.newStream]

theorem sb_remove {s : Reporter.St} (h : SB s) (y : Stream) : SB (s.remove y) :=
  ⟨h.ids.sublist (List.filter_sublist.map _), h.keys.sublist (List.filter_sublist.map _), fun x hx => h.fresh x (List.mem_filter.1 hx).1⟩

theorem Quiet.sb {s s' : Reporter.St} (q : Quiet s s') (h : SB s) : SB s' := by
  induction q with
  | same h1 h2 => exact ⟨by rw [h1]; exact h.ids, by rw [h1]; exact h.keys, fun x hx => by rw [h1] at hx; rw [h2]; exact h.fresh x hx⟩
  | ensure s k => exact sb_ensure h k
  | edit s k f hi hf hg => exact sb_edit h k f hi hf
  | trans _ _ ih1 ih2 => exact ih2 (ih1 h)

theorem Quiet.view {s s' : Reporter.St} (q : Quiet s s') (x : Nat) : SessionRouter.view s' x = SessionRouter.view s x ∨
    (SessionRouter.view s x = none ∧ SessionRouter.view s' x = some ([], false)) := by
  induction q with
  | same h1 h2 =>
    left
    unfold SessionRouter.view Reporter.St.find
    rw [h1]
  | ensure s k =>
    rw [view_ensure]
    by_cases h : x = k ∧ SessionRouter.view s k = none
    · rw [if_pos h]
      right
      rw [h.1]
      exact ⟨h.2, rfl⟩
    · rw [if_neg h]
      exact Or.inl rfl
  | edit s k f hi hf hg => exact Or.inl (view_same s k f hf hg x)
  | trans _ _ ih1 ih2 =>
    rcases ih1 with h1 | ⟨h1, h2⟩
    · rw [← h1]; exact ih2
    · rcases ih2 with h3 | ⟨h3, _⟩
      · right; exact ⟨h1, h3.trans h2⟩
      · rw [h3] at h2; cases h2

/-! ### Quiet steps -/

theorem q_update (s : Reporter.St) (k : Nat) : Quiet s (s.update k) := by
  unfold Reporter.St.update
  cases s.find k with
  | none => exact .refl s
  | some y =>
    simp only
    split_ifs
    · exact .refl s
    · exact .trans (.edit s k (fun y => { y with last := s.time }) (fun _ => rfl) (fun _ => rfl) (fun _ => ⟨rfl, rfl⟩)) (.same rfl rfl)

theorem q_collide (s : Reporter.St) (k : Nat) : Quiet s (s.collide k) := by
  unfold Reporter.St.collide
  split_ifs
  · exact .refl s
  · exact .refl s
  · split
    · exact .same rfl rfl
    · split_ifs
      · exact .refl s
      · exact .edit s k (fun y => { y with looped := true }) (fun _ => rfl) (fun _ => rfl) (fun _ => ⟨rfl, rfl⟩)
      · exact .same rfl rfl

theorem q_touch (s : Reporter.St) (a : Nat) : Quiet s (s.touch a) := by
  unfold Reporter.St.touch
  split
  · exact .same rfl rfl
  · split_ifs
    · exact .refl s
    · exact .same rfl rfl

theorem q_rebuildSend (s : Reporter.St) (x : Stream) : Quiet s (Reporter.rebuildSend s x) := by
  unfold Reporter.rebuildSend
  split_ifs
  · exact .refl s
  · exact .refl s
  · exact .trans (q_touch _ _) (.same rfl rfl)

theorem q_sends (l : List Stream) (s : Reporter.St) : Quiet s (l.foldl Reporter.rebuildSend s) := by
  induction l generalizing s with
  | nil => exact .refl s
  | cons x xs ih => exact .trans (q_rebuildSend s x) (ih _)

theorem q_rebuildRecv (s : Reporter.St) (i k : Nat) : Quiet s (Reporter.rebuildRecv s i k) := by
  unfold Reporter.rebuildRecv
  split
  · exact .refl s
  · split_ifs
    · exact .ensure s k
    · exact .ensure s k
    · rename_i x _ _ _
      refine .trans (.trans (.ensure s k) (.trans (q_touch _ (s.dest.getD x.addr)) ?_))
        (.edit _ k (fun y => { y with report := some i }) (fun _ => rfl) (fun _ => rfl) (fun _ => ⟨rfl, rfl⟩))
      exact .same rfl rfl

theorem q_rebuildRecvs (l : List (Nat × Nat)) (s : Reporter.St) (i : Nat) : Quiet s (Reporter.rebuildRecvs s i l) := by
  induction l generalizing s i with
  | nil => exact .refl s
  | cons x xs ih => exact .trans (q_rebuildRecv s i x.1) (ih _ _)

theorem q_prune (l : List Nat) (s : Reporter.St) : Quiet s (Reporter.prune s l) := by
  induction l generalizing s with
  | nil => exact .refl s
  | cons a as ih =>
    unfold Reporter.prune
    split
    · exact .refl s
    · split_ifs
      · exact .refl s
      · refine .trans ?_ (ih _)
        exact .same rfl rfl

theorem q_rebuildSends (s : Reporter.St) : Quiet s (Reporter.rebuildSends s) := by
  unfold Reporter.rebuildSends
  split_ifs
  · refine .trans ?_ (q_sends _ _)
    unfold Reporter.touchDest
    split
    · exact q_touch _ _
    · exact .refl s
  · exact .refl s

theorem q_rebuildIndex (s : Reporter.St) : Quiet s s.rebuildIndex := by
  unfold Reporter.St.rebuildIndex
  exact .trans (q_rebuildSends s) (.trans (q_rebuildRecvs _ _ _) (.trans (q_prune _ _) (.same rfl rfl)))

theorem q_begin (s : Reporter.St) (now : Int) (p : Part) : Quiet s (s.begin now p) := by
  unfold Reporter.St.begin Reporter.St.refresh
  simp only
  split_ifs
  · refine .trans ?_ (q_rebuildIndex _)
    exact .same rfl rfl
  · exact .same rfl rfl
  · refine .trans ?_ (q_rebuildIndex _)
    exact .same rfl rfl
  · exact .same rfl rfl

theorem q_mark (s : Reporter.St) (k addr : Nat) (has : Stream → Bool) (f : Stream → Stream) (hi : ∀ y, (f y).id = y.id) (hf : ∀ y, (f y).ssrc = y.ssrc)
    (hg : ∀ y, (f y).cname = y.cname ∧ (f y).hasSend = y.hasSend) : Quiet s (s.mark k addr has f) := by
  unfold Reporter.St.mark
  split
  · exact .refl s
  · exact .trans (.edit s k (fun y => { f y with addr := addr }) hi hf hg) (.same rfl rfl)

theorem q_on (addr : Nat) (s : Reporter.St) {e : Ev} (h1 : ∀ k t, e ≠ .cname k t) (h2 : ∀ k, e ≠ .bye k) (h3 : ∀ k ts, e ≠ .sr k ts) : Quiet s (s.on addr e) := by
  cases e with
  | cname k t => exact absurd rfl (h1 k t)
  | bye k => exact absurd rfl (h2 k)
  | sr k ts => exact absurd rfl (h3 k ts)
  | reception k a =>
    show Quiet s (s.onReception addr k a)
    unfold Reporter.St.onReception
    split_ifs
    · exact q_collide _ _
    · exact .trans (q_collide _ _) (.trans (.ensure _ _) (.trans (q_mark _ _ _ _ (fun x => { x with hasRecv := true }) (fun _ => rfl) (fun _ => rfl) (fun _ => ⟨rfl, rfl⟩)) (q_update _ _)))
  | dlrr k a =>
    show Quiet s (s.onDlrr k a)
    unfold Reporter.St.onDlrr
    split_ifs
    · exact q_collide _ _
    · exact q_collide _ _
    · exact .trans (q_collide _ _) (q_update _ _)
  | rrtr k ts =>
    show Quiet s (s.onRrtr k ts)
    unfold Reporter.St.onRrtr
    split_ifs
    · exact q_collide _ _
    · exact .trans (q_collide _ _) (.trans (.edit _ k (fun x => { x with recvTs := ts }) (fun _ => rfl) (fun _ => rfl) (fun _ => ⟨rfl, rfl⟩)) (q_update _ _))
  | metrics k a =>
    show Quiet s (s.onMetrics k a)
    unfold Reporter.St.onMetrics
    split_ifs
    · exact q_collide _ _
    · exact q_collide _ _
    · exact .trans (q_collide _ _) (q_update _ _)

/-! ## The CNAMEs that were reported -/

/-- The reporter remembers the CNAMEs that it gave to the group. -/
structure RK (code : List Nat → Nat) (d : Nat → Option Nat) (s : Reporter.St) : Prop where
  sb : SB s
  know : ∀ x c, d x = some c → ∃ v, view s x = some v ∧ enc code v.1 = some c

/-- Streams with sender reports have CNAMEs. -/
def Named (s : Reporter.St) : Prop := ∀ x v, view s x = some v → v.2 = true → v.1 ≠ []

theorem RK.quiet {code : List Nat → Nat} {d : Nat → Option Nat} {s s' : Reporter.St} (h : RK code d s) (q : Quiet s s') : RK code d s' := by
  refine ⟨q.sb h.sb, fun x c hx => ?_⟩
  obtain ⟨v, h1, h2⟩ := h.know x c hx
  rcases q.view x with h3 | ⟨h3, _⟩
  · exact ⟨v, h3.trans h1, h2⟩
  · rw [h1] at h3; cases h3

theorem Named.quiet {s s' : Reporter.St} (h : Named s) (q : Quiet s s') : Named s' := by
  intro x v hv h2
  rcases q.view x with h3 | ⟨_, h3⟩
  · rw [h3] at hv; exact h x v hv h2
  · rw [h3] at hv; injection hv with hv; rw [← hv] at h2; cases h2

theorem RK.remove {code : List Nat → Nat} {d : Nat → Option Nat} {s : Reporter.St} (h : RK code d s) {y : Stream} (hy : y ∈ s.streams) :
    RK code (declare d (.halt y.ssrc)) (s.remove y) := by
  refine ⟨sb_remove h.sb y, fun x c hx => ?_⟩
  simp only [declare] at hx
  by_cases hxy : x = y.ssrc
  · rw [if_pos hxy] at hx; cases hx
  · rw [if_neg hxy] at hx
    obtain ⟨v, h1, h2⟩ := h.know x c hx
    refine ⟨v, ?_, h2⟩
    rw [view_remove h.sb hy, if_neg hxy]
    exact h1

theorem Named.remove {s : Reporter.St} (hb : SB s) (h : Named s) {y : Stream} (hy : y ∈ s.streams) : Named (s.remove y) := by
  intro x v hv h2
  rw [view_remove hb hy] at hv
  split_ifs at hv
  exact h x v hv h2

theorem view_find {s : Reporter.St} {k : Nat} {y : Stream} (h : s.find k = some y) : view s k = some (y.cname, y.hasSend) := by
  unfold view
  rw [h]
  rfl

/-- `process_cname`. -/
theorem cname_step {code : List Nat → Nat} {d : Nat → Option Nat} {s : Reporter.St} (h : RK code d s) (addr k : Nat) (t : List Nat) :
    RK code ((haltOf s (.cname k t)).foldl declare d) (s.on addr (.cname k t)) ∧ (Named s → Named (s.on addr (.cname k t))) ∧
    (t ≠ [] → ∃ v, view (s.on addr (.cname k t)) k = some v ∧ v.1 ≠ []) ∧
    ∀ x v, view s x = some v → v.1 ≠ [] → ∃ w, view (s.on addr (.cname k t)) x = some w ∧ w.1 ≠ [] := by
  show RK code _ (s.onCname k t) ∧ (Named s → Named (s.onCname k t)) ∧ (t ≠ [] → ∃ v, view (s.onCname k t) k = some v ∧ v.1 ≠ []) ∧
    ∀ x v, view s x = some v → v.1 ≠ [] → ∃ w, view (s.onCname k t) x = some w ∧ w.1 ≠ []
  unfold Reporter.St.onCname
  by_cases ht : t = []
  · rw [if_pos ht]
    have : haltOf s (.cname k t) = [] := by unfold haltOf; simp only; rw [if_pos ht]
    rw [this]
    exact ⟨h, id, fun hc => absurd ht hc, fun x v h1 h2 => ⟨v, h1, h2⟩⟩
  rw [if_neg ht]
  -- the stream after it was created
  obtain ⟨y, hy⟩ : ∃ y, (s.ensure k).find k = some y := by
    have := view_ensure s k k
    cases hf : (s.ensure k).find k with
    | some y => exact ⟨y, rfl⟩
    | none =>
      unfold view at this
      rw [hf] at this
      cases hs : s.find k with
      | none => rw [hs] at this; simp at this
      | some z => rw [hs] at this; simp at this
  have hen := h.quiet (.ensure s k)
  have hnn := fun hn : Named s => hn.quiet (.ensure s k)
  have hvy := view_find hy
  have hhalt : haltOf s (.cname k t) = if y.cname ≠ [] ∧ y.cname ≠ t then [.halt k] else [] := by
    unfold haltOf
    simp only
    rw [if_neg ht]
    cases hs : s.find k with
    | some z =>
      have : s.ensure k = s := by unfold Reporter.St.ensure; rw [hs]
      rw [this, hs] at hy
      injection hy with hy
      rw [hy]
    | none =>
      have h1 := view_ensure s k k
      rw [if_pos ⟨rfl, by unfold view; rw [hs]; rfl⟩, hvy] at h1
      injection h1 with h1
      injection h1 with h1 _
      simp only
      rw [if_neg (fun hc => hc.1 h1)]
  by_cases hsame : y.cname = t
  · have : (s.ensure k).sameCname k t = true := by unfold Reporter.St.sameCname; rw [hy]; exact decide_eq_true hsame
    rw [if_pos this, hhalt, if_neg (fun hc => hc.2 hsame)]
    refine ⟨hen, hnn, fun _ => ⟨_, hvy, by rw [hsame]; exact ht⟩, fun x v h1 h2 => ?_⟩
    rcases (Quiet.ensure s k).view x with h3 | ⟨h3, _⟩
    · exact ⟨v, h3.trans h1, h2⟩
    · rw [h1] at h3; cases h3
  · have : ¬ (s.ensure k).sameCname k t = true := by unfold Reporter.St.sameCname; rw [hy]; simpa using hsame
    rw [if_neg this, hhalt]
    simp only
    obtain ⟨s2, hs2⟩ : ∃ s2, s2 = (s.ensure k).recreate k t := ⟨_, rfl⟩
    rw [← hs2]
    -- after re-creation the CNAME is empty
    have hrec : RK code ((if y.cname ≠ [] ∧ y.cname ≠ t then [GOp.halt k] else []).foldl declare d) s2 ∧ (Named s → Named s2) ∧ (∃ b, view s2 k = some ([], b)) ∧
        ((if y.cname ≠ [] ∧ y.cname ≠ t then [GOp.halt k] else []).foldl declare d k = none) ∧ ∀ x, x ≠ k → view s2 x = view s x := by
      have hvx : ∀ x, x ≠ k → view (s.ensure k) x = view s x := fun x hx => by rw [view_ensure, if_neg (fun hc => hx hc.1)]
      by_cases hr : y.cname ≠ [] ∧ y.cname ≠ t
      · rw [if_pos hr]
        have e2 : s2 = ((s.ensure k).remove y).ensure k := by
          rw [hs2]; unfold Reporter.St.recreate; rw [hy]; simp only; rw [if_pos hr]
        obtain ⟨hym, hyk⟩ := Reporter.find_some hy
        have hrm := hen.remove hym
        rw [hyk] at hrm
        rw [e2]
        have hv : ∀ x, view ((s.ensure k).remove y) x = if x = k then none else view (s.ensure k) x := by
          intro x; rw [view_remove hen.sb hym, hyk]
        refine ⟨hrm.quiet (.ensure _ k), fun hn => ((hnn hn).remove hen.sb hym).quiet (.ensure _ k), ⟨false, ?_⟩, ?_, fun x hx => ?_⟩
        · rw [view_ensure, if_pos ⟨rfl, by rw [hv, if_pos rfl]⟩]
        · simp [declare]
        · rw [view_ensure, if_neg (fun hc => hx hc.1), hv, if_neg hx, hvx x hx]
      · rw [if_neg hr]
        have e2 : s2 = s.ensure k := by
          rw [hs2]; unfold Reporter.St.recreate; rw [hy]; simp only; rw [if_neg hr]
        have hc : y.cname = [] := by
          by_contra hc
          exact hr ⟨hc, hsame⟩
        rw [hc] at hvy
        rw [e2]
        refine ⟨hen, hnn, ⟨_, hvy⟩, ?_, hvx⟩
        simp only [List.foldl_nil]
        cases hd : d k with
        | none => rfl
        | some c =>
          obtain ⟨v, h1, h2⟩ := hen.know k c hd
          rw [hvy] at h1
          injection h1 with h1
          rw [← h1] at h2
          simp [enc] at h2
    obtain ⟨r1, r2, ⟨b, r3⟩, r4, r5⟩ := hrec
    obtain ⟨s3, hs3⟩ : ∃ s3, s3 = s2.edit k (fun x => { x with cname := t }) := ⟨_, rfl⟩
    rw [← hs3]
    have hv3 : ∀ x, view s3 x = if x = k then some (t, b) else view s2 x := by
      intro x
      rw [hs3, view_edit s2 k (fun x => { x with cname := t }) (fun _ => rfl) (fun v => (t, v.2)) (fun _ => rfl), r3]
      rfl
    have sb3 : SB s3 := by rw [hs3]; exact sb_edit r1.sb k _ (fun _ => rfl) (fun _ => rfl)
    have k3 : RK code ((if y.cname ≠ [] ∧ y.cname ≠ t then [GOp.halt k] else []).foldl declare d) s3 := by
      refine ⟨sb3, fun x c hx => ?_⟩
      by_cases hxk : x = k
      · rw [hxk, r4] at hx; cases hx
      · rw [hv3, if_neg hxk]
        exact r1.know x c hx
    have n3 : Named s → Named s3 := by
      intro hn x v hv h2
      rw [hv3] at hv
      by_cases hxk : x = k
      · rw [if_pos hxk] at hv
        injection hv with hv
        rw [← hv]
        exact ht
      · rw [if_neg hxk] at hv
        exact r2 hn x v hv h2
    have q4 : Quiet s3 (({ s3 with rebuild := true }.collide k).update k) := by
      refine .trans ?_ (.trans (q_collide _ _) (q_update _ _))
      exact .same rfl rfl
    refine ⟨k3.quiet q4, fun hn => (n3 hn).quiet q4, fun _ => ?_, fun x v h1 h2 => ?_⟩
    · rcases q4.view k with h5 | ⟨h5, _⟩
      · rw [hv3, if_pos rfl] at h5
        exact ⟨_, h5, ht⟩
      · rw [hv3, if_pos rfl] at h5; cases h5
    · have : ∃ w, view s3 x = some w ∧ w.1 ≠ [] := by
        by_cases hxk : x = k
        · exact ⟨(t, b), by rw [hv3, if_pos hxk], ht⟩
        · exact ⟨v, by rw [hv3, if_neg hxk, r5 x hxk]; exact h1, h2⟩
      obtain ⟨w, h6, h7⟩ := this
      rcases q4.view x with h5 | ⟨h5, _⟩
      · exact ⟨w, h5.trans h6, h7⟩
      · rw [h6] at h5; cases h5

/-- `process_sr`. -/
theorem sr_step {code : List Nat → Nat} {d : Nat → Option Nat} {s : Reporter.St} (h : RK code d s) (addr k : Nat) (ts : Bool) :
    RK code d (s.on addr (.sr k ts)) ∧
    ((∃ v, view s k = some v ∧ v.1 ≠ []) → Named s → Named (s.on addr (.sr k ts))) ∧
    ∀ x v, view s x = some v → v.1 ≠ [] → ∃ w, view (s.on addr (.sr k ts)) x = some w ∧ w.1 ≠ [] := by
  show RK code d (s.onSr addr k ts) ∧ (_ → _ → Named (s.onSr addr k ts)) ∧ ∀ x v, view s x = some v → v.1 ≠ [] → ∃ w, view (s.onSr addr k ts) x = some w ∧ w.1 ≠ []
  unfold Reporter.St.onSr
  have q1 : Quiet s ((s.collide k).ensure k) := .trans (q_collide s k) (.ensure _ k)
  obtain ⟨s1, hs1⟩ : ∃ s1, s1 = (s.collide k).ensure k := ⟨_, rfl⟩
  rw [← hs1] at q1 ⊢
  obtain ⟨s2, hs2⟩ : ∃ s2, s2 = s1.mark k addr (·.hasSend) (fun x => { x with hasSend := true, sendTs := ts }) := ⟨_, rfl⟩
  rw [← hs2]
  have hv2 : ∀ x, view s2 x = if x = k then (view s1 k).map (fun v => (v.1, true)) else view s1 x := by
    intro x
    rw [hs2]
    unfold Reporter.St.mark
    cases hf : s1.find k with
    | none =>
      simp only
      by_cases hx : x = k
      · rw [if_pos hx, hx]; unfold view; rw [hf]; rfl
      · rw [if_neg hx]
    | some y =>
      simp only
      exact view_edit s1 k (fun y => { y with hasSend := true, sendTs := ts, addr := addr }) (fun _ => rfl) (fun v => (v.1, true)) (fun _ => rfl) x
  have sb2 : SB s2 := by
    rw [hs2]
    unfold Reporter.St.mark
    cases hf : s1.find k with
    | none => exact q1.sb h.sb
    | some y =>
      have := sb_edit (q1.sb h.sb) k (fun y => { y with hasSend := true, sendTs := ts, addr := addr }) (fun _ => rfl) (fun _ => rfl)
      exact ⟨this.ids, this.keys, this.fresh⟩
  have q3 := q_update s2 k
  have k1 := h.quiet q1
  have k2 : RK code d s2 := by
    refine ⟨sb2, fun x c hx => ?_⟩
    obtain ⟨v, h1, h2⟩ := k1.know x c hx
    rw [hv2]
    by_cases hxk : x = k
    · rw [if_pos hxk, ← hxk, h1]
      exact ⟨_, rfl, h2⟩
    · rw [if_neg hxk]
      exact ⟨v, h1, h2⟩
  refine ⟨k2.quiet q3, fun hk hn => ?_, fun x v h1 h2 => ?_⟩
  · have n1 := hn.quiet q1
    refine Named.quiet (s := s2) ?_ q3
    intro x v hv h2
    rw [hv2] at hv
    by_cases hxk : x = k
    · rw [if_pos hxk] at hv
      obtain ⟨w, h3, h4⟩ := hk
      rcases q1.view k with h5 | ⟨h5, _⟩
      · rw [h5, h3] at hv
        injection hv with hv
        rw [← hv]
        exact h4
      · rw [h3] at h5; cases h5
    · rw [if_neg hxk] at hv
      exact n1 x v hv h2
  · have : ∃ w, view s2 x = some w ∧ w.1 ≠ [] := by
      rcases q1.view x with h5 | ⟨h5, _⟩
      · rw [h1] at h5
        rw [hv2]
        by_cases hxk : x = k
        · rw [if_pos hxk, ← hxk, h5]; exact ⟨_, rfl, h2⟩
        · rw [if_neg hxk]; exact ⟨v, h5, h2⟩
      · rw [h1] at h5; cases h5
    obtain ⟨w, h6, h7⟩ := this
    rcases q3.view x with h5 | ⟨h5, _⟩
    · exact ⟨w, h5.trans h6, h7⟩
    · rw [h6] at h5; cases h5

/-- `process_goodbye`. -/
theorem bye_step {code : List Nat → Nat} {d : Nat → Option Nat} {s : Reporter.St} (h : RK code d s) (addr k : Nat) :
    RK code (declare d (.halt k)) (s.on addr (.bye k)) ∧ (Named s → Named (s.on addr (.bye k))) := by
  show RK code (declare d (.halt k)) (s.onBye k) ∧ (Named s → Named (s.onBye k))
  unfold Reporter.St.onBye
  cases hf : s.find k with
  | none =>
    refine ⟨⟨h.sb, fun x c hx => ?_⟩, id⟩
    simp only [declare] at hx
    by_cases hxk : x = k
    · rw [if_pos hxk] at hx; cases hx
    · rw [if_neg hxk] at hx
      exact h.know x c hx
  | some y =>
    obtain ⟨h1, h2⟩ := Reporter.find_some hf
    have := h.remove h1
    rw [h2] at this
    exact ⟨this, fun hn => hn.remove h.sb h1⟩

/-! ## Packets -/

/-- All elements of a packet: the calls of `halt_recv_stream` are followed. -/
theorem evs_know {code : List Nat → Nat} (addr : Nat) (evs : List Ev) : ∀ {d : Nat → Option Nat} {s : Reporter.St}, RK code d s →
    RK code ((evOps addr s evs).foldl declare d) (evs.foldl (Reporter.St.on addr) s) := by
  induction evs with
  | nil => intro d s h; exact h
  | cons e es ih =>
    intro d s h
    simp only [evOps, List.foldl_append, List.foldl_cons]
    refine ih ?_
    cases e with
    | cname k t => exact (cname_step h addr k t).1
    | bye k => exact (bye_step h addr k).1
    | sr k ts => exact (sr_step h addr k ts).1
    | reception k a => exact h.quiet (q_on addr s (by simp) (by simp) (by simp))
    | dlrr k a => exact h.quiet (q_on addr s (by simp) (by simp) (by simp))
    | rrtr k ts => exact h.quiet (q_on addr s (by simp) (by simp) (by simp))
    | metrics k a => exact h.quiet (q_on addr s (by simp) (by simp) (by simp))

theorem names_named (addr : Nat) (code : List Nat → Nat) (l : List Ev) (hl : ∀ e ∈ l, ∃ k t, e = .cname k t) : ∀ {d : Nat → Option Nat} {s : Reporter.St}, RK code d s → Named s →
    Named (l.foldl (Reporter.St.on addr) s) ∧ (∀ x v, view s x = some v → v.1 ≠ [] → ∃ w, view (l.foldl (Reporter.St.on addr) s) x = some w ∧ w.1 ≠ []) ∧
    (∀ k t, Ev.cname k t ∈ l → t ≠ [] → ∃ w, view (l.foldl (Reporter.St.on addr) s) k = some w ∧ w.1 ≠ []) := by
  induction l with
  | nil => intro d s _ hn; exact ⟨hn, fun x v h1 h2 => ⟨v, h1, h2⟩, fun k t hk => by cases hk⟩
  | cons e es ih =>
    intro d s h hn
    obtain ⟨k, t, rfl⟩ := hl e List.mem_cons_self
    obtain ⟨c1, c2, c3, c4⟩ := cname_step h addr k t
    obtain ⟨i1, i2, i3⟩ := ih (fun e he => hl e (List.mem_cons_of_mem _ he)) c1 (c2 hn)
    refine ⟨i1, fun x v h1 h2 => ?_, fun k' t' hk ht => ?_⟩
    · obtain ⟨w, h3, h4⟩ := c4 x v h1 h2
      exact i2 x w h3 h4
    · rcases List.mem_cons.1 hk with hk | hk
      · injection hk with e1 e2
        obtain ⟨w, h3, h4⟩ := c3 (by rw [← e2]; exact ht)
        rw [e1]
        exact i2 k w h3 h4
      · exact i3 k' t' hk ht

theorem reps_named (addr : Nat) (code : List Nat → Nat) (l : List Ev) (hl : ∀ e ∈ l, (∀ k t, e ≠ .cname k t) ∧ ∀ k, e ≠ .bye k) : ∀ {d : Nat → Option Nat} {s : Reporter.St}, RK code d s →
    Named s → (∀ k ts, Ev.sr k ts ∈ l → ∃ v, view s k = some v ∧ v.1 ≠ []) → Named (l.foldl (Reporter.St.on addr) s) := by
  induction l with
  | nil => intro d s _ hn _; exact hn
  | cons e es ih =>
    intro d s h hn hs
    obtain ⟨h1, h2⟩ := hl e List.mem_cons_self
    have hl' := fun e he => hl e (List.mem_cons_of_mem _ he)
    by_cases hsr : ∃ k ts, e = .sr k ts
    · obtain ⟨k, ts, rfl⟩ := hsr
      obtain ⟨s1, s2, s3⟩ := sr_step h addr k ts
      refine ih hl' s1 (s2 (hs k ts List.mem_cons_self) hn) fun k' ts' hk => ?_
      obtain ⟨v, h3, h4⟩ := hs k' ts' (List.mem_cons_of_mem _ hk)
      exact s3 k' v h3 h4
    · have q := q_on addr s h1 h2 (fun k ts hc => hsr ⟨k, ts, hc⟩)
      refine ih hl' (h.quiet q) (hn.quiet q) fun k' ts' hk => ?_
      obtain ⟨v, h3, h4⟩ := hs k' ts' (List.mem_cons_of_mem _ hk)
      rcases q.view k' with h5 | ⟨h5, _⟩
      · exact ⟨v, h5.trans h3, h4⟩
      · rw [h3] at h5; cases h5

theorem byes_named (addr : Nat) (code : List Nat → Nat) (l : List Ev) (hl : ∀ e ∈ l, ∃ k, e = .bye k) : ∀ {d : Nat → Option Nat} {s : Reporter.St}, RK code d s →
    Named s → Named (l.foldl (Reporter.St.on addr) s) := by
  induction l with
  | nil => intro d s _ hn; exact hn
  | cons e es ih =>
    intro d s h hn
    obtain ⟨k, rfl⟩ := hl e List.mem_cons_self
    obtain ⟨b1, b2⟩ := bye_step h addr k
    exact ih (fun e he => hl e (List.mem_cons_of_mem _ he)) b1 (b2 hn)

theorem evs_named {code : List Nat → Nat} {d : Nat → Option Nat} {s : Reporter.St} (h : RK code d s) (hn : Named s) {now : Int} {p : Part} {addr : Nat} {evs : List Ev}
    (hc : Conformant (.rtcp now p addr evs)) : Named (evs.foldl (Reporter.St.on addr) s) := by
  obtain ⟨names, reps, byes, he, h1, h2, h3, h4⟩ := hc
  rw [he, List.foldl_append, List.foldl_append]
  obtain ⟨n1, n2, n3⟩ := names_named addr code names h1 h hn
  have k1 := evs_know (code := code) addr names h
  have k2 := evs_know (code := code) addr reps k1
  refine byes_named addr code byes h2 k2 (reps_named addr code reps h3 k1 n1 fun k ts hk => ?_)
  obtain ⟨t, h5, h6⟩ := h4 k ts hk
  exact n3 k t h6 h5

theorem timeouts_know {code : List Nat → Nat} (n : Nat) : ∀ {d : Nat → Option Nat} {s s' : Reporter.St}, RK code d s → Reporter.timeouts n s = .ok s' →
    RK code ((timeoutOps n s).foldl declare d) s' ∧ (Named s → Named s') := by
  induction n with
  | zero =>
    intro d s s' h hs
    unfold Reporter.timeouts at hs
    unfold timeoutOps
    cases hl : s.lru.getLast? with
    | none =>
      rw [hl] at hs
      injection hs with hs
      rw [← hs]
      exact ⟨h, id⟩
    | some i =>
      rw [hl] at hs
      simp only at hs ⊢
      cases hf : s.streams.find? (fun x => decide (x.id = i)) with
      | none => rw [hf] at hs; cases hs
      | some x =>
        rw [hf] at hs
        simp only at hs ⊢
        by_cases ht : x.last > s.time - s.timeout
        · rw [if_pos ht] at hs ⊢
          injection hs with hs
          rw [← hs]
          exact ⟨h, id⟩
        · rw [if_neg ht] at hs; cases hs
  | succ n ih =>
    intro d s s' h hs
    unfold Reporter.timeouts at hs
    unfold timeoutOps
    cases hl : s.lru.getLast? with
    | none =>
      rw [hl] at hs
      injection hs with hs
      rw [← hs]
      exact ⟨h, id⟩
    | some i =>
      rw [hl] at hs
      simp only at hs ⊢
      cases hf : s.streams.find? (fun x => decide (x.id = i)) with
      | none => rw [hf] at hs; cases hs
      | some x =>
        rw [hf] at hs
        simp only at hs ⊢
        by_cases ht : x.last > s.time - s.timeout
        · rw [if_pos ht] at hs ⊢
          injection hs with hs
          rw [← hs]
          exact ⟨h, id⟩
        · rw [if_neg ht] at hs ⊢
          by_cases hr : (!x.hasRecv && !x.hasSend) = true
          · rw [if_pos hr] at hs ⊢
            obtain ⟨h1, h2⟩ := ih (h.quiet (q_update s x.ssrc)) hs
            exact ⟨h1, fun hn => h2 (hn.quiet (q_update s x.ssrc))⟩
          · rw [if_neg hr] at hs ⊢
            have hx := List.mem_of_find?_eq_some hf
            obtain ⟨h1, h2⟩ := ih (h.remove hx) hs
            exact ⟨h1, fun hn => h2 (hn.remove h.sb hx)⟩

/-! ## Calls of the reporter are possible -/

/-- Calls of the reporter. -/
def fromReporter : GOp → Prop
  | .notify _ _ => True
  | .halt _ => True
  | _ => False

/-- Calls of the reporter that respect the CNAMEs given before. -/
def orderly : (Nat → Option Nat) → List GOp → Prop
  | _, [] => True
  | d, o :: os => fromReporter o ∧ allowed d Group.init o ∧ orderly (declare d o) os

theorem orderly_append (d : Nat → Option Nat) (l m : List GOp) : orderly d (l ++ m) ↔ orderly d l ∧ orderly (l.foldl declare d) m := by
  induction l generalizing d with
  | nil => simp [orderly]
  | cons o os ih =>
    simp only [List.cons_append, orderly, List.foldl_cons, ih]
    tauto

theorem orderly_halts (d : Nat → Option Nat) (l : List GOp) (h : ∀ o ∈ l, ∃ x, o = .halt x) : orderly d l := by
  induction l generalizing d with
  | nil => exact trivial
  | cons o os ih =>
    obtain ⟨x, rfl⟩ := h o List.mem_cons_self
    exact ⟨trivial, trivial, ih _ fun o ho => h o (List.mem_cons_of_mem _ ho)⟩

theorem evOps_halts (addr : Nat) (evs : List Ev) : ∀ (s : Reporter.St), ∀ o ∈ evOps addr s evs, ∃ x, o = .halt x := by
  induction evs with
  | nil => intro s o ho; cases ho
  | cons e es ih =>
    intro s o ho
    rcases List.mem_append.1 ho with ho | ho
    · unfold haltOf at ho
      cases e <;> simp only at ho
      · split_ifs at ho
        · cases ho
        · split at ho
          · split_ifs at ho
            · exact ⟨_, List.mem_singleton.1 ho⟩
            · cases ho
          · cases ho
      all_goals first | exact ⟨_, List.mem_singleton.1 ho⟩ | cases ho
    · exact ih _ o ho

theorem timeoutOps_halts (n : Nat) : ∀ (s : Reporter.St), ∀ o ∈ timeoutOps n s, ∃ x, o = .halt x := by
  induction n with
  | zero =>
    intro s o ho
    unfold timeoutOps at ho
    split at ho
    · cases ho
    · split at ho
      · cases ho
      · split_ifs at ho <;> cases ho
  | succ n ih =>
    intro s o ho
    unfold timeoutOps at ho
    split at ho
    · cases ho
    · split at ho
      · cases ho
      · split_ifs at ho
        · cases ho
        · exact ih _ o ho
        · rcases List.mem_cons.1 ho with ho | ho
          · exact ⟨_, ho⟩
          · exact ih _ o ho

theorem notes_orderly {code : List Nat → Nat} {s : Reporter.St} (hn : Named s) (l : List Stream) (hl : ∀ x ∈ l, x ∈ s.streams ∧ x.hasSend = true) :
    ∀ {d : Nat → Option Nat}, RK code d s → orderly d (l.map fun x => .notify x.ssrc (enc code x.cname)) ∧
      RK code ((l.map fun x => GOp.notify x.ssrc (enc code x.cname)).foldl declare d) s := by
  induction l with
  | nil => intro d h; exact ⟨trivial, h⟩
  | cons x xs ih =>
    intro d h
    obtain ⟨hx, hs⟩ := hl x List.mem_cons_self
    have hv := view_find (Reporter.find_of_mem h.sb.keys hx)
    have hne : x.cname ≠ [] := hn x.ssrc _ hv hs
    have he : enc code x.cname = some (code x.cname) := by unfold enc; rw [if_neg hne]
    have h' : RK code (declare d (.notify x.ssrc (enc code x.cname))) s := by
      refine ⟨h.sb, fun y c hy => ?_⟩
      simp only [declare] at hy
      by_cases hyx : y = x.ssrc
      · rw [if_pos hyx] at hy
        rw [hyx]
        exact ⟨_, hv, hy⟩
      · rw [if_neg hyx] at hy
        exact h.know y c hy
    obtain ⟨i1, i2⟩ := ih (fun y hy => hl y (List.mem_cons_of_mem _ hy)) h'
    refine ⟨⟨trivial, ⟨by rw [he]; rfl, ?_⟩, i1⟩, i2⟩
    cases hd : d x.ssrc with
    | none => exact Or.inl rfl
    | some c =>
      obtain ⟨v, h1, h2⟩ := h.know _ _ hd
      rw [hv] at h1
      injection h1 with h1
      rw [← h1] at h2
      exact Or.inr h2.symm

theorem noteOps_orderly {code : List Nat → Nat} {s : Reporter.St} (hn : Named s) {d : Nat → Option Nat} (h : RK code d s) :
    orderly d (noteOps code s) ∧ RK code ((noteOps code s).foldl declare d) s := by
  refine notes_orderly hn _ (fun x hx => ?_) h
  obtain ⟨h1, h2⟩ := List.mem_filter.1 hx
  have h3 := (List.takeWhile_sublist _).subset h1
  obtain ⟨i, _, h4⟩ := List.mem_filterMap.1 h3
  refine ⟨List.mem_of_find?_eq_some h4, ?_⟩
  simp only [Bool.and_eq_true] at h2
  exact h2.2

theorem drop_sub {g g' : Group} {o : Option Nat} (h : g.drop o = some g') : ∀ z ∈ g'.sessions, z ∈ g.sessions := by
  unfold Group.drop at h
  cases o with
  | none => injection h with h; rw [← h]; exact fun z hz => hz
  | some y =>
    simp only at h
    split_ifs at h
    · injection h with h; rw [← h]; exact fun z hz => hz
    · unfold Group.removeSession at h
      split_ifs at h
      injection h with h
      rw [← h]
      exact fun z hz => (List.mem_filter.1 hz).1

theorem orderly_runs {d : Nat → Option Nat} {g : Group} (h : GI d g) {l : List GOp} (hl : orderly d l) :
    ∃ g', g.runs l = some g' ∧ GI (l.foldl declare d) g' ∧ ∀ z ∈ g'.sessions, z ∈ g.sessions := by
  induction l generalizing d g with
  | nil => exact ⟨g, rfl, h, fun z hz => hz⟩
  | cons o os ih =>
    obtain ⟨h1, h2, h3⟩ := hl
    have ha : allowed d g o := by
      cases o with
      | notify x c => exact h2
      | halt x => trivial
      | packet x a z r => cases h1
      | ended z => cases h1
    obtain ⟨g1, c1, c2⟩ := h.call ha
    obtain ⟨g', i1, i2, i3⟩ := ih c2 h3
    refine ⟨g', ?_, i2, fun z hz => ?_⟩
    · simp only [Group.runs]
      rw [c1]
      exact i1
    · have := i3 z hz
      cases o with
      | notify x c =>
        have c1 : (g.router.link x c).bind (fun r => Group.drop { g with router := r } (g.router.findBySource x)) = some g1 := c1
        obtain ⟨r, _, c3⟩ := Option.bind_eq_some_iff.1 c1
        exact drop_sub c3 z this
      | halt x =>
        have := drop_sub c1 z this
        exact this
      | packet x a z r => cases h1
      | ended z => cases h1

/-! ## Histories -/

/-- Invariant of the group and the reporter. -/
structure CI (code : List Nat → Nat) (d : Nat → Option Nat) (r : Recv) : Prop where
  gi : GI d r.grp
  rk : RK code d r.rep
  named : Named r.rep
  fresh : ∀ z ∈ r.grp.sessions, z < r.fresh

theorem ci_init (code : List Nat → Nat) (src : Nat) (cname : List Nat) (dest : Option Nat) (timeout : Int) : CI code (fun _ => none) (Recv.init src cname dest timeout) := by
  refine ⟨gi_init, ⟨⟨List.nodup_nil, List.nodup_nil, fun x hx => by cases hx⟩, fun x c hx => by cases hx⟩, fun x v hv => ?_, fun z hz => by cases hz⟩
  simp [view, Reporter.St.find, Recv.init, Reporter.St.init] at hv

theorem q_sayBye (s : Reporter.St) : Quiet s s.sayBye := by
  unfold Reporter.St.sayBye
  split_ifs
  · exact .same rfl rfl
  · exact .refl s

theorem q_resolve {s s' : Reporter.St} {ids : List Nat} (h : s.resolve ids = .ok s') : Quiet s s' := by
  unfold Reporter.St.resolve at h
  split_ifs at h
  · injection h with h; rw [← h]; exact .refl s
  · split at h
    · cases h
    · injection h with h; rw [← h]; exact .same rfl rfl

/-- One event. -/
theorem CI.step {code : List Nat → Nat} {d : Nat → Option Nat} {r : Recv} (h : CI code d r) {e : REv} (he : Conformant e) :
    r.step code e = .error .reporter ∨ ∃ r' d', r.step code e = .ok r' ∧ CI code d' r' := by
  cases e with
  | rtp x a rep =>
    right
    have hz : r.fresh ∉ r.grp.sessions := fun hc => Nat.lt_irrefl _ (h.fresh _ hc)
    obtain ⟨g', h1, h2, _⟩ := h.gi.packet (x := x) (a := a) (rep := rep) hz
    refine ⟨{ r with grp := g', fresh := r.fresh + 1 }, d, ?_, ⟨h2, h.rk, h.named, fun z hz => ?_⟩⟩
    · simp only [Recv.step]
      rw [h1]
    · simp only at hz ⊢
      have hsub : ∀ z ∈ g'.sessions, z ∈ r.grp.sessions ∨ z = r.fresh := by
        unfold Group.packet at h1
        split at h1
        · injection h1 with h1; rw [← h1]; exact fun z hz => Or.inl hz
        · split_ifs at h1
          · injection h1 with h1; rw [← h1]; exact fun z hz => Or.inl hz
          · obtain ⟨q, _, h3⟩ := Option.bind_eq_some_iff.1 h1
            split at h3
            · injection h3 with h3
              rw [← h3]
              intro z hz
              rcases List.mem_append.1 hz with hz | hz
              · exact Or.inl hz
              · exact Or.inr (List.mem_singleton.1 hz)
            · injection h3 with h3; rw [← h3]; exact fun z hz => Or.inl hz
      rcases hsub z hz with h3 | h3
      · have := h.fresh z h3; omega
      · omega
  | rtcp now p addr evs =>
    simp only [Recv.step]
    by_cases hnow : now ≤ 0
    · rw [if_pos hnow]; exact Or.inl rfl
    rw [if_neg hnow]
    have q := q_begin r.rep now p
    obtain ⟨s0, hs0⟩ : ∃ s0, s0 = r.rep.begin now p := ⟨_, rfl⟩
    rw [← hs0] at q ⊢
    obtain ⟨s1, hs1⟩ : ∃ s1, s1 = evs.foldl (Reporter.St.on addr) s0 := ⟨_, rfl⟩
    rw [← hs1]
    have k0 := h.rk.quiet q
    have k1 := evs_know (code := code) addr evs k0
    rw [← hs1] at k1
    have n1 : Named s1 := by rw [hs1]; exact evs_named k0 (h.named.quiet q) he
    cases hx : s1.expire with
    | abort => exact Or.inl rfl
    | ub => exact Or.inl rfl
    | hang => exact Or.inl rfl
    | ok s2 =>
      right
      simp only
      obtain ⟨k2, n2⟩ := timeouts_know s1.lru.length k1 hx
      obtain ⟨o3, k3⟩ := noteOps_orderly (n2 n1) k2
      have ho : orderly d (evOps addr s0 evs ++ timeoutOps s1.lru.length s1 ++ noteOps code s2) := by
        rw [orderly_append, orderly_append]
        refine ⟨⟨orderly_halts _ _ (evOps_halts addr evs s0), orderly_halts _ _ (timeoutOps_halts _ _)⟩, ?_⟩
        rw [List.foldl_append]
        exact o3
      obtain ⟨g', r1, r2, r3⟩ := orderly_runs h.gi ho
      refine ⟨{ r with rep := s2, grp := g' }, _, ?_, ⟨r2, ?_, n2 n1, fun z hz => h.fresh z (r3 z hz)⟩⟩
      · unfold Recv.give
        rw [r1]
      · rw [List.foldl_append, List.foldl_append]
        exact k3
  | report now p ids =>
    simp only [Recv.step]
    by_cases hnow : now ≤ 0
    · rw [if_pos hnow]; exact Or.inl rfl
    rw [if_neg hnow]
    have q := q_begin r.rep now p
    cases hr : (r.rep.begin now p).sayBye.resolve ids with
    | abort => exact Or.inl rfl
    | ub => exact Or.inl rfl
    | hang => exact Or.inl rfl
    | ok s1 =>
      simp only
      have q1 : Quiet r.rep s1 := .trans q (.trans (q_sayBye _) (q_resolve hr))
      cases hx : s1.expire with
      | abort => exact Or.inl rfl
      | ub => exact Or.inl rfl
      | hang => exact Or.inl rfl
      | ok s2 =>
        right
        simp only
        obtain ⟨k2, n2⟩ := timeouts_know s1.lru.length (h.rk.quiet q1) hx
        obtain ⟨g', r1, r2, r3⟩ := orderly_runs h.gi (orderly_halts d _ (timeoutOps_halts s1.lru.length s1))
        refine ⟨{ r with rep := s2, grp := g' }, _, ?_, ⟨r2, k2, n2 (h.named.quiet q1), fun z hz => h.fresh z (r3 z hz)⟩⟩
        unfold Recv.give
        rw [r1]
  | ended z =>
    right
    simp only [Recv.step]
    by_cases hz : z ∈ r.grp.sessions
    · rw [if_pos hz]
      obtain ⟨g', h1, h2, h3⟩ := h.gi.removeSession hz
      rw [h1]
      exact ⟨_, d, rfl, ⟨h2, h.rk, h.named, fun y hy => h.fresh y ((h3 y).1 hy).1⟩⟩
    · rw [if_neg hz]
      exact ⟨r, d, rfl, h⟩

theorem CI.runs {code : List Nat → Nat} {d : Nat → Option Nat} {r : Recv} (h : CI code d r) {l : List REv} (hl : ∀ e ∈ l, Conformant e) :
    r.runs code l = .error .reporter ∨ ∃ r' d', r.runs code l = .ok r' ∧ CI code d' r' := by
  induction l generalizing d r with
  | nil => exact Or.inr ⟨r, d, rfl, h⟩
  | cons e es ih =>
    simp only [Recv.runs]
    rcases h.step (hl e List.mem_cons_self) with h1 | ⟨r1, d1, h1, h2⟩
    · rw [h1]; exact Or.inl rfl
    · rw [h1]
      exact ih h2 fun e he => hl e (List.mem_cons_of_mem _ he)

end Verif.SessionRouter
