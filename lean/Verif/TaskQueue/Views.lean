import Verif.TaskQueue.Lemmas

/-! Preservation of the invariant of one task, by kind of change. -/

namespace Verif.TaskQueue

variable {k : Task} {r s p x : Bool} {nS nD : Nat} {rq : Option Int} {ow pe rs : Bool}

macro "view_tac" h:term : tactic =>
  `(tactic| (have h' := $h; obtain ⟨a1, a2, a3, a4, a5, a6, a7, a8, a9, a10, a11, a12, a13, a14, a15, a16, a17, a18, a19, a20, a21, a22⟩ := h'
             constructor <;> simp only [Task.flagsOk] at * <;> grind))

theorem v_sched_keep (h : TInv ⟨k, r, s, p, x, nS, nD, rq, ow, pe, rs⟩) {dl : Int} (hd : 0 ≤ dl)
    (hk : k.paused = true ∨ k.st = .ready) :
    TInv ⟨{ k with exec := true, renDl := dl, renVer := k.renVer + 1 }, r, s, p, x, nS + 1, nD, some dl, true, true, rs⟩ := by
  view_tac h

theorem v_sched_push (h : TInv ⟨k, r, s, p, x, nS, nD, rq, ow, pe, rs⟩) {dl : Int} (hd : 0 ≤ dl)
    (hp : k.paused = false) (hk : k.st ≠ .ready) :
    TInv ⟨{ k with exec := true, renDl := dl, renVer := k.renVer + 1, st := .ready }, true, s, p, x, nS + 1, nD, some dl, true, true, rs⟩ := by
  view_tac h

theorem v_sched_inplace (h : TInv ⟨k, r, s, p, false, nS, nD, rq, ow, pe, rs⟩) {dl : Int} (hd : 0 < dl)
    (hp : k.paused = false) (hk : k.st ≠ .ready) :
    TInv ⟨{ k with exec := true, renDl := dl, renVer := k.renVer + 1, st := .sleeping, effDl := dl, effVer := k.renVer + 1 },
      r, true, false, false, nS + 1, nD, some dl, true, true, rs⟩ := by
  view_tac h

theorem v_cancel_keep (h : TInv ⟨k, r, s, p, x, nS, nD, rq, ow, pe, rs⟩) (hk : k.st ≠ .sleeping) :
    TInv ⟨{ k with renDl := -1, renVer := k.renVer + 1 }, r, s, p, x, nS, nD, some (-1), ow, pe, rs⟩ := by
  view_tac h

theorem v_cancel_push (h : TInv ⟨k, r, s, p, x, nS, nD, rq, ow, pe, rs⟩) (hk : k.st = .sleeping) :
    TInv ⟨{ k with renDl := -1, renVer := k.renVer + 1, st := .ready }, true, s, p, x, nS, nD, some (-1), ow, pe, rs⟩ := by
  view_tac h

theorem v_cancel_inplace (h : TInv ⟨k, r, s, p, false, nS, nD, rq, ow, pe, rs⟩) (hk : k.st = .sleeping) :
    TInv ⟨{ k with renDl := -1, renVer := k.renVer + 1, st := .completed, succ := false, paused := false, resumed := false, cancelled := true, effDl := -1, effVer := k.renVer + 1 },
      r, false, false, false, nS, nD + 1, some (-1), false, false, false⟩ := by
  view_tac h

theorem v_resume_ready (h : TInv ⟨k, r, s, p, x, nS, nD, rq, ow, pe, rs⟩) (hk : k.st = .ready) :
    TInv ⟨{ k with resumed := true }, r, s, p, x, nS, nD, rq, ow, pe, true⟩ := by
  view_tac h

theorem v_resume_push (h : TInv ⟨k, r, s, p, x, nS, nD, rq, ow, pe, rs⟩) (hk : k.st ≠ .ready)
    (ha : k.paused = true ∨ x = true) :
    TInv ⟨{ k with resumed := true, st := .ready }, true, s, p, x, nS, nD, rq, ow, pe, true⟩ := by
  view_tac h

theorem v_pop_cancel (h : TInv ⟨k, true, s, p, false, nS, nD, rq, ow, pe, rs⟩) (hd : k.renDl < 0) :
    TInv ⟨{ k with st := .completed, succ := false, paused := false, resumed := false, cancelled := true, effDl := -1, effVer := k.renVer },
      false, false, false, false, nS, nD + 1, rq, false, false, false⟩ := by
  view_tac h

theorem v_pop_paused (h : TInv ⟨k, true, s, p, false, nS, nD, rq, ow, pe, rs⟩) (hd : 0 ≤ k.renDl) (hp : k.paused = true)
    (hr : k.resumed = false) :
    TInv ⟨{ k with st := .sleeping }, false, s, p, false, nS, nD, rq, ow, pe, rs⟩ := by
  view_tac h

theorem v_pop_resumed (h : TInv ⟨k, true, s, p, false, nS, nD, rq, ow, pe, rs⟩) (hd : 0 ≤ k.renDl) (hp : k.paused = true) :
    TInv ⟨{ k with st := .processing, succ := false, cancelled := false, resumed := false }, false, s, p, true, nS, nD, rq, ow, pe, false⟩ := by
  view_tac h

theorem v_pop_now (h : TInv ⟨k, true, s, p, false, nS, nD, rq, ow, pe, rs⟩) (hd : k.renDl = 0) (hp : k.paused = false) :
    TInv ⟨{ k with st := .processing, effDl := 0, effVer := k.renVer, succ := false, cancelled := false, resumed := false },
      false, false, false, true, nS, nD, rq, ow, false, false⟩ := by
  view_tac h

theorem v_pop_later (h : TInv ⟨k, true, s, p, false, nS, nD, rq, ow, pe, rs⟩) (hd : 0 < k.renDl) (hp : k.paused = false) :
    TInv ⟨{ k with st := .sleeping, effDl := k.renDl, effVer := k.renVer },
      false, true, false, false, nS, nD, rq, ow, pe, rs⟩ := by
  view_tac h

theorem v_slp_start (h : TInv ⟨k, r, true, p, false, nS, nD, rq, ow, pe, rs⟩) (hk : k.st = .sleeping) :
    TInv ⟨{ k with st := .processing, succ := false, cancelled := false, resumed := false },
      r, false, p, true, nS, nD, rq, ow, false, false⟩ := by
  view_tac h

theorem v_slp_drop (h : TInv ⟨k, r, true, p, false, nS, nD, rq, ow, pe, rs⟩) (hk : k.st ≠ .sleeping) :
    TInv ⟨k, r, false, p, false, nS, nD, rq, ow, pe, rs⟩ := by
  view_tac h

theorem v_pause (h : TInv ⟨k, r, s, false, true, nS, nD, rq, ow, pe, rs⟩) :
    TInv ⟨{ k with paused := true, st := if k.st = .processing then .sleeping else k.st }, r, s, true, false, nS, nD, rq, ow, pe, rs⟩ := by
  view_tac h

theorem v_again_push (h : TInv ⟨k, r, s, p, true, nS, nD, rq, ow, pe, rs⟩) (hk : k.st = .processing) :
    TInv ⟨{ k with paused := false, st := .ready }, true, s, p, false, nS, nD, rq, ow, pe, rs⟩ := by
  view_tac h

theorem v_again_keep (h : TInv ⟨k, r, s, p, true, nS, nD, rq, ow, pe, rs⟩) (hk : k.st ≠ .processing) :
    TInv ⟨{ k with paused := false }, r, s, p, false, nS, nD, rq, ow, pe, rs⟩ := by
  view_tac h

theorem v_done (h : TInv ⟨k, r, s, p, true, nS, nD, rq, ow, pe, rs⟩) (hk : k.st = .processing) (b : Bool)
    (hr : ¬ (k.renVer ≠ k.effVer ∧ 0 ≤ k.renDl)) :
    TInv ⟨{ k with succ := b, paused := false, resumed := false, cancelled := false, st := .completed }, r, s, p, false, nS, nD + 1, rq, false, pe, false⟩ := by
  view_tac h

theorem v_done_push (h : TInv ⟨k, r, s, p, true, nS, nD, rq, ow, pe, rs⟩) (hk : k.st = .processing) (b : Bool)
    (hr : k.renVer ≠ k.effVer ∧ 0 ≤ k.renDl) :
    TInv ⟨{ k with succ := b, paused := false, resumed := false, cancelled := false, st := .ready }, true, s, p, false, nS, nD + 1, rq, false, pe, false⟩ := by
  view_tac h

theorem v_done_ready (h : TInv ⟨k, r, s, p, true, nS, nD, rq, ow, pe, rs⟩) (hk : k.st ≠ .processing) (hres : k.resumed = false) (b : Bool) :
    TInv ⟨{ k with succ := b, paused := false, resumed := false, cancelled := false }, r, s, p, false, nS, nD + 1, rq, false, pe, false⟩ := by
  view_tac h

end Verif.TaskQueue
