import Verif.ReceiverRefresh.Props

/-!
# C117: queries of the metrics of a receiver
-/

namespace Verif.ReceiverRefresh

variable {α : Type}

theorem inner_length (zero : α) (buf : List α) (n : Nat) : (inner zero buf (some n)).length = n := by
  show (buf.take n ++ List.replicate (n - buf.length) zero).length = n
  rw [List.length_append, List.length_take, List.length_replicate]
  omega

theorem query_some (zero : α) (met : Session → α) (buf : List α) (l : List Session) (slot : Bool) (arr : Option (List α)) (n : Nat) :
    ∃ b, userQuery zero met buf l slot arr (some n) = some ⟨if slot then some l.length else none,
      arr.map fun a => (l.map met).take n ++ a.drop (min n l.length), some (min n l.length), b⟩ := by
  have hl := inner_length zero buf n
  unfold userQuery
  rw [if_neg (by simp)]
  by_cases hn : n = 0
  · subst hn
    have hd : dataOf (inner zero buf (some 0)) = none := if_neg (by rw [hl]; decide)
    rw [hd]
    refine ⟨inner zero buf (some 0), ?_⟩
    cases arr with
    | none => simp [participants]
    | some a => simp [participants]
  · have hd : dataOf (inner zero buf (some n)) = some (inner zero buf (some n)) := if_pos (by rw [hl]; exact hn)
    rw [hd]
    refine ⟨(l.map met).take (min n l.length) ++ (inner zero buf (some n)).drop (min n l.length), ?_⟩
    cases arr with
    | none => rfl
    | some a =>
      have ht : (((l.map met).take (min n l.length)) ++ (inner zero buf (some n)).drop (min n l.length)).take (min n l.length) = (l.map met).take n := by
        rw [List.take_append_of_le_length (by rw [List.length_take, List.length_map]; omega), List.take_take, Nat.min_self]
        rcases Nat.le_total n l.length with h | h
        · rw [Nat.min_eq_left h]
        · rw [Nat.min_eq_right h, List.take_of_length_le (by rw [List.length_map]; omega), List.take_of_length_le (by rw [List.length_map]; omega)]
      show some (Answer.mk _ (some (_ ++ a.drop (min n l.length))) _ _) = _
      rw [show (Option.getD (participants met l (some (inner zero buf (some n))) (some n)).1 (inner zero buf (some n))).take (min n l.length) = (l.map met).take n
        from ht]
      rfl

/-- **C117** (query). `roc_receiver_query` with an array of `n` elements writes the metrics of the first sessions of the slot, as many as fit, in order; the other
elements stay as they were; `conn_metrics_count` becomes the number of elements written, `connection_count` is the number of sessions in any case. What earlier
calls left in the buffer of the receiver does not matter. -/
theorem C117_query (zero : α) (met : Session → α) (buf : List α) (l : List Session) (slot : Bool) (a : List α) (n : Nat) (hn : a.length = n) :
    ∃ r, userQuery zero met buf l slot (some a) (some n) = some r ∧ r.count = some (min n l.length) ∧ r.connections = (if slot then some l.length else none) ∧
      ∃ b, r.arr = some b ∧ b.length = n ∧ (∀ i, i < min n l.length → b[i]? = (l[i]?).map met) ∧ ∀ i, min n l.length ≤ i → b[i]? = a[i]? := by
  obtain ⟨b, e⟩ := query_some zero met buf l slot (some a) n
  have hlen : ((l.map met).take n).length = min n l.length := by rw [List.length_take, List.length_map]
  refine ⟨_, e, rfl, rfl, (l.map met).take n ++ a.drop (min n l.length), rfl, ?_, ?_, ?_⟩
  · rw [List.length_append, hlen, List.length_drop, hn]; omega
  · intro i hi
    rw [List.getElem?_append_left (by omega), List.getElem?_take_of_lt (by omega), List.getElem?_map]
  · intro i hi
    rw [List.getElem?_append_right (by omega), List.getElem?_drop, hlen]
    congr 1
    omega

example : ∃ r, userQuery 0 (fun s => s.id) [7, 7, 7] [⟨4, true, Route.init, Route.init, Meter.init, Meter.init⟩, ⟨6, false, Route.init, Route.init, Meter.init,
    Meter.init⟩] true (some [1, 1, 1]) (some 3) = some r ∧ r.arr = some [4, 6, 1] ∧ r.count = some 2 := ⟨_, rfl, rfl, rfl⟩

/-- **C117** (invalid query). An array without a count is refused, nothing else is: with neither array nor count only `connection_count` is written. -/
theorem C117_query_error (zero : α) (met : Session → α) (buf : List α) (l : List Session) (slot : Bool) (arr : Option (List α)) (count : Option Nat) :
    (userQuery zero met buf l slot arr count = none ↔ arr.isSome ∧ count.isNone) ∧
      ∃ r, userQuery zero met buf l slot none none = some r ∧ r.arr = none ∧ r.count = none ∧ r.connections = if slot then some l.length else none := by
  constructor
  · cases count with
    | some n =>
      obtain ⟨b, e⟩ := query_some zero met buf l slot arr n
      rw [e]; simp
    | none =>
      cases arr with
      | some a => simp [userQuery]
      | none => simp [userQuery]
  · refine ⟨_, rfl, rfl, ?_, rfl⟩
    show (participants met l (dataOf (inner zero buf none)) none).2 = none
    cases dataOf (inner zero buf none) <;> rfl

example : userQuery 0 (fun s => s.id) [] [] true (some [1]) none = none := rfl

/-- **C117 fails** (query without array). If `conn_metrics` is null and `conn_metrics_count` points to a number, that number is replaced by the number of sessions
(at most its old value), although no elements were written. -/
theorem C117_query_null_fails (zero : α) (met : Session → α) (buf : List α) (l : List Session) (slot : Bool) (n : Nat) (hn : 0 < n) (hl : l ≠ []) :
    ∃ r m, userQuery zero met buf l slot none (some n) = some r ∧ r.arr = none ∧ r.count = some m ∧ 0 < m := by
  obtain ⟨b, e⟩ := query_some zero met buf l slot none n
  refine ⟨_, min n l.length, e, rfl, rfl, ?_⟩
  have := List.length_pos_iff.mpr hl
  omega

example : [(⟨4, true, Route.init, Route.init, Meter.init, Meter.init⟩ : Session)] ≠ [] := List.cons_ne_nil _ _

end Verif.ReceiverRefresh
