/-!
# Shared pointers: model

Model of `SharedPtr` (`src/internal_modules/roc_core/shared_ptr.h`) to objects derived from `RefCounted` (roc_core/ref_counted.h, ref_counted_impl.cpp).

Shared pointers live in numbered cells: variables, or members of objects (`own c` is the object that contains cell `c`). Members are destroyed with their
object, in some order.

Simplified: one thread (counters are atomic in the code, ref_counted_impl.h:44); cells without a pointer and with a null pointer are the same.
-/

namespace Verif.SharedPtr

/-- `MaxCounter` (roc_core/ref_counted_impl.h:42). -/
def maxCounter : Int := 100000

/-- Pointers that are not null, as cell and object; counters (roc_core/ref_counted_impl.h:44); objects that are constructed and not destroyed. -/
structure St where
  ptrs : List (Nat × Nat)
  cnt : Nat → Int
  live : Nat → Bool

/-- Nothing exists (before any constructor, roc_core/shared_ptr.h:37-47). -/
def St.init : St := ⟨[], fun _ => 0, fun _ => false⟩

/-- `get` (roc_core/shared_ptr.h:93-95). -/
def St.get (s : St) (c : Nat) : Option Nat := (s.ptrs.find? fun x => decide (x.1 = c)).map (·.2)

/-- Function update, for assignments to members (roc_core/ref_counted_impl.cpp:15-64). -/
def upd {α : Type} (f : Nat → α) (o : Nat) (v : α) : Nat → α := fun k => if k = o then v else f k

/-- Outcome: state; access to an object that is destroyed; `roc_panic` (roc_core/ref_counted_impl.cpp:44-48, 57-61). -/
inductive Out where
  | ok (s : St)
  | uaf
  | panic

/-- `acquire_` (roc_core/shared_ptr.h:119-123) in cell `c` for the object `o`: `incref` (ref_counted_impl.cpp:41-52). -/
def St.acquire (s : St) (c o : Nat) : Out :=
  if s.live o = false then .uaf
  else if s.cnt o + 1 < 0 ∨ s.cnt o + 1 > maxCounter then .panic
  else .ok { s with ptrs := s.ptrs ++ [(c, o)], cnt := upd s.cnt o (s.cnt o + 1) }

/-- `release_` (roc_core/shared_ptr.h:125-129) in the cells of a list: `decref` (ref_counted.h:58-65, ref_counted_impl.cpp:54-64); when the counter
becomes zero the object is destroyed (ref_counted_impl.cpp:19-26), with its members first in the list. -/
def drop (own : Nat → Option Nat) (s : St) : List Nat → Out
  | [] => .ok s
  | c :: l =>
    match h : s.ptrs.find? fun x => decide (x.1 = c) with
    | none => drop own s l
    | some x =>
      if s.live x.2 = false then .uaf
      else if s.cnt x.2 - 1 < 0 ∨ s.cnt x.2 - 1 > maxCounter then .panic
      else if s.cnt x.2 - 1 = 0 then
        drop own ⟨s.ptrs.erase x, upd s.cnt x.2 (-1), upd s.live x.2 false⟩
          (((s.ptrs.erase x).filter fun y => decide (own y.1 = some x.2)).map (·.1) ++ l)
      else drop own ⟨s.ptrs.erase x, upd s.cnt x.2 (s.cnt x.2 - 1), s.live⟩ l
termination_by l => (s.ptrs.length, l.length)
decreasing_by
  · exact Prod.Lex.right _ (by simp)
  · apply Prod.Lex.left
    have := List.mem_of_find?_eq_some h
    have h1 := List.length_erase_of_mem this
    have h2 := List.length_pos_of_mem this
    omega
  · apply Prod.Lex.left
    have := List.mem_of_find?_eq_some h
    have h1 := List.length_erase_of_mem this
    have h2 := List.length_pos_of_mem this
    omega

/-- Operations: construction from a new object (roc_core/shared_ptr.h:44-47); copy construction (:52-55); destruction (:68-70); assignment (:73-90) from
another pointer; `reset()` (:84). -/
inductive Op where
  | create (c o : Nat)
  | copy (c d : Nat)
  | destroy (c : Nat)
  | assign (c d : Nat)
  | reset (c : Nat)

/-- The memory of the cell exists (roc_core/shared_ptr.h:131): it is a variable, or its object is not destroyed. -/
def St.access (own : Nat → Option Nat) (s : St) (c : Nat) : Bool :=
  match own c with
  | none => true
  | some p => s.live p

/-- `reset(T*)` (roc_core/shared_ptr.h:84-90); the cell is written after `release_`. -/
def St.resetTo (own : Nat → Option Nat) (s : St) (c : Nat) (v : Option Nat) : Out :=
  if v = s.get c then .ok s
  else match drop own s [c] with
    | .ok s =>
      if s.access own c = false then .uaf
      else match v with
        | none => .ok s
        | some o => s.acquire c o
    | e => e

/-- Can a program do the operation: cells exist, a pointer is constructed where there is none, a new object is not one that exists (rules of the language
for roc_core/shared_ptr.h:37-90). -/
def Op.legal (own : Nat → Option Nat) (s : St) : Op → Bool
  | .create c o => s.access own c && (s.get c).isNone && !s.live o
  | .copy c d => s.access own c && s.access own d && (s.get c).isNone
  | .destroy c => s.access own c && decide (own c = none)
  | .assign c d => s.access own c && s.access own d
  | .reset c => s.access own c

/-- One operation (roc_core/shared_ptr.h:44-90). -/
def St.step (own : Nat → Option Nat) (s : St) : Op → Out
  | .create c o => St.acquire { s with cnt := upd s.cnt o 0, live := upd s.live o true } c o
  | .copy c d => match s.get d with
    | none => .ok s
    | some o => s.acquire c o
  | .destroy c => drop own s [c]
  | .assign c d => s.resetTo own c (s.get d)
  | .reset c => s.resetTo own c none

/-- A history of operations; those that a program cannot do are skipped (roc_core/shared_ptr.h:44-90). -/
def run (own : Nat → Option Nat) : St → List Op → Out
  | s, [] => .ok s
  | s, o :: l =>
    if o.legal own s then
      match s.step own o with
      | .ok s => run own s l
      | e => e
    else run own s l

end Verif.SharedPtr
