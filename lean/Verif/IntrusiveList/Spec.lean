import Verif.IntrusiveList.Model

/-! # Specification: a family of disjoint sequences of elements -/

namespace Verif.IntrusiveList

/-- Contents of every list, front first. -/
abbrev Abs := Nat → List Nat

/-- Insert `n` in front of the first occurrence of `b`. -/
def putBefore (n b : Nat) : List Nat → List Nat
  | [] => []
  | x :: xs => if x = b then n :: x :: xs else x :: putBefore n b xs

/-- Insert `n` after the first occurrence of `a`. -/
def putAfter (n a : Nat) : List Nat → List Nat
  | [] => []
  | x :: xs => if x = a then x :: n :: xs else x :: putAfter n a xs

/-- The element is in no list. -/
def Free (s : Abs) (n : Nat) : Prop := ∀ l, n ∉ s l

/-- The requirements of each call. -/
def Allowed (s : Abs) : Op → Prop
  | .pushBack _ n => Free s n
  | .pushFront _ n => Free s n
  | .insertBefore l n b => Free s n ∧ b ∈ s l
  | .insertAfter l n a => Free s n ∧ a ∈ s l
  | .popFront l => s l ≠ []
  | .popBack l => s l ≠ []
  | .remove l n => n ∈ s l

/-- Effect of each call. -/
def effect (s : Abs) : Op → Abs
  | .pushBack l n => upd s l (s l ++ [n])
  | .pushFront l n => upd s l (n :: s l)
  | .insertBefore l n b => upd s l (putBefore n b (s l))
  | .insertAfter l n a => upd s l (putAfter n a (s l))
  | .popFront l => upd s l (s l).tail
  | .popBack l => upd s l (s l).dropLast
  | .remove l n => upd s l ((s l).erase n)

/-- A history in which every call meets its requirements. -/
def AllowedRun (s : Abs) : List Op → Prop
  | [] => True
  | op :: ops => Allowed s op ∧ AllowedRun (effect s op) ops

/-- Effect of a history. -/
def effects (s : Abs) (ops : List Op) : Abs := ops.foldl effect s

end Verif.IntrusiveList
