import Verif.DynArray.Model

/-!
# Dynamic array: what a user expects

The array is a list. An operation that needs memory may fail, and then nothing changes.
-/

namespace Verif.DynArray

variable {α : Type}

/-- Operations of a user (array.h:78-266). The flag of an operation is the answer of the arena. `push` takes a value or one of the elements. -/
inductive Op (α : Type) where
  | push (fit : Bool) (v : Arg α)
  | pop
  | resize (fit : Bool) (n : Nat)
  | clear
  | grow (fit : Bool) (n : Nat)
  | growExp (fit : Bool) (n : Nat)
  | set (i : Nat) (x : α)
  | get (i : Nat)
  | front
  | back

/-- What an operation returns (array.h:98, 154, 183, 217, 258). -/
inductive Ret (α : Type) where
  | unit
  | ok (b : Bool)
  | val (x : α)
deriving DecidableEq

/-- One operation (array.h:78-266). -/
def Arr.step (p : Par α) (a : Arr α) : Op α → Except Err (Arr α × Ret α)
  | .push f v => (a.push p f v).map fun r => (r.1, .ok r.2)
  | .pop => a.pop.map fun r => (r, .unit)
  | .resize f n => (a.resize p f n).map fun r => (r.1, .ok r.2)
  | .clear => (a.resize p false 0).map fun r => (r.1, .unit)
  | .grow f n => (a.grow p f n).map fun r => (r.1, .ok r.2)
  | .growExp f n => (a.growExp p f n).map fun r => (r.1, .ok r.2)
  | .set i x => (a.put i x).map fun r => (r, .unit)
  | .get i => (a.get i).map fun x => (a, .val x)
  | .front => a.front.map fun x => (a, .val x)
  | .back => a.back.map fun x => (a, .val x)

/-- A sequence of operations (array.h:78-266). -/
def Arr.run (p : Par α) : Arr α → List (Op α) → Except Err (Arr α × List (Ret α))
  | a, [] => .ok (a, [])
  | a, o :: os =>
    match a.step p o with
    | .error e => .error e
    | .ok (b, r) =>
      match b.run p os with
      | .error e => .error e
      | .ok (c, rs) => .ok (c, r :: rs)

/-- The elements, in order: what `operator[]` gives for the indices below `size()` (array.h:66, 98). -/
def Arr.elems (a : Arr α) : List (Except Err α) := (List.range a.size).map fun i => a.get i

/-- The same operation on a list. `done`: the operation that may need memory succeeded. -/
def listStep (dflt : α) (l : List α) : Op α → Bool → Option (List α × Ret α)
  | .push _ (.val x), done => some (if done then l ++ [x] else l, .ok done)
  | .push _ (.elem i), done => l[i]?.map fun x => (if done then l ++ [x] else l, .ok done)
  | .pop, _ => if l = [] then none else some (l.dropLast, .unit)
  | .resize _ n, done => some (if done then l.take n ++ List.replicate (n - l.length) dflt else l, .ok done)
  | .clear, _ => some ([], .unit)
  | .grow _ _, done => some (l, .ok done)
  | .growExp _ _, done => some (l, .ok done)
  | .set i x, _ => if i < l.length then some (l.set i x, .unit) else none
  | .get i, _ => l[i]?.map fun x => (l, .val x)
  | .front, _ => l.head?.map fun x => (l, .val x)
  | .back, _ => l.getLast?.map fun x => (l, .val x)

/-- The number of elements that an operation asks for is small enough: its size in bytes (twice the size for an exponential growth) is a `size_t`;
`push_back` is not called with a reference to an element. -/
def Small (p : Par α) (size : Nat) : Op α → Prop
  | .push _ (.val _) => 2 * (size + 1) * p.sz < M
  | .push _ (.elem _) => False
  | .resize _ n => n * p.sz < M
  | .grow _ n => n * p.sz < M
  | .growExp _ n => 2 * n * p.sz < M
  | _ => True

/-- Every operation of the sequence is small at the time when it is made. -/
def AllSmall (p : Par α) : Arr α → List (Op α) → Prop
  | _, [] => True
  | a, o :: os => Small p a.size o ∧ ∀ b r, a.step p o = .ok (b, r) → AllSmall p b os

/-- A list history: each operation is done on the list that the one before left; an operation fails only if the arena refuses. -/
def ListRun (dflt : α) : List α → List (Op α) → List (Ret α) → List α → Prop
  | l, [], rs, l' => rs = [] ∧ l' = l
  | l, o :: os, rs, l' => ∃ done r rs' m, rs = r :: rs' ∧ listStep dflt l o done = some (m, r) ∧ ListRun dflt m os rs' l' ∧
      (done = false → (∃ v, o = .push false v) ∨ (∃ n, o = .resize false n) ∨ (∃ n, o = .grow false n) ∨ ∃ n, o = .growExp false n)

/-- Operation of a sequence that is not defined on a list (an element that does not exist). -/
def Bad (l : List α) : Op α → Prop
  | .pop => l = []
  | .set i _ => l.length ≤ i
  | .get i => l.length ≤ i
  | .front => l = []
  | .back => l = []
  | _ => False

end Verif.DynArray
